import Verif.Proofs.Nsc
import Verif.Props.Server

/-!
# C67: a request made by a call into the secure world
-/

namespace WolfHsm.Props

open Nsc
open Utils (magicNative magicSwap)

variable {R : Type}

namespace NscDemo

/-- A little-endian client and the server of `SrvDemo`, which is big-endian; adm is logged in on context 0. -/
def cfg : Nsc.Cfg Unit := ⟨⟨1280, true⟩, SrvDemo.cfg, 0⟩

def start : World Unit := init cfg true ⟨false, none, none⟩ SrvDemo.dev

/-- What can be compared. -/
inductive Seen where
  | sent (rc : Rc) (kind : UInt16) (data : List UInt8) (ran : Option (UInt16 × List UInt8 × List UInt8))
  | got (rc : Rc) (kind : UInt16) (data : List UInt8)
  | gaveUp
  | restarted
  | changed
deriving DecidableEq

def seen {R : Type} : Obs R → Seen
  | .sent rc k d e => .sent rc k d (e.map fun e => (e.kind, e.req.data, e.resp))
  | .got g => .got g.rc g.kind g.payload
  | .gaveUp => .gaveUp
  | .restarted => .restarted
  | .changed _ => .changed

/-- Two echoes; in between a request while one is waited for, and a poll for nothing. -/
def talk : List (Ev Unit) :=
  [.poll none [] 0, .send 0x0105 0 [7, 8, 9] 0 [5] 0, .send 0x0105 0 [1] 0 [] 0, .poll none [3] 0, .send 0x0105 0 [1] 0 [] 0,
   .poll (some 0) [] 0, .send 0x0105 0 [2] 0 [] 0]

theorem talk_seen : (run cfg start talk).2.map seen =
    [.got .notready 0 [], .sent .ok 0x0105 [7, 8, 9] (some (0x0105, [7, 8, 9], [7, 8, 9])), .sent .requestPending 0x0105 [1] none,
     .got .ok 0x0105 [7, 8, 9], .sent .ok 0x0105 [1] (some (0x0105, [1], [1])), .got .bufferSize 0x0105 [],
     .sent .ok 0x0105 [2] (some (0x0105, [2], [2]))] := by decide +kernel

/-- A server that counts the requests it handles and answers with twenty bytes, and a client with packets for sixteen. -/
def small : Nsc.Cfg Nat where
  cli := ⟨16, true⟩
  srv := { SrvDemo.cfg with handler := fun _ _ _ _ m => ((.ok, List.replicate 20 7), (m.1, m.2 + 1)) }
  x := 0

def counting : Server.Dev Nat := ⟨SrvDemo.dev.auth, 0, SrvDemo.dev.ctx⟩

end NscDemo

/-- **C67.** Whatever calls are made, in any order: what is seen is a run of the observer's automaton `Next`.  Its transitions
say that a request reported as sent has been handled once, in that call, on the state the device was in; that a request
refused has not been handled, unless its response was too long; and that the client then receives that response, once. -/
theorem C67_refines (c : Nsc.Cfg R) (le : Bool) (timer : Timeout) (d : Server.Dev R) (h1 : c.cli.mtu < 65536)
    (h2 : c.srv.comm.mtu < 65536) (es : List (Ev R)) :
    ∃ t, Accepts c le (.none, d) (run c (init c le timer d) es).2 (t, (run c (init c le timer d) es).1.dev) := by
  obtain ⟨t, ha, -⟩ := inv_run h1 h2 es (inv_init c le timer d)
  exact ⟨t, ha⟩

/-- **C67.** A request reported as sent has been handled when the call returns: kind, bytes and length as asked, on the state
the device was in, and the device is now in the state after it. -/
theorem C67_sent (c : Nsc.Cfg R) (le : Bool) (timer : Timeout) (d0 : Server.Dev R) (h1 : c.cli.mtu < 65536)
    (h2 : c.srv.comm.mtu < 65536) (es : List (Ev R)) (pre post : List (Obs R)) (kind : UInt16) (data : List UInt8)
    (ran : Option (Exec R)) (hs : (run c (init c le timer d0) es).2 = pre ++ .sent .ok kind data ran :: post) :
    ∃ e, ran = some e ∧ e.Of c le kind data (devAfter d0 pre) := by
  obtain ⟨t, ha⟩ := C67_refines c le timer d0 h1 h2 es
  rw [hs] at ha
  obtain ⟨⟨t1, d1⟩, ha1, s2, hn, -⟩ := accepts_append ha
  have hd := accepts_dev _ ha1
  subst hd
  cases hn with
  | ask e hof => exact ⟨e, rfl, hof⟩
  | refused rc hrc => exact absurd rfl hrc
  | lost rc e hrc => exact absurd rfl hrc

/-- **C67.** A response the client receives is that of its last request, which the device has handled once; nothing has been
handled for this client since, and the response has not been received before. -/
theorem C67_reply (c : Nsc.Cfg R) (le : Bool) (timer : Timeout) (d0 : Server.Dev R) (h1 : c.cli.mtu < 65536)
    (h2 : c.srv.comm.mtu < 65536) (es : List (Ev R)) (pre post : List (Obs R)) (g : Comm.Got)
    (hs : (run c (init c le timer d0) es).2 = pre ++ .got g :: post) (hg : g.rc = .ok) :
    ∃ a data e b, pre = a ++ .sent .ok g.kind data (some e) :: b ∧ e.Of c le g.kind data (devAfter d0 a) ∧ g.payload = e.resp ∧
      ∀ o ∈ b, o.Idle := by
  obtain ⟨t, ha⟩ := C67_refines c le timer d0 h1 h2 es
  rw [hs] at ha
  obtain ⟨⟨t1, d1⟩, ha1, s2, hn, -⟩ := accepts_append ha
  cases hn with
  | small g h => rw [hg] at h; cases h
  | nothing g h => rw [hg] at h; cases h
  | reply g _ hk hp =>
    subst hk hp
    rcases waits_from pre ha1 with ⟨hx, -⟩ | ⟨a, data, e, b, rfl, he, hb⟩
    · cases hx
    · obtain ⟨e', h3, h4⟩ := C67_sent c le timer d0 h1 h2 es a (b ++ .got g :: post) g.kind data (some e) (by rw [hs]; simp)
      cases h3
      exact ⟨a, data, e, b, rfl, h4, he.symm, hb⟩

/-- **C67.** The device changes only by handling a request of this client, in its call, and by what others do. -/
theorem C67_device (c : Nsc.Cfg R) (le : Bool) (timer : Timeout) (d0 : Server.Dev R) (h1 : c.cli.mtu < 65536)
    (h2 : c.srv.comm.mtu < 65536) (es : List (Ev R)) :
    (run c (init c le timer d0) es).1.dev = devAfter d0 (run c (init c le timer d0) es).2 := by
  obtain ⟨t, ha⟩ := C67_refines c le timer d0 h1 h2 es
  exact accepts_dev _ ha

/-- **C67.** A request that is refused has not been handled.  Partial: the server's responses must fit the packets of both
sides; see `F_C67_done_but_refused`. -/
theorem C67_refused_partial (c : Nsc.Cfg R) (le : Bool) (timer : Timeout) (d0 : Server.Dev R) (h1 : c.cli.mtu < 65536)
    (h2 : c.srv.comm.mtu < 65536) (es : List (Ev R)) (pre post : List (Obs R)) (rc : Rc) (kind : UInt16) (data : List UInt8)
    (ran : Option (Exec R)) (hs : (run c (init c le timer d0) es).2 = pre ++ .sent rc kind data ran :: post) (hrc : rc ≠ .ok)
    (hfit : ∀ e : Exec R, e.Of c le kind data (devAfter d0 pre) → e.resp.length ≤ c.limit) : ran = none := by
  obtain ⟨t, ha⟩ := C67_refines c le timer d0 h1 h2 es
  rw [hs] at ha
  obtain ⟨⟨t1, d1⟩, ha1, s2, hn, -⟩ := accepts_append ha
  have hd := accepts_dev _ ha1
  subst hd
  cases hn with
  | ask e hof => exact absurd rfl hrc
  | refused => rfl
  | lost rc e _ hof hl =>
    have := hfit e hof
    omega

/-- **C67.** A request is completed by one call to send and one to receive: after any history after which nothing is waited
for and nothing has been given up since the last start, when the context is connected and the packets fit, the request is
handled once in the first call and the second returns the response.  Afterwards the same holds again. -/
theorem C67_completes_partial (c : Nsc.Cfg R) (le : Bool) (timer : Timeout) (d0 : Server.Dev R) (h1 : c.cli.mtu < 65536)
    (h2 : c.srv.comm.mtu < 65536) (es : List (Ev R)) (w : World R) (os : List (Obs R))
    (hw : run c (init c le timer d0) es = (w, os)) (hdone : w.client.pending = false)
    (hkept : ∀ a b, os = a ++ .gaveUp :: b → .restarted ∈ b) (hconn : (w.dev.ctx c.x).connected = true)
    (kind aux : UInt16) (data : List UInt8) (now : UInt64) (sjunk : List UInt8) (saux : UInt16) (junk : List UInt8) (now' : UInt64)
    (hl1 : data.length ≤ c.cli.dataLen) (hl2 : data.length ≤ c.srv.comm.dataLen)
    (hfit : ∀ e : Exec R, e.Of c le kind data w.dev → e.resp.length ≤ c.limit) :
    ∃ w' e g, run c w [.send kind aux data now sjunk saux, .poll none junk now'] = (w', [.sent .ok kind data (some e), .got g]) ∧
      e.Of c le kind data w.dev ∧ w'.dev = e.after ∧ g.rc = .ok ∧ g.kind = kind ∧ g.payload = e.resp ∧
      w'.client.pending = false := by
  obtain ⟨t, ha, hi⟩ := inv_run h1 h2 es (inv_init c le timer d0)
  rw [hw] at ha hi
  have ht : t = .none := by
    cases t with
    | none => rfl
    | waits => have := hi.holds.1; rw [hdone] at this; cases this
    | left =>
      obtain ⟨a, b, e, hb⟩ := left_from os ha (by simp)
      exact absurd rfl (hb _ (hkept a b e))
  subst ht
  obtain ⟨w', e, g, k1, k2, k3, k4, k5, k6, k7⟩ := completes h1 h2 hi hconn kind aux data now sjunk saux junk now' hl1 hl2 hfit
  exact ⟨w', e, g, k1, k2, k3, k4, k5, k6, k7.holds.1⟩

/-! ## What the code does beside -/

/-- **Finding.** A client that gives up on a response while it waits can make no request any more: the response stays in the
transport, `wh_CommClient_RecvResponse` does not fetch it because nothing is pending, and every send is refused because
it is there.  Until the client is closed and opened again nothing is handled and nothing received. -/
theorem F_C67_stuck (c : Nsc.Cfg R) (le : Bool) (timer : Timeout) (d0 : Server.Dev R) (h1 : c.cli.mtu < 65536)
    (h2 : c.srv.comm.mtu < 65536) (es : List (Ev R)) (hw : (run c (init c le timer d0) es).1.client.pending = true)
    (more : List (Ev R)) (hr : ∀ tm, .restart tm ∉ more) :
    ∀ o ∈ (run c (run c (init c le timer d0) es).1 (.abort :: more)).2, o.Stuck := by
  obtain ⟨t, -, hi⟩ := inv_run h1 h2 es (inv_init c le timer d0)
  generalize (run c (init c le timer d0) es).1 = w at hw hi
  cases t with
  | none => have := hi.holds.1; rw [hw] at this; cases this
  | left => have := hi.holds.1; rw [hw] at this; cases this
  | waits kind resp =>
    obtain ⟨t1, hn, h3⟩ := inv_step h1 h2 hi .abort
    have ht : t1 = .left := by
      have hp : (step c w .abort).1.client.pending = false := by
        simp only [step]
        unfold Comm.Client.abortPending Comm.Client.stopTimer
        rw [hi.ini]
        simp only [Bool.not_true, Bool.false_eq_true, if_false]
      cases t1 with
      | left => rfl
      | waits => have := h3.holds.1; rw [hp] at this; cases this
      | none =>
        have hx : (step c w .abort).2 = .gaveUp := rfl
        rw [hx] at hn
        generalize (step c w .abort).1.dev = d2 at hn
        cases hn
    subst ht
    obtain ⟨t2, ha, -⟩ := inv_run h1 h2 more h3
    have hno : ∀ o ∈ (run c (step c w .abort).1 more).2, o ≠ .restarted := by
      intro o ho e
      subst e
      obtain ⟨tm, hx⟩ := restarted_from more ho
      exact hr tm hx
    intro o ho
    simp only [run, List.mem_cons] at ho
    rcases ho with rfl | ho
    · trivial
    · exact left_stuck _ ha hno o ho

/-- **Finding.** When the response is too long for the client's packets the device has done what was asked, and the client
is told that its request was refused, as for wrong arguments; asking again does it again. -/
theorem F_C67_done_but_refused :
    (run NscDemo.small (init NscDemo.small true ⟨false, none, none⟩ NscDemo.counting)
        [.send 0x0204 0 [1] 0 [] 0, .send 0x0204 0 [1] 0 [] 0]).2.map NscDemo.seen =
      [.sent .badargs 0x0204 [1] (some (0x0204, [1], List.replicate 20 7)),
       .sent .badargs 0x0204 [1] (some (0x0204, [1], List.replicate 20 7))] ∧
    (run NscDemo.small (init NscDemo.small true ⟨false, none, none⟩ NscDemo.counting)
        [.send 0x0204 0 [1] 0 [] 0, .send 0x0204 0 [1] 0 [] 0]).1.dev.rest = 2 := by
  decide +kernel

/-! ## Concrete cases -/

open NscDemo in
/-- After a request the client waits; giving up leaves it stuck. -/
example : (run cfg start (talk.take 2)).1.client.pending = true ∧
    (run cfg (run cfg start (talk.take 2)).1 [.abort, .send 0x0105 0 [1] 0 [] 0, .poll none [] 0, .send 0x0105 0 [1] 0 [] 0]).2.map seen =
      [.gaveUp, .sent .notready 0x0105 [1] none, .got .notready 0 [], .sent .notready 0x0105 [1] none] := by
  decide +kernel

open NscDemo in
/-- After two requests, one whose response did not fit the caller's buffer, another one can be made. -/
example : (run cfg start (talk.take 6)).1.client.pending = false ∧ ((run cfg start (talk.take 6)).1.dev.ctx cfg.x).connected = true ∧
    (∀ a b, (run cfg start (talk.take 6)).2 = a ++ .gaveUp :: b → .restarted ∈ b) ∧
    ∀ d (e : Exec Unit), e.Of cfg true 0x0105 [4, 4] d → e.resp.length ≤ cfg.limit := by
  refine ⟨by decide +kernel, by decide +kernel, ?_, ?_⟩
  · intro a b h
    have hx : Seen.gaveUp ∉ (run cfg start (talk.take 6)).2.map seen := by decide +kernel
    exfalso
    apply hx
    rw [h]
    simp [seen]
  · intro d e he
    obtain ⟨-, -, -, -, hs, -, ha⟩ := he
    have := Server.answer_length SrvDemo.fits d cfg.x 0x0105 e.req (by rw [hs]; decide)
    have ha' : Server.answer SrvDemo.cfg d cfg.x 0x0105 e.req = (e.resp, e.after) := ha
    rw [ha'] at this
    have el : cfg.limit = SrvDemo.cfg.comm.dataLen := by decide
    rw [el]
    exact this

open NscDemo in
/-- A response that is received, and a request that is refused. -/
example : (∃ pre post g, (run cfg start talk).2 = pre ++ .got g :: post ∧ g.rc = .ok ∧ g.payload = [7, 8, 9]) ∧
    ∃ pre post, (run cfg start talk).2 = pre ++ .sent .requestPending 0x0105 [1] none :: post := by
  have h3 : Seen.sent .requestPending 0x0105 [1] none ∈ (run cfg start talk).2.map seen := by rw [talk_seen]; simp
  have h4 : Seen.got .ok 0x0105 [7, 8, 9] ∈ (run cfg start talk).2.map seen := by rw [talk_seen]; simp
  generalize (run cfg start talk).2 = os at h3 h4
  obtain ⟨o, ho, h3⟩ := List.mem_map.mp h3
  obtain ⟨p, hp, h4⟩ := List.mem_map.mp h4
  obtain ⟨a, b, e⟩ := List.append_of_mem ho
  obtain ⟨a', b', e'⟩ := List.append_of_mem hp
  refine ⟨?_, ?_⟩
  · cases p with
    | got g' =>
      simp only [seen, Seen.got.injEq] at h4
      exact ⟨a', b', g', e', h4.1, h4.2.2⟩
    | _ => simp only [seen, reduceCtorEq] at h4
  · cases o with
    | sent rc kk dd ran =>
      simp only [seen, Seen.sent.injEq, Option.map_eq_none_iff] at h3
      obtain ⟨rfl, rfl, rfl, rfl⟩ := h3
      exact ⟨a, b, e⟩
    | _ => simp only [seen, reduceCtorEq] at h3

end WolfHsm.Props

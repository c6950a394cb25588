import Verif.Proofs.StackLive
import Verif.Proofs.StackFair
import Verif.Proofs.DeviceInv
import Verif.Props.Server
import Verif.Props.Device
import Verif.Spec.ClientCrypto

/-!
# C65: a client gets what the device did with its request
-/

namespace WolfHsm.Props

open Stack

/-! ## A concrete stack -/

namespace StackDemo

/-- A little-endian client of the server of `SrvDemo`, which is big-endian, over buffers of 1304 bytes; adm is logged in
on context 0. -/
def cfg : Stack.Cfg Unit := ⟨⟨1280, true⟩, SrvDemo.cfg, ⟨1304, 1304⟩, 0⟩

def start : World Unit := init cfg true ⟨false, none, none⟩ SrvDemo.dev

/-- What can be compared. -/
inductive Seen where
  | asked (kind : UInt16) (data : List UInt8)
  | refused (rc : Rc)
  | got (rc : Rc) (kind : UInt16) (data : List UInt8)
  | gaveUp
  | ran (kind : UInt16) (body resp : List UInt8)
  | changed
deriving DecidableEq

def seen {R : Type} : Obs R → Seen
  | .asked k d => .asked k d
  | .refused rc => .refused rc
  | .got g => .got g.rc g.kind g.payload
  | .gaveUp => .gaveUp
  | .ran _ k r resp _ => .ran k r.data resp
  | .changed _ => .changed

/-- The client asks for an echo and polls at once; the server handles it while the client asks for more; then the
response comes. -/
def talk : List (Ev Unit) :=
  [.send 0x0105 0 [7, 8, 9] 0] ++ List.replicate 30 .cStep ++ [.poll none [] 0] ++ List.replicate 30 .cStep ++
  [.serve, .send 0x0105 0 [1] 0] ++ List.replicate 30 (.sStep [5, 5] 0) ++ [.poll none [] 0] ++ List.replicate 30 .cStep ++
  [.send 0x0105 1 [] 0] ++ List.replicate 30 .cStep ++ [.serve] ++ List.replicate 30 (.sStep [] 3) ++ [.poll none [6] 0] ++
  List.replicate 30 .cStep

theorem talk_seen : (run cfg start talk).2.map seen =
    [.asked 0x0105 [7, 8, 9], .got .notready 0 [], .refused .requestPending, .ran 0x0105 [7, 8, 9] [7, 8, 9],
     .got .ok 0x0105 [7, 8, 9], .asked 0x0105 [], .ran 0x0105 [] [], .got .ok 0x0105 []] := by decide +kernel

theorem fits : Server.Fits cfg.srv := SrvDemo.fits

/-- A server that counts the requests it handles, over a response buffer of 24 bytes. -/
def small : Stack.Cfg Nat where
  cli := ⟨1280, true⟩
  srv := { SrvDemo.cfg with handler := fun _ _ _ r m => ((.ok, r.data), (m.1, m.2 + 1)) }
  mem := ⟨1304, 24⟩
  x := 0

def counting : Server.Dev Nat := ⟨SrvDemo.dev.auth, 0, SrvDemo.dev.ctx⟩

/-- A request of nine bytes, whose response is one byte more than the buffer takes; the server polls twice; the client
polls. -/
def bigger : List (Ev Nat) :=
  [.send 0x0204 0 (List.replicate 9 7) 0] ++ List.replicate 30 .cStep ++ [.serve] ++ List.replicate 30 (.sStep [] 0) ++
  [.serve] ++ List.replicate 30 (.sStep [] 0) ++ [.poll none [] 0] ++ List.replicate 30 .cStep

/-- A whole device, on which adm is logged in on context 0; a request of its crypto group to make a key. -/
def whole : Stack.Cfg (Device.Rest Unit) := ⟨⟨1280, true⟩, DevDemo.cfg.server, ⟨1304, 1304⟩, 0⟩
def ready : Device.Dev Unit := Device.run DevDemo.cfg DevDemo.dev DevDemo.start
def make : List (Ev (Device.Rest Unit)) :=
  [.send 0x0403 0 CryptoMsgDemo.gen 0] ++ List.replicate 200 .cStep ++ [.serve] ++ List.replicate 200 (.sStep [] 0) ++
  [.poll none [] 0] ++ List.replicate 200 .cStep

/-- A request of 600 bytes to a server with packets of 510 bytes; the client gives up and asks again. -/
def long : List (Ev Unit) :=
  [.send 0x0105 0 (List.replicate 600 7) 0] ++ List.replicate 700 .cStep ++ [.serve] ++ List.replicate 700 (.sStep [] 0) ++
  [.abort, .send 0x0105 0 [] 0] ++ List.replicate 30 .cStep

/-- A server with shorter packets than its client. -/
def short : Stack.Cfg Unit := ⟨⟨1280, true⟩, { SrvDemo.cfg with comm := ⟨510, true⟩ }, ⟨1304, 1304⟩, 0⟩

end StackDemo

variable {R : Type}

/-! ## Every execution -/

/-- **C65.** Whatever the two sides do, in whatever order their accesses to the shared buffers come: what the client and
the device see is a sequence of requests, executions and responses as in `Spec/Stack.lean`, and no access is outside
the buffers. -/
theorem C65_refines (c : Stack.Cfg R) (le : Bool) (timer : Timeout) (d : Server.Dev R) (h1 : 8 ≤ c.mem.reqSize.toNat)
    (h2 : 16 ≤ c.mem.respSize.toNat) (h3 : c.cli.mtu < 65536) (h4 : c.srv.comm.mtu < 65536) (es : List (Ev R)) :
    (∃ t, Accepts c le (.none, d) (run c (init c le timer d) es).2 (t, (run c (init c le timer d) es).1.dev)) ∧
    (run c (init c le timer d) es).1.mem.shm.ub = false := by
  obtain ⟨t, ch, ha, hi⟩ := go_run h1 h2 h3 h4 es (inv_init c le timer d)
  exact ⟨⟨t, ha⟩, hi.sim.ub⟩

/-- **C65.** A response the client gets is that of the device to the request the client has asked last: the device has
handled exactly this request, on the state it was in by then, after it was asked and before the response came; no
other request and no other response come between.  (`b` may have executions whose responses could not be sent.) -/
theorem C65_reply (c : Stack.Cfg R) (le : Bool) (timer : Timeout) (d0 : Server.Dev R) (h1 : 8 ≤ c.mem.reqSize.toNat)
    (h2 : 16 ≤ c.mem.respSize.toNat) (h3 : c.cli.mtu < 65536) (h4 : c.srv.comm.mtu < 65536) (es : List (Ev R))
    (pre post : List (Obs R)) (g : Comm.Got) (h : (run c (init c le timer d0) es).2 = pre ++ .got g :: post) (hg : g.rc = .ok) :
    ∃ a kind data b d r d' b', pre = a ++ .asked kind data :: (b ++ .ran d kind r g.payload d' :: b') ∧ g.kind = kind ∧
      (∀ o ∈ b ++ b', o.isAsked = false ∧ o.answers c.limit = false ∧ o.isReply = false) ∧
      Carries c le kind data r ∧ d = devAfter d0 (a ++ .asked kind data :: b) ∧
      Server.answer c.srv d c.x kind r = (g.payload, d') := by
  obtain ⟨t, ha⟩ := (C65_refines c le timer d0 h1 h2 h3 h4 es).1
  rw [h] at ha
  obtain ⟨t, s1, hn, hs, -⟩ := story_before ha
  cases hn with
  | nothing g h => exact absurd hg h
  | reply g e1 e2 e3 =>
    obtain ⟨a, b, data, d, r, d', b', e, k1, k2, k3, k4, k5, k6, k7⟩ := hs
    subst e2 e3
    refine ⟨a, _, data, b, d, r, d', b', e, rfl, ?_, k4, k7, k5⟩
    intro o ho
    rcases List.mem_append.mp ho with h' | h'
    · exact k1 o h'
    · exact ⟨(k2 o h').1, (k2 o h').2, k3 rfl o h'⟩

/-- **C65.** The device handles only what the client has asked, and the state it is in is the one the client's requests
and the others have left. -/
theorem C65_handled (c : Stack.Cfg R) (le : Bool) (timer : Timeout) (d0 : Server.Dev R) (h1 : 8 ≤ c.mem.reqSize.toNat)
    (h2 : 16 ≤ c.mem.respSize.toNat) (h3 : c.cli.mtu < 65536) (h4 : c.srv.comm.mtu < 65536) (es : List (Ev R))
    (pre post : List (Obs R)) (d : Server.Dev R) (kind : UInt16) (r : Server.Req) (resp : List UInt8) (d' : Server.Dev R)
    (h : (run c (init c le timer d0) es).2 = pre ++ .ran d kind r resp d' :: post) :
    d = devAfter d0 pre ∧ Server.answer c.srv d c.x kind r = (resp, d') ∧
    ∃ a data b, pre = a ++ .asked kind data :: b ∧ Carries c le kind data r ∧
      ∀ o ∈ b, o.isAsked = false ∧ o.answers c.limit = false ∧ o.isReply = false := by
  obtain ⟨t, ha⟩ := (C65_refines c le timer d0 h1 h2 h3 h4 es).1
  rw [h] at ha
  obtain ⟨t, s1, hn, hs, -⟩ := story_before ha
  cases hn with
  | run r hc hr hl => obtain ⟨a, b, e, hb⟩ := hs; exact ⟨rfl, hr, a, _, b, e, hc, hb⟩
  | again r hc hr hl => obtain ⟨a, b, e, hb⟩ := hs; exact ⟨rfl, hr, a, _, b, e, hc, hb⟩

/-- **C65.** The device ends in the state that its executions and the others have left. -/
theorem C65_device (c : Stack.Cfg R) (le : Bool) (timer : Timeout) (d0 : Server.Dev R) (h1 : 8 ≤ c.mem.reqSize.toNat)
    (h2 : 16 ≤ c.mem.respSize.toNat) (h3 : c.cli.mtu < 65536) (h4 : c.srv.comm.mtu < 65536) (es : List (Ev R)) :
    (run c (init c le timer d0) es).1.dev = devAfter d0 (run c (init c le timer d0) es).2 := by
  obtain ⟨t, ha⟩ := (C65_refines c le timer d0 h1 h2 h3 h4 es).1
  exact accepts_dev ha

/-! ## At most once -/

/-- An execution. -/
def Stack.Obs.isRan : Obs R → Bool
  | .ran _ _ _ _ _ => true
  | _ => false

/-- **C65.** If every response can be sent, the device handles each request at most once. -/
theorem C65_once_partial (c : Stack.Cfg R) (le : Bool) (timer : Timeout) (d0 : Server.Dev R) (h1 : 8 ≤ c.mem.reqSize.toNat)
    (h2 : 16 ≤ c.mem.respSize.toNat) (h3 : c.cli.mtu < 65536) (h4 : c.srv.comm.mtu < 65536) (es : List (Ev R))
    (hs : ∀ d kind r resp d', Obs.ran d kind r resp d' ∈ (run c (init c le timer d0) es).2 → resp.length ≤ c.limit)
    (pre post : List (Obs R)) (d : Server.Dev R) (kind : UInt16) (r : Server.Req) (resp : List UInt8) (d' : Server.Dev R)
    (h : (run c (init c le timer d0) es).2 = pre ++ .ran d kind r resp d' :: post) :
    ∃ a data b, pre = a ++ .asked kind data :: b ∧ Carries c le kind data r ∧ ∀ o ∈ b, o.isAsked = false ∧ Stack.Obs.isRan o = false := by
  obtain ⟨-, -, a, data, b, e, hc, hb⟩ := C65_handled c le timer d0 h1 h2 h3 h4 es pre post d kind r resp d' h
  refine ⟨a, data, b, e, hc, fun o ho => ⟨(hb o ho).1, ?_⟩⟩
  cases o with
  | ran d kind r resp d' =>
    have hm := hs d kind r resp d' (by rw [h, e]; simp [ho])
    exact absurd hm (of_decide_eq_false (hb _ ho).2.1)
  | _ => rfl

/-- **C65.** So it is with handlers that keep to the size of a packet (`Server.Fits`) and a buffer that takes the
server's longest packet. -/
theorem C65_once_server_partial (c : Stack.Cfg R) (le : Bool) (timer : Timeout) (d0 : Server.Dev R) (h1 : 8 ≤ c.mem.reqSize.toNat)
    (h2 : 8 + c.srv.comm.mtu ≤ c.mem.respSize.toNat) (h3 : c.cli.mtu < 65536) (hf : Server.Fits c.srv) (es : List (Ev R))
    (pre post : List (Obs R)) (d : Server.Dev R) (kind : UInt16) (r : Server.Req) (resp : List UInt8) (d' : Server.Dev R)
    (h : (run c (init c le timer d0) es).2 = pre ++ .ran d kind r resp d' :: post) :
    ∃ a data b, pre = a ++ .asked kind data :: b ∧ Carries c le kind data r ∧ ∀ o ∈ b, o.isAsked = false ∧ Stack.Obs.isRan o = false := by
  have h2' : 16 ≤ c.mem.respSize.toNat := by unfold Comm.Cfg.mtu at h2; omega
  refine C65_once_partial c le timer d0 h1 h2' h3 hf.2.1 es ?_ pre post d kind r resp d' h
  intro d kind r resp d' hm
  obtain ⟨p, q, e⟩ := List.append_of_mem hm
  obtain ⟨-, ha, a, data, b, -, hc, -⟩ := C65_handled c le timer d0 h1 h2' h3 hf.2.1 es p q d kind r resp d' e
  have := Server.answer_length hf d c.x kind r (by rw [hc.2.2.1]; exact hc.2.2.2.1)
  rw [ha] at this
  unfold Cfg.limit
  unfold Comm.Cfg.mtu at h2
  dsimp only at this
  omega

/-- **C65.** And with the handlers of wolfHSM, as long as the device is in order (`Device.DevInv`, which holds of every
device that has started and kept power, `Props/Device.lean`). -/
theorem C65_once_device_partial {A E : Type} (c : Stack.Cfg (Device.Rest A)) (cfg : Device.Cfg A E) (hsrv : c.srv = cfg.server)
    (le : Bool) (timer : Timeout) (d0 : Device.Dev A) (h1 : 8 ≤ c.mem.reqSize.toNat)
    (h2 : 8 + c.srv.comm.mtu ≤ c.mem.respSize.toNat) (h3 : c.cli.mtu < 65536) (hs : Device.Sound cfg) (hf : Device.CryptoFits cfg)
    (es : List (Ev (Device.Rest A)))
    (hd : ∀ d kind r resp d', Obs.ran d kind r resp d' ∈ (run c (init c le timer d0) es).2 → Device.DevInv d)
    (pre post : List (Obs (Device.Rest A))) (d : Device.Dev A) (kind : UInt16) (r : Server.Req) (resp : List UInt8) (d' : Device.Dev A)
    (h : (run c (init c le timer d0) es).2 = pre ++ .ran d kind r resp d' :: post) :
    ∃ a data b, pre = a ++ .asked kind data :: b ∧ Carries c le kind data r ∧ ∀ o ∈ b, o.isAsked = false ∧ Stack.Obs.isRan o = false := by
  have h2' : 16 ≤ c.mem.respSize.toNat := by unfold Comm.Cfg.mtu at h2; omega
  have h4 : c.srv.comm.mtu < 65536 := by rw [hsrv]; exact hs.mtu
  refine C65_once_partial c le timer d0 h1 h2' h3 h4 es ?_ pre post d kind r resp d' h
  intro d kind r resp d' hm
  obtain ⟨p, q, e⟩ := List.append_of_mem hm
  obtain ⟨-, ha, a, data, b, -, hc, -⟩ := C65_handled c le timer d0 h1 h2' h3 h4 es p q d kind r resp d' e
  have hdl : cfg.comm.dataLen = c.srv.comm.dataLen := by rw [hsrv]; rfl
  have := Device.answer_fits hs hf d (hd _ _ _ _ _ hm) c.x kind (r := r) (by rw [hc.2.2.1, hdl]; exact hc.2.2.2.1)
  rw [← hsrv, ha, hdl] at this
  unfold Cfg.limit
  unfold Comm.Cfg.mtu at h2
  dsimp only at this
  omega

/-! ## Completion -/

/-- **C65.** A request is completed.  After any history, when neither side is in a call and the device has handled what was
asked before: the client asks, takes its steps, a connected server is called and takes its steps, the client polls and
takes its steps.  Then the request has been handled once, on the state the device was in, and the client has the
response.  Partial: the packets must fit the buffers of both sides (see `F_C65_stuck`), and so must the response (see
`F_C65_executed_again`). -/
theorem C65_completes_partial (c : Stack.Cfg R) (le : Bool) (timer : Timeout) (d0 : Server.Dev R) (h1 : 8 ≤ c.mem.reqSize.toNat)
    (h2 : 16 ≤ c.mem.respSize.toNat) (h3 : c.cli.mtu < 65536) (h4 : c.srv.comm.mtu < 65536) (es : List (Ev R))
    (w : World R) (os : List (Obs R)) (hw : run c (init c le timer d0) es = (w, os)) (hfree : w.busy = .free)
    (hidle : w.mem.s = .idle) (hdone : w.client.pending = false)
    (hover : ∀ a kind data b, os = a ++ .asked kind data :: b → ∃ o ∈ b, o.answers c.limit = true)
    (hconn : (w.dev.ctx c.x).connected = true)
    (kind aux : UInt16) (data : List UInt8) (now : UInt64) (n1 : Nat) (sjunk : List UInt8) (saux : UInt16) (n2 : Nat)
    (junk : List UInt8) (now' : UInt64) (n3 : Nat) (hl1 : data.length ≤ c.cli.dataLen) (hl2 : data.length ≤ c.srv.comm.dataLen)
    (hl3 : data.length + 16 ≤ c.mem.reqSize.toNat)
    (hfit : ∀ r, Carries c le kind data r → (Server.answer c.srv w.dev c.x kind r).1.length ≤ min c.limit c.cli.dataLen)
    (hn1 : data.length + 11 ≤ n1) (hn2 : data.length + 6 + c.mem.respSize.toNat ≤ n2) (hn3 : c.mem.respSize.toNat ≤ n3) :
    ∃ w' r resp d' g, run c w ([.send kind aux data now] ++ (List.replicate n1 .cStep ++ ([.serve] ++
          (List.replicate n2 (.sStep sjunk saux) ++ ([.poll none junk now'] ++ List.replicate n3 .cStep))))) =
        (w', [.asked kind data, .ran w.dev kind r resp d', .got g]) ∧
      Carries c le kind data r ∧ Server.answer c.srv w.dev c.x kind r = (resp, d') ∧
      g.rc = .ok ∧ g.kind = kind ∧ g.payload = resp ∧
      w'.dev = d' ∧ w'.busy = .free ∧ w'.mem.s = .idle ∧ w'.client.pending = false := by
  obtain ⟨t, ch, ha, hi⟩ := go_run h1 h2 h3 h4 es (inv_init c le timer d0)
  rw [hw] at ha hi
  have hs := story_accepts (d0 := d0) (as := []) (s := (.none, d0)) rfl trivial ha
  have ho : t.over = true := by
    cases t with
    | none => rfl
    | done => rfl
    | asked k d wt =>
      obtain ⟨a, b, e, hb⟩ := hs
      obtain ⟨o, hm, hx⟩ := hover a k d b e
      exact absurd hx (by rw [(hb o hm).2.1]; decide)
  obtain ⟨r, g, k1, k2, k3, k4, k5, k6, k7⟩ := completes h1 h2 h3 h4 ⟨⟨t, ch, hi, ho⟩, hfree, hidle, hdone⟩ hconn kind aux data
    now n1 sjunk saux n2 junk now' n3 hl1 hl2 hl3 (fun r hr => Nat.le_min.mp (hfit r hr)) hn1 hn2 hn3
  exact ⟨_, r, _, _, g, Prod.ext rfl k5, k1, rfl, k2, k3, k4, k6, k7.free, k7.idle, k7.done⟩

/-- **C65.** A request is completed whatever the order of events is.  Client and server go on in any interleaving, event by
event of an endless schedule in which the server is called and goes on, the client goes on and polls with room for any
response, again and again; other contexts may change the device at any time.  A request was asked at event `n`.  From then
on the client neither gives up nor is told of a timeout.  Then the request is handled, on the state the device is in at
that moment, nothing else is handled before, and the client gets the response.  Partial: the request must fit the packets
of the server (see `F_C65_stuck`), the response the packets of both sides (see `F_C65_executed_again`), and until the
request has been handled the context must be connected. -/
theorem C65_fair_partial (c : Stack.Cfg R) (le : Bool) (timer : Timeout) (d0 : Server.Dev R) (h1 : 8 ≤ c.mem.reqSize.toNat)
    (h2 : 16 ≤ c.mem.respSize.toNat) (h3 : c.cli.mtu < 65536) (h4 : c.srv.comm.mtu < 65536) (σ : Nat → Ev R) (hfair : Fair σ)
    (n : Nat) (kind : UInt16) (data : List UInt8) (hask : .asked kind data ∈ sees c (init c le timer d0) σ n)
    (hpat : ∀ m, n < m → (σ m).Patient) (hto : ∀ m, n < m → ∀ g, .got g ∈ sees c (init c le timer d0) σ m → g.rc ≠ .timeout)
    (hl : data.length ≤ c.srv.comm.dataLen)
    (hfit : ∀ m, n < m → (∀ i, n < i → i < m → ∀ o ∈ sees c (init c le timer d0) σ i, o.isRan = false) →
      ((states c (init c le timer d0) σ m).dev.ctx c.x).connected = true ∧ ∀ r, Carries c le kind data r →
        (Server.answer c.srv (states c (init c le timer d0) σ m).dev c.x kind r).1.length ≤ min c.limit c.cli.dataLen) :
    ∃ m r resp d', n < m ∧ (∀ i, n < i → i < m → ∀ o ∈ sees c (init c le timer d0) σ i, o.isRan = false) ∧
      Carries c le kind data r ∧ Server.answer c.srv (states c (init c le timer d0) σ m).dev c.x kind r = (resp, d') ∧
      .ran (states c (init c le timer d0) σ m).dev kind r resp d' ∈ sees c (init c le timer d0) σ m ∧
      ∃ m' g, m < m' ∧ .got g ∈ sees c (init c le timer d0) σ m' ∧ g.rc = .ok ∧ g.kind = kind ∧ g.payload = resp :=
  fair_completes h1 h2 h3 h4 (inv_init c le timer d0) hfair hask hpat hto hl hfit

/-! ## The crypto group of a device -/

/-- **C65.** What a client gets for a request of the crypto group, if it may make it, is what the crypto handlers answer to
the very bytes it has sent: the assumption of C56, C57 and C64 on the peer (`ClientCrypto.served`). -/
theorem C65_crypto {A E : Type} (c : Stack.Cfg (Device.Rest A)) (cfg : Device.Cfg A E) (hsrv : c.srv = cfg.server)
    (le : Bool) (timer : Timeout) (d0 : Device.Dev A) (h1 : 8 ≤ c.mem.reqSize.toNat)
    (h2 : 16 ≤ c.mem.respSize.toNat) (h3 : c.cli.mtu < 65536) (h4 : c.srv.comm.mtu < 65536) (es : List (Ev (Device.Rest A)))
    (pre post : List (Obs (Device.Rest A))) (g : Comm.Got) (h : (run c (init c le timer d0) es).2 = pre ++ .got g :: post)
    (hg : g.rc = .ok) (hk : Server.groupOf g.kind = 0x0400) (hn : cfg.noCrypto = false) :
    ∃ a data b d d' seq junk e, (∃ r b', pre = a ++ .asked g.kind data :: (b ++ .ran d g.kind r g.payload d' :: b')) ∧
      d = devAfter d0 (a ++ .asked g.kind data :: b) ∧
      ((cfg.enableAuth = false ∨ (d.ctx c.x).hasAuth = false ∨
          Auth.checkRequest cfg.auth d.auth c.x 0x0400 (Server.actionOf g.kind) = .ok) →
        g.payload = (ClientCrypto.served cfg.cryptoMsg le (Server.actionOf g.kind) seq ⟨c.x, (d.ctx c.x).client.toUInt16⟩ e junk
          (Device.sys d) data).1 ∧
        Device.sys d' = (ClientCrypto.served cfg.cryptoMsg le (Server.actionOf g.kind) seq ⟨c.x, (d.ctx c.x).client.toUInt16⟩ e junk
          (Device.sys d) data).2) := by
  obtain ⟨a, kind, data, b, d, r, d', b', e, rfl, -, hc, hd, hr⟩ := C65_reply c le timer d0 h1 h2 h3 h4 es pre post g h hg
  obtain ⟨c1, c2, c3, -, junk, c4⟩ := hc
  refine ⟨a, data, b, d, d', r.seq, junk, (cfg.world d.rest.tick).crypto, ⟨r, b', e⟩, hd, fun hauth => ?_⟩
  have hreq : r = ⟨if cfg.cryptoMsg.le = le then Utils.magicNative else Utils.magicSwap, Server.actionOf g.kind, r.seq,
      data ++ junk, data.length⟩ := by
    rw [← c4, ← c3, ← c2]
    have : cfg.cryptoMsg.le = c.srv.le := by rw [hsrv]; rfl
    rw [this, ← c1]
  have hans : Server.answer c.srv d c.x g.kind r =
      (let q := Device.handler cfg .crypto c.x (d.ctx c.x).client r (d.auth.nvm, d.rest)
       (q.1.2, { d with auth := { d.auth with nvm := q.2.1 }, rest := q.2.2 })) := by
    rw [hsrv]
    unfold Server.answer
    dsimp only
    rw [hk, if_neg]
    · have : Server.groupFor cfg.server 0x0400 = some .crypto := by
        unfold Server.groupFor
        have : cfg.server.noCrypto = false := hn
        simp [this]
      unfold Server.dispatch
      rw [this]
      simp only [show ¬ (0x0400 : UInt16) = 0x0100 by decide, show ¬ (0x0400 : UInt16) = 0x0D00 by decide,
        show ¬ (0x0400 : UInt16) = 0x0600 by decide, if_false]
      rfl
    · rintro ⟨g1, g2, g3⟩
      rcases hauth with e | e | e
      · rw [show cfg.server.enableAuth = cfg.enableAuth from rfl, e] at g1; cases g1
      · exact absurd g2 (by rw [e]; decide)
      · rw [c2] at g3; exact g3 e
  rw [hr] at hans
  have e1 := congrArg Prod.fst hans
  have e2 := congrArg (fun q => Device.sys q.2) hans
  dsimp only at e1 e2
  unfold ClientCrypto.served
  rw [← hreq]
  refine ⟨e1, e2.trans ?_⟩
  rfl

/-! ## What the code does beside -/

/-- **Finding.** A request whose response is too long for the shared buffer is not answered; it stays where it is and
each further call of `wh_Server_HandleRequestMessage` handles it again.  Here the client has asked once, the device has
done it twice, and the client has nothing. -/
theorem F_C65_executed_again :
    (run StackDemo.small (init StackDemo.small true ⟨false, none, none⟩ StackDemo.counting) StackDemo.bigger).2.map
        StackDemo.seen =
      [.asked 0x0204 (List.replicate 9 7), .ran 0x0204 (List.replicate 9 7) (List.replicate 9 7),
       .ran 0x0204 (List.replicate 9 7) (List.replicate 9 7), .got .notready 0 []] ∧
    (run StackDemo.small (init StackDemo.small true ⟨false, none, none⟩ StackDemo.counting) StackDemo.bigger).1.dev.rest = 2 := by
  decide +kernel

/-- **Finding.** A request longer than the packets of the server is taken from the client and never answered: whatever
happens from there on, also after the client has given up, no request is taken any more, nothing is handled, and the
client gets no response. -/
theorem F_C65_stuck (c : Stack.Cfg R) (le : Bool) (timer : Timeout) (d0 : Server.Dev R) (h1 : 8 ≤ c.mem.reqSize.toNat)
    (h2 : 16 ≤ c.mem.respSize.toNat) (h3 : c.cli.mtu < 65536) (h4 : c.srv.comm.mtu < 65536) (es : List (Ev R))
    (pre post : List (Obs R)) (kind : UInt16) (data : List UInt8)
    (h : (run c (init c le timer d0) es).2 = pre ++ .asked kind data :: post) (hl : c.srv.comm.dataLen < data.length) :
    ∀ o ∈ post, o.isAsked = false ∧ Stack.Obs.isRan o = false ∧ o.isReply = false := by
  obtain ⟨t, ha⟩ := (C65_refines c le timer d0 h1 h2 h3 h4 es).1
  rw [h] at ha
  obtain ⟨t, s1, hn, -, hp⟩ := story_before ha
  have key : ∀ {post : List (Obs R)} {w : Bool} {d : Server.Dev R} {s' : Turn × Server.Dev R},
      Accepts c le (.asked kind data w, d) post s' → ∀ o ∈ post, o.isAsked = false ∧ Stack.Obs.isRan o = false ∧ o.isReply = false := by
    intro post
    induction post with
    | nil => intro w d s' _ o ho; cases ho
    | cons o os ih =>
      intro w d s' ⟨s1, hn, hp⟩ o' ho'
      have hgo : (o.isAsked = false ∧ Stack.Obs.isRan o = false ∧ o.isReply = false) ∧
          ∃ w1 d1, s1 = (.asked kind data w1, d1) := by
        cases hn with
        | ask _ _ ho => cases ho
        | run r hc => exact absurd hc.2.2.2.1 (by omega)
        | again r hc => exact absurd hc.2.2.2.1 (by omega)
        | nothing g hg => exact ⟨⟨rfl, rfl, by cases hx : g.rc <;> simp_all [Obs.isReply]⟩, _, _, rfl⟩
        | refused => exact ⟨⟨rfl, rfl, rfl⟩, _, _, rfl⟩
        | giveUp => exact ⟨⟨rfl, rfl, rfl⟩, _, _, rfl⟩
        | change d' => exact ⟨⟨rfl, rfl, rfl⟩, _, _, rfl⟩
      obtain ⟨hk, w1, d1, rfl⟩ := hgo
      rcases List.mem_cons.mp ho' with rfl | ho'
      · exact hk
      · exact ih hp o' ho'
  cases hn with
  | ask => exact key hp

/-! ## The hypotheses are met -/

open StackDemo in
/-- Two requests with responses, polls that find nothing and a request that is refused. -/
example : ∃ pre post g, (run cfg start talk).2 = pre ++ .got g :: post ∧ g.rc = .ok ∧ g.payload = [7, 8, 9] ∧
    8 ≤ cfg.mem.reqSize.toNat ∧ 8 + cfg.srv.comm.mtu ≤ cfg.mem.respSize.toNat ∧ cfg.cli.mtu < 65536 ∧ Server.Fits cfg.srv := by
  have h := talk_seen
  have hm : Seen.got .ok 0x0105 [7, 8, 9] ∈ (run cfg start talk).2.map seen := by rw [h]; decide
  obtain ⟨o, ho, e⟩ := List.mem_map.mp hm
  obtain ⟨p, q, hpq⟩ := List.append_of_mem ho
  cases o with
  | got g =>
    simp only [seen, Seen.got.injEq] at e
    exact ⟨p, q, g, hpq, e.1, e.2.2, by decide, by decide, by decide, fits⟩
  | _ => cases e

open StackDemo in
/-- After the two requests another one can be made. -/
example : (run cfg start talk).1.busy matches .free ∧ (run cfg start talk).1.mem.s = .idle ∧
    (run cfg start talk).1.client.pending = false ∧ ((run cfg start talk).1.dev.ctx cfg.x).connected = true ∧
    (∀ a kind data b, (run cfg start talk).2 = a ++ .asked kind data :: b → ∃ o ∈ b, o.answers cfg.limit = true) ∧
    ∀ d r, Carries cfg true 0x0105 [4, 4] r → (Server.answer cfg.srv d cfg.x 0x0105 r).1.length ≤ min cfg.limit cfg.cli.dataLen := by
  refine ⟨by decide +kernel, by decide +kernel, by decide +kernel, by decide +kernel, ?_, ?_⟩
  · have key : ∀ os : List (Obs Unit), os.map (fun o => (o.isAsked, o.answers cfg.limit)) =
        [(true, false), (false, false), (false, false), (false, true), (false, false), (true, false), (false, true), (false, false)] →
        ∀ a kind data b, os = a ++ .asked kind data :: b → ∃ o ∈ b, o.answers cfg.limit = true := by
      intro os h a kind data b e
      subst e
      rw [List.map_append, List.map_cons] at h
      have hb : ∃ z ∈ b.map (fun o => (o.isAsked, o.answers cfg.limit)), z.2 = true := by
        generalize b.map (fun o => (o.isAsked, o.answers cfg.limit)) = bz at h
        generalize a.map (fun o => (o.isAsked, o.answers cfg.limit)) = az at h
        have hl := congrArg List.length h
        simp only [List.length_append, List.length_cons, List.length_nil] at hl
        have hz : az.length < 8 := by omega
        match az, hz with
        | [], _ => simp at h; rw [h.2]; decide
        | [_], _ => simp [Obs.isAsked] at h
        | [_, _], _ => simp [Obs.isAsked] at h
        | [_, _, _], _ => simp [Obs.isAsked] at h
        | [_, _, _, _], _ => simp [Obs.isAsked] at h
        | [_, _, _, _, _], _ => simp at h; rw [h.2.2.2.2.2.2]; decide
        | [_, _, _, _, _, _], _ => simp [Obs.isAsked] at h
        | [_, _, _, _, _, _, _], _ => simp [Obs.isAsked] at h
      obtain ⟨z, hz, e⟩ := hb
      obtain ⟨o, ho, rfl⟩ := List.mem_map.mp hz
      exact ⟨o, ho, e⟩
    exact key _ (by decide +kernel)
  · intro d r hr
    have := Server.answer_length fits d cfg.x 0x0105 r (by rw [hr.2.2.1]; exact hr.2.2.2.1)
    have e : min cfg.limit cfg.cli.dataLen = cfg.srv.comm.dataLen := by decide
    rw [e]; exact this

open StackDemo in
/-- A key is made on a device; the user may do so. -/
example : (∃ pre post g, (run whole (init whole true ⟨false, none, none⟩ ready) make).2 = pre ++ .got g :: post ∧ g.rc = .ok ∧
      Server.groupOf g.kind = 0x0400 ∧ 12 < g.payload.length) ∧ DevDemo.cfg.noCrypto = false ∧
    Auth.checkRequest DevDemo.cfg.auth ready.auth 0 0x0400 (Server.actionOf 0x0403) = .ok := by
  refine ⟨?_, rfl, by decide +kernel⟩
  have h : ((run whole (init whole true ⟨false, none, none⟩ ready) make).2.map seen).any (fun s => match s with
      | .got .ok 0x0403 p => decide (12 < p.length)
      | _ => false) = true := by decide +kernel
  rw [List.any_map] at h
  obtain ⟨o, ho, e⟩ := List.any_eq_true.mp h
  obtain ⟨p, q, hpq⟩ := List.append_of_mem ho
  cases o with
  | got g =>
    simp only [Function.comp, seen] at e
    split at e
    · rename_i hx
      simp only [Seen.got.injEq] at hx
      exact ⟨p, q, g, hpq, hx.1, by rw [hx.2.1]; decide, by rw [hx.2.2]; exact of_decide_eq_true e⟩
    · cases e
  | _ => cases e

open StackDemo in
/-- A client that is stuck. -/
example : (run short (init short true ⟨false, none, none⟩ SrvDemo.dev) long).2.map seen =
      [.asked 0x0105 (List.replicate 600 7), .gaveUp, .refused .notready] ∧
    short.srv.comm.dataLen < (List.replicate 600 (7 : UInt8)).length := by decide +kernel

namespace StackDemo

/-- Without timeouts; otherwise as `cfg`. -/
def plain : Stack.Cfg Unit := { cfg with cli := ⟨1280, false⟩ }

def first : World Unit := init plain true ⟨false, none, none⟩ SrvDemo.dev

/-- The client asks for an echo; then client and server take turns for ever. -/
def turns : Nat → Ev Unit
  | 0 => .send 0x0105 0 [7, 8, 9] 0
  | n + 1 => if n % 4 = 0 then .cStep else if n % 4 = 1 then .serve else if n % 4 = 2 then .sStep [5] 0 else .poll none [] 0

theorem turns_fair : Fair turns := by
  have key : ∀ n k, k < 4 → ∃ m, n ≤ m + 1 ∧ m % 4 = k := by
    intro n k hk
    exact ⟨4 * n + k, by omega, by omega⟩
  intro n
  obtain ⟨a, ha, ea⟩ := key n 0 (by omega)
  obtain ⟨b, hb, eb⟩ := key n 1 (by omega)
  obtain ⟨d, hd, ed⟩ := key n 2 (by omega)
  obtain ⟨e, he, ee⟩ := key n 3 (by omega)
  exact ⟨⟨b + 1, hb, by simp [turns, eb]⟩, ⟨d + 1, hd, [5], 0, by simp [turns, ed]⟩, ⟨a + 1, ha, by simp [turns, ea]⟩,
    ⟨e + 1, he, [], 0, by simp [turns, ee]⟩⟩

/-- Before the request is handled the device is as at the start. -/
theorem turns_dev (m : Nat) (h : ∀ i, i < m → ∀ o ∈ sees plain first turns i, o.isRan = false) :
    (states plain first turns m).dev = SrvDemo.dev := by
  induction m with
  | zero => rfl
  | succ m ih =>
    have e := ih (fun i hi => h i (by omega))
    rw [← e]
    refine step_dev _ (h m (by omega)) ?_
    intro d
    cases m with
    | zero => simp [turns]
    | succ m =>
      simp only [turns]
      repeat' split
      all_goals simp

end StackDemo

open StackDemo in
/-- The endless schedule meets what `C65_fair_partial` asks for; the request is asked at event 53. -/
example : Fair turns ∧ .asked 0x0105 [7, 8, 9] ∈ sees plain first turns 53 ∧ (∀ m, 53 < m → (turns m).Patient) ∧
    (∀ m, 53 < m → ∀ g, .got g ∈ sees plain first turns m → g.rc ≠ .timeout) ∧
    ∀ m, 53 < m → (∀ i, 53 < i → i < m → ∀ o ∈ sees plain first turns i, o.isRan = false) →
      ((states plain first turns m).dev.ctx plain.x).connected = true ∧ ∀ r, Carries plain true 0x0105 [7, 8, 9] r →
        (Server.answer plain.srv (states plain first turns m).dev plain.x 0x0105 r).1.length ≤ min plain.limit plain.cli.dataLen := by
  refine ⟨turns_fair, ?_, ?_, ?_, ?_⟩
  · have h : (sees plain first turns 53).map seen = [.asked 0x0105 [7, 8, 9]] := by
      have e := congrArg (List.map seen) (states_run (c := plain) first turns 53).2
      have e0 : ((run plain first ((List.range 53).map turns)).2.map seen) = [] := by decide +kernel
      have e1 : ((run plain first ((List.range 54).map turns)).2.map seen) = [.asked 0x0105 [7, 8, 9]] := by decide +kernel
      rw [List.map_append, e0, e1, List.nil_append] at e
      exact e.symm
    obtain ⟨o, ho, e⟩ := List.mem_map.mp (show Seen.asked 0x0105 [7, 8, 9] ∈ (sees plain first turns 53).map seen by
      rw [h]; exact List.mem_singleton.mpr rfl)
    cases o <;> cases e
    exact ho
  · intro m hm
    obtain ⟨k, rfl⟩ : ∃ k, m = k + 1 := ⟨m - 1, by omega⟩
    simp only [turns]
    repeat' split
    all_goals trivial
  · intro m _ g hg
    exact no_timeout rfl hg
  · intro m _ hran
    have h0 : ((run plain first ((List.range 54).map turns)).2.all fun o => !o.isRan) = true := by decide +kernel
    have hd := turns_dev m (by
      intro i hi o ho
      by_cases hx : 53 < i
      · exact hran i hx hi o ho
      · have := List.all_eq_true.mp h0 o (sees_run first turns (by omega) ho)
        simpa using this)
    rw [hd]
    refine ⟨by decide +kernel, fun r hr => ?_⟩
    have := Server.answer_length fits SrvDemo.dev cfg.x 0x0105 r (by rw [hr.2.2.1]; exact hr.2.2.2.1)
    have e : min plain.limit plain.cli.dataLen = cfg.srv.comm.dataLen := by decide +kernel
    rw [e]; exact this

end WolfHsm.Props

import Verif.Spec.Nsc
import Verif.Proofs.StackLive

/-! # The secure call: invariant and traces -/

namespace WolfHsm.Nsc

open Utils (magicNative magicSwap)
open Comm (header)

variable {R : Type} {c : Cfg R} {le : Bool}

/-- The same two sides over shared memory, for what is shown of their packets there. -/
def stack (c : Cfg R) : Stack.Cfg R := ⟨c.cli, c.srv, ⟨0, 0⟩, c.x⟩

/-- The response packet. -/
def pkt (c : Cfg R) (le : Bool) (kind seq aux : UInt16) (resp : List UInt8) : List UInt8 := Stack.respPkt (stack c) le kind seq aux resp

theorem pkt_length (kind seq aux : UInt16) (resp : List UInt8) : (pkt c le kind seq aux resp).length = 8 + resp.length := by
  unfold pkt Stack.respPkt; rw [List.length_append, Comm.header_length]

theorem mtu16_eq {k : Comm.Cfg} (h : k.mtu < 65536) : (mtu16 k).toNat = k.mtu := by
  unfold mtu16; rw [UInt16.toNat_ofNat']; exact Nat.mod_eq_of_lt h

theorem shows_all {p : List UInt8} {k : Comm.Cfg} (h : k.mtu < 65536) (hp : p.length ≤ k.mtu) :
    Mem.Shows p (Stack.mtu16 k) (UInt16.ofNat p.length) p := by
  refine ⟨?_, ?_⟩
  · rw [UInt16.toNat_ofNat']; exact Nat.mod_eq_of_lt (by omega)
  · have : (Stack.mtu16 k).toNat = k.mtu := mtu16_eq h
    rw [this, List.take_of_length_le hp]

theorem veneer_cases (hm : c.cli.mtu < 65536) (hsv : c.srv.comm.mtu < 65536) (s : Srv) (d : Server.Dev R) {kind seq aux' : UInt16}
    {data : List UInt8} (hdl : data.length ≤ c.cli.dataLen) (buf junk : List UInt8) (aux : UInt16) :
    ∀ v, v = veneer c s d (header le magicNative kind seq aux' ++ data) (mtu16 c.cli) buf junk aux →
    (v.ran = none ∧ v.dev = d ∧ v.rc ≠ .ok ∧ ¬ ((d.ctx c.x).connected = true ∧ data.length ≤ c.srv.comm.dataLen)) ∨
    ∃ e, v.ran = some e ∧ e.Of c le kind data d ∧ v.dev = e.after ∧
      ((c.limit < e.resp.length ∧ v.rc ≠ .ok) ∨
       (e.resp.length ≤ c.limit ∧ v.rc = .ok ∧ v.size = UInt16.ofNat (8 + e.resp.length) ∧
        ∃ rest, v.srv.buf = pkt c le kind seq aux e.resp ++ rest)) := by
  intro v hv
  generalize hq : header le magicNative kind seq aux' ++ data = q at hv
  have hql : q.length = 8 + data.length := by rw [← hq, List.length_append, Comm.header_length]
  have hmm : c.cli.mtu = c.cli.dataLen + 8 := by unfold Comm.Cfg.mtu; omega
  have hms : c.srv.comm.mtu = c.srv.comm.dataLen + 8 := by unfold Comm.Cfg.mtu; omega
  have hqn : (UInt16.ofNat q.length).toNat = q.length := by
    rw [UInt16.toNat_ofNat']; exact Nat.mod_eq_of_lt (by omega)
  unfold veneer at hv
  dsimp only at hv
  by_cases hcn : (d.ctx c.x).connected = false
  · rw [if_pos hcn] at hv
    subst hv
    exact .inl ⟨rfl, rfl, by simp, by rw [hcn]; simp⟩
  rw [if_neg hcn] at hv
  by_cases hlong : UInt16.ofNat q.length > mtu16 c.srv.comm
  · have hlt : c.srv.comm.mtu < q.length := by
      rw [← mtu16_eq hsv, ← hqn]; exact hlong
    simp only [serverRecv] at hv
    have hne : ((!true || UInt16.ofNat q.length == 0) : Bool) = false := by
      simp only [Bool.not_true, Bool.false_or, beq_eq_false_iff_ne]
      intro h0
      have : q.length = 0 := by rw [← hqn, h0]; rfl
      omega
    rw [hne, if_neg (by simp), if_pos hlong] at hv
    dsimp only [Comm.serverRecv, Comm.Got.err] at hv
    subst hv
    refine .inl ⟨rfl, rfl, by simp, ?_⟩
    rintro ⟨-, h⟩
    omega
  · have hle : q.length ≤ c.srv.comm.mtu := by
      rw [← mtu16_eq hsv, ← hqn]; exact Nat.not_lt.mp hlong
    have hrx : serverRecv { s with req := q, reqSize := UInt16.ofNat q.length, cap := mtu16 c.cli, buf := buf, pending := true }
        (mtu16 c.srv.comm) junk = (⟨.ok, UInt16.ofNat q.length, q ++ junk⟩,
          { s with req := q, reqSize := UInt16.ofNat q.length, cap := mtu16 c.cli, buf := buf, rspSize := 0, pending := false }) := by
      unfold serverRecv
      have hne : ((!true || UInt16.ofNat q.length == 0) : Bool) = false := by
        simp only [Bool.not_true, Bool.false_or, beq_eq_false_iff_ne]
        intro h0
        have : q.length = 0 := by rw [← hqn, h0]; rfl
        omega
      dsimp only
      rw [hne, if_neg (by simp), if_neg hlong, hqn, List.take_length]
    rw [hrx] at hv
    dsimp only at hv
    rcases Stack.recv_req (c := stack c) (le := le) (junk := junk) hsv hq.symm (shows_all hsv hle) with ⟨-, hx⟩ | ⟨-, e, hsl⟩
    · have : c.srv.comm.dataLen < data.length := hx
      omega
    have e' : Comm.serverRecv c.srv.comm c.srv.le c.srv.comm.dataLen ⟨.ok, UInt16.ofNat q.length, q ++ junk⟩ =
        ⟨.ok, if c.srv.le = le then magicNative else magicSwap, kind, seq, data⟩ := e
    rw [e'] at hv
    dsimp only at hv
    have hbuf : (q ++ junk).drop 8 = data ++ junk := by
      rw [← hq, List.append_assoc, List.drop_left' (Comm.header_length ..)]
    rw [hbuf] at hv
    generalize hr : (⟨if c.srv.le = le then magicNative else magicSwap, Server.actionOf kind, seq, data ++ junk, data.length⟩ :
      Server.Req) = r at hv
    generalize ha : Server.answer c.srv d c.x kind r = a at hv
    obtain ⟨resp, d'⟩ := a
    dsimp only at hv
    have hof : (⟨d, kind, r, resp, d'⟩ : Exec R).Of c le kind data d := by
      subst hr
      exact ⟨rfl, rfl, rfl, rfl, rfl, ⟨junk, rfl⟩, ha⟩
    unfold Comm.serverPacket at hv
    by_cases hl1 : resp.length > c.srv.comm.dataLen
    · rw [if_pos hl1] at hv
      subst hv
      refine .inr ⟨_, rfl, hof, rfl, .inl ⟨?_, by simp⟩⟩
      unfold Cfg.limit
      dsimp only
      omega
    · rw [if_neg hl1] at hv
      dsimp only at hv
      have hpe : header c.srv.le (if c.srv.le = le then magicNative else magicSwap) kind seq aux ++ resp =
        pkt c le kind seq aux resp := rfl
      rw [hpe] at hv
      unfold serverSend at hv
      rw [pkt_length] at hv
      dsimp only at hv
      rw [mtu16_eq hm] at hv
      by_cases hl2 : resp.length > c.cli.dataLen
      · rw [if_pos (by omega)] at hv
        subst hv
        refine .inr ⟨_, rfl, hof, rfl, .inl ⟨?_, by simp⟩⟩
        unfold Cfg.limit
        dsimp only
        omega
      · rw [if_neg (by omega)] at hv
        subst hv
        refine .inr ⟨_, rfl, hof, rfl, .inr ⟨?_, rfl, rfl, _, rfl⟩⟩
        unfold Cfg.limit
        dsimp only
        omega

/-- What the client holds. -/
def Holds (c : Cfg R) (le : Bool) (w : World R) : Turn → Prop
  | .none => w.client.pending = false ∧ w.cli.last = 0
  | .waits kind resp => w.client.pending = true ∧ resp.length ≤ c.limit ∧ w.cli.last = UInt16.ofNat (8 + resp.length) ∧
      ∃ aux rest, w.cli.buf = pkt c le kind w.client.seq aux resp ++ rest
  | .left => w.client.pending = false ∧ w.cli.last ≠ 0

structure Inv (c : Cfg R) (le : Bool) (w : World R) (t : Turn) : Prop where
  order : w.client.le = le
  ini : w.client.initialized = true
  up : w.cli.initialized = true
  holds : Holds c le w t

theorem inv_init (c : Cfg R) (le : Bool) (timer : Timeout) (d : Server.Dev R) : Inv c le (init c le timer d) .none :=
  ⟨rfl, rfl, rfl, rfl, rfl⟩

theorem holds_idle {w : World R} {t : Turn} (h : Holds c le w t) (hp : w.client.pending = false) :
    ∀ kind resp, t ≠ .waits kind resp := by
  rintro kind resp rfl
  have := h.1
  rw [hp] at this
  cases this

theorem got_any {cl : Comm.Client} {kind aux : UInt16} {resp junk : List UInt8} {cap : Option Nat} {now : UInt64} (hle : cl.le = le)
    (hi : cl.initialized = true) (hp : cl.pending = true) (hm : c.cli.mtu < 65536) (hr : resp.length ≤ c.cli.dataLen) :
    ∀ r, r = cl.recvResponse c.cli cap ⟨.ok, UInt16.ofNat (8 + resp.length), pkt c le kind cl.seq aux resp ++ junk⟩ now →
    ((r.1.rc = .ok ∧ r.1.kind = kind ∧ r.1.payload = resp) ∨ (r.1.rc = .bufferSize ∧ ∃ n, cap = some n ∧ n < resp.length)) ∧
    r.2.pending = false ∧ r.2.le = le ∧ r.2.initialized = true := by
  intro r hr'
  have hmm : c.cli.mtu = c.cli.dataLen + 8 := by unfold Comm.Cfg.mtu; omega
  have hn : (UInt16.ofNat (8 + resp.length)).toNat = 8 + resp.length := by
    rw [UInt16.toNat_ofNat']; exact Nat.mod_eq_of_lt (by omega)
  have hbad : Comm.badSize c.cli (UInt16.ofNat (8 + resp.length)) = false := by
    simp only [Comm.badSize, Bool.or_eq_false_iff, decide_eq_false_iff_not, hn]
    unfold Comm.Cfg.mtu
    omega
  have hst : (cl.stopTimer c.cli).le = cl.le ∧ (cl.stopTimer c.cli).seq = cl.seq ∧
      (cl.stopTimer c.cli).initialized = cl.initialized := by
    unfold Comm.Client.stopTimer; split <;> exact ⟨rfl, rfl, rfl⟩
  obtain ⟨r1, r2, r3⟩ := Comm.client_reads le c.srv.le _ kind cl.seq aux (resp ++ junk) rfl
  unfold Comm.Client.recvResponse at hr'
  rw [hi, hp] at hr'
  dsimp only at hr'
  rw [if_neg (by decide), if_neg (by decide), hbad, if_neg (by decide)] at hr'
  unfold Comm.Client.accept pkt Stack.respPkt stack at hr'
  dsimp only at hr'
  rw [hst.1, hst.2.1, hle, List.append_assoc, r1, if_neg (by simp), r3, if_neg (by simp), r2, hn,
    List.drop_left' (Comm.header_length ..), Nat.add_sub_cancel_left, List.take_left] at hr'
  cases cap with
  | none =>
    subst hr'
    exact ⟨.inl ⟨rfl, rfl, rfl⟩, rfl, by first | rfl | exact hst.1.trans hle, hst.2.2.trans hi⟩
  | some n =>
    dsimp only at hr'
    split at hr' <;> subst hr'
    · exact ⟨.inr ⟨rfl, n, rfl, by assumption⟩, rfl, by first | rfl | exact hst.1.trans hle, hst.2.2.trans hi⟩
    · exact ⟨.inl ⟨rfl, rfl, rfl⟩, rfl, by first | rfl | exact hst.1.trans hle, hst.2.2.trans hi⟩

theorem limit_le : c.limit ≤ c.cli.dataLen := by unfold Cfg.limit; omega

theorem poll_waits (hm : c.cli.mtu < 65536) {w : World R} {kind : UInt16} {resp : List UInt8} (h : Inv c le w (.waits kind resp))
    (cap : Option Nat) (junk : List UInt8) (now : UInt64) :
    ∃ g w', step c w (.poll cap junk now) = (w', .got g) ∧ w'.dev = w.dev ∧ Inv c le w' .none ∧
      ((g.rc = .ok ∧ g.kind = kind ∧ g.payload = resp) ∨ (g.rc = .bufferSize ∧ ∃ n, cap = some n ∧ n < resp.length)) := by
    have hmm : c.cli.mtu = c.cli.dataLen + 8 := by unfold Comm.Cfg.mtu; omega
    obtain ⟨hp, h1, h2, aux, rest, h3⟩ := h.holds
    have hrl : resp.length ≤ c.cli.dataLen := Nat.le_trans h1 limit_le
    have hn : (UInt16.ofNat (8 + resp.length)).toNat = 8 + resp.length := by
      rw [UInt16.toNat_ofNat']; exact Nat.mod_eq_of_lt (by omega)
    have hne : w.cli.last ≠ 0 := by
      rw [h2]; intro h0
      have : 8 + resp.length = 0 := by rw [← hn, h0]; rfl
      omega
    have hrx : clientRecv w.cli (mtu16 c.cli) junk =
        (⟨.ok, UInt16.ofNat (8 + resp.length), pkt c le kind w.client.seq aux resp ++ junk⟩, { w.cli with last := 0 }) := by
      unfold clientRecv
      have hroom : ¬ mtu16 c.cli < w.cli.last := by
        rw [h2]
        intro hx
        have : (mtu16 c.cli).toNat < (UInt16.ofNat (8 + resp.length)).toNat := hx
        rw [mtu16_eq hm, hn] at this
        omega
      rw [h.up, if_neg (by simp), if_neg hne, if_neg hroom, h3, h2, hn]
      have : (pkt c le kind w.client.seq aux resp ++ rest).take (8 + resp.length) = pkt c le kind w.client.seq aux resp := by
        rw [← pkt_length (c := c) (le := le) kind w.client.seq aux resp, List.take_left]
      rw [this]
      dsimp only
      rw [h3, h.up]
    simp only [step]
    rw [h.ini, hp, Bool.true_and, if_pos (by rfl), hrx]
    dsimp only
    obtain ⟨k1, k2, k3, k4⟩ := got_any (c := c) (kind := kind) (aux := aux) (junk := junk) (cap := cap) (now := now) h.order h.ini hp
      hm hrl _ rfl
    exact ⟨_, _, rfl, rfl, ⟨k3, k4, h.up, k2, rfl⟩, k1⟩

theorem inv_step (hm : c.cli.mtu < 65536) (hsv : c.srv.comm.mtu < 65536) {w : World R} {t : Turn} (h : Inv c le w t) (e : Ev R) :
    ∃ t', Next c le (t, w.dev) (step c w e).2 (t', (step c w e).1.dev) ∧ Inv c le (step c w e).1 t' := by
  have hmm : c.cli.mtu = c.cli.dataLen + 8 := by unfold Comm.Cfg.mtu; omega
  cases e with
  | other d => exact ⟨t, .change d, h.order, h.ini, h.up, by cases t <;> exact h.holds⟩
  | restart timer => exact ⟨.none, .restart, h.order, rfl, rfl, rfl, rfl⟩
  | abort =>
    have hc : ∃ tm, (w.client.abortPending c.cli).2 = { w.client with initialized := true, pending := false, timer := tm } := by
      unfold Comm.Client.abortPending Comm.Client.stopTimer
      rw [h.ini]
      simp only [Bool.not_true, Bool.false_eq_true, if_false]
      split <;> first | exact ⟨_, rfl⟩ | exact ⟨_, by rw [h.ini]⟩
    obtain ⟨tm, hc⟩ := hc
    simp only [step, hc]
    have hh := h.holds
    cases t with
    | none => exact ⟨.none, .giveUpNone (by simp), h.order, rfl, h.up, rfl, hh.2⟩
    | left => exact ⟨.left, .giveUpNone (by simp), h.order, rfl, h.up, rfl, hh.2⟩
    | waits kind resp =>
      refine ⟨.left, .giveUp, h.order, rfl, h.up, rfl, ?_⟩
      dsimp only
      rw [hh.2.2.1]
      intro h0
      have h1 := hh.2.1
      have h5 := limit_le (c := c)
      have h6 : (UInt16.ofNat (8 + resp.length)).toNat = 8 + resp.length := by
        rw [UInt16.toNat_ofNat']; exact Nat.mod_eq_of_lt (by omega)
      have : 8 + resp.length = 0 := by rw [← h6, h0]; rfl
      omega
  | poll cap junk now =>
    simp only [step]
    rw [h.ini, Bool.true_and]
    have hh := h.holds
    cases hp : w.client.pending with
    | false =>
      have hr : w.client.recvResponse c.cli cap ⟨.notready, 0, junk⟩ now = (.err .notready, w.client) := by
        unfold Comm.Client.recvResponse
        rw [h.ini, hp]
        rfl
      rw [if_neg (by simp), hr]
      refine ⟨t, .nothing _ rfl (holds_idle hh hp), h.order, h.ini, h.up, ?_⟩
      cases t <;> exact hh
    | true =>
      rw [if_pos (by rfl)]
      cases t with
      | none => rw [hh.1] at hp; cases hp
      | left => rw [hh.1] at hp; cases hp
      | waits kind resp =>
        obtain ⟨g, w', k0, k1, k2, k3⟩ := poll_waits hm h cap junk now
        simp only [step] at k0
        rw [h.ini, hp, Bool.true_and, if_pos (by rfl)] at k0
        rw [k0]
        dsimp only
        rw [k1]
        rcases k3 with ⟨g1, g2, g3⟩ | ⟨g1, -⟩
        · exact ⟨.none, .reply _ g1 g2 g3, k2⟩
        · exact ⟨.none, .small _ g1, k2⟩
  | send kind aux data now sjunk saux =>
    simp only [step]
    have hh := h.holds
    by_cases hno : w.client.pending = true ∨ data.length > c.cli.dataLen
    · have hr : ∃ rc, rc ≠ .ok ∧ (w.client.sendRequest c.cli magicNative kind aux data .ok now).1 = ⟨rc, none⟩ := by
        unfold Comm.Client.sendRequest
        rw [h.ini]
        cases hp : w.client.pending with
        | true => exact ⟨.requestPending, by simp, rfl⟩
        | false =>
          rw [hp] at hno
          have hl : data.length > c.cli.dataLen := by simpa using hno
          rw [if_neg (by simp), if_neg (by simp), if_pos hl]
          exact ⟨.badargs, by simp, rfl⟩
      obtain ⟨rc, h1, h2⟩ := hr
      rw [h2]
      exact ⟨t, .refused rc h1, h⟩
    · have hp : w.client.pending = false := by
        cases hx : w.client.pending with
        | true => exact absurd (.inl hx) hno
        | false => rfl
      have hl : data.length ≤ c.cli.dataLen := by
        by_cases hx : data.length ≤ c.cli.dataLen
        · exact hx
        · exact absurd (.inr (by omega)) hno
      have hok : ∃ rc tm, w.client.sendRequest c.cli magicNative kind aux data .ok now =
          (⟨rc, some (header w.client.le magicNative kind (w.client.seq + 1) aux ++ data)⟩,
            { w.client with initialized := true, seq := w.client.seq + 1, pending := true, timer := tm }) := by
        unfold Comm.Client.sendRequest
        rw [h.ini, hp, if_neg (by simp), if_neg (by simp), if_neg (by omega)]
        dsimp only
        split <;> exact ⟨_, _, rfl⟩
      have hbad : ∀ rc, rc ≠ .ok → w.client.sendRequest c.cli magicNative kind aux data rc now = (⟨rc, none⟩, w.client) := by
        intro rc hrc
        unfold Comm.Client.sendRequest
        rw [h.ini, hp, if_neg (by simp), if_neg (by simp), if_neg (by omega)]
        cases rc <;> first | exact absurd rfl hrc | rfl
      obtain ⟨rc0, tm, hok⟩ := hok
      rw [hok]
      dsimp only
      have hql : (header w.client.le magicNative kind (w.client.seq + 1) aux ++ data).length = 8 + data.length := by
        rw [List.length_append, Comm.header_length]
      unfold clientSend
      rw [h.up, if_neg (by simp), hql, if_neg (by omega)]
      cases t with
      | waits => have := hh.1; rw [hp] at this; cases this
      | left =>
        rw [if_pos hh.2]
        dsimp only
        rw [hbad _ (by simp)]
        exact ⟨.left, .refused _ (by simp), h.order, h.ini, h.up, hh⟩
      | none =>
        rw [if_neg (by rw [hh.2]; simp)]
        generalize hv : veneer c w.srv w.dev (header w.client.le magicNative kind (w.client.seq + 1) aux ++ data) (mtu16 c.cli) w.cli.buf
          sjunk saux = v
        have hvc := veneer_cases (le := w.client.le) hm hsv w.srv w.dev (kind := kind) (seq := w.client.seq + 1) (aux' := aux) hl
          w.cli.buf sjunk saux v hv.symm
        have hkn : ∀ rc, known rc ≠ .ok := by intro rc; cases rc <;> simp [known]
        have hfail : v.rc ≠ .ok → ∀ (P : Rc × World R × Option (Exec R) → Prop),
            P (known v.rc, ⟨w.client, ⟨v.srv.buf, 0, w.cli.initialized⟩, v.srv, v.dev⟩, v.ran) →
            P (match v.rc with
              | .ok =>
                if v.size = 0 ∨ v.size.toNat > c.cli.mtu then
                  (.aborted, ⟨w.client, ⟨v.srv.buf, 0, w.cli.initialized⟩, v.srv, v.dev⟩, v.ran)
                else (.ok, ⟨w.client, ⟨v.srv.buf, v.size, w.cli.initialized⟩, v.srv, v.dev⟩, v.ran)
              | rc => (known rc, ⟨w.client, ⟨v.srv.buf, 0, w.cli.initialized⟩, v.srv, v.dev⟩, v.ran)) := by
          intro hne P hP
          revert hne hP
          cases v.rc <;> intro hne hP <;> first | exact absurd rfl hne | exact hP
        dsimp only
        rcases hvc with ⟨v1, v2, v3, -⟩ | ⟨e, v1, v2, v3, ⟨v4, v5⟩ | ⟨v4, v5, v6, rest, v7⟩⟩
        · refine hfail v3 (fun t => ∃ t', Next c le (.none, w.dev) (.sent t.1 kind data t.2.2) (t', t.2.1.dev) ∧
            Inv c le { t.2.1 with client := (w.client.sendRequest c.cli magicNative kind aux data t.1 now).2 } t') ?_
          dsimp only
          rw [hbad _ (hkn _), v1, v2]
          exact ⟨.none, .refused _ (hkn _), h.order, h.ini, h.up, hp, rfl⟩
        · refine hfail v5 (fun t => ∃ t', Next c le (.none, w.dev) (.sent t.1 kind data t.2.2) (t', t.2.1.dev) ∧
            Inv c le { t.2.1 with client := (w.client.sendRequest c.cli magicNative kind aux data t.1 now).2 } t') ?_
          dsimp only
          rw [hbad _ (hkn _), v1, v3]
          rw [h.order] at v2
          exact ⟨.none, .lost _ e (hkn _) v2 v4, h.order, h.ini, h.up, hp, rfl⟩
        · have hrl : e.resp.length ≤ c.cli.dataLen := Nat.le_trans v4 limit_le
          have hn : v.size.toNat = 8 + e.resp.length := by
            rw [v6, UInt16.toNat_ofNat']; exact Nat.mod_eq_of_lt (by omega)
          have hsz : ¬ (v.size = 0 ∨ v.size.toNat > c.cli.mtu) := by
            rintro (h0 | h0)
            · have : 8 + e.resp.length = 0 := by rw [← hn, h0]; rfl
              omega
            · omega
          rw [v5]
          dsimp only
          rw [if_neg hsz]
          dsimp only
          rw [hok, v1, v3]
          rw [h.order] at v2 v7
          exact ⟨.waits kind e.resp, .ask e v2 v4, h.order, rfl, h.up, rfl, v4, v6, saux, rest, v7⟩

theorem inv_run (hm : c.cli.mtu < 65536) (hsv : c.srv.comm.mtu < 65536) : ∀ (es : List (Ev R)) {w : World R} {t : Turn},
    Inv c le w t → ∃ t', Accepts c le (t, w.dev) (run c w es).2 (t', (run c w es).1.dev) ∧ Inv c le (run c w es).1 t' := by
  intro es
  induction es with
  | nil => intro w t h; exact ⟨t, rfl, h⟩
  | cons e es ih =>
    intro w t h
    obtain ⟨t1, hn, h1⟩ := inv_step hm hsv h e
    obtain ⟨t2, ha, h2⟩ := ih h1
    exact ⟨t2, ⟨_, hn, ha⟩, h2⟩

/-! ## A request is completed -/

theorem completes (hm : c.cli.mtu < 65536) (hsv : c.srv.comm.mtu < 65536) {w : World R} (h : Inv c le w .none)
    (hconn : (w.dev.ctx c.x).connected = true) (kind aux : UInt16) (data : List UInt8) (now : UInt64) (sjunk : List UInt8)
    (saux : UInt16) (junk : List UInt8) (now' : UInt64) (hl1 : data.length ≤ c.cli.dataLen) (hl2 : data.length ≤ c.srv.comm.dataLen)
    (hfit : ∀ e : Exec R, e.Of c le kind data w.dev → e.resp.length ≤ c.limit) :
    ∃ w' e g, run c w [.send kind aux data now sjunk saux, .poll none junk now'] = (w', [.sent .ok kind data (some e), .got g]) ∧
      e.Of c le kind data w.dev ∧ w'.dev = e.after ∧ g.rc = .ok ∧ g.kind = kind ∧ g.payload = e.resp ∧ Inv c le w' .none := by
  have hmm : c.cli.mtu = c.cli.dataLen + 8 := by unfold Comm.Cfg.mtu; omega
  obtain ⟨t1, hn, h1⟩ := inv_step hm hsv h (.send kind aux data now sjunk saux)
  have hsent : ∃ e, (step c w (.send kind aux data now sjunk saux)).2 = .sent .ok kind data (some e) := by
    have hh := h.holds
    simp only [step]
    have hok : ∃ rc cl, w.client.sendRequest c.cli magicNative kind aux data .ok now =
        (⟨rc, some (header w.client.le magicNative kind (w.client.seq + 1) aux ++ data)⟩, cl) := by
      unfold Comm.Client.sendRequest
      rw [h.ini, hh.1, if_neg (by simp), if_neg (by simp), if_neg (by omega)]
      dsimp only
      split <;> exact ⟨_, _, rfl⟩
    obtain ⟨rc0, cl, hok⟩ := hok
    rw [hok]
    dsimp only
    have hql : (header w.client.le magicNative kind (w.client.seq + 1) aux ++ data).length = 8 + data.length := by
      rw [List.length_append, Comm.header_length]
    unfold clientSend
    rw [h.up, if_neg (by simp), hql, if_neg (by omega), if_neg (by rw [hh.2]; simp)]
    dsimp only
    generalize hv : veneer c w.srv w.dev (header w.client.le magicNative kind (w.client.seq + 1) aux ++ data) (mtu16 c.cli) w.cli.buf
      sjunk saux = v
    rcases veneer_cases (le := w.client.le) hm hsv w.srv w.dev (kind := kind) (seq := w.client.seq + 1) (aux' := aux) hl1
      w.cli.buf sjunk saux v hv.symm with ⟨_, _, _, hx⟩ | ⟨e, v1, v2, v3, ⟨v4, v5⟩ | ⟨v4, v5, v6, rest, v7⟩⟩
    · exact absurd ⟨hconn, hl2⟩ hx
    · rw [h.order] at v2
      have := hfit e v2
      omega
    · have hrl : e.resp.length ≤ c.cli.dataLen := Nat.le_trans v4 limit_le
      have hn : v.size.toNat = 8 + e.resp.length := by
        rw [v6, UInt16.toNat_ofNat']; exact Nat.mod_eq_of_lt (by omega)
      have hsz : ¬ (v.size = 0 ∨ v.size.toNat > c.cli.mtu) := by
        rintro (h0 | h0)
        · have : 8 + e.resp.length = 0 := by rw [← hn, h0]; rfl
          omega
        · omega
      rw [v5]
      dsimp only
      rw [if_neg hsz, v1]
      exact ⟨e, rfl⟩
  obtain ⟨e, he⟩ := hsent
  rw [he] at hn
  generalize hw1 : step c w (.send kind aux data now sjunk saux) = r1 at hn h1 he
  obtain ⟨w1, o1⟩ := r1
  dsimp only at hn h1 he
  subst he
  generalize hdv : w1.dev = d1 at hn
  cases hn with
  | lost rc e hrc => exact absurd rfl hrc
  | ask e hof hlim =>
    obtain ⟨g, w', k0, k1, k2, ⟨g1, g2, g3⟩ | ⟨-, n, hx, -⟩⟩ := poll_waits hm h1 none junk now'
    · refine ⟨w', e, g, ?_, hof, k1.trans hdv, g1, g2, g3, k2⟩
      simp only [run, hw1, k0]
    · cases hx

/-! ## Traces -/

theorem accepts_append {s s' : Turn × Server.Dev R} {as bs : List (Obs R)} (h : Accepts c le s (as ++ bs) s') :
    ∃ s1, Accepts c le s as s1 ∧ Accepts c le s1 bs s' := by
  induction as generalizing s with
  | nil => exact ⟨s, rfl, h⟩
  | cons o os ih =>
    obtain ⟨s1, hn, h⟩ := h
    obtain ⟨s2, h2, h3⟩ := ih h
    exact ⟨s2, ⟨s1, hn, h2⟩, h3⟩

theorem accepts_dev : ∀ (os : List (Obs R)) {t t' : Turn} {d d' : Server.Dev R}, Accepts c le (t, d) os (t', d') → d' = devAfter d os := by
  intro os
  induction os with
  | nil => intro t t' d d' h; cases h; rfl
  | cons o os ih =>
    rintro t t' d d' ⟨⟨t1, d1⟩, hn, h⟩
    have := ih h
    cases hn <;> exact this

/-- A response that is waited for comes from the last request; since then nothing was done. -/
theorem waits_from {kind : UInt16} {resp : List UInt8} {d' : Server.Dev R} : ∀ (os : List (Obs R)) {t : Turn} {d : Server.Dev R},
    Accepts c le (t, d) os (.waits kind resp, d') → (t = .waits kind resp ∧ ∀ o ∈ os, o.Idle) ∨
    ∃ a data e b, os = a ++ .sent .ok kind data (some e) :: b ∧ e.resp = resp ∧ ∀ o ∈ b, o.Idle := by
  intro os
  induction os with
  | nil => intro t d h; cases h; exact .inl ⟨rfl, by simp⟩
  | cons o os ih =>
    rintro t d ⟨⟨t1, d1⟩, hn, h⟩
    rcases ih h with ⟨rfl, hb⟩ | ⟨a, data, e, b, rfl, he, hb⟩
    · cases hn with
      | ask e => exact .inr ⟨[], _, e, os, rfl, rfl, hb⟩
      | refused rc hrc =>
        refine .inl ⟨rfl, ?_⟩
        intro o ho
        rcases List.mem_cons.mp ho with rfl | ho
        · exact ⟨hrc, rfl⟩
        · exact hb o ho
      | nothing g _ hx => exact absurd rfl (hx _ _)
      | giveUpNone hx => exact absurd rfl (hx _ _)
      | change =>
        refine .inl ⟨rfl, ?_⟩
        intro o ho
        rcases List.mem_cons.mp ho with rfl | ho
        · trivial
        · exact hb o ho
    · exact .inr ⟨o :: a, data, e, b, rfl, he, hb⟩

/-- After giving up nothing is done. -/
theorem left_stuck : ∀ (os : List (Obs R)) {t' : Turn} {d d' : Server.Dev R}, Accepts c le (.left, d) os (t', d') →
    (∀ o ∈ os, o ≠ .restarted) → ∀ o ∈ os, o.Stuck := by
  intro os
  induction os with
  | nil => intro _ _ _ _ _ o ho; cases ho
  | cons o os ih =>
    rintro t' d d' ⟨⟨t1, d1⟩, hn, h⟩ hr o' ho
    have hrest : ∀ o ∈ os, o ≠ .restarted := fun o ho => hr o (List.mem_cons_of_mem _ ho)
    have key : t1 = .left ∧ o.Stuck := by
      cases hn with
      | refused rc hrc => exact ⟨rfl, hrc, rfl⟩
      | nothing g hg => exact ⟨rfl, hg⟩
      | giveUpNone => exact ⟨rfl, trivial⟩
      | restart => exact absurd rfl (hr _ (List.mem_cons_self ..))
      | change => exact ⟨rfl, trivial⟩
    obtain ⟨rfl, k⟩ := key
    rcases List.mem_cons.mp ho with rfl | ho
    · exact k
    · exact ih h hrest o' ho

/-- Who has given up has done so since the last start. -/
theorem left_from {d' : Server.Dev R} : ∀ (os : List (Obs R)) {t : Turn} {d : Server.Dev R},
    Accepts c le (t, d) os (.left, d') → t ≠ .left → ∃ a b, os = a ++ .gaveUp :: b ∧ ∀ o ∈ b, o ≠ .restarted := by
  have main : ∀ (os : List (Obs R)) {t : Turn} {d : Server.Dev R}, Accepts c le (t, d) os (.left, d') →
      (t = .left ∧ ∀ o ∈ os, o ≠ .restarted) ∨ ∃ a b, os = a ++ .gaveUp :: b ∧ ∀ o ∈ b, o ≠ .restarted := by
    intro os
    induction os with
    | nil => intro t d h; cases h; exact .inl ⟨rfl, by simp⟩
    | cons o os ih =>
      rintro t d ⟨⟨t1, d1⟩, hn, h⟩
      rcases ih h with ⟨rfl, hb⟩ | ⟨a, b, rfl, hb⟩
      · have hcons : ∀ o1 : Obs R, o1 ≠ .restarted → ∀ o ∈ o1 :: os, o ≠ .restarted := by
          intro o1 h1 o ho
          rcases List.mem_cons.mp ho with rfl | ho
          · exact h1
          · exact hb o ho
        cases hn with
        | refused => exact .inl ⟨rfl, hcons _ (by simp)⟩
        | nothing => exact .inl ⟨rfl, hcons _ (by simp)⟩
        | giveUp => exact .inr ⟨[], os, rfl, hb⟩
        | giveUpNone => exact .inl ⟨rfl, hcons _ (by simp)⟩
        | change => exact .inl ⟨rfl, hcons _ (by simp)⟩
      · exact .inr ⟨o :: a, b, rfl, hb⟩
  intro os t d h ht
  rcases main os h with ⟨e, -⟩ | k
  · exact absurd e ht
  · exact k

theorem restarted_from : ∀ (es : List (Ev R)) {w : World R}, .restarted ∈ (run c w es).2 → ∃ tm, .restart tm ∈ es := by
  intro es
  induction es with
  | nil => intro w h; cases h
  | cons e es ih =>
    intro w h
    simp only [run, List.mem_cons] at h
    rcases h with h | h
    · cases e with
      | restart tm => exact ⟨tm, List.mem_cons_self ..⟩
      | send kind aux data now sjunk saux =>
        simp only [step] at h
        split at h <;> cases h
      | poll cap junk now =>
        simp only [step] at h
        split at h <;> cases h
      | abort => cases h
      | other => cases h
    · obtain ⟨tm, h⟩ := ih h
      exact ⟨tm, List.mem_cons_of_mem _ h⟩

end WolfHsm.Nsc

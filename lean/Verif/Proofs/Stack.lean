import Verif.Spec.Stack
import Verif.Proofs.Comm
import Verif.Proofs.TransportMem

/-! # The stack: invariant -/

namespace WolfHsm.Stack

open Utils (magicNative magicSwap)
open Comm (header)

variable {R : Type}

/-! ## Where a call in the transport is -/

def cMsg : Mem.CPc → Option (List UInt8)
  | .send1 m => some m
  | .send2 m _ => some m
  | .sendCopy m _ _ => some m
  | _ => none

def cCap : Mem.CPc → Option UInt16
  | .recv1 c => some c
  | .recv2 c _ => some c
  | .recvCopy c _ _ _ => some c
  | _ => none

def sMsg : Mem.SPc → Option (List UInt8)
  | .send1 m => some m
  | .send2 m _ => some m
  | .sendCopy m _ _ => some m
  | _ => none

def sCap : Mem.SPc → Option UInt16
  | .recv1 c => some c
  | .recv2 c _ => some c
  | .recvCopy c _ _ _ => some c
  | _ => none

theorem cStep_msg {k : Mem.Cfg} {m : Mem.Shm} {pc : Mem.CPc} {msg : List UInt8} (h : cMsg pc = some msg) :
    ((Mem.cStep k m pc).2.2 = none ∧ cMsg (Mem.cStep k m pc).2.1 = some msg) ∨
    ((Mem.cStep k m pc).2.1 = .idle ∧ ((Mem.cStep k m pc).2.2 = some (.sent msg) ∨ (Mem.cStep k m pc).2.2 = some .clientBusy)) ∨
    (Mem.cStep k m pc).1.ub = true := by
  cases pc <;> simp only [cMsg, Option.some.injEq, reduceCtorEq] at h <;> subst h
  · exact .inl ⟨rfl, rfl⟩
  · unfold Mem.cStep; dsimp only
    split
    · exact .inr (.inl ⟨rfl, .inr rfl⟩)
    · exact .inl ⟨rfl, rfl⟩
  · unfold Mem.cStep; dsimp only
    split
    · split
      · exact .inl ⟨rfl, rfl⟩
      · exact .inr (.inr rfl)
    · exact .inr (.inl ⟨rfl, .inl rfl⟩)

theorem cStep_cap {k : Mem.Cfg} {m : Mem.Shm} {pc : Mem.CPc} {cap : UInt16} (h : cCap pc = some cap) :
    ((Mem.cStep k m pc).2.2 = none ∧ cCap (Mem.cStep k m pc).2.1 = some cap) ∨
    ((Mem.cStep k m pc).2.1 = .idle ∧ ((∃ len bytes, (Mem.cStep k m pc).2.2 = some (.got cap len bytes)) ∨
      (Mem.cStep k m pc).2.2 = some .clientBusy)) ∨
    (Mem.cStep k m pc).1.ub = true := by
  cases pc <;> simp only [cCap, Option.some.injEq, reduceCtorEq] at h <;> subst h
  · exact .inl ⟨rfl, rfl⟩
  · unfold Mem.cStep; dsimp only
    split
    · exact .inr (.inl ⟨rfl, .inr rfl⟩)
    · exact .inl ⟨rfl, rfl⟩
  · unfold Mem.cStep; dsimp only
    split
    · split
      · exact .inl ⟨rfl, rfl⟩
      · exact .inr (.inr rfl)
    · exact .inr (.inl ⟨rfl, .inl ⟨_, _, rfl⟩⟩)

theorem sStep_msg {k : Mem.Cfg} {m : Mem.Shm} {todo : Bool} {pc : Mem.SPc} {msg : List UInt8} (h : sMsg pc = some msg) :
    ((Mem.sStep k m todo pc).2.2.1 = none ∧ sMsg (Mem.sStep k m todo pc).2.1 = some msg) ∨
    ((Mem.sStep k m todo pc).2.1 = .idle ∧ (Mem.sStep k m todo pc).2.2.1 = some (.answered msg)) ∨
    (Mem.sStep k m todo pc).1.ub = true := by
  cases pc <;> simp only [sMsg, Option.some.injEq, reduceCtorEq] at h <;> subst h
  · exact .inl ⟨rfl, rfl⟩
  · exact .inl ⟨rfl, rfl⟩
  · unfold Mem.sStep; dsimp only
    split
    · split
      · exact .inl ⟨rfl, rfl⟩
      · exact .inr (.inr rfl)
    · exact .inr (.inl ⟨rfl, rfl⟩)

theorem sStep_cap {k : Mem.Cfg} {m : Mem.Shm} {todo : Bool} {pc : Mem.SPc} {cap : UInt16} (h : sCap pc = some cap) :
    ((Mem.sStep k m todo pc).2.2.1 = none ∧ sCap (Mem.sStep k m todo pc).2.1 = some cap) ∨
    ((Mem.sStep k m todo pc).2.1 = .idle ∧ ((∃ len bytes, (Mem.sStep k m todo pc).2.2.1 = some (.received cap len bytes) ∧
        (Mem.sStep k m todo pc).2.2.2 = true) ∨
      (Mem.sStep k m todo pc).2.2.1 = some .serverBusy)) ∨
    (Mem.sStep k m todo pc).1.ub = true := by
  cases pc <;> simp only [sCap, Option.some.injEq, reduceCtorEq] at h <;> subst h
  · exact .inl ⟨rfl, rfl⟩
  · unfold Mem.sStep; dsimp only
    split
    · exact .inr (.inl ⟨rfl, .inr rfl⟩)
    · exact .inl ⟨rfl, rfl⟩
  · unfold Mem.sStep; dsimp only
    split
    · split
      · exact .inl ⟨rfl, rfl⟩
      · exact .inr (.inr rfl)
    · exact .inr (.inl ⟨rfl, .inl ⟨_, _, rfl, rfl⟩⟩)

theorem pc_c (pc : Mem.CPc) : pc = .idle ∨ (∃ m, cMsg pc = some m) ∨ ∃ c, cCap pc = some c := by
  cases pc <;> simp [cMsg, cCap]

theorem pc_s (pc : Mem.SPc) : pc = .idle ∨ (∃ m, sMsg pc = some m) ∨ ∃ c, sCap pc = some c := by
  cases pc <;> simp [sMsg, sCap]

theorem sMsg_of_cap {pc : Mem.SPc} {c : UInt16} (h : sCap pc = some c) : sMsg pc = none := by
  cases pc <;> simp_all [sMsg, sCap]

/-! ## Invariant -/

/-- The response packet. -/
def respPkt (c : Cfg R) (le : Bool) (kind seq aux : UInt16) (resp : List UInt8) : List UInt8 :=
  header c.srv.le (if c.srv.le = le then magicNative else magicSwap) kind seq aux ++ resp

/-- What the channel carries. -/
def Link (c : Cfg R) (le : Bool) (seq : UInt16) (s : Mem.SPc) : Turn → Mem.Chan → Prop
  | .none, .answered _ => True
  | .done kind resp _, .answered p => ∃ aux, p = respPkt c le kind seq aux resp
  | .asked kind data _, .requested m _ => (∃ aux, m = header le magicNative kind seq aux ++ data) ∧
      data.length ≤ c.cli.dataLen ∧ sMsg s = none
  | .done kind resp _, .requested _ _ => ∃ aux, sMsg s = some (respPkt c le kind seq aux resp)
  | _, _ => False

/-- What the client is doing. -/
def Doing (c : Cfg R) (cl : Comm.Client) (pc : Mem.CPc) : Busy → Prop
  | .free => pc = .idle
  | .sending kind aux data _ => cl.pending = false ∧ data.length ≤ c.cli.dataLen ∧
      cMsg pc = some (header cl.le magicNative kind (cl.seq + 1) aux ++ data)
  | .polling _ _ _ => cl.pending = true ∧ cCap pc = some (mtu16 c.cli)

structure Inv (c : Cfg R) (le : Bool) (w : World R) (t : Turn) (ch : Mem.Chan) : Prop where
  sim : Mem.Sim c.mem w.mem ch
  link : Link c le w.client.seq w.mem.s t ch
  le : w.client.le = le
  ini : w.client.initialized = true
  wait : w.client.pending = true → t.waits = true
  doing : Doing c w.client w.mem.c w.busy
  cap : ∀ cap, sCap w.mem.s = some cap → cap = mtu16 c.srv.comm

theorem inv_init (c : Cfg R) (le : Bool) (timer : Timeout) (d : Server.Dev R) :
    Inv c le (init c le timer d) .none (.answered []) :=
  ⟨Mem.sim_init _, trivial, rfl, rfl, (fun h => by cases h), rfl, (fun cap h => by cases h)⟩

/-- What an event may lead to. -/
def Goes (c : Cfg R) (le : Bool) (d : Server.Dev R) (t : Turn) (r : World R × List (Obs R)) : Prop :=
  ∃ t' ch', Accepts c le (t, d) r.2 (t', r.1.dev) ∧ Inv c le r.1 t' ch'

theorem Goes.quiet {c : Cfg R} {le : Bool} {w : World R} {t : Turn} {ch : Mem.Chan} (h : Inv c le w t ch) :
    Goes c le w.dev t (w, []) := ⟨t, ch, rfl, h⟩

variable {c : Cfg R} {le : Bool} {w : World R} {t : Turn} {ch : Mem.Chan}

theorem link_idle {seq : UInt16} {s : Mem.SPc} (h : Link c le seq s t ch) (h1 : sMsg s = none) {s' : Mem.SPc}
    (h2 : sMsg s' = none) : Link c le seq s' t ch := by
  cases t <;> cases ch <;> unfold Link at h ⊢ <;> try exact h
  · exact ⟨h.1, h.2.1, h2⟩
  · obtain ⟨aux, h⟩ := h; rw [h1] at h; cases h

theorem link_msg {seq : UInt16} {s : Mem.SPc} (h : Link c le seq s t ch) {s' : Mem.SPc} (h2 : sMsg s' = sMsg s) :
    Link c le seq s' t ch := by
  cases t <;> cases ch <;> unfold Link at h ⊢ <;> first | exact h | exact ⟨h.1, h.2.1, h2.trans h.2.2⟩ | (rw [h2]; exact h)

theorem link_stop {seq : UInt16} {s : Mem.SPc} (h : Link c le seq s t ch) : Link c le seq s t.stop ch := by
  cases t <;> cases ch <;> exact h

/-- Events of the client leave the server's program counter alone, and the other way round. -/
theorem mem_cSend (k : Mem.Cfg) (y : Mem.Sys) (p : List UInt8) (hc : y.c = .idle) (hp : p.length < 65536) :
    Mem.step k y (.cSend p) = (y, some .refused) ∨ Mem.step k y (.cSend p) = ({ y with c := .send1 p }, none) := by
  simp only [Mem.step, if_pos (And.intro hc hp)]
  split
  · exact .inl rfl
  · exact .inr rfl

theorem recv_frame {cap : Option Nat} {rx : Comm.Rx} {now : UInt64} (cl : Comm.Client) :
    (cl.recvResponse c.cli cap rx now).2.le = cl.le ∧ (cl.recvResponse c.cli cap rx now).2.initialized = cl.initialized ∧
    (cl.recvResponse c.cli cap rx now).2.seq = cl.seq ∧
    ((cl.recvResponse c.cli cap rx now).2.pending = true → cl.pending = true) := by
  refine Comm.recvResponse_cases
    (P := fun r => r.2.le = cl.le ∧ r.2.initialized = cl.initialized ∧ r.2.seq = cl.seq ∧ (r.2.pending = true → cl.pending = true))
    c.cli cl cap rx now ?_ ?_
  · intro g c' _ h1 h2 h3 h4; exact ⟨h1, h2, h3, h4⟩
  · intro c' hi hp _ _ _ _ _ h1 h2 h3 _; exact ⟨h1, h2.trans hi.symm, h3, fun _ => hp⟩

theorem poll_none {cap : Option Nat} {buf : List UInt8} {now : UInt64} (cl : Comm.Client) :
    (cl.recvResponse c.cli cap ⟨.notready, 0, buf⟩ now).1.rc ≠ .ok := by
  refine Comm.recvResponse_cases (P := fun r => r.1.rc ≠ .ok) c.cli cl cap _ now ?_ ?_
  · intro g c' h _ _ _ _; exact h
  · intro c' _ _ h; cases h

section
variable (h1 : 8 ≤ c.mem.reqSize.toNat) (h2 : 8 ≤ c.mem.respSize.toNat)
include h1 h2

theorem go_send (hm : c.cli.mtu < 65536) (h : Inv c le w t ch) (kind aux : UInt16) (data : List UInt8) (now : UInt64) :
    Goes c le w.dev t (step c w (.send kind aux data now)) := by
  simp only [step]
  have hd := h.doing
  cases hb : w.busy with
  | sending => exact .quiet h
  | polling => exact .quiet h
  | free =>
    rw [hb] at hd
    have hc : w.mem.c = .idle := hd
    dsimp only
    refine Comm.sendRequest_cases (P := fun r => Goes c le w.dev t (match r.1.packet with
      | none => (w, [.refused r.1.rc])
      | some p => match (Mem.step c.mem w.mem (.cSend p)).2 with
        | some _ => (w, [.refused .badargs])
        | none => ({ w with mem := (Mem.step c.mem w.mem (.cSend p)).1, busy := .sending kind aux data now }, [])))
      c.cli w.client magicNative kind aux data .ok now ?_ ?_
    · intro rc hrc
      exact ⟨t, ch, ⟨_, .refused _ hrc, rfl⟩, h⟩
    · intro hi hp hlen _ rc tm
      dsimp only
      generalize hpk : header w.client.le magicNative kind (w.client.seq + 1) aux ++ data = p
      have hpl : p.length < 65536 := by
        rw [← hpk, List.length_append, Comm.header_length]
        unfold Comm.Cfg.mtu at hm; omega
      rcases mem_cSend c.mem w.mem p hc hpl with e | e
      · rw [e]; exact ⟨t, ch, ⟨_, .refused _ (by simp), rfl⟩, h⟩
      · rw [e]; dsimp only
        obtain ⟨ch', hf, hs⟩ := Mem.sim_step h1 h2 h.sim (.cSend p)
        rw [e] at hf hs
        subst hf
        exact ⟨t, _, rfl, hs, h.link, h.le, h.ini, h.wait, ⟨hp, hlen, by rw [hpk]; rfl⟩, h.cap⟩

theorem go_poll (h : Inv c le w t ch) (cap : Option Nat) (junk : List UInt8) (now : UInt64) :
    Goes c le w.dev t (step c w (.poll cap junk now)) := by
  simp only [step]
  have hd := h.doing
  cases hb : w.busy with
  | sending => exact .quiet h
  | polling => exact .quiet h
  | free =>
    rw [hb] at hd
    have hc : w.mem.c = .idle := hd
    dsimp only
    split
    · rename_i hp
      have hp : w.client.pending = true := by rw [h.ini] at hp; simpa using hp
      obtain ⟨ch', hf, hs⟩ := Mem.sim_step h1 h2 h.sim (.cRecv (mtu16 c.cli))
      have e : Mem.step c.mem w.mem (.cRecv (mtu16 c.cli)) = ({ w.mem with c := .recv1 (mtu16 c.cli) }, none) := by
        simp only [Mem.step, if_pos hc]
      rw [e] at hf hs ⊢
      subst hf
      exact ⟨t, _, rfl, hs, h.link, h.le, h.ini, h.wait, ⟨hp, rfl⟩, h.cap⟩
    · obtain ⟨f1, f2, f3, f4⟩ := recv_frame (c := c) (cap := cap) (rx := ⟨.notready, 0, junk⟩) (now := now) w.client
      refine ⟨t, ch, ⟨_, .nothing _ (poll_none _), rfl⟩, h.sim, ?_, f1.trans h.le, f2.trans h.ini, fun hx => h.wait (f4 hx), ?_, h.cap⟩
      · dsimp only; rw [f3]; exact h.link
      · dsimp only; exact hc

omit h1 h2 in
theorem go_abort (h : Inv c le w t ch) : Goes c le w.dev t (step c w .abort) := by
  simp only [step]
  have hd := h.doing
  cases hb : w.busy with
  | sending => exact .quiet h
  | polling => exact .quiet h
  | free =>
    rw [hb] at hd
    have hc : w.mem.c = .idle := hd
    obtain ⟨f1, f2, f3, f4⟩ := Comm.abortPending_frame c.cli w.client
    refine ⟨t.stop, ch, ⟨_, .giveUp, rfl⟩, h.sim, ?_, f1.trans h.le, f2.trans h.ini, ?_, ?_, h.cap⟩
    · dsimp only; rw [f3]; exact link_stop h.link
    · dsimp only; rw [Comm.abort_not_pending _ _ h.ini]; intro hx; cases hx
    · dsimp only; exact hc

omit h1 h2 in
theorem go_other (h : Inv c le w t ch) (d : Server.Dev R) : Goes c le w.dev t (step c w (.other d)) :=
  ⟨t, ch, ⟨_, .change d, rfl⟩, h.sim, h.link, h.le, h.ini, h.wait, h.doing, h.cap⟩

theorem go_serve (h : Inv c le w t ch) : Goes c le w.dev t (step c w .serve) := by
  simp only [step]
  split
  · obtain ⟨ch', hf, hs⟩ := Mem.sim_step h1 h2 h.sim (.sRecv (mtu16 c.srv.comm))
    by_cases hi : w.mem.s = .idle
    · have e : Mem.step c.mem w.mem (.sRecv (mtu16 c.srv.comm)) = ({ w.mem with s := .recv1 (mtu16 c.srv.comm) }, none) := by
        simp only [Mem.step, if_pos hi]
      rw [e] at hf hs ⊢
      subst hf
      refine ⟨t, _, rfl, hs, link_idle h.link (by rw [hi]; rfl) rfl, h.le, h.ini, h.wait, h.doing, ?_⟩
      intro cap hx
      exact (Option.some.inj hx).symm
    · have e : Mem.step c.mem w.mem (.sRecv (mtu16 c.srv.comm)) = (w.mem, none) := by
        simp only [Mem.step, if_neg hi]
      rw [e]
      exact ⟨t, _, rfl, h.sim, h.link, h.le, h.ini, h.wait, h.doing, h.cap⟩
  · exact .quiet h

omit h1 h2 in
/-- A response the client accepts. -/
theorem got_resp {cl : Comm.Client} {kind aux : UInt16} {resp junk : List UInt8} {len : UInt16} {bytes : List UInt8}
    {cap : Option Nat} {now : UInt64} (hle : cl.le = le) (hm : c.cli.mtu < 65536)
    (hs : Mem.Shows (respPkt c le kind cl.seq aux resp) (mtu16 c.cli) len bytes) :
    ((cl.recvResponse c.cli cap ⟨.ok, len, bytes ++ junk⟩ now).1.rc ≠ .ok) ∨
    ((cl.recvResponse c.cli cap ⟨.ok, len, bytes ++ junk⟩ now).1.kind = kind ∧
      (cl.recvResponse c.cli cap ⟨.ok, len, bytes ++ junk⟩ now).1.payload = resp ∧
      (cl.recvResponse c.cli cap ⟨.ok, len, bytes ++ junk⟩ now).2.pending = false ∧ cl.pending = true) := by
  obtain ⟨hl, hb⟩ := hs
  refine Comm.recvResponse_cases
    (P := fun r => r.1.rc ≠ .ok ∨ (r.1.kind = kind ∧ r.1.payload = resp ∧ r.2.pending = false ∧ cl.pending = true))
    c.cli cl cap _ now ?_ ?_
  · intro g c' h _ _ _ _; exact .inl h
  · intro c' _ hp _ h3 h4 _ _ _ _ _ h5
    dsimp only at h3 h4 ⊢
    have hmt : (mtu16 c.cli).toNat = c.cli.mtu := by
      unfold mtu16; rw [UInt16.toNat_ofNat']; exact Nat.mod_eq_of_lt hm
    have hbe : bytes = respPkt c le kind cl.seq aux resp := by
      rw [hb, List.take_of_length_le (by rw [hmt, ← hl]; exact h4)]
    have hlen : len.toNat = 8 + resp.length := by
      rw [hl]; unfold respPkt; rw [List.length_append, Comm.header_length]
    subst hbe
    refine .inr ⟨?_, ?_, h5, hp⟩
    · unfold respPkt
      rw [hle, List.append_assoc]
      exact (Comm.client_reads le c.srv.le _ kind cl.seq aux _ rfl).2.1
    · unfold respPkt
      rw [hlen, List.append_assoc, List.drop_left' (Comm.header_length ..), Nat.add_sub_cancel_left, List.take_left]

theorem go_cStep (hm : c.cli.mtu < 65536) (h : Inv c le w t ch) : Goes c le w.dev t (step c w .cStep) := by
  simp only [step]
  obtain ⟨ch', hf, hs⟩ := Mem.sim_step h1 h2 h.sim .cStep
  have hub := hs.ub
  have hst : Mem.step c.mem w.mem .cStep =
      ({ w.mem with shm := (Mem.cStep c.mem w.mem.shm w.mem.c).1, c := (Mem.cStep c.mem w.mem.shm w.mem.c).2.1 },
        (Mem.cStep c.mem w.mem.shm w.mem.c).2.2) := rfl
  rw [hst] at hf hs hub ⊢
  dsimp only at hf hs hub ⊢
  have hd := h.doing
  have hub' : ¬ (Mem.cStep c.mem w.mem.shm w.mem.c).1.ub = true := by rw [hub]; simp
  cases hb : w.busy with
  | free =>
    rw [hb] at hd
    have hc : w.mem.c = .idle := hd
    rw [hc] at hf hs ⊢
    dsimp only [Mem.cStep] at hf hs ⊢
    subst hf
    refine ⟨t, _, rfl, hs, h.link, h.le, h.ini, h.wait, ?_, h.cap⟩
    dsimp only; rfl
  | sending kind aux data now =>
    rw [hb] at hd
    obtain ⟨d1, d2, d3⟩ := hd
    rcases cStep_msg (k := c.mem) (m := w.mem.shm) d3 with ⟨e1, e2⟩ | ⟨e1, e2 | e2⟩ | e
    · rw [e1] at hf ⊢
      subst hf
      refine ⟨t, _, rfl, hs, h.link, h.le, h.ini, h.wait, ?_, h.cap⟩
      dsimp only; exact ⟨d1, d2, e2⟩
    · rw [e2] at hf ⊢
      dsimp only
      unfold returned
      dsimp only
      have hsend : ∀ r : Comm.Sent × Comm.Client,
          (∃ rc tm, r = (⟨rc, some (header w.client.le magicNative kind (w.client.seq + 1) aux ++ data)⟩,
            { w.client with seq := w.client.seq + 1, pending := true, timer := tm })) →
          Goes c le w.dev t (⟨r.2, .free, ⟨(Mem.cStep c.mem w.mem.shm w.mem.c).1, (Mem.cStep c.mem w.mem.shm w.mem.c).2.1,
            w.mem.s, w.mem.todo⟩, w.dev⟩, [.asked kind data]) := by
        rintro _ ⟨rc, tm, rfl⟩
        cases ch with
        | requested q seen => cases hf
        | answered r =>
          cases hf
          have hlk := h.link
          have hover : t.over = true := by
            cases t <;> first | rfl | exact hlk.elim
          have hsm : sMsg w.mem.s = none := by
            rcases pc_s w.mem.s with e | ⟨m, e⟩ | ⟨cp, e⟩
            · rw [e]; rfl
            · exfalso
              have := h.sim.srv
              cases hss : w.mem.s <;> rw [hss] at e this <;> first | exact this.elim | cases e
            · exact sMsg_of_cap e
          refine ⟨.asked kind data true, _, ⟨_, .ask _ _ hover, rfl⟩, hs, ⟨⟨aux, ?_⟩, d2, hsm⟩, h.le, h.ini, fun _ => rfl, e1, h.cap⟩
          dsimp only; rw [h.le]
      refine hsend _ ?_
      unfold Comm.Client.sendRequest
      rw [h.ini, d1, if_neg (by simp), if_neg (by simp), if_neg (by omega)]
      dsimp only
      split
      · exact ⟨_, _, by rw [h.ini]⟩
      · exact ⟨_, w.client.timer, by rw [h.ini]⟩
    · rw [e2] at hf ⊢
      dsimp only
      unfold returned
      dsimp only
      have hch : ch' = ch := by cases ch <;> exact (Option.some.inj hf).symm
      subst hch
      exact ⟨t, _, ⟨_, .refused _ (by simp), rfl⟩, hs, h.link, h.le, h.ini, h.wait, e1, h.cap⟩
    · exact absurd e hub'
  | polling cap junk now =>
    rw [hb] at hd
    obtain ⟨d1, d2⟩ := hd
    rcases cStep_cap (k := c.mem) (m := w.mem.shm) d2 with ⟨e1, e2⟩ | ⟨e1, ⟨len, bytes, e2⟩ | e2⟩ | e
    · rw [e1] at hf ⊢
      subst hf
      refine ⟨t, _, rfl, hs, h.link, h.le, h.ini, h.wait, ?_, h.cap⟩
      dsimp only; exact ⟨d1, e2⟩
    · rw [e2] at hf ⊢
      dsimp only
      unfold returned
      dsimp only
      obtain ⟨f1, f2, f3, f4⟩ := recv_frame (c := c) (cap := cap) (rx := ⟨.ok, len, bytes ++ junk⟩) (now := now) w.client
      cases ch with
      | requested q seen => cases hf
      | answered r =>
        have hshow : Mem.Shows r (mtu16 c.cli) len bytes ∧ ch' = .answered r := by
          change (if Mem.Shows r (mtu16 c.cli) len bytes then some (Mem.Chan.answered r) else none) = some ch' at hf
          split at hf <;> rename_i hx
          · exact ⟨hx, (Option.some.inj hf).symm⟩
          · cases hf
        obtain ⟨hshow, rfl⟩ := hshow
        have hw := h.wait d1
        have hlk := h.link
        cases t with
        | none => cases hw
        | asked => exact hlk.elim
        | done k rsp wt =>
          obtain ⟨aux, rfl⟩ := hlk
          have hwt : wt = true := hw
          subst hwt
          rcases got_resp (junk := junk) (cap := cap) (now := now) h.le hm hshow with hn | ⟨g1, g2, g3, g4⟩
          · refine ⟨_, _, ⟨_, .nothing _ hn, rfl⟩, hs, ?_, f1.trans h.le, f2.trans h.ini, fun hx => h.wait (f4 hx), e1, h.cap⟩
            dsimp only; rw [f3]; exact h.link
          · by_cases hok : (w.client.recvResponse c.cli cap ⟨.ok, len, bytes ++ junk⟩ now).1.rc = .ok
            · refine ⟨_, _, ⟨_, .reply _ hok g1 g2, rfl⟩, hs, ?_, f1.trans h.le, f2.trans h.ini, ?_, e1, h.cap⟩
              · dsimp only; rw [f3]; exact ⟨aux, rfl⟩
              · dsimp only; rw [g3]; intro hx; cases hx
            · refine ⟨_, _, ⟨_, .nothing _ hok, rfl⟩, hs, ?_, f1.trans h.le, f2.trans h.ini, fun hx => h.wait (f4 hx), e1, h.cap⟩
              dsimp only; rw [f3]; exact h.link
    · rw [e2] at hf ⊢
      dsimp only
      unfold returned
      dsimp only
      obtain ⟨f1, f2, f3, f4⟩ := recv_frame (c := c) (cap := cap) (rx := ⟨.notready, 0, junk⟩) (now := now) w.client
      have hch : ch' = ch := by cases ch <;> exact (Option.some.inj hf).symm
      subst hch
      refine ⟨t, _, ⟨_, .nothing _ (poll_none _), rfl⟩, hs, ?_, f1.trans h.le, f2.trans h.ini, fun hx => h.wait (f4 hx), e1, h.cap⟩
      dsimp only; rw [f3]; exact h.link
    · exact absurd e hub'

omit h1 h2 in
/-- What the server makes of a request. -/
theorem recv_req {q bytes junk data : List UInt8} {kind seq aux len : UInt16} (hs : c.srv.comm.mtu < 65536)
    (hq : q = header le magicNative kind seq aux ++ data) (hsh : Mem.Shows q (mtu16 c.srv.comm) len bytes) :
    (Comm.serverRecv c.srv.comm c.srv.le c.srv.comm.dataLen ⟨.ok, len, bytes ++ junk⟩ = .err .aborted ∧
      c.srv.comm.dataLen < data.length) ∨
    (bytes = q ∧ Comm.serverRecv c.srv.comm c.srv.le c.srv.comm.dataLen ⟨.ok, len, bytes ++ junk⟩ =
      ⟨.ok, if c.srv.le = le then magicNative else magicSwap, kind, seq, data⟩ ∧ data.length ≤ c.srv.comm.dataLen) := by
  obtain ⟨hl, hb⟩ := hsh
  unfold Comm.serverRecv
  dsimp only
  by_cases hbad : Comm.badSize c.srv.comm len = true
  · rw [if_pos hbad]
    refine .inl ⟨rfl, ?_⟩
    simp only [Comm.badSize, Bool.or_eq_true, decide_eq_true_eq] at hbad
    rw [hl, hq, List.length_append, Comm.header_length] at hbad
    unfold Comm.Cfg.mtu at hbad
    omega
  · rw [if_neg hbad]
    simp only [Comm.badSize, Bool.or_eq_true, decide_eq_true_eq, not_or, Nat.not_lt] at hbad
    have hmt : (mtu16 c.srv.comm).toNat = c.srv.comm.mtu := by
      unfold mtu16; rw [UInt16.toNat_ofNat']; exact Nat.mod_eq_of_lt hs
    have hbe : bytes = q := by
      rw [hb, List.take_of_length_le (by rw [hmt, ← hl]; omega)]
    have hlen : len.toNat = 8 + data.length := by
      rw [hl, hq, List.length_append, Comm.header_length]
    refine .inr ⟨hbe, ?_, by have := hbad.2; unfold Comm.Cfg.mtu at this; omega⟩
    have hr := Comm.server_reads le c.srv.le kind seq aux (data ++ junk)
    dsimp only at hr
    obtain ⟨r1, r2, r3⟩ := hr
    have hcap : ¬ len.toNat - 8 > c.srv.comm.dataLen := by
      have := hbad.2
      unfold Comm.Cfg.mtu at this
      omega
    rw [if_neg hcap, hbe, hq, List.append_assoc, r2, r3, r1, hlen, List.drop_left' (Comm.header_length ..),
      Nat.add_sub_cancel_left, List.take_left]

omit h2 in
theorem go_handled (h3 : 16 ≤ c.mem.respSize.toNat) (hsv : c.srv.comm.mtu < 65536) {kind : UInt16} {data : List UInt8} {wt : Bool}
    {q : List UInt8} {len : UInt16} {bytes : List UInt8}
    (h : Inv c le w (.asked kind data wt) (.requested q true)) (hi : w.mem.s = .idle) (ht : w.mem.todo = true)
    (hsh : Mem.Shows q (mtu16 c.srv.comm) len bytes) (junk : List UInt8) (aux : UInt16) :
    Goes c le w.dev (.asked kind data wt) (handled c w ⟨.ok, len, bytes ++ junk⟩ aux) := by
  obtain ⟨⟨aux', hq⟩, hdl, hsn⟩ := h.link
  unfold handled
  rcases recv_req (junk := junk) hsv hq hsh with ⟨e, -⟩ | ⟨hbe, e, hsl⟩
  · rw [e]; exact .quiet h
  · rw [e]
    dsimp only
    have hbuf : (bytes ++ junk).drop 8 = data ++ junk := by
      rw [hbe, hq, List.append_assoc, List.drop_left' (Comm.header_length ..)]
    rw [hbuf]
    generalize hrq : (⟨if c.srv.le = le then magicNative else magicSwap, Server.actionOf kind, w.client.seq, data ++ junk,
      data.length⟩ : Server.Req) = r
    have hcar : Carries c le kind data r := by
      rw [← hrq]; exact ⟨rfl, rfl, rfl, hsl, junk, rfl⟩
    generalize ha : Server.answer c.srv w.dev c.x kind r = a
    obtain ⟨resp, d'⟩ := a
    dsimp only
    unfold Comm.serverPacket
    by_cases hlong : resp.length > c.srv.comm.dataLen
    · rw [if_pos hlong]
      have : c.limit < resp.length := by unfold Cfg.limit; omega
      exact ⟨_, _, ⟨_, .again r hcar ha this, rfl⟩, h.sim, h.link, h.le, h.ini, h.wait, h.doing, h.cap⟩
    · rw [if_neg hlong]
      dsimp only
      have hpe : header c.srv.le (if c.srv.le = le then magicNative else magicSwap) kind w.client.seq aux ++ resp =
        respPkt c le kind w.client.seq aux resp := rfl
      rw [hpe]
      have hpl : (respPkt c le kind w.client.seq aux resp).length = 8 + resp.length := by
        unfold respPkt; rw [List.length_append, Comm.header_length]
      have hcond : w.mem.s = .idle ∧ w.mem.todo = true ∧ (respPkt c le kind w.client.seq aux resp).length < 65536 := by
        refine ⟨hi, ht, ?_⟩
        unfold Comm.Cfg.mtu at hsv; omega
      obtain ⟨ch', hf, hs⟩ := Mem.sim_step h1 (by omega) h.sim (.sSend (respPkt c le kind w.client.seq aux resp))
      have hroom : Mem.room c.mem.respSize = c.mem.respSize.toNat - 8 := by rw [Mem.room_eq (by omega)]; rfl
      by_cases hr : (respPkt c le kind w.client.seq aux resp).length > Mem.room c.mem.respSize
      · have e : Mem.step c.mem w.mem (.sSend (respPkt c le kind w.client.seq aux resp)) =
            ({ w.mem with todo := false }, some .refused) := by
          simp only [Mem.step, if_pos hcond, if_pos hr]
        rw [e] at hf hs ⊢
        have hch : ch' = .requested q true := (Option.some.inj hf).symm
        subst hch
        have : c.limit < resp.length := by unfold Cfg.limit; omega
        exact ⟨_, _, ⟨_, .again r hcar ha this, rfl⟩, hs, h.link, h.le, h.ini, h.wait, h.doing, h.cap⟩
      · have e : Mem.step c.mem w.mem (.sSend (respPkt c le kind w.client.seq aux resp)) =
            ({ w.mem with s := .send1 (respPkt c le kind w.client.seq aux resp), todo := false }, none) := by
          simp only [Mem.step, if_pos hcond, if_neg hr]
        rw [e] at hf hs ⊢
        subst hf
        have : resp.length ≤ c.limit := by unfold Cfg.limit; omega
        refine ⟨_, _, ⟨_, .run r hcar ha this, rfl⟩, hs, ⟨aux, rfl⟩, h.le, h.ini, h.wait, h.doing, ?_⟩
        intro cp hx; cases hx

theorem go_sStep (h3 : 16 ≤ c.mem.respSize.toNat) (hsv : c.srv.comm.mtu < 65536) (h : Inv c le w t ch) (junk : List UInt8)
    (aux : UInt16) : Goes c le w.dev t (step c w (.sStep junk aux)) := by
  simp only [step]
  obtain ⟨ch', hf, hs⟩ := Mem.sim_step h1 h2 h.sim .sStep
  have hub := hs.ub
  have hst : Mem.step c.mem w.mem .sStep =
      (⟨(Mem.sStep c.mem w.mem.shm w.mem.todo w.mem.s).1, w.mem.c, (Mem.sStep c.mem w.mem.shm w.mem.todo w.mem.s).2.1,
        (Mem.sStep c.mem w.mem.shm w.mem.todo w.mem.s).2.2.2⟩, (Mem.sStep c.mem w.mem.shm w.mem.todo w.mem.s).2.2.1) := rfl
  rw [hst] at hf hs hub ⊢
  dsimp only at hf hs hub ⊢
  have hub' : ¬ (Mem.sStep c.mem w.mem.shm w.mem.todo w.mem.s).1.ub = true := by rw [hub]; simp
  rcases pc_s w.mem.s with hi | ⟨msg, hmsg⟩ | ⟨cp, hcp⟩
  · rw [hi] at hf hs ⊢
    dsimp only [Mem.sStep] at hf hs ⊢
    subst hf
    refine ⟨t, _, rfl, hs, ?_, h.le, h.ini, h.wait, h.doing, ?_⟩
    · dsimp only; rw [← hi]; exact h.link
    · intro cp hx; cases hx
  · rcases sStep_msg (k := c.mem) (m := w.mem.shm) (todo := w.mem.todo) hmsg with ⟨e1, e2⟩ | ⟨e1, e2⟩ | e
    · rw [e1] at hf ⊢
      dsimp only
      subst hf
      refine ⟨t, _, rfl, hs, link_msg h.link (e2.trans hmsg.symm), h.le, h.ini, h.wait, h.doing, ?_⟩
      intro cp hx
      dsimp only at hx
      rw [sMsg_of_cap hx] at e2; cases e2
    · rw [e2] at hf ⊢
      dsimp only
      have hlk := h.link
      cases ch with
      | answered r => cases hf
      | requested q seen =>
        cases seen with
        | false => cases hf
        | true =>
          cases hf
          cases t with
          | none => exact hlk.elim
          | asked => rw [hlk.2.2] at hmsg; cases hmsg
          | done kind resp wt =>
            obtain ⟨aux', hx⟩ := hlk
            rw [hmsg] at hx
            refine ⟨_, _, rfl, hs, ⟨aux', Option.some.inj hx⟩, h.le, h.ini, h.wait, h.doing, ?_⟩
            intro cp hy
            dsimp only at hy
            rw [e1] at hy; cases hy
    · exact absurd e hub'
  · have hsn := sMsg_of_cap hcp
    rcases sStep_cap (k := c.mem) (m := w.mem.shm) (todo := w.mem.todo) hcp with ⟨e1, e2⟩ | ⟨e1, ⟨len, bytes, e2, e3⟩ | e2⟩ | e
    · rw [e1] at hf ⊢
      dsimp only
      subst hf
      refine ⟨t, _, rfl, hs, link_idle h.link hsn (sMsg_of_cap e2), h.le, h.ini, h.wait, h.doing, ?_⟩
      intro cp' hx
      dsimp only at hx
      rw [e2] at hx
      exact h.cap _ (hcp.trans hx)
    · rw [e2] at hf ⊢
      dsimp only
      have hlk := h.link
      have hcpe := h.cap _ hcp
      subst hcpe
      cases ch with
      | answered r => cases hf
      | requested q seen =>
        have hshow : Mem.Shows q (mtu16 c.srv.comm) len bytes ∧ ch' = .requested q true := by
          change (if Mem.Shows q (mtu16 c.srv.comm) len bytes then some (Mem.Chan.requested q true) else none) = some ch' at hf
          split at hf <;> rename_i hx
          · exact ⟨hx, (Option.some.inj hf).symm⟩
          · cases hf
        obtain ⟨hshow, rfl⟩ := hshow
        cases t with
        | none => exact hlk.elim
        | done => obtain ⟨_, hx⟩ := hlk; rw [hsn] at hx; cases hx
        | asked kind data wt =>
          refine go_handled (w := ⟨w.client, w.busy, ⟨(Mem.sStep c.mem w.mem.shm w.mem.todo w.mem.s).1, w.mem.c,
            (Mem.sStep c.mem w.mem.shm w.mem.todo w.mem.s).2.1, (Mem.sStep c.mem w.mem.shm w.mem.todo w.mem.s).2.2.2⟩, w.dev⟩)
            h1 h3 hsv ?_ e1 e3 hshow junk aux
          refine ⟨hs, ⟨hlk.1, hlk.2.1, ?_⟩, h.le, h.ini, h.wait, h.doing, ?_⟩
          · dsimp only; rw [e1]; rfl
          · intro cp' hx
            dsimp only at hx
            rw [e1] at hx; cases hx
    · rw [e2] at hf ⊢
      dsimp only
      have hch : ch' = ch := by cases ch <;> exact (Option.some.inj hf).symm
      subst hch
      refine ⟨t, _, rfl, hs, link_idle h.link hsn (by dsimp only; rw [e1]; rfl), h.le, h.ini, h.wait, h.doing, ?_⟩
      intro cp' hx
      dsimp only at hx
      rw [e1] at hx; cases hx
    · exact absurd e hub'

end

theorem go_step (h1 : 8 ≤ c.mem.reqSize.toNat) (h3 : 16 ≤ c.mem.respSize.toNat) (hm : c.cli.mtu < 65536)
    (hsv : c.srv.comm.mtu < 65536) (h : Inv c le w t ch) (e : Ev R) : Goes c le w.dev t (step c w e) := by
  have h2 : 8 ≤ c.mem.respSize.toNat := by omega
  cases e with
  | send kind aux data now => exact go_send h1 h2 hm h kind aux data now
  | poll cap junk now => exact go_poll h1 h2 h cap junk now
  | abort => exact go_abort h
  | cStep => exact go_cStep h1 h2 hm h
  | serve => exact go_serve h1 h2 h
  | sStep junk aux => exact go_sStep h1 h2 h3 hsv h junk aux
  | other d => exact go_other h d

theorem accepts_append {s s' : Turn × Server.Dev R} {as bs : List (Obs R)} :
    Accepts c le s (as ++ bs) s' ↔ ∃ m, Accepts c le s as m ∧ Accepts c le m bs s' := by
  induction as generalizing s with
  | nil => exact ⟨fun h => ⟨s, rfl, h⟩, fun ⟨m, h, h'⟩ => by cases h; exact h'⟩
  | cons o os ih =>
    constructor
    · rintro ⟨s1, hn, h⟩
      obtain ⟨m, h2, h3⟩ := ih.mp h
      exact ⟨m, ⟨s1, hn, h2⟩, h3⟩
    · rintro ⟨m, ⟨s1, hn, h2⟩, h3⟩
      exact ⟨s1, hn, ih.mpr ⟨m, h2, h3⟩⟩

theorem go_run (h1 : 8 ≤ c.mem.reqSize.toNat) (h3 : 16 ≤ c.mem.respSize.toNat) (hm : c.cli.mtu < 65536)
    (hsv : c.srv.comm.mtu < 65536) (es : List (Ev R)) : ∀ {w : World R} {t : Turn} {ch : Mem.Chan}, Inv c le w t ch →
    Goes c le w.dev t (run c w es) := by
  induction es with
  | nil => intro w t ch h; exact .quiet h
  | cons e es ih =>
    intro w t ch h
    obtain ⟨t1, ch1, ha, hi⟩ := go_step h1 h3 hm hsv h e
    obtain ⟨t2, ch2, ha', hi'⟩ := ih hi
    exact ⟨t2, ch2, accepts_append.mpr ⟨_, ha, ha'⟩, hi'⟩

end WolfHsm.Stack

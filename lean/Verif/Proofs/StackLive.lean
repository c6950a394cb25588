import Verif.Proofs.StackTrace
import Verif.Proofs.TransportMemLive

/-! # The stack: one side after the other completes a request -/

namespace WolfHsm.Mem

/-- The client alone until a call returns. -/
def cGo (k : Cfg) (y : Sys) : Nat → Sys × Option Obs
  | 0 => (y, none)
  | n + 1 =>
    match (step k y .cStep).2 with
    | some o => ((step k y .cStep).1, some o)
    | none => cGo k (step k y .cStep).1 n

/-- The server alone until a call returns, and the steps left. -/
def sGo (k : Cfg) (y : Sys) : Nat → Sys × Option (Obs × Nat)
  | 0 => (y, none)
  | n + 1 =>
    match (step k y .sStep).2 with
    | some o => ((step k y .sStep).1, some (o, n))
    | none => sGo k (step k y .sStep).1 n

theorem cGo_more {k : Cfg} {y y' : Sys} {n : Nat} {r : Sys × Option Obs} (h : step k y .cStep = (y', none)) (hr : cGo k y' n = r) :
    cGo k y (n + 1) = r := by
  simp only [cGo, h]; exact hr

theorem cGo_stop {k : Cfg} {y y' : Sys} {n : Nat} {o : Obs} (h : step k y .cStep = (y', some o)) :
    cGo k y (n + 1) = (y', some o) := by
  simp only [cGo, h]

theorem sGo_more {k : Cfg} {y y' : Sys} {n : Nat} {r : Sys × Option (Obs × Nat)} (h : step k y .sStep = (y', none))
    (hr : sGo k y' n = r) : sGo k y (n + 1) = r := by
  simp only [sGo, h]; exact hr

theorem sGo_stop {k : Cfg} {y y' : Sys} {n : Nat} {o : Obs} (h : step k y .sStep = (y', some o)) :
    sGo k y (n + 1) = (y', some (o, n)) := by
  simp only [sGo, h]

variable {k : Cfg} (h1 : 8 ≤ k.reqSize.toNat) (h2 : 8 ≤ k.respSize.toNat)

include h1 h2

theorem send_alone (msg : List UInt8) : ∀ (n l : Nat) (y : Sys) (r : List UInt8), Sim k y (.answered r) →
    (∀ m rn, y.c = .send2 m rn → rn = y.shm.resp.notify) → pubLeft msg y.c = some l → l ≤ n →
    ∃ y', cGo k y n = (y', some (.sent msg)) ∧ y'.c = .idle ∧ y'.s = y.s := by
  intro n
  induction n with
  | zero =>
    intro l y r _ _ hn hle
    have : l = 0 := by omega
    subst this
    cases hy : y.c <;> rw [hy] at hn <;> simp [pubLeft] at hn
  | succ n ih =>
    intro l y r hsim hrn hn hle
    obtain ⟨ch', hf, hs'⟩ := sim_step h1 h2 hsim .cStep
    obtain ⟨m, c, s, todo⟩ := y
    cases c with
    | idle => simp [pubLeft] at hn
    | recv1 cap => simp [pubLeft] at hn
    | recv2 cap qn => simp [pubLeft] at hn
    | recvCopy cap len n acc => simp [pubLeft] at hn
    | send1 q =>
      have hq : q = msg := by
        simp only [pubLeft] at hn; by_cases h : q = msg
        · exact h
        · rw [if_neg h] at hn; cases hn
      subst hq
      simp only [pubLeft, if_true, Option.some.injEq] at hn
      simp only [Follows, step, cStep] at hf hs'
      subst hf
      obtain ⟨y', e, e'⟩ := ih _ _ r hs' (by intro _ _ h; cases h; rfl) (by simp [pubLeft]; rfl) (by omega)
      exact ⟨y', cGo_more (by simp only [step, cStep]) e, e'⟩
    | send2 q rn =>
      have hq : q = msg := by
        simp only [pubLeft] at hn; by_cases h : q = msg
        · exact h
        · rw [if_neg h] at hn; cases hn
      subst hq
      simp only [pubLeft, if_true, Option.some.injEq] at hn
      have he : ¬ m.req.notify ≠ rn := by
        have := hrn q rn rfl
        rw [this]; intro h; exact h hsim.mem.1
      simp only [Follows, step, cStep, if_neg he] at hf hs'
      subst hf
      obtain ⟨y', e, e'⟩ := ih (q.length + 1) _ r hs' (by intro _ _ h; cases h) (by simp [pubLeft]) (by omega)
      exact ⟨y', cGo_more (by simp only [step, cStep, if_neg he]) e, e'⟩
    | sendCopy q w i =>
      have hq : q = msg := by
        simp only [pubLeft] at hn; by_cases h : q = msg
        · exact h
        · rw [if_neg h] at hn; cases hn
      subst hq
      simp only [pubLeft, if_true, Option.some.injEq] at hn
      obtain ⟨hl, hw, hi, htake⟩ := hsim.cli
      cases hb : q[i]? with
      | none => exact ⟨⟨{ m with req := ⟨w.notify + 1, UInt16.ofNat q.length⟩ }, .idle, s, todo⟩, cGo_stop (by simp only [step, cStep, hb]), rfl, rfl⟩
      | some b =>
        have hil : i < q.length := by
          rw [List.getElem?_eq_some_iff] at hb; exact hb.1
        have hin : i < m.reqData.length := by
          have := hsim.reqLen; dsimp only at this; rw [this]; omega
        simp only [Follows, step, cStep, hb, poke, if_pos hin] at hf hs'
        subst hf
        obtain ⟨y', e, e'⟩ := ih (q.length - (i + 1) + 1) _ r hs' (by intro _ _ h; cases h) (by simp [pubLeft]) (by omega)
        exact ⟨y', cGo_more (by simp only [step, cStep, hb, poke, if_pos hin]) e, e'⟩

theorem get_alone (r : List UInt8) (cp : UInt16) : ∀ (n l : Nat) (y : Sys), Sim k y (.answered r) → Stack.cCap y.c = some cp →
    cLeft r y.c = some l → l ≤ n →
    ∃ y' len bytes, cGo k y n = (y', some (.got cp len bytes)) ∧ y'.c = .idle ∧ y'.s = y.s ∧ Shows r cp len bytes := by
  intro n
  induction n with
  | zero =>
    intro l y _ _ hn hle
    have : l = 0 := by omega
    subst this
    cases hy : y.c <;> rw [hy] at hn <;> simp [cLeft] at hn
  | succ n ih =>
    intro l y hsim hcp hn hle
    obtain ⟨ch', hf, hs'⟩ := sim_step h1 h2 hsim .cStep
    obtain ⟨m, c, s, todo⟩ := y
    cases c with
    | idle => simp [cLeft] at hn
    | send1 => simp [cLeft] at hn
    | send2 => simp [cLeft] at hn
    | sendCopy => simp [cLeft] at hn
    | recv1 cap =>
      simp only [Follows, step, cStep] at hf hs'
      subst hf
      simp only [cLeft, Option.some.injEq] at hn
      obtain ⟨y', len, b, e, e'⟩ := ih (r.length + 2) _ hs' hcp rfl (by omega)
      exact ⟨y', len, b, cGo_more (by simp only [step, cStep]) e, e'⟩
    | recv2 cap qn =>
      have hqn : qn = m.req.notify := hsim.cli
      have hne : ¬ m.resp.notify ≠ qn := by
        rw [hqn]; intro h; exact h hsim.mem.1.symm
      simp only [Follows, step, cStep, if_neg hne] at hf hs'
      subst hf
      simp only [cLeft, Option.some.injEq] at hn
      have hlen : m.resp.len.toNat = r.length := hsim.mem.2.1
      have hcl : copyLen m.resp.len cap k.respSize ≤ r.length := by unfold copyLen; omega
      obtain ⟨y', len, b, e, e'⟩ := ih _ _ hs' hcp rfl (by simp only [List.length_nil]; omega)
      exact ⟨y', len, b, cGo_more (by simp only [step, cStep, if_neg hne]) e, e'⟩
    | recvCopy cap len n' acc =>
      simp only [cLeft, Option.some.injEq] at hn
      obtain ⟨hlen, hn0, hacc, htake⟩ := hsim.cli
      by_cases hlt : acc.length < n'
      · have hin : acc.length < m.respData.length := by
          have := hsim.respLen
          dsimp only at this
          rw [this]; rw [hn0] at hlt; unfold copyLen at hlt; omega
        obtain ⟨b, hb⟩ : ∃ b, m.respData[acc.length]? = some b := ⟨_, List.getElem?_eq_getElem hin⟩
        simp only [Follows, step, cStep, if_pos hlt, hb] at hf hs'
        subst hf
        obtain ⟨y', len', b', e, e'⟩ := ih _ _ hs' hcp rfl (by simp only [List.length_append, List.length_cons, List.length_nil]; omega)
        exact ⟨y', len', b', cGo_more (by simp only [step, cStep, if_pos hlt, hb]) e, e'⟩
      · simp only [Follows, step, cStep, if_neg hlt] at hf hs'
        have hsh : Shows r cap len acc := by
          simp only [Chan.next] at hf
          split at hf
          · assumption
          · cases hf
        cases hcp
        exact ⟨⟨m, .idle, s, todo⟩, len, acc, cGo_stop (by simp only [step, cStep, if_neg hlt]), rfl, rfl, hsh⟩

theorem take_alone (msg : List UInt8) (seen : Bool) (cp : UInt16) : ∀ (n l : Nat) (y : Sys), Sim k y (.requested msg seen) →
    Stack.sCap y.s = some cp → (∀ cap q, y.s = .recv2 cap q → q = y.shm.req) → sLeft msg y.s = some l → l ≤ n →
    ∃ y' len bytes j, sGo k y n = (y', some (.received cp len bytes, j)) ∧ n - l ≤ j ∧ y'.s = .idle ∧ y'.c = y.c ∧
      y'.todo = true ∧ Shows msg cp len bytes ∧ Sim k y' (.requested msg true) := by
  intro n
  induction n with
  | zero =>
    intro l y _ _ _ hn hle
    have : l = 0 := by omega
    subst this
    cases hy : y.s <;> rw [hy] at hn <;> simp [sLeft] at hn
  | succ n ih =>
    intro l y hsim hcp hq hn hle
    obtain ⟨ch', hf, hs'⟩ := sim_step h1 h2 hsim .sStep
    obtain ⟨m, c, s, todo⟩ := y
    cases s with
    | idle => simp [sLeft] at hn
    | send1 => simp [sLeft] at hn
    | send2 => simp [sLeft] at hn
    | sendCopy => simp [sLeft] at hn
    | recv1 cap =>
      simp only [Follows, step, sStep] at hf hs'
      subst hf
      simp only [sLeft, Option.some.injEq] at hn
      obtain ⟨y', len, b, j, e, hj, e'⟩ := ih (msg.length + 2) _ hs' hcp (by intro _ _ h; cases h; rfl) rfl (by omega)
      exact ⟨y', len, b, j, sGo_more (by simp only [step, sStep]) e, by omega, e'⟩
    | recv2 cap q =>
      have hqq : q = m.req := hq cap q rfl
      have hne : q.notify ≠ m.resp.notify := by rw [hqq]; exact hsim.mem.1
      simp only [Follows, step, sStep, if_neg hne] at hf hs'
      subst hf
      simp only [sLeft, Option.some.injEq] at hn
      have hlen : q.len.toNat = msg.length := by rw [hqq]; exact hsim.mem.2.1
      have hcl : copyLen q.len cap k.reqSize ≤ msg.length := by unfold copyLen; omega
      obtain ⟨y', len, b, j, e, hj, e'⟩ := ih _ _ hs' hcp (by intro _ _ h; cases h) rfl (by simp only [List.length_nil]; omega)
      simp only [List.length_nil] at hj
      exact ⟨y', len, b, j, sGo_more (by simp only [step, sStep, if_neg hne]) e, by omega, e'⟩
    | recvCopy cap len n' acc =>
      simp only [sLeft, Option.some.injEq] at hn
      obtain ⟨hlen, hn0, hacc, htake⟩ := hsim.srv
      by_cases hlt : acc.length < n'
      · have hin : acc.length < m.reqData.length := by
          have := hsim.reqLen
          dsimp only at this
          rw [this]; rw [hn0] at hlt; unfold copyLen at hlt; omega
        obtain ⟨b, hb⟩ : ∃ b, m.reqData[acc.length]? = some b := ⟨_, List.getElem?_eq_getElem hin⟩
        simp only [Follows, step, sStep, if_pos hlt, hb] at hf hs'
        subst hf
        obtain ⟨y', len', b', j, e, hj, e'⟩ := ih _ _ hs' hcp (by intro _ _ h; cases h) rfl
          (by simp only [List.length_append, List.length_cons, List.length_nil]; omega)
        simp only [List.length_append, List.length_cons, List.length_nil] at hj
        exact ⟨y', len', b', j, sGo_more (by simp only [step, sStep, if_pos hlt, hb]) e, by omega, e'⟩
      · simp only [Follows, step, sStep, if_neg hlt] at hf hs'
        have hsh : Shows msg cap len acc ∧ ch' = .requested msg true := by
          simp only [Chan.next] at hf
          split at hf
          · exact ⟨by assumption, (Option.some.inj hf).symm⟩
          · cases hf
        obtain ⟨hsh, rfl⟩ := hsh
        cases hcp
        exact ⟨⟨m, c, .idle, true⟩, len, acc, n, sGo_stop (by simp only [step, sStep, if_neg hlt]), by omega, rfl, rfl, rfl, hsh, hs'⟩

/-- Accesses the server still needs to publish its response. -/
def putLeft (msg : List UInt8) : SPc → Option Nat
  | .send1 m => if m = msg then some (msg.length + 3) else none
  | .send2 m _ => if m = msg then some (msg.length + 2) else none
  | .sendCopy m _ i => if m = msg then some (msg.length - i + 1) else none
  | _ => none

theorem put_alone (msg : List UInt8) : ∀ (n l : Nat) (y : Sys) (q : List UInt8) (seen : Bool), Sim k y (.requested q seen) →
    putLeft msg y.s = some l → l ≤ n →
    ∃ y' j, sGo k y n = (y', some (.answered msg, j)) ∧ y'.s = .idle ∧ y'.c = y.c := by
  intro n
  induction n with
  | zero =>
    intro l y q seen _ hn hle
    have : l = 0 := by omega
    subst this
    cases hy : y.s <;> rw [hy] at hn <;> simp [putLeft] at hn
  | succ n ih =>
    intro l y rq seen hsim hn hle
    obtain ⟨ch', hf, hs'⟩ := sim_step h1 h2 hsim .sStep
    obtain ⟨m, c, s, todo⟩ := y
    cases s with
    | idle => simp [putLeft] at hn
    | recv1 cap => simp [putLeft] at hn
    | recv2 cap qn => simp [putLeft] at hn
    | recvCopy cap len n acc => simp [putLeft] at hn
    | send1 q =>
      have hq : q = msg := by
        simp only [putLeft] at hn; by_cases h : q = msg
        · exact h
        · rw [if_neg h] at hn; cases hn
      subst hq
      simp only [putLeft, if_true, Option.some.injEq] at hn
      simp only [Follows, step, sStep] at hf hs'
      subst hf
      obtain ⟨y', j, e, e'⟩ := ih (q.length + 2) _ _ _ hs' (by simp [putLeft]) (by omega)
      exact ⟨y', j, sGo_more (by simp only [step, sStep]) e, e'⟩
    | send2 q rn =>
      have hq : q = msg := by
        simp only [putLeft] at hn; by_cases h : q = msg
        · exact h
        · rw [if_neg h] at hn; cases hn
      subst hq
      simp only [putLeft, if_true, Option.some.injEq] at hn
      simp only [Follows, step, sStep] at hf hs'
      subst hf
      obtain ⟨y', j, e, e'⟩ := ih (q.length + 1) _ _ _ hs' (by simp [putLeft]) (by omega)
      exact ⟨y', j, sGo_more (by simp only [step, sStep]) e, e'⟩
    | sendCopy q w i =>
      have hq : q = msg := by
        simp only [putLeft] at hn; by_cases h : q = msg
        · exact h
        · rw [if_neg h] at hn; cases hn
      subst hq
      simp only [putLeft, if_true, Option.some.injEq] at hn
      obtain ⟨-, hl, hw, hi, htake⟩ := hsim.srv
      cases hb : q[i]? with
      | none => exact ⟨⟨{ m with resp := ⟨w, UInt16.ofNat q.length⟩ }, c, .idle, todo⟩, n, sGo_stop (by simp only [step, sStep, hb]), rfl, rfl⟩
      | some b =>
        have hil : i < q.length := by
          rw [List.getElem?_eq_some_iff] at hb; exact hb.1
        have hin : i < m.respData.length := by
          have := hsim.respLen; dsimp only at this; rw [this]; omega
        simp only [Follows, step, sStep, hb, poke, if_pos hin] at hf hs'
        subst hf
        obtain ⟨y', j, e, e'⟩ := ih (q.length - (i + 1) + 1) _ _ _ hs' (by simp [putLeft]) (by omega)
        exact ⟨y', j, sGo_more (by simp only [step, sStep, hb, poke, if_pos hin]) e, e'⟩

end WolfHsm.Mem

namespace WolfHsm.Stack

open Comm (header)
open Utils (magicNative magicSwap)

variable {R : Type} {c : Cfg R} {le : Bool}

theorem run_append (c : Cfg R) (w : World R) (as bs : List (Ev R)) :
    run c w (as ++ bs) = ((run c (run c w as).1 bs).1, (run c w as).2 ++ (run c (run c w as).1 bs).2) := by
  induction as generalizing w with
  | nil => rfl
  | cons e es ih => simp only [List.cons_append, run, ih, List.append_assoc]

theorem run_one (c : Cfg R) (w : World R) (e : Ev R) : run c w [e] = step c w e := by
  simp only [run, List.append_nil]

theorem run_cIdle {w : World R} (h : w.mem.c = .idle) (n : Nat) : run c w (List.replicate n .cStep) = (w, []) := by
  induction n with
  | zero => rfl
  | succ n ih =>
    have e : step c w .cStep = (w, []) := by
      obtain ⟨cl, b, ⟨m, cc, s, todo⟩, d⟩ := w
      cases h
      simp only [step, Mem.step, Mem.cStep]
    rw [List.replicate_succ, run, e, ih]; rfl

theorem run_sIdle {w : World R} (h : w.mem.s = .idle) (junk : List UInt8) (aux : UInt16) (n : Nat) :
    run c w (List.replicate n (.sStep junk aux)) = (w, []) := by
  induction n with
  | zero => rfl
  | succ n ih =>
    have e : step c w (.sStep junk aux) = (w, []) := by
      obtain ⟨cl, b, ⟨m, cc, s, todo⟩, d⟩ := w
      cases h
      simp only [step, Mem.step, Mem.sStep]
    rw [List.replicate_succ, run, e, ih]; rfl

theorem returned_mem (w : World R) (o : Mem.Obs) : (returned c w o).1.mem = w.mem := by
  unfold returned
  split
  · rfl
  · split <;> rfl
  · split <;> rfl

theorem run_cGo {o : Mem.Obs} {y' : Mem.Sys} (hi : y'.c = .idle) : ∀ (n : Nat) {w : World R}, Mem.cGo c.mem w.mem n = (y', some o) →
    run c w (List.replicate n .cStep) = returned c { w with mem := y' } o := by
  intro n
  induction n with
  | zero => intro w h; cases h
  | succ n ih =>
    intro w h
    rw [List.replicate_succ, run]
    simp only [Mem.cGo] at h
    simp only [step]
    cases hm : (Mem.step c.mem w.mem .cStep).2 with
    | some o' =>
      rw [hm] at h
      dsimp only at h ⊢
      simp only [Prod.mk.injEq, Option.some.injEq] at h
      obtain ⟨rfl, rfl⟩ := h
      rw [run_cIdle (by rw [returned_mem]; exact hi), List.append_nil]
    | none =>
      rw [hm] at h
      dsimp only at h ⊢
      rw [ih (w := { w with mem := (Mem.step c.mem w.mem .cStep).1 }) h]
      rfl

theorem run_received {cap len : UInt16} {bytes : List UInt8} {y' : Mem.Sys} {j : Nat} (junk : List UInt8) (aux : UInt16) :
    ∀ (n : Nat) {w : World R}, Mem.sGo c.mem w.mem n = (y', some (.received cap len bytes, j)) →
    run c w (List.replicate n (.sStep junk aux)) =
      ((run c (handled c { w with mem := y' } ⟨.ok, len, bytes ++ junk⟩ aux).1 (List.replicate j (.sStep junk aux))).1,
       (handled c { w with mem := y' } ⟨.ok, len, bytes ++ junk⟩ aux).2 ++
       (run c (handled c { w with mem := y' } ⟨.ok, len, bytes ++ junk⟩ aux).1 (List.replicate j (.sStep junk aux))).2) := by
  intro n
  induction n with
  | zero => intro w h; cases h
  | succ n ih =>
    intro w h
    rw [List.replicate_succ, run]
    simp only [Mem.sGo] at h
    simp only [step]
    cases hm : (Mem.step c.mem w.mem .sStep).2 with
    | some o' =>
      rw [hm] at h
      dsimp only at h ⊢
      simp only [Prod.mk.injEq, Option.some.injEq] at h
      obtain ⟨rfl, rfl, rfl⟩ := h
      rfl
    | none =>
      rw [hm] at h
      dsimp only at h ⊢
      rw [ih (w := { w with mem := (Mem.step c.mem w.mem .sStep).1 }) h]
      rfl

theorem run_answered {m : List UInt8} {y' : Mem.Sys} {j : Nat} (hi : y'.s = .idle) (junk : List UInt8) (aux : UInt16) :
    ∀ (n : Nat) {w : World R}, Mem.sGo c.mem w.mem n = (y', some (.answered m, j)) →
    run c w (List.replicate n (.sStep junk aux)) = ({ w with mem := y' }, []) := by
  intro n
  induction n with
  | zero => intro w h; cases h
  | succ n ih =>
    intro w h
    rw [List.replicate_succ, run]
    simp only [Mem.sGo] at h
    simp only [step]
    cases hm : (Mem.step c.mem w.mem .sStep).2 with
    | some o' =>
      rw [hm] at h
      dsimp only at h ⊢
      simp only [Prod.mk.injEq, Option.some.injEq] at h
      obtain ⟨rfl, rfl, rfl⟩ := h
      rw [run_sIdle (w := { w with mem := (Mem.step c.mem w.mem .sStep).1 }) hi]
      rfl
    | none =>
      rw [hm] at h
      dsimp only at h ⊢
      rw [ih (w := { w with mem := (Mem.step c.mem w.mem .sStep).1 }) h]
      rfl

/-- A request the server can hold and whose response can be sent. -/
theorem handled_ok (h3 : 16 ≤ c.mem.respSize.toNat) (hsv : c.srv.comm.mtu < 65536) {w : World R} {kind seq aux' : UInt16}
    {data q : List UInt8} {len : UInt16} {bytes : List UInt8} (hi : w.mem.s = .idle) (ht : w.mem.todo = true)
    (hq : q = header le magicNative kind seq aux' ++ data) (hsh : Mem.Shows q (mtu16 c.srv.comm) len bytes)
    (hdl : data.length ≤ c.srv.comm.dataLen) (junk : List UInt8) (aux : UInt16)
    (hfit : ∀ r, Carries c le kind data r → (Server.answer c.srv w.dev c.x kind r).1.length ≤ c.limit) :
    ∃ r, Carries c le kind data r ∧ handled c w ⟨.ok, len, bytes ++ junk⟩ aux =
      (⟨w.client, w.busy, ⟨w.mem.shm, w.mem.c, .send1 (respPkt c le kind seq aux (Server.answer c.srv w.dev c.x kind r).1), false⟩,
        (Server.answer c.srv w.dev c.x kind r).2⟩,
       [.ran w.dev kind r (Server.answer c.srv w.dev c.x kind r).1 (Server.answer c.srv w.dev c.x kind r).2]) := by
  rcases recv_req (junk := junk) hsv hq hsh with ⟨-, e⟩ | ⟨hbe, e, hsl⟩
  · omega
  refine ⟨⟨if c.srv.le = le then magicNative else magicSwap, Server.actionOf kind, seq, data ++ junk, data.length⟩,
    ⟨rfl, rfl, rfl, hsl, junk, rfl⟩, ?_⟩
  have hfit := hfit ⟨if c.srv.le = le then magicNative else magicSwap, Server.actionOf kind, seq, data ++ junk, data.length⟩
    ⟨rfl, rfl, rfl, hsl, junk, rfl⟩
  unfold handled
  rw [e]
  dsimp only
  have hbuf : (bytes ++ junk).drop 8 = data ++ junk := by
    rw [hbe, hq, List.append_assoc, List.drop_left' (Comm.header_length ..)]
  rw [hbuf]
  generalize Server.answer c.srv w.dev c.x kind ⟨if c.srv.le = le then magicNative else magicSwap, Server.actionOf kind, seq,
    data ++ junk, data.length⟩ = a at hfit ⊢
  obtain ⟨resp, d'⟩ := a
  dsimp only at hfit ⊢
  unfold Comm.serverPacket
  have hlong : ¬ resp.length > c.srv.comm.dataLen := by unfold Cfg.limit at hfit; omega
  rw [if_neg hlong]
  dsimp only
  have hpe : header c.srv.le (if c.srv.le = le then magicNative else magicSwap) kind seq aux ++ resp =
    respPkt c le kind seq aux resp := rfl
  rw [hpe]
  have hpl : (respPkt c le kind seq aux resp).length = 8 + resp.length := by
    unfold respPkt; rw [List.length_append, Comm.header_length]
  have hcond : w.mem.s = .idle ∧ w.mem.todo = true ∧ (respPkt c le kind seq aux resp).length < 65536 := by
    refine ⟨hi, ht, ?_⟩
    unfold Comm.Cfg.mtu at hsv; omega
  have hroom : Mem.room c.mem.respSize = c.mem.respSize.toNat - 8 := by rw [Mem.room_eq (by omega)]; rfl
  have hr : ¬ (respPkt c le kind seq aux resp).length > Mem.room c.mem.respSize := by unfold Cfg.limit at hfit; omega
  simp only [Mem.step, if_pos hcond, if_neg hr]

/-- A response that is there is taken. -/
theorem got_ok {cl : Comm.Client} {kind aux : UInt16} {resp junk : List UInt8} {len : UInt16} {bytes : List UInt8} {now : UInt64}
    (hle : cl.le = le) (hi : cl.initialized = true) (hp : cl.pending = true) (hm : c.cli.mtu < 65536)
    (hr : resp.length ≤ c.cli.dataLen) (hs : Mem.Shows (respPkt c le kind cl.seq aux resp) (mtu16 c.cli) len bytes) :
    (cl.recvResponse c.cli none ⟨.ok, len, bytes ++ junk⟩ now).1.rc = .ok ∧
    (cl.recvResponse c.cli none ⟨.ok, len, bytes ++ junk⟩ now).2.pending = false := by
  obtain ⟨hl, hb⟩ := hs
  have hpl : (respPkt c le kind cl.seq aux resp).length = 8 + resp.length := by
    unfold respPkt; rw [List.length_append, Comm.header_length]
  have hmt : (mtu16 c.cli).toNat = c.cli.mtu := by
    unfold mtu16; rw [UInt16.toNat_ofNat']; exact Nat.mod_eq_of_lt hm
  have hbe : bytes = respPkt c le kind cl.seq aux resp := by
    rw [hb, List.take_of_length_le (by rw [hmt, hpl]; unfold Comm.Cfg.mtu; omega)]
  subst hbe
  have hbad : Comm.badSize c.cli len = false := by
    simp only [Comm.badSize, Bool.or_eq_false_iff, decide_eq_false_iff_not]
    unfold Comm.Cfg.mtu
    omega
  have hst : (cl.stopTimer c.cli).le = cl.le ∧ (cl.stopTimer c.cli).seq = cl.seq := by
    unfold Comm.Client.stopTimer; split <;> exact ⟨rfl, rfl⟩
  obtain ⟨r1, r2, r3⟩ := Comm.client_reads le c.srv.le _ kind cl.seq aux (resp ++ junk) rfl
  unfold Comm.Client.recvResponse
  rw [hi, hp]
  dsimp only
  rw [if_neg (by decide), if_neg (by decide), hbad, if_neg (by decide)]
  unfold Comm.Client.accept
  dsimp only
  unfold respPkt
  rw [hst.1, hst.2, hle, List.append_assoc, r1, if_neg (by simp), r3, if_neg (by simp)]
  exact ⟨rfl, rfl⟩

/-- Nobody is in a call and the last request is done. -/
structure Rest (c : Cfg R) (le : Bool) (w : World R) : Prop where
  inv : ∃ t ch, Inv c le w t ch ∧ t.over = true
  free : w.busy = .free
  idle : w.mem.s = .idle
  done : w.client.pending = false

/-- One request after the other: client, server, client. -/
def turn (kind aux : UInt16) (data : List UInt8) (now : UInt64) (n1 : Nat) (sjunk : List UInt8) (saux : UInt16) (n2 : Nat)
    (junk : List UInt8) (now' : UInt64) (n3 : Nat) : List (Ev R) :=
  [.send kind aux data now] ++ (List.replicate n1 .cStep ++ ([.serve] ++ (List.replicate n2 (.sStep sjunk saux) ++
    ([.poll none junk now'] ++ List.replicate n3 .cStep))))

theorem link_over {seq : UInt16} {s : Mem.SPc} {t : Turn} {ch : Mem.Chan} (h : Link c le seq s t ch) (hs : sMsg s = none)
    (ht : t.over = true) : ∃ p, ch = .answered p := by
  cases t <;> cases ch <;> unfold Link at h
  · exact ⟨_, rfl⟩
  · exact h.elim
  · exact h.elim
  · cases ht
  · exact ⟨_, rfl⟩
  · obtain ⟨_, h⟩ := h; rw [hs] at h; cases h

theorem completes (h1 : 8 ≤ c.mem.reqSize.toNat) (h3 : 16 ≤ c.mem.respSize.toNat) (hm : c.cli.mtu < 65536)
    (hsv : c.srv.comm.mtu < 65536) {w : World R} (h : Rest c le w) (hconn : (w.dev.ctx c.x).connected = true)
    (kind aux : UInt16) (data : List UInt8) (now : UInt64) (n1 : Nat) (sjunk : List UInt8) (saux : UInt16) (n2 : Nat)
    (junk : List UInt8) (now' : UInt64) (n3 : Nat) (hl1 : data.length ≤ c.cli.dataLen) (hl2 : data.length ≤ c.srv.comm.dataLen)
    (hl3 : data.length + 16 ≤ c.mem.reqSize.toNat)
    (hfit : ∀ r, Carries c le kind data r → (Server.answer c.srv w.dev c.x kind r).1.length ≤ c.limit ∧
      (Server.answer c.srv w.dev c.x kind r).1.length ≤ c.cli.dataLen)
    (hn1 : data.length + 11 ≤ n1) (hn2 : data.length + 6 + c.mem.respSize.toNat ≤ n2) (hn3 : c.mem.respSize.toNat ≤ n3) :
    ∃ r g, Carries c le kind data r ∧ g.rc = .ok ∧ g.kind = kind ∧ g.payload = (Server.answer c.srv w.dev c.x kind r).1 ∧
      (run c w (turn kind aux data now n1 sjunk saux n2 junk now' n3)).2 =
        [.asked kind data, .ran w.dev kind r (Server.answer c.srv w.dev c.x kind r).1 (Server.answer c.srv w.dev c.x kind r).2,
         .got g] ∧
      (run c w (turn kind aux data now n1 sjunk saux n2 junk now' n3)).1.dev = (Server.answer c.srv w.dev c.x kind r).2 ∧
      Rest c le (run c w (turn kind aux data now n1 sjunk saux n2 junk now' n3)).1 := by
  have h2 : 8 ≤ c.mem.respSize.toNat := by omega
  obtain ⟨⟨t0, ch0, i0, ov⟩, hfree, hidle, hpend⟩ := h
  have hc0 : w.mem.c = .idle := by have := i0.doing; rw [hfree] at this; exact this
  -- the request is given to the transport
  generalize hpk : header w.client.le magicNative kind (w.client.seq + 1) aux ++ data = p
  have hpl : p.length = data.length + 8 := by rw [← hpk, List.length_append, Comm.header_length]; omega
  have e1 : step c w (.send kind aux data now) =
      (⟨w.client, .sending kind aux data now, ⟨w.mem.shm, .send1 p, w.mem.s, w.mem.todo⟩, w.dev⟩, []) := by
    simp only [step]
    rw [hfree]
    dsimp only
    have hpkt : (w.client.sendRequest c.cli magicNative kind aux data .ok now).1.packet = some p := by
      unfold Comm.Client.sendRequest
      rw [i0.ini, hpend, if_neg (by decide), if_neg (by decide), if_neg (by omega)]
      dsimp only
      rw [hpk]
      split <;> rfl
    rw [hpkt]
    dsimp only
    have hroom : Mem.room c.mem.reqSize = c.mem.reqSize.toNat - 8 := by rw [Mem.room_eq h1]; rfl
    have ha : w.mem.c = .idle ∧ p.length < 65536 := ⟨hc0, by unfold Comm.Cfg.mtu at hm; omega⟩
    have hb : ¬ p.length > Mem.room c.mem.reqSize := by omega
    simp only [Mem.step, if_pos ha, if_neg hb]
  generalize hw1 : (⟨w.client, .sending kind aux data now, ⟨w.mem.shm, .send1 p, w.mem.s, w.mem.todo⟩, w.dev⟩ : World R) = w1 at e1
  obtain ⟨t1, ch1, a1, i1⟩ := go_step h1 h3 hm hsv i0 (.send kind aux data now)
  rw [e1] at a1 i1
  have ht1 : t1 = t0 := (congrArg Prod.fst (a1 : (t0, w.dev) = (t1, w1.dev))).symm
  subst ht1
  obtain ⟨p1, rfl⟩ := link_over i1.link (by rw [← hw1]; dsimp only; rw [hidle]; rfl) ov
  -- and published
  obtain ⟨y2, g2, c2, s2⟩ := Mem.send_alone h1 h2 p n1 (p.length + 3) w1.mem p1 i1.sim (by rw [← hw1]; intro _ _ h; cases h)
    (by rw [← hw1]; simp [Mem.pubLeft]) (by omega)
  have e2 := run_cGo (c := c) c2 n1 g2
  have hret : returned c { w1 with mem := y2 } (.sent p) =
      (⟨(w.client.sendRequest c.cli magicNative kind aux data .ok now).2, .free, y2, w.dev⟩, [.asked kind data]) := by
    rw [← hw1]; rfl
  rw [hret] at e2
  generalize hcl : (w.client.sendRequest c.cli magicNative kind aux data .ok now).2 = cl at e2
  have hpc : cl.pending = true := by
    rw [← hcl]
    unfold Comm.Client.sendRequest
    rw [i0.ini, hpend, if_neg (by decide), if_neg (by decide), if_neg (by omega)]
    dsimp only
    split <;> rfl
  obtain ⟨t2, ch2, a2, i2⟩ := go_run h1 h3 hm hsv (List.replicate n1 .cStep) i1
  rw [e2] at a2 i2
  have ht2 : t2 = .asked kind data true := by
    obtain ⟨x, hx, hx'⟩ := a2
    cases hx
    exact (congrArg Prod.fst (hx' : (_, _) = (t2, w.dev))).symm
  subst ht2
  -- the server
  have s2' : y2.s = .idle := by rw [s2, ← hw1]; exact hidle
  have e3 : step c ⟨cl, .free, y2, w.dev⟩ .serve =
      (⟨cl, .free, ⟨y2.shm, y2.c, .recv1 (mtu16 c.srv.comm), y2.todo⟩, w.dev⟩, []) := by
    simp only [step, Mem.step]
    rw [if_pos hconn, if_pos s2']
  obtain ⟨t3, ch3, a3, i3⟩ := go_step h1 h3 hm hsv i2 .serve
  rw [e3] at a3 i3
  have ht3 : t3 = .asked kind data true := (congrArg Prod.fst (a3 : (_, _) = (t3, w.dev))).symm
  subst ht3
  cases ch3 with
  | answered q => exact i3.link.elim
  | requested q seen =>
  obtain ⟨⟨aux2, hq⟩, hdl, -⟩ := i3.link
  have hql : q.length = data.length + 8 := by rw [hq, List.length_append, Comm.header_length]; omega
  obtain ⟨y4, len, bytes, j, g4, hj, s4, c4, td4, sh4, sim4⟩ := Mem.take_alone h1 h2 q seen (mtu16 c.srv.comm) n2 (q.length + 3) _
    i3.sim rfl (by intro _ _ h; cases h) rfl (by omega)
  have e4 := run_received (c := c) sjunk saux n2
    (w := ⟨cl, .free, ⟨y2.shm, y2.c, .recv1 (mtu16 c.srv.comm), y2.todo⟩, w.dev⟩) g4
  dsimp only at e4
  obtain ⟨r, hcar, eh⟩ := handled_ok (w := ⟨cl, .free, y4, w.dev⟩) h3 hsv s4 td4 hq sh4 hl2 sjunk saux
    (fun r hr => (hfit r hr).1)
  have hf := hfit r hcar
  dsimp only at eh
  have i4 : Inv c le ⟨cl, .free, y4, w.dev⟩ (.asked kind data true) (.requested q true) := by
    refine ⟨sim4, ⟨⟨aux2, hq⟩, hdl, by dsimp only; rw [s4]; rfl⟩, i3.le, i3.ini, i3.wait, ?_, ?_⟩
    · show y4.c = .idle
      rw [c4]; exact c2
    · intro cp hx
      dsimp only at hx
      rw [s4] at hx; cases hx
  obtain ⟨t5, ch5, a5, i5⟩ := go_handled h1 h3 hsv i4 s4 td4 sh4 sjunk saux
  rw [eh] at a5 i5 e4
  generalize hans : Server.answer c.srv w.dev c.x kind r = a at *
  obtain ⟨resp, d'⟩ := a
  dsimp only at *
  have ht5 : t5 = .done kind resp true := by
    obtain ⟨x, hx, hx'⟩ := a5
    cases hx with
    | run => exact (congrArg Prod.fst (hx' : (_, _) = (t5, d'))).symm
    | again _ _ _ hlong => exact absurd hlong (by omega)
  subst ht5
  have hlim : resp.length + 16 ≤ c.mem.respSize.toNat := by
    have := hf.1; unfold Cfg.limit at this; omega
  have hrl : ∀ aux, (respPkt c le kind cl.seq aux resp).length = 8 + resp.length := by
    intro aux; unfold respPkt; rw [List.length_append, Comm.header_length]
  cases ch5 with
  | answered q5 => exact i5.sim.srv.elim
  | requested q5 seen5 =>
  obtain ⟨y6, j6, g6, s6, c6⟩ := Mem.put_alone h1 h2 (respPkt c le kind cl.seq saux resp) j
    ((respPkt c le kind cl.seq saux resp).length + 3) _ q5 seen5 i5.sim (by simp [Mem.putLeft]) (by rw [hrl]; omega)
  have e6 := run_answered (c := c) s6 sjunk saux j
    (w := ⟨cl, .free, ⟨y4.shm, y4.c, .send1 (respPkt c le kind cl.seq saux resp), false⟩, d'⟩) g6
  obtain ⟨t6, ch6, a6, i6⟩ := go_run h1 h3 hm hsv (List.replicate j (.sStep sjunk saux)) i5
  rw [e6] at a6 i6 e4
  dsimp only at e4 c6
  have ht6 : t6 = .done kind resp true := (congrArg Prod.fst (a6 : (_, _) = (t6, d'))).symm
  subst ht6
  -- the client again
  have c6' : y6.c = .idle := by rw [c6, c4]; exact c2
  have e7 : step c ⟨cl, .free, y6, d'⟩ (.poll none junk now') =
      (⟨cl, .polling none junk now', ⟨y6.shm, .recv1 (mtu16 c.cli), y6.s, y6.todo⟩, d'⟩, []) := by
    simp only [step, Mem.step]
    have hi : cl.initialized = true := i6.ini
    rw [if_pos c6', hi, hpc]
    rfl
  obtain ⟨t7, ch7, a7, i7⟩ := go_step h1 h3 hm hsv i6 (.poll none junk now')
  rw [e7] at a7 i7
  have ht7 : t7 = .done kind resp true := (congrArg Prod.fst (a7 : (_, _) = (t7, d'))).symm
  subst ht7
  obtain ⟨p7, rfl⟩ := link_over i7.link (by dsimp only; rw [s6]; rfl) rfl
  obtain ⟨aux7, hp7⟩ := i7.link
  dsimp only at hp7
  obtain ⟨y8, len8, b8, g8, c8, s8, sh8⟩ := Mem.get_alone h1 h2 p7 (mtu16 c.cli) n3 (p7.length + 3) _ i7.sim rfl rfl
    (by rw [hp7, hrl]; omega)
  have e8 := run_cGo (c := c) c8 n3 (w := ⟨cl, .polling none junk now', ⟨y6.shm, .recv1 (mtu16 c.cli), y6.s, y6.todo⟩, d'⟩) g8
  have hret8 : returned c ⟨cl, .polling none junk now', y8, d'⟩ (.got (mtu16 c.cli) len8 b8) =
      (⟨(cl.recvResponse c.cli none ⟨.ok, len8, b8 ++ junk⟩ now').2, .free, y8, d'⟩,
       [.got (cl.recvResponse c.cli none ⟨.ok, len8, b8 ++ junk⟩ now').1]) := rfl
  dsimp only at e8
  rw [hret8] at e8
  subst hp7
  obtain ⟨k1, k2⟩ := got_ok (junk := junk) (now := now') i7.le i7.ini hpc hm hf.2 sh8
  rcases got_resp (junk := junk) (cap := none) (now := now') i7.le hm sh8 with hbad | ⟨k3, k4, -, -⟩
  · exact absurd k1 hbad
  obtain ⟨t8, ch8, a8, i8⟩ := go_run h1 h3 hm hsv (List.replicate n3 .cStep) i7
  rw [e8] at a8 i8
  have ht8 : t8 = .done kind resp false := by
    obtain ⟨x, hx, hx'⟩ := a8
    cases hx with
    | reply => exact (congrArg Prod.fst (hx' : (_, _) = (t8, d'))).symm
    | nothing _ hno => exact absurd k1 hno
  subst ht8
  have etot : run c w (turn kind aux data now n1 sjunk saux n2 junk now' n3) =
      (⟨(cl.recvResponse c.cli none ⟨.ok, len8, b8 ++ junk⟩ now').2, .free, y8, d'⟩,
       [.asked kind data, .ran w.dev kind r resp d', .got (cl.recvResponse c.cli none ⟨.ok, len8, b8 ++ junk⟩ now').1]) := by
    unfold turn
    rw [run_append, run_one, e1]
    dsimp only
    rw [run_append, e2]
    dsimp only
    rw [run_append, run_one, e3]
    dsimp only
    rw [run_append, e4]
    dsimp only
    rw [run_append, run_one, e7]
    dsimp only
    rw [e8]
    rfl
  rw [etot]
  refine ⟨r, _, hcar, k1, k3, ?_, ?_, ?_, ⟨_, _, i8, rfl⟩, rfl, ?_, k2⟩
  · rw [hans]; exact k4
  · rw [hans]
  · rw [hans]
  · show y8.s = .idle
    rw [s8]; exact s6

end WolfHsm.Stack

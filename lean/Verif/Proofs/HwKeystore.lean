import Verif.Spec.HwKeystore
import Verif.Proofs.LockedRequests

/-!
# Proofs about the hardware key store
-/

namespace WolfHsm.HwKs

open Lock (Lock Prog Acq Disciplined Inside alone serialState serialAnswers)

variable {S : Type} {b : Ask → Backend S}

theorem inside_inside : ∀ p : Backend S, Inside (inside p)
  | .done rc key => ⟨_, rfl⟩
  | .access f k => fun s => inside_inside (k s)

theorem disciplined (b : Ask → Backend S) (a : Ask) : Disciplined (getKeyProg b a) := by
  refine ⟨inside_inside (b a), ?_⟩
  intro rc h
  cases rc <;> first | exact absurd rfl h | exact ⟨_, rfl⟩

theorem alone_inside : ∀ (p : Backend S) (s : S), alone (inside p) .ok s = p.alone s
  | .done rc key, s => rfl
  | .access f k, s => alone_inside (k s) (f s)

theorem alone_getKey (a : Ask) (rc : Rc) (s : S) :
    alone (getKeyProg b a) rc s = if rc = .ok then (b a).alone s else (⟨rc, []⟩, s) := by
  by_cases h : rc = .ok
  · subst h
    rw [if_pos rfl]
    exact alone_inside (b a) s
  · rw [if_neg h]
    cases rc <;> first | exact absurd rfl h | rfl

theorem serial_eq : ∀ (l : List (Nat × Ask × Rc)) (s : S),
    (serialAnswers (fun _ => getKeyProg b) s l, serialState (fun _ => getKeyProg b) s l) = oneByOne b s l := by
  intro l
  induction l with
  | nil => intro s; rfl
  | cons e l ih =>
    obtain ⟨t, a, rc⟩ := e
    intro s
    simp only [serialAnswers, serialState, alone_getKey]
    by_cases h : rc = .ok
    · subst h
      simp only [if_true]
      have := ih ((b a).alone s).2
      rw [oneByOne, ← this]
    · simp only [if_neg h]
      have := ih s
      rw [oneByOne, ← this]
      intro e
      exact h e

/-- What is known between two calls. -/
structure Inv (o : Bool) (s : State S) : Prop where
  ini : s.ctx.initialized = o
  cb : s.ctx.cb = o
  lock : s.ctx.lock.init = o
  ready : s.ctx.lock.cb = true → o = true ∧ s.ctx.lock.ready = true
  free : s.ctx.lock.owner = none

theorem inv_fresh (h : S) (e : Bool) : Inv false (fresh h e) := ⟨rfl, rfl, rfl, by simp [fresh, Lock.zero], rfl⟩

theorem call_does {o : Bool} {s : State S} (h : Inv o s) (e : Ev) :
    ∃ a s' o' u, call b s e = some (a, s') ∧ Does b (o, s.hw) (e, a) u (o', s'.hw) ∧ s'.used = s.used ++ u ∧ Inv o' s' := by
  obtain ⟨⟨ini, cb, ⟨li, lc, lr, lx, lo⟩⟩, hw, used⟩ := s
  obtain ⟨h1, h2, h3, h4, h5⟩ := h
  dsimp only at h1 h2 h3 h4 h5
  subst h1 h2 h5
  cases e with
  | init m r d =>
    cases m with
    | none =>
      simp only [call, init, Ctx.zero, Lock.start, Option.isSome_none, Bool.not_false, if_true]
      by_cases hr : r = .ok
      · subst hr
        exact ⟨_, _, _, _, rfl, .opens, rfl, ⟨rfl, rfl, rfl, by simp, rfl⟩⟩
      · rw [if_pos hr]
        exact ⟨_, _, _, _, rfl, .fails hr, by simp, ⟨rfl, rfl, rfl, by simp [Lock.cleanup], rfl⟩⟩
    | some mr =>
      simp only [call, init, Ctx.zero, Lock.start, Option.isSome_some, Bool.not_true, Bool.false_eq_true, if_false,
        Option.getD_some]
      cases lr with
      | true =>
        simp only [if_true]
        by_cases hr : r = .ok
        · subst hr
          exact ⟨_, _, _, _, rfl, .opens, rfl, ⟨rfl, rfl, rfl, by simp, rfl⟩⟩
        · rw [if_pos hr]
          exact ⟨_, _, _, _, rfl, .fails hr, by simp, ⟨rfl, rfl, rfl, by simp [Lock.cleanup], rfl⟩⟩
      | false =>
        simp only [Bool.false_eq_true, if_false]
        by_cases hm : mr = .ok
        · subst hm
          simp only [ne_eq, not_true_eq_false, if_false]
          by_cases hr : r = .ok
          · subst hr
            exact ⟨_, _, _, _, rfl, .opens, rfl, ⟨rfl, rfl, rfl, by simp, rfl⟩⟩
          · rw [if_pos hr]
            exact ⟨_, _, _, _, rfl, .fails hr, by simp, ⟨rfl, rfl, rfl, by simp [Lock.cleanup], rfl⟩⟩
        · rw [if_pos hm]
          cases mr <;> first
            | exact absurd rfl hm
            | exact ⟨_, _, _, _, rfl, .fails hm, by simp, ⟨rfl, rfl, rfl, by simp, rfl⟩⟩
  | cleanup r d =>
    cases cb with
    | true =>
      refine ⟨_, _, _, _, rfl, ?_, rfl, ⟨rfl, rfl, rfl, by simp [cleanup, Ctx.zero], rfl⟩⟩
      have : (cleanup (⟨⟨true, true, ⟨li, lc, lr, lx, none⟩⟩, hw, used⟩ : State S) r d).1 = r := by
        simp only [cleanup, Lock.cleanup, if_true]
        split
        · next h => exact h.symm
        · rfl
      rw [this]
      exact .closes
    | false =>
      exact ⟨_, _, _, [], rfl, .nothing, by simp [cleanup], ⟨rfl, rfl, rfl, by simp [cleanup, Ctx.zero], rfl⟩⟩
  | getKey a f =>
    cases cb with
    | false => exact ⟨_, _, _, [], rfl, .notOpen, by simp, ⟨rfl, rfl, h3, h4, rfl⟩⟩
    | true =>
      subst h3
      have hrc : ∀ rc : Rc, (if rc = .ok then Rc.ok else rc) = rc := by
        intro rc
        split
        · next h => exact h.symm
        · rfl
      cases lc with
      | false =>
        refine ⟨((b a).alone hw).1, ⟨⟨true, true, ⟨true, false, lr, lx, none⟩⟩, ((b a).alone hw).2, used ++ [.asked a]⟩, true, [.asked a], ?_, .asks, rfl,
          ⟨rfl, rfl, rfl, by simp, rfl⟩⟩
        simp only [call, getKey, Lock.acquire, Lock.release, Bool.not_true, Bool.or_self, Bool.false_eq_true, if_false,
          Bool.not_false, if_true, hrc]
      | true =>
        obtain ⟨-, rfl⟩ := h4 rfl
        cases f with
        | some rc =>
          have hne : (if rc = Rc.ok then Rc.aborted else rc) ≠ .ok := by
            split
            · simp
            · assumption
          simp only [call, getKey, Lock.acquire, Bool.not_true, Bool.or_self, Bool.false_eq_true, if_false]
          generalize (if rc = Rc.ok then Rc.aborted else rc) = q at hne
          cases q <;> first
            | exact absurd rfl hne
            | exact ⟨_, _, _, [], rfl, .noLock hne, by simp, ⟨rfl, rfl, rfl, by simp, rfl⟩⟩
        | none =>
          refine ⟨((b a).alone hw).1, ⟨⟨true, true, ⟨true, true, true, lx, none⟩⟩, ((b a).alone hw).2, used ++ [.asked a]⟩, true, [.asked a], ?_, .asks, rfl,
            ⟨rfl, rfl, rfl, by simp, rfl⟩⟩
          simp only [call, getKey, Lock.acquire, Lock.release, Bool.not_true, Bool.or_self, Bool.false_eq_true, if_false,
            if_true, hrc]

theorem calls_story : ∀ (es : List Ev) {o : Bool} {s : State S}, Inv o s →
    ∃ as s' o' us, calls b s es = some (as, s') ∧ as.length = es.length ∧ Story b (o, s.hw) (es.zip as) us (o', s'.hw) ∧
      s'.used = s.used ++ us ∧ Inv o' s' := by
  intro es
  induction es with
  | nil => intro o s h; exact ⟨[], s, o, [], rfl, rfl, .nil, by simp, h⟩
  | cons e es ih =>
    intro o s h
    obtain ⟨a, s1, o1, u, h1, h2, h3, h4⟩ := call_does (b := b) h e
    obtain ⟨as, s2, o2, us, k1, k2, k3, k4, k5⟩ := ih h4
    refine ⟨a :: as, s2, o2, u ++ us, ?_, by simp [k2], .cons h2 k3, by rw [k4, h3, List.append_assoc], k5⟩
    simp only [calls, h1, k1, Option.bind_eq_bind, Option.bind_some, Option.pure_def]

theorem proper_append : ∀ (u : List Used) (us : List Used) (o o1 : Bool), proper o u = some o1 →
    proper o (u ++ us) = proper o1 us := by
  intro u
  induction u with
  | nil => intro us o o1 h; cases h; rfl
  | cons x u ih =>
    intro us o o1 h
    cases o <;> cases x <;> first
      | (exact ih us _ o1 h)
      | (cases h)

theorem story_proper {x y : Bool × S} {es : List (Ev × Ans)} {us : List Used} (h : Story b x es us y)
    (hi : InitWhenClosed x.1 es) : proper x.1 us = some y.1 := by
  induction h with
  | nil => rfl
  | cons hd hs ih =>
    cases hd with
    | opens =>
      obtain ⟨rfl, hi⟩ := hi
      exact ih hi
    | fails hne =>
      obtain ⟨rfl, hi⟩ := hi
      exact ih (by
        rw [beq_eq_false_iff_ne.mpr hne] at hi
        exact hi)
    | closes => exact ih hi
    | nothing => exact ih hi
    | asks => exact ih hi
    | noLock => exact ih hi
    | notOpen => exact ih hi

end WolfHsm.HwKs

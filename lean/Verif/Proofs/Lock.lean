import Verif.Spec.Lock

/-!
# Proofs about the locked server contexts
-/

namespace WolfHsm.Lock

variable {R S A : Type} {prog : Nat → R → Prog S A}

theorem serialState_snoc (s : S) (l : List (Nat × R × Rc)) (t : Nat) (r : R) (rc : Rc) :
    serialState prog s (l ++ [(t, r, rc)]) = (alone (prog t r) rc (serialState prog s l)).2 := by
  induction l generalizing s with
  | nil => rfl
  | cons e l ih => obtain ⟨u, q, c⟩ := e; exact ih _

theorem serialAnswers_snoc (s : S) (l : List (Nat × R × Rc)) (t : Nat) (r : R) (rc : Rc) :
    serialAnswers prog s (l ++ [(t, r, rc)]) =
      serialAnswers prog s l ++ [(t, (alone (prog t r) rc (serialState prog s l)).1)] := by
  induction l generalizing s with
  | nil => rfl
  | cons e l ih => obtain ⟨u, q, c⟩ := e; exact congrArg (List.cons _) (ih _)

theorem only_snoc_same {X : Type} (t : Nat) (l : List (Nat × X)) (x : X) :
    only t (l ++ [(t, x)]) = only t l ++ [x] := by
  simp [only, List.filter_append]

theorem only_snoc_other {X : Type} {t u : Nat} (h : u ≠ t) (l : List (Nat × X)) (x : X) :
    only t (l ++ [(u, x)]) = only t l := by
  simp [only, List.filter_append, h]

/-- The serial answers of one context. -/
def sAns (prog : Nat → R → Prog S A) (s0 : S) (t : Nat) (log : List (Nat × R × Rc)) : List A :=
  only t (serialAnswers prog s0 log)

theorem sAns_same (s0 : S) (t : Nat) (log : List (Nat × R × Rc)) (r : R) (rc : Rc) :
    sAns prog s0 t (log ++ [(t, r, rc)]) =
      sAns prog s0 t log ++ [(alone (prog t r) rc (serialState prog s0 log)).1] := by
  unfold sAns; rw [serialAnswers_snoc, only_snoc_same]

theorem sAns_other (s0 : S) {t u : Nat} (h : u ≠ t) (log : List (Nat × R × Rc)) (r : R) (rc : Rc) :
    sAns prog s0 t (log ++ [(u, r, rc)]) = sAns prog s0 t log := by
  unfold sAns; rw [serialAnswers_snoc, only_snoc_other h]

/-- What is known about one context. -/
def ThreadInv (prog : Nat → R → Prog S A) (s0 : S) (w : World R S A) (t : Nat) : Prop :=
  match (w.threads t).cur with
  | none => (w.threads t).answers = sAns prog s0 t w.log ∧ w.lock.owner ≠ some t
  | some (r, false, p) =>
    (w.threads t).answers = sAns prog s0 t w.log ∧
    ((w.lock.owner = some t ∧ Inside p ∧
        alone p .ok w.shared = alone (prog t r) .ok (serialState prog s0 w.log)) ∨
      (w.lock.owner ≠ some t ∧ p = prog t r))
  | some (_, true, p) =>
    w.lock.owner ≠ some t ∧ ∃ a, p = .ret a ∧ (w.threads t).answers ++ [a] = sAns prog s0 t w.log

/-- The invariant of every execution. -/
structure Inv (prog : Nat → R → Prog S A) (s0 : S) (todo0 : Nat → List R) (w : World R S A) :
    Prop where
  works : w.lock.Works
  good : w.bad = false
  shared : w.lock.owner = none → w.shared = serialState prog s0 w.log
  thread : ∀ t, ThreadInv prog s0 w t
  order : ∀ t, (only t w.log).map Prod.fst ++ inFlight (w.threads t) ++ (w.threads t).todo = todo0 t

theorem start_inv {w : World R S A} (h : Start w) :
    Inv prog w.shared (fun t => (w.threads t).todo) w where
  works := h.works
  good := h.good
  shared _ := by rw [h.log]; rfl
  thread t := by
    unfold ThreadInv
    rw [(h.idle t).1, (h.idle t).2, h.log, h.free]
    exact ⟨rfl, by simp⟩
  order t := by
    unfold inFlight
    rw [(h.idle t).1, h.log]; rfl

/-- Another thread's step leaves what is known about `t`, if it changes the shared state only as
holder of the lock. -/
theorem ThreadInv.other {s0 : S} {w w' : World R S A} {t : Nat} (h : ThreadInv prog s0 w t)
    (hth : w'.threads t = w.threads t)
    (hans : sAns prog s0 t w'.log = sAns prog s0 t w.log)
    (hown : w'.lock.owner = some t ↔ w.lock.owner = some t)
    (hsh : w.lock.owner = some t → w'.shared = w.shared ∧ w'.log = w.log) :
    ThreadInv prog s0 w' t := by
  unfold ThreadInv at h ⊢
  rw [hth, hans]
  have hne : w'.lock.owner ≠ some t ↔ w.lock.owner ≠ some t := not_congr hown
  split
  · next hc => rw [hc] at h; exact ⟨h.1, hne.2 h.2⟩
  · next r p hc =>
    rw [hc] at h
    refine ⟨h.1, h.2.imp (fun h => ⟨hown.2 h.1, h.2.1, ?_⟩) fun h => ⟨hne.2 h.1, h.2⟩⟩
    rw [(hsh h.1).1, (hsh h.1).2]; exact h.2.2
  · next r p hc =>
    rw [hc] at h
    exact ⟨hne.2 h.1, h.2⟩

@[simp] theorem set_same (w : World R S A) (t : Nat) (th : Thread R S A) :
    (w.set t th).threads t = th := by simp [World.set]

theorem set_other (w : World R S A) {t u : Nat} (th : Thread R S A) (h : u ≠ t) :
    (w.set t th).threads u = w.threads u := by simp [World.set, h]

theorem alone_ret_any (a : A) (rc : Rc) (s : S) : alone (.ret a) rc s = (a, s) := rfl

theorem nvmLock_works {l : Lock} (h : l.Works) (t : Nat) (fault : Option Rc) :
    nvmLock true l t fault = match fault with
      | some rc => .returns (if rc = .ok then .aborted else rc) l
      | none => match l.owner with
        | none => .returns .ok { l with owner := some t }
        | some u => if l.errCheck && u == t then .returns .aborted l else .waits := by
  obtain ⟨h1, h2, h3⟩ := h
  unfold nvmLock Lock.acquire
  rw [h1, h2, h3]
  rfl

theorem nvmUnlock_works {l : Lock} (h : l.Works) {t : Nat} (ho : l.owner = some t) :
    nvmUnlock true l t = some (.ok, { l with owner := none }) := by
  obtain ⟨h1, h2, h3⟩ := h
  unfold nvmUnlock Lock.release
  rw [h1, h2, h3, if_pos ho]
  rfl

theorem step_inv {s0 : S} {todo0 : Nat → List R} (hd : ∀ t r, Disciplined (prog t r))
    {w : World R S A} (h : Inv prog s0 todo0 w) (e : Nat × Option Rc) :
    Inv prog s0 todo0 (step prog w e) := by
  obtain ⟨t, fault⟩ := e
  have ht := h.thread t
  have ho := h.order t
  unfold step
  dsimp only
  cases hcur : (w.threads t).cur with
  | none =>
    unfold ThreadInv at ht
    unfold inFlight at ho
    rw [hcur] at ht ho
    dsimp only at ht ho
    cases htodo : (w.threads t).todo with
    | nil => exact h
    | cons r rs =>
      dsimp only
      refine ⟨h.works, h.good, h.shared, fun u => ?_, fun u => ?_⟩
      · by_cases hu : u = t
        · subst hu
          unfold ThreadInv
          rw [set_same]
          exact ⟨ht.1, Or.inr ⟨ht.2, rfl⟩⟩
        · exact (h.thread u).other (set_other _ _ hu) rfl Iff.rfl fun _ => ⟨rfl, rfl⟩
      · by_cases hu : u = t
        · subst hu
          rw [set_same]
          rw [htodo] at ho
          simpa [inFlight, World.set] using ho
        · rw [set_other _ _ hu]; exact h.order u
  | some c =>
    obtain ⟨r, over, p⟩ := c
    unfold ThreadInv at ht
    unfold inFlight at ho
    rw [hcur] at ht ho
    cases p with
    | ret a =>
      dsimp only
      cases over with
      | true =>
        dsimp only at ht ho
        rw [if_pos rfl]
        obtain ⟨hne, a', ha, hans⟩ := ht
        cases ha
        refine ⟨h.works, h.good, h.shared, fun u => ?_, fun u => ?_⟩
        · by_cases hu : u = t
          · subst hu
            unfold ThreadInv
            rw [set_same]
            exact ⟨hans, hne⟩
          · exact (h.thread u).other (set_other _ _ hu) rfl Iff.rfl fun _ => ⟨rfl, rfl⟩
        · by_cases hu : u = t
          · subst hu
            rw [set_same]
            simpa [inFlight, World.set] using ho
          · rw [set_other _ _ hu]; exact h.order u
      | false =>
        dsimp only at ht ho
        rw [if_neg (by simp)]
        rcases ht.2 with ⟨_, hi, _⟩ | ⟨hne, hp⟩
        · exact hi.elim
        · have hal : ∀ s, alone (prog t r) .ok s = (a, s) := fun s => by rw [← hp]; rfl
          refine ⟨h.works, h.good, ?_, fun u => ?_, fun u => ?_⟩
          · intro hn
            dsimp only
            rw [serialState_snoc, hal]
            exact h.shared hn
          · by_cases hu : u = t
            · subst hu
              unfold ThreadInv
              dsimp only
              rw [set_same]
              refine ⟨?_, hne⟩
              rw [sAns_same, hal]
              exact congrArg (· ++ [a]) ht.1
            · have hs : serialState prog s0 (w.log ++ [(t, r, Rc.ok)]) = serialState prog s0 w.log := by
                rw [serialState_snoc, hal]
              have hu' := h.thread u
              unfold ThreadInv at hu' ⊢
              dsimp only
              rw [set_other _ _ hu, sAns_other _ (Ne.symm hu), hs]
              exact hu'
          · by_cases hu : u = t
            · subst hu
              dsimp only
              rw [set_same, only_snoc_same]
              simpa [inFlight] using ho
            · dsimp only
              rw [set_other _ _ hu, only_snoc_other (Ne.symm hu)]; exact h.order u
    | lock k =>
      dsimp only
      cases over with
      | true =>
        obtain ⟨_, a, ha, _⟩ := ht
        cases ha
      | false =>
        dsimp only at ht ho
        rcases ht.2 with ⟨_, hi, _⟩ | ⟨hne, hp⟩
        · exact hi.elim
        have hdis := hd t r
        rw [← hp] at hdis
        obtain ⟨h1, h2, h3⟩ := h.works
        rw [nvmLock_works h.works]
        have hfail : ∀ rc : Rc, rc ≠ .ok → Inv prog s0 todo0
            { (w.set t { w.threads t with cur := some (r, true, k rc) }) with
              lock := w.lock, log := w.log ++ [(t, r, rc)] } := by
          intro rc hrc
          obtain ⟨a, ha⟩ := hdis.2 rc hrc
          have hal : ∀ s, alone (prog t r) rc s = (a, s) := fun s => by
            rw [← hp]; unfold alone; rw [ha]; rfl
          refine ⟨h.works, h.good, ?_, fun u => ?_, fun u => ?_⟩
          · intro hn
            dsimp only
            rw [serialState_snoc, hal]
            exact h.shared hn
          · by_cases hu : u = t
            · subst hu
              unfold ThreadInv
              dsimp only
              rw [set_same]
              refine ⟨hne, a, ha, ?_⟩
              rw [sAns_same, hal, ht.1]
            · have hs : serialState prog s0 (w.log ++ [(t, r, rc)]) = serialState prog s0 w.log := by
                rw [serialState_snoc, hal]
              have hu' := h.thread u
              unfold ThreadInv at hu' ⊢
              dsimp only
              rw [set_other _ _ hu, sAns_other _ (Ne.symm hu), hs]
              exact hu'
          · by_cases hu : u = t
            · subst hu
              dsimp only
              rw [set_same, only_snoc_same]
              simpa [inFlight] using ho
            · dsimp only
              rw [set_other _ _ hu, only_snoc_other (Ne.symm hu)]; exact h.order u
        cases fault with
        | some rc =>
          dsimp only
          by_cases hrc : rc = .ok
          · rw [if_pos hrc, if_neg (by simp)]
            exact hfail _ (by simp)
          · rw [if_neg hrc, if_neg hrc]
            exact hfail _ hrc
        | none =>
          dsimp only
          cases hown : w.lock.owner with
          | none =>
            dsimp only
            rw [if_pos rfl]
            refine ⟨h.works, h.good, ?_, fun u => ?_, fun u => ?_⟩
            · intro hn; cases hn
            · by_cases hu : u = t
              · subst hu
                unfold ThreadInv
                dsimp only
                rw [set_same]
                refine ⟨ht.1, Or.inl ⟨rfl, hdis.1, ?_⟩⟩
                rw [← hp, show (w.set u _).shared = w.shared from rfl, h.shared hown]
                rfl
              · refine (h.thread u).other (set_other _ _ hu) rfl ?_ fun ho => ?_
                · dsimp only
                  rw [hown]
                  simp [Ne.symm hu]
                · rw [hown] at ho; cases ho
            · by_cases hu : u = t
              · subst hu
                dsimp only
                rw [set_same]
                simpa [inFlight, World.set] using ho
              · dsimp only
                rw [set_other _ _ hu]; exact h.order u
          | some v =>
            dsimp only
            have hvt : v ≠ t := fun he => hne (by rw [hown, he])
            rw [show (w.lock.errCheck && v == t) = false by simp [hvt]]
            exact h
    | unlock p =>
      dsimp only
      cases over with
      | true =>
        obtain ⟨_, a, ha, _⟩ := ht
        cases ha
      | false =>
        dsimp only at ht ho
        rcases ht.2 with ⟨hown, hi, hal⟩ | ⟨hne, hp⟩
        · obtain ⟨a, rfl⟩ := hi
          obtain ⟨h1, h2, h3⟩ := h.works
          rw [nvmUnlock_works h.works hown]
          dsimp only
          replace hal : (a, w.shared) = alone (prog t r) .ok (serialState prog s0 w.log) := hal
          have hsh : w.shared = serialState prog s0 (w.log ++ [(t, r, .ok)]) := by
            rw [serialState_snoc, ← hal]
          refine ⟨⟨h1, h2, h3⟩, ?_, fun _ => hsh, fun u => ?_, fun u => ?_⟩
          · dsimp only; rw [h.good]; rfl
          · by_cases hu : u = t
            · subst hu
              unfold ThreadInv
              dsimp only
              rw [set_same]
              refine ⟨by simp, a, rfl, ?_⟩
              rw [sAns_same, ← hal, ht.1]
            · refine (h.thread u).other (set_other _ _ hu) (sAns_other _ (Ne.symm hu) _ _ _) ?_ fun ho => ?_
              · dsimp only
                rw [hown]
                simp [Ne.symm hu]
              · rw [hown] at ho
                exact absurd (Option.some.inj ho).symm hu
          · by_cases hu : u = t
            · subst hu
              dsimp only
              rw [set_same, only_snoc_same]
              simpa [inFlight] using ho
            · dsimp only
              rw [set_other _ _ hu, only_snoc_other (Ne.symm hu)]; exact h.order u
        · have := hd t r
          rw [← hp] at this
          exact this.elim
    | access f k =>
      dsimp only
      cases over with
      | true =>
        obtain ⟨_, a, ha, _⟩ := ht
        cases ha
      | false =>
        dsimp only at ht ho
        rcases ht.2 with ⟨hown, hi, hal⟩ | ⟨hne, hp⟩
        · refine ⟨h.works, ?_, fun hn => ?_, fun u => ?_, fun u => ?_⟩
          · dsimp only; rw [h.good, hown]; simp
          · exact absurd hn (by simp [World.set, hown])
          · by_cases hu : u = t
            · subst hu
              unfold ThreadInv
              dsimp only
              rw [set_same]
              exact ⟨ht.1, Or.inl ⟨hown, hi _, hal⟩⟩
            · refine (h.thread u).other (set_other _ _ hu) rfl Iff.rfl fun ho => ?_
              rw [hown] at ho
              exact absurd (Option.some.inj ho).symm hu
          · by_cases hu : u = t
            · subst hu
              dsimp only
              rw [set_same]
              simpa [inFlight, World.set] using ho
            · dsimp only
              rw [set_other _ _ hu]; exact h.order u
        · have := hd t r
          rw [← hp] at this
          exact this.elim

theorem run_inv {s0 : S} {todo0 : Nat → List R} (hd : ∀ t r, Disciplined (prog t r)) :
    ∀ (es : List (Nat × Option Rc)) {w : World R S A}, Inv prog s0 todo0 w →
    Inv prog s0 todo0 (run prog w es) := by
  intro es
  induction es with
  | nil => exact fun h => h
  | cons e es ih => exact fun h => ih (step_inv hd h e)

/-- The order only grows. -/
theorem step_log (w : World R S A) (e : Nat × Option Rc) : w.log <+: (step prog w e).log := by
  unfold step
  dsimp only
  repeat' split
  all_goals first
    | exact List.prefix_refl _
    | exact List.prefix_append _ _

theorem run_log : ∀ (es : List (Nat × Option Rc)) (w : World R S A), w.log <+: (run prog w es).log := by
  intro es
  induction es with
  | nil => exact fun w => List.prefix_refl _
  | cons e es ih => exact fun w => (step_log w e).trans (ih _)

/-! ## Progress -/

theorem run_snoc (w : World R S A) (es : List (Nat × Option Rc)) (e : Nat × Option Rc) :
    run prog w (e :: es) = run prog (step prog w e) es := rfl

/-- A context that holds the lock, or finds it free, completes its request within finitely many of
its own steps. -/
theorem complete {s0 : S} {todo0 : Nat → List R} (hd : ∀ t r, Disciplined (prog t r)) (t : Nat) (r : R) :
    ∀ (p : Prog S A) (over : Bool) (w : World R S A), Inv prog s0 todo0 w →
    (w.threads t).cur = some (r, over, p) → (w.lock.owner = none ∨ w.lock.owner = some t) →
    ∃ n, (run prog w (List.replicate n (t, none))).lock.owner = none ∧
      ((run prog w (List.replicate n (t, none))).threads t).cur = none ∧
      ((run prog w (List.replicate n (t, none))).threads t).todo = (w.threads t).todo ∧
      ((run prog w (List.replicate n (t, none))).threads t).answers.length
        = (w.threads t).answers.length + 1 ∧
      ∀ v, v ≠ t → (run prog w (List.replicate n (t, none))).threads v = w.threads v := by
  intro p
  induction p with
  | ret a =>
    intro over w h hc ho
    have hne : w.lock.owner = none := by
      have ht := h.thread t
      unfold ThreadInv at ht
      rw [hc] at ht
      cases over with
      | true => exact ho.resolve_right ht.1
      | false =>
        rcases ht.2 with ⟨_, hi, _⟩ | ⟨hn, _⟩
        · exact hi.elim
        · exact ho.resolve_right hn
    have e : step prog w (t, none) = if over then w.set t { w.threads t with cur := none, answers := (w.threads t).answers ++ [a] }
        else { (w.set t { w.threads t with cur := none, answers := (w.threads t).answers ++ [a] }) with log := w.log ++ [(t, r, .ok)] } := by
      unfold step; dsimp only; rw [hc]
    refine ⟨1, ?_⟩
    rw [show run prog w (List.replicate 1 (t, none)) = step prog w (t, none) from rfl, e]
    cases over <;> exact ⟨hne, by simp, by simp, by simp, fun v hv => set_other _ _ hv⟩
  | lock k ih =>
    intro over w h hc ho
    have ht := h.thread t
    unfold ThreadInv at ht
    rw [hc] at ht
    cases over with
    | true => obtain ⟨_, a, ha, _⟩ := ht; cases ha
    | false =>
      rcases ht.2 with ⟨_, hi, _⟩ | ⟨hn, _⟩
      · exact hi.elim
      have hfree := ho.resolve_right hn
      obtain ⟨h1, h2, h3⟩ := h.works
      have e : step prog w (t, none) = { (w.set t { w.threads t with cur := some (r, false, k .ok) }) with
          lock := { w.lock with owner := some t } } := by
        unfold step; dsimp only; rw [hc]
        rw [nvmLock_works h.works, hfree]
        rfl
      have h' := step_inv hd h (t, none)
      obtain ⟨n, hn⟩ := ih .ok false (step prog w (t, none)) h' (by rw [e]; simp) (by rw [e]; exact Or.inr rfl)
      refine ⟨n + 1, ?_⟩
      rw [List.replicate_succ, run_snoc]
      refine ⟨hn.1, hn.2.1, ?_, ?_, fun v hv => ?_⟩
      · rw [hn.2.2.1, e]; simp
      · rw [hn.2.2.2.1, e]; simp
      · rw [hn.2.2.2.2 v hv, e]; exact set_other _ _ hv
  | unlock p ih =>
    intro over w h hc ho
    have ht := h.thread t
    unfold ThreadInv at ht
    rw [hc] at ht
    cases over with
    | true => obtain ⟨_, a, ha, _⟩ := ht; cases ha
    | false =>
      rcases ht.2 with ⟨hown, hi, _⟩ | ⟨hn, hp⟩
      · obtain ⟨h1, h2, h3⟩ := h.works
        have e : step prog w (t, none) = { (w.set t { w.threads t with cur := some (r, true, p) }) with
            lock := { w.lock with owner := none }, log := w.log ++ [(t, r, .ok)], bad := w.bad || Rc.ok != .ok } := by
          unfold step; dsimp only; rw [hc]
          dsimp only
          rw [nvmUnlock_works h.works hown]
        have h' := step_inv hd h (t, none)
        obtain ⟨n, hn⟩ := ih true (step prog w (t, none)) h' (by rw [e]; simp) (by rw [e]; exact Or.inl rfl)
        refine ⟨n + 1, ?_⟩
        rw [List.replicate_succ, run_snoc]
        refine ⟨hn.1, hn.2.1, ?_, ?_, fun v hv => ?_⟩
        · rw [hn.2.2.1, e]; simp
        · rw [hn.2.2.2.1, e]; simp
        · rw [hn.2.2.2.2 v hv, e]; exact set_other _ _ hv
      · have := hd t r
        rw [← hp] at this
        exact this.elim
  | access f k ih =>
    intro over w h hc ho
    have e : step prog w (t, none) = { (w.set t { w.threads t with cur := some (r, over, k w.shared) }) with
        shared := f w.shared, bad := w.bad || w.lock.owner != some t } := by
      unfold step; dsimp only; rw [hc]
    have h' := step_inv hd h (t, none)
    obtain ⟨n, hn⟩ := ih w.shared over (step prog w (t, none)) h' (by rw [e]; simp)
      (by rw [e]; exact ho)
    refine ⟨n + 1, ?_⟩
    rw [List.replicate_succ, run_snoc]
    refine ⟨hn.1, hn.2.1, ?_, ?_, fun v hv => ?_⟩
    · rw [hn.2.2.1, e]; simp
    · rw [hn.2.2.2.1, e]; simp
    · rw [hn.2.2.2.2 v hv, e]; exact set_other _ _ hv

/-- The holder of the lock can be run until the lock is free. -/
theorem free_lock {s0 : S} {todo0 : Nat → List R} (hd : ∀ t r, Disciplined (prog t r))
    {w : World R S A} (h : Inv prog s0 todo0 w) :
    ∃ es : List (Nat × Option Rc), (∀ e ∈ es, e.2 = none ∧ w.lock.owner = some e.1) ∧
      (run prog w es).lock.owner = none := by
  cases hown : w.lock.owner with
  | none => exact ⟨[], by simp, hown⟩
  | some u =>
    have hu := h.thread u
    unfold ThreadInv at hu
    cases hc : (w.threads u).cur with
    | none => rw [hc] at hu; exact absurd hown hu.2
    | some c =>
      obtain ⟨r, over, p⟩ := c
      obtain ⟨n, hn⟩ := complete hd u r p over w h hc (Or.inr hown)
      refine ⟨List.replicate n (u, none), fun e he => ?_, hn.1⟩
      rw [(List.mem_replicate.1 he).2]
      exact ⟨rfl, rfl⟩

theorem run_append (w : World R S A) (es fs : List (Nat × Option Rc)) :
    run prog w (es ++ fs) = run prog (run prog w es) fs := List.foldl_append ..

/-- Every context with work to do can complete a request. -/
theorem can_answer {s0 : S} {todo0 : Nat → List R} (hd : ∀ t r, Disciplined (prog t r))
    {w : World R S A} (h : Inv prog s0 todo0 w) (t : Nat)
    (hw : (w.threads t).cur ≠ none ∨ (w.threads t).todo ≠ []) :
    ∃ es : List (Nat × Option Rc), (∀ e ∈ es, e.2 = none) ∧
      ((run prog w es).threads t).answers.length = (w.threads t).answers.length + 1 := by
  by_cases hot : w.lock.owner = some t
  · cases hc : (w.threads t).cur with
    | none =>
      have ht := h.thread t
      unfold ThreadInv at ht
      rw [hc] at ht
      exact absurd hot ht.2
    | some c =>
      obtain ⟨r, over, p⟩ := c
      obtain ⟨n, hn⟩ := complete hd t r p over w h hc (Or.inr hot)
      exact ⟨_, fun e he => by rw [(List.mem_replicate.1 he).2], hn.2.2.2.1⟩
  · -- free the lock first
    have hfree : ∃ es : List (Nat × Option Rc), (∀ e ∈ es, e.2 = none) ∧
        (run prog w es).lock.owner = none ∧ (run prog w es).threads t = w.threads t := by
      cases hown : w.lock.owner with
      | none => exact ⟨[], by simp, hown, rfl⟩
      | some u =>
        have hut : t ≠ u := fun he => hot (by rw [hown, he])
        have hu := h.thread u
        unfold ThreadInv at hu
        cases hc : (w.threads u).cur with
        | none => rw [hc] at hu; exact absurd hown hu.2
        | some c =>
          obtain ⟨r, over, p⟩ := c
          obtain ⟨n, hn⟩ := complete hd u r p over w h hc (Or.inr hown)
          exact ⟨_, fun e he => by rw [(List.mem_replicate.1 he).2], hn.1, hn.2.2.2.2 t hut⟩
    obtain ⟨es, hes, hown, hth⟩ := hfree
    have h1 := run_inv hd es h
    have hgo : ∃ fs : List (Nat × Option Rc), (∀ e ∈ fs, e.2 = none) ∧
        ((run prog (run prog w es) fs).threads t).answers.length = (w.threads t).answers.length + 1 := by
      rw [← hth] at hw ⊢
      generalize run prog w es = w1 at h1 hown hw ⊢
      have hrep : ∀ n, ∀ e ∈ List.replicate n (t, (none : Option Rc)), e.2 = none :=
        fun n e he => by rw [(List.mem_replicate.1 he).2]
      cases hc : (w1.threads t).cur with
      | some c =>
        obtain ⟨r, over, p⟩ := c
        obtain ⟨n, hn⟩ := complete hd t r p over w1 h1 hc (Or.inl hown)
        exact ⟨_, hrep n, hn.2.2.2.1⟩
      | none =>
        cases htd : (w1.threads t).todo with
        | nil => exact (hw.elim (fun h => h hc) fun h => h htd).elim
        | cons r rs =>
          have e : step prog w1 (t, none) = w1.set t { w1.threads t with todo := rs, cur := some (r, false, prog t r) } := by
            unfold step; dsimp only; rw [hc, htd]
          obtain ⟨n, hn⟩ := complete hd t r (prog t r) false _ (step_inv hd h1 (t, none))
            (by rw [e]; simp) (by rw [e]; exact Or.inl hown)
          refine ⟨List.replicate (n + 1) (t, none), hrep _, ?_⟩
          rw [List.replicate_succ, run_snoc, hn.2.2.2.1, e]
          simp
    obtain ⟨fs, hfs, hans⟩ := hgo
    refine ⟨es ++ fs, fun e he => ?_, by rw [run_append]; exact hans⟩
    rcases List.mem_append.1 he with he | he
    · exact hes e he
    · exact hfs e he

end WolfHsm.Lock

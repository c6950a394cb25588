import Verif.Proofs.FlashWp

/-! # Executions with chosen faults, for concrete counterexamples -/

namespace WolfHsm.Flash

/-- What happens at one driver call: `none` = it works; `some (e, done)` = it reports `e`
after having completed (`done`) or not touched (`!done`) the flash. -/
abbrev Event := Option (Rc × Bool)

/-- Run a program with a script of events, one per driver call; missing events mean it
works.  `none` if the script contains a fault that `F` does not allow. -/
def runScript {α : Type} (d : Dev) (F : Faults) : FP α → List Event → Mem → Option (α × Mem)
  | .ret a, _, m => some (a, m)
  | .read a n k, s, m =>
    match s.headD none with
    | none => runScript d F (k (devRead d m a n).1 (devRead d m a n).2) s.tail m
    | some (e, _) =>
      if F.read = true ∧ e ≠ .ok then runScript d F (k e []) s.tail m else none
  | .blank a n k, s, m =>
    match s.headD none with
    | none => runScript d F (k (devBlank d m a n)) s.tail m
    | some (e, _) =>
      if F.read = true ∧ e ≠ .ok ∧ e ≠ .notblank then runScript d F (k e) s.tail m else none
  | .prog a bs k, s, m =>
    if devProg d m a bs = .ok then
      match s.headD none with
      | none => runScript d F (k .ok) s.tail (wr m a bs)
      | some (e, done) =>
        if F.write = true ∧ e ≠ .ok then
          runScript d F (k e) s.tail (torn m a bs fun _ => done) else none
    else runScript d F (k (devProg d m a bs)) s.tail m
  | .verify a bs k, s, m =>
    match s.headD none with
    | none => runScript d F (k (devVerify d m a bs)) s.tail m
    | some (e, _) =>
      if F.write = true ∧ e ≠ .ok then runScript d F (k e) s.tail m else none
  | .erase a n k, s, m =>
    if devErase d a n = .ok then
      match s.headD none with
      | none => runScript d F (k .ok) s.tail (wr m a (erasedBytes d n))
      | some (e, done) =>
        if F.write = true ∧ e ≠ .ok then
          runScript d F (k e) s.tail (torn m a (erasedBytes d n) fun _ => done) else none
    else runScript d F (k (devErase d a n)) s.tail m

/-- A scripted run is an execution. -/
theorem runScript_exec {α : Type} {d : Dev} {F : Faults} (p : FP α) : ∀ {s : List Event}
    {m : Mem} {a : α} {m' : Mem}, runScript d F p s m = some (a, m') →
    Exec d F p m (some a) m' := by
  induction p with
  | ret a => intro s m a m' h; simp only [runScript, Option.some.injEq] at h; cases h; exact .ret _ _
  | read a n k ih =>
    intro s m b m' h
    simp only [runScript] at h
    split at h
    · exact .read (ih _ _ h)
    · split at h
      · rename_i hc; exact .readFault _ _ hc.1 hc.2 (ih _ _ h)
      · cases h
  | blank a n k ih =>
    intro s m b m' h
    simp only [runScript] at h
    split at h
    · exact .blank (ih _ h)
    · split at h
      · rename_i hc; exact .blankFault _ hc.1 hc.2.1 hc.2.2 (ih _ h)
      · cases h
  | prog a bs k ih =>
    intro s m b m' h
    simp only [runScript] at h
    split at h
    · rename_i hp
      split at h
      · exact .prog hp (ih _ h)
      · split at h
        · rename_i hc; exact .progFault _ _ hc.1 hc.2 hp (ih _ h)
        · cases h
    · rename_i hp; exact .progRefused hp (ih _ h)
  | verify a bs k ih =>
    intro s m b m' h
    simp only [runScript] at h
    split at h
    · exact .verify (ih _ h)
    · split at h
      · rename_i hc; exact .verifyFault _ hc.1 hc.2 (ih _ h)
      · cases h
  | erase a n k ih =>
    intro s m b m' h
    simp only [runScript] at h
    split at h
    · rename_i hp
      split at h
      · exact .erase hp (ih _ h)
      · split at h
        · rename_i hc; exact .eraseFault _ _ hc.1 hc.2 hp (ih _ h)
        · cases h
    · rename_i hp; exact .eraseRefused hp (ih _ h)

end WolfHsm.Flash

namespace WolfHsm.Flash

/-- The flash content when power is lost after `k` driver calls, if the program is still
running then. -/
def runCut {α : Type} (d : Dev) : FP α → (k : Nat) → Mem → Option Mem
  | .ret _, _, _ => none
  | _, 0, m => some m
  | .read a n k, j + 1, m => runCut d (k (devRead d m a n).1 (devRead d m a n).2) j m
  | .blank a n k, j + 1, m => runCut d (k (devBlank d m a n)) j m
  | .prog a bs k, j + 1, m =>
    if devProg d m a bs = .ok then runCut d (k .ok) j (wr m a bs)
    else runCut d (k (devProg d m a bs)) j m
  | .verify a bs k, j + 1, m => runCut d (k (devVerify d m a bs)) j m
  | .erase a n k, j + 1, m =>
    if devErase d a n = .ok then runCut d (k .ok) j (wr m a (erasedBytes d n))
    else runCut d (k (devErase d a n)) j m

/-- A cut run is an execution ending in power loss. -/
theorem runCut_exec {α : Type} {d : Dev} {F : Faults} (p : FP α) : ∀ {k : Nat} {m m' : Mem},
    runCut d p k m = some m' → Exec d F p m none m' := by
  induction p with
  | ret a => intro k m m' h; simp [runCut] at h
  | read a n k ih =>
    intro j m m' h
    cases j with
    | zero => simp only [runCut, Option.some.injEq] at h; subst h; exact .crash _ _
    | succ j => exact .read (ih _ _ h)
  | blank a n k ih =>
    intro j m m' h
    cases j with
    | zero => simp only [runCut, Option.some.injEq] at h; subst h; exact .crash _ _
    | succ j => exact .blank (ih _ h)
  | prog a bs k ih =>
    intro j m m' h
    cases j with
    | zero => simp only [runCut, Option.some.injEq] at h; subst h; exact .crash _ _
    | succ j =>
      simp only [runCut] at h
      split at h
      · rename_i hp; exact .prog hp (ih _ h)
      · rename_i hp; exact .progRefused hp (ih _ h)
  | verify a bs k ih =>
    intro j m m' h
    cases j with
    | zero => simp only [runCut, Option.some.injEq] at h; subst h; exact .crash _ _
    | succ j => exact .verify (ih _ h)
  | erase a n k ih =>
    intro j m m' h
    cases j with
    | zero => simp only [runCut, Option.some.injEq] at h; subst h; exact .crash _ _
    | succ j =>
      simp only [runCut] at h
      split at h
      · rename_i hp; exact .erase hp (ih _ h)
      · rename_i hp; exact .eraseRefused hp (ih _ h)

end WolfHsm.Flash

import Verif.Proofs.FlashGWp

/-! # Executions with chosen faults and power losses on devices with larger granules -/

namespace WolfHsm.FlashG

open Flash

/-- What happens at one driver call: it works, it reports an error after having affected the
selected granules, or power is lost then. -/
inductive Ev
  | ok
  | fault (e : Rc) (sel : Nat → Bool)
  | cut (sel : Nat → Bool)

/-- Run a program with one event per driver call; missing events mean it works. -/
def runS {α : Type} (g : Nat) (d : Dev) (F : Faults) : FP α → List Ev → Mem → Option (Option α × Mem)
  | .ret a, _, m => some (some a, m)
  | .read a n k, s, m =>
    match s.headD .ok with
    | .ok => runS g d F (k (devRead d m a n).1 (devRead d m a n).2) s.tail m
    | .fault e _ => if F.read = true ∧ e ≠ .ok then runS g d F (k e []) s.tail m else none
    | .cut _ => some (none, m)
  | .blank a n k, s, m =>
    match s.headD .ok with
    | .ok => runS g d F (k (devBlank d m a n)) s.tail m
    | .fault e _ =>
      if F.read = true ∧ e ≠ .ok ∧ e ≠ .notblank then runS g d F (k e) s.tail m else none
    | .cut _ => some (none, m)
  | .prog a bs k, s, m =>
    if devProg d m a bs = .ok then
      match s.headD .ok with
      | .ok => runS g d F (k .ok) s.tail (wr m a bs)
      | .fault e sel =>
        if F.write = true ∧ e ≠ .ok then runS g d F (k e) s.tail (torn g m a bs sel) else none
      | .cut sel => some (none, torn g m a bs sel)
    else runS g d F (k (devProg d m a bs)) s.tail m
  | .verify a bs k, s, m =>
    match s.headD .ok with
    | .ok => runS g d F (k (devVerify d m a bs)) s.tail m
    | .fault e _ => if F.write = true ∧ e ≠ .ok then runS g d F (k e) s.tail m else none
    | .cut _ => some (none, m)
  | .erase a n k, s, m =>
    if devErase d a n = .ok then
      match s.headD .ok with
      | .ok => runS g d F (k .ok) s.tail (wr m a (erasedBytes d n))
      | .fault e sel =>
        if F.write = true ∧ e ≠ .ok then runS g d F (k e) s.tail (torn g m a (erasedBytes d n) sel) else none
      | .cut sel => some (none, torn g m a (erasedBytes d n) sel)
    else runS g d F (k (devErase d a n)) s.tail m

theorem runS_exec {α : Type} {g : Nat} {d : Dev} {F : Faults} (p : FP α) : ∀ {s : List Ev}
    {m : Mem} {o : Option α} {m' : Mem}, runS g d F p s m = some (o, m') → Exec g d F p m o m' := by
  induction p with
  | ret a => intro s m o m' h; simp only [runS, Option.some.injEq] at h; cases h; exact .ret _ _
  | read a n k ih =>
    intro s m b m' h
    simp only [runS] at h
    split at h
    · exact .read (ih _ _ h)
    · split at h
      · rename_i hc; exact .readFault _ _ hc.1 hc.2 (ih _ _ h)
      · cases h
    · cases h; exact .crash _ _
  | blank a n k ih =>
    intro s m b m' h
    simp only [runS] at h
    split at h
    · exact .blank (ih _ h)
    · split at h
      · rename_i hc; exact .blankFault _ hc.1 hc.2.1 hc.2.2 (ih _ h)
      · cases h
    · cases h; exact .crash _ _
  | prog a bs k ih =>
    intro s m b m' h
    simp only [runS] at h
    split at h
    · rename_i hp
      split at h
      · exact .prog hp (ih _ h)
      · split at h
        · rename_i hc; exact .progFault _ _ hc.1 hc.2 hp (ih _ h)
        · cases h
      · cases h; exact .progTorn _ hp
    · rename_i hp; exact .progRefused hp (ih _ h)
  | verify a bs k ih =>
    intro s m b m' h
    simp only [runS] at h
    split at h
    · exact .verify (ih _ h)
    · split at h
      · rename_i hc; exact .verifyFault _ hc.1 hc.2 (ih _ h)
      · cases h
    · cases h; exact .crash _ _
  | erase a n k ih =>
    intro s m b m' h
    simp only [runS] at h
    split at h
    · rename_i hp
      split at h
      · exact .erase hp (ih _ h)
      · split at h
        · rename_i hc; exact .eraseFault _ _ hc.1 hc.2 hp (ih _ h)
        · cases h
      · cases h; exact .eraseTorn _ hp
    · rename_i hp; exact .eraseRefused hp (ih _ h)

end WolfHsm.FlashG

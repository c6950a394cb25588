import Verif.Model.Lock

/-!
# Vocabulary for the locking property (C46)

* `Disciplined`: the shape of handlers the theorems are about;
* `alone`: what a handler does when nothing else runs;
* `serialState`, `serialAnswers`: requests executed one after the other, each alone;
* `Start`: a system that has just been set up.
-/

namespace WolfHsm.Lock

variable {R S A : Type}

/-- Shape of a handler that holds the lock: it accesses the state, finally unlocks, and then
only answers. -/
def Inside : Prog S A → Prop
  | .ret _ => False
  | .lock _ => False
  | .unlock p => ∃ a, p = .ret a
  | .access _ k => ∀ s, Inside (k s)

/-- Shape of a handler: it answers without looking at the shared state, or it takes the lock;
if that fails it only answers. -/
def Disciplined : Prog S A → Prop
  | .ret _ => True
  | .lock k => Inside (k .ok) ∧ ∀ rc, rc ≠ .ok → ∃ a, k rc = .ret a
  | .unlock _ => False
  | .access _ _ => False

/-- Answer and new state when the handler runs with no other thread around; `rc`: result of taking
the lock. -/
def alone : Prog S A → Rc → S → A × S
  | .ret a, _, s => (a, s)
  | .lock k, rc, s => alone (k rc) rc s
  | .unlock p, rc, s => alone p rc s
  | .access f k, rc, s => alone (k s) rc (f s)

/-- State after executing requests one after the other. -/
def serialState (prog : Nat → R → Prog S A) : S → List (Nat × R × Rc) → S
  | s, [] => s
  | s, (t, r, rc) :: l => serialState prog (alone (prog t r) rc s).2 l

/-- Answers when executing requests one after the other, with the context that gives them. -/
def serialAnswers (prog : Nat → R → Prog S A) : S → List (Nat × R × Rc) → List (Nat × A)
  | _, [] => []
  | s, (t, r, rc) :: l =>
    (t, (alone (prog t r) rc s).1) :: serialAnswers prog (alone (prog t r) rc s).2 l

/-- What concerns context `t`. -/
def only {X : Type} (t : Nat) (l : List (Nat × X)) : List X :=
  (l.filter fun p => p.1 == t).map Prod.snd

/-- The lock has been set up with callbacks and can be used. -/
def Lock.Works (l : Lock) : Prop := l.init = true ∧ l.cb = true ∧ l.ready = true

/-- Set up, nothing done yet. -/
structure Start (w : World R S A) : Prop where
  works : w.lock.Works
  free : w.lock.owner = none
  idle : ∀ t, (w.threads t).cur = none ∧ (w.threads t).answers = []
  log : w.log = []
  good : w.bad = false

/-- The request the context is working on and that has no place in the order yet. -/
def inFlight (th : Thread R S A) : List R :=
  match th.cur with
  | some (r, false, _) => [r]
  | _ => []

end WolfHsm.Lock

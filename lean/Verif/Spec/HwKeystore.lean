import Verif.Model.HwKeystore

/-!
# What the users of a hardware key store rely on (C68)
-/

namespace WolfHsm.HwKs

variable {S : Type}

/-- Calls of `GetKey` one after the other, with the result of taking the lock: the answers, and the hardware afterwards. -/
def oneByOne (b : Ask → Backend S) : S → List (Nat × Ask × Rc) → List (Nat × Ans) × S
  | s, [] => ([], s)
  | s, (t, a, .ok) :: l =>
    let r := (b a).alone s
    let q := oneByOne b r.2 l
    ((t, r.1) :: q.1, q.2)
  | s, (t, _, rc) :: l =>
    let q := oneByOne b s l
    ((t, ⟨rc, []⟩) :: q.1, q.2)

/-- One call, its answer, and how the backend is used for it; the flag says whether the key store is open. -/
inductive Does (b : Ask → Backend S) : Bool × S → Ev × Ans → List Used → Bool × S → Prop
  /-- Opened: by `Init` with an answer "ok". -/
  | opens {o h m r d} : Does b (o, h) (.init m r d, ⟨.ok, []⟩) [.opened] (true, h)
  /-- `Init` fails; the backend has not been opened. -/
  | fails {o h m r d rc} : rc ≠ .ok → Does b (o, h) (.init m r d, ⟨rc, []⟩) [] (false, h)
  | closes {h r d} : Does b (true, h) (.cleanup r d, ⟨r, []⟩) [.closed] (false, h)
  | nothing {h r d} : Does b (false, h) (.cleanup r d, ⟨.ok, []⟩) [] (false, h)
  /-- The answer is the backend's. -/
  | asks {h a f} : Does b (true, h) (.getKey a f, ((b a).alone h).1) [.asked a] (true, ((b a).alone h).2)
  /-- The lock could not be taken. -/
  | noLock {h a f rc} : rc ≠ .ok → Does b (true, h) (.getKey a (some f), ⟨rc, []⟩) [] (true, h)
  | notOpen {h a f} : Does b (false, h) (.getKey a f, ⟨.badargs, []⟩) [] (false, h)

/-- A history of calls. -/
inductive Story (b : Ask → Backend S) : Bool × S → List (Ev × Ans) → List Used → Bool × S → Prop
  | nil {x} : Story b x [] [] x
  | cons {x y z e u es us} : Does b x e u y → Story b y es us z → Story b x (e :: es) (u ++ us) z

/-- The backend is used properly: opened when closed, asked and closed when open. -/
def proper : Bool → List Used → Option Bool
  | o, [] => some o
  | false, .opened :: us => proper true us
  | true, .closed :: us => proper false us
  | true, .asked _ :: us => proper true us
  | _, _ :: _ => none

/-- The application does not call `Init` on a key store that is open. -/
def InitWhenClosed : Bool → List (Ev × Ans) → Prop
  | _, [] => True
  | o, (.init _ _ _, a) :: es => o = false ∧ InitWhenClosed (a.rc == .ok) es
  | _, (.cleanup _ _, _) :: es => InitWhenClosed false es
  | o, (.getKey _ _, _) :: es => InitWhenClosed o es

end WolfHsm.HwKs

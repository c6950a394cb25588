import Verif.Model.Tls

/-!
# Specification of the TLS transport (C66)
-/

namespace WolfHsm.Tls

/-- What an observer of the calls knows: the requests and the responses under way, oldest first, and the packets that the
client and the server are trying to send (their last call was told to come back). -/
structure View where
  requests : List (List UInt8)
  responses : List (List UInt8)
  request : Option (List UInt8)
  response : Option (List UInt8)
deriving DecidableEq

/-- Nothing has happened yet. -/
def View.start : View := ⟨[], [], none, none⟩

/-- What a call and its result mean.  `none`: this must not happen.  Packets are received only as they were sent, once and
in the order they were sent. -/
def View.next (v : View) : Op → Rc × Option (List UInt8) → Option View
  | .cSend _ _ _ d, (.ok, _) => some { v with requests := v.requests ++ [d], request := none }
  | .cSend _ _ _ d, (.notready, _) => some { v with request := some d }
  | .sRecv .., (.ok, m) =>
    match v.requests with
    | d :: ds => if m = some d then some { v with requests := ds } else none
    | [] => none
  | .sSend _ _ d, (.ok, _) => some { v with responses := v.responses ++ [d], response := none }
  | .sSend _ _ d, (.notready, _) => some { v with response := some d }
  | .cRecv .., (.ok, m) =>
    match v.responses with
    | d :: ds => if m = some d then some { v with responses := ds } else none
    | [] => none
  | _, (_, none) => some v
  | _, (_, some _) => none

/-- Packets are not longer than `max`, and a sender who was told to come back comes back with the same packet. -/
def View.Polite (max : Nat) (v : View) : Op → Prop
  | .cSend _ _ _ d => d.length ≤ max ∧ (v.request = none ∨ v.request = some d)
  | .sSend _ _ d => d.length ≤ max ∧ (v.response = none ∨ v.response = some d)
  | _ => True

instance (max : Nat) (v : View) (o : Op) : Decidable (v.Polite max o) := by
  cases o <;> unfold View.Polite <;> infer_instance

/-- All calls of a history are polite. -/
def View.AllPolite (max : Nat) (v : View) : List (Op × Rc × Option (List UInt8)) → Prop
  | [] => True
  | (o, r) :: t => v.Polite max o ∧ match v.next o r with
    | none => True
    | some v' => v'.AllPolite max t

instance View.decAllPolite (max : Nat) (v : View) : (t : List (Op × Rc × Option (List UInt8))) → Decidable (v.AllPolite max t)
  | [] => .isTrue trivial
  | (o, r) :: t =>
    have : Decidable (match v.next o r with
      | none => True
      | some v' => v'.AllPolite max t) := match v.next o r with
        | none => .isTrue trivial
        | some v' => View.decAllPolite max v' t
    inferInstanceAs (Decidable (_ ∧ _))

/-- What the observer knows after a history; `none` if something happened that must not. -/
def View.after (v : View) : List (Op × Rc × Option (List UInt8)) → Option View
  | [] => some v
  | (o, r) :: t => (v.next o r).bind fun v' => v'.after t

end WolfHsm.Tls

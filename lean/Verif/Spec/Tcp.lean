import Verif.Model.Tcp

/-!
# Specification of the TCP transport (C61)
-/

namespace WolfHsm.Tcp

/-- A channel for one request and its response at a time. -/
inductive Chan where
  /-- nothing is under way -/
  | ready
  /-- the client has sent `m` -/
  | requested (m : List UInt8)
  /-- the server has received it -/
  | serving
  /-- the server has answered `r` -/
  | answered (r : List UInt8)
deriving DecidableEq

/-- What an observer of the calls knows: the channel, and the packets that the client and the server
are trying to send (their last call was told to come back). -/
structure View where
  ch : Chan
  request : Option (List UInt8)
  response : Option (List UInt8)
deriving DecidableEq

/-- Nothing has happened yet. -/
def View.start : View := ⟨.ready, none, none⟩

/-- What a call and its result mean.  `none`: this must not happen.  Packets are received only as they were
sent, once; sending succeeds only when it is the sender's turn. -/
def View.next (v : View) : Op → Rc × Option (List UInt8) → Option View
  | .cSend _ _ d, (.ok, _) => if v.ch = .ready then some { v with ch := .requested d, request := none } else none
  | .cSend _ _ d, (.notready, _) => if v.ch = .ready then some { v with request := some d } else some v
  | .sRecv .., (.ok, m) =>
    match v.ch with
    | .requested d => if m = some d then some { v with ch := .serving } else none
    | _ => none
  | .sSend _ d, (.ok, _) => if v.ch = .serving then some { v with ch := .answered d, response := none } else none
  | .sSend _ d, (.notready, _) => if v.ch = .serving then some { v with response := some d } else some v
  | .cRecv .., (.ok, m) =>
    match v.ch with
    | .answered r => if m = some r then some { v with ch := .ready } else none
    | _ => none
  | _, _ => some v

/-- A sender who was told to come back comes back with the same packet. -/
def View.Polite (v : View) : Op → Prop
  | .cSend _ _ d => v.ch = .ready → v.request = none ∨ v.request = some d
  | .sSend _ d => v.ch = .serving → v.response = none ∨ v.response = some d
  | _ => True

instance (v : View) (o : Op) : Decidable (v.Polite o) := by
  cases o <;> unfold View.Polite <;> infer_instance

/-- All calls of a history are polite. -/
def View.AllPolite (v : View) : List (Op × Rc × Option (List UInt8)) → Prop
  | [] => True
  | (o, r) :: t => v.Polite o ∧ match v.next o r with
    | none => True
    | some v' => v'.AllPolite t

instance View.decAllPolite (v : View) : (t : List (Op × Rc × Option (List UInt8))) → Decidable (v.AllPolite t)
  | [] => .isTrue trivial
  | (o, r) :: t =>
    have : Decidable (match v.next o r with
      | none => True
      | some v' => v'.AllPolite t) := match v.next o r with
        | none => .isTrue trivial
        | some v' => View.decAllPolite v' t
    inferInstanceAs (Decidable (_ ∧ _))

/-- What the observer knows after a history; `none` if something happened that must not. -/
def View.after (v : View) : List (Op × Rc × Option (List UInt8)) → Option View
  | [] => some v
  | (o, r) :: t => (v.next o r).bind fun v' => v'.after t

end WolfHsm.Tcp

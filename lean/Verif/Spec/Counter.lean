import Verif.Model.Counter

/-!
# Specification vocabulary for the counter property (C22)
-/

namespace WolfHsm.Counter

/-- A counter as clients name it.  Clients are distinguished by 4 bits, counters of a
client by 8 bits. -/
structure Name where
  client : Nat
  counter : Nat
deriving DecidableEq

/-- The counter a request of `client` is about. -/
def Req.target (client : UInt16) : Req → Option Name
  | .init cid _ | .increment cid | .read cid | .destroy cid =>
    some ⟨client.toNat % 16, cid.toNat % 256⟩
  | _ => none

/-- The request resets a counter. -/
def Req.resets : Req → Bool
  | .init _ _ | .destroy _ => true
  | _ => false

/-- A request by a client (with the result of taking the NVM lock), or a power cycle. -/
inductive Ev where
  | req (client : UInt16) (lock : Rc) (r : Req)
  | restart (b : Bool)

/-- State after one event. -/
def step (n : Nvm) : Ev → Nvm
  | .req client lock r => (handle n client lock r).2
  | .restart b => n.restart b

/-- The value an event reports for counter `c`, if it reports one.  A response is seen
only if power holds until it is sent. -/
def report (c : Name) (n : Nvm) : Ev → Option UInt32
  | .req client lock r =>
    if r.target client = some c ∧ (handle n client lock r).1.rc = .ok ∧
        (handle n client lock r).2.powered = true then
      some (handle n client lock r).1.value
    else none
  | .restart _ => none

/-- All values reported for counter `c` during a history, in order. -/
def reports (c : Name) (n : Nvm) : List Ev → List UInt32
  | [] => []
  | e :: evs => (report c n e).toList ++ reports c (step n e) evs

/-- The event does not reset counter `c`. -/
def Ev.Keeps (c : Name) : Ev → Prop
  | .req client _ r => r.resets = true → r.target client ≠ some c
  | .restart _ => True

/-- The value of a counter: what a read would report. -/
def value (n : Nvm) (client cid : UInt16) : Option UInt32 :=
  if (readCounter n (keyOf client cid)).rc = .ok then
    some (readCounter n (keyOf client cid)).value else none

end WolfHsm.Counter

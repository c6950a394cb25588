import Verif.Model.PosixShm
import Verif.Spec.TransportMem

/-!
# Processes that meet in shared memory: what they may see (C63)
-/

namespace WolfHsm.PosixShm

/-- A client that is connecting. -/
def CAt.mid : CAt → Bool
  | .opened .. | .statted .. | .checked .. | .removed .. | .clearing .. => true
  | _ => false

/-- Clients connect one after the other: none starts while another one is connecting. -/
def OneByOne (w : World) : Ev → Prop
  | .cOpen i _ => ∀ j, j ≠ i → (w.cli j).mid = false
  | _ => True

/-- Any order of events. -/
def Anyhow (_ : World) (_ : Ev) : Prop := True

/-- Every history in which each event was allowed by `P`, with everything observed. -/
inductive Reach (P : World → Ev → Prop) : World → List Seen → Prop
  | start : Reach P .start []
  | step {w tr} (e : Ev) : Reach P w tr → P w e → Reach P (step w e).1 (tr ++ (step w e).2)

/-- What was observed on object `o`. -/
def on (o : Nat) (tr : List Seen) : List Mem.Obs := (tr.filter fun s => decide (s.obj = o)).map Seen.obs

/-- An observation of a client, of a server (`refused` may be either's). -/
def byClient : Mem.Obs → Bool
  | .sent _ | .got .. | .clientBusy => true
  | _ => false

def byServer : Mem.Obs → Bool
  | .received .. | .answered _ | .serverBusy => true
  | _ => false

end WolfHsm.PosixShm

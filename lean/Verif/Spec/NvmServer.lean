import Verif.Model.Nvm

/-!
# Specification vocabulary for the NVM request properties (C09–C12)

Histories of client NVM requests and restarts.
-/

namespace WolfHsm.NvmServer

/-- One event in the life of a server: a client's NVM request, with the result of taking
the NVM lock, or a power cycle (`b`: an object whose add had failed shows up). -/
inductive Ev where
  | req (lock : Rc) (r : Req)
  | restart (b : Bool)

/-- NVM state after one event. -/
def step (cfg : Cfg) (n : Nvm) : Ev → Nvm
  | .req lock r => (handle cfg n lock r).2
  | .restart b => n.restart b

/-- NVM state after a history. -/
def run (cfg : Cfg) (n : Nvm) (evs : List Ev) : Nvm := evs.foldl (step cfg) n

/-- The ids a request asks to destroy. -/
def Req.toDestroy : Req → List UInt16
  | .destroy count ids => ids.toList.take count.toNat
  | _ => []

/-- The request, unless refused by the policy, adds an object: `first` is the metadata the policy
check sees, `second` and `data` what is stored. -/
def Req.Adds (cfg : Cfg) (r : Req) (first second : NvmFlash.Meta) (data : List UInt8) : Prop :=
  (r = .add first data ∧ second = first ∧ cfg.statefulBlob data = false) ∨
  ∃ pm pd z peek, r = .addDma pm pd z first second peek data ∧ cfg.statefulBlob peek = false

/-- The client memory holding the metadata of a DMA add does not change while the
server works on the request. -/
def Ev.Stable : Ev → Prop
  | .req _ (.addDma _ _ _ first second _ _) => first = second
  | _ => True

/-- The request does not try to add an object under this id. -/
def Ev.NotAdding (id : UInt16) : Ev → Prop
  | .req _ (.add md _) => md.id ≠ id
  | .req _ (.addDma _ _ _ _ second _ _) => second.id ≠ id
  | _ => True

/-- No failed add of this id is waiting to show up at the next restart. -/
def Settled (n : Nvm) (id : UInt16) : Prop :=
  ∀ md data, n.pending = some (md, data) → md.id ≠ id

end WolfHsm.NvmServer

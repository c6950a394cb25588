import Verif.Model.FlashLog
import Verif.Model.FlashGranule
import Verif.Spec.NvmStore

/-!
# Specification vocabulary for the log-structured flash NVM (C08)

`Store` is the map of `Spec/NvmStore.lean`.
-/

namespace WolfHsm.FlashLog

open Flash
open NvmFlash (Meta Store)

/-- What `Read` must answer for an object. -/
def slice (f : Store) (id : UInt16) (off n : Nat) : Rc × List UInt8 :=
  match f id with
  | none => (.notfound, [])
  | some (_, bs) => if off + n ≤ bs.length then (.ok, (bs.drop off).take n) else (.badargs, [])

/-- Through its API the running NVM shows exactly the store `f`, for every id, offset and length. -/
structure Shows (s : Ctx) (f : Store) : Prop where
  info : ∀ id, getMetadata s id = f.info id
  slice : ∀ id off n, readObject s id off n = slice f id off n
  len : ∀ id md bs, f id = some (md, bs) → md.id = id ∧ md.len.toNat = bs.length

/-- `Init` on flash content `m` succeeds and then shows `f`. -/
def Boots (c : Cfg) (m : Mem) (f : Store) : Prop :=
  (run c.dev (init c) m).1.1 = .ok ∧ Shows (run c.dev (init c) m).1.2 f

/-- Every flash byte has the erased value. -/
def Erased (c : Cfg) (m : Mem) : Prop := ∀ x, x < c.dev.size → m x = c.erased

/-- A device: powered off with a flash content, or running. -/
inductive PState
  | off (m : Mem)
  | on (s : Ctx) (m : Mem)

/-- Every history of a device that starts with erased flash and writes 64-byte granules
atomically: boots, adds, destroys and power losses in any order.  The object ids passed are not 0
(see `F_log_id_zero`, `F_log_destroy_zero`) and data lengths fit in their 16-bit type.  The number
counts the updates asked for. -/
inductive Reach (c : Cfg) : Nat → PState → Prop
  | blank {m} : Erased c m → Reach c 0 (.off m)
  | boot {n m rc s m'} : Reach c n (.off m) →
      FlashG.Exec 64 c.dev Faults.none (init c) m (some (rc, s)) m' → Reach c n (.on s m')
  | bootCut {n m m'} : Reach c n (.off m) →
      FlashG.Exec 64 c.dev Faults.none (init c) m none m' → Reach c n (.off m')
  | add {n s m md data rc s' m'} : Reach c n (.on s m) → md.id ≠ 0 → data.length < 2 ^ 16 →
      FlashG.Exec 64 c.dev Faults.none (addObject c s md data) m (some (rc, s')) m' →
      Reach c (n + 1) (.on s' m')
  | addCut {n s m md data m'} : Reach c n (.on s m) → md.id ≠ 0 → data.length < 2 ^ 16 →
      FlashG.Exec 64 c.dev Faults.none (addObject c s md data) m none m' → Reach c (n + 1) (.off m')
  | destroy {n s m ids rc s' m'} : Reach c n (.on s m) → (0 : UInt16) ∉ ids →
      FlashG.Exec 64 c.dev Faults.none (destroyObjects c s ids) m (some (rc, s')) m' →
      Reach c (n + 1) (.on s' m')
  | destroyCut {n s m ids m'} : Reach c n (.on s m) → (0 : UInt16) ∉ ids →
      FlashG.Exec 64 c.dev Faults.none (destroyObjects c s ids) m none m' → Reach c (n + 1) (.off m')
  | powerOff {n s m} : Reach c n (.on s m) → Reach c n (.off m)

/-- A client listing the objects: start with id 0, feed back every id returned, stop when the
count is 0.  The answers received, in order (at most `fuel` of them). -/
def listing (s : Ctx) : (fuel : Nat) → (start : UInt16) → List (Nat × UInt16)
  | 0, _ => []
  | fuel + 1, start =>
    match list s start with
    | (rc, count, id) => if rc ≠ .ok ∨ count = 0 then [] else (count, id) :: listing s fuel id

/-- Space an object takes. -/
def space (f : Store) (id : UInt16) : Nat :=
  match f id with
  | none => 0
  | some (_, bs) => 64 + pad64 bs.length

end WolfHsm.FlashLog

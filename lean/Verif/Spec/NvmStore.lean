import Verif.Model.NvmFlash

/-!
# Specification vocabulary for the flash NVM properties (C01–C06)

Everything here is defined from the API calls of the model (`init`, `addObject`,
`destroyObjects`, `readObject`, `getMetadata`) and from executions; no internal
representation is mentioned.
-/

namespace WolfHsm.NvmFlash

open Flash

/-- What a user thinks is stored: metadata and bytes per object id. -/
abbrev Store := UInt16 → Option (Meta × List UInt8)

/-- Nothing stored. -/
def Store.empty : Store := fun _ => none

/-- The metadata `AddObject` stores: the caller's, with the length field set to the
length of the data. -/
def withLen (md : Meta) (data : List UInt8) : Meta := { md with len := UInt16.ofNat data.length }

/-- Bind the id of `md` to the object. -/
def Store.set (f : Store) (md : Meta) (data : List UInt8) : Store := fun id =>
  if id = md.id then some (withLen md data, data) else f id

/-- Unbind the listed ids. -/
def Store.drop (f : Store) (ids : List UInt16) : Store := fun id =>
  if id ∈ ids then none else f id

/-- What `Read` must answer for an object. -/
def Store.slice (f : Store) (id : UInt16) (off n : Nat) : Rc × List UInt8 :=
  match f id with
  | none => (.notfound, [])
  | some (_, bs) =>
    if off < bs.length ∧ off + n ≤ bs.length then (.ok, (bs.drop off).take n) else (.badargs, [])

/-- What `GetMetadata` must answer for an object. -/
def Store.info (f : Store) (id : UInt16) : Rc × Option Meta :=
  match f id with
  | none => (.notfound, none)
  | some (md, _) => (.ok, some md)

/-- Through its API, the running NVM (`ctx` over flash content `m`) shows exactly the
store `f`, for every id, offset and length, and reading changes nothing. -/
structure Shows (c : Cfg) (ctx : Ctx) (m : Mem) (f : Store) : Prop where
  info : ∀ id, getMetadata ctx id = f.info id
  slice : ∀ id off n, run c.dev (readObject c ctx id off n) m = (f.slice id off n, m)
  len : ∀ id md bs, f id = some (md, bs) → md.len.toNat = bs.length

/-- `Init` on flash content `m` succeeds and then shows `f`. -/
def Boots (c : Cfg) (m : Mem) (f : Store) : Prop :=
  (run c.dev (init c) m).1.1 = .ok ∧
  Shows c (run c.dev (init c) m).1.2 (run c.dev (init c) m).2 f

/-- Bytes of the object bound to an id, rounded up to whole units. -/
def padded (f : Store) (id : UInt16) : Nat :=
  match f id with
  | none => 0
  | some (_, bs) => (bs.length + 7) / 8 * 8

/-- A client listing the objects: start with id 0, feed back every id returned, stop
when the count is 0.  The answers received, in order (at most `fuel` of them). -/
def listing (ctx : Ctx) : (fuel : Nat) → (start : UInt16) → List (Nat × UInt16)
  | 0, _ => []
  | fuel + 1, start =>
    match list ctx start with
    | (rc, count, id) =>
      if rc ≠ .ok ∨ count = 0 then [] else (count, id) :: listing ctx fuel id

/-- A device: powered off with a flash content, or running. -/
inductive PState
  | off (m : Mem)
  | on (ctx : Ctx) (m : Mem)

/-- Every flash byte has the erased value. -/
def Erased (c : Cfg) (m : Mem) : Prop := ∀ x, x < c.dev.size → m x = c.erased

/-- Faults that may hit `AddObject` in a history: any, if `faulty`. -/
def addFaults (faulty : Bool) : Faults := ⟨faulty, faulty⟩
/-- Faults that may hit `Init` and `DestroyObjects`: failing program, verify and erase
commands, if `faulty`.  Failing reads and blank checks are excluded; see the findings
`F_init_read_fault` in DESIGN.md for what they can do. -/
def wrFaults (faulty : Bool) : Faults := ⟨faulty, false⟩

/-- Every history of a device that starts with erased flash: boots, adds, destroys and
power losses in any order.  The number counts destroy calls that reach the flash; the
32-bit partition epoch is exhausted after `2^32 - 1` of them.
After a failed destroy (`faulty` histories only) the caller re-initialises. -/
inductive Reach (c : Cfg) (faulty : Bool) : Nat → PState → Prop
  | blank {m} : Erased c m → Reach c faulty 0 (.off m)
  | boot {n m ctx m'} : Reach c faulty n (.off m) →
      Exec c.dev (wrFaults faulty) (init c) m (some (.ok, ctx)) m' →
      Reach c faulty n (.on ctx m')
  | bootFailed {n m rc ctx m'} : Reach c faulty n (.off m) →
      Exec c.dev (wrFaults faulty) (init c) m (some (rc, ctx)) m' → rc ≠ .ok →
      Reach c faulty n (.off m')
  | bootCut {n m m'} : Reach c faulty n (.off m) →
      Exec c.dev (wrFaults faulty) (init c) m none m' → Reach c faulty n (.off m')
  | add {n ctx m md data rc ctx' m'} : Reach c faulty n (.on ctx m) →
      data.length < 2 ^ 16 →
      Exec c.dev (addFaults faulty) (addObject c ctx md data) m (some (rc, ctx')) m' →
      Reach c faulty n (.on ctx' m')
  | addCut {n ctx m md data m'} : Reach c faulty n (.on ctx m) →
      data.length < 2 ^ 16 →
      Exec c.dev (addFaults faulty) (addObject c ctx md data) m none m' →
      Reach c faulty n (.off m')
  | destroy {n ctx m ids ctx' m'} : Reach c faulty n (.on ctx m) → n + 1 < 2 ^ 32 →
      Exec c.dev (wrFaults faulty) (destroyObjects c ctx ids) m (some (.ok, ctx')) m' →
      Reach c faulty (n + 1) (.on ctx' m')
  | destroyFailed {n ctx m ids rc ctx' m'} : Reach c faulty n (.on ctx m) →
      n + 1 < 2 ^ 32 →
      Exec c.dev (wrFaults faulty) (destroyObjects c ctx ids) m (some (rc, ctx')) m' →
      rc ≠ .ok → Reach c faulty (n + 1) (.off m')
  | destroyCut {n ctx m ids m'} : Reach c faulty n (.on ctx m) → n + 1 < 2 ^ 32 →
      Exec c.dev (wrFaults faulty) (destroyObjects c ctx ids) m none m' →
      Reach c faulty (n + 1) (.off m')
  | powerOff {n ctx m} : Reach c faulty n (.on ctx m) → Reach c faulty n (.off m)

end WolfHsm.NvmFlash

import Verif.Model.NvmFlash

/-!
# `src/wh_nvm_flash_log.c`: the log-structured flash NVM backend

Function-by-function model.  A partition image (header and object area) is kept in RAM; every
update erases the inactive partition, writes the whole image to it, then its header.

Simplifications:
* `WH_NVM_FLASH_LOG_WRITE_GRANULARITY` is the default 64; the partition size and the object count
  are parameters.
* `uint32_t` arithmetic on sizes is done in naturals where it cannot wrap (sizes are at most the
  partition size); the epoch is truncated to 32 bits, and the object count of `AddObject` wraps
  as in C.
* The host is little endian (a host only reads flash it wrote itself).
* NULL arguments, `Init`/`Cleanup` of the driver and write (un)locking are not modelled.
* `directory.data` is a list of bytes.  A `memmove` that would leave it is recorded in the field
  `wild`; nothing the model says of the state after that means anything.
-/

namespace WolfHsm.FlashLog

open Flash (FP Mem Dev)
open NvmFlash (Meta unitBytes unitVal)

/-- `WH_NVM_FLASH_LOG_PARTITION_SIZE`, `WOLFHSM_CFG_NVM_OBJECT_COUNT` (wolfhsm/wh_nvm_flash_log.h)
and the erased byte of the device. -/
structure Cfg where
  P : Nat
  N : Nat
  erased : UInt8

/-- The partition size is a multiple of the granularity (checked by `Init`, 450-453) and 32-bit
offsets cannot overflow. -/
structure Cfg.WF (c : Cfg) : Prop where
  pos : 64 ≤ c.P
  align : c.P % 64 = 0
  small : 2 * c.P < 2 ^ 32
  count : c.N < 2 ^ 16

/-- The device: two partitions. -/
def Cfg.dev (c : Cfg) : Dev := { size := 2 * c.P, erased := c.erased }

/-- `PAD_SIZE`, src/wh_nvm_flash_log.c:87-89. -/
def pad64 (n : Nat) : Nat := (n + 63) / 64 * 64

/-- `whNvmFlashLogContext` (without driver pointers): `active_partition`, the header fields, the
rest of the header, and the object area. -/
structure Ctx where
  up : Bool
  active : Nat
  epoch : Nat
  size : Nat
  hpad : List UInt8
  data : List UInt8
  wild : Bool

/-- After the `memset` of `Init`, 437. -/
def Ctx.zero (c : Cfg) : Ctx := ⟨false, 0, 0, 0, List.replicate 56 0, List.replicate c.P 0, false⟩

/-- The 64 header bytes, `whNvmFlashLogPartitionHeader`. -/
def Ctx.header (s : Ctx) : List UInt8 := unitBytes (s.epoch + 2 ^ 32 * s.size) ++ s.hpad

/-- `partition_epoch` of header bytes. -/
def hdrEpoch (bs : List UInt8) : Nat := unitVal (bs.take 8) % 2 ^ 32
/-- `size` of header bytes. -/
def hdrSize (bs : List UInt8) : Nat := unitVal (bs.take 8) / 2 ^ 32

/-- The other partition. -/
def other (p : Nat) : Nat := if p = 0 then 1 else 0

/-! ## Objects in RAM -/

/-- The metadata at an offset of the object area. -/
def objMeta (data : List UInt8) (off : Nat) : Meta := Meta.deser ((data.drop off).take 32)

/-- Space of an object, `sizeof(whNvmFlashLogMetadata) + PAD_SIZE(len)`. -/
def objLen (md : Meta) : Nat := 64 + pad64 md.len.toNat

/-- `nfl_ObjNext`, 137-148. -/
def objNext (s : Ctx) (off : Nat) : Option Nat :=
  let next := off + objLen (objMeta s.data off)
  if next ≥ s.size then none else some next

/-- The loop of `nfl_ObjectFindById`, 283-290.  Every step advances by at least 64 bytes and stays
below `size`, so `size / 64 + 1` rounds suffice. -/
def findLoop (s : Ctx) (id : UInt16) : Nat → Nat → Option Nat
  | 0, _ => none
  | k + 1, off =>
    if (objMeta s.data off).id = 0 then none
    else if (objMeta s.data off).id = id then some off
    else match objNext s off with
      | none => none
      | some next => findLoop s id k next

/-- `nfl_ObjectFindById`, 275-291. -/
def findById (s : Ctx) (id : UInt16) : Option Nat :=
  if id = 0 then none else findLoop s id (s.size / 64 + 1) 0

/-- The loop of `nfl_ObjectCount`, 335-341. -/
def countLoop (s : Ctx) : Nat → Nat → Nat
  | 0, _ => 0
  | k + 1, off =>
    if (objMeta s.data off).id = 0 then 0
    else match objNext s off with
      | none => 1
      | some next => 1 + countLoop s k next

/-- `nfl_ObjectCount`, 317-344, from an offset. -/
def countFrom (s : Ctx) (off : Nat) : Nat :=
  if off ≥ s.size then 0 else countLoop s (s.size / 64 + 1) off

/-- `nfl_ObjectDestroy`, 293-315.  When the object does not lie inside the image, `tail` wraps and
the `memmove` leaves the directory. -/
def objDestroy (s : Ctx) (id : UInt16) : Rc × Ctx :=
  if id = 0 then (.badargs, s)
  else match findById s id with
    | none => (.ok, s)
    | some off =>
      let len := objLen (objMeta s.data off)
      if off + len > s.size then (.ok, { s with wild := true })
      else
        (.ok, { s with
          data := s.data.take off ++ ((s.data.drop (off + len)).take (s.size - (off + len)) ++
            (List.replicate len 0 ++ s.data.drop s.size))
          size := s.size - len })

/-! ## Partitions -/

/-- `nfl_FlashProgramHelper`, 97-116. -/
def program (a : Nat) (bs : List UInt8) : FP Rc :=
  .blank a bs.length fun rc => if rc ≠ .ok then .ret rc else
  .prog a bs fun rc => if rc ≠ .ok then .ret rc else
  .verify a bs fun rc => if rc ≠ .ok then .ret rc else .ret .ok

/-- `nfl_FlashEraseHelper`, 119-134 and `nfl_PartitionErase`, 150-159. -/
def partErase (c : Cfg) (p : Nat) : FP Rc :=
  .erase (p * c.P) c.P fun rc => if rc ≠ .ok then .ret rc else
  .blank (p * c.P) c.P fun rc => if rc ≠ .ok then .ret rc else .ret .ok

/-- `nfl_PartitionWrite`, 161-183. -/
def partWrite (c : Cfg) (s : Ctx) (p : Nat) : FP Rc :=
  if s.size % 64 ≠ 0 then .ret .aborted
  else if s.size > 0 then program (p * c.P + 64) (s.data.take s.size)
  else .ret .ok

/-- `nfl_PartitionCommit`, 185-206. -/
def partCommit (c : Cfg) (s : Ctx) (p : Nat) : FP Rc :=
  .blank (p * c.P) 64 fun rc => if rc ≠ .ok then .ret rc else
  (program (p * c.P) s.header).bind fun rc => .ret rc

/-- `nfl_PartitionChoose`, 208-273. -/
def choose (c : Cfg) (s : Ctx) : FP (Rc × Ctx) :=
  .blank 0 64 fun rc =>
  if rc ≠ .ok ∧ rc ≠ .notblank then .ret (rc, s) else
  let blank0 := rc == .ok
  .blank c.P 64 fun rc =>
  if rc ≠ .ok ∧ rc ≠ .notblank then .ret (rc, s) else
  let blank1 := rc == .ok
  if blank0 && blank1 then
    (partErase c 0).bind fun rc => if rc ≠ .ok then .ret (rc, s) else
    (partCommit c s 0).bind fun rc => .ret (rc, s)
  else if blank0 then .ret (.ok, { s with active := 1 })
  else if blank1 then .ret (.ok, { s with active := 0 })
  else
    .read 0 64 fun rc h0 => if rc ≠ .ok then .ret (rc, s) else
    .read c.P 64 fun rc h1 => if rc ≠ .ok then .ret (rc, s) else
    .ret (.ok, { s with active := if hdrEpoch h0 > hdrEpoch h1 then 0 else 1 })

/-- `nfl_PartitionRead`, 346-377.  Bytes of `directory.data` beyond the image keep their value. -/
def partRead (c : Cfg) (s : Ctx) : FP (Rc × Ctx) :=
  .read (s.active * c.P) 64 fun rc h => if rc ≠ .ok then .ret (rc, s) else
  let s := { s with epoch := hdrEpoch h, size := hdrSize h, hpad := h.drop 8 }
  if s.size > c.P - 64 then .ret (.aborted, s)
  else if s.size > 0 then
    .read (s.active * c.P + 64) s.size fun rc bs => if rc ≠ .ok then .ret (rc, s) else
    .ret (.ok, { s with data := bs ++ s.data.drop s.size })
  else .ret (.ok, s)

/-- `nfl_PartitionNewEpoch`, 379-400. -/
def newEpoch (c : Cfg) (s : Ctx) : FP (Rc × Ctx) :=
  let next := other s.active
  let s := { s with epoch := (s.epoch + 1) % 2 ^ 32 }
  (partErase c next).bind fun rc => if rc ≠ .ok then .ret (rc, s) else
  (partWrite c s next).bind fun rc => if rc ≠ .ok then .ret (rc, s) else
  (partCommit c s next).bind fun rc => if rc ≠ .ok then .ret (rc, s) else
  .ret (.ok, { s with active := next })

/-- `nfl_PartitionNewEpochOrFallback`, 402-420. -/
def newEpochOrFallback (c : Cfg) (s : Ctx) : FP (Rc × Ctx) :=
  (newEpoch c s).bind fun r =>
  if r.1 ≠ .ok then
    (partRead c r.2).bind fun q =>
    (partErase c (other q.2.active)).bind fun _ => .ret (r.1, q.2)
  else (partErase c (other r.2.active)).bind fun _ => .ret r

/-! ## The callbacks -/

/-- `wh_NvmFlashLog_Init`, 423-479. -/
def init (c : Cfg) : FP (Rc × Ctx) :=
  (choose c (Ctx.zero c)).bind fun r => if r.1 ≠ .ok then .ret r else
  (partRead c r.2).bind fun r => if r.1 ≠ .ok then .ret r else
  (partErase c (other r.2.active)).bind fun rc => if rc ≠ .ok then .ret (rc, r.2) else
  .ret (.ok, { r.2 with up := true })

/-- `wh_NvmFlashLog_List`, 509-549: code, count, id. -/
def list (s : Ctx) (start : UInt16) : Rc × Nat × UInt16 :=
  if s.up = false then (.badargs, 0, 0)
  else
    let next := if start = 0 then some 0 else (findById s start).bind (objNext s)
    match next with
    | none => (.ok, 0, 0)
    | some off =>
      if (objMeta s.data off).id = 0 then (.ok, 0, 0)
      else (.ok, countFrom s off, (objMeta s.data off).id)

/-- `wh_NvmFlashLog_GetAvailable`, 552-584: code, free bytes, free objects.  The count goes
through a `uint8_t`, the difference into a `whNvmId`. -/
def getAvailable (c : Cfg) (s : Ctx) : Rc × Nat × Nat :=
  if s.up = false then (.badargs, 0, 0)
  else (.ok, c.P - 64 - s.size, (c.N + 65536 - countFrom s 0 % 256) % 65536)

/-- `wh_NvmFlashLog_GetMetadata`, 587-601. -/
def getMetadata (s : Ctx) (id : UInt16) : Rc × Option Meta :=
  if s.up = false then (.badargs, none)
  else match findById s id with
    | none => (.notfound, none)
    | some off => (.ok, some (objMeta s.data off))

/-- Write bytes into a buffer at an offset, as `memcpy` does. -/
def patch (buf : List UInt8) (off : Nat) (bs : List UInt8) : List UInt8 :=
  buf.take off ++ (bs ++ buf.drop (off + bs.length))

/-- `count -= 1` of a `uint32_t`, 625. -/
def pred32 (n : Nat) : Nat := (n + (2 ^ 32 - 1)) % 2 ^ 32

/-- `wh_NvmFlashLog_AddObject`, 603-649. -/
def addObject (c : Cfg) (s : Ctx) (md : Meta) (data : List UInt8) : FP (Rc × Ctx) :=
  if s.up = false then .ret (.badargs, s)
  else
    let old := findById s md.id
    let oldLen := match old with | some off => objLen (objMeta s.data off) | none => 0
    let avail := c.P - 64 - s.size + oldLen
    let count := if old.isSome then pred32 (countFrom s 0) else countFrom s 0
    if pad64 data.length + 64 > avail then .ret (.nospace, s)
    else if count ≥ c.N then .ret (.nospace, s)
    else
      let r := if old.isSome then objDestroy s md.id else (.ok, s)
      if r.1 ≠ .ok then .ret r
      else
        let t := r.2
        let md' : Meta := { md with len := UInt16.ofNat data.length }
        newEpochOrFallback c { t with
          data := patch (patch t.data t.size md'.ser) (t.size + 64) data
          size := t.size + (64 + pad64 data.length) }

/-- The loop of `wh_NvmFlashLog_DestroyObjects`, 666-670. -/
def destroyLoop (s : Ctx) : List UInt16 → Rc × Ctx
  | [] => (.ok, s)
  | id :: ids =>
    match objDestroy s id with
    | (.ok, t) => destroyLoop t ids
    | r => r

/-- `wh_NvmFlashLog_DestroyObjects`, 652-673. -/
def destroyObjects (c : Cfg) (s : Ctx) (ids : List UInt16) : FP (Rc × Ctx) :=
  if s.up = false then .ret (.badargs, s)
  else if ids = [] then .ret (.ok, s)
  else
    let r := destroyLoop s ids
    if r.1 ≠ .ok then .ret r else newEpochOrFallback c r.2

/-- `wh_NvmFlashLog_Read`, 676-697. -/
def readObject (s : Ctx) (id : UInt16) (off n : Nat) : Rc × List UInt8 :=
  if s.up = false then (.badargs, [])
  else match findById s id with
    | none => (.notfound, [])
    | some o =>
      if off + n > (objMeta s.data o).len.toNat then (.badargs, [])
      else (.ok, (s.data.drop (o + 64 + off)).take n)

end WolfHsm.FlashLog

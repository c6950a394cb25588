import Verif.Model.FlashUnit
import Verif.Model.Utils

/-!
# `src/wh_nvm_flash.c`: the flash NVM backend

Function-by-function model.  Offsets are in 8-byte units as in the C code.

Simplifications:
* `uint32_t`/`int` directory arithmetic is done in naturals; in every reachable
  state the values are below `2 * pu * 8`, which `Cfg.WF` keeps below `2^32`.
  The partition epoch, the object epoch and the values read back from state words
  are truncated to 32 bits as in C.
* The host is little endian (a host only reads flash it wrote itself).
* NULL arguments are not modelled; a NULL data pointer is the empty list.
* `Init`/`Cleanup` of the driver and write (un)locking are not modelled.
-/

namespace WolfHsm.NvmFlash

open Flash FlashUnit

/-- Compile-time and device parameters. -/
structure Cfg where
  /-- `WOLFHSM_CFG_NVM_OBJECT_COUNT` -/
  N : Nat
  /-- `partition_units`: partition size in units -/
  pu : Nat
  /-- erased byte of the device -/
  erased : UInt8
  /-- `WOLFHSM_CFG_NVM_FLASH_CRC16` -/
  crc : Bool

/-- `NF_PARTITION_DATA_OFFSET`, src/wh_nvm_flash.c:105: 3 state units and 7 units
per directory entry. -/
def Cfg.dataOff (c : Cfg) : Nat := 3 + 7 * c.N

/-- Sizes fit and 32-bit byte offsets cannot overflow. -/
structure Cfg.WF (c : Cfg) : Prop where
  fits : c.dataOff ≤ c.pu
  small : 16 * c.pu < 2 ^ 32

/-- The device: two partitions. -/
def Cfg.dev (c : Cfg) : Dev := { size := 16 * c.pu, erased := c.erased }

/-- `whNvmMetadata`, wolfhsm/wh_common.h:129-135. -/
structure Meta where
  id : UInt16
  access : UInt16
  flags : UInt16
  len : UInt16
  label : Vector UInt8 24
deriving DecidableEq, Repr

/-- Two bytes of a 16-bit field, little endian. -/
def le16 (v : UInt16) : List UInt8 := [v.toUInt8, (v >>> 8).toUInt8]
/-- A 16-bit field from two bytes. -/
def of16 (a b : UInt8) : UInt16 := a.toUInt16 ||| (b.toUInt16 <<< 8)

/-- Memory image of a `whNvmMetadata` (32 bytes, no padding). -/
def Meta.ser (md : Meta) : List UInt8 :=
  le16 md.id ++ le16 md.access ++ le16 md.flags ++ le16 md.len ++ md.label.toList

/-- The `whNvmMetadata` found in 32 bytes of memory. -/
def Meta.deser (bs : List UInt8) : Meta where
  id := of16 (bs.getD 0 0) (bs.getD 1 0)
  access := of16 (bs.getD 2 0) (bs.getD 3 0)
  flags := of16 (bs.getD 4 0) (bs.getD 5 0)
  len := of16 (bs.getD 6 0) (bs.getD 7 0)
  label := Vector.ofFn fun i => bs.getD (8 + i.val) 0

/-- The all-zero metadata of `memset`, src/wh_nvm_flash.c:311. -/
def Meta.zero : Meta := ⟨0, 0, 0, 0, Vector.replicate 24 0⟩

/-- Bytes of a 64-bit unit (little endian). -/
def unitBytes (n : Nat) : List UInt8 :=
  (List.range 8).map fun i => UInt8.ofNat (n / 256 ^ i % 256)
/-- Value of a 64-bit unit. -/
def unitVal (bs : List UInt8) : Nat :=
  (List.range 8).foldr (fun i acc => (bs.getD i 0).toNat + 256 * acc) 0 |>.mod (2 ^ 64)

/-- `BASE_STATE`, src/wh_nvm_flash.c:49. -/
def BASE_STATE : Nat := 0x1234567800000000
/-- `CRC_BASE_STATE`, src/wh_nvm_flash.c:59. -/
def CRC_BASE_STATE : Nat := 0x1234000000000000

/-- `NF_STATE_CRC_EXTRACT`, src/wh_nvm_flash.c:61. -/
def crcExtract (u : Nat) : Nat := (u / 2 ^ 32) % 2 ^ 16

/-- `nfStatus`, wolfhsm/wh_nvm_flash.h:39-48. -/
inductive Status
  | unknown | free | used | dataBad | metaBad | crcBad | lenBad
deriving DecidableEq, Repr, Inhabited

/-- `nfMemState`, wolfhsm/wh_nvm_flash.h:51-60. -/
structure MemState where
  status : Status
  epoch : Nat
  start : Nat
  count : Nat
  crcMeta : Nat
  crcData : Nat
deriving DecidableEq, Repr

/-- State after `memset` and `status = NF_STATUS_UNKNOWN`,
src/wh_nvm_flash.c:180-181. -/
def MemState.zero : MemState := ⟨.unknown, 0, 0, 0, 0, 0⟩

/-- `nfMemObject`, wolfhsm/wh_nvm_flash.h:63-66. -/
structure MemObj where
  state : MemState
  md : Meta
deriving DecidableEq, Repr

/-- `nfMemDirectory`, wolfhsm/wh_nvm_flash.h:69-77. -/
structure Dir where
  objects : List MemObj
  nextFreeObject : Nat
  nextFreeData : Nat
  reclaimEntries : Nat
  reclaimData : Nat
  maxData : Nat
deriving DecidableEq, Repr

/-- `whNvmFlashContext`, wolfhsm/wh_nvm_flash.h:87-99 (without the driver and the
partition size, which are in `Cfg`).  `active = true` is partition 1. -/
structure Ctx where
  state : MemState
  dir : Dir
  active : Bool
  initialized : Bool
  directoryBad : Bool
deriving DecidableEq, Repr

/-- `nfPartition_Offset`, src/wh_nvm_flash.c:316-324. -/
def pOff (c : Cfg) (p : Bool) : Nat := c.pu * p.toNat
/-- `nfPartition_DataOffset`, src/wh_nvm_flash.c:326-334. -/
def pDataOff (c : Cfg) (p : Bool) : Nat := pOff c p + c.dataOff
/-- `nfObject_Offset`, src/wh_nvm_flash.c:569-582. -/
def objOff (c : Cfg) (p : Bool) (i : Nat) : Nat := pOff c p + 3 + 7 * i

/-- `nfMemState_Read`, src/wh_nvm_flash.c:167-257. -/
def stateRead (c : Cfg) (off : Nat) : FP (Rc × MemState) := do
  let bEpoch ← blankCheck off 1
  if bEpoch ≠ .notblank ∧ bEpoch ≠ .ok then
    return (bEpoch, MemState.zero)
  let bStart ← blankCheck (off + 1) 1
  if bStart ≠ .notblank ∧ bStart ≠ .ok then
    return (bStart, MemState.zero)
  let bCount ← blankCheck (off + 2) 1
  if bCount ≠ .notblank ∧ bCount ≠ .ok then
    return (bCount, MemState.zero)
  if bEpoch = .notblank ∧ bStart = .notblank ∧ bCount = .notblank then
    let (rc, buf) ← read off 3
    if rc ≠ .ok then
      return (rc, MemState.zero)
    let epoch := unitVal (buf.take 8)
    let start := unitVal ((buf.drop 8).take 8)
    let count := unitVal ((buf.drop 16).take 8)
    return (.ok, {
      status := .used
      epoch := epoch % 2 ^ 32
      start := start % 2 ^ 32
      count := count % 2 ^ 32
      crcMeta := if c.crc then crcExtract start else 0
      crcData := if c.crc then crcExtract count else 0 })
  else if bEpoch = .notblank ∧ bStart = .notblank then
    let (rc, buf) ← read off 2
    if rc ≠ .ok then
      return (rc, MemState.zero)
    let epoch := unitVal (buf.take 8)
    let start := unitVal ((buf.drop 8).take 8)
    return (.ok, {
      status := .dataBad
      epoch := epoch % 2 ^ 32
      start := start % 2 ^ 32
      count := 0
      crcMeta := if c.crc then crcExtract start else 0
      crcData := 0 })
  else if bEpoch = .notblank then
    return (.ok, { MemState.zero with status := .metaBad })
  else
    return (.ok, { MemState.zero with status := .free })

/-- `wh_Utils_Crc16(WH_UTILS_CRC16_INIT, …)` as a number. -/
def crcOf (bs : List UInt8) : Nat := (Utils.crc16 Utils.crc16Init bs).toNat

/-- `nfMemObject_Read`, src/wh_nvm_flash.c:259-314. -/
def objectRead (c : Cfg) (off : Nat) : FP (Rc × MemObj) := do
  let (rc, st) ← stateRead c off
  if rc = .ok ∧ (st.status = .used ∨ st.status = .dataBad) then
    let (rc, buf) ← read (off + 3) 4
    if rc = .ok then
      let md := Meta.deser buf
      if c.crc ∧ crcOf md.ser ≠ st.crcMeta then
        -- lines 291-305
        let st' := { st with status := if st.status = .used then .crcBad else .lenBad }
        return (rc, ⟨st', Meta.zero⟩)
      else
        return (rc, ⟨st, md⟩)
    else
      return (rc, ⟨st, Meta.zero⟩)
  else
    return (rc, ⟨st, Meta.zero⟩)

/-- `nfPartition_BlankCheck`, src/wh_nvm_flash.c:362-373. -/
def partBlankCheck (c : Cfg) (p : Bool) : FP Rc := blankCheck (pOff c p) c.pu
/-- `nfPartition_Erase`, src/wh_nvm_flash.c:375-386. -/
def partErase (c : Cfg) (p : Bool) : FP Rc := erase (pOff c p) c.pu
/-- `nfPartition_ReadMemState`, src/wh_nvm_flash.c:388-402. -/
def partReadState (c : Cfg) (p : Bool) : FP (Rc × MemState) := stateRead c (pOff c p)

/-- Loop of `nfPartition_ReadMemDirectory`, src/wh_nvm_flash.c:420-427: `n` more
entries from index `i`.  Errors are ignored as in the C code. -/
def readObjects (c : Cfg) (p : Bool) : (n i : Nat) → FP (List MemObj)
  | 0, _ => pure []
  | n + 1, i => do
    let (_, o) ← objectRead c (objOff c p i)
    let rest ← readObjects c p n (i + 1)
    pure (o :: rest)

/-- `nfPartition_ReadMemDirectory`, src/wh_nvm_flash.c:404-429. -/
def readDir (c : Cfg) (p : Bool) : FP Dir := do
  let objs ← readObjects c p c.N 0
  pure { objects := objs, nextFreeObject := 0, nextFreeData := 0, reclaimEntries := 0,
         reclaimData := 0, maxData := c.pu - c.dataOff }

/-- Accumulator of the first loop of `nfMemDirectory_Parse`. -/
structure Scan where
  nfo : Nat
  nfd : Nat
  re : Nat
  rdt : Nat

/-- First loop of `nfMemDirectory_Parse`, src/wh_nvm_flash.c:896-949; `none` is
the `WH_ERROR_ABORTED` exit of an unknown state. -/
def scan (maxData : Nat) : List MemObj → Scan → Option Scan
  | [], a => some a
  | o :: rest, a =>
    match o.state.status with
    | .free => some a
    | .used =>
      scan maxData rest { a with nfo := a.nfo + 1, nfd := o.state.start + o.state.count }
    | .metaBad => scan maxData rest { a with nfo := a.nfo + 1, re := a.re + 1 }
    | .dataBad =>
      scan maxData rest ⟨a.nfo + 1, o.state.start + bytes2units o.md.len.toNat, a.re + 1,
        a.rdt + bytes2units o.md.len.toNat⟩
    | .crcBad =>
      scan maxData rest ⟨a.nfo + 1, o.state.start + o.state.count, a.re + 1,
        a.rdt + o.state.count⟩
    | .lenBad =>
      scan maxData rest ⟨a.nfo + 1, maxData, a.re + 1,
        if maxData > o.state.start then a.rdt + (maxData - o.state.start) else a.rdt⟩
    | .unknown => none

/-- Is the entry an intact object with this id? -/
def MemObj.isUsedId (o : MemObj) (id : UInt16) : Bool :=
  decide (o.state.status = .used) && o.md.id == id

/-- Second loop of `nfMemDirectory_Parse`, src/wh_nvm_flash.c:956-970, marking every
used entry that has a later used entry with the same id; also the number and the
total unit count of the entries marked.  The C code walks backwards from the last
entry and marks earlier duplicates of each still-used entry; marking an entry iff a
later entry with its id survives is the same set. -/
def dedup : List MemObj → List MemObj × Nat × Nat
  | [] => ([], 0, 0)
  | o :: rest =>
    let (rest', re, rdt) := dedup rest
    if o.state.status = .used ∧ rest'.any (·.isUsedId o.md.id) then
      ({ o with state := { o.state with status := .dataBad } } :: rest',
        re + 1, rdt + o.state.count)
    else (o :: rest', re, rdt)

/-- `nfMemDirectory_Parse`, src/wh_nvm_flash.c:882-972.  On the error exit the
directory is left with partially computed counters, which no caller uses. -/
def parse (d : Dir) : Rc × Dir :=
  match scan d.maxData d.objects ⟨0, 0, 0, 0⟩ with
  | none => (.aborted, d)
  | some a =>
    let nfd := if a.nfd > d.maxData then d.maxData else a.nfd
    let (objs, re, rdt) := dedup d.objects
    (.ok, { d with objects := objs, nextFreeObject := a.nfo, nextFreeData := nfd,
                   reclaimEntries := a.re + re, reclaimData := a.rdt + rdt })

/-- `nfPartition_ReadParseMemDirectory`, src/wh_nvm_flash.c:431-439. -/
def readParseDir (c : Cfg) (p : Bool) : FP (Rc × Dir) := do
  let d ← readDir c p
  return parse d

/-- `nfPartition_ProgramEpoch`, src/wh_nvm_flash.c:441-457. -/
def programEpoch (c : Cfg) (p : Bool) (epoch : Nat) : FP Rc :=
  program (pOff c p) (unitBytes (BASE_STATE ||| epoch))
/-- `nfPartition_ProgramStart`, src/wh_nvm_flash.c:459-475. -/
def programStart (c : Cfg) (p : Bool) (start : Nat) : FP Rc :=
  program (pOff c p + 1) (unitBytes (BASE_STATE ||| start))
/-- `nfPartition_ProgramCount`, src/wh_nvm_flash.c:477-494. -/
def programCount (c : Cfg) (p : Bool) (count : Nat) : FP Rc :=
  program (pOff c p + 2) (unitBytes (BASE_STATE ||| count))

/-- Blank check and erase if not blank, src/wh_nvm_flash.c:505-510 and 1369-1373. -/
def blankOrErase (c : Cfg) (p : Bool) : FP Rc := do
  let rc ← partBlankCheck c p
  if rc = .notblank then partErase c p else pure rc

/-- `nfPartition_ProgramInit`, src/wh_nvm_flash.c:496-539: the code and, on success,
the new `context->state` (on failure `Init` fails and the context is unusable). -/
def programInit (c : Cfg) (p : Bool) : FP (Rc × MemState) := do
  let rc ← blankOrErase c p
  let rc ← andThen rc (programEpoch c p 0)
  let rc ← andThen rc (programStart c p c.dataOff)
  let rc ← andThen rc (programCount c p c.pu)
  pure (rc, ⟨.used, 0, c.dataOff, c.pu, 0, 0⟩)

/-- `nfPartition_CheckDataRange`, src/wh_nvm_flash.c:545-567 (byte offsets). -/
def checkDataRange (c : Cfg) (p : Bool) (byteOff byteCount : Nat) : Rc :=
  let base := pDataOff c p * 8
  let maxOff := (pOff c p + c.pu) * 8
  if byteOff < base then .badargs
  else if byteOff > maxOff ∨ byteCount > maxOff - byteOff then .badargs
  else .ok

/-- The start state word, src/wh_nvm_flash.c:592-605. -/
def startWord (c : Cfg) (start crcMeta : Nat) : Nat :=
  if c.crc then CRC_BASE_STATE ||| (crcMeta * 2 ^ 32) ||| start else BASE_STATE ||| start
/-- The count state word, src/wh_nvm_flash.c:675-687. -/
def countWord (c : Cfg) (units crcData : Nat) : Nat :=
  if c.crc then CRC_BASE_STATE ||| (crcData * 2 ^ 32) ||| units else BASE_STATE ||| units

/-- `nfObject_ProgramBegin`, src/wh_nvm_flash.c:584-640. -/
def objProgramBegin (c : Cfg) (p : Bool) (i epoch start : Nat) (md : Meta) (crcMeta : Nat) :
    FP Rc := do
  let rc ← program (objOff c p i) (unitBytes (BASE_STATE ||| epoch))
  let rc ← andThen rc (program (objOff c p i + 3) md.ser)
  andThen rc (program (objOff c p i + 1) (unitBytes (startWord c start crcMeta)))

/-- `nfObject_ProgramDataBytes`, src/wh_nvm_flash.c:642-667 (`offset` in units). -/
def objProgramData (c : Cfg) (p : Bool) (offset : Nat) (data : List UInt8) : FP Rc :=
  let dOff := pDataOff c p + offset
  if checkDataRange c p (dOff * 8) data.length ≠ .ok then pure .badargs
  else programBytes (dOff * 8) data

/-- `nfObject_ProgramFinish`, src/wh_nvm_flash.c:669-701. -/
def objProgramFinish (c : Cfg) (p : Bool) (i byteCount crcData : Nat) : FP Rc :=
  program (objOff c p i + 2) (unitBytes (countWord c (bytes2units byteCount) crcData))

/-- `nfObject_Program`, src/wh_nvm_flash.c:703-729.  (`md.len` is the data length.) -/
def objProgram (c : Cfg) (p : Bool) (i epoch : Nat) (md : Meta) (start : Nat)
    (data : List UInt8) (crcMeta crcData : Nat) : FP Rc := do
  let rc ← objProgramBegin c p i epoch start md crcMeta
  let rc ← andThen rc (objProgramData c p start data)
  andThen rc (objProgramFinish c p i md.len.toNat crcData)

/-- `nfObject_ReadDataBytes`, src/wh_nvm_flash.c:731-784, for directory entry `o`. -/
def objReadData (c : Cfg) (p : Bool) (o : MemObj) (byteOff byteCount : Nat) :
    FP (Rc × List UInt8) :=
  let startOff := pDataOff c p + o.state.start
  if byteOff ≥ o.md.len.toNat then pure (.badargs, [])
  else if byteCount > o.md.len.toNat - byteOff then pure (.badargs, [])
  else if checkDataRange c p (startOff * 8 + byteOff) byteCount ≠ .ok then pure (.badargs, [])
  else do
    let (rc, bs) ← readBytes (startOff * 8 + byteOff) byteCount
    if c.crc ∧ rc = .ok ∧ o.state.status = .used ∧ byteOff = 0 ∧ byteCount = o.md.len.toNat ∧
        crcOf bs ≠ o.state.crcData then
      return (.notverified, bs)
    else
      return (rc, bs)

/-- Data loop of `nfObject_Copy`, src/wh_nvm_flash.c:832-861 (`fuel` bounds the
iterations; `len` suffices).  Returns the code, the bytes read so far and the unit
offset after the data written. -/
def copyLoop (c : Cfg) (src dst : Bool) (o : MemObj) :
    (fuel dataOff destData : Nat) → List UInt8 → FP (Rc × List UInt8 × Nat)
  | 0, _, destData, acc => pure (.ok, acc, destData)
  | fuel + 1, dataOff, destData, acc =>
    if dataOff < o.md.len.toNat then do
      let thisLen := if o.md.len.toNat - dataOff < 64 then o.md.len.toNat - dataOff else 64
      let (rc, buf) ← objReadData c src o dataOff thisLen
      let rc ← andThen rc (objProgramData c dst destData buf)
      if rc = .ok then
        copyLoop c src dst o fuel (dataOff + thisLen) (destData + bytes2units thisLen)
          (acc ++ buf)
      else pure (rc, acc, destData)
    else pure (.ok, acc, destData)

/-- `nfObject_Copy`, src/wh_nvm_flash.c:786-879: code and the unit offset after the
copied data.  `crcOf` of the bytes read stands for the incremental `crc_calc`
(`wh_Utils_Crc16` is a left fold). -/
def objCopy (c : Cfg) (src dst : Bool) (o : MemObj) (destObj destData : Nat) :
    FP (Rc × Nat) :=
  if c.crc ∧ crcOf o.md.ser ≠ o.state.crcMeta then pure (.notverified, destData)
  else do
    let rc ← objProgramBegin c dst destObj o.state.epoch destData o.md o.state.crcMeta
    if rc = .ok then do
      let (rc, bs, dd) ← copyLoop c src dst o o.md.len.toNat 0 destData []
      let rc ← andThen rc (if c.crc ∧ crcOf bs ≠ o.state.crcData then pure .notverified
        else objProgramFinish c dst destObj o.md.len.toNat o.state.crcData)
      pure (rc, dd)
    else pure (rc, destData)

/-- `nfMemDirectory_FindObjectIndexById`, src/wh_nvm_flash.c:974-994: the first used
entry with the id among the first `next_free_object`. -/
def findIndex (d : Dir) (id : UInt16) : Option Nat :=
  (d.objects.take d.nextFreeObject).findIdx? (·.isUsedId id)

/-- Choice of the active partition, src/wh_nvm_flash.c:1053-1080. -/
def chooseActive (c : Cfg) (s0 s1 : MemState) : FP (Rc × Bool × MemState) :=
  if s0.status = .used ∧ s1.status ≠ .used then pure (.ok, false, s0)
  else if s0.status ≠ .used ∧ s1.status = .used then pure (.ok, true, s1)
  else if s0.status = .used ∧ s1.status = .used then
    if s1.epoch > s0.epoch then pure (.ok, true, s1) else pure (.ok, false, s0)
  else do
    let (rc, st) ← programInit c false
    pure (rc, false, st)

/-- `wh_NvmFlash_Init`, src/wh_nvm_flash.c:1013-1094. -/
def init (c : Cfg) : FP (Rc × Ctx) := do
  let (_, s0) ← partReadState c false
  let (_, s1) ← partReadState c true
  let (rc, active, st) ← chooseActive c s0 s1
  if rc = .ok then do
    let (rc, d) ← readParseDir c active
    pure (rc, ⟨st, d, active, decide (rc = .ok), false⟩)
  else
    pure (rc, ⟨st, ⟨[], 0, 0, 0, 0, 0⟩, active, false, false⟩)

/-- First step of `wh_NvmFlash_List`, src/wh_nvm_flash.c:1142-1149: skip to the
starting entry; the id found and the entries after it. -/
def listFind (startId : UInt16) : List MemObj → Option (UInt16 × List MemObj)
  | [] => none
  | o :: rest =>
    if o.state.status = .used ∧ (startId = 0 ∨ startId = o.md.id) then some (o.md.id, rest)
    else listFind startId rest

/-- Next used entry, src/wh_nvm_flash.c:1162-1167. -/
def listNext : List MemObj → Option (UInt16 × List MemObj)
  | [] => none
  | o :: rest => if o.state.status = .used then some (o.md.id, rest) else listNext rest

/-- Number of used entries, src/wh_nvm_flash.c:1176-1180. -/
def countUsed (l : List MemObj) : Nat := (l.filter (·.state.status = .used)).length

/-- `wh_NvmFlash_List`, src/wh_nvm_flash.c:1119-1185: code, count and id. -/
def list (ctx : Ctx) (startId : UInt16) : Rc × Nat × UInt16 :=
  if ctx.directoryBad then (.aborted, 0, 0)
  else
    match listFind startId (ctx.dir.objects.take ctx.dir.nextFreeObject) with
    | none => (.ok, 0, 0)
    | some (id, rest) =>
      let cnt := if id ≠ 0 then 1 else 0
      if startId ≠ 0 then
        match listNext rest with
        | none => (.ok, 0, 0)
        | some (id', rest') => (.ok, cnt + countUsed rest', id')
      else (.ok, cnt + countUsed rest, id)

/-- `wh_NvmFlash_GetAvailable`, src/wh_nvm_flash.c:1187-1214: available bytes and
objects, reclaimable bytes and objects. -/
def getAvailable (c : Cfg) (ctx : Ctx) : Rc × Nat × Nat × Nat × Nat :=
  if ctx.directoryBad then (.aborted, 0, 0, 0, 0)
  else (.ok, (ctx.dir.maxData - ctx.dir.nextFreeData) * 8, c.N - ctx.dir.nextFreeObject,
        ctx.dir.reclaimData * 8, ctx.dir.reclaimEntries)

/-- `wh_NvmFlash_GetMetadata`, src/wh_nvm_flash.c:1216-1238. -/
def getMetadata (ctx : Ctx) (id : UInt16) : Rc × Option Meta :=
  if ctx.directoryBad then (.aborted, none)
  else match findIndex ctx.dir id with
    | none => (.notfound, none)
    | some i => (.ok, (ctx.dir.objects[i]?).map (·.md))

/-- Set one field of a directory entry. -/
def setObj (d : Dir) (i : Nat) (o : MemObj) : Dir := { d with objects := d.objects.set i o }

/-- Epoch of the new entry, src/wh_nvm_flash.c:1271-1275: one more than the entry it
replaces, or 0. -/
def newEpoch : Option MemObj → Nat
  | some o => (o.state.epoch + 1) % 2 ^ 32
  | none => 0

/-- Directory update of a successful add, src/wh_nvm_flash.c:1289-1308: the new entry is
appended and the entry it replaces is marked reclaimable. -/
def dirAdd (d : Dir) (new : MemObj) (old : Option Nat) (oldObj : Option MemObj) : Dir :=
  let d1 := { setObj d d.nextFreeObject new with
              nextFreeData := d.nextFreeData + new.state.count
              nextFreeObject := d.nextFreeObject + 1 }
  match old, oldObj with
  | some i, some o =>
    { setObj d1 i { o with state := { o.state with status := .dataBad } } with
      reclaimEntries := d1.reclaimEntries + 1
      reclaimData := d1.reclaimData + o.state.count }
  | _, _ => d1

/-- `wh_NvmFlash_AddObject`, src/wh_nvm_flash.c:1243-1311; `data.length` is
`data_len` (a 16-bit value). -/
def addObject (c : Cfg) (ctx : Ctx) (md : Meta) (data : List UInt8) : FP (Rc × Ctx) :=
  if ctx.directoryBad then pure (.aborted, ctx)
  else
    let d := ctx.dir
    if d.nextFreeObject = c.N ∨ d.nextFreeData * 8 + data.length > d.maxData * 8 then
      pure (.nospace, ctx)
    else
      let old := findIndex d md.id
      let oldObj := old.bind (d.objects[·]?)
      let epoch := newEpoch oldObj
      let md := { md with len := UInt16.ofNat data.length }
      let count := bytes2units md.len.toNat
      let crcMeta := if c.crc then crcOf md.ser else 0
      let crcData := if c.crc then crcOf data else 0
      let new : MemObj := ⟨⟨.used, epoch, d.nextFreeData, count, crcMeta, crcData⟩, md⟩
      do
        let rc ← objProgram c ctx.active d.nextFreeObject epoch md d.nextFreeData data
          crcMeta crcData
        if rc ≠ .ok then return (rc, ctx)
        return (.ok, { ctx with dir := dirAdd d new old oldObj })

/-- Copy loop of `wh_NvmFlash_DestroyObjects`, src/wh_nvm_flash.c:1386-1398. -/
def copyObjects (c : Cfg) (src dst : Bool) (ids : List UInt16) :
    List MemObj → (destObj destData : Nat) → FP Rc
  | [], _, _ => pure .ok
  | o :: rest, destObj, destData =>
    if o.state.status = .used ∧ ¬ ids.contains o.md.id then do
      let (rc, dd) ← objCopy c src dst o destObj destData
      andThen rc (copyObjects c src dst ids rest (destObj + 1) dd)
    else copyObjects c src dst ids rest destObj destData

/-- The replication steps of `wh_NvmFlash_DestroyObjects`,
src/wh_nvm_flash.c:1369-1404. -/
def replicate (c : Cfg) (ctx : Ctx) (ids : List UInt16) (newState : MemState) : FP Rc := do
  let rc ← blankOrErase c (!ctx.active)
  let rc ← andThen rc (programEpoch c (!ctx.active) newState.epoch)
  let rc ← andThen rc (programStart c (!ctx.active) newState.start)
  let rc ← andThen rc (copyObjects c ctx.active (!ctx.active) ids ctx.dir.objects 0 0)
  andThen rc (programCount c (!ctx.active) newState.count)

/-- `wh_NvmFlash_DestroyObjects`, src/wh_nvm_flash.c:1317-1435. -/
def destroyObjects (c : Cfg) (ctx : Ctx) (ids : List UInt16) : FP (Rc × Ctx) :=
  if ctx.directoryBad then pure (.aborted, ctx)
  else
    let d := ctx.dir
    let src := ctx.active
    let dst := !ctx.active
    let newState : MemState := ⟨.used, (ctx.state.epoch + 1) % 2 ^ 32, ctx.state.start,
      ctx.state.count, 0, 0⟩
    let anyMatched := d.objects.any fun o =>
      decide (o.state.status = .used) && ids.contains o.md.id
    if ids.length > 0 ∧ !anyMatched then pure (.ok, ctx)
    else do
      let rc ← replicate c ctx ids newState
      if rc ≠ .ok then pure (rc, ctx)
      else do
        let (rc, nd) ← readParseDir c dst
        if rc ≠ .ok then do
          let (rc2, od) ← readParseDir c src
          pure (rc, { ctx with dir := od, directoryBad := decide (rc2 ≠ .ok) })
        else do
          let rc ← partErase c src
          pure (rc, { ctx with dir := nd, active := dst, state := newState })

/-- `wh_NvmFlash_Read`, src/wh_nvm_flash.c:1438-1460. -/
def readObject (c : Cfg) (ctx : Ctx) (id : UInt16) (off len : Nat) : FP (Rc × List UInt8) :=
  if ctx.directoryBad then pure (.aborted, [])
  else match (findIndex ctx.dir id).bind (ctx.dir.objects[·]?) with
    | none => pure (.notfound, [])
    | some o => objReadData c ctx.active o off len

end WolfHsm.NvmFlash

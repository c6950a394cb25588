import Verif.Model.Flash

/-!
# `src/wh_flash_unit.c`: unit- and byte-granular access on top of a flash driver

Offsets and counts are in 8-byte units unless named otherwise.
-/

namespace WolfHsm.FlashUnit

open Flash

/-- `WHFU_BYTES2UNITS`, wolfhsm/wh_flash_unit.h:51-52. -/
def bytes2units (b : Nat) : Nat := b / 8 + (if b % 8 ≠ 0 then 1 else 0)

/-- The C idiom `if (ret == 0) { ret = p; }`. -/
def andThen (rc : Rc) (p : FP Rc) : FP Rc := if rc = .ok then p else pure rc

/-- `wh_FlashUnit_Read`, src/wh_flash_unit.c:64-73. -/
def read (off count : Nat) : FP (Rc × List UInt8) :=
  .read (off * 8) (count * 8) fun rc bs => .ret (rc, bs)

/-- `wh_FlashUnit_BlankCheck`, src/wh_flash_unit.c:111-120. -/
def blankCheck (off count : Nat) : FP Rc :=
  .blank (off * 8) (count * 8) fun rc => .ret rc

/-- `wh_FlashUnit_Program`, src/wh_flash_unit.c:76-109; `data` holds the
`count*8` bytes of the units. -/
def program (off : Nat) (data : List UInt8) : FP Rc :=
  .blank (off * 8) data.length fun rc =>
    if rc ≠ .ok then .ret rc
    else .prog (off * 8) data fun rc =>
      if rc ≠ .ok then .ret rc
      else .verify (off * 8) data fun rc => .ret rc

/-- `wh_FlashUnit_Erase`, src/wh_flash_unit.c:122-143. -/
def erase (off count : Nat) : FP Rc :=
  if count = 0 then .ret .ok
  else .erase (off * 8) (count * 8) fun rc =>
    if rc ≠ .ok then .ret rc
    else .blank (off * 8) (count * 8) fun rc => .ret rc

/-- Leading partial unit of `wh_FlashUnit_ReadBytes`, src/wh_flash_unit.c:168-179:
code, bytes, remaining length, next unit. -/
def readHead (byteOff len : Nat) : FP (Rc × List UInt8 × Nat × Nat) :=
  let offUnits := byteOff / 8
  let offRem := byteOff % 8
  if offRem ≠ 0 then do
    let (rc, buf) ← read offUnits 1
    if rc = .ok then
      let thisSize := if len < 8 - offRem then len else 8 - offRem
      pure (rc, (buf.drop offRem).take thisSize, len - thisSize, offUnits + 1)
    else pure (rc, [], len, offUnits)
  else pure (.ok, [], len, offUnits)

/-- Whole units of `wh_FlashUnit_ReadBytes`, src/wh_flash_unit.c:184-190. -/
def readBody (rc : Rc) (offUnits units : Nat) : FP (Rc × List UInt8 × Nat) :=
  if rc = .ok ∧ units ≠ 0 then do
    let (rc, buf) ← read offUnits units
    pure (rc, buf, offUnits + units)
  else pure (rc, [], offUnits)

/-- Trailing partial unit of `wh_FlashUnit_ReadBytes`, src/wh_flash_unit.c:192-198. -/
def readTail (rc : Rc) (offUnits rem : Nat) : FP (Rc × List UInt8) :=
  if rc = .ok ∧ rem ≠ 0 then do
    let (rc, buf) ← read offUnits 1
    if rc = .ok then pure (rc, buf.take rem) else pure (rc, [])
  else pure (rc, [])

/-- `wh_FlashUnit_ReadBytes`, src/wh_flash_unit.c:153-200. -/
def readBytes (byteOff len : Nat) : FP (Rc × List UInt8) := do
  let (rc, head, len, offUnits) ← readHead byteOff len
  let (rc, body, offUnits) ← readBody rc offUnits (len / 8)
  let (rc, tail) ← readTail rc offUnits (len % 8)
  pure (rc, head ++ body ++ tail)

/-- `wh_FlashUnit_ProgramBytes`, src/wh_flash_unit.c:202-234: whole units, then a
final unit padded with zero bytes.  `byteOff` is unit aligned in every use (an
unaligned offset would skip data bytes, lines 208-210: modelled by `drop`). -/
def programBytes (byteOff : Nat) (data : List UInt8) : FP Rc := do
  let off := byteOff / 8
  let count := data.length / 8
  let rem := data.length % 8
  let data := data.drop (byteOff % 8)
  let rc ← andThen .ok (if count ≠ 0 then program off (data.take (count * 8)) else pure .ok)
  andThen rc
    (if rem ≠ 0 then
      program (off + count) ((data.drop (count * 8)).take rem ++ List.replicate (8 - rem) 0)
     else pure .ok)

end WolfHsm.FlashUnit

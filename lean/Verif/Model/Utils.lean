/-!
# `src/wh_utils.c` and the byte-order helpers of `src/wh_comm.c`

Fixed-width C integers are `UInt16/32/64`; buffers are byte lists.  A pointer
plus length pair is a list together with the length the caller passes; reading
past the end of a list is the distinct outcome `none`.
-/

namespace WolfHsm.Utils

/-- `wh_Utils_Swap16`, src/wh_utils.c:38-41. -/
def swap16 (v : UInt16) : UInt16 := (v >>> 8) ||| (v <<< 8)

/-- `wh_Utils_Swap32`, src/wh_utils.c:43-49. -/
def swap32 (v : UInt32) : UInt32 :=
  ((v &&& 0xFF000000) >>> 24) ||| ((v &&& 0x00FF0000) >>> 8) |||
  ((v &&& 0x0000FF00) <<< 8) ||| ((v &&& 0x000000FF) <<< 24)

/-- `wh_Utils_Swap64`, src/wh_utils.c:51-61. -/
def swap64 (v : UInt64) : UInt64 :=
  ((v &&& 0xFF00000000000000) >>> 56) ||| ((v &&& 0xFF000000000000) >>> 40) |||
  ((v &&& 0xFF0000000000) >>> 24) ||| ((v &&& 0xFF00000000) >>> 8) |||
  ((v &&& 0xFF000000) <<< 8) ||| ((v &&& 0xFF0000) <<< 24) |||
  ((v &&& 0xFF00) <<< 40) ||| ((v &&& 0xFF) <<< 56)

/-- One round of the inner loop of `wh_Utils_Crc16`, src/wh_utils.c:95-102. -/
def crcBit (crc : UInt16) : UInt16 :=
  if (crc &&& 0x8000) != 0 then (crc <<< 1) ^^^ 0x1021 else crc <<< 1

/-- Body of the outer loop of `wh_Utils_Crc16`, src/wh_utils.c:94-102. -/
def crcByte (crc : UInt16) (b : UInt8) : UInt16 :=
  let c := crc ^^^ (b.toUInt16 <<< 8)
  crcBit (crcBit (crcBit (crcBit (crcBit (crcBit (crcBit (crcBit c)))))))

/-- `wh_Utils_Crc16`, src/wh_utils.c:83-105.  The buffer is a list holding the
`len` bytes; a NULL buffer (which returns `crc`) is the empty list. -/
def crc16 (crc : UInt16) (data : List UInt8) : UInt16 := data.foldl crcByte crc

/-- `WH_UTILS_CRC16_INIT`, wolfhsm/wh_utils.h. -/
def crc16Init : UInt16 := 0xFFFF

/-- `wh_Utils_memeqzero`, src/wh_utils.c:108-116: scans downwards from
`size-1`; `none` if a byte outside the buffer would be read. -/
def memeqzero (buf : List UInt8) : Nat → Option Bool
  | 0 => some true
  | size + 1 =>
    match buf[size]? with
    | none => none
    | some b => if b != 0 then some false else memeqzero buf size

/-- Loop of `wh_Utils_ConstantCompare`, src/wh_utils.c:143-145, from index `i`
for `n` more bytes with accumulator `acc`.  `ret` is a `size_t` of which only
the low 8 bits are ever touched, so a byte accumulator is exact. -/
def ccLoop (a b : List UInt8) (i : Nat) : Nat → UInt8 → Option UInt8
  | 0, acc => some acc
  | n + 1, acc =>
    match a[i]?, b[i]? with
    | some x, some y => ccLoop a b (i + 1) n (acc ||| (x ^^^ y))
    | _, _ => none

/-- `wh_Utils_ConstantCompare`, src/wh_utils.c:138-148. -/
def constantCompare (a b : List UInt8) (length : Nat) : Option Int :=
  (ccLoop a b 0 length 0).map fun r => (r.toNat : Int)

/-- `wh_Utils_ForceZero`, src/wh_utils.c:120-134, on the first `size` bytes of
a buffer (the caller guarantees `size` does not exceed the buffer). -/
def forceZero (buf : List UInt8) (size : Nat) : List UInt8 :=
  List.replicate (min size buf.length) 0 ++ buf.drop size

/-- `WH_COMM_FLAGS_SWAPTEST`, wolfhsm/wh_comm.h:69-71: the high byte of the
magic is the native endianness marker 0xA5. -/
def swapTest (magic : UInt16) : Bool := (magic &&& 0xFF00) == (0xA501 &&& 0xFF00)

/-- `wh_Translate8`, src/wh_comm.c:40-44. -/
def translate8 (_magic : UInt16) (v : UInt8) : UInt8 := v
/-- `wh_Translate16`, src/wh_comm.c:46-49. -/
def translate16 (magic v : UInt16) : UInt16 := if swapTest magic then v else swap16 v
/-- `wh_Translate32`, src/wh_comm.c:51-54. -/
def translate32 (magic : UInt16) (v : UInt32) : UInt32 :=
  if swapTest magic then v else swap32 v
/-- `wh_Translate64`, src/wh_comm.c:56-59. -/
def translate64 (magic : UInt16) (v : UInt64) : UInt64 :=
  if swapTest magic then v else swap64 v

/-- `WH_COMM_MAGIC_NATIVE`, wolfhsm/wh_comm.h:66. -/
def magicNative : UInt16 := 0xA501
/-- `WH_COMM_MAGIC_SWAP`, wolfhsm/wh_comm.h:67. -/
def magicSwap : UInt16 := 0x01A5

/-- Memory image of a 16-bit value on a little-endian (`true`) or big-endian
host: the bytes a peer sees in the packet. -/
def bytes16 (le : Bool) (v : UInt16) : List UInt8 :=
  let l := [v.toUInt8, (v >>> 8).toUInt8]
  if le then l else l.reverse
/-- Memory image of a 32-bit value. -/
def bytes32 (le : Bool) (v : UInt32) : List UInt8 :=
  let l := [v.toUInt8, (v >>> 8).toUInt8, (v >>> 16).toUInt8, (v >>> 24).toUInt8]
  if le then l else l.reverse
/-- Memory image of a 64-bit value. -/
def bytes64 (le : Bool) (v : UInt64) : List UInt8 :=
  let l := [v.toUInt8, (v >>> 8).toUInt8, (v >>> 16).toUInt8, (v >>> 24).toUInt8,
    (v >>> 32).toUInt8, (v >>> 40).toUInt8, (v >>> 48).toUInt8, (v >>> 56).toUInt8]
  if le then l else l.reverse

/-- Reading a 16-bit value from memory on a little- or big-endian host; `none` if
the buffer does not hold exactly two bytes. -/
def read16 (le : Bool) (l : List UInt8) : Option UInt16 :=
  match if le then l else l.reverse with
  | [a, b] => some (a.toUInt16 ||| (b.toUInt16 <<< 8))
  | _ => none
/-- Reading a 32-bit value from memory. -/
def read32 (le : Bool) (l : List UInt8) : Option UInt32 :=
  match if le then l else l.reverse with
  | [a, b, c, d] => some (a.toUInt32 ||| (b.toUInt32 <<< 8) ||| (c.toUInt32 <<< 16) |||
      (d.toUInt32 <<< 24))
  | _ => none
/-- Reading a 64-bit value from memory. -/
def read64 (le : Bool) (l : List UInt8) : Option UInt64 :=
  match if le then l else l.reverse with
  | [a, b, c, d, e, f, g, h] => some (a.toUInt64 ||| (b.toUInt64 <<< 8) |||
      (c.toUInt64 <<< 16) ||| (d.toUInt64 <<< 24) ||| (e.toUInt64 <<< 32) |||
      (f.toUInt64 <<< 40) ||| (g.toUInt64 <<< 48) ||| (h.toUInt64 <<< 56))
  | _ => none

end WolfHsm.Utils

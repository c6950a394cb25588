import Verif.Model.Utils
import Verif.Model.Basic

/-!
# Message fields in packet buffers

The message translators of `src/wh_message_*.c` read and write C structures in the packet
buffer with the `WH_T16`/`WH_T32`/`WH_T64` macros (wolfhsm/wh_comm.h:94-100).  A structure is
modelled by the offsets of its fields; `le` is the byte order of the host, `magic` the magic of
the packet.
-/

namespace WolfHsm.Wire

open Utils (bytes16 bytes32 bytes64 read16 read32 read64 translate16 translate32 translate64)

/-- A 16-bit field read with `WH_T16`. -/
def rd16 (le : Bool) (magic : UInt16) (buf : List UInt8) (off : Nat) : UInt16 :=
  translate16 magic ((read16 le ((buf.drop off).take 2)).getD 0)
/-- A 32-bit field read with `WH_T32`. -/
def rd32 (le : Bool) (magic : UInt16) (buf : List UInt8) (off : Nat) : UInt32 :=
  translate32 magic ((read32 le ((buf.drop off).take 4)).getD 0)
/-- A 64-bit field read with `WH_T64`. -/
def rd64 (le : Bool) (magic : UInt16) (buf : List UInt8) (off : Nat) : UInt64 :=
  translate64 magic ((read64 le ((buf.drop off).take 8)).getD 0)
/-- `n` bytes at an offset. -/
def rdBytes (buf : List UInt8) (off n : Nat) : List UInt8 := (buf.drop off).take n

/-- A 16-bit field written with `WH_T16`. -/
def w16 (le : Bool) (magic : UInt16) (v : UInt16) : List UInt8 := bytes16 le (translate16 magic v)
/-- A 32-bit field written with `WH_T32`. -/
def w32 (le : Bool) (magic : UInt16) (v : UInt32) : List UInt8 := bytes32 le (translate32 magic v)
/-- A 64-bit field written with `WH_T64`. -/
def w64 (le : Bool) (magic : UInt16) (v : UInt64) : List UInt8 := bytes64 le (translate64 magic v)

/-- A response of `size` bytes whose first fields were written over the packet buffer: what is
not written (padding) is what the buffer held. -/
def over (fields buf : List UInt8) (size : Nat) : List UInt8 :=
  fields ++ ((buf ++ List.replicate size 0).drop fields.length).take (size - fields.length)

end WolfHsm.Wire

namespace WolfHsm

/-- The 32-bit value of a return code, wolfhsm/wh_error.h:31-81 (two's complement). -/
def Rc.code : Rc → UInt32
  | .ok => 0
  | .badargs => 0 - 2000 | .notready => 0 - 2001 | .aborted => 0 - 2002 | .certVerify => 0 - 2005
  | .bufferSize => 0 - 2006 | .nohandler => 0 - 2007 | .notimpl => 0 - 2008 | .usage => 0 - 2009
  | .timeout => 0 - 2010 | .requestPending => 0 - 2011
  | .locked => 0 - 2100 | .access => 0 - 2101 | .notverified => 0 - 2102 | .notblank => 0 - 2103
  | .notfound => 0 - 2104 | .nospace => 0 - 2105
  | .sheSequenceError => 0 - 2200 | .sheKeyNotAvailable => 0 - 2201 | .sheKeyInvalid => 0 - 2202
  | .sheKeyEmpty => 0 - 2203 | .sheNoSecureBoot => 0 - 2204 | .sheWriteProtected => 0 - 2205
  | .sheKeyUpdateError => 0 - 2206 | .sheRngSeed => 0 - 2207 | .sheNoDebugging => 0 - 2208
  | .sheBusy => 0 - 2209 | .sheMemoryFailure => 0 - 2210 | .sheGeneralError => 0 - 2211
  | .authLoginFailed => 0 - 2300 | .authPermissionError => 0 - 2301 | .authNotEnabled => 0 - 2302
  | .other n => UInt32.ofNat n

end WolfHsm

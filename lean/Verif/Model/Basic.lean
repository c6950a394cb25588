/-!
# Common definitions: return codes and metadata flags

Models `wolfhsm/wh_error.h` and the flag constants of `wolfhsm/wh_common.h`.
-/

namespace WolfHsm

/-- Return codes, `wolfhsm/wh_error.h:31-81`.  `other n` stands for any code
outside the wolfHSM range (wolfCrypt errors and values returned by
user-supplied callbacks). -/
inductive Rc where
  | ok | badargs | notready | aborted | certVerify | bufferSize | nohandler
  | notimpl | usage | timeout | requestPending
  | locked | access | notverified | notblank | notfound | nospace
  | sheSequenceError | sheKeyNotAvailable | sheKeyInvalid | sheKeyEmpty
  | sheNoSecureBoot | sheWriteProtected | sheKeyUpdateError | sheRngSeed
  | sheNoDebugging | sheBusy | sheMemoryFailure | sheGeneralError
  | authLoginFailed | authPermissionError | authNotEnabled
  | other (n : Nat)
  deriving DecidableEq, Repr, Inhabited

/-! Metadata flag bits, `wolfhsm/wh_common.h` (`WH_NVM_FLAGS_*`). -/
namespace Flag
def nonModifiable : UInt16 := 0x0001
def sensitive     : UInt16 := 0x0002
def nonExportable : UInt16 := 0x0004
def localOnly     : UInt16 := 0x0008
def ephemeral     : UInt16 := 0x0010
def usageEncrypt  : UInt16 := 0x0020
def usageDecrypt  : UInt16 := 0x0040
def usageSign     : UInt16 := 0x0080
def usageVerify   : UInt16 := 0x0100
def usageWrap     : UInt16 := 0x0200
def usageDerive   : UInt16 := 0x0400
def nonDestroyable : UInt16 := 0x0800
def trusted       : UInt16 := 0x1000
end Flag

/-- `flags & mask` is non-zero, the test used throughout the C code. -/
def hasFlag (flags mask : UInt16) : Bool := (flags &&& mask) != 0

end WolfHsm

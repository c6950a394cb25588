import Verif.Model.CounterMsg
import Verif.Model.CustomMsg
import Verif.Model.ClientComm

/-!
# What the counter calls, the connection calls and the custom callbacks of a client should do
-/

namespace WolfHsm.ClientCounter

/-- The counter operation a call asks for (`Model/Counter.lean`; its properties are C22). -/
def Call.req : Call → Counter.Req
  | .init id v => .init id v
  | .increment id => .increment id
  | .read id => .read id
  | .destroy id => .destroy id

/-- Result for the caller and objects after the call. -/
def expected (client : UInt16) (lock : Rc) (n : Nvm) (c : Call) : Result × Nvm :=
  let a := Counter.handle n client lock c.req
  (if a.1.rc.code ≠ 0 then .failed a.1.rc.code
   else match c with
     | .destroy _ => .done
     | _ => .value a.1.value, a.2)

end WolfHsm.ClientCounter

namespace WolfHsm.CustomMsg

open Wire
open Utils (bytes32 bytes64 magicNative)

/-- What of `len` bytes `data` in the memory of a machine of byte order `a` a message of the given
type carries, as it is in the memory of a machine of byte order `b`: four words, four double words,
or the bytes as they are. -/
def carried (a b : Bool) (len : Nat) (type : UInt32) (data : List UInt8) : List UInt8 :=
  if type = 1 then [0, 4, 8, 12].flatMap fun off => bytes32 b (rd32 a magicNative data off)
  else if type = 2 then [0, 8, 16, 24].flatMap fun off => bytes64 b (rd64 a magicNative data off)
  else if type.toNat < 8 then []
  else data.take len

/-- Zeros behind. -/
def filled (len : Nat) (l : List UInt8) : List UInt8 := l ++ List.replicate (len - l.length) 0

end WolfHsm.CustomMsg

namespace WolfHsm.ClientComm

/-- Result for the caller and device after a connection call on connection `x`. -/
def expected {R : Type} (cfg : Server.Cfg R) (d : Server.Dev R) (x : Nat) : Call → Result × Server.Dev R
  | .init c =>
    if c.toNat > 15 ∨ (cfg.globalKeys = true ∧ c = 0) then (.err .aborted, d)
    else (.ids c cfg.serverId, d.setCtx x { d.ctx x with client := c })
  | .info => (.info cfg.info.toList (cfg.version.toList.take 9) (cfg.version.toList.drop 9), d)
  | .close => (.done, Server.drop cfg d x)
  | .echo data => (.echoed data, d)

end WolfHsm.ClientComm

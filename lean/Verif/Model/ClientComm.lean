import Verif.Model.Server

/-!
# The connection calls of the client: `src/wh_client.c:296-692`
-/

namespace WolfHsm.ClientComm

open Utils (bytes32 magicNative)
open Wire

/-- The calls: `wh_Client_CommInit` (with the client id of the context), `CommInfo`, `CommClose`,
`Echo`. -/
inductive Call where
  | init (client : UInt32)
  | info
  | close
  | echo (data : List UInt8)

/-- The request functions, src/wh_client.c:296-309, 368-377, 560-569, 618-638: action and data, or
the error before anything is sent. -/
def encode (le : Bool) (dataLen : Nat) : Call → Except Rc (UInt16 × List UInt8)
  | .init c => .ok (1, bytes32 le c)
  | .info => .ok (4, [])
  | .close => .ok (3, [])
  | .echo data => if data.length > dataLen then .error .badargs else .ok (5, data)

/-- What the caller gets.  `info`: twelve words, the version and the build string. -/
inductive Result where
  | err (rc : Rc)
  | ids (client server : UInt32)
  | info (words : List UInt32) (version build : List UInt8)
  | done
  | echoed (data : List UInt8)
deriving DecidableEq

/-- The response functions, src/wh_client.c:311-345, 379-451, 571-596, 640-674.  Only the size of an
echo is not looked at. -/
def decode (le : Bool) (action : UInt16) (g : Comm.Got) : Result :=
  match g.rc with
  | .ok =>
    let b := g.payload
    if g.kind &&& 0xFF00 ≠ 0x0100 ∨ g.kind &&& 0x00FF ≠ action then .err .aborted
    else if action = 5 then .echoed b
    else if action = 1 then
      if b.length ≠ 8 then .err .aborted else .ids (rd32 le magicNative b 0) (rd32 le magicNative b 4)
    else if action = 4 then
      if b.length ≠ 72 then .err .aborted
      else .info ((List.range 12).map fun i => rd32 le magicNative b (4 * i)) (rdBytes b 48 9) (rdBytes b 57 9)
    else if b.length ≠ 0 then .err .aborted
    else .done
  | rc => .err rc

end WolfHsm.ClientComm

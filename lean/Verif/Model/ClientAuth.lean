import Verif.Model.Wire
import Verif.Model.Comm
import Verif.Spec.Auth

/-!
# The client side of the authentication requests: `src/wh_client_auth.c`

Requests are written in the client's own byte order (`le`), responses read without translation:
the comm layer accepts only native packets.  `pad`: what the padding byte of a structure built in
the comm buffer happens to be.
-/

namespace WolfHsm.ClientAuth

open Auth (Call Perms)
open Utils (bytes16 magicNative)
open Wire

/-- `_UserNameIsValid`, src/wh_client_auth.c:48-58, of a C string. -/
def nameValid (name : List UInt8) : Bool := name ≠ [] ∧ name.length < 32

/-- The data of a request: action and bytes, or the error returned before anything is sent.
`wh_Client_AuthLoginRequest` 61-115, `LogoutRequest` 192-204, `UserAddRequest` 261-322,
`UserDeleteRequest` 387-399, `UserGetRequest` 456-473, `UserSetPermissionsRequest` 543-561,
`UserSetCredentialsRequest` 620-687. -/
def encode (le : Bool) (dataLen : Nat) (pad : UInt8) : Call → Except Rc (UInt16 × List UInt8)
  | .login m name data =>
    if nameValid name = false then .error .badargs
    else if data.length > dataLen - 36 then .error .badargs
    else if 36 + data.length > dataLen then .error .badargs
    else .ok (0, bytes16 le m ++ (Auth.nameBytes name ++ (bytes16 le (UInt16.ofNat data.length) ++ data)))
  | .logout id => .ok (1, bytes16 le id ++ [0, 0])
  | .add name p m cred =>
    if nameValid name = false then .error .badargs
    else if cred.length > dataLen - 510 then .error .bufferSize
    else if 510 + cred.length > dataLen then .error .bufferSize
    else match Auth.flatten p 473 with
      | none => .error .bufferSize
      | some l => .ok (2, Auth.nameBytes name ++ (l ++ ([pad] ++ (bytes16 le m ++
          (bytes16 le (UInt16.ofNat cred.length) ++ cred)))))
  | .delete id => .ok (3, bytes16 le id ++ [0, 0])
  | .get name =>
    if nameValid name = false then .error .badargs
    else .ok (4, Auth.nameBytes name ++ [0, 0])
  | .setPerms id p =>
    match Auth.flatten p 473 with
    | none => .error .bufferSize
    | some l => .ok (5, bytes16 le id ++ (l ++ [0]))
  | .setCred id m cur new =>
    if cur.length > (dataLen - 8) / 2 then .error .bufferSize
    else if new.length > (dataLen - 8) / 2 then .error .bufferSize
    else if (8 + cur.length + new.length) % 65536 > dataLen then .error .bufferSize
    else .ok (6, bytes16 le id ++ (bytes16 le m ++ (bytes16 le (UInt16.ofNat cur.length) ++
      (bytes16 le (UInt16.ofNat new.length) ++ (cur ++ new)))))
  | .disconnect => .error .badargs
  | .provision .. => .error .badargs

/-- What the caller of a client function gets: its return code, `*out_rc`, `*out_user_id`,
`*out_permissions` (where it has them). -/
structure Result where
  rc : Rc
  code : UInt32
  id : UInt16
  perms : Option Perms

/-- Size of the response structure of an action. -/
def respSize (action : UInt16) : Nat :=
  if action = 0 ∨ action = 2 then 8 else if action = 4 then 480 else 4

/-- The response functions, e.g. `wh_Client_AuthLoginResponse` 117-167, on a received response.
A LOGIN also accepts a four-byte error. -/
def decode (le : Bool) (action : UInt16) (g : Comm.Got) : Result :=
  match g.rc with
  | .ok =>
    let code := rd32 le magicNative g.payload 0
    if g.kind &&& 0xFF00 ≠ 0x0D00 ∨ g.kind &&& 0x00FF ≠ action ∨ g.payload.length ≠ respSize action then
      if action = 0 ∧ g.payload.length = 4 ∧ code ≠ 0 then ⟨.ok, code, 0, none⟩
      else ⟨.aborted, 0, 0, none⟩
    else if action = 0 ∨ action = 2 then ⟨.ok, code, rd16 le magicNative g.payload 4, none⟩
    else if action = 4 then
      ⟨.ok, code, rd16 le magicNative g.payload 4, Auth.unflatten (rdBytes g.payload 6 473)⟩
    else ⟨.ok, code, 0, none⟩
  | rc => ⟨rc, 0, 0, none⟩

end WolfHsm.ClientAuth

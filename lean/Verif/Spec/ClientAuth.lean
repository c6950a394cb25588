import Verif.Model.ClientAuth

/-!
# What an authentication call of a client should do

The call of the authentication manager that the request stands for, and what the client's caller
should see.
-/

namespace WolfHsm.ClientAuth

open Auth (Call Perms)

/-- The call the server should make: permission sets travel with the key id list cut to its
count (C45). -/
def sent : Call → Call
  | .add name p m cred => .add name p.clamp m cred
  | .setPerms id p => .setPerms id p.clamp
  | c => c

/-- What the client's caller should get for call `c` on connection `x`. -/
def expected (cfg : Auth.Cfg) (s : Auth.St) (x : Nat) (c : Call) : Result :=
  let q := Auth.act cfg s x (sent c)
  match c with
  | .login .. => ⟨.ok, q.1.code, if q.1 = .ok then (q.2.sess x).id else 0, none⟩
  | .add name p m cred => ⟨.ok, q.1.code, (Auth.userAdd cfg s x name p.clamp m cred).1.2, none⟩
  | .get name =>
    match Auth.userGet s x name with
    | (.ok, some (id, p)) => ⟨.ok, 0, id, some p.clamp⟩
    | (rc, _) => ⟨.ok, rc.code, 0, some Perms.zero⟩
  | _ => ⟨.ok, q.1.code, 0, none⟩

/-- What the caller gets when the request is not authorised. -/
def refusedResult (action : UInt16) : Result :=
  ⟨.ok, Rc.authPermissionError.code, 0, if action = 4 then some Perms.zero else none⟩

/-- User names are C strings. -/
def CStr : Call → Prop
  | .login _ name _ | .add name _ _ _ | .get name => ∀ b ∈ name, b ≠ 0
  | _ => True

end WolfHsm.ClientAuth

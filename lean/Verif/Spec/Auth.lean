import Verif.Model.Auth

/-!
# Specification vocabulary for authentication (C28–C32, C45)
-/

namespace WolfHsm.Auth

open NvmFlash (Meta Store)

/-! ## Rights -/

/-- The permission set grants action `a` of message group number `g`. -/
def Perms.Grants (p : Perms) (g a : Nat) : Prop :=
  g < 14 ∧ a < 256 ∧ p.group g ≠ 0 ∧ (p.word g (a / 32)).toNat.testBit (a % 32) = true

/-- The permission set lists the key id. -/
def Perms.Lists (p : Perms) (k : UInt32) : Prop := ∃ i, i < p.keyIdCount.toNat ∧ i < 2 ∧ p.keyId i = k

/-- `q` holds nothing that `p` does not hold. -/
def Perms.Within (q p : Perms) : Prop :=
  (q.isAdmin = true → p.isAdmin = true) ∧ (∀ g a, q.Grants g a → p.Grants g a) ∧
  ∀ k, q.Lists k → p.Lists k

/-! ## Calls and histories -/

/-- Calls of the authentication manager on behalf of a connection. -/
inductive Call where
  | login (method : UInt16) (name data : List UInt8)
  | logout (id : UInt16)
  | add (name : List UInt8) (p : Perms) (method : UInt16) (cred : List UInt8)
  | delete (id : UInt16)
  | setPerms (id : UInt16) (p : Perms)
  | get (name : List UInt8)
  | setCred (id : UInt16) (method : UInt16) (current new : List UInt8)
  | disconnect
  | provision (name : List UInt8) (p : Perms) (method : UInt16) (cred : List UInt8)

/-- A call on context `x`: what the server answers and the new state.  A login that is not
successful answers `WH_AUTH_LOGIN_FAILED` (src/wh_server_auth.c:71-80).  `provision` is the
device's own application adding a user with `wh_Auth_BaseUserAdd`, without a session, as in
examples/posix/wh_posix_server/wh_posix_server_cfg.c:758-781; no request leads to it. -/
def act (cfg : Cfg) (s : St) (x : Nat) : Call → Rc × St
  | .login m name data =>
    match login cfg s x m name data with
    | ((.ok, true), s') => (.ok, s')
    | ((.ok, false), s') => (.authLoginFailed, s')
    | ((rc, _), s') => (rc, s')
  | .logout id => logout s x id
  | .add name p m cred => ((userAdd cfg s x name p m cred).1.1, (userAdd cfg s x name p m cred).2)
  | .delete id => userDelete cfg s x id
  | .setPerms id p => setPerms cfg s x id p
  | .get name => ((userGet s x name).1, s)
  | .setCred id m cur new => setCred cfg s x id m cur new
  | .disconnect => (.ok, disconnect s x)
  | .provision name p m cred =>
    if s.up = false then (.badargs, s)
    else ((baseAdd cfg s name p m cred).1.1, (baseAdd cfg s name p m cred).2)

/-- The NVM objects of the authentication manager. -/
def reserved (id : UInt16) : Bool := decide (0xFE00 ≤ id.toNat ∧ id.toNat ≤ 0xFE05)

/-- What happens to a device: a call on some connection; use of the NVM by other parts of
the server, which may change every object but the reserved ones; a power cycle. -/
inductive Ev where
  | call (x : Nat) (c : Call)
  | foreign (f : Store)
  | restart (b : Bool)

/-- One event. -/
def step (cfg : Cfg) (s : St) : Ev → St
  | .call x c => (act cfg s x c).2
  | .foreign f =>
    if s.nvm.powered then
      { s with nvm := { s.nvm with store := fun id => if reserved id then s.nvm.store id else f id } }
    else s
  | .restart b => init cfg { s with nvm := s.nvm.restart b }

/-- A history. -/
def run (cfg : Cfg) : St → List Ev → St
  | s, [] => s
  | s, e :: es => run cfg (step cfg s e) es

/-! ## The user database as the API shows it -/

/-- What is stored about a user. -/
structure Rec where
  name : List UInt8
  perms : Perms
  method : UInt16
  /-- Stored credential: the PIN's hash (the PIN itself without crypto), or the CA
  certificate; empty for a user without credentials. -/
  cred : List UInt8
deriving DecidableEq

/-- The stored credential of slot `i`; empty for a user without one. -/
def credOf (st : Store) (u : Slot) (i : Nat) : List UInt8 :=
  if u.credLen = 0 then []
  else match st (credId i) with
    | some (_, data) => data
    | none => []

/-- `blob` is what is stored as the credential of slot `i`: the bytes of NVM object
`0xFE01 + i`, or the RAM copy where the manager runs without NVM. -/
def Stored (cfg : Cfg) (s : St) (i : Nat) (blob : List UInt8) : Prop :=
  if cfg.useNvm then
    ∃ md data, s.nvm.store (0xFE01 + UInt16.ofNat i) = some (md, data) ∧ md.len.toNat ≤ data.length ∧
      blob = data.take md.len.toNat
  else blob = (s.ram i ++ List.replicate 2048 0).take (s.users i).credLen

/-- The database held by a user table and an object store: user ids 1 to 5 at index 0
to 4. -/
def viewOf (st : Store) (us : Nat → Slot) (i : Nat) : Option Rec :=
  if i < maxUsers ∧ (us i).id ≠ 0 then
    some ⟨(us i).name, (us i).perms, (us i).method, credOf st (us i) i⟩
  else none

/-- The database of the running device. -/
def view (s : St) : Nat → Option Rec := viewOf s.nvm.store s.users

/-- What a call that succeeds does to the database. -/
def Effect (cfg : Cfg) (c : Call) (old new : Nat → Option Rec) : Prop :=
  match c with
  | .add name p m cred | .provision name p m cred => ∃ i, i < maxUsers ∧ old i = none ∧
      ((cred = [] ∧ new = upd old i (some ⟨name.take 31, p.clamp, mNone, []⟩)) ∨
       ∃ blob, cred ≠ [] ∧ makeBlob cfg m cred = .ok blob ∧
         new = upd old i (some ⟨name.take 31, p.clamp, m, blob⟩))
  | .delete id => new = upd old (slotOf id) none
  | .setPerms id p => ∃ r, old (slotOf id) = some r ∧
      new = upd old (slotOf id) (some { r with perms := p.clamp })
  | .setCred id m _ cred => ∃ r, old (slotOf id) = some r ∧
      ((cred = [] ∧ new = upd old (slotOf id) (some { r with method := mNone, cred := [] })) ∨
       ∃ blob, cred ≠ [] ∧ makeBlob cfg m cred = .ok blob ∧
         new = upd old (slotOf id) (some { r with method := m, cred := blob }))
  | _ => new = old

/-- Failing NVM calls change nothing on the media, and the two calls after a failed one do
not fail. -/
def Spaced (outs : Nat → Out) : Prop :=
  ∀ t rc a, outs t = .fail rc a → a = false ∧
    (∀ rc' a', outs (t + 1) ≠ .fail rc' a') ∧ (∀ rc' a', outs (t + 2) ≠ .fail rc' a')

/-- No credential object is left behind in a slot without a user. -/
def Tidy (s : St) : Prop := ∀ i, i < maxUsers → (s.users i).id = 0 → s.nvm.store (credId i) = none

/-- A database: what is stored about the users at index 0 to 4. -/
abbrev Db := Nat → Option Rec

/-- A power cycle; `b`: whether an object left unfinished by a power cut shows up. -/
def restart (cfg : Cfg) (s : St) (b : Bool) : St := step cfg s (.restart b)

/-- What may be asked of an event in state `s`: user names are C strings, and a user
without credentials is not added while a credential object is left behind. -/
def EvOk (s : St) : Ev → Prop
  | .call _ (.add name _ _ cred) | .call _ (.provision name _ _ cred) => (∀ b ∈ name, b ≠ 0) ∧ (cred = [] → Tidy s)
  | _ => True

/-- Every event of the history is such. -/
def HistOk (cfg : Cfg) : St → List Ev → Prop
  | _, [] => True
  | s, e :: es => EvOk s e ∧ HistOk cfg (step cfg s e) es

/-- A new device: nothing on the reserved ids, NVM calls fail one at a time, no power. -/
def Blank (s : St) : Prop :=
  s.up = false ∧ s.nvm.pending = none ∧ Spaced s.nvm.outs ∧ ∀ id, reserved id → s.nvm.store id = none

/-- On this connection an administrator is logged in. -/
def AdminOn (s : St) (x : Nat) : Prop :=
  (s.sess x).perms.isAdmin = true ∨ ((s.sess x).id ≠ 0 ∧ tableAdmin s (s.sess x).id = true)

/-- The device's application adds no user in this event. -/
def Ev.NotLocal : Ev → Prop
  | .call _ (.provision ..) => False
  | _ => True

/-- No administrator is logged in at any point of the history, and all calls come from
connections. -/
def NoAdmin (cfg : Cfg) : St → List Ev → Prop
  | s, [] => ∀ x, ¬ AdminOn s x
  | s, e :: es => (∀ x, ¬ AdminOn s x) ∧ e.NotLocal ∧ NoAdmin cfg (step cfg s e) es

end WolfHsm.Auth

import Verif.Model.Nvm
import Verif.Model.Utils

/-!
# Authentication manager (`src/wh_auth.c`) with the base backend (`src/wh_auth_base.c`)

The user table of the base backend is one static array shared by every authentication
context; each context (one per server connection) holds its own session, a copy of the
logged-in user's id and permissions.  Sessions are indexed by a natural number here.

Not modelled: NULL-pointer checks, `WH_AUTH_LOCK` (calls are one step each; see C46) and
the zeroing of scratch buffers.  The comparison `wh_Utils_ConstantCompare` is equality
(C40).  Hashing and certificate verification are parameters.
-/

namespace WolfHsm.Auth

open NvmFlash (Meta Store)
open Utils (bytes16 bytes32 read16 read32)

/-! ## Permissions, wolfhsm/wh_auth.h:70-149 -/

/-- `WH_NUMBER_OF_GROUPS`, wolfhsm/wh_auth.h:72. -/
abbrev nGroups : Nat := 14
/-- `WH_AUTH_ACTION_WORDS`: 256 actions in 32-bit words. -/
abbrev nWords : Nat := 8
/-- `WH_AUTH_MAX_KEY_IDS`. -/
abbrev maxKeyIds : Nat := 2

/-- `whAuthPermissions`, wolfhsm/wh_auth.h:127-139.  The last group entry is the admin
flag. -/
structure Perms where
  groups : Vector UInt8 15
  actions : Vector (Vector UInt32 8) 14
  keyIdCount : UInt16
  keyIds : Vector UInt32 2
deriving DecidableEq

/-- All-zero permissions (`memset`). -/
def Perms.zero : Perms :=
  ⟨Vector.replicate 15 0, Vector.replicate 14 (Vector.replicate 8 0), 0, Vector.replicate 2 0⟩

/-- `groupPermissions[g]`. -/
def Perms.group (p : Perms) (g : Nat) : UInt8 := p.groups.toList.getD g 0
/-- `actionPermissions[g][w]`. -/
def Perms.word (p : Perms) (g w : Nat) : UInt32 :=
  match p.actions.toList[g]? with
  | some v => v.toList.getD w 0
  | none => 0
/-- `keyIds[k]`. -/
def Perms.keyId (p : Perms) (k : Nat) : UInt32 := p.keyIds.toList.getD k 0

/-- `WH_AUTH_IS_ADMIN`. -/
def Perms.isAdmin (p : Perms) : Bool := p.group nGroups != 0

/-- The key id count, clamped as on lines 392-397 of src/wh_auth.c. -/
def Perms.count (p : Perms) : Nat := min p.keyIdCount.toNat maxKeyIds

/-- Clamping of a permission set before it is stored, src/wh_auth_base.c:753-764 and
924-935. -/
def Perms.clamp (p : Perms) : Perms :=
  { p with
    keyIdCount := if p.keyIdCount.toNat > maxKeyIds then 2 else p.keyIdCount,
    keyIds := Vector.ofFn fun k : Fin 2 => if k.val < p.count then p.keyIds[k] else 0 }

/-! ### Flattening, src/wh_message_auth.c:114-219

Also used for the index object, where the C code stores the native structure: the
padding bytes and the byte order of that structure are not modelled. -/

/-- `WH_FLAT_PERMISSIONS_LEN`. -/
abbrev flatLen : Nat := 473

/-- The fields of a permission set, one after the other. -/
def Perms.bytes (p : Perms) : List UInt8 :=
  p.groups.toList ++ p.actions.toList.flatMap (fun v => v.toList.flatMap (bytes32 true)) ++
    bytes16 true p.keyIdCount ++ p.keyIds.toList.flatMap (bytes32 true)

/-- A 32-bit little-endian value at an offset, src/wh_message_auth.c:195-199. -/
def rd32 (l : List UInt8) (off : Nat) : UInt32 := (read32 true ((l.drop off).take 4)).getD 0
/-- A 16-bit little-endian value at an offset, src/wh_message_auth.c:204. -/
def rd16 (l : List UInt8) (off : Nat) : UInt16 := (read16 true ((l.drop off).take 2)).getD 0

/-- The fields of a permission set, read back from their bytes. -/
def Perms.ofBytes (l : List UInt8) : Perms where
  groups := Vector.ofFn fun g : Fin 15 => l.getD g.val 0
  actions := Vector.ofFn fun g : Fin 14 => Vector.ofFn fun w : Fin 8 =>
    rd32 l (15 + 32 * g.val + 4 * w.val)
  keyIdCount := rd16 l 463
  keyIds := Vector.ofFn fun k : Fin 2 => rd32 l (465 + 4 * k.val)

/-- `wh_MessageAuth_FlattenPermissions`, src/wh_message_auth.c:114-167, into a buffer of
`bufLen` bytes; `none` is `WH_ERROR_BADARGS`.  The bytes of the buffer beyond the
flattened permissions are left alone by the code. -/
def flatten (p : Perms) (bufLen : Nat) : Option (List UInt8) :=
  if bufLen < flatLen then none else some p.clamp.bytes

/-- `wh_MessageAuth_UnflattenPermissions`, src/wh_message_auth.c:170-219; the key ids
beyond the count are copied as they are. -/
def unflatten (buf : List UInt8) : Option Perms :=
  if buf.length < flatLen then none
  else
    let p := Perms.ofBytes buf
    some { p with keyIdCount := if p.keyIdCount.toNat > maxKeyIds then 2 else p.keyIdCount }

/-! ## Users and sessions -/

/-- `WH_AUTH_BASE_MAX_USERS`, src/wh_auth_base.c:47. -/
abbrev maxUsers : Nat := 5
/-- `WH_AUTH_BASE_MAX_CREDENTIALS_LEN`, src/wh_auth_base.c:48. -/
abbrev maxCred : Nat := 2048
/-- Bytes of a user name without the terminator, wolfhsm/wh_auth.h:141-147. -/
abbrev maxName : Nat := 31

/-- `WH_AUTH_METHOD_NONE`, `_PIN`, `_CERTIFICATE`. -/
abbrev mNone : UInt16 := 0
abbrev mPin : UInt16 := 1
abbrev mCert : UInt16 := 2

/-- `whAuthBase_User`, src/wh_auth_base.c:50-56 with `whAuthUser`; the name is a C string
without its terminator. -/
structure Slot where
  id : UInt16
  name : List UInt8
  perms : Perms
  active : Bool
  method : UInt16
  credLen : Nat
deriving DecidableEq

/-- A zeroed slot. -/
def Slot.empty : Slot := ⟨0, [], Perms.zero, false, mNone, 0⟩

/-- `whAuthContext.user`. -/
structure Session where
  id : UInt16
  perms : Perms
deriving DecidableEq

/-- A zeroed session. -/
def Session.none : Session := ⟨0, Perms.zero⟩

/-- Build-time options and the functions of the cryptographic library. -/
structure Cfg where
  /-- `wc_Sha256Hash_ex`; `none` when it fails. -/
  hash : List UInt8 → Option (Vector UInt8 32)
  /-- `WOLFHSM_CFG_NO_CRYPTO`. -/
  noCrypto : Bool
  /-- `WOLFHSM_CFG_CERTIFICATE_MANAGER`. -/
  certs : Bool
  /-- `wh_Auth_BaseVerifyCertificate`, CA certificate first. -/
  verify : List UInt8 → List UInt8 → Bool
  /-- An NVM backend is configured. -/
  useNvm : Bool
  /-- `WOLFHSM_CFG_AUTH_BASE_NVM_ONLY`. -/
  nvmOnly : Bool
  /-- The optional `CheckRequestAuthorization` callback. -/
  override : Option (Rc → UInt16 → UInt16 → UInt16 → Rc)

/-- State of the authentication manager of a device. -/
structure St where
  /-- False when `wh_Auth_Init` failed: the context has no callbacks. -/
  up : Bool
  /-- `users[]`, src/wh_auth_base.c:60; entries 0 to 4. -/
  users : Nat → Slot
  /-- `s_auth_base_ram_cred`, src/wh_auth_base.c:112. -/
  ram : Nat → List UInt8
  nvm : Nvm
  /-- `context->user` of each authentication context. -/
  sess : Nat → Session

/-- Update of one entry of an array. -/
def upd {α : Type} (f : Nat → α) (i : Nat) (v : α) : Nat → α := fun j => if j = i then v else f j

/-- Certificate login is compiled in, src/wh_auth_base.c:562. -/
def Cfg.certLogin (cfg : Cfg) : Bool := cfg.certs && !cfg.noCrypto

/-- The method checks of src/wh_auth_base.c:723-727 and 1015-1019. -/
def Cfg.methodOk (cfg : Cfg) (m : UInt16) : Bool := m == mPin || (m == mCert && cfg.certLogin)

/-! ## Objects in NVM -/

/-- `WH_NVM_ID_AUTH_USER_INDEX`, wolfhsm/wh_auth_base.h:54. -/
def indexId : UInt16 := 0xFE00
/-- `WH_AUTH_BASE_CRED_ID` of the user in slot `i`, src/wh_auth_base.c:82. -/
def credId (i : Nat) : UInt16 := 0xFE01 + UInt16.ofNat i

/-- The flags of both kinds of objects, src/wh_auth_base.c:154-155, 206-207. -/
def objFlags : UInt16 := Flag.sensitive ||| Flag.nonExportable ||| Flag.nonModifiable

/-- Label from a string, zero padded, src/wh_auth_base.c:157-158. -/
def label (s : List UInt8) : Vector UInt8 24 := Vector.ofFn fun i : Fin 24 => s.getD i.val 0

/-- `"auth_user_idx"`. -/
def indexLabel : List UInt8 :=
  [0x61, 0x75, 0x74, 0x68, 0x5f, 0x75, 0x73, 0x65, 0x72, 0x5f, 0x69, 0x64, 0x78]
/-- `"auth_cred"`. -/
def credLabel : List UInt8 := [0x61, 0x75, 0x74, 0x68, 0x5f, 0x63, 0x72, 0x65, 0x64]

/-- A name in its 32-byte field. -/
def nameBytes (s : List UInt8) : List UInt8 := s ++ List.replicate (32 - s.length) 0
/-- The C string in a 32-byte field whose last byte is set to zero,
src/wh_auth_base.c:389-390. -/
def nameOf (l : List UInt8) : List UInt8 := (l.take maxName).takeWhile (· ≠ 0)

/-- One `whAuthUser` of the index, `is_active` cleared, src/wh_auth_base.c:139-144. -/
def encUser (s : Slot) : List UInt8 := bytes16 true s.id ++ nameBytes s.name ++ s.perms.bytes ++ [0]
/-- Bytes of an encoded user. -/
abbrev userLen : Nat := 508
/-- A `whAuthUser` read back, src/wh_auth_base.c:386-393. -/
def decUser (l : List UInt8) : Slot :=
  ⟨rd16 l 0, nameOf ((l.drop 2).take 32), Perms.ofBytes ((l.drop 34).take flatLen), false, mNone, 0⟩

/-- `WH_AUTH_BASE_NVM_MAGIC`, src/wh_auth_base.c:68. -/
def magic : UInt32 := 0x57484142

/-- The index object, src/wh_auth_base.c:137-145. -/
def encIndex (users : Nat → Slot) : List UInt8 :=
  bytes32 true magic ++ (List.range maxUsers).flatMap (fun i => encUser (users i))
/-- `WH_AUTH_BASE_NVM_INDEX_SIZE`, src/wh_auth_base.c:70. -/
abbrev indexLen : Nat := 2544

/-- Metadata of the index object, src/wh_auth_base.c:147-158. -/
def indexMeta : Meta := ⟨indexId, 0, objFlags, 2544, label indexLabel⟩
/-- Metadata of a credential object, src/wh_auth_base.c:201-213. -/
def credMeta (i : Nat) (method : UInt16) (len : Nat) : Meta :=
  ⟨credId i, 0, objFlags, UInt16.ofNat len, (label credLabel).set 23 method.toUInt8⟩
/-- The method kept in the label, src/wh_auth_base.c:292. -/
def labelMethod (md : Meta) : UInt16 := md.label[23].toUInt16

/-- `wh_Auth_BasePersistIndex`, src/wh_auth_base.c:123-173. -/
def persistIndex (cfg : Cfg) (s : St) : Rc × St :=
  if cfg.useNvm then
    let r := s.nvm.addWithReclaim indexMeta (encIndex s.users)
    (r.1, { s with nvm := r.2 })
  else (.ok, s)

/-- `wh_Auth_BasePersistCred`, src/wh_auth_base.c:177-221, for the user in slot `i`. -/
def persistCred (cfg : Cfg) (s : St) (i : Nat) (method : UInt16) (buf : List UInt8) : Rc × St :=
  if cfg.useNvm then
    let r := s.nvm.addWithReclaim (credMeta i method buf.length) buf
    (r.1, { s with nvm := r.2 })
  else if cfg.nvmOnly then (.badargs, s)
  else (.ok, { s with ram := upd s.ram i buf })

/-- `wh_Auth_BaseLoadCred`, src/wh_auth_base.c:227-268. -/
def loadCred (cfg : Cfg) (s : St) (i : Nat) : (Rc × List UInt8) × St :=
  if cfg.useNvm then
    match s.nvm.metadata (credId i) with
    | (.ok, some md) =>
      if 0 < md.len.toNat ∧ md.len.toNat ≤ maxCred then
        let r := s.nvm.read (credId i) 0 md.len.toNat
        (r.1, { s with nvm := r.2 })
      else ((.aborted, []), s)
    | (rc, _) => ((rc, []), s)
  else if cfg.nvmOnly then ((.notfound, []), s)
  else if (s.users i).credLen = 0 then ((.notfound, []), s)
  else ((.ok, (s.ram i ++ List.replicate maxCred 0).take (s.users i).credLen), s)

/-- `wh_Auth_BaseDestroyCred`, src/wh_auth_base.c:300-320. -/
def destroyCred (cfg : Cfg) (s : St) (i : Nat) : Rc × St :=
  if cfg.useNvm then
    let r := s.nvm.destroy [credId i]
    (r.1, { s with nvm := r.2 })
  else (.ok, { s with ram := upd s.ram i [] })

/-! ## Loading at start-up -/

/-- One iteration of the loop of `wh_Auth_BaseLoadFromNvm`, src/wh_auth_base.c:380-430,
with `wh_Auth_BaseLoadCredHeader` (lines 272-295). -/
def loadSlot (n : Nvm) (buf : List UInt8) (i : Nat) : Except Rc Slot :=
  let u := decUser ((buf.drop (4 + userLen * i)).take userLen)
  if u.id = 0 then
    if u.name ≠ [] then .error .aborted else .ok u
  else if u.id ≠ UInt16.ofNat (i + 1) ∨ u.perms.keyIdCount.toNat > maxKeyIds then .error .aborted
  else match n.metadata (credId i) with
    | (.ok, some md) =>
      if md.len.toNat = 0 ∨ md.len.toNat > maxCred ∨
          (labelMethod md ≠ mPin ∧ labelMethod md ≠ mCert) then .error .aborted
      else .ok { u with method := labelMethod md, credLen := md.len.toNat }
    | (.notfound, _) => .ok { u with method := mNone, credLen := 0 }
    | (rc, _) => .error rc

/-- The loop of `wh_Auth_BaseLoadFromNvm` over the first `k` slots. -/
def loadSlots (n : Nvm) (buf : List UInt8) : Nat → Except Rc (Nat → Slot)
  | 0 => .ok fun _ => Slot.empty
  | k + 1 =>
    match loadSlots n buf k with
    | .ok us =>
      match loadSlot n buf k with
      | .ok u => .ok (upd us k u)
      | .error rc => .error rc
    | .error rc => .error rc

/-- `wh_Auth_BaseLoadFromNvm`, src/wh_auth_base.c:325-437: the user table, or an error. -/
def loadFromNvm (n : Nvm) : Except Rc (Nat → Slot) × Nvm :=
  match n.metadata indexId with
  | (.ok, some md) =>
    if md.len.toNat = indexLen then
      match n.read indexId 0 indexLen with
      | ((.ok, buf), n') =>
        if (read32 true (buf.take 4)).getD 0 ≠ magic then (.error .aborted, n')
        else (loadSlots n' buf maxUsers, n')
      | ((rc, _), n') => (.error rc, n')
    else (.error .aborted, n)
  | (.notfound, _) => (.ok fun _ => Slot.empty, n)
  | (rc, _) => (.error rc, n)

/-- `wh_Auth_Init` (src/wh_auth.c:55-89) with `wh_Auth_BaseInit`
(src/wh_auth_base.c:439-463), for all contexts of the device. -/
def init (cfg : Cfg) (s : St) : St :=
  let clear : St := { s with users := fun _ => Slot.empty, ram := fun _ => [],
                             sess := fun _ => Session.none }
  if cfg.useNvm then
    match loadFromNvm s.nvm with
    | (.ok us, n) => { clear with users := us, nvm := n, up := true }
    | (.error _, n) => { clear with nvm := n, up := false }
  else { clear with up := true }

/-! ## Backend calls -/

/-- `wh_Auth_BaseFindUser`, src/wh_auth_base.c:479-488.  Empty slots have empty names. -/
def findUser (s : St) (name : List UInt8) : Option Nat :=
  (List.range maxUsers).find? fun i => (s.users i).name == name

/-- `wh_Auth_BaseHashPin`, src/wh_auth_base.c:491-509, and the length used with it. -/
def hashPin (cfg : Cfg) (pin : List UInt8) : Except Rc (List UInt8) :=
  if cfg.noCrypto then
    if pin.length > maxCred then .error .bufferSize else .ok pin
  else match cfg.hash pin with
    | some h => .ok h.toList
    | none => .error .aborted

/-- `wh_Auth_BaseCheckPin`, src/wh_auth_base.c:514-560: the matching slot, if any. -/
def checkPin (cfg : Cfg) (s : St) (name data : List UInt8) : (Rc × Option Nat) × St :=
  match hashPin cfg data with
  | .error rc => ((rc, none), s)
  | .ok h =>
    match findUser s name with
    | none => ((.ok, none), s)
    | some i =>
      if (s.users i).method = mPin ∧ (s.users i).credLen = h.length then
        match loadCred cfg s i with
        | ((.ok, stored), s') => ((.ok, if stored = h then some i else none), s')
        | ((.notfound, _), s') => ((.ok, none), s')
        | ((rc, _), s') => ((rc, none), s')
      else ((.ok, none), s)

/-- `wh_Auth_BaseCheckCertificate`, src/wh_auth_base.c:591-624. -/
def checkCert (cfg : Cfg) (s : St) (name data : List UInt8) : (Rc × Option Nat) × St :=
  match findUser s name with
  | none => ((.ok, none), s)
  | some i =>
    if (s.users i).method = mCert ∧ (s.users i).credLen > 0 then
      match loadCred cfg s i with
      | ((.ok, stored), s') =>
        ((.ok, if stored.length = (s.users i).credLen ∧ cfg.verify stored data = true then some i
               else none), s')
      | ((.notfound, _), s') => ((.ok, none), s')
      | ((rc, _), s') => ((rc, none), s')
    else ((.ok, none), s)

/-- `wh_Auth_BaseLogin`, src/wh_auth_base.c:627-677: the slot of the user logged in. -/
def baseLogin (cfg : Cfg) (s : St) (method : UInt16) (name data : List UInt8) :
    (Rc × Option Nat) × St :=
  let chk := if method = mPin then checkPin cfg s name data
    else if method = mCert ∧ cfg.certLogin = true then checkCert cfg s name data
    else ((.badargs, none), s)
  match chk with
  | ((.ok, some i), s') =>
    if (s'.users i).active then ((.ok, none), s')
    else ((.ok, some i), { s' with users := upd s'.users i { s'.users i with active := true } })
  | ((rc, _), s') => ((rc, none), s')

/-- `WH_USER_ID_INVALID` or beyond the table. -/
def badId (id : UInt16) : Bool := id == 0 || decide (id.toNat > maxUsers)

/-- Table entry of a user id (`users[id - 1]`). -/
def slotOf (id : UInt16) : Nat := id.toNat - 1

/-- `WH_AUTH_IS_ADMIN(users[id - 1].user.permissions)`. -/
def tableAdmin (s : St) (id : UInt16) : Bool := (s.users (slotOf id)).perms.isAdmin

/-- `wh_Auth_BaseLogout`, src/wh_auth_base.c:679-703. -/
def baseLogout (s : St) (cur id : UInt16) : Rc × St :=
  if cur = 0 ∨ id = 0 then (.badargs, s)
  else if cur.toNat > maxUsers ∨ id.toNat > maxUsers then (.notfound, s)
  else if cur ≠ id ∧ tableAdmin s cur = false then (.access, s)
  else (.ok, { s with users := upd s.users (slotOf id) { s.users (slotOf id) with active := false } })

/-- The credential blob stored for given credentials, src/wh_auth_base.c:773-811. -/
def makeBlob (cfg : Cfg) (method : UInt16) (cred : List UInt8) : Except Rc (List UInt8) :=
  if method = mPin then hashPin cfg cred
  else if cred.length > maxCred then .error .bufferSize
  else .ok cred

/-- First free slot, src/wh_auth_base.c:733-736. -/
def freeSlot (s : St) : Option Nat := (List.range maxUsers).find? fun i => (s.users i).id == 0

/-- The end of `wh_Auth_BaseUserAdd`, src/wh_auth_base.c:829-841: persist the index or
undo the addition. -/
def addCommit (cfg : Cfg) (s : St) (i : Nat) : (Rc × UInt16) × St :=
  match persistIndex cfg s with
  | (.ok, s') => ((.ok, UInt16.ofNat (i + 1)), s')
  | (rc, s') =>
    let s'' := if (s.users i).credLen > 0 then (destroyCred cfg s' i).2 else s'
    ((rc, 0), { s'' with users := upd s''.users i Slot.empty })

/-- `wh_Auth_BaseUserAdd`, src/wh_auth_base.c:706-842; `cred = []` stands for absent
credentials.  Second result: the new user's id. -/
def baseAdd (cfg : Cfg) (s : St) (name : List UInt8) (p : Perms) (method : UInt16)
    (cred : List UInt8) : (Rc × UInt16) × St :=
  if cred ≠ [] ∧ cfg.methodOk method = false then ((.badargs, 0), s)
  else if (findUser s name).isSome then ((.badargs, 0), s)
  else match freeSlot s with
    | none => ((.bufferSize, 0), s)
    | some i =>
      let u : Slot := ⟨UInt16.ofNat (i + 1), name.take maxName, p.clamp, false, mNone, 0⟩
      if cred = [] then addCommit cfg { s with users := upd s.users i u } i
      else match makeBlob cfg method cred with
        | .error rc => ((rc, 0), s)
        | .ok blob =>
          match persistCred cfg s i method blob with
          | (.ok, s') =>
            addCommit cfg { s' with users := upd s'.users i { u with method := method,
                                                                     credLen := blob.length } } i
          | (rc, s') => ((rc, 0), s')

/-- `wh_Auth_BaseUserDelete`, src/wh_auth_base.c:844-894. -/
def baseDelete (cfg : Cfg) (s : St) (cur id : UInt16) : Rc × St :=
  if badId id then (.notfound, s)
  else if badId cur then (.badargs, s)
  else if tableAdmin s cur = false then (.access, s)
  else
    let i := slotOf id
    let backup := s.users i
    if backup.id = 0 then (.notfound, s)
    else match persistIndex cfg { s with users := upd s.users i Slot.empty } with
      | (.ok, s') =>
        if backup.credLen > 0 then
          match destroyCred cfg s' i with
          | (.ok, s'') => (.ok, s'')
          | (rc, s'') => (rc, (persistIndex cfg { s'' with users := upd s''.users i backup }).2)
        else (.ok, s')
      | (rc, s') => (rc, { s' with users := upd s'.users i backup })

/-- `wh_Auth_BaseUserSetPermissions`, src/wh_auth_base.c:896-945. -/
def baseSetPerms (cfg : Cfg) (s : St) (cur id : UInt16) (p : Perms) : Rc × St :=
  if badId id then (.notfound, s)
  else if badId cur then (.notfound, s)
  else if tableAdmin s cur = false then (.access, s)
  else
    let i := slotOf id
    let old := s.users i
    if old.id = 0 then (.notfound, s)
    else match persistIndex cfg { s with users := upd s.users i { old with perms := p.clamp } } with
      | (.ok, s') => (.ok, s')
      | (rc, s') => (rc, { s' with users := upd s'.users i old })

/-- `wh_Auth_BaseUserGet`, src/wh_auth_base.c:948-981. -/
def baseGet (s : St) (cur : UInt16) (name : List UInt8) : Rc × Option (UInt16 × Perms) :=
  if badId cur then (.access, none)
  else
    let missing := (if tableAdmin s cur then Rc.notfound else .access, none)
    match findUser s name with
    | none => missing
    | some i =>
      if (s.users i).id = 0 then missing
      else if tableAdmin s cur = false ∧ (s.users i).id ≠ cur then (.access, none)
      else (.ok, some ((s.users i).id, (s.users i).perms))

/-- The verification of the current credentials, src/wh_auth_base.c:1043-1106. -/
def checkCurrent (cfg : Cfg) (s : St) (i : Nat) (current : List UInt8) : Rc × St :=
  let u := s.users i
  if u.credLen > 0 then
    if current = [] then (.access, s)
    else match loadCred cfg s i with
      | ((.ok, stored), s') =>
        if stored.length ≠ u.credLen then (.access, s')
        else if u.method = mPin ∧ cfg.noCrypto = false then
          match hashPin cfg current with
          | .error rc => (rc, s')
          | .ok h => if u.credLen ≠ 32 ∨ stored.take 32 ≠ h then (.access, s') else (.ok, s')
        else if u.credLen ≠ current.length ∨ stored ≠ current then (.access, s')
        else (.ok, s')
      | ((_, _), s') => (.access, s')
  else if current ≠ [] then (.badargs, s)
  else (.ok, s)

/-- `wh_Auth_BaseUserSetCredentials`, src/wh_auth_base.c:984-1155; empty lists stand for
absent credentials. -/
def baseSetCred (cfg : Cfg) (s : St) (cur id : UInt16) (method : UInt16)
    (current new : List UInt8) : Rc × St :=
  if badId id then (.badargs, s)
  else if badId cur then (.badargs, s)
  else if cur ≠ id ∧ tableAdmin s cur = false then (.access, s)
  else if cfg.methodOk method = false then (.badargs, s)
  else
    let i := slotOf id
    let old := s.users i
    if old.id = 0 then (.notfound, s)
    else if new.length > maxCred then (.bufferSize, s)
    else match checkCurrent cfg s i current with
      | (.ok, s1) =>
        if new ≠ [] then
          match makeBlob cfg method new with
          | .error rc => (rc, s1)
          | .ok blob =>
            match persistCred cfg s1 i method blob with
            | (.ok, s2) =>
              (.ok, { s2 with users := upd s2.users i { s2.users i with method := method,
                                                                        credLen := blob.length } })
            | (rc, s2) => (rc, s2)
        else if old.credLen > 0 then
          match destroyCred cfg s1 i with
          | (.ok, s2) =>
            (.ok, { s2 with users := upd s2.users i { s2.users i with method := mNone,
                                                                      credLen := 0 } })
          | (rc, s2) => (rc, s2)
        else (.ok, s1)
      | (rc, s1) => (rc, s1)

/-! ## The authentication manager, src/wh_auth.c -/

/-- `wh_Auth_Login`, src/wh_auth.c:119-158, on context `x`; second result: `loggedIn`. -/
def login (cfg : Cfg) (s : St) (x : Nat) (method : UInt16) (name data : List UInt8) :
    (Rc × Bool) × St :=
  if s.up = false then ((.badargs, false), s)
  else if (s.sess x).id ≠ 0 then ((.ok, false), s)
  else match baseLogin cfg s method name data with
    | ((.ok, some i), s') =>
      ((.ok, true), { s' with sess := upd s'.sess x ⟨(s'.users i).id, (s'.users i).perms⟩ })
    | ((rc, _), s') => ((rc, false), s')

/-- `wh_Auth_Logout`, src/wh_auth.c:161-184. -/
def logout (s : St) (x : Nat) (id : UInt16) : Rc × St :=
  if s.up = false then (.badargs, s)
  else match baseLogout s (s.sess x).id id with
    | (.ok, s') =>
      (.ok, if id = (s.sess x).id then { s' with sess := upd s'.sess x Session.none } else s')
    | (rc, s') => (rc, s')

/-- `wh_Auth_Reset`, src/wh_auth.c:189-203. -/
def reset (s : St) (x : Nat) : St := { s with sess := upd s.sess x Session.none }

/-- End of a connection: `wh_Server_SetConnected`, src/wh_server.c:199-231, and the stale
session handling of `wh_Server_Init`, src/wh_server.c:146-165. -/
def disconnect (s : St) (x : Nat) : St :=
  if (s.sess x).id ≠ 0 then reset (logout s x (s.sess x).id).2 x else s

/-- Is the action bit set?  `WH_AUTH_ACTION_TO_WORD_AND_BITMASK` and the test of
src/wh_auth.c:250-270. -/
def actionBit (p : Perms) (g : Nat) (action : UInt16) : Bool :=
  decide (action.toNat < 256) &&
    ((p.word g (action.toNat / 32) &&& ((1 : UInt32) <<< UInt32.ofNat (action.toNat % 32))) != 0)

/-- Message groups used by the authorisation check, wolfhsm/wh_message.h. -/
def gComm : UInt16 := 0x0100
def gAuth : UInt16 := 0x0D00

/-- `wh_Auth_CheckRequestAuthorization`, src/wh_auth.c:208-286. -/
def checkRequest (cfg : Cfg) (s : St) (x : Nat) (group action : UInt16) : Rc :=
  if s.up = false then .badargs
  else
    let u := s.sess x
    let rc : Rc :=
      if u.id = 0 then
        if group = gComm ∨ (group = gAuth ∧ action = 0) then .ok else .access
      else if group = gAuth ∧ action = 1 then .ok
      else
        let g := (group >>> 8).toNat % 256
        if g ≥ nGroups then .access
        else if u.perms.group g ≠ 0 then
          if actionBit u.perms g action then .ok else .access
        else .access
    match cfg.override with
    | none => rc
    | some f => f rc u.id group action

/-- `wh_Auth_CheckKeyAuthorization`, src/wh_auth.c:290-330, without its optional
callback.  No request handler calls it. -/
def checkKey (s : St) (x : Nat) (keyId : UInt32) : Rc :=
  if s.up = false then .badargs
  else if (s.sess x).id = 0 then .access
  else if (List.range (s.sess x).perms.count).any fun k => (s.sess x).perms.keyId k == keyId then .ok
  else .access

/-- The subset check of `wh_Auth_UserAdd`, src/wh_auth.c:358-414. -/
def subsetOk (caller new : Perms) : Bool :=
  !new.isAdmin &&
  ((List.range nGroups).all fun g =>
    (new.group g == 0 || caller.group g != 0) &&
    (List.range nWords).all fun w => (new.word g w &&& ~~~(caller.word g w)) == 0) &&
  ((List.range new.count).all fun k =>
    (List.range caller.count).any fun c => caller.keyId c == new.keyId k)

/-- `wh_Auth_UserAdd`, src/wh_auth.c:344-437. -/
def userAdd (cfg : Cfg) (s : St) (x : Nat) (name : List UInt8) (p : Perms) (method : UInt16)
    (cred : List UInt8) : (Rc × UInt16) × St :=
  if s.up = false then ((.badargs, 0), s)
  else if (s.sess x).perms.isAdmin then baseAdd cfg s name p method cred
  else if subsetOk (s.sess x).perms p = false then ((.authPermissionError, 0), s)
  else if cred = [] then ((.authPermissionError, 0), s)
  else baseAdd cfg s name p method cred

/-- `wh_Auth_UserDelete`, src/wh_auth.c:440-457. -/
def userDelete (cfg : Cfg) (s : St) (x : Nat) (id : UInt16) : Rc × St :=
  if s.up = false then (.badargs, s) else baseDelete cfg s (s.sess x).id id

/-- `wh_Auth_UserSetPermissions`, src/wh_auth.c:460-487; the session keeps the caller's
permission set, not the clamped one. -/
def setPerms (cfg : Cfg) (s : St) (x : Nat) (id : UInt16) (p : Perms) : Rc × St :=
  if s.up = false then (.badargs, s)
  else match baseSetPerms cfg s (s.sess x).id id p with
    | (.ok, s') =>
      (.ok, if id = (s.sess x).id ∧ (s.sess x).id ≠ 0 then
              { s' with sess := upd s'.sess x { s'.sess x with perms := p } }
            else s')
    | (rc, s') => (rc, s')

/-- `wh_Auth_UserGet`, src/wh_auth.c:489-507. -/
def userGet (s : St) (x : Nat) (name : List UInt8) : Rc × Option (UInt16 × Perms) :=
  if s.up = false then (.badargs, none) else baseGet s (s.sess x).id name

/-- `wh_Auth_UserSetCredentials`, src/wh_auth.c:509-535. -/
def setCred (cfg : Cfg) (s : St) (x : Nat) (id : UInt16) (method : UInt16)
    (current new : List UInt8) : Rc × St :=
  if s.up = false then (.badargs, s) else baseSetCred cfg s (s.sess x).id id method current new

end WolfHsm.Auth

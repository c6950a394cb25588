import Verif.Model.Auth
import Verif.Model.Lock

/-!
# Requests of the authentication manager in parallel threads

The users are one static table (src/wh_auth_base.c:60), whichever authentication context a connection uses.
-/

namespace WolfHsm.AuthThreads

open Auth
open Lock (Prog)

/-- A request on one connection. -/
inductive Req where
  | login (method : UInt16) (name data : List UInt8)
  | logout (id : UInt16)
  | delete (id : UInt16)
  | setPerms (id : UInt16) (p : Perms)
  | setCred (id method : UInt16) (current new : List UInt8)
  | add (name : List UInt8) (p : Perms) (method : UInt16) (cred : List UInt8)
  | get (name : List UInt8)
  | allowed (group action : UInt16)
  | keyAllowed (keyId : UInt32)
  | reset

/-- Result; logged in; user and permissions, of a user added or looked up. -/
abbrev Ans := Rc × Bool × Option (UInt16 × Option Perms)

/-- The check of the credentials, the `switch` of `wh_Auth_BaseLogin`, src/wh_auth_base.c:643-658.  It is one access here. -/
def check (cfg : Cfg) (s : St) (method : UInt16) (name data : List UInt8) : (Rc × Option Nat) × St :=
  if method = mPin then checkPin cfg s name data
  else if method = mCert ∧ cfg.certLogin = true then checkCert cfg s name data
  else ((.badargs, none), s)

/-- `wh_Auth_Login` under its lock, src/wh_auth.c:137-157, with `wh_Auth_BaseLogin`, src/wh_auth_base.c:627-677: look at the session,
check the credentials, look at `is_active`, set it, set the session.  That the context has callbacks (line 132) is looked at under the
lock here; they do not change while requests run. -/
def loginProg (cfg : Cfg) (x : Nat) (method : UInt16) (name data : List UInt8) : Prog St Ans :=
  .guarded (fun rc => (rc, false, none)) <|
    .access id fun s =>
      if s.up = false then .unlock (.ret (.badargs, false, none))
      else if (s.sess x).id ≠ 0 then .unlock (.ret (.ok, false, none))
      else .call (fun s => check cfg s method name data) fun r => match r with
        | (.ok, some i) => .access id fun s =>
          if (s.users i).active then .unlock (.ret (.ok, false, none))
          else
            .access (fun s => { s with users := upd s.users i { s.users i with active := true } }) fun _ =>
            .access (fun s => { s with sess := upd s.sess x ⟨(s.users i).id, (s.users i).perms⟩ }) fun _ =>
            .unlock (.ret (.ok, true, none))
        | (rc, _) => .unlock (.ret (rc, false, none))

/-- `wh_Auth_Logout` under its lock, src/wh_auth.c:170-183, with `wh_Auth_BaseLogout`: change the table, then the session. -/
def logoutProg (x : Nat) (id : UInt16) : Prog St Ans :=
  .guarded (fun rc => (rc, false, none)) <|
    .access (fun s => s) fun s =>
      if s.up = false then .unlock (.ret (.badargs, false, none))
      else .call (fun s => baseLogout s (s.sess x).id id) fun rc => match rc with
        | .ok => .access (fun s => if id = (s.sess x).id then { s with sess := upd s.sess x Session.none } else s) fun _ =>
          .unlock (.ret (.ok, false, none))
        | rc => .unlock (.ret (rc, false, none))

/-- `wh_Auth_UserDelete` under its lock, src/wh_auth.c:449-455, with `wh_Auth_BaseUserDelete`, src/wh_auth_base.c:844-894: look at the
users, clear the entry, store the index, destroy the credential, and put the entry back if that fails.  The backup is a
static variable (line 869) and is a value here. -/
def deleteProg (cfg : Cfg) (x : Nat) (id : UInt16) : Prog St Ans :=
  .guarded (fun rc => (rc, false, none)) <|
    .access (fun s => s) fun s =>
      let i := slotOf id
      let backup := s.users i
      if s.up = false then .unlock (.ret (.badargs, false, none))
      else if badId id then .unlock (.ret (.notfound, false, none))
      else if badId (s.sess x).id then .unlock (.ret (.badargs, false, none))
      else if tableAdmin s (s.sess x).id = false then .unlock (.ret (.access, false, none))
      else if backup.id = 0 then .unlock (.ret (.notfound, false, none))
      else .access (fun s => { s with users := upd s.users i Slot.empty }) fun _ =>
        .call (persistIndex cfg) fun rc => match rc with
          | .ok =>
            if backup.credLen > 0 then
              .call (fun s => destroyCred cfg s i) fun rc => match rc with
                | .ok => .unlock (.ret (.ok, false, none))
                | rc => .access (fun s => { s with users := upd s.users i backup }) fun _ =>
                  .call (persistIndex cfg) fun _ => .unlock (.ret (rc, false, none))
            else .unlock (.ret (.ok, false, none))
          | rc => .access (fun s => { s with users := upd s.users i backup }) fun _ => .unlock (.ret (rc, false, none))

/-- `wh_Auth_UserSetPermissions` under its lock, src/wh_auth.c:470-486, with `wh_Auth_BaseUserSetPermissions`,
src/wh_auth_base.c:896-945: look at the users, change the entry, store the index, undo the change if that fails; then the session. -/
def setPermsProg (cfg : Cfg) (x : Nat) (id : UInt16) (p : Perms) : Prog St Ans :=
  .guarded (fun rc => (rc, false, none)) <|
    .access (fun s => s) fun s =>
      let i := slotOf id
      let old := s.users i
      if s.up = false then .unlock (.ret (.badargs, false, none))
      else if badId id then .unlock (.ret (.notfound, false, none))
      else if badId (s.sess x).id then .unlock (.ret (.notfound, false, none))
      else if tableAdmin s (s.sess x).id = false then .unlock (.ret (.access, false, none))
      else if old.id = 0 then .unlock (.ret (.notfound, false, none))
      else .access (fun s => { s with users := upd s.users i { old with perms := p.clamp } }) fun _ =>
        .call (persistIndex cfg) fun rc => match rc with
          | .ok => .access (fun s => if id = (s.sess x).id ∧ (s.sess x).id ≠ 0 then
                { s with sess := upd s.sess x { s.sess x with perms := p } } else s) fun _ => .unlock (.ret (.ok, false, none))
          | rc => .access (fun s => { s with users := upd s.users i old }) fun _ => .unlock (.ret (rc, false, none))

/-- `wh_Auth_UserSetCredentials` under its lock, src/wh_auth.c:523-532, with `wh_Auth_BaseUserSetCredentials`,
src/wh_auth_base.c:984-1155: look at the users, compare with the stored credential, store or destroy it, change the entry.  The buffer
for credentials is a static variable and is a value here; comparing is one access. -/
def setCredProg (cfg : Cfg) (x : Nat) (id method : UInt16) (current new : List UInt8) : Prog St Ans :=
  .guarded (fun rc => (rc, false, none)) <|
    .access (fun s => s) fun s =>
      let i := slotOf id
      let old := s.users i
      if s.up = false then .unlock (.ret (.badargs, false, none))
      else if badId id then .unlock (.ret (.badargs, false, none))
      else if badId (s.sess x).id then .unlock (.ret (.badargs, false, none))
      else if (s.sess x).id ≠ id ∧ tableAdmin s (s.sess x).id = false then .unlock (.ret (.access, false, none))
      else if cfg.methodOk method = false then .unlock (.ret (.badargs, false, none))
      else if old.id = 0 then .unlock (.ret (.notfound, false, none))
      else if new.length > maxCred then .unlock (.ret (.bufferSize, false, none))
      else .call (fun s => checkCurrent cfg s i current) fun rc => match rc with
        | .ok =>
          if new ≠ [] then
            match makeBlob cfg method new with
            | .error rc => .unlock (.ret (rc, false, none))
            | .ok blob => .call (fun s => persistCred cfg s i method blob) fun rc => match rc with
              | .ok => .access (fun s => { s with users := upd s.users i { s.users i with method := method, credLen := blob.length } })
                  fun _ => .unlock (.ret (.ok, false, none))
              | rc => .unlock (.ret (rc, false, none))
          else if old.credLen > 0 then
            .call (fun s => destroyCred cfg s i) fun rc => match rc with
              | .ok => .access (fun s => { s with users := upd s.users i { s.users i with method := mNone, credLen := 0 } })
                  fun _ => .unlock (.ret (.ok, false, none))
              | rc => .unlock (.ret (rc, false, none))
          else .unlock (.ret (.ok, false, none))
        | rc => .unlock (.ret (rc, false, none))

/-- The end of `wh_Auth_BaseUserAdd`, src/wh_auth_base.c:829-841: store the index; if that fails destroy the credential and clear the
entry. -/
def addEnd (cfg : Cfg) (i : Nat) : Prog St Ans :=
  .access (fun s => s) fun s =>
    .call (persistIndex cfg) fun rc => match rc with
      | .ok => .unlock (.ret (.ok, false, some (UInt16.ofNat (i + 1), none)))
      | rc =>
        if (s.users i).credLen > 0 then
          .call (fun s => destroyCred cfg s i) fun _ =>
            .access (fun s => { s with users := upd s.users i Slot.empty }) fun _ => .unlock (.ret (rc, false, none))
        else .access (fun s => { s with users := upd s.users i Slot.empty }) fun _ => .unlock (.ret (rc, false, none))

/-- `wh_Auth_UserAdd` under its lock, src/wh_auth.c:356-436, with `wh_Auth_BaseUserAdd`, src/wh_auth_base.c:706-842: look at the
session and the users, store the credential, fill the entry, and the end. -/
def addProg (cfg : Cfg) (x : Nat) (name : List UInt8) (p : Perms) (method : UInt16) (cred : List UInt8) : Prog St Ans :=
  .guarded (fun rc => (rc, false, none)) <|
    .access (fun s => s) fun s =>
      if s.up = false then .unlock (.ret (.badargs, false, none))
      else if (s.sess x).perms.isAdmin = false ∧ (subsetOk (s.sess x).perms p = false ∨ cred = []) then
        .unlock (.ret (.authPermissionError, false, none))
      else if cred ≠ [] ∧ cfg.methodOk method = false then .unlock (.ret (.badargs, false, none))
      else if (findUser s name).isSome then .unlock (.ret (.badargs, false, none))
      else match freeSlot s with
        | none => .unlock (.ret (.bufferSize, false, none))
        | some i =>
          let u : Slot := ⟨UInt16.ofNat (i + 1), name.take maxName, p.clamp, false, mNone, 0⟩
          if cred = [] then .access (fun s => { s with users := upd s.users i u }) fun _ => addEnd cfg i
          else match makeBlob cfg method cred with
            | .error rc => .unlock (.ret (rc, false, none))
            | .ok blob => .call (fun s => persistCred cfg s i method blob) fun rc => match rc with
              | .ok => .access (fun s => { s with users := upd s.users i { u with method := method, credLen := blob.length } })
                  fun _ => addEnd cfg i
              | rc => .unlock (.ret (rc, false, none))

/-- `wh_Auth_UserGet` under its lock, src/wh_auth.c:498-506, with `wh_Auth_BaseUserGet`, src/wh_auth_base.c:948-981.  Looking at the
users is one access. -/
def getProg (x : Nat) (name : List UInt8) : Prog St Ans :=
  .guarded (fun rc => (rc, false, none)) <|
    .access (fun s => s) fun s =>
      if s.up = false then .unlock (.ret (.badargs, false, none))
      else match baseGet s (s.sess x).id name with
        | (rc, some (id, p)) => .unlock (.ret (rc, false, some (id, some p)))
        | (rc, none) => .unlock (.ret (rc, false, none))

/-- `wh_Auth_CheckRequestAuthorization` under its lock, src/wh_auth.c:219-283.  Looking at the session is one access, and the
optional callback is a function of what it is given. -/
def allowedProg (cfg : Cfg) (x : Nat) (group action : UInt16) : Prog St Ans :=
  .guarded (fun rc => (rc, false, none)) <|
    .access (fun s => s) fun s => .unlock (.ret (checkRequest cfg s x group action, false, none))

/-- `wh_Auth_CheckKeyAuthorization` under its lock, src/wh_auth.c:302-330, without its optional callback.  Looking at the session is one
access. -/
def keyAllowedProg (x : Nat) (keyId : UInt32) : Prog St Ans :=
  .guarded (fun rc => (rc, false, none)) <|
    .access (fun s => s) fun s => .unlock (.ret (checkKey s x keyId, false, none))

/-- `wh_Auth_Reset`, src/wh_auth.c:197-202. -/
def resetProg (x : Nat) : Prog St Ans :=
  .guarded (fun rc => (rc, false, none)) <|
    .access (fun s => { s with sess := upd s.sess x Session.none }) fun _ => .unlock (.ret (.ok, false, none))

/-- What connection `x` does. -/
def prog (cfg : Cfg) (x : Nat) : Req → Prog St Ans
  | .login m n d => loginProg cfg x m n d
  | .logout id => logoutProg x id
  | .delete id => deleteProg cfg x id
  | .setPerms id p => setPermsProg cfg x id p
  | .setCred id m c n => setCredProg cfg x id m c n
  | .add n p m c => addProg cfg x n p m c
  | .get n => getProg x n
  | .allowed g a => allowedProg cfg x g a
  | .keyAllowed k => keyAllowedProg x k
  | .reset => resetProg x

end WolfHsm.AuthThreads

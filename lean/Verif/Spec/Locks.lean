import Verif.Model.Locks

/-!
# Which locks are taken while which are held (C69)
-/

namespace WolfHsm.Locks

variable {S A R : Type}

/-- The places where the code takes a lock: what it holds already (the lock taken last), and what it takes.

* nothing, authentication: src/wh_auth.c:137, 170, 197, 219, 302, 356, 449, 470, 499, 523
* nothing, NVM: `WH_SERVER_NVM_LOCK` in all handlers, e.g. src/wh_server_nvm.c:161
* nothing, verify cache: src/wh_server_cert.c:171, 207, 248, 275, 307, 412
* authentication, NVM: src/wh_auth_base.c:160, 215, 250, 283, 314, 339
* NVM, hardware key store: src/wh_server_keystore.c:1457 from the wrap requests, src/wh_server_keystore.c:3327-3599
* NVM, verify cache: the same places of src/wh_server_cert.c from its handlers, src/wh_server_cert.c:941-1540 -/
def site : Option Kind → Kind → Bool
  | none, .auth => true
  | none, .nvm => true
  | none, .cache => true
  | some .auth, .nvm => true
  | some .nvm, .hw => true
  | some .nvm, .cache => true
  | _, _ => false

/-- All locks are taken at such places. -/
def Work.Conforms : Option Kind → Work S A → Prop
  | _, .done _ => True
  | c, .access _ k => ∀ s, (k s).Conforms c
  | c, .locked l w k => site c l.kind = true ∧ w.Conforms (some l.kind) ∧ ∀ x, (k x).Conforms c

/-- The thread cannot go on: its next step is to take a lock that is held. -/
def World.Waits (w : World R S A) (t : Nat) : Prop :=
  ∃ l k, (w.threads t).cur = some (.lock l k) ∧ w.owner l ≠ none

/-- The thread has something to do. -/
def World.Busy (w : World R S A) (t : Nat) : Prop := (w.threads t).cur ≠ none ∨ (w.threads t).todo ≠ []

end WolfHsm.Locks

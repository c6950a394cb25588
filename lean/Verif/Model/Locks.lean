import Verif.Model.Basic
import Verif.Model.Lock

/-!
# Several locks

The locks of the authentication manager, the NVM, the hardware key store and the verify cache, taken by server contexts in
parallel threads, one inside the other.  Locks are set up with callbacks, and the mutex is not recursive
(`wh_Lock_Acquire`, `wh_Lock_Release`, src/wh_lock.c:87-125, port/posix/posix_lock.c:97-155; C46 models these functions in full).
What the code does while it holds a lock is any sequence of accesses to the shared state.
-/

namespace WolfHsm.Locks

/-- What a lock protects. -/
inductive Kind where
  /-- `whAuthContext.lock`, wolfhsm/wh_auth.h:213 -/
  | auth
  /-- `whNvmContext.lock` -/
  | nvm
  /-- `whHwKeystoreContext.lock`, src/wh_hwkeystore.c:124 -/
  | hw
  /-- `whCertVerifyCacheContext.lock`, src/wh_server_cert.c:69-78 -/
  | cache
deriving DecidableEq, Repr

/-- A lock: there may be several of a kind, one in each context object. -/
structure Lk where
  kind : Kind
  no : Nat
deriving DecidableEq, Repr

/-- What a request does: it ends with an answer, accesses the shared state, or takes a lock, works, and releases it; a lock that
cannot be taken gives an error instead. -/
inductive Work (S A : Type) where
  | done (a : A)
  | access (f : S → S) (k : S → Work S A)
  | locked (l : Lk) (w : Work S A) (k : Except Rc A → Work S A)

/-- The same as single steps. -/
inductive Prog (S A : Type) where
  | ret (a : A)
  | access (f : S → S) (k : S → Prog S A)
  | lock (l : Lk) (k : Rc → Prog S A)
  | unlock (l : Lk) (p : Prog S A)

variable {S A R : Type}

/-- The pattern `rc = LOCK(); if (rc == OK) { ...; (void)UNLOCK(); }`, e.g. src/wh_auth.c:137-157, src/wh_auth_base.c:215-219,
src/wh_server_nvm.c:161-168, src/wh_server_cert.c:171-187, src/wh_hwkeystore.c:124-143; `k` is what is left to do. -/
def Work.steps : Work S A → (A → Prog S A) → Prog S A
  | .done a, k => k a
  | .access f w, k => .access f fun s => (w s).steps k
  | .locked l w n, k => .lock l fun rc => match rc with
    | .ok => w.steps fun a => .unlock l ((n (.ok a)).steps k)
    | rc => (n (.error rc)).steps k

/-- A program of C46 (`Model/Lock.lean`), whose one lock is `l`, step by step. -/
def ofProg (l : Lk) : Lock.Prog S A → Prog S A
  | .ret a => .ret a
  | .lock k => .lock l fun rc => ofProg l (k rc)
  | .unlock p => .unlock l (ofProg l p)
  | .access f k => .access f fun s => ofProg l (k s)

/-- What such a program does between lock and unlock. -/
def bodyOf : Lock.Prog S A → Work S A
  | .ret a => .done a
  | .lock k => bodyOf (k .aborted)
  | .unlock p => bodyOf p
  | .access f k => .access f fun s => bodyOf (k s)

/-- Such a program as `Work`; for those of the handlers it has the same steps as `ofProg`, see `C69_handler_steps`. -/
def workOf (l : Lk) : Lock.Prog S A → Work S A
  | .lock k => .locked l (bodyOf (k .ok)) fun x => match x with
    | .ok a => .done a
    | .error rc => bodyOf (k rc)
  | p => bodyOf p

/-- A request with its authorization check, src/wh_server.c:585-615: the check `check` runs under the authentication lock
(src/wh_auth.c:219-286) and is over before the handler starts; the handler is a program of C46 with the NVM lock.
`check` gives an answer that refuses, or `none`; `refuse`: the answer when the lock cannot be taken. -/
def request (auth nvm : Nat) (check : Work S (Option A)) (refuse : Rc → A) (p : Lock.Prog S (Option A)) : Work S (Option A) :=
  .locked ⟨.auth, auth⟩ check fun x => match x with
    | .ok none => workOf ⟨.nvm, nvm⟩ p
    | .ok (some a) => .done (some a)
    | .error rc => .done (some (refuse rc))

/-- A server context: the requests it will receive, the one it works on, and the answers it has given. -/
structure Thread (R S A : Type) where
  todo : List R
  cur : Option (Prog S A)
  answers : List A

structure World (R S A : Type) where
  shared : S
  owner : Lk → Option Nat
  threads : Nat → Thread R S A

def World.set (w : World R S A) (t : Nat) (th : Thread R S A) : World R S A :=
  { w with threads := fun u => if u = t then th else w.threads u }

/-- Thread `t` does its next step, or waits if that is to take a lock that somebody holds, be it itself.  `fault`: the attempt
to lock fails, port/posix/posix_lock.c:112-121. -/
def step (prog : Nat → R → Work S A) (w : World R S A) (e : Nat × Option Rc) : World R S A :=
  let t := e.1
  let th := w.threads t
  match th.cur with
  | none =>
    match th.todo with
    | [] => w
    | r :: rs => w.set t { th with todo := rs, cur := some ((prog t r).steps .ret) }
  | some (.ret a) => w.set t { th with cur := none, answers := th.answers ++ [a] }
  | some (.access f k) => { w.set t { th with cur := some (k w.shared) } with shared := f w.shared }
  | some (.lock l k) =>
    match e.2 with
    | some rc => w.set t { th with cur := some (k (if rc = .ok then .aborted else rc)) }
    | none =>
      match w.owner l with
      | some _ => w
      | none => { w.set t { th with cur := some (k .ok) } with owner := fun x => if x = l then some t else w.owner x }
  | some (.unlock l p) =>
    { w.set t { th with cur := some p } with owner := fun x => if x = l then none else w.owner x }

def run (prog : Nat → R → Work S A) (w : World R S A) (es : List (Nat × Option Rc)) : World R S A := es.foldl (step prog) w

/-- Nothing done yet. -/
def start (s : S) (todo : Nat → List R) : World R S A := ⟨s, fun _ => none, fun t => ⟨todo t, none, []⟩⟩

end WolfHsm.Locks

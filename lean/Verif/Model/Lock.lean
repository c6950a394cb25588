import Verif.Model.Basic

/-!
# The lock around the shared NVM state

`src/wh_lock.c`, `port/posix/posix_lock.c`, `wh_Server_NvmLock`/`NvmUnlock` of
`src/wh_server.c`, and server contexts running in parallel threads.

A request handler is a program (`Prog`): it locks, accesses the state shared by all contexts,
unlocks and answers.  Between any two of these steps every other thread may run.
-/

namespace WolfHsm.Lock

/-- `whLock` (wolfhsm/wh_lock.h:90-95) with `posixLockContext` (port/posix/posix_lock.h:46-49)
behind it. -/
structure Lock where
  /-- `lock->initialized` -/
  init : Bool
  /-- `lock->cb != NULL` with acquire and release callbacks -/
  cb : Bool
  /-- `posixLockContext.initialized` -/
  ready : Bool
  /-- mutex type `PTHREAD_MUTEX_ERRORCHECK` (configured by the attributes) -/
  errCheck : Bool
  /-- the thread holding the mutex -/
  owner : Option Nat
deriving DecidableEq

/-- A zeroed `whLock`. -/
def Lock.zero (errCheck : Bool) : Lock := ⟨false, false, false, errCheck, none⟩

/-- `wh_Lock_Init`, src/wh_lock.c:37-69, with `posixLock_Init`, port/posix/posix_lock.c:38-69.
`cb`: a configuration with callbacks is given; `mutexInit`: result of `pthread_mutex_init`
mapped by lines 60-65. -/
def Lock.start (l : Lock) (cb : Bool) (mutexInit : Rc) : Rc × Lock :=
  if !cb then (.ok, { l with cb := false, init := true })
  else if l.ready then (.ok, { l with cb := true, init := true })
  else if mutexInit ≠ .ok then (mutexInit, { l with cb := false })
  else (.ok, { l with cb := true, ready := true, init := true, owner := none })

/-- `wh_Lock_Cleanup`, src/wh_lock.c:71-85, with `posixLock_Cleanup`,
port/posix/posix_lock.c:71-95; `mutexDestroy`: did `pthread_mutex_destroy` succeed. -/
def Lock.cleanup (l : Lock) (mutexDestroy : Bool) : Rc × Lock :=
  (.ok, { l with init := false, cb := false, ready := l.ready && !(l.cb && mutexDestroy) })

/-- What a call of `wh_Lock_Acquire` does. -/
inductive Acq where
  | returns (rc : Rc) (l : Lock)
  /-- the thread waits inside `pthread_mutex_lock` -/
  | waits

/-- `wh_Lock_Acquire`, src/wh_lock.c:87-105, with `posixLock_Acquire`,
port/posix/posix_lock.c:97-125, called by thread `t`.  `fault`: `pthread_mutex_lock` reports
this error (already mapped by lines 112-121) instead of locking. -/
def Lock.acquire (l : Lock) (t : Nat) (fault : Option Rc) : Acq :=
  if !l.init then .returns .badargs l
  else if !l.cb then .returns .ok l
  else if !l.ready then .returns .notready l
  else match fault with
    | some rc => .returns (if rc = .ok then .aborted else rc) l
    | none =>
      match l.owner with
      | none => .returns .ok { l with owner := some t }
      | some u => if l.errCheck && u == t then .returns .aborted l else .waits

/-- `wh_Lock_Release`, src/wh_lock.c:107-125, with `posixLock_Release`,
port/posix/posix_lock.c:127-155.  `none`: undefined behaviour, a normal mutex unlocked by a
thread that does not hold it. -/
def Lock.release (l : Lock) (t : Nat) : Option (Rc × Lock) :=
  if !l.init then some (.badargs, l)
  else if !l.cb then some (.ok, l)
  else if !l.ready then some (.notready, l)
  else if l.owner = some t then some (.ok, { l with owner := none })
  else if l.errCheck then some (.locked, l)
  else none

/-- `WH_SERVER_NVM_LOCK`: `wh_Server_NvmLock`, src/wh_server.c:759-769.  `nvm`: the server has an NVM
context. -/
def nvmLock (nvm : Bool) (l : Lock) (t : Nat) (fault : Option Rc) : Acq :=
  if !nvm then .returns .ok l else l.acquire t fault

/-- `WH_SERVER_NVM_UNLOCK`: `wh_Server_NvmUnlock`, src/wh_server.c:771-781.  The handlers ignore its
result. -/
def nvmUnlock (nvm : Bool) (l : Lock) (t : Nat) : Option (Rc × Lock) :=
  if !nvm then some (.ok, l) else l.release t

/-! ## Handlers as programs -/

/-- A request handler over shared state `S` with answers `A`. -/
inductive Prog (S A : Type) where
  /-- return with an answer -/
  | ret (a : A)
  /-- `WH_SERVER_NVM_LOCK`, and what to do with its result -/
  | lock (k : Rc → Prog S A)
  /-- `WH_SERVER_NVM_UNLOCK` -/
  | unlock (p : Prog S A)
  /-- one access: change the shared state by `f`, go on knowing the state found -/
  | access (f : S → S) (k : S → Prog S A)

/-- An API call on the shared state whose result decides how to go on. -/
def Prog.call {S A X : Type} (f : S → X × S) (k : X → Prog S A) : Prog S A :=
  .access (fun s => (f s).2) fun s => k (f s).1

/-- The pattern of all handlers, e.g. src/wh_server_nvm.c:270-276: lock, work only if that
succeeded, unlock. -/
def Prog.guarded {S A : Type} (fail : Rc → A) (body : Prog S A) : Prog S A :=
  .lock fun rc => match rc with
    | .ok => body
    | rc => .ret (fail rc)

/-! ## Threads -/

/-- A server context: the requests it will receive, the handler it is executing (with the request
and whether its critical section is over), and the answers sent. -/
structure Thread (R S A : Type) where
  todo : List R
  cur : Option (R × Bool × Prog S A)
  answers : List A

/-- All server contexts, the lock, and the state they share. -/
structure World (R S A : Type) where
  shared : S
  lock : Lock
  threads : Nat → Thread R S A
  /-- ghost: requests in the order in which their critical sections ended, with the result of
  taking the lock -/
  log : List (Nat × R × Rc)
  /-- an access by a thread that does not hold the lock, or undefined behaviour of the mutex,
  has happened -/
  bad : Bool

variable {R S A : Type}

/-- Replace one thread. -/
def World.set (w : World R S A) (t : Nat) (th : Thread R S A) : World R S A :=
  { w with threads := fun u => if u = t then th else w.threads u }

/-- Thread `t` does its next step.  `prog t r`: the handler for request `r` at context `t`.
`fault`: error of `pthread_mutex_lock` if this step calls it. -/
def step (prog : Nat → R → Prog S A) (w : World R S A) (e : Nat × Option Rc) : World R S A :=
  let t := e.1
  let th := w.threads t
  match th.cur with
  | none =>
    match th.todo with
    | [] => w
    | r :: rs => w.set t { th with todo := rs, cur := some (r, false, prog t r) }
  | some (r, over, .ret a) =>
    let w' := w.set t { th with cur := none, answers := th.answers ++ [a] }
    if over then w' else { w' with log := w.log ++ [(t, r, .ok)] }
  | some (r, over, .lock k) =>
    match nvmLock true w.lock t e.2 with
    | .waits => w
    | .returns rc l =>
      if rc = .ok then { w.set t { th with cur := some (r, over, k .ok) } with lock := l }
      else { w.set t { th with cur := some (r, true, k rc) } with
        lock := l, log := w.log ++ [(t, r, rc)] }
  | some (r, _, .unlock p) =>
    match nvmUnlock true w.lock t with
    | none => { w with bad := true }
    | some (rc, l) => { w.set t { th with cur := some (r, true, p) } with
        lock := l, log := w.log ++ [(t, r, .ok)], bad := w.bad || rc != .ok }
  | some (r, over, .access f k) =>
    { w.set t { th with cur := some (r, over, k w.shared) } with
      shared := f w.shared, bad := w.bad || w.lock.owner != some t }

/-- A schedule: which thread runs next. -/
def run (prog : Nat → R → Prog S A) (w : World R S A) (es : List (Nat × Option Rc)) : World R S A :=
  es.foldl (step prog) w

end WolfHsm.Lock

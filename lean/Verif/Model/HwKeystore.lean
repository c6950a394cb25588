import Verif.Model.Lock

/-!
# The hardware key store front end

`src/wh_hwkeystore.c`: `Init`, `Cleanup` and `GetKey` around a backend of the port, with the lock of `src/wh_lock.c`.
Simplified: NULL pointers do not occur; the backend has `Init` and `Cleanup` callbacks (without one the front end does what
it does when the callback succeeds); built with `WOLFHSM_CFG_THREADSAFE`.
-/

namespace WolfHsm.HwKs

open Lock (Lock Prog Acq)

/-- The backend's `GetKey` (wolfhsm/wh_hwkeystore.h): any program that accesses the hardware and returns a result and the
bytes it has written to `out`. -/
inductive Backend (S : Type) where
  | done (rc : Rc) (key : List UInt8)
  | access (f : S → S) (k : S → Backend S)

/-- A call: key id and the room in `out`. -/
structure Ask where
  id : UInt16
  room : Nat
deriving DecidableEq

/-- Result and bytes in `out`. -/
structure Ans where
  rc : Rc
  key : List UInt8
deriving DecidableEq

variable {S : Type}

/-! ## Threads that ask for keys -/

/-- The backend's work and what follows it, src/wh_hwkeystore.c:130-143. -/
def inside : Backend S → Prog S Ans
  | .done rc key => .unlock (.ret ⟨rc, key⟩)
  | .access f k => .access f fun s => inside (k s)

/-- `wh_HwKeystore_GetKey`, src/wh_hwkeystore.c:112-144, on an initialized context.  The result of the release is kept by
`Lock.step`, which marks the world as bad when it is an error; so `rc` is the backend's. -/
def getKeyProg (b : Ask → Backend S) (a : Ask) : Prog S Ans :=
  .lock fun rc => match rc with
    | .ok => inside (b a)
    | rc => .ret ⟨rc, []⟩

/-! ## Setting up and closing -/

/-- `whHwKeystoreContext`: `cb` means that it is not NULL. -/
structure Ctx where
  initialized : Bool
  cb : Bool
  lock : Lock

/-- What the backend is called for. -/
inductive Used where
  | opened
  | closed
  | asked (a : Ask)
deriving DecidableEq

/-- The context, the hardware, and the calls of the backend so far (`opened`: an `Init` that succeeded). -/
structure State (S : Type) where
  ctx : Ctx
  hw : S
  used : List Used

/-- `memset`; the context of the mutex is not part of it, port/posix/posix_lock.h:46-49. -/
def Ctx.zero (c : Ctx) : Ctx := ⟨false, false, { c.lock with init := false, cb := false }⟩

/-- `wh_HwKeystore_Init`, src/wh_hwkeystore.c:39-81.  `mutex`: a lock is configured, and the result of setting up its mutex;
`backend`: result of the backend's `Init`; `destroyed`: the mutex could be destroyed. -/
def init (s : State S) (mutex : Option Rc) (backend : Rc) (destroyed : Bool) : Rc × State S :=
  let c : Ctx := { s.ctx.zero with cb := true }
  match c.lock.start mutex.isSome (mutex.getD .ok) with
  | (.ok, l) =>
    if backend ≠ .ok then
      (backend, { s with ctx := Ctx.zero { c with lock := (l.cleanup destroyed).2 } })
    else (.ok, { s with ctx := { c with lock := l, initialized := true }, used := s.used ++ [.opened] })
  | (rc, l) => (rc, { s with ctx := Ctx.zero { c with lock := l } })

/-- `wh_HwKeystore_Cleanup`, src/wh_hwkeystore.c:83-110; `backend`: result of the backend's `Cleanup`. -/
def cleanup (s : State S) (backend : Rc) (destroyed : Bool) : Rc × State S :=
  let l := s.ctx.lock.cleanup destroyed
  let rc := if s.ctx.cb then backend else .ok
  (if rc = .ok then l.1 else rc,
    { s with ctx := Ctx.zero { s.ctx with lock := l.2 }, used := if s.ctx.cb then s.used ++ [.closed] else s.used })

/-- The backend's `GetKey`, with nothing else going on. -/
def Backend.alone : Backend S → S → Ans × S
  | .done rc key, s => (⟨rc, key⟩, s)
  | .access f k, s => (k s).alone (f s)

/-- `wh_HwKeystore_GetKey`, src/wh_hwkeystore.c:112-144, called by the only thread there is (0); `none`: it waits for ever. -/
def getKey (b : Ask → Backend S) (s : State S) (a : Ask) (fault : Option Rc) : Option (Ans × State S) :=
  if !s.ctx.initialized || !s.ctx.cb then some (⟨.badargs, []⟩, s)
  else match s.ctx.lock.acquire 0 fault with
    | .waits => none
    | .returns .ok l =>
      let r := (b a).alone s.hw
      match l.release 0 with
      | none => none
      | some (rel, l) =>
        some (⟨if r.1.rc = .ok then rel else r.1.rc, r.1.key⟩,
          { ctx := { s.ctx with lock := l }, hw := r.2, used := s.used ++ [.asked a] })
    | .returns rc l => some (⟨rc, []⟩, { s with ctx := { s.ctx with lock := l } })

/-- Calls of the application. -/
inductive Ev where
  | init (mutex : Option Rc) (backend : Rc) (destroyed : Bool)
  | cleanup (backend : Rc) (destroyed : Bool)
  | getKey (a : Ask) (fault : Option Rc)
deriving DecidableEq

/-- One call; `none`: the thread hangs. -/
def call (b : Ask → Backend S) (s : State S) : Ev → Option (Ans × State S)
  | .init m r d => let x := init s m r d; some (⟨x.1, []⟩, x.2)
  | .cleanup r d => let x := cleanup s r d; some (⟨x.1, []⟩, x.2)
  | .getKey a f => getKey b s a f

/-- The results and the state at the end. -/
def calls (b : Ask → Backend S) : State S → List Ev → Option (List Ans × State S)
  | s, [] => some ([], s)
  | s, e :: es => do
    let r ← call b s e
    let t ← calls b r.2 es
    pure (r.1 :: t.1, t.2)

/-- A context that has not been used. -/
def fresh (hw : S) (errCheck : Bool) : State S := ⟨⟨false, false, Lock.zero errCheck⟩, hw, []⟩

end WolfHsm.HwKs

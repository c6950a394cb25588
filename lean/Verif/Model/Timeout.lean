import Verif.Model.Basic

/-!
# Response timeouts: `src/wh_timeout.c` over `port/posix/posix_timeout.c`

The clock is a parameter: every function that reads it takes the reading `now` (in
microseconds; 0 when `clock_gettime` fails, port/posix/posix_timeout.c:41-48).  The
NULL-pointer checks have no counterpart here.
-/

namespace WolfHsm

/-- `posixTimeoutContext`, port/posix/posix_timeout.h. -/
structure PosixTimer where
  initialized : Bool
  running : Bool
  startUs : UInt64
  timeoutUs : UInt64

namespace PosixTimer

/-- `posixTimeout_Init`, port/posix/posix_timeout.c:50-65. -/
def init (timeoutUs : UInt64) : PosixTimer := ⟨true, false, 0, timeoutUs⟩

/-- `posixTimeout_Set`, port/posix/posix_timeout.c:83-98. -/
def set (t : PosixTimer) (timeoutUs : UInt64) : Rc × PosixTimer :=
  if !t.initialized then (.badargs, t) else (.ok, { t with timeoutUs := timeoutUs })

/-- `posixTimeout_Start`, port/posix/posix_timeout.c:100-119. -/
def start (t : PosixTimer) (now : UInt64) : Rc × PosixTimer :=
  if !t.initialized then (.badargs, t)
  else if now = 0 then (.aborted, { t with startUs := 0 })
  else (.ok, { t with startUs := now, running := true })

/-- `posixTimeout_Stop`, port/posix/posix_timeout.c:121-137. -/
def stop (t : PosixTimer) : Rc × PosixTimer :=
  if !t.initialized then (.badargs, t) else (.ok, { t with startUs := 0, running := false })

/-- `posixTimeout_Expired`, port/posix/posix_timeout.c:139-165. -/
def expired (t : PosixTimer) (now : UInt64) : Rc × Bool :=
  if !t.initialized then (.badargs, false)
  else if !t.running || t.timeoutUs == 0 then (.ok, false)
  else if now = 0 then (.aborted, false)
  else (.ok, decide (now - t.startUs ≥ t.timeoutUs))

end PosixTimer

/-- `whTimeout`, wolfhsm/wh_timeout.h, with the POSIX callbacks or none (`cb == NULL`).
`expiredCb` is the application callback of line 172; it may change the verdict and,
through the timeout it is handed, the timer. -/
structure Timeout where
  initialized : Bool
  cb : Option PosixTimer
  expiredCb : Option (PosixTimer → Rc × Bool × PosixTimer)

namespace Timeout

/-- `wh_Timeout_Init`, src/wh_timeout.c:37-73. -/
def init (timeoutUs : Option UInt64) (expiredCb : Option (PosixTimer → Rc × Bool × PosixTimer)) :
    Timeout :=
  match timeoutUs with
  | none => ⟨true, none, none⟩
  | some us => ⟨true, some (PosixTimer.init us), expiredCb⟩

/-- `wh_Timeout_Start`, src/wh_timeout.c:112-128. -/
def start (t : Timeout) (now : UInt64) : Rc × Timeout :=
  if !t.initialized then (.badargs, t)
  else match t.cb with
    | none => (.ok, t)
    | some p => ((p.start now).1, { t with cb := some (p.start now).2 })

/-- `wh_Timeout_Stop`, src/wh_timeout.c:130-146; the callers ignore the result. -/
def stop (t : Timeout) : Timeout :=
  if !t.initialized then t
  else match t.cb with
    | none => t
    | some p => { t with cb := some p.stop.2 }

/-- `wh_Timeout_Expired`, src/wh_timeout.c:148-179.  An error (negative in C) is the first
component; otherwise the second says whether the period has passed.  Simplification: the
application callback sets the flag to 0 or 1. -/
def expired (t : Timeout) (now : UInt64) : Rc × Bool × Timeout :=
  match t.initialized, t.cb with
  | true, some p =>
    match p.expired now with
    | (.ok, true) =>
      match t.expiredCb with
      | some f =>
        match f p with
        | (.ok, b, p') => (.ok, b, { t with cb := some p' })
        | (rc, _, p') => (rc, false, { t with cb := some p' })
      | none => (.ok, true, t)
    | (.ok, false) => (.ok, false, t)
    | (rc, _) => (rc, false, t)
  | _, _ => (.ok, false, t)

end Timeout

end WolfHsm

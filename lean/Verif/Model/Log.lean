import Verif.Model.Basic

/-!
# `src/wh_log.c` and `port/posix/posix_log_file.c`

C strings are lists of bytes; `cstr` cuts at the first NUL.
-/

namespace WolfHsm.Log

/-- `whLogEntry`, wolfhsm/wh_log.h:45-57.  `level` is the value of the enumeration; `none` is NULL;
`msg` is the buffer of `WOLFHSM_CFG_LOG_MSG_MAX` bytes. -/
structure Entry where
  timestamp : UInt64
  level : Nat
  file : Option (List UInt8)
  function : Option (List UInt8)
  line : UInt32
  msgLen : Nat
  msg : List UInt8
deriving DecidableEq

/-- The bytes of a C string: up to the first NUL. -/
def cstr (b : List UInt8) : List UInt8 := b.takeWhile (· ≠ 0)

/-- `wh_Log_LevelToString`, src/wh_log.c:39-51. -/
def levelName (l : Nat) : List UInt8 :=
  if l = 0 then [73, 78, 70, 79]
  else if l = 1 then [69, 82, 82, 79, 82]
  else if l = 2 then [83, 69, 67, 69, 86, 69, 78, 84]
  else [85, 78, 75, 78, 79, 87, 78]

/-- `wh_Log_AddMsg`, src/wh_log.c:53-75: the entry it hands to `wh_Log_AddEntry`.  `max` is
`WOLFHSM_CFG_LOG_MSG_MAX`, `time` what `WH_GETTIME_US` says.  The initialiser of `entry` clears `msg`. -/
def addMsg (max : Nat) (time : UInt64) (level : Nat) (file function : Option (List UInt8)) (line : UInt32)
    (msg : Option (List UInt8)) (len : Nat) : Entry :=
  let maxLen := if max > 0 then max - 1 else 0
  let copy := if len < maxLen then len else maxLen
  let bytes := match msg with
    | none => []
    | some m => m.take copy
  ⟨time, level, file, function, line, copy, bytes ++ List.replicate (max - bytes.length) 0⟩

/-- `wh_Log_AddMsgF`, src/wh_log.c:77-105.  `ret` is what `vsnprintf` returns, `text` the whole
formatted text, of which it writes `max - 1` bytes and a NUL.  (`max` is the size of an array: not 0.) -/
def addMsgF (max : Nat) (time : UInt64) (level : Nat) (file function : Option (List UInt8)) (line : UInt32)
    (ret : Int) (text : List UInt8) : Entry :=
  let buf := text.take (max - 1) ++ List.replicate (max - (text.take (max - 1)).length) 0
  let len := if ret < 0 then 0 else if ret.toNat ≥ max then max - 1 else ret.toNat
  addMsg max time level file function line (some buf) len

/-! ## The log file -/

/-- Decimal digits, for `%llu` and `%u` in `snprintf`.  20 digits are enough for 64 bits. -/
def decF : Nat → Nat → List UInt8
  | 0, _ => []
  | f + 1, n => if n < 10 then [UInt8.ofNat (48 + n)] else decF f (n / 10) ++ [UInt8.ofNat (48 + n % 10)]

/-- Decimal digits of a number of at most 64 bits. -/
def dec (n : Nat) : List UInt8 := decF 20 n

/-- The line of an entry, port/posix/posix_log_file.c:133-139: `TIMESTAMP|LEVEL|FILE:LINE|FUNCTION|MESSAGE\n`.
`%.*s` writes at most `msg_len` bytes and stops at a NUL.  (`msg_len` is less than 2^31.) -/
def format (e : Entry) : List UInt8 :=
  dec e.timestamp.toNat ++ [124] ++ levelName e.level ++ [124] ++ cstr (e.file.getD []) ++ [58] ++
    dec e.line.toNat ++ [124] ++ cstr (e.function.getD []) ++ [124] ++ cstr (e.msg.take e.msgLen) ++ [10]

/-- `posixLogFileContext`, port/posix/posix_log_file.h:33-38, and the file. -/
structure Ctx where
  file : List UInt8
  initialized : Bool

/-- `posixLogFile_Init`, port/posix/posix_log_file.c:57-91.  `opens`: mutex and file could be had.  The
file keeps what is in it. -/
def init (c : Ctx) (opens : Bool) : Ctx × Rc :=
  if opens then ({ c with initialized := true }, .ok) else ({ c with initialized := false }, .aborted)

/-- `posixLogFile_Cleanup`, port/posix/posix_log_file.c:93-111. -/
def cleanup (c : Ctx) : Ctx × Rc := ({ c with initialized := false }, .ok)

/-- `posixLogFile_AddEntry`, port/posix/posix_log_file.c:113-157.  `lock`: the mutex could be taken;
`written`: what `write` returns, -1 as `none`. -/
def add (c : Ctx) (lock : Bool) (written : Option Nat) (e : Entry) : Ctx × Rc :=
  if !c.initialized then (c, .aborted)
  else if !lock then (c, .aborted)
  else if (format e).length ≥ 1024 then (c, .aborted)
  else
    match written with
    | none => (c, .aborted)
    | some n =>
      ({ c with file := c.file ++ (format e).take n },
        if n = (format e).length then .ok else .aborted)

/-- `posixLogFile_Clear`, port/posix/posix_log_file.c:315-349.  `trunc`: `ftruncate` worked; `seek`:
`lseek` did. -/
def clear (c : Ctx) (lock trunc seek : Bool) : Ctx × Rc :=
  if !c.initialized then (c, .aborted)
  else if !lock then (c, .aborted)
  else if !trunc then (c, .aborted)
  else ({ c with file := [] }, if seek then .ok else .aborted)

/-! ### Reading it back -/

/-- White space for `sscanf`. -/
def isSpace (b : UInt8) : Bool := b = 32 || (9 ≤ b && b ≤ 13)

/-- A decimal digit. -/
def isDigit (b : UInt8) : Bool := 48 ≤ b && b ≤ 57

/-- The value of digits. -/
def value (d : List UInt8) : Nat := d.foldl (fun n b => 10 * n + (b.toNat - 48)) 0

/-- The sign of a number. -/
def sign : List UInt8 → Bool × List UInt8
  | 45 :: s => (true, s)
  | 43 :: s => (false, s)
  | s => (false, s)

/-- `%llu` of `sscanf`: white space, a sign, digits; the value as `strtoull` has it, which is also what
glibc stores, cut to 32 bits, for `%u`.  (In C a value that does not fit is undefined behaviour.) -/
def number (s : List UInt8) : Option (UInt64 × List UInt8) :=
  let p := sign (s.dropWhile isSpace)
  let d := p.2.takeWhile isDigit
  if d = [] then none
  else
    let v := UInt64.ofNat (min (value d) (2 ^ 64 - 1))
    some (if p.1 then 0 - v else v, p.2.drop d.length)

/-- `%N[^c]` of `sscanf`: one to `N` bytes other than `c`. -/
def scanset (n : Nat) (stop : UInt8) (s : List UInt8) : Option (List UInt8 × List UInt8) :=
  let t := (s.take n).takeWhile (· ≠ stop)
  if t = [] then none else some (t, s.drop t.length)

/-- A byte of the format that is not a conversion. -/
def lit (c : UInt8) : List UInt8 → Option (List UInt8)
  | [] => none
  | x :: s => if x = c then some s else none

/-- `posixLogFile_StringToLevel`, port/posix/posix_log_file.c:43-55. -/
def levelOf (s : List UInt8) : Nat :=
  if s = levelName 0 then 0 else if s = levelName 1 then 1 else if s = levelName 2 then 2 else 0

/-- The entry the callback of `posixLogFile_Iterate` gets; the message is a C string of `msg_len` bytes. -/
structure Report where
  timestamp : UInt64
  level : Nat
  file : List UInt8
  function : List UInt8
  line : UInt32
  msg : List UInt8
deriving DecidableEq

/-- Parse a line, port/posix/posix_log_file.c:278-300.  `none`: fewer than 5 fields.  `junk` is the
C string in the array `msg_buf`, which nothing initialises: it is the message when the line has none.
(Only for `max ≥ 256` does the array hold what `sscanf` may store.) -/
def parse (max : Nat) (junk : List UInt8) (s : List UInt8) : Option Report :=
  (number s).bind fun (ts, s) => (lit 124 s).bind fun s =>
  (scanset 31 124 s).bind fun (lv, s) => (lit 124 s).bind fun s =>
  (scanset 255 58 s).bind fun (f, s) => (lit 58 s).bind fun s =>
  (number s).bind fun (ln, s) => (lit 124 s).bind fun s =>
  (scanset 255 124 s).bind fun (fn, s) =>
    let msg := match (lit 124 s).bind (scanset 255 10) with
      | some (m, _) => m
      | none => junk
    some ⟨ts, levelOf lv, f, fn, ln.toUInt32, if msg.length ≥ max then msg.take (max - 1) else msg⟩

/-- `fgets` with room for 2048 bytes: a line with its newline, or 2047 bytes of it. -/
def fgets (f : List UInt8) : List UInt8 × List UInt8 :=
  let t := (f.take 2047).takeWhile (· ≠ 10)
  let n := if t.length < (f.take 2047).length then t.length + 1 else t.length
  (f.take n, f.drop n)

/-- The loop of `posixLogFile_Iterate`, port/posix/posix_log_file.c:268-307.  The callback is any state
machine; `junk i` is what `msg_buf` holds when line `i` is parsed. -/
def iterLoop {σ : Type} (max : Nat) (junk : Nat → List UInt8) (cb : σ → Report → σ × Int) :
    (fuel i : Nat) → List UInt8 → σ → σ × Int
  | 0, _, _, s => (s, 0)
  | fuel + 1, i, f, s =>
    if f = [] then (s, 0)
    else
      match parse max (junk i) (cstr (fgets f).1) with
      | none => iterLoop max junk cb fuel (i + 1) (fgets f).2 s
      | some e =>
        if (cb s e).2 ≠ 0 then cb s e else iterLoop max junk cb fuel (i + 1) (fgets f).2 (cb s e).1

/-- `posixLogFile_Iterate`, port/posix/posix_log_file.c:224-313, when mutex, `fsync`, `dup` and
`fdopen` do their work. -/
def iterate {σ : Type} (max : Nat) (junk : Nat → List UInt8) (cb : σ → Report → σ × Int) (c : Ctx) (s : σ) :
    (σ × Int) × Rc :=
  if !c.initialized then ((s, 0), .aborted)
  else (iterLoop max junk cb c.file.length 0 c.file s, .ok)

/-- The loop of `posixLogFile_Export`, port/posix/posix_log_file.c:208-214. -/
def exportLoop : (fuel : Nat) → List UInt8 → List UInt8
  | 0, _ => []
  | fuel + 1, f => if f = [] then [] else cstr (fgets f).1 ++ exportLoop fuel (fgets f).2

/-- `posixLogFile_Export`, port/posix/posix_log_file.c:159-222: the bytes written to the output. -/
def exportLog (c : Ctx) : List UInt8 × Rc :=
  if !c.initialized then ([], .aborted) else (exportLoop c.file.length c.file, .ok)

/-- The calls that change the log. -/
inductive Op where
  | init (opens : Bool)
  | cleanup
  | add (lock : Bool) (written : Option Nat) (e : Entry)
  | clear (lock trunc seek : Bool)

/-- One call. -/
def step (c : Ctx) : Op → Ctx × Rc
  | .init o => init c o
  | .cleanup => cleanup c
  | .add l w e => add c l w e
  | .clear l t k => clear c l t k

/-- A history of calls, with what each returned. -/
def run (c : Ctx) : List Op → Ctx × List (Op × Rc)
  | [] => (c, [])
  | o :: os =>
    let p := step c o
    let q := run p.1 os
    (q.1, (o, p.2) :: q.2)

end WolfHsm.Log

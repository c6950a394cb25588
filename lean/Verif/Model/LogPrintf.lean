import Verif.Model.Log

/-!
# The log that is printed: `src/wh_log_printf.c`
-/

namespace WolfHsm.LogPrintf

open Log

/-- `whLogPrintfContext`, wolfhsm/wh_log_printf.h:43-46. -/
structure Ctx where
  initialized : Bool
  logIfNotDebug : Bool
deriving DecidableEq

/-- `whLogPrintf_Init`, src/wh_log_printf.c:36-59; `config`: `none` is NULL. -/
def init (config : Option Bool) : Ctx := ⟨true, config.getD false⟩

/-- The text of `printf`, src/wh_log_printf.c:84-93: `[TIMESTAMP] [LEVEL] [FILE:LINE FUNC] MESSAGE\n`.  `%.*s` writes at most
that many bytes and stops at a NUL.  `max` is `WOLFHSM_CFG_LOG_MSG_MAX`. -/
def text (max : Nat) (e : Entry) : List UInt8 :=
  [91] ++ dec e.timestamp.toNat ++ [93, 32, 91] ++ levelName e.level ++ [93, 32, 91] ++ cstr (e.file.getD []) ++ [58] ++
    dec e.line.toNat ++ [32] ++ cstr (e.function.getD []) ++ [93, 32] ++
    cstr (e.msg.take (if e.msgLen ≤ max then e.msgLen else max)) ++ [10]

/-- `whLogPrintf_AddEntry`, src/wh_log_printf.c:62-96: result and what is printed.  `debug`: `WOLFHSM_CFG_DEBUG` is defined.  The
result of `printf` is ignored; it is taken to print everything. -/
def addEntry (max : Nat) (debug : Bool) (c : Ctx) (e : Entry) : Rc × List UInt8 :=
  if !c.initialized then (.aborted, [])
  else if !debug && !c.logIfNotDebug then (.ok, [])
  else (.ok, text max e)

/-- The calls. -/
inductive Op where
  | init (config : Option Bool)
  | add (e : Entry)

/-- A history of calls: what they return and all that is printed. -/
def run (max : Nat) (debug : Bool) : Ctx → List Op → List Rc × List UInt8
  | _, [] => ([], [])
  | _, .init o :: r => let q := run max debug (init o) r; (.ok :: q.1, q.2)
  | c, .add e :: r =>
    let p := addEntry max debug c e
    let q := run max debug c r
    (p.1 :: q.1, p.2 ++ q.2)

end WolfHsm.LogPrintf

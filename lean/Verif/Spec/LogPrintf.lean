import Verif.Model.LogPrintf

/-!
# What a reader of the printed log can tell (C70)
-/

namespace WolfHsm.LogPrintf

open Log

/-- What a line tells. -/
structure Shown where
  time : UInt64
  level : Nat
  file : List UInt8
  line : UInt32
  function : List UInt8
  message : List UInt8
deriving DecidableEq

/-- Of an entry: its names (empty for NULL) and the message as a C string in its `msgLen` bytes. -/
def shown (e : Entry) : Shown :=
  ⟨e.timestamp, e.level, cstr (e.file.getD []), e.line, cstr (e.function.getD []), cstr (e.msg.take e.msgLen)⟩

/-- The entries that should be printed: those logged after the log was set up, if this is a debug build or the last set-up asked
for it. -/
def visible (debug : Bool) : Option (Option Bool) → List Op → List Entry
  | _, [] => []
  | _, .init o :: r => visible debug (some o) r
  | none, .add _ :: r => visible debug none r
  | some o, .add e :: r =>
    if debug = true ∨ o = some true then e :: visible debug (some o) r else visible debug (some o) r

/-- An entry as the code makes them: a known level, a message in its buffer; and fields without the byte that ends them: no colon in the
file name, no bracket in the function, no newline in the message. -/
structure Clear (max : Nat) (e : Entry) : Prop where
  level : e.level ≤ 2
  fits : e.msgLen ≤ max
  file : 58 ∉ (shown e).file
  function : 93 ∉ (shown e).function
  message : 10 ∉ (shown e).message

end WolfHsm.LogPrintf

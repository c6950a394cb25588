import Verif.Model.Log

/-!
# Specification of the log file (C60)
-/

namespace WolfHsm.Log

/-- What somebody who logged an entry expects to read back. -/
def Entry.report (e : Entry) : Report :=
  ⟨e.timestamp, e.level, e.file.getD [], e.function.getD [], e.line, e.msg.take e.msgLen⟩

/-- An entry whose texts can be told apart in a line: file, function and message are there and have
at most 255 bytes; no newline, no NUL; no colon in the file name, no bar in the name of the function;
one of the three levels. -/
structure Plain (e : Entry) : Prop where
  level : e.level ≤ 2
  file : ∃ f, e.file = some f ∧ f ≠ [] ∧ f.length ≤ 255 ∧ ∀ b ∈ f, b ≠ 0 ∧ b ≠ 10 ∧ b ≠ 58
  function : ∃ f, e.function = some f ∧ f ≠ [] ∧ f.length ≤ 255 ∧ ∀ b ∈ f, b ≠ 0 ∧ b ≠ 10 ∧ b ≠ 124
  msg : e.msg.take e.msgLen ≠ [] ∧ (e.msg.take e.msgLen).length ≤ 255 ∧
    ∀ b ∈ e.msg.take e.msgLen, b ≠ 0 ∧ b ≠ 10

/-- The entries in the log, from what was called and what the calls returned: those that were added
successfully since the last successful clear. -/
def kept (h : List (Op × Rc)) : List Entry :=
  h.foldl (fun l x => match x with
    | (.add _ _ e, .ok) => l ++ [e]
    | (.clear .., .ok) => []
    | _ => l) []

/-- Entries are plain; writes write all (the call succeeds) or nothing; a file that was cut can be
rewound. -/
def Tidy : Op × Rc → Prop
  | (.add _ w e, rc) => Plain e ∧ (rc = .ok ∨ w = none ∨ w = some 0)
  | (.clear _ _ k, _) => k = true
  | _ => True

/-- Give the entries of a list to a callback until it returns something other than 0. -/
def feed {σ : Type} (cb : σ → Report → σ × Int) : List Report → σ → σ × Int
  | [], s => (s, 0)
  | e :: l, s => if (cb s e).2 ≠ 0 then cb s e else feed cb l (cb s e).1

end WolfHsm.Log

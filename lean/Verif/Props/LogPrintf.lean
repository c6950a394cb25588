import Verif.Proofs.LogPrintf

/-!
# C70: the printed log
-/

namespace WolfHsm.Props

open LogPrintf
open Log (Entry)

/-- **C70.** Whatever is logged, with the log set up at any time and any number of times: what is printed is the lines of the
entries that should be printed, in order, and nothing else. -/
theorem C70_printed (max : Nat) (debug : Bool) (ops : List Op) :
    (LogPrintf.run max debug ⟨false, false⟩ ops).2 = ((visible debug none ops).map (text max)).flatten :=
  run_visible max debug ops none

/-- **C70.** From what is printed one can tell which entries were logged: two histories that print the same have the same visible
entries, with time, level, place and message, if their fields do not contain the bytes that end them. -/
theorem C70_readable_partial (max : Nat) (d1 d2 : Bool) (ops1 ops2 : List Op)
    (h1 : ∀ e ∈ visible d1 none ops1, Clear max e) (h2 : ∀ e ∈ visible d2 none ops2, Clear max e)
    (h : (LogPrintf.run max d1 ⟨false, false⟩ ops1).2 = (LogPrintf.run max d2 ⟨false, false⟩ ops2).2) :
    (visible d1 none ops1).map shown = (visible d2 none ops2).map shown := by
  rw [C70_printed, C70_printed] at h
  exact texts_inj h1 h2 h

/-- **C70.** An entry whose length field is wrong does not make the log read beyond the message buffer: of a message buffer of `max`
bytes and whatever lies behind it only the buffer is printed. -/
theorem C70_within (max : Nat) (e : Entry) (buf behind : List UInt8) (hb : buf.length = max) (he : e.msg = buf ++ behind) :
    text max e = text max { e with msg := buf } := by
  unfold text
  have : e.msg.take (if e.msgLen ≤ max then e.msgLen else max) = buf.take (if e.msgLen ≤ max then e.msgLen else max) := by
    rw [he]
    refine List.take_append_of_le_length ?_
    split <;> omega
  rw [this]

/-- **C70.** Every call after the first set-up succeeds, also those that print nothing. -/
theorem C70_never_fails (max : Nat) (debug : Bool) (o : Option Bool) (ops : List Op) :
    ∀ rc ∈ (LogPrintf.run max debug (LogPrintf.init o) ops).1, rc = .ok := by
  induction ops generalizing o with
  | nil => intro rc h; cases h
  | cons op ops ih =>
    intro rc h
    cases op with
    | init o' =>
      rcases List.mem_cons.mp h with h | h
      · exact h
      · exact ih o' rc h
    | add e =>
      rcases List.mem_cons.mp h with h | h
      · rw [h]
        unfold addEntry
        rw [if_neg (by simp [LogPrintf.init])]
        split <;> rfl
      · exact ih o rc h

namespace LogPrintfDemo

def e (n : UInt64) (m : List UInt8) : Entry := ⟨n, 1, some [97, 46, 99], some [103, 111], 7, m.length, m ++ List.replicate (16 - m.length) 0⟩

/-- `[1] [ERROR] [a.c:7 go] hi`; an entry before the set-up and one after it was set up to be quiet are not printed. -/
def ops : List Op := [.add (e 0 [120]), .init (some true), .add (e 1 [104, 105]), .add (e 2 []), .init none, .add (e 3 [120])]

example : visible false none ops = [e 1 [104, 105], e 2 []] ∧ (LogPrintf.run 16 false ⟨false, false⟩ ops).1 = [.aborted, .ok, .ok, .ok, .ok, .ok] ∧
    (LogPrintf.run 16 false ⟨false, false⟩ (ops.take 3)).2 =
      [91, 49, 93, 32, 91, 69, 82, 82, 79, 82, 93, 32, 91, 97, 46, 99, 58, 55, 32, 103, 111, 93, 32, 104, 105, 10] := by
  decide +kernel

example : ∀ x ∈ visible false none ops, Clear 16 x := by
  intro x hx
  have : x = e 1 [104, 105] ∨ x = e 2 [] := by
    rw [show visible false none ops = [e 1 [104, 105], e 2 []] by decide +kernel] at hx
    simpa using hx
  rcases this with rfl | rfl <;> exact ⟨by decide, by decide, by decide, by decide, by decide⟩

end LogPrintfDemo

open LogPrintfDemo in
/-- **C70, false in general.** A message with a newline prints the same as two entries: whoever chooses a message can make up lines. -/
theorem F_C70_forged : ∃ m, (LogPrintf.run 64 false (LogPrintf.init (some true)) [.add (e 1 m)]).2 =
    (LogPrintf.run 64 false (LogPrintf.init (some true)) [.add (e 1 [65]), .add (e 2 [66])]).2 :=
  ⟨[65, 10, 91, 50, 93, 32, 91, 69, 82, 82, 79, 82, 93, 32, 91, 97, 46, 99, 58, 55, 32, 103, 111, 93, 32, 66], by decide +kernel⟩

end WolfHsm.Props

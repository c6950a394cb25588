import Verif.Proofs.Log

/-!
# C60: the log file, and messages (C41)
-/

namespace WolfHsm.Props

open Log

/-! ## Messages -/

/-- **C41**, messages: whatever message is logged, the entry has a buffer of full size with the first
`max - 1` bytes of the message, which is what its length says, and nothing but zeros behind them. -/
theorem C41_message {max : Nat} (hmax : 0 < max) (time : UInt64) (level : Nat) (file function : Option (List UInt8))
    (line : UInt32) (m : List UInt8) :
    let e := addMsg max time level file function line (some m) m.length
    e.timestamp = time ∧ e.level = level ∧ e.file = file ∧ e.function = function ∧ e.line = line ∧
    e.msg.length = max ∧ e.msgLen < max ∧ e.msg.take e.msgLen = m.take (max - 1) ∧
    ∀ b ∈ e.msg.drop e.msgLen, b = 0 := by
  have hc : (if m.length < max - 1 then m.length else max - 1) = (m.take (max - 1)).length := by
    rw [List.length_take]; split <;> omega
  have ht : m.take (m.take (max - 1)).length = m.take (max - 1) := by
    rw [List.length_take]
    rcases Nat.le_total m.length (max - 1) with h | h
    · rw [Nat.min_eq_right h, List.take_of_length_le (Nat.le_refl _), List.take_of_length_le h]
    · rw [Nat.min_eq_left h]
  have hlt : (m.take (max - 1)).length < max := by rw [List.length_take]; omega
  unfold addMsg
  dsimp only
  rw [if_pos hmax, hc, ht]
  refine ⟨rfl, rfl, rfl, rfl, rfl, ?_, hlt, by rw [List.take_left], ?_⟩
  · rw [List.length_append, List.length_replicate]; omega
  · rw [List.drop_left]
    intro b hb
    exact (List.mem_replicate.1 hb).2

/-- **C41**, formatted messages: when formatting works, the entry is the one for the formatted text. -/
theorem C41_formatted {max : Nat} (hmax : 0 < max) (time : UInt64) (level : Nat) (file function : Option (List UInt8))
    (line : UInt32) (text : List UInt8) :
    addMsgF max time level file function line text.length text =
      addMsg max time level file function line (some text) text.length := by
  unfold addMsgF
  dsimp only
  rw [if_neg (by omega), Int.toNat_natCast]
  have hl : (if text.length ≥ max then max - 1 else text.length) = (text.take (max - 1)).length := by
    rw [List.length_take]; split <;> omega
  rw [hl]
  unfold addMsg
  dsimp only
  rw [if_pos hmax]
  have h1 : (if (text.take (max - 1)).length < max - 1 then (text.take (max - 1)).length else max - 1) =
      (text.take (max - 1)).length := by
    rw [List.length_take]; split <;> omega
  have h2 : (if text.length < max - 1 then text.length else max - 1) = (text.take (max - 1)).length := by
    rw [List.length_take]; split <;> omega
  have ht : text.take (text.take (max - 1)).length = text.take (max - 1) := by
    rw [List.length_take]
    rcases Nat.le_total text.length (max - 1) with h | h
    · rw [Nat.min_eq_right h, List.take_of_length_le (Nat.le_refl _), List.take_of_length_le h]
    · rw [Nat.min_eq_left h]
  rw [h1, h2, ht, List.take_left]

/-- A message of 3 bytes in a buffer of 8, and one of 9 bytes. -/
example : (addMsg 8 1 0 none none 0 (some [65, 66, 67]) 3).msg = [65, 66, 67, 0, 0, 0, 0, 0] ∧
    (addMsg 8 1 0 none none 0 (some [1, 2, 3, 4, 5, 6, 7, 8, 9]) 9).msg = [1, 2, 3, 4, 5, 6, 7, 0] := by decide

/-! ## The file -/

/-- **C60**: after any history of opening, closing, logging and clearing, `wh_Log_Iterate` on the log
file gives the callback exactly the entries that were logged successfully since the last clear, each
with its time, level, file, line, function and message, in order, until the callback says stop; what the
uninitialised message buffer holds does not matter.  Partial: entries must be `Plain` and writes must write
all or nothing; the findings below show that neither can be dropped. -/
theorem C60_file_log_partial {σ : Type} {max : Nat} (hmax : 256 ≤ max) (ops : List Op) (up : Bool)
    (ht : ∀ x ∈ (run ⟨[], up⟩ ops).2, Tidy x) (junk : Nat → List UInt8) (cb : σ → Report → σ × Int) (s : σ)
    (hi : (run ⟨[], up⟩ ops).1.initialized = true) :
    iterate max junk cb (run ⟨[], up⟩ ops).1 s =
      (feed cb ((kept (run ⟨[], up⟩ ops).2).map Entry.report) s, .ok) := by
  obtain ⟨h1, h2⟩ := run_text ops ⟨[], up⟩ [] rfl (by intro e he; cases he) ht
  unfold iterate
  rw [hi, if_neg (by decide), h1, ← kept_eq,
    iterLoop_text hmax junk cb _ (by rw [kept_eq]; exact h2) _ _ _ (Nat.le_refl _)]

/-- **C60**, export: under the same conditions the whole log goes to the output, one line per entry. -/
theorem C60_export_partial (ops : List Op) (up : Bool) (ht : ∀ x ∈ (run ⟨[], up⟩ ops).2, Tidy x)
    (hi : (run ⟨[], up⟩ ops).1.initialized = true) :
    exportLog (run ⟨[], up⟩ ops).1 = (((kept (run ⟨[], up⟩ ops).2).map format).flatten, .ok) := by
  obtain ⟨h1, h2⟩ := run_text ops ⟨[], up⟩ [] rfl (by intro e he; cases he) ht
  unfold exportLog
  rw [hi, if_neg (by decide), h1, ← kept_eq,
    exportLoop_text _ (by rw [kept_eq]; exact h2) _ (Nat.le_refl _)]
  rfl

/-- **C60**, messages: a message without newline and NUL from a function in a file makes a plain entry,
and what comes back is its first 255 bytes. -/
theorem C60_message {time : UInt64} {level : Nat} {f g m : List UInt8} {line : UInt32} (hl : level ≤ 2)
    (hf : f ≠ [] ∧ f.length ≤ 255 ∧ ∀ b ∈ f, b ≠ 0 ∧ b ≠ 10 ∧ b ≠ 58)
    (hg : g ≠ [] ∧ g.length ≤ 255 ∧ ∀ b ∈ g, b ≠ 0 ∧ b ≠ 10 ∧ b ≠ 124)
    (hm : m ≠ [] ∧ ∀ b ∈ m, b ≠ 0 ∧ b ≠ 10) :
    Plain (addMsg 256 time level (some f) (some g) line (some m) m.length) ∧
    (addMsg 256 time level (some f) (some g) line (some m) m.length).report =
      ⟨time, level, f, g, line, m.take 255⟩ := by
  obtain ⟨h1, h2, h3, h4, h5, h6, h7, h8, h9⟩ := C41_message (max := 256) (by decide) time level (some f) (some g) line m
  constructor
  · refine ⟨by rw [h2]; exact hl, ⟨f, h3, hf.1, hf.2.1, hf.2.2⟩, ⟨g, h4, hg.1, hg.2.1, hg.2.2⟩, ?_, ?_, ?_⟩
    · rw [h8]
      obtain ⟨a, t, rfl⟩ : ∃ a t, m = a :: t := by
        cases m with
        | nil => exact absurd rfl hm.1
        | cons a t => exact ⟨a, t, rfl⟩
      simp
    · rw [h8, List.length_take]; omega
    · rw [h8]; intro b hb; exact hm.2 b (List.mem_of_mem_take hb)
  · unfold Entry.report
    rw [h1, h2, h3, h4, h5, h8]
    rfl

/-- **C60**, plain entries are accepted: on an open log file, if the lock can be taken and `write` writes
the line, logging a plain entry succeeds. -/
theorem C60_plain_accepted {c : Ctx} (hi : c.initialized = true) {e : Entry} (h : Plain e) :
    (add c true (some (format e).length) e).2 = .ok := by
  have hd : ∀ n k, (decF n k).length ≤ n := by
    intro n
    induction n with
    | zero => intro k; exact Nat.le_refl _
    | succ n ih =>
      intro k
      unfold decF
      split
      · simp
      · have := ih (k / 10); simp; omega
  have hlv : (levelName e.level).length ≤ 8 := by
    unfold levelName
    split
    · decide
    split
    · decide
    split <;> decide
  have hc : ∀ l : List UInt8, (cstr l).length ≤ l.length := fun l => (List.takeWhile_sublist _).length_le
  have hlen : (format e).length < 1024 := by
    obtain ⟨_, ⟨f, hf, _, hf2, _⟩, ⟨g, hg, _, hg2, _⟩, _, hm, _⟩ := h
    unfold format dec
    rw [hf, hg]
    have h1 := hd 20 e.timestamp.toNat
    have h2 := hd 20 e.line.toNat
    have h3 := hc f
    have h4 := hc g
    have h5 := hc (e.msg.take e.msgLen)
    simp only [List.length_append, List.length_singleton, Option.getD_some]
    omega
  unfold add
  rw [hi]
  simp only [Bool.not_true, Bool.false_eq_true, if_false]
  rw [if_neg (by omega)]
  simp

/-- An entry is in the log or its call failed: a call to log returns success only when the whole line
went to the file, whose earlier content stays. -/
theorem C60_success_is_stored {c : Ctx} {l : Bool} {w : Option Nat} {e : Entry} (h : (add c l w e).2 = .ok) :
    (add c l w e).1.file = c.file ++ format e := by
  revert h
  unfold add
  split
  · intro h; cases h
  split
  · intro h; cases h
  split
  · intro h; cases h
  cases w with
  | none => intro h; cases h
  | some n =>
    dsimp only
    split
    · rename_i hn; intro _; rw [hn, List.take_length]
    · intro h; cases h

/-! ## Examples and findings -/

namespace LogDemo

/-- Log `m` at line 7 of function "go" in "a.c". -/
def entry (t : UInt64) (m : List UInt8) : Entry := addMsg 256 t 2 (some [97, 46, 99]) (some [103, 111]) 7 (some m) m.length

/-- A write of the whole line. -/
def log (e : Entry) : Op := .add true (some (format e).length) e

/-- What a callback that collects everything gets. -/
def all (junk : List UInt8) (ops : List Op) : List Report :=
  (iterate 256 (fun _ => junk) (fun l e => (l ++ [e], 0)) (run ⟨[], false⟩ ops).1 []).1.1

/-- Open, log "A", clear, log "hi|x", fail to log, close, open, log "B". -/
def ops : List Op := [.init true, log (entry 1 [65]), .clear true true true, log (entry 12 [104, 105, 124, 120]),
  .add true none (entry 13 [67]), .cleanup, .init true, log (entry 140 [66])]

end LogDemo

open LogDemo in
/-- A history that meets the hypotheses: two entries are left. -/
example : (∀ x ∈ (run ⟨[], false⟩ ops).2, Tidy x) ∧ (run ⟨[], false⟩ ops).1.initialized = true ∧
    all [9] ops = [⟨12, 2, [97, 46, 99], [103, 111], 7, [104, 105, 124, 120]⟩, ⟨140, 2, [97, 46, 99], [103, 111], 7, [66]⟩] := by
  have p : ∀ t (m : List UInt8), m ≠ [] → (∀ b ∈ m, b ≠ 0 ∧ b ≠ 10) → Plain (entry t m) := fun t m h1 h2 =>
    (C60_message (by decide) (by decide) (by decide) ⟨h1, h2⟩).1
  have r : (run ⟨[], false⟩ ops).2 = [(Op.init true, Rc.ok), (log (entry 1 [65]), Rc.ok), (Op.clear true true true, Rc.ok),
      (log (entry 12 [104, 105, 124, 120]), Rc.ok), (Op.add true none (entry 13 [67]), Rc.aborted), (Op.cleanup, Rc.ok),
      (Op.init true, Rc.ok), (log (entry 140 [66]), Rc.ok)] := by rfl
  refine ⟨?_, by decide +kernel, by decide +kernel⟩
  rw [r]
  intro x hx
  simp only [List.mem_cons, List.not_mem_nil, or_false] at hx
  rcases hx with rfl | rfl | rfl | rfl | rfl | rfl | rfl | rfl
  · trivial
  · exact ⟨p _ _ (by decide) (by decide), .inl rfl⟩
  · rfl
  · exact ⟨p _ _ (by decide) (by decide), .inl rfl⟩
  · exact ⟨p _ _ (by decide) (by decide), .inr (.inl rfl)⟩
  · trivial
  · trivial
  · exact ⟨p _ _ (by decide) (by decide), .inl rfl⟩

open LogDemo in
/-- A message with a newline makes an entry that nobody logged: here at time 9, level "INFO", by function
"f" in file "x", saying "ok". -/
theorem F_C60_forged : ∃ m, all [] [.init true, log (entry 1 m)] =
    [⟨1, 2, [97, 46, 99], [103, 111], 7, [65]⟩, ⟨9, 0, [120], [102], 3, [111, 107]⟩] :=
  ⟨[65, 10, 57, 124, 73, 78, 70, 79, 124, 120, 58, 51, 124, 102, 124, 111, 107], by decide +kernel⟩

open LogDemo in
/-- An entry with an empty message comes back with whatever the uninitialised buffer held. -/
theorem F_C60_empty_message (junk : List UInt8) (h : junk.length < 256) :
    all junk [.init true, log (entry 1 [])] = [⟨1, 2, [97, 46, 99], [103, 111], 7, junk⟩] := by
  let L : List UInt8 := [103, 111, 124, 10]
  let F : List UInt8 := [97, 46, 99, 58, 55, 124] ++ L
  have e1 : number (cstr (fgets (format (entry 1 []))).1) = some (1, 124 :: (levelName 2 ++ 124 :: F)) := by decide +kernel
  have e2 : lit 124 (124 :: (levelName 2 ++ 124 :: F)) = some (levelName 2 ++ 124 :: F) := by decide +kernel
  have e3 : scanset 31 124 (levelName 2 ++ 124 :: F) = some (levelName 2, 124 :: F) := by decide +kernel
  have e4 : lit 124 (124 :: F) = some F := by decide +kernel
  have e5 : scanset 255 58 F = some ([97, 46, 99], [58, 55, 124] ++ L) := by decide +kernel
  have e6 : lit 58 ([58, 55, 124] ++ L) = some ([55, 124] ++ L) := by decide +kernel
  have e7 : number ([55, 124] ++ L) = some (7, 124 :: L) := by decide +kernel
  have e8 : lit 124 (124 :: L) = some L := by decide +kernel
  have e9 : scanset 255 124 L = some ([103, 111], [124, 10]) := by decide +kernel
  have e10 : (lit 124 [124, 10]).bind (scanset 255 10) = none := by decide +kernel
  have hp : parse 256 junk (cstr (fgets (format (entry 1 []))).1) = some ⟨1, 2, [97, 46, 99], [103, 111], 7, junk⟩ := by
    unfold parse
    rw [e1]; simp only [Option.bind_some]
    rw [e2]; simp only [Option.bind_some]
    rw [e3]; simp only [Option.bind_some]
    rw [e4]; simp only [Option.bind_some]
    rw [e5]; simp only [Option.bind_some]
    rw [e6]; simp only [Option.bind_some]
    rw [e7]; simp only [Option.bind_some]
    rw [e8]; simp only [Option.bind_some]
    rw [e9]; simp only [Option.bind_some]
    rw [e10]
    dsimp only
    rw [if_neg (Nat.not_le.2 h)]
    rfl
  have hf : (run ⟨[], false⟩ [.init true, log (entry 1 [])]).1 = ⟨format (entry 1 []), true⟩ := by rfl
  have hr : (fgets (format (entry 1 []))).2 = [] := by decide +kernel
  have hl : (format (entry 1 [])).length = 20 + 1 := by decide +kernel
  have hn : format (entry 1 []) ≠ [] := by decide +kernel
  unfold all
  rw [hf]
  unfold iterate
  rw [if_neg (by decide)]
  dsimp only
  rw [hl, iterLoop, if_neg hn, hp, hr]
  dsimp only
  rw [if_neg (by decide), iterLoop, if_pos rfl]
  rfl

open LogDemo in
/-- An entry without a function name is accepted and never comes back. -/
theorem F_C60_no_function : ∃ e, (add ⟨[], true⟩ true (some (format e).length) e).2 = .ok ∧
    all [] [.init true, log e] = [] :=
  ⟨addMsg 256 1 0 (some [97]) none 7 (some [65]) 1, by decide +kernel, by decide +kernel⟩

open LogDemo in
/-- An entry from a file whose name has a colon is accepted and never comes back. -/
theorem F_C60_colon : ∃ e, (add ⟨[], true⟩ true (some (format e).length) e).2 = .ok ∧
    all [] [.init true, log e] = [] :=
  ⟨addMsg 256 1 0 (some [67, 58, 97]) (some [102]) 7 (some [65]) 1, by decide +kernel, by decide +kernel⟩

open LogDemo in
/-- When a write stops in the middle, its call fails, and the next entry, logged successfully at time 2,
comes back as one of time 12. -/
theorem F_C60_short_write : ∃ e e' : Entry, ∃ n, e'.timestamp = 2 ∧
    (run ⟨[], false⟩ [.init true, .add true (some n) e, log e']).2.map Prod.snd = [.ok, .aborted, .ok] ∧
    (all [] [.init true, .add true (some n) e, log e']).map Report.timestamp = [12] :=
  ⟨entry 1 [65], entry 2 [66], 1, rfl, by decide +kernel, by decide +kernel⟩

open LogDemo in
/-- A level outside the enumeration comes back as information. -/
theorem F_C60_level : ∃ e, e.level = 3 ∧ (all [] [.init true, log e]).map Report.level = [0] :=
  ⟨addMsg 256 1 3 (some [97]) (some [102]) 7 (some [65]) 1, rfl, by decide +kernel⟩

end WolfHsm.Props

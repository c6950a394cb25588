import Verif.Spec.Log

/-!
# Proofs about the log file
-/

namespace WolfHsm.Log

theorem cstr_id {b : List UInt8} (h : ∀ x ∈ b, x ≠ 0) : cstr b = b := by
  unfold cstr
  induction b with
  | nil => rfl
  | cons a b ih =>
    rw [List.takeWhile_cons_of_pos (by simpa using h a (by simp)), ih fun x hx => h x (by simp [hx])]

theorem takeWhile_stop {p : UInt8 → Bool} {t r : List UInt8} (h : ∀ x ∈ t, p x = true)
    (hr : ∀ x r', r = x :: r' → p x = false) : (t ++ r).takeWhile p = t := by
  induction t with
  | nil =>
    cases r with
    | nil => rfl
    | cons x r' => exact List.takeWhile_cons_of_neg (by simp [hr x r' rfl])
  | cons a t ih =>
    rw [List.cons_append, List.takeWhile_cons_of_pos (h a (by simp)), ih fun x hx => h x (by simp [hx])]

theorem digit_ok {k : Nat} (h : k < 10) : isDigit (UInt8.ofNat (48 + k)) = true ∧ (UInt8.ofNat (48 + k)).toNat - 48 = k := by
  have : (UInt8.ofNat (48 + k)).toNat = 48 + k := by
    rw [UInt8.toNat_ofNat']; omega
  refine ⟨?_, by omega⟩
  unfold isDigit
  simp only [Bool.and_eq_true, decide_eq_true_eq, UInt8.le_iff_toNat_le]
  rw [this]
  exact ⟨by simp, by simp; omega⟩

theorem decF_ok (f : Nat) : ∀ n, n < 10 ^ (f + 1) →
    (∀ b ∈ decF (f + 1) n, isDigit b = true) ∧ value (decF (f + 1) n) = n ∧ decF (f + 1) n ≠ [] ∧
      (decF (f + 1) n).length ≤ f + 1 := by
  induction f with
  | zero =>
    intro n h
    have h : n < 10 := by simpa using h
    unfold decF
    rw [if_pos h]
    obtain ⟨h1, h2⟩ := digit_ok h
    refine ⟨by simpa using h1, ?_, by simp, by simp⟩
    simp only [value, List.foldl]
    omega
  | succ f ih =>
    intro n h
    rw [decF]
    by_cases hn : n < 10
    · rw [if_pos hn]
      obtain ⟨h1, h2⟩ := digit_ok hn
      refine ⟨by simpa using h1, ?_, by simp, by simp⟩
      simp only [value, List.foldl]
      omega
    · rw [if_neg hn]
      obtain ⟨a1, a2, a3, a4⟩ := ih (n / 10) (by
        rw [Nat.pow_succ] at h
        omega)
      obtain ⟨h1, h2⟩ := digit_ok (k := n % 10) (by omega)
      refine ⟨?_, ?_, by simp, by simp; omega⟩
      · intro b hb
        rcases List.mem_append.1 hb with hb | hb
        · exact a1 b hb
        · rw [List.mem_singleton] at hb; rw [hb]; exact h1
      · unfold value at a2 ⊢
        rw [List.foldl_append, a2]
        simp only [List.foldl]
        omega

theorem dec_ok {n : Nat} (h : n < 2 ^ 64) : (∀ b ∈ dec n, isDigit b = true) ∧ value (dec n) = n ∧ dec n ≠ [] ∧
    (dec n).length ≤ 20 := decF_ok 19 n (Nat.lt_of_lt_of_le h (by decide))

theorem digit_not {b : UInt8} (h : isDigit b = true) : isSpace b = false ∧ b ≠ 45 ∧ b ≠ 43 ∧ b ≠ 0 ∧ b ≠ 10 := by
  unfold isDigit at h
  simp only [Bool.and_eq_true, decide_eq_true_eq, UInt8.le_iff_toNat_le] at h
  have h1 : 48 ≤ b.toNat := h.1
  refine ⟨?_, ?_, ?_, ?_, ?_⟩
  · unfold isSpace
    simp only [Bool.or_eq_false_iff, Bool.and_eq_false_iff, decide_eq_false_iff_not, UInt8.le_iff_toNat_le]
    refine ⟨?_, .inr ?_⟩
    · rintro rfl; revert h1; decide
    · show ¬ b.toNat ≤ 13; omega
  all_goals rintro rfl; revert h1; decide

theorem number_dec {n : Nat} (h : n < 2 ^ 64) {c : UInt8} (hc : isDigit c = false) (r : List UInt8) :
    number (dec n ++ c :: r) = some (UInt64.ofNat n, c :: r) := by
  obtain ⟨h1, h2, h3, _⟩ := dec_ok h
  obtain ⟨a, t, e⟩ : ∃ a t, dec n = a :: t := by
    cases hd : dec n with
    | nil => exact absurd hd h3
    | cons a t => exact ⟨a, t, rfl⟩
  have ha := digit_not (h1 a (by rw [e]; simp))
  have hs : (dec n ++ c :: r).dropWhile isSpace = dec n ++ c :: r := by
    rw [e, List.cons_append, List.dropWhile_cons_of_neg (by simp [ha.1])]
  have hg : sign (dec n ++ c :: r) = (false, dec n ++ c :: r) := by
    rw [e, List.cons_append]
    unfold sign
    split
    · rename_i h; simp only [List.cons.injEq] at h; exact absurd h.1 ha.2.1
    · rename_i h; simp only [List.cons.injEq] at h; exact absurd h.1 ha.2.2.1
    · rfl
  have ht : (dec n ++ c :: r).takeWhile isDigit = dec n := by
    refine takeWhile_stop h1 ?_
    intro x r' hx
    cases hx; exact hc
  unfold number
  rw [hs, hg]
  dsimp only
  rw [ht, if_neg h3, h2, if_neg (by decide), List.drop_left, Nat.min_eq_left (by omega)]

theorem scanset_ok {n : Nat} {stop : UInt8} {t r : List UInt8} (hne : t ≠ []) (hl : t.length ≤ n)
    (h : ∀ b ∈ t, b ≠ stop) : scanset n stop (t ++ stop :: r) = some (t, stop :: r) := by
  unfold scanset
  have : ((t ++ stop :: r).take n).takeWhile (· ≠ stop) = t := by
    rw [List.take_append, List.take_of_length_le hl]
    refine takeWhile_stop (fun x hx => by simpa using h x hx) ?_
    intro x r' hx
    cases hk : n - t.length with
    | zero => rw [hk] at hx; simp at hx
    | succ k =>
      rw [hk, List.take_succ_cons] at hx
      cases hx
      simp
  dsimp only
  rw [this, if_neg hne, List.drop_left]

theorem lit_ok (c : UInt8) (r : List UInt8) : lit c (c :: r) = some r := by unfold lit; dsimp only; rw [if_pos rfl]

theorem levelName_ok {l : Nat} : (levelName l).length ≤ 8 ∧ levelName l ≠ [] ∧
    ∀ b ∈ levelName l, b ≠ 124 ∧ b ≠ 0 ∧ b ≠ 10 := by
  unfold levelName
  split
  · decide
  split
  · decide
  split <;> decide

theorem levelOf_ok {l : Nat} (h : l ≤ 2) : levelOf (levelName l) = l := by
  match l, h with
  | 0, _ => decide
  | 1, _ => decide
  | 2, _ => decide

/-- The line of a plain entry: at most 819 bytes, no newline and no NUL before its end. -/
theorem format_ok {e : Entry} (h : Plain e) : ∃ b, format e = b ++ [10] ∧ b.length ≤ 818 ∧ (∀ x ∈ b, x ≠ 10 ∧ x ≠ 0) ∧
    b = dec e.timestamp.toNat ++ 124 :: (levelName e.level ++ 124 :: (e.file.getD [] ++ 58 :: (dec e.line.toNat ++
      124 :: (e.function.getD [] ++ 124 :: e.msg.take e.msgLen)))) := by
  obtain ⟨f, hf, hf1, hf2, hf3⟩ := h.file
  obtain ⟨g, hg, hg1, hg2, hg3⟩ := h.function
  obtain ⟨hm1, hm2, hm3⟩ := h.msg
  have d1 := dec_ok e.timestamp.toNat_lt
  have d2 := dec_ok (n := e.line.toNat) (Nat.lt_trans e.line.toNat_lt (by decide))
  have lv := levelName_ok (l := e.level)
  refine ⟨_, ?_, ?_, ?_, rfl⟩
  · unfold format
    rw [hf, hg]
    simp only [Option.getD_some]
    rw [cstr_id fun x hx => (hf3 x hx).1, cstr_id fun x hx => (hg3 x hx).1, cstr_id fun x hx => (hm3 x hx).1]
    simp only [List.append_assoc, List.cons_append, List.nil_append]
  · rw [hf, hg]
    simp only [Option.getD_some, List.length_append, List.length_cons]
    omega
  · rw [hf, hg]
    simp only [Option.getD_some, List.mem_append, List.mem_cons]
    rintro x (hx | rfl | hx | rfl | hx | rfl | hx | rfl | hx | rfl | hx)
    · have := digit_not (d1.1 x hx); exact ⟨this.2.2.2.2, this.2.2.2.1⟩
    · decide
    · exact ⟨(lv.2.2 x hx).2.2, (lv.2.2 x hx).2.1⟩
    · decide
    · exact ⟨(hf3 x hx).2.1, (hf3 x hx).1⟩
    · decide
    · have := digit_not (d2.1 x hx); exact ⟨this.2.2.2.2, this.2.2.2.1⟩
    · decide
    · exact ⟨(hg3 x hx).2.1, (hg3 x hx).1⟩
    · decide
    · exact ⟨(hm3 x hx).2, (hm3 x hx).1⟩

theorem parse_format {max : Nat} (hmax : 256 ≤ max) {e : Entry} (h : Plain e) (junk : List UInt8) :
    parse max junk (format e) = some e.report := by
  obtain ⟨b, hb, _, _, hbe⟩ := format_ok h
  obtain ⟨f, hf, hf1, hf2, hf3⟩ := h.file
  obtain ⟨g, hg, hg1, hg2, hg3⟩ := h.function
  obtain ⟨hm1, hm2, hm3⟩ := h.msg
  have lv := levelName_ok (l := e.level)
  rw [hb, hbe, hf, hg]
  simp only [Option.getD_some, List.append_assoc, List.cons_append]
  unfold parse
  rw [number_dec e.timestamp.toNat_lt (by decide)]
  simp only [Option.bind_some]
  rw [lit_ok]
  simp only [Option.bind_some]
  rw [scanset_ok lv.2.1 (by omega) fun x hx => (lv.2.2 x hx).1]
  simp only [Option.bind_some]
  rw [lit_ok]
  simp only [Option.bind_some]
  rw [scanset_ok hf1 hf2 fun x hx => (hf3 x hx).2.2]
  simp only [Option.bind_some]
  rw [lit_ok]
  simp only [Option.bind_some]
  rw [number_dec (Nat.lt_trans e.line.toNat_lt (by decide)) (by decide)]
  simp only [Option.bind_some]
  rw [lit_ok]
  simp only [Option.bind_some]
  rw [scanset_ok hg1 hg2 fun x hx => (hg3 x hx).2.2]
  simp only [Option.bind_some]
  rw [lit_ok]
  simp only [Option.bind_some]
  rw [scanset_ok hm1 hm2 fun x hx => (hm3 x hx).2]
  simp only [levelOf_ok h.level]
  rw [if_neg (by omega)]
  unfold Entry.report
  rw [hf, hg]
  simp

theorem fgets_line {b r : List UInt8} (hl : b.length ≤ 2046) (h : ∀ x ∈ b, x ≠ 10) :
    fgets (b ++ 10 :: r) = (b ++ [10], r) := by
  unfold fgets
  have e : (b ++ 10 :: r).take 2047 = b ++ 10 :: r.take (2046 - b.length) := by
    rw [List.take_append, List.take_of_length_le (by omega), show 2047 - b.length = (2046 - b.length) + 1 by omega,
      List.take_succ_cons]
  have t : ((b ++ 10 :: r).take 2047).takeWhile (· ≠ 10) = b := by
    rw [e]
    refine takeWhile_stop (fun x hx => by simpa using h x hx) ?_
    intro x r' hx
    cases hx; rfl
  dsimp only
  rw [t, if_pos (by rw [e]; simp)]
  have s : b ++ 10 :: r = (b ++ [10]) ++ r := by simp
  rw [s, show b.length + 1 = (b ++ [10]).length by simp, List.take_left, List.drop_left]

/-- The file of a list of entries. -/
def text (l : List Entry) : List UInt8 := (l.map format).flatten

theorem iterLoop_text {σ : Type} {max : Nat} (hmax : 256 ≤ max) (junk : Nat → List UInt8) (cb : σ → Report → σ × Int)
    (l : List Entry) (h : ∀ e ∈ l, Plain e) : ∀ fuel i s, (text l).length ≤ fuel →
    iterLoop max junk cb fuel i (text l) s = feed cb (l.map Entry.report) s := by
  induction l with
  | nil =>
    intro fuel i s _
    cases fuel with
    | zero => rfl
    | succ f => unfold iterLoop; rw [if_pos (show text [] = [] from rfl)]; rfl
  | cons e l ih =>
    intro fuel i s hf
    have he := h e (by simp)
    obtain ⟨b, hb, hl, hn, _⟩ := format_ok he
    have ht : text (e :: l) = b ++ 10 :: text l := by
      unfold text; rw [List.map_cons, List.flatten_cons, hb]; simp
    rw [ht] at hf ⊢
    simp only [List.length_append, List.length_cons] at hf
    obtain ⟨fuel, rfl⟩ : ∃ k, fuel = k + 1 := ⟨fuel - 1, by omega⟩
    rw [iterLoop, if_neg (by simp), fgets_line (by omega) fun x hx => (hn x hx).1]
    dsimp only
    rw [cstr_id (by
      intro x hx
      rcases List.mem_append.1 hx with hx | hx
      · exact (hn x hx).2
      · rw [List.mem_singleton] at hx; rw [hx]; decide), ← hb, parse_format hmax he]
    dsimp only
    rw [List.map_cons, feed]
    split
    · rfl
    · exact ih (fun x hx => h x (by simp [hx])) _ _ _ (by omega)

theorem exportLoop_text (l : List Entry) (h : ∀ e ∈ l, Plain e) : ∀ fuel, (text l).length ≤ fuel →
    exportLoop fuel (text l) = text l := by
  induction l with
  | nil =>
    intro fuel _
    cases fuel with
    | zero => rfl
    | succ f => unfold exportLoop; rw [if_pos (show text [] = [] from rfl)]; rfl
  | cons e l ih =>
    intro fuel hf
    have he := h e (by simp)
    obtain ⟨b, hb, hl, hn, _⟩ := format_ok he
    have ht : text (e :: l) = b ++ 10 :: text l := by
      unfold text; rw [List.map_cons, List.flatten_cons, hb]; simp
    rw [ht] at hf ⊢
    simp only [List.length_append, List.length_cons] at hf
    obtain ⟨fuel, rfl⟩ : ∃ k, fuel = k + 1 := ⟨fuel - 1, by omega⟩
    rw [exportLoop, if_neg (by simp), fgets_line (by omega) fun x hx => (hn x hx).1]
    dsimp only
    rw [cstr_id (by
      intro x hx
      rcases List.mem_append.1 hx with hx | hx
      · exact (hn x hx).2
      · rw [List.mem_singleton] at hx; rw [hx]; decide), ih (fun x hx => h x (by simp [hx])) _ (by omega)]
    simp

/-- One step of `kept`. -/
def keep (l : List Entry) (x : Op × Rc) : List Entry :=
  match x with
  | (.add _ _ e, .ok) => l ++ [e]
  | (.clear .., .ok) => []
  | _ => l

theorem step_text {c : Ctx} {l : List Entry} {o : Op} (hc : c.file = text l) (hl : ∀ e ∈ l, Plain e)
    (ht : Tidy (o, (step c o).2)) :
    (step c o).1.file = text (keep l (o, (step c o).2)) ∧ ∀ e ∈ keep l (o, (step c o).2), Plain e := by
  cases o with
  | init o => unfold step init; cases o <;> exact ⟨hc, hl⟩
  | cleanup => exact ⟨hc, hl⟩
  | add k w e =>
    obtain ⟨hp, hw⟩ := ht
    revert hw
    unfold step add
    dsimp only
    split
    · exact fun _ => ⟨hc, hl⟩
    split
    · exact fun _ => ⟨hc, hl⟩
    split
    · exact fun _ => ⟨hc, hl⟩
    cases w with
    | none => exact fun _ => ⟨hc, hl⟩
    | some n =>
      dsimp only
      by_cases hn : n = (format e).length
      · rw [if_pos hn]
        intro _
        refine ⟨?_, ?_⟩
        · show c.file ++ _ = text (l ++ [e])
          rw [hc, hn, List.take_length]
          unfold text
          simp
        · intro x hx
          rcases List.mem_append.1 hx with hx | hx
          · exact hl x hx
          · rw [List.mem_singleton] at hx; rw [hx]; exact hp
      · rw [if_neg hn]
        rintro (h | h | h)
        · cases h
        · cases h
        · cases h
          exact ⟨by show c.file ++ [] = _; rw [List.append_nil]; exact hc, hl⟩
  | clear k t z =>
    have hz : z = true := ht
    subst hz
    unfold step clear
    dsimp only
    split
    · exact ⟨hc, hl⟩
    split
    · exact ⟨hc, hl⟩
    split
    · exact ⟨hc, hl⟩
    · exact ⟨rfl, by intro e he; cases he⟩

theorem run_text (ops : List Op) : ∀ (c : Ctx) (l : List Entry), c.file = text l → (∀ e ∈ l, Plain e) →
    (∀ x ∈ (run c ops).2, Tidy x) →
    (run c ops).1.file = text ((run c ops).2.foldl keep l) ∧ ∀ e ∈ (run c ops).2.foldl keep l, Plain e := by
  induction ops with
  | nil => intro c l hc hl _; exact ⟨hc, hl⟩
  | cons o os ih =>
    intro c l hc hl ht
    obtain ⟨h1, h2⟩ := step_text (o := o) hc hl (ht _ (by unfold run; simp))
    exact ih _ _ h1 h2 fun x hx => ht x (by unfold run; simp [hx])

theorem kept_eq (h : List (Op × Rc)) : kept h = h.foldl keep [] := rfl

end WolfHsm.Log

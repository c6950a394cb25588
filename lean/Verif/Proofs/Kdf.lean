import Verif.Model.Kdf
import Verif.Spec.Kdf

/-! # Expansion in the shared buffer -/

namespace WolfHsm.Kdf

theorem readAt_length (m : Mem) (off n : Nat) : (readAt m off n).length = n := by
  simp [readAt]

theorem readAt_get (m : Mem) (off n i : Nat) (h : i < n) :
    (readAt m off n)[i]? = some (m (off + i)) := by
  simp [readAt, h]

theorem readAt_congr {m m' : Mem} {off n : Nat} (h : ∀ i < n, m (off + i) = m' (off + i)) :
    readAt m off n = readAt m' off n := by
  unfold readAt
  exact List.map_congr_left fun i hi => h i (List.mem_range.1 hi)

theorem writeAt_out {m : Mem} {off : Nat} {bs : List UInt8} {i : Nat}
    (h : i < off ∨ off + bs.length ≤ i) : writeAt m off bs i = m i := by
  unfold writeAt
  rw [if_neg]
  omega

theorem writeAt_in {m : Mem} {off : Nat} {bs : List UInt8} {i : Nat} (h : i < bs.length) :
    writeAt m off bs (off + i) = bs.getD i 0 := by
  unfold writeAt
  rw [if_pos (by omega)]
  congr 1
  omega

/-- The blocks with the information `info` all along. -/
def T (step : Step) (info : List UInt8) : Nat → List UInt8
  | 0 => []
  | i + 1 => step (T step info i) info (i + 1)

theorem expand_ok {step : Step} {h room outSz : Nat} {info : List UInt8} (hh : 0 < h)
    (hlen : ∀ p i n, (step p i n).length = h) :
    ∀ (k n : Nat) (m : Mem), (info = [] ∨ (n + k - 1) * h ≤ room) →
      (k = 0 ∨ info = [] ∨ readAt m room info.length = info) →
      (∀ i < n * h, i < outSz → m i = ((Spec.concat (T step info) n).getD i 0)) →
      ∀ i < (n + k) * h, i < outSz →
        expand step h room info.length outSz k n (T step info n) m i =
          (Spec.concat (T step info) (n + k)).getD i 0
  | 0, n, m, _, _, hm, i, hi, ho => hm i hi ho
  | k + 1, n, m, hroom, hinfo, hm, i, hi, ho => by
    have hread : readAt m room info.length = info := by
      rcases hinfo with h | rfl | h
      · cases h
      · rfl
      · exact h
    have hTlen : ∀ j, (T step info (j + 1)).length = h := fun j => hlen _ _ _
    have hclen : ∀ j, (Spec.concat (T step info) j).length = j * h := by
      intro j
      unfold Spec.concat
      induction j with
      | zero => simp
      | succ j ih =>
        rw [List.range_succ, List.flatMap_append, List.length_append, ih]
        simp [hTlen, Nat.add_mul]
    have hsucc : Spec.concat (T step info) (n + 1) =
        Spec.concat (T step info) n ++ T step info (n + 1) := by
      unfold Spec.concat
      rw [List.range_succ, List.flatMap_append]; simp
    simp only [expand]
    rw [hread]
    have hstep : step (T step info n) info (n + 1) = T step info (n + 1) := rfl
    rw [hstep]
    have e1 : n + (k + 1) = n + 1 + k := by omega
    rw [e1] at hi ⊢
    refine expand_ok hh hlen k (n + 1) _ ?_ ?_ ?_ i hi ho
    · rcases hroom with h | h
      · exact .inl h
      · right; rw [show n + 1 + k - 1 = n + (k + 1) - 1 by omega]; exact h
    · rcases Nat.eq_zero_or_pos k with hk | hk
      · exact .inl hk
      · rcases hroom with h0 | h0
        · exact .inr (.inl h0)
        · refine .inr (.inr ?_)
          have hle : (n + 1) * h ≤ room :=
            Nat.le_trans (Nat.mul_le_mul_right h (by omega)) h0
          refine (readAt_congr fun i _ => writeAt_out (.inr ?_)).trans hread
          have h2 : ((T step info (n + 1)).take (outSz - n * h)).length ≤ h := by
            rw [List.length_take, hTlen]; omega
          have h3 : (n + 1) * h = n * h + h := Nat.succ_mul n h
          omega
    · intro i hi ho
      rw [hsucc]
      have h3 : (n + 1) * h = n * h + h := Nat.succ_mul n h
      by_cases hin : i < n * h
      · rw [writeAt_out (.inl hin), hm i hin ho]
        rw [List.getD_eq_getElem?_getD, List.getD_eq_getElem?_getD,
          List.getElem?_append_left (by rw [hclen]; exact hin)]
      · obtain ⟨j, rfl⟩ : ∃ j, i = n * h + j := ⟨i - n * h, by omega⟩
        rw [writeAt_in (by rw [List.length_take, hTlen]; omega), List.getD_eq_getElem?_getD,
          List.getD_eq_getElem?_getD, List.getElem?_append_right (by rw [hclen]; omega), hclen,
          List.getElem?_take_of_lt (by omega)]
        congr 2
        omega

theorem concat_length {step : Step} {h : Nat} {info : List UInt8}
    (hlen : ∀ p i n, (step p i n).length = h) (j : Nat) :
    (Spec.concat (T step info) j).length = j * h := by
  unfold Spec.concat
  induction j with
  | zero => simp
  | succ j ih =>
    rw [List.range_succ, List.flatMap_append, List.length_append, ih]
    simp [T, hlen, Nat.add_mul]

theorem le_blocks {h outSz : Nat} (hh : 0 < h) : outSz ≤ blocks h outSz * h := by
  unfold blocks
  have := Nat.div_add_mod (outSz + h - 1) h
  have h2 := Nat.mod_lt (outSz + h - 1) hh
  rw [Nat.mul_comm] at this
  omega

/-- If the information is empty or survives until the last block is computed, the shared buffer
makes no difference. -/
theorem shared_ok {step : Step} {h room outSz : Nat} {info : List UInt8} (hh : 0 < h)
    (hlen : ∀ p i n, (step p i n).length = h)
    (hroom : info = [] ∨ (blocks h outSz - 1) * h ≤ room) :
    shared step h room info outSz = (Spec.concat (T step info) (blocks h outSz)).take outSz := by
  have hl := concat_length (info := info) hlen (blocks h outSz)
  have hb := le_blocks (outSz := outSz) hh
  refine List.ext_getElem? fun i => ?_
  by_cases hi : i < outSz
  · unfold shared
    rw [readAt_get _ _ _ _ hi, Nat.zero_add]
    have := expand_ok (step := step) (info := info) (room := room) (outSz := outSz) hh hlen
      (blocks h outSz) 0 (fun i => if room ≤ i then info.getD (i - room) 0 else 0)
      (by rw [Nat.zero_add]; exact hroom) (.inr (.inr (by
        refine List.ext_getElem? fun j => ?_
        by_cases hj : j < info.length
        · rw [readAt_get _ _ _ _ hj, if_pos (by omega), List.getD_eq_getElem?_getD,
            show room + j - room = j by omega, List.getElem?_eq_getElem hj]
          rfl
        · rw [List.getElem?_eq_none (by rw [readAt_length]; omega),
            List.getElem?_eq_none (by omega)]))) (by intro i h0; omega) i
      (by rw [Nat.zero_add]; omega) hi
    rw [Nat.zero_add] at this
    rw [show ([] : List UInt8) = T step info 0 from rfl, this,
      List.getElem?_take_of_lt hi, List.getD_eq_getElem?_getD,
      List.getElem?_eq_getElem (by omega)]
    rfl
  · rw [List.getElem?_eq_none (by unfold shared; rw [readAt_length]; omega),
      List.getElem?_eq_none (by rw [List.length_take]; omega)]

end WolfHsm.Kdf

import Verif.Model.Utils
import Mathlib.Tactic.IntervalCases

/-! Helper lemmas for `Verif.Props.Utils`. -/

namespace WolfHsm.Utils

theorem swap16_swap16 (v : UInt16) : swap16 (swap16 v) = v := by
  apply UInt16.eq_of_toBitVec_eq
  apply BitVec.eq_of_getLsbD_eq
  intro i hi
  simp only [swap16, UInt16.toBitVec_or, UInt16.toBitVec_shiftRight, UInt16.toBitVec_shiftLeft]
  interval_cases i <;> simp

theorem swap32_swap32 (v : UInt32) : swap32 (swap32 v) = v := by
  apply UInt32.eq_of_toBitVec_eq
  apply BitVec.eq_of_getLsbD_eq
  intro i hi
  simp only [swap32, UInt32.toBitVec_or, UInt32.toBitVec_shiftRight,
    UInt32.toBitVec_shiftLeft, UInt32.toBitVec_and]
  interval_cases i <;> simp

theorem swap64_swap64 (v : UInt64) : swap64 (swap64 v) = v := by
  apply UInt64.eq_of_toBitVec_eq
  apply BitVec.eq_of_getLsbD_eq
  intro i hi
  simp only [swap64, UInt64.toBitVec_or, UInt64.toBitVec_shiftRight,
    UInt64.toBitVec_shiftLeft, UInt64.toBitVec_and]
  interval_cases i <;> simp

theorem bytes16_swap16 (v : UInt16) :
    bytes16 true (swap16 v) = (bytes16 true v).reverse := by
  simp only [bytes16, if_true, List.reverse_cons, List.reverse_nil, List.nil_append,
    List.cons_append, List.cons.injEq, and_true]
  refine ⟨?_, ?_⟩ <;>
  · apply UInt8.eq_of_toBitVec_eq
    apply BitVec.eq_of_getLsbD_eq
    intro i hi
    simp only [swap16, UInt16.toBitVec_or, UInt16.toBitVec_shiftRight,
      UInt16.toBitVec_shiftLeft, UInt16.toBitVec_toUInt8]
    interval_cases i <;> simp

theorem bytes32_swap32 (v : UInt32) :
    bytes32 true (swap32 v) = (bytes32 true v).reverse := by
  simp only [bytes32, if_true, List.reverse_cons, List.reverse_nil, List.nil_append,
    List.cons_append, List.cons.injEq, and_true]
  refine ⟨?_, ?_, ?_, ?_⟩ <;>
  · apply UInt8.eq_of_toBitVec_eq
    apply BitVec.eq_of_getLsbD_eq
    intro i hi
    simp only [swap32, UInt32.toBitVec_or, UInt32.toBitVec_shiftRight,
      UInt32.toBitVec_shiftLeft, UInt32.toBitVec_and, UInt32.toBitVec_toUInt8]
    interval_cases i <;> simp

theorem bytes64_swap64 (v : UInt64) :
    bytes64 true (swap64 v) = (bytes64 true v).reverse := by
  simp only [bytes64, if_true, List.reverse_cons, List.reverse_nil, List.nil_append,
    List.cons_append, List.cons.injEq, and_true]
  refine ⟨?_, ?_, ?_, ?_, ?_, ?_, ?_, ?_⟩ <;>
  · apply UInt8.eq_of_toBitVec_eq
    apply BitVec.eq_of_getLsbD_eq
    intro i hi
    simp only [swap64, UInt64.toBitVec_or, UInt64.toBitVec_shiftRight,
      UInt64.toBitVec_shiftLeft, UInt64.toBitVec_and, UInt64.toBitVec_toUInt8]
    interval_cases i <;> simp

theorem read16_bytes16 (le : Bool) (v : UInt16) : read16 le (bytes16 le v) = some v := by
  have h : v.toUInt8.toUInt16 ||| ((v >>> 8).toUInt8.toUInt16 <<< 8) = v := by
    apply UInt16.eq_of_toBitVec_eq
    apply BitVec.eq_of_getLsbD_eq
    intro i hi
    simp only [UInt16.toBitVec_or, UInt16.toBitVec_shiftRight, UInt16.toBitVec_shiftLeft,
      UInt16.toBitVec_toUInt8, UInt8.toBitVec_toUInt16]
    interval_cases i <;> simp
  cases le <;> exact congrArg some h

theorem read32_bytes32 (le : Bool) (v : UInt32) : read32 le (bytes32 le v) = some v := by
  have h : v.toUInt8.toUInt32 ||| ((v >>> 8).toUInt8.toUInt32 <<< 8) |||
      ((v >>> 16).toUInt8.toUInt32 <<< 16) ||| ((v >>> 24).toUInt8.toUInt32 <<< 24) = v := by
    apply UInt32.eq_of_toBitVec_eq
    apply BitVec.eq_of_getLsbD_eq
    intro i hi
    simp only [UInt32.toBitVec_or, UInt32.toBitVec_shiftRight, UInt32.toBitVec_shiftLeft,
      UInt32.toBitVec_toUInt8, UInt8.toBitVec_toUInt32]
    interval_cases i <;> simp
  cases le <;> exact congrArg some h

theorem read64_bytes64 (le : Bool) (v : UInt64) : read64 le (bytes64 le v) = some v := by
  have h : v.toUInt8.toUInt64 ||| ((v >>> 8).toUInt8.toUInt64 <<< 8) |||
      ((v >>> 16).toUInt8.toUInt64 <<< 16) ||| ((v >>> 24).toUInt8.toUInt64 <<< 24) |||
      ((v >>> 32).toUInt8.toUInt64 <<< 32) ||| ((v >>> 40).toUInt8.toUInt64 <<< 40) |||
      ((v >>> 48).toUInt8.toUInt64 <<< 48) ||| ((v >>> 56).toUInt8.toUInt64 <<< 56) = v := by
    apply UInt64.eq_of_toBitVec_eq
    apply BitVec.eq_of_getLsbD_eq
    intro i hi
    simp only [UInt64.toBitVec_or, UInt64.toBitVec_shiftRight, UInt64.toBitVec_shiftLeft,
      UInt64.toBitVec_toUInt8, UInt8.toBitVec_toUInt64]
    interval_cases i <;> simp
  cases le <;> exact congrArg some h

/-! ### CRC -/

/-- Inverse of one CRC shift step (the polynomial is odd). -/
def crcUnbit (c : UInt16) : UInt16 :=
  if (c &&& 1) != 0 then ((c ^^^ 0x1021) >>> 1) ||| 0x8000 else c >>> 1

/-- The step as a masked xor, to reason bit by bit. -/
theorem crcBit_bit (c : UInt16) (i : Nat) (hi : i < 16) :
    (crcBit c).toBitVec.getLsbD i =
      ((decide (0 < i) && c.toBitVec.getLsbD (i - 1)) ^^
        (c.toBitVec.getLsbD 15 && (0x1021#16).getLsbD i)) := by
  have hm : ((c &&& 0x8000) != 0) = c.toBitVec.getLsbD 15 := by
    have : (c &&& 0x8000) = if c.toBitVec.getLsbD 15 then 0x8000 else 0 := by
      apply UInt16.eq_of_toBitVec_eq
      apply BitVec.eq_of_getLsbD_eq
      intro j hj
      cases hb : c.toBitVec.getLsbD 15 <;>
        (simp only [UInt16.toBitVec_and]; interval_cases j <;> simp [hb])
      · simpa using hb
    rw [this]
    cases c.toBitVec.getLsbD 15 <;> simp
  unfold crcBit
  rw [hm]
  cases hb : c.toBitVec.getLsbD 15
  · simp only [Bool.false_eq_true, if_false, UInt16.toBitVec_shiftLeft]
    interval_cases i <;> simp
  · simp only [if_true, UInt16.toBitVec_xor, UInt16.toBitVec_shiftLeft]
    interval_cases i <;> simp

theorem crcBit_xor (a b : UInt16) : crcBit (a ^^^ b) = crcBit a ^^^ crcBit b := by
  apply UInt16.eq_of_toBitVec_eq
  apply BitVec.eq_of_getLsbD_eq
  intro i hi
  rw [UInt16.toBitVec_xor, BitVec.getLsbD_xor, crcBit_bit _ _ hi, crcBit_bit _ _ hi,
    crcBit_bit _ _ hi, UInt16.toBitVec_xor, BitVec.getLsbD_xor, BitVec.getLsbD_xor]
  cases decide (0 < i) <;> cases a.toBitVec.getLsbD (i - 1) <;>
    cases b.toBitVec.getLsbD (i - 1) <;> cases a.toBitVec.getLsbD 15 <;>
    cases b.toBitVec.getLsbD 15 <;> cases (0x1021#16).getLsbD i <;> rfl

theorem crcBit_eq_zero (c : UInt16) (h : crcBit c = 0) : c = 0 := by
  have hz : ∀ i, i < 16 → (crcBit c).toBitVec.getLsbD i = false := by
    intro i hi; rw [h]; simp
  have h15 : c.toBitVec.getLsbD 15 = false := by
    have := hz 0 (by omega)
    rw [crcBit_bit _ _ (by omega)] at this
    simpa using this
  apply UInt16.eq_of_toBitVec_eq
  apply BitVec.eq_of_getLsbD_eq
  intro i hi
  by_cases hi15 : i = 15
  · subst hi15; simpa using h15
  · have := hz (i + 1) (by omega)
    rw [crcBit_bit _ _ (by omega), h15] at this
    simpa using this

theorem crcBit_inj (a b : UInt16) (h : crcBit a = crcBit b) : a = b := by
  have : crcBit (a ^^^ b) = 0 := by rw [crcBit_xor, h]; simp
  have := crcBit_eq_zero _ this
  exact UInt16.xor_eq_zero_iff.mp this

/-- Eight shift steps. -/
def crc8 (c : UInt16) : UInt16 :=
  crcBit (crcBit (crcBit (crcBit (crcBit (crcBit (crcBit (crcBit c)))))))

theorem crcByte_eq (c : UInt16) (b : UInt8) : crcByte c b = crc8 (c ^^^ (b.toUInt16 <<< 8)) := rfl

theorem crc8_xor (a b : UInt16) : crc8 (a ^^^ b) = crc8 a ^^^ crc8 b := by
  simp only [crc8, crcBit_xor]

theorem crc8_inj (a b : UInt16) (h : crc8 a = crc8 b) : a = b := by
  simp only [crc8] at h
  exact crcBit_inj _ _ (crcBit_inj _ _ (crcBit_inj _ _ (crcBit_inj _ _ (crcBit_inj _ _
    (crcBit_inj _ _ (crcBit_inj _ _ (crcBit_inj _ _ h)))))))

theorem crcByte_inj_crc (b : UInt8) (c c' : UInt16) (h : crcByte c b = crcByte c' b) : c = c' := by
  have := crc8_inj _ _ h
  exact (UInt16.xor_left_inj _).mp this

theorem crc16_inj_crc (l : List UInt8) (c c' : UInt16) (h : crc16 c l = crc16 c' l) : c = c' := by
  induction l generalizing c c' with
  | nil => exact h
  | cons b l ih => exact crcByte_inj_crc b _ _ (ih _ _ h)

/-- The low byte moves to the high byte without feedback in eight steps. -/
theorem crc8_low (b : UInt8) : crc8 b.toUInt16 = b.toUInt16 <<< 8 := by
  have : ∀ n : Fin 256, crc8 (UInt8.ofNat n.val).toUInt16 = (UInt8.ofNat n.val).toUInt16 <<< 8 := by
    decide +kernel
  have := this ⟨b.toNat, b.toNat_lt⟩
  simpa using this

theorem crc16_two (c : UInt16) (a b : UInt8) :
    crcByte (crcByte c a) b = crc8 (crc8 (c ^^^ (a.toUInt16 <<< 8) ^^^ b.toUInt16)) := by
  rw [crcByte_eq, crcByte_eq, crc8_xor (c ^^^ (a.toUInt16 <<< 8)) b.toUInt16, crc8_low]

theorem pack_inj (a b a' b' : UInt8)
    (h : (a.toUInt16 <<< 8) ^^^ b.toUInt16 = (a'.toUInt16 <<< 8) ^^^ b'.toUInt16) :
    a = a' ∧ b = b' := by
  have key : ∀ i, i < 16 → ((a.toUInt16 <<< 8) ^^^ b.toUInt16).toBitVec.getLsbD i =
      ((a'.toUInt16 <<< 8) ^^^ b'.toUInt16).toBitVec.getLsbD i := by intro i _; rw [h]
  constructor
  · apply UInt8.eq_of_toBitVec_eq
    apply BitVec.eq_of_getLsbD_eq
    intro i hi
    have := key (i + 8) (by omega)
    simp only [UInt16.toBitVec_xor, UInt16.toBitVec_shiftLeft, UInt8.toBitVec_toUInt16] at this
    interval_cases i <;> simpa using this
  · apply UInt8.eq_of_toBitVec_eq
    apply BitVec.eq_of_getLsbD_eq
    intro i hi
    have := key i (by omega)
    simp only [UInt16.toBitVec_xor, UInt16.toBitVec_shiftLeft, UInt8.toBitVec_toUInt16] at this
    interval_cases i <;> simpa using this

end WolfHsm.Utils

import Verif.Model.KeyId
import Verif.Proofs.Bits
import Mathlib.Tactic.IntervalCases

namespace WolfHsm.KeyId

theorem typeOf_make (t u i : UInt16) : typeOf (make t u i) = t &&& 0xF := by
  apply _root_.UInt16.eq_of_toBitVec_eq
  apply BitVec.eq_of_getLsbD_eq
  intro j hj
  simp only [typeOf, make, _root_.UInt16.toBitVec_or, _root_.UInt16.toBitVec_and, _root_.UInt16.toBitVec_shiftRight,
    _root_.UInt16.toBitVec_shiftLeft]
  interval_cases j <;> simp

theorem userOf_make (t u i : UInt16) : userOf (make t u i) = u &&& 0xF := by
  apply _root_.UInt16.eq_of_toBitVec_eq
  apply BitVec.eq_of_getLsbD_eq
  intro j hj
  simp only [userOf, make, _root_.UInt16.toBitVec_or, _root_.UInt16.toBitVec_and, _root_.UInt16.toBitVec_shiftRight,
    _root_.UInt16.toBitVec_shiftLeft]
  interval_cases j <;> simp

theorem idOf_make (t u i : UInt16) : idOf (make t u i) = i &&& 0xFF := by
  apply _root_.UInt16.eq_of_toBitVec_eq
  apply BitVec.eq_of_getLsbD_eq
  intro j hj
  simp only [idOf, make, _root_.UInt16.toBitVec_or, _root_.UInt16.toBitVec_and, _root_.UInt16.toBitVec_shiftLeft]
  interval_cases j <;> simp

theorem make_parts (k : UInt16) : make (typeOf k) (userOf k) (idOf k) = k := by
  apply _root_.UInt16.eq_of_toBitVec_eq
  apply BitVec.eq_of_getLsbD_eq
  intro j hj
  simp only [typeOf, userOf, idOf, make, _root_.UInt16.toBitVec_or, _root_.UInt16.toBitVec_and,
    _root_.UInt16.toBitVec_shiftRight, _root_.UInt16.toBitVec_shiftLeft]
  interval_cases j <;> simp

theorem and_F {u : UInt16} (h : u < 16) : u &&& 0xF = u := by
  apply _root_.UInt16.toNat_inj.mp
  have h' : u.toNat < 16 := h
  rw [_root_.UInt16.toNat_and]
  have : (0xF : UInt16).toNat = 2 ^ 4 - 1 := by decide
  rw [this, Nat.and_two_pow_sub_one_eq_mod]
  exact Nat.mod_eq_of_lt h'

theorem and_FF_FF (i : UInt16) : i &&& 0xFF &&& 0xFF = i &&& 0xFF := by
  rw [_root_.UInt16.and_assoc]; congr 1

theorem userOf_lt (k : UInt16) : userOf k < 16 := by
  have : (userOf k).toNat < 16 := by
    simp only [userOf, _root_.UInt16.toNat_shiftRight, _root_.UInt16.toNat_and]
    have h : k.toNat &&& (0x0F00 : UInt16).toNat ≤ 0x0F00 := Nat.and_le_right
    have : (8 : UInt16).toNat % 16 = 8 := by decide
    rw [this, Nat.shiftRight_eq_div_pow]
    omega
  exact this

theorem typeOf_lt (k : UInt16) : typeOf k < 16 := by
  have : (typeOf k).toNat < 16 := by
    simp only [typeOf, _root_.UInt16.toNat_shiftRight, _root_.UInt16.toNat_and]
    have h : k.toNat &&& (0xF000 : UInt16).toNat ≤ 0xF000 := Nat.and_le_right
    have : (12 : UInt16).toNat % 16 = 12 := by decide
    rw [this, Nat.shiftRight_eq_div_pow]
    omega
  exact this

theorem ext_fields {k k' : UInt16} (ht : typeOf k = typeOf k') (hu : userOf k = userOf k')
    (hi : idOf k = idOf k') : k = k' := by
  rw [← make_parts k, ← make_parts k', ht, hu, hi]

theorem idOf_and_FF (k : UInt16) : idOf k &&& 0xFF = idOf k := and_FF_FF k

/-- A client request id is its id byte plus its other bits. -/
theorem flag_of_or (x : UInt16) (g w h : Bool) :
    let r := idOf x ||| (if g then globalFlag else 0) ||| (if w then wrappedFlag else 0) |||
      (if h then hwFlag else 0)
    idOf r = idOf x ∧ ((r &&& globalFlag) != 0) = g ∧ ((r &&& wrappedFlag) != 0) = w ∧
      ((r &&& hwFlag) != 0) = h := by
  have e1 : ∀ f : UInt16, f &&& 0xFF = 0 → ∀ y : UInt16, idOf (y ||| f) = idOf y := by
    intro f hf y
    unfold idOf
    rw [WolfHsm.UInt16.or_and_right, hf, _root_.UInt16.or_zero]
  have hx : ∀ f : UInt16, f &&& 0xFF = 0 → idOf x &&& f = 0 := by
    intro f hf
    unfold idOf
    rw [_root_.UInt16.and_assoc, _root_.UInt16.and_comm 0xFF f, hf, _root_.UInt16.and_zero]
  refine ⟨?_, ?_, ?_, ?_⟩
  · rw [e1 _ (by cases h <;> decide), e1 _ (by cases w <;> decide), e1 _ (by cases g <;> decide)]
    exact and_FF_FF x
  all_goals
    rw [WolfHsm.UInt16.or_and_right, WolfHsm.UInt16.or_and_right, WolfHsm.UInt16.or_and_right,
      hx _ (by decide)]
    cases g <;> cases w <;> cases h <;> decide

end WolfHsm.KeyId

/-! Bitwise lemmas on fixed-width integers missing from the library. -/

namespace WolfHsm

theorem UInt16.or_and_right (a b c : UInt16) : (a ||| b) &&& c = (a &&& c) ||| (b &&& c) := by
  apply _root_.UInt16.eq_of_toBitVec_eq
  apply BitVec.eq_of_getLsbD_eq
  intro i hi
  simp only [_root_.UInt16.toBitVec_or, _root_.UInt16.toBitVec_and, BitVec.getLsbD_or, BitVec.getLsbD_and]
  cases a.toBitVec.getLsbD i <;> cases b.toBitVec.getLsbD i <;> simp

end WolfHsm

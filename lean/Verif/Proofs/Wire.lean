import Verif.Model.Wire
import Verif.Props.Utils

/-! # Reading fields written by the other side -/

namespace WolfHsm.Wire

open Utils

theorem bytes16_len (le : Bool) (v : UInt16) : (bytes16 le v).length = 2 := by cases le <;> rfl
theorem bytes32_len (le : Bool) (v : UInt32) : (bytes32 le v).length = 4 := by cases le <;> rfl
theorem bytes64_len (le : Bool) (v : UInt64) : (bytes64 le v).length = 8 := by cases le <;> rfl
theorem w16_length (le : Bool) (m : UInt16) (v : UInt16) : (w16 le m v).length = 2 := bytes16_len ..
theorem w32_length (le : Bool) (m : UInt16) (v : UInt32) : (w32 le m v).length = 4 := bytes32_len ..
theorem w64_length (le : Bool) (m : UInt16) (v : UInt64) : (w64 le m v).length = 8 := bytes64_len ..

theorem over_length {f b : List UInt8} {n : Nat} (h : f.length ≤ n) : (over f b n).length = n := by
  unfold over; simp; omega

/-- Two hosts whose swaps and byte orders fit: they swap together exactly when their byte orders
agree. -/
def Paired (a b : Bool) (ma mb : UInt16) : Prop := (swapTest ma = swapTest mb) ↔ a = b

theorem paired_server (cle sle : Bool) {m : UInt16}
    (hm : m = if sle = cle then magicNative else magicSwap) : Paired cle sle magicNative m := by
  subst hm; cases cle <;> cases sle <;> unfold Paired <;> decide

theorem Paired.symm {a b : Bool} {ma mb : UInt16} (h : Paired a b ma mb) : Paired b a mb ma :=
  ⟨fun e => (h.1 e.symm).symm, fun e => (h.2 e.symm).symm⟩

theorem read_w16 {a b : Bool} {ma mb : UInt16} (h : Paired a b ma mb) (v : UInt16) :
    translate16 ma ((read16 a (w16 b mb v)).getD 0) = v := by
  unfold w16
  by_cases e : a = b
  · subst e
    rw [read16_bytes16]
    have := h.2 rfl
    simp only [translate16, Option.getD_some, this]
    split <;> simp [swap16_swap16]
  · have hb : b = !a := by cases a <;> cases b <;> simp_all
    have hs : swapTest ma ≠ swapTest mb := fun q => e (h.1 q)
    subst hb
    rw [bytes16_not, Bool.not_not, read16_bytes16]
    simp only [translate16, Option.getD_some]
    cases h1 : swapTest ma <;> cases h2 : swapTest mb <;> simp_all [swap16_swap16]

theorem read_w32 {a b : Bool} {ma mb : UInt16} (h : Paired a b ma mb) (v : UInt32) :
    translate32 ma ((read32 a (w32 b mb v)).getD 0) = v := by
  unfold w32
  by_cases e : a = b
  · subst e
    rw [read32_bytes32]
    have := h.2 rfl
    simp only [translate32, Option.getD_some, this]
    split <;> simp [swap32_swap32]
  · have hb : b = !a := by cases a <;> cases b <;> simp_all
    have hs : swapTest ma ≠ swapTest mb := fun q => e (h.1 q)
    subst hb
    rw [bytes32_not, Bool.not_not, read32_bytes32]
    simp only [translate32, Option.getD_some]
    cases h1 : swapTest ma <;> cases h2 : swapTest mb <;> simp_all [swap32_swap32]

theorem read_w64 {a b : Bool} {ma mb : UInt16} (h : Paired a b ma mb) (v : UInt64) :
    translate64 ma ((read64 a (w64 b mb v)).getD 0) = v := by
  unfold w64
  by_cases e : a = b
  · subst e
    rw [read64_bytes64]
    have := h.2 rfl
    simp only [translate64, Option.getD_some, this]
    split <;> simp [swap64_swap64]
  · have hb : b = !a := by cases a <;> cases b <;> simp_all
    have hs : swapTest ma ≠ swapTest mb := fun q => e (h.1 q)
    subst hb
    rw [bytes64_not, Bool.not_not, read64_bytes64]
    simp only [translate64, Option.getD_some]
    cases h1 : swapTest ma <;> cases h2 : swapTest mb <;> simp_all [swap64_swap64]

/-- The field behind a prefix of the right length. -/
theorem take_at {pre f post : List UInt8} {off n : Nat} (hp : pre.length = off) (hf : f.length = n) :
    ((pre ++ (f ++ post)).drop off).take n = f := by
  rw [List.drop_left' hp, List.take_left' hf]

theorem rd16_at {a b : Bool} {ma mb : UInt16} (h : Paired a b ma mb) (v : UInt16)
    {pre post : List UInt8} {off : Nat} (hp : pre.length = off) :
    rd16 a ma (pre ++ (w16 b mb v ++ post)) off = v := by
  unfold rd16; rw [take_at hp (w16_length ..)]; exact read_w16 h v
theorem rd32_at {a b : Bool} {ma mb : UInt16} (h : Paired a b ma mb) (v : UInt32)
    {pre post : List UInt8} {off : Nat} (hp : pre.length = off) :
    rd32 a ma (pre ++ (w32 b mb v ++ post)) off = v := by
  unfold rd32; rw [take_at hp (w32_length ..)]; exact read_w32 h v
theorem rd64_at {a b : Bool} {ma mb : UInt16} (h : Paired a b ma mb) (v : UInt64)
    {pre post : List UInt8} {off : Nat} (hp : pre.length = off) :
    rd64 a ma (pre ++ (w64 b mb v ++ post)) off = v := by
  unfold rd64; rw [take_at hp (w64_length ..)]; exact read_w64 h v
theorem rdBytes_at {f pre post : List UInt8} {off n : Nat} (hp : pre.length = off) (hf : f.length = n) :
    rdBytes (pre ++ (f ++ post)) off n = f := take_at hp hf

end WolfHsm.Wire

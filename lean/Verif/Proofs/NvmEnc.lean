import Verif.Model.NvmFlash
import Verif.Proofs.FlashWp
import Mathlib.Tactic.IntervalCases

/-! # Encoding lemmas for the flash NVM: state words and metadata -/

namespace WolfHsm.NvmFlash

open Flash FlashUnit

@[simp] theorem unitBytes_length (n : Nat) : (unitBytes n).length = 8 := by simp [unitBytes]

theorem unitBytes_eq (n : Nat) : unitBytes n =
    [UInt8.ofNat (n % 256), UInt8.ofNat (n / 256 % 256), UInt8.ofNat (n / 65536 % 256),
     UInt8.ofNat (n / 16777216 % 256), UInt8.ofNat (n / 4294967296 % 256),
     UInt8.ofNat (n / 1099511627776 % 256), UInt8.ofNat (n / 281474976710656 % 256),
     UInt8.ofNat (n / 72057594037927936 % 256)] := by
  simp [unitBytes, show List.range 8 = [0,1,2,3,4,5,6,7] from rfl]

theorem unitVal_unitBytes {n : Nat} (h : n < 2 ^ 64) : unitVal (unitBytes n) = n := by
  rw [unitBytes_eq]
  simp only [unitVal, show List.range 8 = [0,1,2,3,4,5,6,7] from rfl, List.foldr,
    List.getD_cons_zero, List.getD_cons_succ, UInt8.toNat_ofNat', Nat.mod_mod]
  show (_ : Nat) % 2 ^ 64 = n
  omega

theorem or_low {a x : Nat} (ha : a % 2 ^ 32 = 0) (hx : x < 2 ^ 32) : a ||| x = a + x := by
  have h : a = 2 ^ 32 * (a / 2 ^ 32) := by omega
  have := Nat.two_pow_add_eq_or_of_lt hx (a / 2 ^ 32)
  rw [← h] at this
  exact this.symm

theorem base_or {x : Nat} (hx : x < 2 ^ 32) : BASE_STATE ||| x = BASE_STATE + x :=
  or_low (by decide) hx

theorem crcBase_or {k x : Nat} (hk : k < 2 ^ 16) (hx : x < 2 ^ 32) :
    CRC_BASE_STATE ||| (k * 2 ^ 32) ||| x = CRC_BASE_STATE + k * 2 ^ 32 + x := by
  have h1 : CRC_BASE_STATE ||| (k * 2 ^ 32) = CRC_BASE_STATE + k * 2 ^ 32 := by
    have h : CRC_BASE_STATE = 2 ^ 48 * 0x1234 := by decide
    rw [h]
    exact (Nat.two_pow_add_eq_or_of_lt (by omega) _).symm
  rw [h1]
  exact or_low (by unfold CRC_BASE_STATE; omega) hx

/-- A well-formed state word: 64 bits, magic `0x1234` on top. -/
def IsWord (w : Nat) : Prop := w / 2 ^ 48 = 0x1234

theorem IsWord.lt {w : Nat} (h : IsWord w) : w < 2 ^ 64 := by unfold IsWord at h; omega

theorem isWord_base {x : Nat} (hx : x < 2 ^ 32) : IsWord (BASE_STATE ||| x) := by
  rw [base_or hx]; unfold IsWord BASE_STATE; omega

theorem base_mod {x : Nat} (hx : x < 2 ^ 32) : (BASE_STATE ||| x) % 2 ^ 32 = x := by
  rw [base_or hx]; unfold BASE_STATE; omega

variable {c : Cfg}

theorem isWord_start {x k : Nat} (hx : x < 2 ^ 32) (hk : k < 2 ^ 16) :
    IsWord (startWord c x k) := by
  unfold startWord
  split
  · rw [crcBase_or hk hx]; unfold IsWord CRC_BASE_STATE; omega
  · exact isWord_base hx

theorem startWord_mod {x k : Nat} (hx : x < 2 ^ 32) (hk : k < 2 ^ 16) :
    startWord c x k % 2 ^ 32 = x := by
  unfold startWord
  split
  · rw [crcBase_or hk hx]; unfold CRC_BASE_STATE; omega
  · exact base_mod hx

theorem startWord_crc {x k : Nat} (hx : x < 2 ^ 32) (hk : k < 2 ^ 16) (hc : c.crc = true) :
    crcExtract (startWord c x k) = k := by
  unfold startWord
  rw [if_pos hc, crcBase_or hk hx]
  unfold crcExtract CRC_BASE_STATE; omega

theorem countWord_eq (x k : Nat) : countWord c x k = startWord c x k := rfl

/-- A state word is never blank, whatever the erased byte is. -/
theorem word_not_blank {d : Dev} {m : Mem} {a w : Nat} (hw : IsWord w)
    (h : rd m a 8 = unitBytes w) : isBlank d m a 8 = false := by
  rw [Bool.eq_false_iff]
  intro hb
  simp only [isBlank, h, unitBytes_eq, List.all_cons, List.all_nil, Bool.and_true,
    Bool.and_eq_true, beq_iff_eq] at hb
  obtain ⟨-, -, -, -, -, -, h6, h7⟩ := hb
  have h8 := congrArg UInt8.toNat (h6.trans h7.symm)
  unfold IsWord at hw
  simp only [UInt8.toNat_ofNat'] at h8
  have e1 : w / 281474976710656 = 0x1234 := hw
  have e2 : w / 72057594037927936 = w / 281474976710656 / 256 := by omega
  rw [e2, e1] at h8
  exact absurd h8 (by decide)

/-! ## Metadata -/

theorem of16_le16 (v : UInt16) : of16 v.toUInt8 (v >>> 8).toUInt8 = v := by
  apply UInt16.eq_of_toBitVec_eq
  apply BitVec.eq_of_getLsbD_eq
  intro i hi
  simp only [of16, UInt16.toBitVec_or, UInt16.toBitVec_shiftLeft, UInt16.toBitVec_shiftRight,
    UInt8.toBitVec_toUInt16, UInt16.toBitVec_toUInt8]
  interval_cases i <;> simp

@[simp] theorem ser_length (md : Meta) : md.ser.length = 32 := by
  simp [Meta.ser, le16]

theorem deser_ser (md : Meta) : Meta.deser md.ser = md := by
  obtain ⟨id, access, flags, len, label⟩ := md
  simp only [Meta.deser, Meta.ser, le16, List.cons_append, List.nil_append,
    List.getD_cons_zero, List.getD_cons_succ, of16_le16, Meta.mk.injEq, true_and]
  apply Vector.ext
  intro i hi
  simp only [Vector.getElem_ofFn]
  have : ∀ (a0 a1 a2 a3 a4 a5 a6 a7 : UInt8) (l : List UInt8),
      (a0 :: a1 :: a2 :: a3 :: a4 :: a5 :: a6 :: a7 :: l).getD (8 + i) 0 = l.getD i 0 := by
    intros
    rw [Nat.add_comm 8 i]
    simp only [List.getD_eq_getElem?_getD, List.getElem?_cons_succ]
  rw [this, List.getD_eq_getElem?_getD, List.getElem?_eq_getElem (by simpa using hi)]
  simp

theorem crcOf_lt (bs : List UInt8) : crcOf bs < 2 ^ 16 := by
  unfold crcOf; exact UInt16.toNat_lt _

end WolfHsm.NvmFlash

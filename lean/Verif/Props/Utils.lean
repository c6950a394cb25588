import Verif.Model.Utils
import Verif.Proofs.Utils

/-!
# C40 (helpers) and C25 (byte order of scalar message fields)
-/

namespace WolfHsm.Utils

/-! ### Constant-time compare and zero test -/

theorem ccLoop_spec (a b : List UInt8) (n : Nat) : ∀ (i : Nat) (acc : UInt8),
    i + n ≤ a.length → i + n ≤ b.length →
    ∃ r, ccLoop a b i n acc = some r ∧
      (r = 0 ↔ acc = 0 ∧ ∀ j, i ≤ j → j < i + n → a[j]? = b[j]?) := by
  induction n with
  | zero =>
    intro i acc _ _
    refine ⟨acc, rfl, ?_⟩
    constructor
    · intro h; exact ⟨h, fun j h1 h2 => by omega⟩
    · exact fun h => h.1
  | succ n ih =>
    intro i acc ha hb
    have hia : i < a.length := by omega
    have hib : i < b.length := by omega
    obtain ⟨r, hr, hiff⟩ := ih (i + 1) (acc ||| (a[i] ^^^ b[i])) (by omega) (by omega)
    refine ⟨r, ?_, ?_⟩
    · simp [ccLoop, hia, hib, hr]
    · rw [hiff, UInt8.or_eq_zero_iff, UInt8.xor_eq_zero_iff]
      constructor
      · rintro ⟨⟨h0, h1⟩, h2⟩
        refine ⟨h0, fun j hj1 hj2 => ?_⟩
        by_cases hji : j = i
        · subst hji; simp [hia, hib, h1]
        · exact h2 j (by omega) (by omega)
      · rintro ⟨h0, h1⟩
        refine ⟨⟨h0, ?_⟩, fun j hj1 hj2 => h1 j (by omega) (by omega)⟩
        have := h1 i (by omega) (by omega)
        simpa [hia, hib] using this

/-- **C40.** `wh_Utils_ConstantCompare(a, b, n)` on buffers holding at least `n`
bytes never reads outside them and returns 0 exactly when the first `n` bytes
agree. -/
theorem C40_constantCompare (a b : List UInt8) (n : Nat)
    (ha : n ≤ a.length) (hb : n ≤ b.length) :
    ∃ r, constantCompare a b n = some r ∧ (r = 0 ↔ a.take n = b.take n) := by
  obtain ⟨r, hr, hiff⟩ := ccLoop_spec a b n 0 0 (by omega) (by omega)
  refine ⟨r.toNat, by simp [constantCompare, hr], ?_⟩
  have h0 : ((r.toNat : Int) = 0) ↔ r = 0 := by
    constructor
    · intro h
      apply UInt8.toNat_inj.mp
      simpa using h
    · intro h; simp [h]
  rw [h0, hiff]
  simp only [true_and]
  constructor
  · intro h
    apply List.ext_getElem?
    intro i
    by_cases hi : i < n
    · simpa [List.getElem?_take, hi] using h i (by omega) (by omega)
    · simp [hi]
  · intro h j _ hj
    have := congrArg (fun l => l[j]?) h
    have hj' : j < n := by omega
    simpa [List.getElem?_take, hj'] using this

example : ∃ r, constantCompare [1, 2, 3] [1, 2, 4] 2 = some r ∧ r = 0 := ⟨0, by decide⟩
example : ∃ r, constantCompare [1, 2, 3] [1, 2, 4] 3 = some r ∧ r ≠ 0 := ⟨7, by decide⟩

/-- **C40.** `wh_Utils_memeqzero(buf, n)` stays inside the buffer and returns 1
exactly when the first `n` bytes are all zero. -/
theorem C40_memeqzero (buf : List UInt8) (n : Nat) (h : n ≤ buf.length) :
    memeqzero buf n = some (decide (∀ b ∈ buf.take n, b = 0)) := by
  induction n with
  | zero => simp [memeqzero]
  | succ n ih =>
    have hn : n < buf.length := by omega
    have ht : ∀ b, b ∈ buf.take (n + 1) ↔ b ∈ buf.take n ∨ b = buf[n] := by
      intro b
      rw [List.take_add_one, List.mem_append, List.getElem?_eq_getElem hn, Option.toList_some,
        List.mem_singleton]
    simp only [memeqzero, List.getElem?_eq_getElem hn]
    by_cases hz : buf[n] = 0
    · simp only [hz, bne_self_eq_false, Bool.false_eq_true, if_false, ih (by omega)]
      congr 1
      simp only [decide_eq_decide]
      constructor
      · intro h b hb
        rcases (ht b).mp hb with hb | hb
        · exact h b hb
        · rw [hb, hz]
      · exact fun h b hb => h b ((ht b).mpr (Or.inl hb))
    · have : ¬ ∀ b ∈ buf.take (n + 1), b = 0 := fun hh => hz (hh _ ((ht _).mpr (Or.inr rfl)))
      simp only [this, decide_false]
      simp [hz]

example : memeqzero [0, 0, 5] 2 = some true ∧ memeqzero [0, 0, 5] 3 = some false := by decide

/-- `wh_Utils_ForceZero` clears exactly the first `n` bytes. -/
theorem C40_forceZero (buf : List UInt8) (n i : Nat) :
    (forceZero buf n)[i]? = if i < n then (if i < buf.length then some 0 else none) else buf[i]? := by
  unfold forceZero
  by_cases hin : i < n
  · by_cases hib : i < buf.length
    · rw [List.getElem?_append_left (by simp; omega)]
      simp [hin, hib]
    · rw [List.getElem?_eq_none (by simp; omega)]
      simp [hin, hib]
  · by_cases hib : n ≤ buf.length
    · rw [List.getElem?_append_right (by simp; omega)]
      simp only [List.length_replicate, List.getElem?_drop, hin, if_false]
      congr 1; omega
    · rw [List.getElem?_eq_none (by simp; omega)]
      simp [hin]; omega

/-! ### Byte swaps -/

/-- **C40.** Each swap reverses the bytes in memory and is its own inverse. -/
theorem C40_swap16 (v : UInt16) :
    bytes16 true (swap16 v) = (bytes16 true v).reverse ∧ swap16 (swap16 v) = v :=
  ⟨bytes16_swap16 v, swap16_swap16 v⟩
theorem C40_swap32 (v : UInt32) :
    bytes32 true (swap32 v) = (bytes32 true v).reverse ∧ swap32 (swap32 v) = v :=
  ⟨bytes32_swap32 v, swap32_swap32 v⟩
theorem C40_swap64 (v : UInt64) :
    bytes64 true (swap64 v) = (bytes64 true v).reverse ∧ swap64 (swap64 v) = v :=
  ⟨bytes64_swap64 v, swap64_swap64 v⟩

example : swap32 0x11223344 = 0x44332211 := by decide
example : swap64 0x1122334455667788 = 0x8877665544332211 := by decide

/-! ### CRC-16 -/

/-- **C40.** The CRC may be computed in chunks. -/
theorem C40_crc_append (c : UInt16) (a b : List UInt8) :
    crc16 (crc16 c a) b = crc16 c (a ++ b) := by
  simp [crc16, List.foldl_append]

/-- **C40.** Any corruption confined to two adjacent bytes (so any burst of up
to nine bits and every single-byte error) is detected, in a message of any
length and for any starting value. -/
theorem C40_crc_detects_two_bytes (c : UInt16) (pre post : List UInt8) (a b a' b' : UInt8)
    (h : (a, b) ≠ (a', b')) :
    crc16 c (pre ++ [a, b] ++ post) ≠ crc16 c (pre ++ [a', b'] ++ post) := by
  intro heq
  apply h
  rw [← C40_crc_append, ← C40_crc_append, ← C40_crc_append, ← C40_crc_append] at heq
  have h1 := crc16_inj_crc _ _ _ heq
  simp only [crc16, List.foldl_cons, List.foldl_nil] at h1
  rw [crc16_two, crc16_two] at h1
  have h2 := crc8_inj _ _ (crc8_inj _ _ h1)
  rw [UInt16.xor_assoc, UInt16.xor_assoc] at h2
  obtain ⟨ha, hb⟩ := pack_inj _ _ _ _ ((UInt16.xor_right_inj _).mp h2)
  rw [ha, hb]

/-- **C40.** A single corrupted byte is detected. -/
theorem C40_crc_detects_byte (c : UInt16) (pre post : List UInt8) (a a' : UInt8) (h : a ≠ a') :
    crc16 c (pre ++ [a] ++ post) ≠ crc16 c (pre ++ [a'] ++ post) := by
  intro heq
  apply h
  rw [← C40_crc_append, ← C40_crc_append, ← C40_crc_append, ← C40_crc_append] at heq
  have h1 := crc16_inj_crc _ _ _ heq
  simp only [crc16, List.foldl_cons, List.foldl_nil] at h1
  have h2 := crc8_inj _ _ h1
  have h3 : (a.toUInt16 <<< 8) ^^^ (0 : UInt8).toUInt16 = (a'.toUInt16 <<< 8) ^^^ (0 : UInt8).toUInt16 := by
    rw [(UInt16.xor_right_inj _).mp h2]
  exact (pack_inj _ _ _ _ h3).1

/-- The check value of CRC-16/CCITT-FALSE ("123456789" gives 0x29B1). -/
example : crc16 crc16Init [0x31, 0x32, 0x33, 0x34, 0x35, 0x36, 0x37, 0x38, 0x39] = 0x29B1 := by
  decide +kernel
example : crc16 crc16Init ([7] ++ [1, 2] ++ [9]) ≠ crc16 crc16Init ([7] ++ [1, 3] ++ [9]) := by
  decide +kernel

/-! ### C25: scalar fields mean the same on both byte orders -/

theorem swapTest_native : swapTest magicNative = true := by decide
theorem swapTest_swapped : swapTest (swap16 magicNative) = false := by decide

theorem bytes16_not (le : Bool) (v : UInt16) : bytes16 le v = bytes16 (!le) (swap16 v) := by
  have h := bytes16_swap16 v
  cases le
  · simp only [Bool.not_false]; rw [h]; rfl
  · have h' := congrArg List.reverse (bytes16_swap16 v)
    rw [List.reverse_reverse] at h'
    exact h'.symm
theorem bytes32_not (le : Bool) (v : UInt32) : bytes32 le v = bytes32 (!le) (swap32 v) := by
  have h := bytes32_swap32 v
  cases le
  · simp only [Bool.not_false]; rw [h]; rfl
  · have h' := congrArg List.reverse (bytes32_swap32 v)
    rw [List.reverse_reverse] at h'
    exact h'.symm
theorem bytes64_not (le : Bool) (v : UInt64) : bytes64 le v = bytes64 (!le) (swap64 v) := by
  have h := bytes64_swap64 v
  cases le
  · simp only [Bool.not_false]; rw [h]; rfl
  · have h' := congrArg List.reverse (bytes64_swap64 v)
    rw [List.reverse_reverse] at h'
    exact h'.symm

/-- What the receiver finds in the magic field written natively by the sender. -/
theorem read_magic (s r : Bool) : read16 r (bytes16 s magicNative) =
    some (if s = r then magicNative else magicSwap) := by
  cases s <;> cases r <;> decide

/-- **C25.** A 16-bit field stored natively by a sender of either byte order,
read natively by a receiver of either byte order and passed through
`wh_Translate16` with the magic found in the same packet is the sender's value.
The same for 32 and 64 bits. -/
theorem C25_translate16 (s r : Bool) (v : UInt16) (m w : UInt16)
    (hm : read16 r (bytes16 s magicNative) = some m) (hw : read16 r (bytes16 s v) = some w) :
    translate16 m w = v := by
  rw [read_magic] at hm
  by_cases h : s = r
  · subst h
    simp only [if_true, Option.some.injEq] at hm
    rw [read16_bytes16, Option.some.injEq] at hw
    subst hm; subst hw; simp [translate16, swapTest_native]
  · have hr : r = !s := by cases s <;> cases r <;> simp_all
    simp only [h, if_false, Option.some.injEq] at hm
    rw [bytes16_not, hr, read16_bytes16, Option.some.injEq] at hw
    subst hm; subst hw
    have : swapTest magicSwap = false := by decide
    simp [translate16, this, swap16_swap16]
theorem C25_translate32 (s r : Bool) (v : UInt32) (m : UInt16) (w : UInt32)
    (hm : read16 r (bytes16 s magicNative) = some m) (hw : read32 r (bytes32 s v) = some w) :
    translate32 m w = v := by
  rw [read_magic] at hm
  by_cases h : s = r
  · subst h
    simp only [if_true, Option.some.injEq] at hm
    rw [read32_bytes32, Option.some.injEq] at hw
    subst hm; subst hw; simp [translate32, swapTest_native]
  · have hr : r = !s := by cases s <;> cases r <;> simp_all
    simp only [h, if_false, Option.some.injEq] at hm
    rw [bytes32_not, hr, read32_bytes32, Option.some.injEq] at hw
    subst hm; subst hw
    have : swapTest magicSwap = false := by decide
    simp [translate32, this, swap32_swap32]
theorem C25_translate64 (s r : Bool) (v : UInt64) (m : UInt16) (w : UInt64)
    (hm : read16 r (bytes16 s magicNative) = some m) (hw : read64 r (bytes64 s v) = some w) :
    translate64 m w = v := by
  rw [read_magic] at hm
  by_cases h : s = r
  · subst h
    simp only [if_true, Option.some.injEq] at hm
    rw [read64_bytes64, Option.some.injEq] at hw
    subst hm; subst hw; simp [translate64, swapTest_native]
  · have hr : r = !s := by cases s <;> cases r <;> simp_all
    simp only [h, if_false, Option.some.injEq] at hm
    rw [bytes64_not, hr, read64_bytes64, Option.some.injEq] at hw
    subst hm; subst hw
    have : swapTest magicSwap = false := by decide
    simp [translate64, this, swap64_swap64]

/-- **C25.** Translating for the peer and back is the identity for every magic
(also foreign ones). -/
theorem C25_translate_involution (m : UInt16) (a : UInt16) (b : UInt32) (c : UInt64) :
    translate16 m (translate16 m a) = a ∧ translate32 m (translate32 m b) = b ∧
    translate64 m (translate64 m c) = c := by
  unfold translate16 translate32 translate64
  cases swapTest m <;> simp [swap16_swap16, swap32_swap32, swap64_swap64]

/-- The hypotheses are met: a big-endian sender's 0x01020304 at a little-endian
receiver. -/
example : read16 true (bytes16 false magicNative) = some 0x01A5 ∧
    read32 true (bytes32 false 0x01020304) = some 0x04030201 ∧
    translate32 0x01A5 0x04030201 = 0x01020304 := by decide

end WolfHsm.Utils

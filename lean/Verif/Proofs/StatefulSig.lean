import Verif.Proofs.KeystoreCoh
import Verif.Spec.StatefulSig

/-! # Stateful signatures: the slot format -/

namespace WolfHsm.StatefulSig

open NvmFlash (Meta)
open Keystore (Sys Srv CKey)

theorem put16_length (le : Bool) (n : Nat) : (put16 le n).length = 2 := by
  unfold put16; cases le <;> rfl

theorem put32_length (le : Bool) (n : Nat) : (put32 le n).length = 4 := by
  unfold put32; cases le <;> simp [put16_length]

theorem at8_append {l r : List UInt8} {i : Nat} (h : i < l.length) : at8 (l ++ r) i = at8 l i := by
  unfold at8; simp [List.getD_eq_getElem?_getD, List.getElem?_append_left h]

theorem at8_right {l r : List UInt8} {i n : Nat} (h : n = l.length) : at8 (l ++ r) (n + i) = at8 r i := by
  subst h
  unfold at8
  rw [List.getD_eq_getElem?_getD, List.getElem?_append_right (by omega), List.getD_eq_getElem?_getD]
  congr 3; omega

theorem at16_append {le : Bool} {l r : List UInt8} {i : Nat} (h : i + 1 < l.length) :
    at16 le (l ++ r) i = at16 le l i := by
  unfold at16; rw [at8_append (by omega), at8_append h]

theorem at16_right {le : Bool} {l r : List UInt8} {i n : Nat} (h : n = l.length) :
    at16 le (l ++ r) (n + i) = at16 le r i := by
  unfold at16; rw [at8_right h, Nat.add_assoc, at8_right h]

theorem at16_put16 {le : Bool} {n : Nat} (h : n < 65536) : at16 le (put16 le n) 0 = n := by
  unfold at16 put16
  cases le <;> simp [at8] <;> omega

theorem at32_put32 {le : Bool} {n : Nat} (h : n < 4294967296) : at32 le (put32 le n) 0 = n := by
  unfold at32 put32
  cases le
  · simp only [Bool.false_eq_true, if_false]
    rw [at16_append (by simp [put16_length]), at16_right (i := 0) (n := 0 + 2) (by simp [put16_length])]
    rw [at16_put16 (n := n / 65536) (by omega)]
    have : at16 false (put16 false n) 0 = n % 65536 := by
      simp [at16, put16, at8]; omega
    rw [this]; omega
  · simp only [if_true]
    rw [at16_append (by simp [put16_length]), at16_right (i := 0) (n := 0 + 2) (by simp [put16_length])]
    rw [at16_put16 (n := n / 65536) (by omega)]
    have : at16 true (put16 true n) 0 = n % 65536 := by
      simp [at16, put16, at8]; omega
    rw [this]; omega

theorem at8_drop (d : List UInt8) (k i : Nat) : at8 (d.drop k) i = at8 d (k + i) := by
  unfold at8; simp [List.getD_eq_getElem?_getD]

theorem at8_take {d : List UInt8} {k i : Nat} (h : i < k) : at8 (d.take k) i = at8 d i := by
  unfold at8; simp [List.getD_eq_getElem?_getD, h]

theorem at16_drop (le : Bool) (d : List UInt8) (k i : Nat) :
    at16 le (d.drop k) i = at16 le d (k + i) := by
  unfold at16; simp only [at8_drop, Nat.add_assoc]

theorem at16_take {le : Bool} {d : List UInt8} {k i : Nat} (h : i + 1 < k) :
    at16 le (d.take k) i = at16 le d i := by
  unfold at16; rw [at8_take (by omega), at8_take h]

theorem at16_lt (le : Bool) (d : List UInt8) (i : Nat) : at16 le d i < 65536 := by
  have h : ∀ j, at8 d j < 256 := fun j => UInt8.toNat_lt _
  unfold at16
  have := h i; have := h (i + 1)
  split <;> omega

theorem at32_congr {le : Bool} {d d' : List UInt8} {i : Nat} (h0 : at16 le d i = at16 le d' i)
    (h2 : at16 le d (i + 2) = at16 le d' (i + 2)) : at32 le d i = at32 le d' i := by
  unfold at32; rw [h0, h2]

/-! ## Advancing a slot -/

/-- The parts of a slot that loads. -/
structure Loads (cfg : Cfg) (a : Alg) (d : List UInt8) (h : Hdr) (privSz : Nat)
    (pub priv : List UInt8) : Prop where
  hdr : h = hdr cfg.le d
  len : 12 ≤ d.length
  magic : h.magic = a.magic
  reserved : h.reserved = 0
  room : 12 + h.paramLen + h.pubLen + h.privLen ≤ d.length
  paramOk : paramOk a ((d.drop 12).take h.paramLen) = true
  params : (cfg.lib a).params ((d.drop 12).take h.paramLen) = .ok (h.pubLen, privSz)
  privLen : h.privLen = 0 ∨ h.privLen = privSz
  fits : h.privOff + privSz ≤ d.length
  pubEq : pub = (d.drop (12 + h.paramLen)).take h.pubLen
  privEq : priv = (d.drop h.privOff).take privSz
  reload : (cfg.lib a).reload pub priv = .ok

theorem load_iff {cfg : Cfg} {a : Alg} {d : List UInt8} {h : Hdr} {pub priv : List UInt8} :
    load cfg a d = .ok (h, pub, priv) ↔ ∃ privSz, Loads cfg a d h privSz pub priv := by
  unfold load deserialize
  constructor
  · intro hl
    dsimp only at hl
    by_cases h1 : d.length < 12
    · rw [if_pos h1] at hl; cases hl
    by_cases h2 : (hdr cfg.le d).magic ≠ a.magic ∨ (hdr cfg.le d).reserved ≠ 0
    · rw [if_neg h1, if_pos h2] at hl; cases hl
    by_cases h3 : 12 + (hdr cfg.le d).paramLen + (hdr cfg.le d).pubLen + (hdr cfg.le d).privLen > d.length
    · rw [if_neg h1, if_neg h2, if_pos h3] at hl; cases hl
    by_cases h4 : (!paramOk a ((d.drop 12).take (hdr cfg.le d).paramLen)) = true
    · rw [if_neg h1, if_neg h2, if_neg h3, if_pos h4] at hl; cases hl
    rw [if_neg h1, if_neg h2, if_neg h3, if_neg h4] at hl
    rcases h5 : (cfg.lib a).params ((d.drop 12).take (hdr cfg.le d).paramLen) with rc | ⟨pl, ps⟩
    · rw [h5] at hl; cases hl
    · rw [h5] at hl
      dsimp only at hl
      by_cases h6 : pl ≠ (hdr cfg.le d).pubLen
      · rw [if_pos h6] at hl; cases hl
      by_cases h7 : (hdr cfg.le d).privLen ≠ 0 ∧ (hdr cfg.le d).privLen ≠ ps
      · rw [if_neg h6, if_pos h7] at hl; cases hl
      rw [if_neg h6, if_neg h7] at hl
      dsimp only at hl
      by_cases h8 : (hdr cfg.le d).privOff + ps > d.length
      · rw [if_pos h8] at hl; cases hl
      rw [if_neg h8] at hl
      have h2a : (hdr cfg.le d).magic = a.magic := Decidable.byContradiction fun h => h2 (Or.inl h)
      have h2b : (hdr cfg.le d).reserved = 0 := Decidable.byContradiction fun h => h2 (Or.inr h)
      have h6' : pl = (hdr cfg.le d).pubLen := Decidable.byContradiction h6
      split at hl
      · rename_i hr
        cases hl
        refine ⟨ps, rfl, by omega, h2a, h2b, by omega, by simpa using h4, ?_, ?_, by omega, rfl, rfl, hr⟩
        · rw [h5, h6']
        · by_cases h0 : (hdr cfg.le d).privLen = 0
          · exact Or.inl h0
          · right
            exact Decidable.byContradiction fun h => h7 ⟨h0, h⟩
      · cases hl
  · rintro ⟨ps, h0⟩
    obtain ⟨rfl, h1, h2, h2', h3, h4, h5, h7, h8, rfl, rfl, h9⟩ := h0
    dsimp only
    rw [if_neg (by omega), if_neg (by rintro (h | h) <;> contradiction), if_neg (by omega),
      if_neg (by rw [h4]; simp), h5]
    dsimp only
    rw [if_neg (by simp), if_neg (by rcases h7 with h7 | h7 <;> simp [h7])]
    dsimp only
    rw [if_neg (by omega), h9]

theorem Loads.offLe {cfg : Cfg} {a : Alg} {d : List UInt8} {h : Hdr} {n : Nat} {pub priv : List UInt8}
    (l : Loads cfg a d h n pub priv) : 12 ≤ h.privOff ∧ h.privOff ≤ d.length := by
  have := l.room
  unfold Hdr.privOff; omega

theorem Loads.privLength {cfg : Cfg} {a : Alg} {d : List UInt8} {h : Hdr} {n : Nat} {pub priv : List UInt8}
    (l : Loads cfg a d h n pub priv) : priv.length = n := by
  have := l.fits
  rw [l.privEq, List.length_take, List.length_drop]; omega

section advanced

variable {le : Bool} {h : Hdr} {d priv : List UInt8}

theorem advanced_length (h1 : 12 ≤ h.privOff) (h2 : h.privOff ≤ d.length) :
    (advanced le h d priv).length = h.privOff + priv.length := by
  unfold advanced
  simp [put16_length]
  omega

theorem advanced_drop (h1 : 12 ≤ h.privOff) (h2 : h.privOff ≤ d.length) {k : Nat} (hk : 8 ≤ k) :
    (advanced le h d priv).drop k = (d.take h.privOff ++ priv).drop k := by
  unfold advanced
  dsimp only
  have hl : ((d.take h.privOff ++ priv).take 6 ++ put16 le priv.length).length = 8 := by
    simp [put16_length]; omega
  rw [List.drop_append, List.drop_eq_nil_of_le (by omega), hl, List.nil_append, List.drop_drop]
  congr 1; omega

theorem advanced_part (h1 : 12 ≤ h.privOff) (h2 : h.privOff ≤ d.length) {k n : Nat} (hk : 8 ≤ k)
    (hn : k + n ≤ h.privOff) : ((advanced le h d priv).drop k).take n = (d.drop k).take n := by
  rw [advanced_drop h1 h2 hk, List.drop_append_of_le_length (by simp; omega),
    List.take_append_of_le_length (by simp; omega), List.drop_take, List.take_take]
  congr 1; omega

theorem advanced_priv (h1 : 12 ≤ h.privOff) (h2 : h.privOff ≤ d.length) :
    (advanced le h d priv).drop h.privOff = priv := by
  rw [advanced_drop h1 h2 (by omega), List.drop_append, List.drop_eq_nil_of_le (by simp),
    List.length_take, Nat.min_eq_left h2]
  simp

theorem advanced_low (h1 : 12 ≤ h.privOff) (h2 : h.privOff ≤ d.length) {i : Nat} (hi : i + 1 < 6) :
    at16 le (advanced le h d priv) i = at16 le d i := by
  unfold advanced
  dsimp only
  rw [List.append_assoc, at16_append (by simp; omega), at16_take hi, at16_append (by simp; omega),
    at16_take (by omega)]

theorem advanced_high (h1 : 12 ≤ h.privOff) (h2 : h.privOff ≤ d.length) {i : Nat} (hi : 8 ≤ i)
    (hi' : i + 1 < h.privOff) : at16 le (advanced le h d priv) i = at16 le d i := by
  have := at16_drop le (advanced le h d priv) i 0
  rw [Nat.add_zero] at this
  rw [← this, advanced_drop h1 h2 hi, at16_drop, Nat.add_zero, at16_append (by simp; omega),
    at16_take hi']

theorem advanced_hdr (h1 : 12 ≤ h.privOff) (h2 : h.privOff ≤ d.length) (h3 : priv.length < 65536) :
    hdr le (advanced le h d priv) = { hdr le d with privLen := priv.length } := by
  unfold hdr
  have e0 := advanced_low (le := le) (priv := priv) h1 h2 (i := 0) (by omega)
  have e2 := advanced_low (le := le) (priv := priv) h1 h2 (i := 2) (by omega)
  have e4 := advanced_low (le := le) (priv := priv) h1 h2 (i := 4) (by omega)
  have e8 := advanced_high (le := le) (priv := priv) h1 h2 (i := 8) (by omega) (by omega)
  have e10 := advanced_high (le := le) (priv := priv) h1 h2 (i := 10) (by omega) (by omega)
  have e6 : at16 le (advanced le h d priv) 6 = priv.length := by
    unfold advanced
    dsimp only
    have hl : ((d.take h.privOff ++ priv).take 6).length = 6 := by simp; omega
    rw [List.append_assoc, at16_right (i := 0) (n := 6) hl.symm, at16_append (by simp [put16_length]),
      at16_put16 h3]
  rw [at32_congr e0 e2, e4, e8, e10, e6]

end advanced

theorem Loads.advance {cfg : Cfg} {a : Alg} {d : List UInt8} {h : Hdr} {n : Nat}
    {pub priv priv' : List UInt8} (l : Loads cfg a d h n pub priv) (hd : d.length < 65536)
    (hl : priv'.length = priv.length) (hr : (cfg.lib a).reload pub priv' = .ok) :
    Loads cfg a (advanced cfg.le h d priv') { h with privLen := priv'.length } n pub priv' := by
  obtain ⟨o1, o2⟩ := l.offLe
  have hn := l.privLength
  have hf := l.fits
  have hoff : h.privOff = 12 + h.paramLen + h.pubLen := rfl
  have hlen := advanced_length (le := cfg.le) (priv := priv') o1 o2
  refine ⟨?_, by omega, l.magic, l.reserved, ?_, ?_, ?_, Or.inr ?_, ?_, ?_, ?_, hr⟩
  · rw [advanced_hdr o1 o2 (by omega), ← l.hdr]
  · dsimp only; omega
  · rw [advanced_part o1 o2 (by omega) (by dsimp only; omega)]; exact l.paramOk
  · rw [advanced_part o1 o2 (by omega) (by dsimp only; omega)]; exact l.params
  · exact hl.trans hn
  · show h.privOff + n ≤ _; omega
  · rw [advanced_part o1 o2 (by omega) (by dsimp only; omega)]; exact l.pubEq
  · show priv' = ((advanced cfg.le h d priv').drop h.privOff).take n
    rw [advanced_priv o1 o2, ← hn, ← hl, List.take_length]

/-- What an advanced slot loads as. -/
theorem load_advanced {cfg : Cfg} {a b : Alg} {d : List UInt8} {h : Hdr} {pub priv priv' : List UInt8}
    (hl : load cfg a d = .ok (h, pub, priv)) (hd : d.length < 65536)
    (hp : priv'.length = priv.length) {h' : Hdr} {pub' p : List UInt8}
    (hl' : load cfg b (advanced cfg.le h d priv') = .ok (h', pub', p)) : b = a ∧ p = priv' := by
  obtain ⟨n, l⟩ := load_iff.mp hl
  obtain ⟨n', l'⟩ := load_iff.mp hl'
  obtain ⟨o1, o2⟩ := l.offLe
  have hn := l.privLength
  have hf := l.fits
  have hoff : h.privOff = 12 + h.paramLen + h.pubLen := rfl
  have hh : h' = { h with privLen := priv'.length } := by
    rw [l'.hdr, advanced_hdr o1 o2 (by omega), ← l.hdr]
  subst hh
  have hab : b = a := by
    have h1 := l'.magic
    have h2 := l.magic
    dsimp only at h1
    rw [h2] at h1
    cases a <;> cases b <;> first | rfl | (exact absurd h1 (by decide))
  subst hab
  refine ⟨rfl, ?_⟩
  have hpar := l'.params
  rw [advanced_part o1 o2 (by omega) (by dsimp only; omega), l.params] at hpar
  cases hpar
  have := l'.privEq
  replace this : p = ((advanced cfg.le h d priv').drop h.privOff).take n := this
  rw [this, advanced_priv o1 o2, ← hn, ← hp, List.take_length]

end WolfHsm.StatefulSig

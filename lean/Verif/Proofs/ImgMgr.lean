import Verif.Spec.ImgMgr

/-!
# Lemmas about the wolfBoot header scan and the verification methods
-/

namespace WolfHsm.ImgMgr

/-! ## Reading -/

theorem bind_val {α β : Type} (a : α) (f : α → Out β) : (Out.val a >>= f) = f a := rfl

theorem rd_val {b : List UInt8} {i : Nat} (h : i < b.length) : rd b i = .val (b.getD i 0) := by
  unfold rd
  rw [List.getD_eq_getElem?_getD, List.getElem?_eq_getElem h]
  rfl

theorem rdN_val {b : List UInt8} {off len : Nat} (h : off + len ≤ b.length) :
    rdN b off len = .val ((b.drop off).take len) := if_pos h

/-! ## The chain of positions -/

theorem next_gt (hdr : List UInt8) (p : Nat) : p < next hdr p := by
  unfold next; split <;> omega

theorem chain_ge {hdr : List UInt8} {p : Nat} (h : Chain hdr p) : 8 ≤ p := by
  induction h with
  | start => exact Nat.le_refl 8
  | @next p _ _ ih => have := next_gt hdr p; omega

/-- Positions form a line: from every earlier one the reader moved on, at most to `a`. -/
theorem chain_next_le {hdr : List UInt8} {a : Nat} (ha : Chain hdr a) :
    ∀ {q}, Chain hdr q → q < a → word hdr q ≠ 0 ∧ next hdr q ≤ a := by
  induction ha with
  | start => intro q hq hlt; have := chain_ge hq; omega
  | @next a0 ha0 hw ih =>
    intro q hq hlt
    rcases Nat.lt_trichotomy q a0 with h | h | h
    · have := ih hq h
      have h2 := next_gt hdr a0
      exact ⟨this.1, by omega⟩
    · subst h; exact ⟨hw, Nat.le_refl _⟩
    · have key : ∀ {q}, Chain hdr q → a0 < q → next hdr a0 ≤ q := by
        intro q hq
        induction hq with
        | start => intro h; have := chain_ge ha0; omega
        | @next q1 hq1 hw1 ih1 =>
          intro h
          rcases Nat.lt_trichotomy q1 a0 with h1 | h1 | h1
          · have := (ih hq1 h1).2; omega
          · subst h1; exact Nat.le_refl _
          · have := ih1 h1; have := next_gt hdr q1; omega
      have := key hq h; omega


/-! ## The scan -/

theorem le16_word {hdr : List UInt8} {p : Nat} : le16 (hdr.getD p 0) (hdr.getD (p + 1) 0) = word hdr p := rfl

/-- One step of the scan inside the header. -/
theorem findLoop_step {base : Nat} {hdr : List UInt8} {t fuel p : Nat} (hp : p + 4 < hdr.length) :
    findLoop base hdr t (fuel + 1) p =
      if word hdr p = 0 then .val none
      else if hdr.getD p 0 = 0xFF ∨ (base + p) % 2 = 1 then findLoop base hdr t fuel (p + 1)
      else if 4 + word hdr (p + 2) > hdr.length - 8 then .val none
      else if p + 4 + word hdr (p + 2) > hdr.length then .val none
      else if word hdr p = t then .val (some (p + 4, word hdr (p + 2)))
      else findLoop base hdr t fuel (p + 4 + word hdr (p + 2)) := by
  rw [findLoop, if_neg (not_not_intro hp), rd_val (by omega : p < hdr.length), bind_val,
    rd_val (by omega : p + 1 < hdr.length), bind_val, rd_val (by omega : p + 2 < hdr.length), bind_val,
    rd_val (by omega : p + 3 < hdr.length), bind_val]
  rfl

theorem findLoop_stop {base : Nat} {hdr : List UInt8} {t fuel p : Nat} (hp : ¬ p + 4 < hdr.length) :
    findLoop base hdr t (fuel + 1) p = .val none := by
  rw [findLoop, if_pos hp]

/-- The scan ends, reads only the header, and a field it returns lies inside. -/
theorem findLoop_safe (base : Nat) (hdr : List UInt8) (t : Nat) :
    ∀ fuel p, 8 ≤ p → p ≤ hdr.length → hdr.length < fuel + p →
      ∃ r, findLoop base hdr t fuel p = .val r ∧
        ∀ off len, r = some (off, len) → 12 ≤ off ∧ off + len ≤ hdr.length := by
  intro fuel
  induction fuel with
  | zero => intro p _ _ h; omega
  | succ fuel ih =>
    intro p h8 hp hf
    by_cases hlt : p + 4 < hdr.length
    · rw [findLoop_step hlt]
      by_cases h1 : word hdr p = 0
      · rw [if_pos h1]; exact ⟨none, rfl, fun _ _ h => by cases h⟩
      rw [if_neg h1]
      by_cases h2 : hdr.getD p 0 = 0xFF ∨ (base + p) % 2 = 1
      · rw [if_pos h2]; exact ih (p + 1) (by omega) (by omega) (by omega)
      rw [if_neg h2]
      by_cases h3 : 4 + word hdr (p + 2) > hdr.length - 8
      · rw [if_pos h3]; exact ⟨none, rfl, fun _ _ h => by cases h⟩
      rw [if_neg h3]
      by_cases h4 : p + 4 + word hdr (p + 2) > hdr.length
      · rw [if_pos h4]; exact ⟨none, rfl, fun _ _ h => by cases h⟩
      rw [if_neg h4]
      by_cases h5 : word hdr p = t
      · rw [if_pos h5]
        refine ⟨_, rfl, fun off len h => ?_⟩
        cases h
        omega
      rw [if_neg h5]
      exact ih _ (by omega) (by omega) (by omega)
    · rw [findLoop_stop hlt]; exact ⟨none, rfl, fun _ _ h => by cases h⟩

/-- What the scan returns, in terms of the header format. -/
def Found (hdr : List UInt8) (t : Nat) : Option (Nat × Nat) → Prop
  | none => ∀ p v, v ≠ [] → ¬ Field hdr t p v
  | some (off, len) => ∃ p v, off = p + 4 ∧ len = v.length ∧ Field hdr t p v

theorem pad_iff {base : Nat} (hb : base % 2 = 0) (hdr : List UInt8) (p : Nat) :
    (hdr.getD p 0 = 0xFF ∨ (base + p) % 2 = 1) ↔ Pad hdr p := by
  unfold Pad
  have : (base + p) % 2 = p % 2 := by omega
  rw [this]
  exact Or.comm

theorem findLoop_found {base : Nat} (hb : base % 2 = 0) (hdr : List UInt8) {t : Nat} (ht : t ≠ 0) :
    ∀ fuel p, p ≤ hdr.length → hdr.length < fuel + p → Chain hdr p →
      (∀ q, q < p → Chain hdr q → ¬ Pad hdr q → word hdr q ≠ t) →
      ∃ r, findLoop base hdr t fuel p = .val r ∧ Found hdr t r := by
  intro fuel
  induction fuel with
  | zero => intro p _ h; omega
  | succ fuel ih =>
    intro p hp hf hc hfst
    have h8 := chain_ge hc
    -- a field elsewhere lies further on
    have later : ∀ p' v, Field hdr t p' v → p ≤ p' := by
      intro p' v hF
      rcases Nat.lt_or_ge p' p with h | h
      · exact absurd hF.type (hfst p' h hF.chain hF.notPad)
      · exact h
    by_cases hlt : p + 4 < hdr.length
    · rw [findLoop_step hlt]
      by_cases h1 : word hdr p = 0
      · rw [if_pos h1]
        refine ⟨none, rfl, fun p' v _ hF => ?_⟩
        rcases Nat.lt_or_ge p p' with h | h
        · exact (chain_next_le hF.chain hc h).1 h1
        · have : p = p' := Nat.le_antisymm (later p' v hF) h
          subst this
          exact ht (hF.type.symm.trans h1)
      rw [if_neg h1]
      by_cases h2 : Pad hdr p
      · rw [if_pos ((pad_iff hb hdr p).2 h2)]
        have hnx : next hdr p = p + 1 := if_pos h2
        refine ih (p + 1) (by omega) (by omega) (hnx ▸ Chain.next hc h1) (fun q hq hcq hnp => ?_)
        rcases Nat.lt_or_ge q p with h | h
        · exact hfst q h hcq hnp
        · have : q = p := by omega
          subst this
          exact absurd h2 hnp
      rw [if_neg (fun h => h2 ((pad_iff hb hdr p).1 h))]
      have hnx : next hdr p = p + 4 + word hdr (p + 2) := if_neg h2
      by_cases h4 : p + 4 + word hdr (p + 2) > hdr.length
      · have hstop : ∀ p' v, v ≠ [] → ¬ Field hdr t p' v := by
          intro p' v _ hF
          rcases Nat.lt_or_ge p p' with h | h
          · have := (chain_next_le hF.chain hc h).2
            have := hF.inside
            omega
          · have : p = p' := Nat.le_antisymm (later p' v hF) h
            subst this
            have := hF.inside
            have := hF.len
            omega
        split
        · exact ⟨none, rfl, hstop⟩
        · exact ⟨none, rfl, hstop⟩
      rw [if_neg (by omega), if_neg h4]
      by_cases h5 : word hdr p = t
      · rw [if_pos h5]
        have hl : ((hdr.drop (p + 4)).take (word hdr (p + 2))).length = word hdr (p + 2) := by
          rw [List.length_take, List.length_drop]; omega
        refine ⟨_, rfl, p, (hdr.drop (p + 4)).take (word hdr (p + 2)), rfl, hl.symm, hc, h2, h5,
          hl.symm, by rw [hl]; omega, by rw [hl], hfst⟩
      rw [if_neg h5]
      refine ih _ (by omega) (by omega) (hnx ▸ Chain.next hc h1) (fun q hq hcq hnp => ?_)
      rcases Nat.lt_trichotomy q p with h | h | h
      · exact hfst q h hcq hnp
      · subst h; exact h5
      · have := (chain_next_le hcq hc h).2
        omega
    · rw [findLoop_stop hlt]
      refine ⟨none, rfl, fun p' v hv hF => ?_⟩
      have := later p' v hF
      have := hF.inside
      have : 0 < v.length := List.length_pos_iff.2 hv
      omega

theorem find_safe (base : Nat) (hdr : List UInt8) (t : Nat) :
    ∃ r, find base hdr t = .val r ∧
      ∀ off len, r = some (off, len) → 12 ≤ off ∧ off + len ≤ hdr.length := by
  unfold find
  split
  · exact ⟨none, rfl, fun _ _ h => by cases h⟩
  · exact findLoop_safe base hdr t _ 8 (by omega) (by omega) (by omega)

theorem find_found {base : Nat} (hb : base % 2 = 0) (hdr : List UInt8) {t : Nat} (ht : t ≠ 0) :
    ∃ r, find base hdr t = .val r ∧ Found hdr t r := by
  unfold find
  split
  · refine ⟨none, rfl, fun p v _ hF => ?_⟩
    have := chain_ge hF.chain
    have := hF.inside
    omega
  · exact findLoop_found hb hdr ht _ 8 (by omega) (by omega) .start
      (fun q hq hc => by have := chain_ge hc; omega)

/-- There is only one first field of a type. -/
theorem field_unique {hdr : List UInt8} {t p p' : Nat} {v v' : List UInt8} (h : Field hdr t p v)
    (h' : Field hdr t p' v') : p = p' ∧ v = v' := by
  have hp : p = p' := by
    rcases Nat.lt_trichotomy p p' with hlt | he | hlt
    · exact absurd h.type (h'.first p hlt h.chain h.notPad)
    · exact he
    · exact absurd h'.type (h.first p' hlt h'.chain h'.notPad)
  subst hp
  refine ⟨rfl, ?_⟩
  rw [← h.value, ← h'.value, ← h.len, ← h'.len]

/-- A field with a value is found. -/
theorem find_field {base : Nat} (hb : base % 2 = 0) {hdr : List UInt8} {t : Nat} (ht : t ≠ 0) {p : Nat}
    {v : List UInt8} (hv : v ≠ []) (hF : Field hdr t p v) :
    find base hdr t = .val (some (p + 4, v.length)) := by
  obtain ⟨r, hr, hf⟩ := find_found hb hdr ht
  match r, hf with
  | none, hf => exact absurd hF (hf p v hv)
  | some (off, len), ⟨p', v', h1, h2, h3⟩ =>
    obtain ⟨e1, e2⟩ := field_unique hF h3
    rw [hr, h1, h2, e1, e2]

theorem field_read {hdr : List UInt8} {t p : Nat} {v : List UInt8} (h : Field hdr t p v) :
    rdN hdr (p + 4) v.length = .val v := by
  rw [rdN_val h.inside, h.value]

/-! ## Fixed fields -/

theorem readLE32_val {b : List UInt8} {off : Nat} (h : off + 4 ≤ b.length) :
    readLE32 b off = .val (word b off + 65536 * word b (off + 2)) := by
  unfold readLE32
  rw [rd_val (by omega : off < b.length), bind_val, rd_val (by omega : off + 1 < b.length), bind_val,
    rd_val (by omega : off + 2 < b.length), bind_val, rd_val (by omega : off + 3 < b.length), bind_val]
  refine congrArg Out.val ?_
  unfold word
  show _ = (b.getD off 0).toNat + 256 * (b.getD (off + 1) 0).toNat +
    65536 * ((b.getD (off + 2) 0).toNat + 256 * (b.getD (off + 3) 0).toNat)
  omega

theorem magic_iff {hdr : List UInt8} (h : 4 ≤ hdr.length) :
    word hdr 0 + 65536 * word hdr 2 = magic ↔ hdr.take 4 = [0x57, 0x4F, 0x4C, 0x46] := by
  match hdr, h with
  | a :: b :: c :: d :: rest, _ =>
    show (a.toNat + 256 * b.toNat) + 65536 * (c.toNat + 256 * d.toNat) = magic ↔ [a, b, c, d] = _
    have ha := a.toNat_lt; have hb := b.toNat_lt; have hc := c.toNat_lt; have hd := d.toNat_lt
    constructor
    · intro h
      unfold magic at h
      have h1 : a = 0x57 := UInt8.toNat_inj.1 (by show _ = 0x57; omega)
      have h2 : b = 0x4F := UInt8.toNat_inj.1 (by show _ = 0x4F; omega)
      have h3 : c = 0x4C := UInt8.toNat_inj.1 (by show _ = 0x4C; omega)
      have h4 : d = 0x46 := UInt8.toNat_inj.1 (by show _ = 0x46; omega)
      rw [h1, h2, h3, h4]
    · intro h
      cases h
      rfl

/-! ## The recovered signature block -/

theorem asn1Tag_val (input : List UInt8) (idx : Nat) (tag : UInt8) :
    ∃ r, asn1Tag input idx tag = .val r ∧
      ∀ j l, r = some (j, l) ↔ (idx + 2 ≤ input.length ∧ input.getD idx 0 = tag ∧ j = idx + 2 ∧
        l = (input.getD (idx + 1) 0).toNat ∧ l + j ≤ input.length) := by
  unfold asn1Tag
  by_cases h1 : idx + 2 > input.length
  · rw [if_pos h1]
    exact ⟨none, rfl, fun j l => ⟨fun h => (by cases h), fun h => by omega⟩⟩
  rw [if_neg h1, rd_val (by omega : idx < input.length), bind_val]
  by_cases h2 : input.getD idx 0 ≠ tag
  · rw [if_pos h2]
    exact ⟨none, rfl, fun j l => ⟨fun h => (by cases h), fun h => absurd h.2.1 h2⟩⟩
  rw [if_neg h2, rd_val (by omega : idx + 1 < input.length), bind_val]
  have h2' : input.getD idx 0 = tag := Decidable.not_not.1 h2
  by_cases h3 : (input.getD (idx + 1) 0).toNat + (idx + 2) > input.length
  · rw [if_pos h3]
    exact ⟨none, rfl, fun j l => ⟨fun h => (by cases h), fun h => (by
      obtain ⟨_, _, hj, hl, hjl⟩ := h
      omega)⟩⟩
  · rw [if_neg h3]
    refine ⟨_, rfl, fun j l => ⟨fun h => ?_, fun h => ?_⟩⟩
    · cases h
      exact ⟨by omega, h2', rfl, rfl, by omega⟩
    · obtain ⟨_, _, hj, hl, _⟩ := h
      rw [hj, hl]

theorem digestInfo_val (input : List UInt8) :
    ∃ r, digestInfo input = .val r ∧
      ∀ j l, r = some (j, l) ↔ ∃ algo, (2 ≤ input.length ∧ input.getD 0 0 = 0x30 ∧
        (input.getD 1 0).toNat + 2 ≤ input.length) ∧
        (4 ≤ input.length ∧ input.getD 2 0 = 0x30 ∧ algo = (input.getD 3 0).toNat ∧
          algo + 4 ≤ input.length) ∧
        (4 + algo + 2 ≤ input.length ∧ input.getD (4 + algo) 0 = 0x04 ∧ j = 4 + algo + 2 ∧
          l = (input.getD (4 + algo + 1) 0).toNat ∧ l + j ≤ input.length) := by
  unfold digestInfo
  obtain ⟨r1, e1, s1⟩ := asn1Tag_val input 0 0x30
  rw [e1, bind_val]
  match r1, s1 with
  | none, s1 =>
    refine ⟨none, rfl, fun j l => ⟨fun h => (by cases h), fun h => ?_⟩⟩
    obtain ⟨algo, ⟨a1, a2, a3⟩, _⟩ := h
    exact absurd ((s1 2 (input.getD 1 0).toNat).2 ⟨a1, a2, rfl, rfl, a3⟩) (by simp)
  | some (i1, l1), s1 =>
    obtain ⟨a1, a2, rfl, rfl, a3⟩ := (s1 i1 l1).1 rfl
    obtain ⟨r2, e2, s2⟩ := asn1Tag_val input 2 0x30
    show ∃ r, (asn1Tag input 2 0x30 >>= _) = _ ∧ _
    rw [e2, bind_val]
    match r2, s2 with
    | none, s2 =>
      refine ⟨none, rfl, fun j l => ⟨fun h => (by cases h), fun h => ?_⟩⟩
      obtain ⟨algo, _, ⟨b1, b2, b3, b4⟩, _⟩ := h
      exact absurd ((s2 4 algo).2 ⟨b1, b2, rfl, b3, b4⟩) (by simp)
    | some (i2, l2), s2 =>
      obtain ⟨b1, b2, rfl, b3, b4⟩ := (s2 i2 l2).1 rfl
      obtain ⟨r3, e3, s3⟩ := asn1Tag_val input (4 + l2) 0x04
      refine ⟨r3, e3, fun j l => ?_⟩
      rw [s3 j l]
      constructor
      · intro h
        exact ⟨l2, ⟨a1, a2, a3⟩, ⟨b1, b2, b3, b4⟩, h⟩
      · rintro ⟨algo, _, ⟨_, _, hb, _⟩, h⟩
        have : algo = l2 := hb.trans b3.symm
        subst this
        exact h

theorem drop_cons {b : List UInt8} {i : Nat} (h : i < b.length) :
    b.drop i = b.getD i 0 :: b.drop (i + 1) := by
  rw [List.drop_eq_getElem_cons h, List.getD_eq_getElem?_getD, List.getElem?_eq_getElem h]
  rfl

theorem drop_split (b : List UInt8) (i n : Nat) : b.drop i = (b.drop i).take n ++ b.drop (i + n) := by
  rw [← List.drop_drop, List.take_append_drop]

/-- The digest the decoder finds is the one of a (lax) DigestInfo. -/
theorem lax_iff (block digest : List UInt8) :
    LaxDigestInfo block digest ↔ ∃ j, digestInfo block = .val (some (j, digest.length)) ∧
      (block.drop j).take digest.length = digest := by
  obtain ⟨r, e, s⟩ := digestInfo_val block
  constructor
  · rintro ⟨tot, algo, rest, ha, hd, ht, hb⟩
    have hal : (UInt8.ofNat algo.length).toNat = algo.length := by
      rw [UInt8.toNat_ofNat']; exact Nat.mod_eq_of_lt ha
    have hdl : (UInt8.ofNat digest.length).toNat = digest.length := by
      rw [UInt8.toNat_ofNat']; exact Nat.mod_eq_of_lt hd
    have hb' : block = 0x30 :: tot :: 0x30 :: UInt8.ofNat algo.length ::
        (algo ++ (0x04 :: UInt8.ofNat digest.length :: (digest ++ rest))) := by
      rw [hb]; simp
    have hlen : block.length = 4 + algo.length + 2 + digest.length + rest.length := by
      rw [hb']; simp; omega
    have g4 : block.drop (4 + algo.length) = 0x04 :: UInt8.ofNat digest.length :: (digest ++ rest) := by
      rw [hb', Nat.add_comm 4]; simp
    have gi : ∀ k, block.getD (4 + algo.length + k) 0 = (block.drop (4 + algo.length)).getD k 0 := by
      intro k
      rw [List.getD_eq_getElem?_getD, List.getD_eq_getElem?_getD, List.getElem?_drop]
    refine ⟨4 + algo.length + 2, ?_, ?_⟩
    · rw [e]
      refine congrArg Out.val ((s _ _).2 ⟨algo.length, ⟨by omega, by rw [hb']; rfl, ?_⟩,
        ⟨by omega, by rw [hb']; rfl, ?_, by omega⟩, ⟨by omega, ?_, rfl, ?_, by omega⟩⟩)
      · have : (block.getD 1 0) = tot := by rw [hb']; rfl
        rw [this]; exact ht
      · have : (block.getD 3 0) = UInt8.ofNat algo.length := by rw [hb']; rfl
        rw [this, hal]
      · have := gi 0
        rw [g4] at this
        exact this
      · have := gi 1
        rw [g4] at this
        rw [this]
        exact hdl.symm
    · rw [← List.drop_drop, g4]
      simp
  · rintro ⟨j, hj, hd⟩
    rw [e] at hj
    obtain ⟨algo, ⟨a1, a2, a3⟩, ⟨b1, b2, b3, b4⟩, c1, c2, rfl, c4, c5⟩ :=
      (s _ _).1 (Out.val.inj hj)
    have l1 := (block.getD 3 0).toNat_lt
    have l2 := (block.getD (4 + algo + 1) 0).toNat_lt
    have hal : ((block.drop 4).take algo).length = algo := by
      rw [List.length_take, List.length_drop]; omega
    refine ⟨block.getD 1 0, (block.drop 4).take algo, block.drop (4 + algo + 2 + digest.length),
      by omega, by omega, a3, ?_⟩
    have e1 : UInt8.ofNat ((block.drop 4).take algo).length = block.getD 3 0 := by
      rw [hal, b3]; exact UInt8.toNat_inj.1 (by rw [UInt8.toNat_ofNat']; exact Nat.mod_eq_of_lt l1)
    have e2 : UInt8.ofNat digest.length = block.getD (4 + algo + 1) 0 := by
      rw [c4]; exact UInt8.toNat_inj.1 (by rw [UInt8.toNat_ofNat']; exact Nat.mod_eq_of_lt l2)
    rw [e1, e2]
    have hb : block = block.getD 0 0 :: block.getD 1 0 :: block.getD 2 0 :: block.getD 3 0 ::
        ((block.drop 4).take algo ++ (block.getD (4 + algo) 0 :: block.getD (4 + algo + 1) 0 ::
          ((block.drop (4 + algo + 2)).take digest.length ++
            block.drop (4 + algo + 2 + digest.length)))) := by
      conv => lhs; rw [← List.drop_zero (l := block), drop_cons (by omega : 0 < block.length),
        drop_cons (by omega : 0 + 1 < block.length), drop_cons (by omega : 0 + 1 + 1 < block.length),
        drop_cons (by omega : 0 + 1 + 1 + 1 < block.length), drop_split block (0 + 1 + 1 + 1 + 1) algo,
        drop_cons (by omega : 0 + 1 + 1 + 1 + 1 + algo < block.length),
        drop_cons (by omega : 0 + 1 + 1 + 1 + 1 + algo + 1 < block.length),
        drop_split block (0 + 1 + 1 + 1 + 1 + algo + 1 + 1) digest.length]
    rw [a2, b2, c2, hd] at hb
    conv => lhs; rw [hb]
    simp

/-- The comparison of the recovered block with the hash. -/
theorem checkBlock_val (block hash : List UInt8) :
    ∃ rc, checkBlock block hash = .val rc ∧
      (rc = .ok ↔ (block = hash ∨ (hash.length < block.length ∧ LaxDigestInfo block hash))) := by
  unfold checkBlock
  by_cases hl : block.length > hash.length
  · rw [if_pos hl]
    have hne : block ≠ hash := fun h => by rw [h] at hl; omega
    obtain ⟨r, e, s⟩ := digestInfo_val block
    have hlax := lax_iff block hash
    rw [e, bind_val]
    rw [e] at hlax
    match r, s, hlax with
    | none, _, hlax =>
      refine ⟨.notverified, rfl, ⟨fun h => (by cases h), fun h => ?_⟩⟩
      rcases h with h | h
      · exact absurd h hne
      · obtain ⟨j, hj, _⟩ := hlax.1 h.2
        cases hj
    | some (off, len), s, hlax =>
      obtain ⟨algo, _, _, _, _, hj, hlen, hin⟩ := (s off len).1 rfl
      dsimp only
      by_cases h1 : len ≠ hash.length
      · rw [if_pos h1]
        refine ⟨.notverified, rfl, ⟨fun h => (by cases h), fun h => ?_⟩⟩
        rcases h with h | h
        · exact absurd h hne
        · obtain ⟨j, hj, _⟩ := hlax.1 h.2
          cases hj
          exact absurd rfl h1
      · rw [if_neg h1, rdN_val (by omega), bind_val]
        have h1' : len = hash.length := Decidable.not_not.1 h1
        by_cases h2 : (block.drop off).take hash.length = hash
        · rw [if_pos h2]
          exact ⟨.ok, rfl, ⟨fun _ => Or.inr ⟨hl, hlax.2 ⟨off, by rw [h1'], h2⟩⟩, fun _ => rfl⟩⟩
        · rw [if_neg h2]
          refine ⟨.notverified, rfl, ⟨fun h => (by cases h), fun h => ?_⟩⟩
          rcases h with h | h
          · exact absurd h hne
          · obtain ⟨j, hj, hd⟩ := hlax.1 h.2
            cases hj
            exact absurd hd h2
  · rw [if_neg hl, bind_val]
    dsimp only
    by_cases h1 : block.length ≠ hash.length
    · rw [if_pos h1]
      refine ⟨.notverified, rfl, ⟨fun h => (by cases h), fun h => ?_⟩⟩
      rcases h with h | h
      · exact absurd (congrArg List.length h) h1
      · exact absurd h.1 (by omega)
    · have h1' : block.length = hash.length := Decidable.not_not.1 h1
      rw [if_neg h1, rdN_val (by omega), bind_val, List.drop_zero, ← h1', List.take_length]
      by_cases h2 : block = hash
      · rw [if_pos h2]; exact ⟨.ok, rfl, ⟨fun _ => Or.inl h2, fun _ => rfl⟩⟩
      · rw [if_neg h2]
        refine ⟨.notverified, rfl, ⟨fun h => (by cases h), fun h => ?_⟩⟩
        rcases h with h | h
        · exact absurd h h2
        · exact absurd h.1 (by omega)

theorem verifySig_val (c : Crypto) (sig hash key : List UInt8) :
    ∃ rc, verifySigRsa4096 c sig hash key = .val rc ∧ (rc = .ok ↔ Signed c key sig hash) := by
  unfold verifySigRsa4096
  by_cases h1 : sig.length ≠ 512
  · rw [if_pos h1]
    exact ⟨_, rfl, ⟨fun h => (by cases h), fun h => absurd h.1 h1⟩⟩
  rw [if_neg h1]
  by_cases h2 : c.rsaKeyOk key = false
  · rw [if_pos h2]
    exact ⟨_, rfl, ⟨fun h => (by cases h), fun h => absurd h.2.1 (by rw [h2]; decide)⟩⟩
  rw [if_neg h2]
  have h1' : sig.length = 512 := Decidable.not_not.1 h1
  have h2' : c.rsaKeyOk key = true := by cases h : c.rsaKeyOk key <;> simp_all
  cases h3 : c.rsaRecover key sig with
  | none =>
    refine ⟨_, rfl, ⟨fun h => (by cases h), ?_⟩⟩
    rintro ⟨_, _, block, hb, _⟩
    rw [h3] at hb; cases hb
  | some block =>
    obtain ⟨rc, e, s⟩ := checkBlock_val block hash
    refine ⟨rc, e, s.trans ⟨fun h => ⟨h1', h2', block, h3, h⟩, ?_⟩⟩
    rintro ⟨_, _, block', hb, h⟩
    rw [h3] at hb
    cases hb
    exact h

/-! ## Validation and the complete methods -/

/-- What a successful validation establishes. -/
def Valid (c : Crypto) (hdr payload hash sig : List UInt8) : Prop :=
  ∃ n pType type pSha pSig,
    Declares hdr n ∧ n ≤ payload.length ∧
    Field hdr 0x04 pType type ∧ type.length = 2 ∧ type.getD 1 0 = 0x04 ∧
    Field hdr 0x03 pSha hash ∧ hash.length = 32 ∧ hash = c.sha (hdr.take pSha ++ payload.take n) ∧
    Field hdr 0x20 pSig sig ∧ sig ≠ []

theorem declares_iff {hdr : List UInt8} (h : 12 ≤ hdr.length) (n : Nat) :
    Declares hdr n ↔ word hdr 0 + 65536 * word hdr 2 = magic ∧ n = word hdr 4 + 65536 * word hdr 6 := by
  unfold Declares
  rw [magic_iff (by omega)]

/-- A field's bytes inside the header. -/
theorem field_getD {hdr : List UInt8} {t p : Nat} {v : List UInt8} (h : Field hdr t p v) {i : Nat}
    (hi : i < v.length) : hdr.getD (p + 4 + i) 0 = v.getD i 0 := by
  have := congrArg (fun l : List UInt8 => l.getD i 0) h.value
  rw [← (show (List.take v.length (List.drop (p + 4) hdr)).getD i 0 = v.getD i 0 from this),
    List.getD_eq_getElem?_getD, List.getD_eq_getElem?_getD, List.getElem?_take_of_lt hi,
    List.getElem?_drop]

theorem validate_val (c : Crypto) (env : Env) (base : Nat) (hdr payload : List UInt8)
    (hlen : hdr.length < 2 ^ 32) :
    ∃ r, validateAndHash c env base hdr payload = .val r ∧
      ∀ hash sig, r = .ok (hash, sig) ↔
        (base % 2 = 0 ∧ env.hash1 = .ok ∧ Valid c hdr payload hash sig) := by
  unfold validateAndHash
  by_cases h1 : base % 2 ≠ 0
  · rw [if_pos h1]
    exact ⟨_, rfl, fun hash sig => ⟨fun h => (by cases h), fun h => absurd h.1 h1⟩⟩
  rw [if_neg h1]
  have hb : base % 2 = 0 := Decidable.not_not.1 h1
  by_cases h2 : hdr.length < 12
  · rw [if_pos h2]
    refine ⟨_, rfl, fun hash sig => ⟨fun h => (by cases h), ?_⟩⟩
    rintro ⟨_, _, n, pT, ty, pS, pG, _, _, _, _, _, hS, h32, _⟩
    have := hS.inside
    omega
  rw [if_neg h2, readLE32_val (by omega), bind_val]
  have h12 : 12 ≤ hdr.length := by omega
  by_cases h3 : word hdr 0 + 65536 * word hdr (0 + 2) ≠ magic
  · rw [if_pos h3]
    refine ⟨_, rfl, fun hash sig => ⟨fun h => (by cases h), ?_⟩⟩
    rintro ⟨_, _, n, pT, ty, pS, pG, hD, _⟩
    exact absurd ((declares_iff h12 n).1 hD).1 h3
  rw [if_neg h3, readLE32_val (by omega), bind_val]
  have hm : word hdr 0 + 65536 * word hdr 2 = magic := Decidable.not_not.1 h3
  show ∃ r, (if word hdr 4 + 65536 * word hdr 6 > payload.length then _ else _) = _ ∧ _
  have hD : Declares hdr (word hdr 4 + 65536 * word hdr 6) := (declares_iff h12 _).2 ⟨hm, rfl⟩
  have hDu : ∀ n, Declares hdr n → n = word hdr 4 + 65536 * word hdr 6 :=
    fun n h => ((declares_iff h12 n).1 h).2
  generalize hn : word hdr 4 + 65536 * word hdr 6 = N at hD hDu ⊢
  by_cases h4 : N > payload.length
  · rw [if_pos h4]
    refine ⟨_, rfl, fun hash sig => ⟨fun h => (by cases h), ?_⟩⟩
    rintro ⟨_, _, n, pT, ty, pS, pG, hD', hle, _⟩
    have := hDu n hD'
    omega
  rw [if_neg h4]
  -- image type
  obtain ⟨rT, eT, fT⟩ := find_found hb hdr (t := 0x04) (by decide)
  rw [eT, bind_val]
  match rT, fT with
  | none, fT =>
    refine ⟨_, rfl, fun hash sig => ⟨fun h => (by cases h), ?_⟩⟩
    rintro ⟨_, _, n, pT, ty, pS, pG, _, _, hT, hl, _⟩
    exact absurd hT (fT pT ty (fun h => by rw [h] at hl; cases hl))
  | some (tOff, tLen), fT =>
  obtain ⟨pT, ty, rfl, rfl, hT⟩ := fT
  dsimp only
  by_cases h5 : ty.length ≠ 2
  · rw [if_pos h5]
    refine ⟨_, rfl, fun hash sig => ⟨fun h => (by cases h), ?_⟩⟩
    rintro ⟨_, _, n, pT', ty', pS, pG, _, _, hT', hl, _⟩
    exact absurd ((field_unique hT hT').2 ▸ hl) h5
  rw [if_neg h5]
  have h5' : ty.length = 2 := Decidable.not_not.1 h5
  have hin := hT.inside
  rw [rd_val (by omega), bind_val, rd_val (by omega), bind_val, field_getD hT (i := 1) (by omega)]
  by_cases h6 : ty.getD 1 0 ≠ 0x04
  · rw [if_pos h6]
    refine ⟨_, rfl, fun hash sig => ⟨fun h => (by cases h), ?_⟩⟩
    rintro ⟨_, _, n, pT', ty', pS, pG, _, _, hT', _, ha, _⟩
    exact absurd ((field_unique hT hT').2 ▸ ha) h6
  rw [if_neg h6]
  have h6' : ty.getD 1 0 = 0x04 := Decidable.not_not.1 h6
  -- stored hash
  obtain ⟨rS, eS, fS⟩ := find_found hb hdr (t := 0x03) (by decide)
  rw [eS, bind_val]
  match rS, fS with
  | none, fS =>
    refine ⟨_, rfl, fun hash sig => ⟨fun h => (by cases h), ?_⟩⟩
    rintro ⟨_, _, n, pT', ty', pS, pG, _, _, _, _, _, hS, hl, _⟩
    exact absurd hS (fS pS hash (fun h => by rw [h] at hl; cases hl))
  | some (sOff, sLen), fS =>
  obtain ⟨pS, sh, rfl, rfl, hS⟩ := fS
  dsimp only
  by_cases h7 : sh.length ≠ 32
  · rw [if_pos h7]
    refine ⟨_, rfl, fun hash sig => ⟨fun h => (by cases h), ?_⟩⟩
    rintro ⟨_, _, n, pT', ty', pS', pG, _, _, _, _, _, hS', hl, _⟩
    exact absurd ((field_unique hS hS').2 ▸ hl) h7
  rw [if_neg h7]
  have h7' : sh.length = 32 := Decidable.not_not.1 h7
  by_cases h8 : env.hash1 ≠ .ok
  · rw [if_pos h8]
    exact ⟨_, rfl, fun hash sig => ⟨fun h => (by cases h), fun h => absurd h.2.1 h8⟩⟩
  rw [if_neg h8]
  have h8' : env.hash1 = .ok := Decidable.not_not.1 h8
  have hSin := hS.inside
  have hrd : rdN hdr (pS + 4) 32 = .val sh := by
    have := field_read hS
    rw [h7'] at this
    exact this
  rw [Nat.mod_eq_of_lt (by omega : pS + 4 - 4 < 2 ^ 32), rdN_val (by omega), bind_val,
    rdN_val (by omega), bind_val, hrd, bind_val, List.drop_zero, List.drop_zero,
    Nat.add_sub_cancel]
  by_cases h9 : c.sha (hdr.take pS ++ payload.take N) ≠ sh
  · rw [if_pos h9]
    refine ⟨_, rfl, fun hash sig => ⟨fun h => (by cases h), ?_⟩⟩
    rintro ⟨_, _, n, pT', ty', pS', pG, hD', _, _, _, _, hS', hl, he, _⟩
    obtain ⟨e1, e2⟩ := field_unique hS hS'
    rw [hDu n hD', ← e1, ← e2] at he
    exact absurd he.symm h9
  rw [if_neg h9]
  have h9' : c.sha (hdr.take pS ++ payload.take N) = sh := Decidable.not_not.1 h9
  rw [h9']
  -- signature
  obtain ⟨rG, eG, fG⟩ := find_found hb hdr (t := 0x20) (by decide)
  rw [eG, bind_val]
  match rG, fG with
  | none, fG =>
    refine ⟨_, rfl, fun hash sig => ⟨fun h => (by cases h), ?_⟩⟩
    rintro ⟨_, _, n, pT', ty', pS', pG, _, _, _, _, _, _, _, _, hG, hne⟩
    exact absurd hG (fG pG sig hne)
  | some (gOff, gLen), fG =>
  obtain ⟨pG, g, rfl, rfl, hG⟩ := fG
  dsimp only
  by_cases h10 : g.length = 0
  · rw [if_pos h10]
    refine ⟨_, rfl, fun hash sig => ⟨fun h => (by cases h), ?_⟩⟩
    rintro ⟨_, _, n, pT', ty', pS', pG', _, _, _, _, _, _, _, _, hG', hne⟩
    exact absurd ((field_unique hG hG').2 ▸ List.eq_nil_of_length_eq_zero h10) hne
  rw [if_neg h10, field_read hG, bind_val]
  have hgne : g ≠ [] := fun h => h10 (by rw [h]; rfl)
  refine ⟨_, rfl, fun hash sig => ⟨fun h => ?_, ?_⟩⟩
  · cases h
    exact ⟨hb, h8', N, pT, ty, pS, pG, hD, by omega, hT, h5', h6', hS, h7', h9'.symm, hG, hgne⟩
  · rintro ⟨_, _, n, pT', ty', pS', pG', _, _, _, _, _, hS', _, _, hG', _⟩
    rw [(field_unique hS hS').2, (field_unique hG hG').2]

/-- Outcome of looking up the key hint and checking the signature with `key`. -/
theorem checkKey_val (c : Crypto) (env : Env) (img : Image) (key hash sig : List UInt8) :
    ∃ rc, checkKey c env img key hash sig = .val rc ∧
      (img.base % 2 = 0 → (rc = .ok ↔ (env.hash2 = .ok ∧ (∃ p, Field img.hdr 0x10 p (c.sha key)) ∧
        (c.sha key).length = 32 ∧ Signed c key sig hash))) := by
  obtain ⟨rs, es, ss⟩ := verifySig_val c sig hash key
  obtain ⟨r, er, hr⟩ := find_safe img.base img.hdr 0x10
  have hf : ∃ hint, fieldAt img.hdr r = .val hint ∧
      (∀ off len, r = some (off, len) → hint = (img.hdr.drop off).take len) ∧ (r = none → hint = []) := by
    match r, hr with
    | none, _ => exact ⟨[], rfl, fun _ _ h => (by cases h), fun _ => rfl⟩
    | some (off, len), hr =>
      refine ⟨_, rdN_val (hr off len rfl).2, fun _ _ h => ?_, fun h => by cases h⟩
      cases h
      rfl
  obtain ⟨hint, ef, hh, hhn⟩ := hf
  unfold checkKey
  rw [er, bind_val, ef, bind_val, es]
  by_cases hv : verifyHint c env key hint ≠ .ok
  · rw [if_pos hv]
    refine ⟨_, rfl, fun hb => ⟨fun h => absurd h hv, ?_⟩⟩
    rintro ⟨h2, ⟨p, hF⟩, h32, _⟩
    exfalso
    have := find_field hb (by decide) (fun h => by rw [h] at h32; cases h32) hF
    rw [er] at this
    have e := hh _ _ (Out.val.inj this)
    rw [hF.value] at e
    unfold verifyHint at hv
    rw [if_neg (by rw [e]; exact not_not_intro h32), if_neg (not_not_intro h2), if_pos e.symm] at hv
    exact hv rfl
  rw [if_neg hv]
  have hv' : verifyHint c env key hint = .ok := Decidable.not_not.1 hv
  refine ⟨rs, rfl, fun hb => ?_⟩
  rw [ss]
  unfold verifyHint at hv'
  by_cases a1 : hint.length ≠ 32
  · rw [if_pos a1] at hv'; cases hv'
  rw [if_neg a1] at hv'
  by_cases a2 : env.hash2 ≠ .ok
  · rw [if_pos a2] at hv'; cases hv'
  rw [if_neg a2] at hv'
  by_cases a3 : c.sha key = hint
  · have a1' : hint.length = 32 := Decidable.not_not.1 a1
    obtain ⟨r', er', fr'⟩ := find_found hb img.hdr (t := 0x10) (by decide)
    rw [er] at er'
    have hrr : r = r' := Out.val.inj er'
    subst hrr
    have hF : ∃ p, Field img.hdr 0x10 p hint := by
      match r, fr', hh, hhn with
      | none, _, _, hhn => rw [hhn rfl] at a1'; cases a1'
      | some (off, len), hfr, hh, _ =>
        obtain ⟨p, v, rfl, rfl, hF⟩ := hfr
        have := hh _ _ rfl
        rw [hF.value] at this
        exact ⟨p, this ▸ hF⟩
    rw [a3]
    exact ⟨fun h => ⟨Decidable.not_not.1 a2, hF, a1', h⟩, fun h => h.2.2.2⟩
  · rw [if_neg a3] at hv'; cases hv'

/-- The mapping step. -/
theorem mapImage_val (env : Env) (img : Image) :
    ∃ r, mapImage env img = .val r ∧
      ∀ payload, r = .ok payload →
        payload = img.payload ∨ ∃ n, (12 ≤ img.hdr.length → Declares img.hdr n) ∧
          n ≤ img.payload.length ∧ payload = img.payload.take n := by
  unfold mapImage
  by_cases h1 : env.dma = false
  · rw [if_pos h1]; exact ⟨_, rfl, fun p h => Or.inl (by cases h; rfl)⟩
  rw [if_neg h1]
  by_cases h2 : env.preHdr ≠ .ok
  · rw [if_pos h2]; exact ⟨_, rfl, fun p h => by cases h⟩
  rw [if_neg h2]
  unfold peekImgSize
  by_cases h3 : img.base % 2 ≠ 0
  · rw [if_pos h3, bind_val]; exact ⟨_, rfl, fun p h => by cases h⟩
  rw [if_neg h3]
  by_cases h4 : img.hdr.length < 8
  · rw [if_pos h4, bind_val]; exact ⟨_, rfl, fun p h => by cases h⟩
  rw [if_neg h4, readLE32_val (by omega), bind_val]
  by_cases h5 : word img.hdr 0 + 65536 * word img.hdr (0 + 2) ≠ magic
  · rw [if_pos h5, bind_val]; exact ⟨_, rfl, fun p h => by cases h⟩
  rw [if_neg h5, readLE32_val (by omega), bind_val, bind_val]
  dsimp only
  by_cases h6 : word img.hdr 4 + 65536 * word img.hdr (4 + 2) > img.payload.length
  · rw [if_pos h6]; exact ⟨_, rfl, fun p h => by cases h⟩
  rw [if_neg h6]
  by_cases h7 : env.prePayload ≠ .ok
  · rw [if_pos h7]; exact ⟨_, rfl, fun p h => by cases h⟩
  rw [if_neg h7]
  refine ⟨_, rfl, fun p h => Or.inr ⟨_, fun h12 => (declares_iff h12 _).2 ⟨Decidable.not_not.1 h5, rfl⟩,
    Nat.le_of_not_lt h6, ?_⟩⟩
  cases h
  rfl

theorem bind_eq {α β : Type} {x : Out α} {f : α → Out β} {y : β} (h : (x >>= f) = .val y) :
    ∃ a, x = .val a ∧ f a = .val y := by
  cases x with
  | val a => exact ⟨a, rfl, h⟩
  | oob => cases h
  | hang => cases h

/-- A refusal is never reported as success. -/
theorem mapImage_err (env : Env) (img : Image) : mapImage env img ≠ .val (.error .ok) := by
  intro h
  unfold mapImage at h
  split at h
  · cases h
  split at h
  · rename_i hp; injection h with h; injection h with h; exact absurd h hp
  obtain ⟨r, hr, h⟩ := bind_eq h
  split at h
  · rename_i rc
    cases h
    unfold peekImgSize at hr
    repeat' first
      | (cases hr; done)
      | (obtain ⟨_, _, hr⟩ := bind_eq hr)
      | split at hr
  · split at h
    · cases h
    split at h
    · rename_i hp; injection h with h; injection h with h; exact absurd h hp
    · cases h

theorem validate_err (c : Crypto) (env : Env) (base : Nat) (hdr payload : List UInt8) :
    validateAndHash c env base hdr payload ≠ .val (.error .ok) := by
  intro h
  unfold validateAndHash at h
  repeat' first
    | (cases h; done)
    | (obtain ⟨_, _, h⟩ := bind_eq h)
    | split at h

end WolfHsm.ImgMgr

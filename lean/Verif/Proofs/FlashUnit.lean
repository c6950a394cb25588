import Verif.Proofs.FlashWp

/-! # wp rules for the unit layer -/

namespace WolfHsm.FlashUnit

open Flash

variable {d : Dev} {F : Faults} {m : Mem} {C : Mem → Prop}

/-- `m'` differs from `m` only inside `[lo, hi)`. -/
def Outside (m m' : Mem) (lo hi : Nat) : Prop := ∀ x, (x < lo ∨ hi ≤ x) → m' x = m x

theorem Outside.refl (m : Mem) (lo hi : Nat) : Outside m m lo hi := fun _ _ => rfl

theorem Outside.trans {m1 m2 m3 : Mem} {lo hi : Nat} (h1 : Outside m1 m2 lo hi)
    (h2 : Outside m2 m3 lo hi) : Outside m1 m3 lo hi := fun x h => (h2 x h).trans (h1 x h)

theorem Outside.mono {m m' : Mem} {lo hi lo' hi' : Nat} (h : Outside m m' lo hi) (h1 : lo' ≤ lo)
    (h2 : hi ≤ hi') : Outside m m' lo' hi' := fun x hx => h x (by omega)

theorem Outside.below {m m' : Mem} {lo hi : Nat} (h : Outside m m' lo hi) {a b : Nat} (hb : b ≤ lo) :
    Agree m m' a b := fun x _ h2 => h x (by omega)

theorem Outside.above {m m' : Mem} {lo hi : Nat} (h : Outside m m' lo hi) {a b : Nat} (hb : hi ≤ a) :
    Agree m m' a b := fun x h1 _ => h x (by omega)

theorem torn_outside (m : Mem) (a : Nat) (bs : List UInt8) (sel : Nat → Bool) :
    Outside m (torn m a bs sel) a (a + bs.length) := by
  intro x h
  simp only [torn, wr]
  split
  · rw [if_neg (by omega)]
  · rfl

theorem wr_outside (m : Mem) (a : Nat) (bs : List UInt8) :
    Outside m (wr m a bs) a (a + bs.length) := by
  rw [← torn_true]; exact torn_outside _ _ _ _

theorem torn_same_blank {d : Dev} {m : Mem} {a : Nat} {bs : List UInt8} {sel : Nat → Bool}
    (h : isBlank d m a bs.length = true) (x : Nat) (hx : torn m a bs sel x ≠ m x) :
    m x = d.erased := by
  by_cases hr : a ≤ x ∧ x < a + bs.length
  · exact isBlank_iff.1 h x hr.1 hr.2
  · exact absurd (torn_outside m a bs sel x (by omega)) hx

theorem bytes2units_bounds (b : Nat) : b ≤ bytes2units b * 8 ∧ bytes2units b * 8 < b + 8 := by
  unfold bytes2units; split <;> omega

theorem bytes2units_eq (b : Nat) : bytes2units b = (b + 7) / 8 := by
  unfold bytes2units; split <;> omega

theorem wp_read {Q : Rc × List UInt8 → Mem → Prop} {off n : Nat}
    (hr : off * 8 + n * 8 ≤ d.size) (hC : C m)
    (hQ : Q (.ok, rd m (off * 8) (n * 8)) m)
    (hF : F.read = true → ∀ e bs, e ≠ .ok → Q (e, bs) m) :
    wp d F (read off n) Q C m := by
  refine ⟨hC, ?_, fun h e bs he => ⟨hC, hF h e bs he⟩⟩
  have h1 : devRead d m (off * 8) (n * 8) = (.ok, rd m (off * 8) (n * 8)) := by
    simp only [devRead]; rw [if_neg (by omega)]
  simp only [h1]
  exact ⟨hC, hQ⟩

theorem wp_blankCheck {Q : Rc → Mem → Prop} {off n : Nat}
    (hr : off * 8 + n * 8 ≤ d.size) (hC : C m)
    (h1 : isBlank d m (off * 8) (n * 8) = true → Q .ok m)
    (h2 : isBlank d m (off * 8) (n * 8) = false → Q .notblank m)
    (hF : F.read = true → ∀ e, e ≠ .ok → e ≠ .notblank → Q e m) :
    wp d F (blankCheck off n) Q C m := by
  refine ⟨hC, ?_, fun h e he he' => ⟨hC, hF h e he he'⟩⟩
  refine ⟨hC, ?_⟩
  unfold devBlank
  rw [if_neg (by omega)]
  split
  · rename_i h; exact h1 h
  · rename_i h; exact h2 (by simpa using h)

/-- Programming units: refused unchanged unless the target is blank and in range. -/
theorem wp_program {Q : Rc → Mem → Prop} {off : Nat} {bs : List UInt8}
    (hC : C m)
    (hCt : isBlank d m (off * 8) bs.length = true → ∀ sel, C (torn m (off * 8) bs sel))
    (hok : isBlank d m (off * 8) bs.length = true → Q .ok (wr m (off * 8) bs))
    (hbad : isBlank d m (off * 8) bs.length = true ∧ off * 8 + bs.length ≤ d.size → F.read = true →
      ∀ e, e ≠ .ok → Q e m)
    (hbad' : ¬ (isBlank d m (off * 8) bs.length = true ∧ off * 8 + bs.length ≤ d.size) →
      ∀ e, e ≠ .ok → Q e m)
    (hw : F.write = true → isBlank d m (off * 8) bs.length = true →
      ∀ e sel, e ≠ .ok → Q e (torn m (off * 8) bs sel)) :
    wp d F (program off bs) Q C m := by
  refine ⟨hC, ?_, ?_⟩
  · by_cases hr : off * 8 + bs.length > d.size
    · have : devBlank d m (off * 8) bs.length = .badargs := by simp [devBlank, hr]
      rw [this]
      simp only [ne_eq, reduceCtorEq, not_false_eq_true, if_true]
      exact ⟨hC, hbad' (by omega) _ (by simp)⟩
    · by_cases hb : isBlank d m (off * 8) bs.length = true
      · have h1 : devBlank d m (off * 8) bs.length = .ok := by simp [devBlank, hr, hb]
        have h2 : devProg d m (off * 8) bs = .ok := by simp [devProg, hr, hb]
        rw [h1]
        simp only [ne_eq, not_true, if_false]
        refine ⟨hC, fun h => absurd h2 h, fun _ => ⟨?_, hCt hb, ?_⟩⟩
        · have hC' : C (wr m (off * 8) bs) := by rw [← torn_true]; exact hCt hb _
          simp only [not_true, if_false]
          refine ⟨hC', ⟨hC', ?_⟩, fun hf e he => ⟨hC', ?_⟩⟩
          · have : devVerify d (wr m (off * 8) bs) (off * 8) bs = .ok := by
              simp [devVerify, hr, rd_wr]
            rw [this]; exact hok hb
          · have := hw hf hb e (fun _ => true) he
            rwa [torn_true] at this
        · intro hf e sel he
          simp only [he, not_false_eq_true, if_true]
          exact ⟨hCt hb sel, hw hf hb e sel he⟩
      · have h1 : devBlank d m (off * 8) bs.length = .notblank := by simp [devBlank, hr, hb]
        rw [h1]
        simp only [ne_eq, reduceCtorEq, not_false_eq_true, if_true]
        exact ⟨hC, hbad' (by simp [hb]) _ (by simp)⟩
  · intro hf e he _
    simp only [ne_eq, he, not_false_eq_true, if_true]
    refine ⟨hC, ?_⟩
    by_cases h : isBlank d m (off * 8) bs.length = true ∧ off * 8 + bs.length ≤ d.size
    · exact hbad h hf e he
    · exact hbad' h e he

/-- Programming blank in-range units. -/
theorem wp_program_blank {Q : Rc → Mem → Prop} {off : Nat} {bs : List UInt8}
    (hr : off * 8 + bs.length ≤ d.size)
    (hb : isBlank d m (off * 8) bs.length = true)
    (hCt : ∀ sel, C (torn m (off * 8) bs sel))
    (hok : Q .ok (wr m (off * 8) bs))
    (hF : F.write = true ∨ F.read = true → ∀ e sel, e ≠ .ok → Q e (torn m (off * 8) bs sel)) :
    wp d F (program off bs) Q C m := by
  have hC : C m := by rw [← torn_false m (off * 8) bs]; exact hCt _
  refine wp_program hC (fun _ => hCt) (fun _ => hok) ?_ ?_ ?_
  · intro _ hf e he
    have := hF (.inr hf) e (fun _ => false) he
    rwa [torn_false] at this
  · intro h; exact absurd ⟨hb, hr⟩ h
  · intro hf _ e sel he; exact hF (.inl hf) e sel he

/-- Programming one blank in-range unit: it happens or it does not. -/
theorem wp_program_unit {Q : Rc → Mem → Prop} {off : Nat} {bs : List UInt8}
    (hl : bs.length = 8) (hr : off * 8 + 8 ≤ d.size)
    (hb : isBlank d m (off * 8) 8 = true)
    (hC : C m) (hC' : C (wr m (off * 8) bs))
    (hok : Q .ok (wr m (off * 8) bs))
    (hF : F.write = true ∨ F.read = true → ∀ e, e ≠ .ok → Q e m ∧ Q e (wr m (off * 8) bs)) :
    wp d F (program off bs) Q C m := by
  refine wp_program_blank (by omega) (by rw [hl]; exact hb) ?_ hok ?_
  · intro sel
    rcases torn_unit m off bs hl sel with h | h <;> rw [h] <;> assumption
  · intro hf e sel he
    rcases torn_unit m off bs hl sel with h | h <;> rw [h]
    · exact (hF hf e he).2
    · exact (hF hf e he).1

/-- Programming a unit range that is not blank is refused. -/
theorem wp_program_refused {Q : Rc → Mem → Prop} {off : Nat} {bs : List UInt8}
    (hb : isBlank d m (off * 8) bs.length = false)
    (hC : C m) (hbad : ∀ e, e ≠ .ok → Q e m) :
    wp d F (program off bs) Q C m := by
  refine wp_program hC ?_ ?_ ?_ (fun _ => hbad) ?_ <;> simp [hb]

theorem wp_erase {Q : Rc → Mem → Prop} {off n : Nat}
    (hn : n ≠ 0) (hr : off * 8 + n * 8 ≤ d.size) (hC : C m)
    (hCt : ∀ sel, C (torn m (off * 8) (erasedBytes d (n * 8)) sel))
    (hok : Q .ok (wr m (off * 8) (erasedBytes d (n * 8))))
    (hF : F.write = true ∨ F.read = true →
      ∀ e sel, e ≠ .ok → e ≠ .notblank → Q e (torn m (off * 8) (erasedBytes d (n * 8)) sel))
    (hF' : F.write = true → ∀ sel, Q .notblank (torn m (off * 8) (erasedBytes d (n * 8)) sel)) :
    wp d F (erase off n) Q C m := by
  unfold erase
  rw [if_neg hn]
  have h1 : devErase d (off * 8) (n * 8) = .ok := by simp only [devErase]; rw [if_neg (by omega)]
  refine ⟨hC, fun h => absurd h1 h, fun _ => ⟨?_, hCt, ?_⟩⟩
  · simp only [ne_eq, not_true, if_false]
    have hC' : C (wr m (off * 8) (erasedBytes d (n * 8))) := by rw [← torn_true]; exact hCt _
    refine ⟨hC', ⟨hC', ?_⟩, fun hf e he he' => ⟨hC', ?_⟩⟩
    · have : devBlank d (wr m (off * 8) (erasedBytes d (n * 8))) (off * 8) (n * 8) = .ok := by
        simp only [devBlank, isBlank_wr_erased, if_true]; rw [if_neg (by omega)]
      rw [this]; exact hok
    · rw [← torn_true]; exact hF (.inr hf) e _ he he'
  · intro hf e sel he
    simp only [ne_eq, he, not_false_eq_true, if_true]
    refine ⟨hCt sel, ?_⟩
    by_cases h : e = .notblank
    · subst h; exact hF' hf sel
    · exact hF (.inl hf) e sel he h

theorem wp_andThen_ok {Q : Rc → Mem → Prop} {p : FP Rc} (h : wp d F p Q C m) :
    wp d F (andThen .ok p) Q C m := by unfold andThen; rw [if_pos rfl]; exact h

theorem wp_andThen_err {Q : Rc → Mem → Prop} {p : FP Rc} {rc : Rc} (hrc : rc ≠ .ok) (hC : C m)
    (h : Q rc m) : wp d F (andThen rc p) Q C m := by
  unfold andThen; rw [if_neg hrc]; exact ⟨hC, h⟩

theorem wp_readHead {Q : Rc × List UInt8 × Nat × Nat → Mem → Prop} {byteOff len : Nat}
    (hr : (byteOff / 8) * 8 + 8 ≤ d.size ∨ byteOff % 8 = 0) (hC : C m)
    (hQ : ∀ k u, k ≤ len → (u * 8 = byteOff + k ∨ k = len) →
      Q (.ok, rd m byteOff k, len - k, u) m)
    (hF : F.read = true → ∀ e u, e ≠ .ok → Q (e, [], len, u) m) :
    wp d F (readHead byteOff len) Q C m := by
  unfold readHead
  by_cases ho : byteOff % 8 = 0
  · simp only [ho, ne_eq, not_true, if_false]
    exact ⟨hC, hQ 0 _ (by omega) (.inl (by omega))⟩
  · simp only [ne_eq, ho, not_false_eq_true, if_true]
    apply wp_bind
    refine wp_read (by omega) hC ?_ ?_
    · simp only [if_true]
      refine ⟨hC, ?_⟩
      have e1 : byteOff / 8 * 8 + byteOff % 8 = byteOff := by omega
      split
      · rw [rd_drop _ _ _ _ (by omega), rd_take _ _ _ _ (by omega), e1]
        exact hQ len _ (by omega) (.inr rfl)
      · rw [rd_drop _ _ _ _ (by omega), rd_take _ _ _ _ (by omega), e1]
        exact hQ _ _ (by omega) (.inl (by omega))
    · intro hf e bs he
      simp only [he, if_false]
      exact ⟨hC, hF hf _ _ he⟩

theorem wp_readBody {Q : Rc × List UInt8 × Nat → Mem → Prop} {u n : Nat}
    (hr : n = 0 ∨ u * 8 + n * 8 ≤ d.size) (hC : C m)
    (hQ : Q (.ok, rd m (u * 8) (n * 8), u + n) m)
    (hF : F.read = true → ∀ e bs u, e ≠ .ok → Q (e, bs, u) m) :
    wp d F (readBody .ok u n) Q C m := by
  unfold readBody
  by_cases hn : n = 0
  · subst hn
    simp only [ne_eq, not_true, and_false, if_false]
    exact ⟨hC, by simpa using hQ⟩
  · rw [if_pos ⟨rfl, hn⟩]
    apply wp_bind
    exact wp_read (by omega) hC ⟨hC, hQ⟩ fun hf e bs he => ⟨hC, hF hf _ _ _ he⟩

theorem wp_readTail {Q : Rc × List UInt8 → Mem → Prop} {u n : Nat}
    (hn : n ≤ 8) (hr : n = 0 ∨ u * 8 + 8 ≤ d.size) (hC : C m)
    (hQ : Q (.ok, rd m (u * 8) n) m)
    (hF : F.read = true → ∀ e bs, e ≠ .ok → Q (e, bs) m) :
    wp d F (readTail .ok u n) Q C m := by
  unfold readTail
  by_cases hz : n = 0
  · subst hz
    simp only [ne_eq, not_true, and_false, if_false]
    exact ⟨hC, by simpa using hQ⟩
  · rw [if_pos ⟨rfl, hz⟩]
    apply wp_bind
    refine wp_read (by omega) hC ?_ fun hf e bs he => ?_
    · simp only [if_true]
      refine ⟨hC, ?_⟩
      rw [rd_take _ _ _ _ (by omega)]; exact hQ
    · simp only [he, if_false]; exact ⟨hC, hF hf _ _ he⟩

/-- Byte reads return exactly the bytes. -/
theorem wp_readBytes {Q : Rc × List UInt8 → Mem → Prop} {byteOff len : Nat}
    (hr : (byteOff / 8) * 8 + 8 ≤ d.size ∨ byteOff % 8 = 0)
    (hr2 : bytes2units (byteOff + len) * 8 ≤ d.size) (hC : C m)
    (hQ : Q (.ok, rd m byteOff len) m)
    (hF : F.read = true → ∀ e bs, e ≠ .ok → Q (e, bs) m) :
    wp d F (readBytes byteOff len) Q C m := by
  have hbe := bytes2units_eq (byteOff + len)
  have err : ∀ e head l u, F.read = true → e ≠ .ok → wp d F (do
      let (rc, body, offUnits) ← readBody e u (l / 8)
      let (rc, tail) ← readTail rc offUnits (l % 8)
      pure (rc, head ++ body ++ tail)) Q C m := by
    intro e head l u hf he
    apply wp_bind
    unfold readBody
    rw [if_neg (by simp [he])]
    refine ⟨hC, ?_⟩
    apply wp_bind
    unfold readTail
    rw [if_neg (by simp [he])]
    exact ⟨hC, hC, hF hf _ _ he⟩
  unfold readBytes
  apply wp_bind
  refine wp_readHead hr hC ?_ fun hf e u he => err e _ _ _ hf he
  intro k u hk hu
  dsimp only
  apply wp_bind
  refine wp_readBody (by omega) hC ?_ ?_
  · dsimp only
    apply wp_bind
    refine wp_readTail (by omega) (by omega) hC ?_ fun hf e bs he => ⟨hC, hF hf _ _ he⟩
    refine ⟨hC, ?_⟩
    have : rd m byteOff k ++ rd m (u * 8) ((len - k) / 8 * 8) ++
        rd m ((u + (len - k) / 8) * 8) ((len - k) % 8) = rd m byteOff len := by
      rcases hu with hu | hu
      · have e1 : (u + (len - k) / 8) * 8 = u * 8 + (len - k) / 8 * 8 := by omega
        rw [e1, List.append_assoc, ← rd_append, hu, ← rd_append]
        congr 1; omega
      · subst hu; simp
    rw [this]; exact hQ
  · intro hf e bs u' he
    dsimp only
    apply wp_bind
    unfold readTail
    rw [if_neg (by simp [he])]
    exact ⟨hC, hC, hF hf _ _ he⟩

/-- Byte programming of blank flash. -/
theorem wp_programBytes {Q : Rc → Mem → Prop} {u : Nat} {data : List UInt8}
    (hr : u * 8 + bytes2units data.length * 8 ≤ d.size)
    (hb : isBlank d m (u * 8) (bytes2units data.length * 8) = true)
    (hC : ∀ m', Outside m m' (u * 8) (u * 8 + bytes2units data.length * 8) → C m')
    (hok : ∀ m', Outside m m' (u * 8) (u * 8 + bytes2units data.length * 8) →
      rd m' (u * 8) data.length = data → Q .ok m')
    (hF : F.write = true ∨ F.read = true → ∀ e m', e ≠ .ok →
      Outside m m' (u * 8) (u * 8 + bytes2units data.length * 8) → Q e m') :
    wp d F (programBytes (u * 8) data) Q C m := by
  have hbb := bytes2units_bounds data.length
  have hbe := bytes2units_eq data.length
  unfold programBytes
  have e1 : u * 8 / 8 = u := by omega
  have e2 : u * 8 % 8 = 0 := by omega
  simp only [e1, e2, List.drop_zero]
  have hCm := hC m (Outside.refl _ _ _)
  -- the last partial unit
  have last : ∀ m1, Outside m m1 (u * 8) (u * 8 + data.length / 8 * 8) →
      rd m1 (u * 8) (data.length / 8 * 8) = data.take (data.length / 8 * 8) →
      wp d F (andThen .ok (if data.length % 8 ≠ 0 then
        program (u + data.length / 8)
          ((data.drop (data.length / 8 * 8)).take (data.length % 8) ++
            List.replicate (8 - data.length % 8) 0)
        else pure .ok)) Q C m1 := by
    intro m1 ho hrd
    have ho' : Outside m m1 (u * 8) (u * 8 + bytes2units data.length * 8) :=
      ho.mono (Nat.le_refl _) (by omega)
    apply wp_andThen_ok
    by_cases hrem : data.length % 8 = 0
    · rw [if_neg (by simp [hrem])]
      refine ⟨hC _ ho', hok _ ho' ?_⟩
      have : data.length / 8 * 8 = data.length := by omega
      rw [this, List.take_length] at hrd; exact hrd
    · rw [if_pos hrem]
      have hlen : ((data.drop (data.length / 8 * 8)).take (data.length % 8) ++
            List.replicate (8 - data.length % 8) (0 : UInt8)).length = 8 := by
        simp; omega
      have hout : ∀ sel, Outside m (torn m1 ((u + data.length / 8) * 8)
          ((data.drop (data.length / 8 * 8)).take (data.length % 8) ++
            List.replicate (8 - data.length % 8) 0) sel) (u * 8)
          (u * 8 + bytes2units data.length * 8) := fun sel =>
        ho'.trans ((torn_outside _ _ _ _).mono (by omega) (by rw [hlen]; omega))
      refine wp_program_blank (by rw [hlen]; omega) ?_ (fun sel => hC _ (hout sel)) ?_ ?_
      · rw [hlen, isBlank_agree (m := m) (lo := (u + data.length / 8) * 8)
          (hi := (u + data.length / 8) * 8 + 8) (ho.above (by omega)) (by omega) (by omega)]
        exact isBlank_sub hb (by omega) (by omega)
      · rw [← torn_true]
        refine hok _ (hout _) ?_
        rw [torn_true]
        have e3 : data.length / 8 * 8 + data.length % 8 = data.length := by omega
        have e5 : ∀ w, rd w (u * 8) data.length =
            rd w (u * 8) (data.length / 8 * 8 + data.length % 8) := by intro w; rw [e3]
        rw [e5, rd_append]
        have e4 : u * 8 + data.length / 8 * 8 = (u + data.length / 8) * 8 := by omega
        rw [e4]
        rw [rd_eq_of_agree (m := m1) (lo := u * 8) (hi := u * 8 + data.length / 8 * 8)
          (wr_agree_lt _ _ _ _ _ (by omega)) (by omega) (by omega), hrd]
        have := rd_wr_sub m1 ((u + data.length / 8) * 8)
          ((data.drop (data.length / 8 * 8)).take (data.length % 8) ++
            List.replicate (8 - data.length % 8) 0) 0 (data.length % 8) (by rw [hlen]; omega)
        rw [Nat.add_zero] at this
        rw [this, List.drop_zero, List.take_left' (by simp; omega)]
        have e6 : (data.drop (data.length / 8 * 8)).take (data.length % 8) =
            data.drop (data.length / 8 * 8) :=
          List.take_of_length_le (by rw [List.length_drop]; omega)
        rw [e6, List.take_append_drop]
      · intro hf e sel he
        exact hF hf e _ he (hout sel)
  apply wp_bind
  apply wp_andThen_ok
  by_cases hc : data.length / 8 = 0
  · rw [if_neg (by simp [hc])]
    refine ⟨hCm, ?_⟩
    refine last m (Outside.refl _ _ _) ?_
    simp [hc]
  · rw [if_pos hc]
    have hl : (data.take (data.length / 8 * 8)).length = data.length / 8 * 8 := by
      simp; omega
    have hout : ∀ sel, Outside m (torn m (u * 8) (data.take (data.length / 8 * 8)) sel) (u * 8)
        (u * 8 + data.length / 8 * 8) := by
      intro sel
      have := torn_outside m (u * 8) (data.take (data.length / 8 * 8)) sel
      rwa [hl] at this
    have hout' : ∀ sel, Outside m (torn m (u * 8) (data.take (data.length / 8 * 8)) sel) (u * 8)
        (u * 8 + bytes2units data.length * 8) :=
      fun sel => (hout sel).mono (Nat.le_refl _) (by omega)
    refine wp_program_blank (by rw [hl]; omega) ?_ (fun sel => hC _ (hout' sel)) ?_ ?_
    · rw [hl]; exact isBlank_sub hb (by omega) (by omega)
    · refine last _ ?_ ?_
      · have := hout (fun _ => true); rwa [torn_true] at this
      · have := rd_wr m (u * 8) (data.take (data.length / 8 * 8))
        rwa [hl] at this
    · intro hf e sel he
      exact wp_andThen_err he (hC _ (hout' sel)) (hF hf e _ he (hout' sel))

end WolfHsm.FlashUnit

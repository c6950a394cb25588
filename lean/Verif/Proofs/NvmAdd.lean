import Verif.Proofs.NvmDir

/-! # Writing one object -/

namespace WolfHsm.NvmFlash

open Flash FlashUnit

variable {c : Cfg}

/-! ## Unit writes -/

theorem word_wr_same (m : Mem) (u : Nat) (bs : List UInt8) (h : bs.length = 8) :
    word (wr m (u * 8) bs) u = bs := by
  unfold word; rw [← h]; exact rd_wr _ _ _

theorem rd_wr_ne (m : Mem) (a : Nat) (bs : List UInt8) (b n : Nat)
    (h : b + n ≤ a ∨ a + bs.length ≤ b) : rd (wr m a bs) b n = rd m b n := by
  rcases h with h | h
  · exact rd_agree (wr_agree_lt _ _ _ _ _ h)
  · exact rd_agree (wr_agree_ge _ _ _ _ _ h)

theorem word_wr_ne (m : Mem) (u v : Nat) (bs : List UInt8) (h : bs.length = 8) (hne : u ≠ v) :
    word (wr m (u * 8) bs) v = word m v := by
  unfold word; exact rd_wr_ne _ _ _ _ _ (by omega)

theorem ublank_wr_ne (m : Mem) (u v : Nat) (bs : List UInt8) (h : bs.length = 8) (hne : u ≠ v) :
    ublank c (wr m (u * 8) bs) v = ublank c m v := by
  unfold ublank isBlank; rw [rd_wr_ne _ _ _ _ _ (by omega)]

/-- `m'` differs from `m` only in the next directory entry and the next `k` data units. -/
def Near (c : Cfg) (p : Bool) (slots : List Slot) (m m' : Mem) (k : Nat) : Prop :=
  ∀ x, (x < objOff c p slots.length * 8 ∨ objOff c p (slots.length + 1) * 8 ≤ x) →
    (x < (pDataOff c p + total slots) * 8 ∨ (pDataOff c p + total slots + k) * 8 ≤ x) →
    m' x = m x

theorem Near.refl {p slots m k} : Near c p slots m m k := fun _ _ _ => rfl

theorem Near.mono {p slots m m' k k'} (h : Near c p slots m m' k) (hk : k ≤ k') :
    Near c p slots m m' k' := fun x h1 h2 => h x h1 (by omega)

theorem Near.trans {p slots m1 m2 m3 k} (h1 : Near c p slots m1 m2 k)
    (h2 : Near c p slots m2 m3 k) : Near c p slots m1 m3 k :=
  fun x a b => (h2 x a b).trans (h1 x a b)

theorem Near.of_obj {p slots m m' k} {lo hi : Nat} (h : Outside m m' lo hi)
    (h1 : objOff c p slots.length * 8 ≤ lo) (h2 : hi ≤ objOff c p (slots.length + 1) * 8) :
    Near c p slots m m' k := fun x hx _ => h x (by omega)

theorem Near.of_data {p slots m m' k} {lo hi : Nat} (h : Outside m m' lo hi)
    (h1 : (pDataOff c p + total slots) * 8 ≤ lo)
    (h2 : hi ≤ (pDataOff c p + total slots + k) * 8) :
    Near c p slots m m' k := fun x _ hx => h x (by omega)

theorem Near.outside {p slots m m' k} (h : Near c p slots m m' k) (hwf : c.WF)
    (hn : slots.length < c.N) (hk : total slots + k ≤ c.pu - c.dataOff) :
    Outside m m' ((pOff c p + 3) * 8) ((pOff c p + c.pu) * 8) := by
  have hf := hwf.fits
  intro x hx
  apply h x <;> simp only [objOff, pDataOff, Cfg.dataOff] at * <;> omega

/-- Extending a represented partition by one entry. -/
theorem rep_extend {p slots m m' t} (hwf : c.WF) (h : Rep c m p slots)
    (hn : slots.length < c.N) (hk : total slots + t.size ≤ c.pu - c.dataOff)
    (hnear : Near c p slots m m' t.size)
    (ht : SlotAt c m' p slots.length (total slots) t) : Rep c m' p (slots ++ [t]) := by
  have hf := hwf.fits
  have hl := h.len
  have e2 : total (slots ++ [t]) = total slots + t.size := by simp [total_append, total]
  have e1 : (slots ++ [t]).length = slots.length + 1 := by simp
  refine ⟨by omega, by omega, ?_, ?_, ?_⟩
  · rw [slotsAt_append]
    refine ⟨h.ents.frame ?_ ?_, ?_⟩
    · intro x h1 h2
      apply hnear x <;> simp only [objOff, pDataOff, Cfg.dataOff] at * <;> omega
    · intro x h1 h2
      apply hnear x <;> simp only [objOff, pDataOff, Cfg.dataOff] at * <;> omega
    · simpa [SlotsAt] using ht
  · rw [e1, isBlank_iff]
    intro x h1 h2
    rw [hnear x (by omega) (by unfold objOff pDataOff Cfg.dataOff at *; omega)]
    exact isBlank_iff.1 h.dirBlank x (by unfold objOff at *; omega)
      (by unfold objOff at *; omega)
  · rw [e2, isBlank_iff]
    intro x h1 h2
    rw [hnear x (by unfold objOff pDataOff Cfg.dataOff at *; omega) (by omega)]
    exact isBlank_iff.1 h.dataBlank x (by omega) (by omega)

theorem rep_ublank {p slots m} (h : Rep c m p slots) (hn : slots.length < c.N) {j : Nat}
    (hj : j < 7) : ublank c m (objOff c p slots.length + j) = true := by
  unfold ublank
  exact isBlank_sub h.dirBlank (by omega) (by omega)

/-- Flash states of an entry being written. -/
inductive Partly (c : Cfg) (p : Bool) (slots : List Slot) (m m' : Mem) (e : Nat) (md : Meta) :
    Prop
  | none (h : m' = m)
  | metaBad (h : Near c p slots m m' 0) (h1 : SlotAt c m' p slots.length (total slots) .metaBad)
  | dataBad (h : Near c p slots m m' (bytes2units md.len.toNat))
      (h1 : SlotAt c m' p slots.length (total slots) (.dataBad e md))

theorem objOff_dev (hwf : c.WF) {p : Bool} {n : Nat} (hn : n < c.N) :
    (objOff c p n + 7) * 8 ≤ c.dev.size := by
  have := hwf.fits
  have h2 := pOff_bound (c := c) p
  unfold Cfg.dev objOff Cfg.dataOff at *; simp only; omega

section
variable {F : Faults} {m : Mem} {C : Mem → Prop} {Q : Rc → Mem → Prop}

/-- `nfObject_ProgramBegin`. -/
theorem wp_begin {p : Bool} {slots : List Slot} {e : Nat} {md : Meta} (hwf : c.WF)
    (hRep : Rep c m p slots) (hn : slots.length < c.N) (he : e < 2 ^ 32)
    (hC : ∀ m', Partly c p slots m m' e md → C m')
    (hok : ∀ m', Near c p slots m m' 0 →
      SlotAt c m' p slots.length (total slots) (.dataBad e md) → Q .ok m')
    (hF : F.write = true ∨ F.read = true → ∀ rc m', rc ≠ .ok →
      Partly c p slots m m' e md → Q rc m') :
    wp c.dev F (objProgramBegin c p slots.length e (total slots) md (mcrc c md)) Q C m := by
  have hdev := objOff_dev hwf (p := p) hn
  have hs : objOff c p (slots.length + 1) = objOff c p slots.length + 7 := objOff_succ _ _
  have b0 := rep_ublank hRep hn (j := 0) (by omega)
  have b1 := rep_ublank hRep hn (j := 1) (by omega)
  have b2 := rep_ublank hRep hn (j := 2) (by omega)
  generalize hu : objOff c p slots.length = u at *
  -- memory after the epoch word
  have hm1n : Near c p slots m (wr m (u * 8) (unitBytes (BASE_STATE ||| e))) 0 :=
    Near.of_obj (wr_outside _ _ _) (by omega) (by simp; omega)
  -- states while the metadata is written
  have hmeta : ∀ m2, Outside (wr m (u * 8) (unitBytes (BASE_STATE ||| e))) m2 ((u + 3) * 8)
      ((u + 3) * 8 + 32) → Near c p slots m m2 0 ∧
      SlotAt c m2 p slots.length (total slots) .metaBad ∧
      word m2 u = unitBytes (BASE_STATE ||| e) := by
    intro m2 ho
    have hw : word m2 u = unitBytes (BASE_STATE ||| e) := by
      rw [word_agree (ho.below (a := u * 8) (b := (u + 1) * 8) (by omega)) (by omega) (by omega)]
      exact word_wr_same _ _ _ (by simp)
    refine ⟨hm1n.trans (Near.of_obj ho (by omega) (by omega)), ⟨?_, ?_, ?_⟩, hw⟩
    · rw [hu]; exact ublank_word (isWord_base he) hw
    · rw [hu, ublank_agree (ho.below (a := u * 8) (b := (u + 3) * 8) (by omega)) (by omega)
        (by omega), ublank_wr_ne _ _ _ _ (by simp) (by omega)]; exact b1
    · rw [hu, ublank_agree (ho.below (a := u * 8) (b := (u + 3) * 8) (by omega)) (by omega)
        (by omega), ublank_wr_ne _ _ _ _ (by simp) (by omega)]; exact b2
  have hP1 : Partly c p slots m (wr m (u * 8) (unitBytes (BASE_STATE ||| e))) e md :=
    .metaBad hm1n (hmeta _ (Outside.refl _ _ _)).2.1
  unfold objProgramBegin
  rw [hu]
  apply wp_bind
  refine wp_program_unit (by simp) (by omega) b0 (hC _ (.none rfl)) (hC _ hP1) ?_ ?_
  · -- metadata
    apply wp_bind
    apply wp_andThen_ok
    have hbl : isBlank c.dev (wr m (u * 8) (unitBytes (BASE_STATE ||| e))) ((u + 3) * 8)
        md.ser.length = true := by
      rw [ser_length, isBlank_agree (wr_agree_ge m (u * 8) (unitBytes (BASE_STATE ||| e))
        ((u + 3) * 8) ((u + 7) * 8) (by simp; omega)) (by omega) (by omega)]
      refine isBlank_sub hRep.dirBlank (by omega) (by omega)
    have hout : ∀ sel, Outside (wr m (u * 8) (unitBytes (BASE_STATE ||| e)))
        (torn (wr m (u * 8) (unitBytes (BASE_STATE ||| e))) ((u + 3) * 8) md.ser sel)
        ((u + 3) * 8) ((u + 3) * 8 + 32) := by
      intro sel
      have := torn_outside (wr m (u * 8) (unitBytes (BASE_STATE ||| e))) ((u + 3) * 8) md.ser sel
      rwa [ser_length] at this
    refine wp_program_blank (by rw [ser_length]; omega) hbl ?_ ?_ ?_
    · intro sel
      have := hmeta _ (hout sel)
      exact hC _ (.metaBad this.1 this.2.1)
    · -- start word
      apply wp_andThen_ok
      generalize hm2 : wr (wr m (u * 8) (unitBytes (BASE_STATE ||| e))) ((u + 3) * 8) md.ser = m2
      have ho2 : Outside (wr m (u * 8) (unitBytes (BASE_STATE ||| e))) m2 ((u + 3) * 8)
          ((u + 3) * 8 + 32) := by
        have := hout (fun _ => true)
        rwa [torn_true, hm2] at this
      obtain ⟨hn2, hs2, hw2⟩ := hmeta m2 ho2
      have hmd : rd m2 ((u + 3) * 8) 32 = md.ser := by
        rw [← hm2]; have := rd_wr (wr m (u * 8) (unitBytes (BASE_STATE ||| e))) ((u + 3) * 8) md.ser
        rwa [ser_length] at this
      have hslot : SlotAt c (wr m2 ((u + 1) * 8) (unitBytes (startWord c (total slots) (mcrc c md))))
          p slots.length (total slots) (.dataBad e md) := by
        refine ⟨he, ?_, ?_, ?_, ?_⟩
        · rw [hu, word_wr_ne _ _ _ _ (by simp) (by omega)]; exact hw2
        · rw [hu]; exact word_wr_same _ _ _ (by simp)
        · rw [hu, ublank_wr_ne _ _ _ _ (by simp) (by omega)]
          have := hs2.2.2; rwa [hu] at this
        · rw [hu, rd_wr_ne _ _ _ _ _ (by simp; omega)]; exact hmd
      have hn3 : Near c p slots m (wr m2 ((u + 1) * 8)
          (unitBytes (startWord c (total slots) (mcrc c md)))) 0 :=
        hn2.trans (Near.of_obj (wr_outside _ _ _) (by omega) (by simp; omega))
      have hP2 : Partly c p slots m m2 e md := .metaBad hn2 hs2
      have hP3 := Partly.dataBad (hn3.mono (Nat.zero_le (bytes2units md.len.toNat))) hslot
      refine wp_program_unit (by simp) (by omega) ?_ (hC _ hP2) (hC _ hP3) (hok _ hn3 hslot) ?_
      · have := hs2.2.1; rwa [hu] at this
      · intro hf rc hrc; exact ⟨hF hf rc _ hrc hP2, hF hf rc _ hrc hP3⟩
    · intro hf rc sel hrc
      have h := hmeta _ (hout sel)
      have hP := Partly.metaBad (e := e) (md := md) h.1 h.2.1
      exact wp_andThen_err hrc (hC _ hP) (hF hf rc _ hrc hP)
  · intro hf rc hrc
    constructor
    · apply wp_bind
      refine wp_andThen_err hrc (hC _ (.none rfl)) ?_
      exact wp_andThen_err hrc (hC _ (.none rfl)) (hF hf rc _ hrc (.none rfl))
    · apply wp_bind
      refine wp_andThen_err hrc (hC _ hP1) ?_
      exact wp_andThen_err hrc (hC _ hP1) (hF hf rc _ hrc hP1)

/-- A `dataBad` entry is insensitive to its data area. -/
theorem dataBad_data {p : Bool} {slots : List Slot} {e : Nat} {md : Meta} {m1 m2 : Mem}
    (hn : slots.length < c.N)
    (h : SlotAt c m1 p slots.length (total slots) (.dataBad e md))
    (ho : ∀ x, x < (pDataOff c p) * 8 → m2 x = m1 x) :
    SlotAt c m2 p slots.length (total slots) (.dataBad e md) := by
  have ha : Agree m1 m2 0 (pDataOff c p * 8) := fun x _ hx => ho x hx
  have hb : objOff c p slots.length + 7 ≤ pDataOff c p := by
    unfold objOff pDataOff Cfg.dataOff; omega
  obtain ⟨h0, h1, h2, h3, h4⟩ := h
  refine ⟨h0, ?_, ?_, ?_, ?_⟩
  · rw [word_agree ha (by omega) (by omega)]; exact h1
  · rw [word_agree ha (by omega) (by omega)]; exact h2
  · rw [ublank_agree ha (by omega) (by omega)]; exact h3
  · rw [rd_eq_of_agree ha (by omega) (by omega)]; exact h4

/-- `nfObject_ProgramFinish`. -/
theorem wp_finish {p : Bool} {slots : List Slot} {e : Nat} {md : Meta} {data : List UInt8}
    (hwf : c.WF) (hn : slots.length < c.N)
    (hlen : md.len.toNat = data.length)
    (h : SlotAt c m p slots.length (total slots) (.dataBad e md))
    (hd : rd m ((pDataOff c p + total slots) * 8) data.length = data)
    (hC : C m)
    (hC' : ∀ m', Outside m m' (objOff c p slots.length * 8) ((objOff c p slots.length + 7) * 8) →
      SlotAt c m' p slots.length (total slots) (.used e md data) → C m')
    (hok : ∀ m', Outside m m' (objOff c p slots.length * 8) ((objOff c p slots.length + 7) * 8) →
      SlotAt c m' p slots.length (total slots) (.used e md data) → Q .ok m')
    (hF : F.write = true ∨ F.read = true → ∀ rc, rc ≠ .ok → Q rc m ∧
      ∀ m', Outside m m' (objOff c p slots.length * 8) ((objOff c p slots.length + 7) * 8) →
      SlotAt c m' p slots.length (total slots) (.used e md data) → Q rc m') :
    wp c.dev F (objProgramFinish c p slots.length md.len.toNat (dcrc c data)) Q C m := by
  have hdev := objOff_dev hwf (p := p) hn
  have hle : objOff c p slots.length + 7 ≤ pDataOff c p := by
    unfold objOff pDataOff Cfg.dataOff; omega
  obtain ⟨h0, h1, h2, h3, h4⟩ := h
  have hslot : SlotAt c (wr m ((objOff c p slots.length + 2) * 8)
      (unitBytes (countWord c (bytes2units md.len.toNat) (dcrc c data)))) p slots.length
      (total slots) (.used e md data) := by
    refine ⟨h0, hlen, ?_, ?_, ?_, ?_, ?_⟩
    · rw [word_wr_ne _ _ _ _ (by simp) (by omega)]; exact h1
    · rw [word_wr_ne _ _ _ _ (by simp) (by omega)]; exact h2
    · exact word_wr_same _ _ _ (by simp)
    · rw [rd_wr_ne _ _ _ _ _ (by simp; omega)]; exact h4
    · rw [rd_wr_ne _ _ _ _ _ (by simp; omega)]; exact hd
  have hout : Outside m (wr m ((objOff c p slots.length + 2) * 8)
      (unitBytes (countWord c (bytes2units md.len.toNat) (dcrc c data))))
      (objOff c p slots.length * 8) ((objOff c p slots.length + 7) * 8) :=
    (wr_outside _ _ _).mono (by omega) (by simp; omega)
  unfold objProgramFinish
  refine wp_program_unit (by simp) (by omega) h3 hC (hC' _ hout hslot) (hok _ hout hslot) ?_
  intro hf rc hrc
  exact ⟨(hF hf rc hrc).1, (hF hf rc hrc).2 _ hout hslot⟩

theorem checkDataRange_ok {p : Bool} {st len k : Nat} (hwf : c.WF)
    (hb : st * 8 + k + len ≤ (c.pu - c.dataOff) * 8) :
    checkDataRange c p ((pDataOff c p + st) * 8 + k) len = .ok := by
  have := hwf.fits
  unfold checkDataRange
  have e : pDataOff c p = pOff c p + c.dataOff := rfl
  rw [if_neg (by omega), if_neg (by omega)]

/-- `nfObject_ProgramDataBytes` into blank data units. -/
theorem wp_progData {p : Bool} {st : Nat} {data : List UInt8} (hwf : c.WF)
    (hsz : st + bytes2units data.length ≤ c.pu - c.dataOff)
    (hb : isBlank c.dev m ((pDataOff c p + st) * 8) (bytes2units data.length * 8) = true)
    (hC : ∀ m', Outside m m' ((pDataOff c p + st) * 8)
      ((pDataOff c p + st) * 8 + bytes2units data.length * 8) → C m')
    (hok : ∀ m', Outside m m' ((pDataOff c p + st) * 8)
      ((pDataOff c p + st) * 8 + bytes2units data.length * 8) →
      rd m' ((pDataOff c p + st) * 8) data.length = data → Q .ok m')
    (hF : F.write = true ∨ F.read = true → ∀ rc m', rc ≠ .ok →
      Outside m m' ((pDataOff c p + st) * 8)
      ((pDataOff c p + st) * 8 + bytes2units data.length * 8) → Q rc m') :
    wp c.dev F (objProgramData c p st data) Q C m := by
  have hbb := bytes2units_bounds data.length
  have hfit := hwf.fits
  have hpb := pOff_bound (c := c) p
  unfold objProgramData
  have := checkDataRange_ok (c := c) (p := p) (st := st) (len := data.length) (k := 0) hwf
    (by omega)
  rw [Nat.add_zero] at this
  simp only [this, ne_eq, not_true, if_false]
  refine wp_programBytes ?_ hb hC hok hF
  show _ ≤ 16 * c.pu
  unfold pDataOff; omega

/-- `nfObject_Program`: the whole object, from any represented partition. -/
theorem wp_objProgram {p : Bool} {slots : List Slot} {e : Nat} {md : Meta} {data : List UInt8}
    (hwf : c.WF) (hRep : Rep c m p slots) (hn : slots.length < c.N) (he : e < 2 ^ 32)
    (hlen : md.len.toNat = data.length)
    (hsz : total slots + bytes2units data.length ≤ c.pu - c.dataOff)
    (hC : ∀ m' tail, Rep c m' p (slots ++ tail) →
      Outside m m' ((pOff c p + 3) * 8) ((pOff c p + c.pu) * 8) →
      (tail = [] ∨ tail = [.metaBad] ∨ tail = [.dataBad e md] ∨ tail = [.used e md data]) → C m')
    (hok : ∀ m', Rep c m' p (slots ++ [.used e md data]) →
      Outside m m' ((pOff c p + 3) * 8) ((pOff c p + c.pu) * 8) → Q .ok m')
    (hF : F.write = true ∨ F.read = true → ∀ rc m' tail, rc ≠ .ok → Rep c m' p (slots ++ tail) →
      Outside m m' ((pOff c p + 3) * 8) ((pOff c p + c.pu) * 8) →
      (tail = [] ∨ tail = [.metaBad] ∨ tail = [.dataBad e md] ∨ tail = [.used e md data]) →
      Q rc m') :
    wp c.dev F (objProgram c p slots.length e md (total slots) data (mcrc c md) (dcrc c data))
      Q C m := by
  have hfit := hwf.fits
  have hpart : ∀ m', Partly c p slots m m' e md → ∃ tail, Rep c m' p (slots ++ tail) ∧
      Outside m m' ((pOff c p + 3) * 8) ((pOff c p + c.pu) * 8) ∧
      (tail = [] ∨ tail = [.metaBad] ∨ tail = [.dataBad e md] ∨ tail = [.used e md data]) := by
    intro m' hp
    cases hp with
    | none h => subst h; exact ⟨[], by simpa using hRep, Outside.refl _ _ _, .inl rfl⟩
    | metaBad h h1 =>
      exact ⟨[.metaBad], rep_extend hwf hRep hn (by simp only [Slot.size]; omega) h h1,
        h.outside hwf hn (by omega), by simp⟩
    | dataBad h h1 =>
      exact ⟨[.dataBad e md], rep_extend hwf hRep hn (by simp only [Slot.size, hlen]; omega) h h1,
        h.outside hwf hn (by rw [hlen]; omega), by simp⟩
  have hCp : ∀ m', Partly c p slots m m' e md → C m' := fun m' hp => by
    obtain ⟨tail, h1, h2, h3⟩ := hpart m' hp
    exact hC m' tail h1 h2 h3
  have hFp : F.write = true ∨ F.read = true → ∀ rc m', rc ≠ .ok → Partly c p slots m m' e md →
      Q rc m' := fun hf rc m' hrc hp => by
    obtain ⟨tail, h1, h2, h3⟩ := hpart m' hp
    exact hF hf rc m' tail hrc h1 h2 h3
  unfold objProgram
  apply wp_bind
  refine wp_begin hwf hRep hn he hCp ?_ ?_
  · intro m1 hn1 hs1
    apply wp_bind
    apply wp_andThen_ok
    have hstep : ∀ m2, Outside m1 m2 ((pDataOff c p + total slots) * 8)
        ((pDataOff c p + total slots) * 8 + bytes2units data.length * 8) →
        Near c p slots m m2 (bytes2units data.length) ∧
        SlotAt c m2 p slots.length (total slots) (.dataBad e md) := by
      intro m2 ho
      refine ⟨(hn1.mono (Nat.zero_le _)).trans (Near.of_data ho (by omega) (by omega)), ?_⟩
      exact dataBad_data hn hs1 fun x hx => ho x (by omega)
    have hP : ∀ m2, Outside m1 m2 ((pDataOff c p + total slots) * 8)
        ((pDataOff c p + total slots) * 8 + bytes2units data.length * 8) →
        Partly c p slots m m2 e md := by
      intro m2 ho
      have := hstep m2 ho
      exact .dataBad (by rw [hlen]; exact this.1) this.2
    refine wp_progData hwf hsz ?_ ?_ ?_ ?_
    · have ha : Agree m m1 ((pDataOff c p + total slots) * 8) ((pOff c p + c.pu) * 8) := by
        intro x h1 h2
        apply hn1 x
        · right; unfold objOff pDataOff Cfg.dataOff at *; omega
        · omega
      have hb := bytes2units_bounds data.length
      rw [isBlank_agree ha (by omega) (by unfold pDataOff at *; omega)]
      exact isBlank_sub hRep.dataBlank (by omega) (by omega)
    · intro m2 ho; exact hCp m2 (hP m2 ho)
    · intro m2 ho hrd
      apply wp_andThen_ok
      obtain ⟨hn2, hs2⟩ := hstep m2 ho
      have hfin : ∀ m3, Outside m2 m3 (objOff c p slots.length * 8)
          ((objOff c p slots.length + 7) * 8) →
          SlotAt c m3 p slots.length (total slots) (.used e md data) →
          Rep c m3 p (slots ++ [.used e md data]) ∧
          Outside m m3 ((pOff c p + 3) * 8) ((pOff c p + c.pu) * 8) := by
        intro m3 ho3 hs3
        have hn3 : Near c p slots m m3 (bytes2units data.length) :=
          hn2.trans (Near.of_obj ho3 (by omega) (by rw [objOff_succ]))
        exact ⟨rep_extend hwf hRep hn (by simp only [Slot.size, hlen]; omega)
          (by simp only [Slot.size, hlen]; exact hn3) hs3, hn3.outside hwf hn hsz⟩
      refine wp_finish hwf hn hlen hs2 hrd (hCp _ (hP m2 ho)) ?_ ?_ ?_
      · intro m3 ho3 hs3
        have := hfin m3 ho3 hs3
        exact hC m3 _ this.1 this.2 (by simp)
      · intro m3 ho3 hs3
        have := hfin m3 ho3 hs3
        exact hok m3 this.1 this.2
      · intro hf rc hrc
        refine ⟨hFp hf rc m2 hrc (hP m2 ho), fun m3 ho3 hs3 => ?_⟩
        have := hfin m3 ho3 hs3
        exact hF hf rc m3 _ hrc this.1 this.2 (by simp)
    · intro hf rc m2 hrc ho
      exact wp_andThen_err hrc (hCp _ (hP m2 ho)) (hFp hf rc m2 hrc (hP m2 ho))
  · intro hf rc m' hrc hp
    apply wp_bind
    refine wp_andThen_err hrc (hCp _ hp) ?_
    exact wp_andThen_err hrc (hCp _ hp) (hFp hf rc m' hrc hp)

end

end WolfHsm.NvmFlash

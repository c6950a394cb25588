import Verif.Proofs.NvmAdd

/-! # Partition state and `Init` -/

namespace WolfHsm.NvmFlash

open Flash FlashUnit

variable {c : Cfg}

/-- The state words of an active partition. -/
structure PartState (c : Cfg) (m : Mem) (b : Bool) (e : Nat) : Prop where
  lt : e < 2 ^ 32
  epoch : word m (pOff c b) = unitBytes (BASE_STATE ||| e)
  start : word m (pOff c b + 1) = unitBytes (BASE_STATE ||| c.dataOff)
  count : word m (pOff c b + 2) = unitBytes (BASE_STATE ||| c.pu)

/-- The partition is not taken for one of epoch `e` or later. -/
def Stale (c : Cfg) (m : Mem) (b : Bool) (e : Nat) : Prop :=
  (stateAt c m (pOff c b)).status = .used → (stateAt c m (pOff c b)).epoch < e

/-- The flash holds exactly these entries in partition `b` with epoch `e`, and boot will
choose that partition. -/
structure Good (c : Cfg) (m : Mem) (b : Bool) (e : Nat) (slots : List Slot) : Prop where
  part : PartState c m b e
  stale : Stale c m (!b) e
  rep : Rep c m b slots

/-- No partition is in use. -/
def NoUsed (c : Cfg) (m : Mem) : Prop := ∀ b, (stateAt c m (pOff c b)).status ≠ .used

/-- The context describes the entries. -/
structure CtxOK (c : Cfg) (ctx : Ctx) (b : Bool) (e : Nat) (slots : List Slot) : Prop where
  active : ctx.active = b
  epoch : ctx.state.epoch = e
  start : ctx.state.start = c.dataOff
  count : ctx.state.count = c.pu
  dir : ctx.dir = mkDir c slots
  bad : ctx.directoryBad = false

theorem wf_pos (hwf : c.WF) : 3 ≤ c.pu := by have := hwf.fits; unfold Cfg.dataOff at this; omega

theorem stateAt_used_iff {m : Mem} {u : Nat} : (stateAt c m u).status = .used ↔
    ublank c m u = false ∧ ublank c m (u + 1) = false ∧ ublank c m (u + 2) = false := by
  unfold stateAt
  split
  · simp_all
  · split
    · simp_all
    · split <;> simp_all

theorem stateAt_epoch {m : Mem} {u : Nat} (h : (stateAt c m u).status = .used) :
    (stateAt c m u).epoch = unitVal (word m u) % 2 ^ 32 := by
  rw [stateAt_used_iff] at h
  unfold stateAt; rw [if_pos h]

theorem PartState.stateAt {m : Mem} {b : Bool} {e : Nat} (h : PartState c m b e) (hwf : c.WF) :
    (stateAt c m (pOff c b)).status = .used ∧ (stateAt c m (pOff c b)).epoch = e ∧
    (stateAt c m (pOff c b)).start = c.dataOff ∧ (stateAt c m (pOff c b)).count = c.pu := by
  have h1 := hwf.fits
  have h2 := hwf.small
  have w0 := isWord_base h.lt
  have w1 := isWord_base (x := c.dataOff) (by omega)
  have w2 := isWord_base (x := c.pu) (by omega)
  unfold NvmFlash.stateAt
  rw [if_pos ⟨ublank_word w0 h.epoch, ublank_word w1 h.start, ublank_word w2 h.count⟩, h.epoch,
    h.start, h.count, unitVal_unitBytes w0.lt, unitVal_unitBytes w1.lt, unitVal_unitBytes w2.lt,
    base_mod h.lt, base_mod (x := c.dataOff) (by omega), base_mod (x := c.pu) (by omega)]
  exact ⟨rfl, rfl, rfl, rfl⟩

theorem PartState.frame {m m' : Mem} {b : Bool} {e : Nat} (h : PartState c m b e)
    (ha : Agree m m' (pOff c b * 8) ((pOff c b + 3) * 8)) : PartState c m' b e :=
  ⟨h.lt, by rw [word_agree ha (by omega) (by omega)]; exact h.epoch,
   by rw [word_agree ha (by omega) (by omega)]; exact h.start,
   by rw [word_agree ha (by omega) (by omega)]; exact h.count⟩

theorem stateAt_agree {m m' : Mem} {u : Nat} (ha : Agree m m' (u * 8) ((u + 3) * 8)) :
    stateAt c m' u = stateAt c m u := by
  unfold stateAt
  rw [ublank_agree ha (by omega) (by omega), ublank_agree ha (by omega) (by omega),
    ublank_agree ha (by omega) (by omega), word_agree ha (by omega) (by omega),
    word_agree ha (by omega) (by omega), word_agree ha (by omega) (by omega)]

theorem Stale.frame {m m' : Mem} {b : Bool} {e : Nat} (h : Stale c m b e)
    (ha : Agree m m' (pOff c b * 8) ((pOff c b + 3) * 8)) : Stale c m' b e := by
  unfold Stale; rw [stateAt_agree ha]; exact h

/-- Every unit is as before or erased. -/
def Erasing (c : Cfg) (m m' : Mem) : Prop := ∀ u, word m' u = word m u ∨ ublank c m' u = true

theorem Erasing.refl (m : Mem) : Erasing c m m := fun _ => .inl rfl

theorem ublank_eq_word {m m' : Mem} {u : Nat} (h : word m' u = word m u) :
    ublank c m' u = ublank c m u := by
  unfold ublank isBlank; unfold word at h; rw [h]

theorem Erasing.used {m m' : Mem} (h : Erasing c m m') {u : Nat}
    (hu : (stateAt c m' u).status = .used) : stateAt c m' u = stateAt c m u := by
  have := stateAt_used_iff.1 hu
  have k : ∀ v, ublank c m' v = false → word m' v = word m v := fun v hv => by
    rcases h v with h | h
    · exact h
    · rw [hv] at h; cases h
  have h0 := k _ this.1
  have h1 := k _ this.2.1
  have h2 := k _ this.2.2
  unfold stateAt
  rw [ublank_eq_word h0, ublank_eq_word h1, ublank_eq_word h2, h0, h1, h2]

theorem Erasing.stale {m m' : Mem} (h : Erasing c m m') {b : Bool} {e : Nat}
    (hs : Stale c m b e) : Stale c m' b e := by
  intro hu
  have heq := h.used hu
  rw [heq] at hu ⊢
  exact hs hu

theorem stale_of_count {m : Mem} {b : Bool} {e : Nat} (h : ublank c m (pOff c b + 2) = true) :
    Stale c m b e := by
  intro hu
  have := (stateAt_used_iff.1 hu).2.2
  rw [h] at this; cases this

theorem PartState.stale {m : Mem} {b : Bool} {e e' : Nat} (h : PartState c m b e) (hwf : c.WF)
    (he : e < e') : Stale c m b e' := by
  intro _; rw [(h.stateAt hwf).2.1]; exact he

/-! ## Partition regions -/

/-- `m'` differs from `m` only in partition `p`. -/
def InPart (c : Cfg) (p : Bool) (m m' : Mem) : Prop :=
  Outside m m' (pOff c p * 8) ((pOff c p + c.pu) * 8)

theorem InPart.refl {p : Bool} {m : Mem} : InPart c p m m := Outside.refl _ _ _
theorem InPart.trans {p : Bool} {m1 m2 m3 : Mem} (h1 : InPart c p m1 m2) (h2 : InPart c p m2 m3) :
    InPart c p m1 m3 := Outside.trans h1 h2

theorem InPart.other {p : Bool} {m m' : Mem} (h : InPart c p m m') :
    Agree m m' (pOff c (!p) * 8) ((pOff c (!p) + c.pu) * 8) := by
  intro x h1 h2
  apply h x
  cases p <;> simp [pOff] at * <;> omega

theorem InPart.of_outside {p : Bool} {m m' : Mem} {lo hi : Nat} (h : Outside m m' lo hi)
    (h1 : pOff c p * 8 ≤ lo) (h2 : hi ≤ (pOff c p + c.pu) * 8) : InPart c p m m' := h.mono h1 h2

theorem part_dev (p : Bool) : pOff c p * 8 + c.pu * 8 ≤ c.dev.size := by
  have := pOff_bound (c := c) p
  show _ ≤ 16 * c.pu; omega

theorem torn_erasing {p : Bool} {m : Mem} (sel : Nat → Bool) :
    Erasing c m (torn m (pOff c p * 8) (erasedBytes c.dev (c.pu * 8)) sel) := by
  intro u
  have := torn_erase_unit c.dev m (pOff c p * 8) (c.pu * 8) sel u (by omega) (by omega)
  exact this

/-- The partition is blank. -/
def PBlank (c : Cfg) (m : Mem) (p : Bool) : Prop := isBlank c.dev m (pOff c p * 8) (c.pu * 8) = true

theorem PBlank.ublank {m : Mem} {p : Bool} (h : PBlank c m p) {u : Nat} (h1 : pOff c p ≤ u)
    (h2 : u < pOff c p + c.pu) : ublank c m u = true := isBlank_sub h (by omega) (by omega)

/-- Only the state words of a blank partition were written: it holds no entries. -/
theorem rep_nil {m m' : Mem} {p : Bool} (hwf : c.WF) (h : PBlank c m p)
    (ha : Agree m m' ((pOff c p + 3) * 8) ((pOff c p + c.pu) * 8)) : Rep c m' p [] := by
  have hf := hwf.fits
  refine ⟨by simp, by simp [total], trivial, ?_, ?_⟩
  · rw [isBlank_agree ha]
    · refine isBlank_sub h ?_ ?_ <;> simp only [objOff, List.length_nil, Cfg.dataOff] at * <;> omega
    · simp only [objOff, List.length_nil]; omega
    · simp only [objOff, List.length_nil, Cfg.dataOff] at *; omega
  · rw [isBlank_agree ha]
    · refine isBlank_sub h ?_ ?_ <;> simp only [pDataOff, total, Cfg.dataOff] at * <;> omega
    · simp only [pDataOff, total, Cfg.dataOff] at *; omega
    · simp only [pDataOff, total, Cfg.dataOff] at *; omega

section
variable {F : Faults} {m : Mem} {C : Mem → Prop}

theorem wp_partErase {Q : Rc → Mem → Prop} {p : Bool} (hwf : c.WF)
    (hC : ∀ m', InPart c p m m' → Erasing c m m' → C m')
    (hok : ∀ m', InPart c p m m' → Erasing c m m' → PBlank c m' p → Q .ok m')
    (hF : F.write = true ∨ F.read = true → ∀ rc m', rc ≠ .ok → InPart c p m m' →
      Erasing c m m' → Q rc m') :
    wp c.dev F (partErase c p) Q C m := by
  have hp := wf_pos hwf
  have hd := part_dev (c := c) p
  have hin : ∀ sel, InPart c p m (torn m (pOff c p * 8) (erasedBytes c.dev (c.pu * 8)) sel) := by
    intro sel
    refine InPart.of_outside (torn_outside _ _ _ _) (Nat.le_refl _) ?_
    rw [erasedBytes_length]; omega
  unfold partErase
  refine wp_erase (by omega) hd (hC _ InPart.refl (Erasing.refl _))
    (fun sel => hC _ (hin sel) (torn_erasing sel)) ?_ ?_ ?_
  · have h1 := hin (fun _ => true)
    have h2 := torn_erasing (c := c) (p := p) (m := m) (fun _ => true)
    rw [torn_true] at h1 h2
    exact hok _ h1 h2 (isBlank_wr_erased _ _ _ _)
  · intro hf e sel he _
    exact hF hf e _ he (hin sel) (torn_erasing sel)
  · intro hf sel
    exact hF (.inl hf) _ _ (by simp) (hin sel) (torn_erasing sel)

theorem wp_blankOrErase {Q : Rc → Mem → Prop} {p : Bool} (hwf : c.WF)
    (hC : ∀ m', InPart c p m m' → Erasing c m m' → C m')
    (hok : ∀ m', InPart c p m m' → Erasing c m m' → PBlank c m' p → Q .ok m')
    (hF : F.write = true ∨ F.read = true → ∀ rc m', rc ≠ .ok → InPart c p m m' →
      Erasing c m m' → Q rc m') :
    wp c.dev F (blankOrErase c p) Q C m := by
  have hC0 := hC m InPart.refl (Erasing.refl _)
  unfold blankOrErase partBlankCheck
  apply wp_bind
  refine wp_blankCheck (part_dev p) hC0 ?_ ?_ ?_
  · intro h
    rw [if_neg (by simp)]
    exact ⟨hC0, hok m InPart.refl (Erasing.refl _) h⟩
  · intro h
    rw [if_pos rfl]
    exact wp_partErase hwf hC hok hF
  · intro hf e he he'
    rw [if_neg he']
    exact ⟨hC0, hF (.inr hf) e m he InPart.refl (Erasing.refl _)⟩

theorem wp_partReadState {Q : Rc × MemState → Mem → Prop} {p : Bool} (hwf : c.WF)
    (hFr : F.read = false) (hC : C m) (hQ : Q (.ok, stateAt c m (pOff c p)) m) :
    wp c.dev F (partReadState c p) Q C m := by
  have := part_dev (c := c) p
  have := wf_pos hwf
  exact wp_stateRead hFr (by omega) hC hQ

/-- Programming the epoch and start words of a blank partition. -/
theorem wp_header {Q : Rc → Mem → Prop} {p : Bool} {e st : Nat} (hwf : c.WF)
    (hb : PBlank c m p)
    (hC : ∀ m', InPart c p m m' → ublank c m' (pOff c p + 2) = true → C m')
    (hok : ∀ m', InPart c p m m' → ublank c m' (pOff c p + 2) = true → Rep c m' p [] →
      word m' (pOff c p) = unitBytes (BASE_STATE ||| e) →
      word m' (pOff c p + 1) = unitBytes (BASE_STATE ||| st) → Q .ok m')
    (hF : F.write = true ∨ F.read = true → ∀ rc m', rc ≠ .ok → InPart c p m m' →
      ublank c m' (pOff c p + 2) = true → Q rc m') :
    wp c.dev F (programEpoch c p e)
      (fun rc m' => wp c.dev F (andThen rc (programStart c p st)) Q C m') C m := by
  have hp := wf_pos hwf
  have hd := part_dev (c := c) p
  have b0 := hb.ublank (u := pOff c p) (by omega) (by omega)
  have b1 := hb.ublank (u := pOff c p + 1) (by omega) (by omega)
  have b2 := hb.ublank (u := pOff c p + 2) (by omega) (by omega)
  have i1 : InPart c p m (wr m (pOff c p * 8) (unitBytes (BASE_STATE ||| e))) :=
    InPart.of_outside (wr_outside _ _ _) (by omega) (by simp; omega)
  have c1 : ublank c (wr m (pOff c p * 8) (unitBytes (BASE_STATE ||| e))) (pOff c p + 2) = true := by
    rw [ublank_wr_ne _ _ _ _ (by simp) (by omega)]; exact b2
  unfold programEpoch programStart
  refine wp_program_unit (by simp) (by omega) b0 (hC _ InPart.refl b2) (hC _ i1 c1) ?_ ?_
  · apply wp_andThen_ok
    generalize hm1 : wr m (pOff c p * 8) (unitBytes (BASE_STATE ||| e)) = m1 at *
    have i2 : InPart c p m (wr m1 ((pOff c p + 1) * 8) (unitBytes (BASE_STATE ||| st))) :=
      i1.trans (InPart.of_outside (wr_outside _ _ _) (by omega) (by simp; omega))
    have c2 : ublank c (wr m1 ((pOff c p + 1) * 8) (unitBytes (BASE_STATE ||| st)))
        (pOff c p + 2) = true := by
      rw [ublank_wr_ne _ _ _ _ (by simp) (by omega)]; exact c1
    refine wp_program_unit (by simp) (by omega) ?_ (hC _ i1 c1) (hC _ i2 c2) ?_ ?_
    · rw [← hm1]
      have := ublank_wr_ne (c := c) m (pOff c p) (pOff c p + 1) (unitBytes (BASE_STATE ||| e))
        (by simp) (by omega)
      unfold ublank at this b1
      rw [this]; exact b1
    · refine hok _ i2 c2 (rep_nil hwf hb ?_) ?_ ?_
      · intro x h1 h2
        rw [wr_agree_ge m1 ((pOff c p + 1) * 8) (unitBytes (BASE_STATE ||| st)) x (x + 1)
          (by simp; omega) x (by omega) (by omega), ← hm1]
        exact wr_agree_ge m (pOff c p * 8) (unitBytes (BASE_STATE ||| e)) x (x + 1)
          (by simp; omega) x (by omega) (by omega)
      · rw [word_wr_ne _ _ _ _ (by simp) (by omega), ← hm1, word_wr_same _ _ _ (by simp)]
      · rw [word_wr_same _ _ _ (by simp)]
    · intro hf rc hrc
      exact ⟨hF hf rc _ hrc i1 c1, hF hf rc _ hrc i2 c2⟩
  · intro hf rc hrc
    exact ⟨wp_andThen_err hrc (hC _ InPart.refl b2) (hF hf rc _ hrc InPart.refl b2),
      wp_andThen_err hrc (hC _ i1 c1) (hF hf rc _ hrc i1 c1)⟩

/-- The final count word. -/
theorem wp_count {Q : Rc → Mem → Prop} {p : Bool} {e : Nat} {slots : List Slot} (hwf : c.WF)
    (he : e < 2 ^ 32)
    (hb : ublank c m (pOff c p + 2) = true) (hr : Rep c m p slots)
    (h0 : word m (pOff c p) = unitBytes (BASE_STATE ||| e))
    (h1 : word m (pOff c p + 1) = unitBytes (BASE_STATE ||| c.dataOff))
    (hC : C m)
    (hC' : ∀ m', InPart c p m m' → PartState c m' p e → Rep c m' p slots → C m')
    (hok : ∀ m', InPart c p m m' → PartState c m' p e → Rep c m' p slots → Q .ok m')
    (hF : F.write = true ∨ F.read = true → ∀ rc, rc ≠ .ok → Q rc m ∧
      ∀ m', InPart c p m m' → PartState c m' p e → Rep c m' p slots → Q rc m') :
    wp c.dev F (programCount c p c.pu) Q C m := by
  have hp := wf_pos hwf
  have hd := part_dev (c := c) p
  have i1 : InPart c p m (wr m ((pOff c p + 2) * 8) (unitBytes (BASE_STATE ||| c.pu))) :=
    InPart.of_outside (wr_outside _ _ _) (by omega) (by simp; omega)
  have ps : PartState c (wr m ((pOff c p + 2) * 8) (unitBytes (BASE_STATE ||| c.pu))) p e :=
    ⟨he, by rw [word_wr_ne _ _ _ _ (by simp) (by omega)]; exact h0,
     by rw [word_wr_ne _ _ _ _ (by simp) (by omega)]; exact h1,
     word_wr_same _ _ _ (by simp)⟩
  have hr' : Rep c (wr m ((pOff c p + 2) * 8) (unitBytes (BASE_STATE ||| c.pu))) p slots :=
    hr.frame hwf.fits (wr_agree_ge _ _ _ _ _ (by simp; omega))
  unfold programCount
  refine wp_program_unit (by simp) (by omega) hb hC (hC' _ i1 ps hr') (hok _ i1 ps hr') ?_
  intro hf rc hrc
  exact ⟨(hF hf rc hrc).1, (hF hf rc hrc).2 _ i1 ps hr'⟩

/-- `Init` of a flash in use. -/
theorem wp_init_good {Q : Rc × Ctx → Mem → Prop} {b : Bool} {e : Nat} {slots : List Slot}
    (hwf : c.WF) (hFr : F.read = false) (hg : Good c m b e slots) (hC : C m)
    (hQ : ∀ ctx, CtxOK c ctx b e slots → ctx.initialized = true → Q (.ok, ctx) m) :
    wp c.dev F (init c) Q C m := by
  have hs := hg.part.stateAt hwf
  have hst := hg.stale
  unfold init
  apply wp_bind
  refine wp_partReadState hwf hFr hC ?_
  dsimp only
  apply wp_bind
  refine wp_partReadState hwf hFr hC ?_
  dsimp only
  apply wp_bind
  have hch : chooseActive c (stateAt c m (pOff c false)) (stateAt c m (pOff c true)) =
      pure (.ok, b, stateAt c m (pOff c b)) := by
    unfold chooseActive
    cases b with
    | false =>
      by_cases h1 : (stateAt c m (pOff c true)).status = .used
      · have := hst h1
        rw [if_neg (by simp [h1]), if_neg (by simp [hs.1]), if_pos ⟨hs.1, h1⟩]
        simp only [Bool.not_false] at this
        rw [if_neg (by omega)]
      · rw [if_pos ⟨hs.1, h1⟩]
    | true =>
      by_cases h1 : (stateAt c m (pOff c false)).status = .used
      · have := hst h1
        rw [if_neg (by simp [hs.1]), if_neg (by simp [h1]), if_pos ⟨h1, hs.1⟩]
        simp only [Bool.not_true] at this
        rw [if_pos (by omega)]
      · rw [if_neg (by simp [h1]), if_pos ⟨h1, hs.1⟩]
  rw [hch]
  refine ⟨hC, ?_⟩
  dsimp only
  rw [if_pos rfl]
  apply wp_bind
  refine wp_readParseDir hwf hFr hg.rep hC ?_
  refine ⟨hC, hQ _ ⟨rfl, hs.2.1, hs.2.2.1, hs.2.2.2, rfl, rfl⟩ (by simp)⟩

/-- `Init` of a flash with no used partition. -/
theorem wp_init_blank {Q : Rc × Ctx → Mem → Prop}
    (hwf : c.WF) (hFr : F.read = false) (hn : NoUsed c m)
    (hC : ∀ m', NoUsed c m' ∨ Good c m' false 0 [] → C m')
    (hok : ∀ ctx m', Good c m' false 0 [] → CtxOK c ctx false 0 [] → ctx.initialized = true →
      Q (.ok, ctx) m')
    (hF : F.write = true → ∀ rc ctx m', rc ≠ .ok → NoUsed c m' ∨ Good c m' false 0 [] →
      Q (rc, ctx) m') :
    wp c.dev F (init c) Q C m := by
  have hp := wf_pos hwf
  have hC0 := hC m (.inl hn)
  unfold init
  apply wp_bind
  refine wp_partReadState hwf hFr hC0 ?_
  dsimp only
  apply wp_bind
  refine wp_partReadState hwf hFr hC0 ?_
  dsimp only
  apply wp_bind
  have h0 := hn false
  have h1 := hn true
  unfold chooseActive
  rw [if_neg (by simp [h0]), if_neg (by simp [h1]), if_neg (by simp [h0])]
  apply wp_bind
  -- both states stay unused while partition 0 is prepared
  have hE : ∀ m', InPart c false m m' → Erasing c m m' → NoUsed c m' := by
    intro m' hi he b hu
    have heq := he.used hu
    rw [heq] at hu
    exact hn b hu
  have hB : ∀ m', InPart c false m m' → ublank c m' (pOff c false + 2) = true → NoUsed c m' := by
    intro m' hi hb b hu
    cases b with
    | false => have := (stateAt_used_iff.1 hu).2.2; rw [hb] at this; cases this
    | true =>
      have heq : stateAt c m' (pOff c true) = stateAt c m (pOff c true) :=
        stateAt_agree (hi.other.mono (Nat.le_refl _) (by simp; omega))
      rw [heq] at hu
      exact hn true hu
  have err : F.write = true → ∀ rc m' st, rc ≠ .ok → (NoUsed c m' ∨ Good c m' false 0 []) →
      wp c.dev F (if rc = .ok then do
          let (rc, d) ← readParseDir c false
          pure (rc, ⟨st, d, false, decide (rc = .ok), false⟩)
        else pure (rc, ⟨st, ⟨[], 0, 0, 0, 0, 0⟩, false, false, false⟩)) Q C m' := by
    intro hf rc m' st hrc hm
    rw [if_neg hrc]
    exact ⟨hC _ hm, hF hf _ _ _ hrc hm⟩
  have hfw : F.write = true ∨ F.read = true → F.write = true := by simp [hFr]
  unfold programInit
  apply wp_bind
  refine wp_blankOrErase hwf (fun m' hi he => hC _ (.inl (hE m' hi he))) ?_ ?_
  · intro m1 hi1 he1 hb1
    apply wp_bind
    apply wp_andThen_ok
    have hB1 : ∀ m', InPart c false m1 m' → ublank c m' (pOff c false + 2) = true →
        NoUsed c m' := fun m' hi hb => hB m' (hi1.trans hi) hb
    refine wp_mono (wp_header (Q := fun rc m' => wp c.dev F (do
        let rc ← andThen rc (programCount c false c.pu)
        pure (rc, (⟨.used, 0, c.dataOff, c.pu, 0, 0⟩ : MemState))) (fun r m' =>
          wp c.dev F (pure (r.1, false, r.2)) (fun r m' => wp c.dev F (if r.1 = .ok then do
          let (rc, d) ← readParseDir c r.2.1
          pure (rc, ⟨r.2.2, d, r.2.1, decide (rc = .ok), false⟩)
        else pure (r.1, ⟨r.2.2, ⟨[], 0, 0, 0, 0, 0⟩, r.2.1, false, false⟩)) Q C m') C m') C m')
        (C := C) (st := c.dataOff) hwf hb1
      (fun m' hi hb => hC _ (.inl (hB1 m' hi hb))) ?_ ?_) ?_ (fun _ h => h)
    · intro m2 hi2 hb2 hr2 hw0 hw1
      have hgood : ∀ m3, InPart c false m2 m3 → PartState c m3 false 0 → Rep c m3 false [] →
          Good c m3 false 0 [] := by
        intro m3 hi3 hp3 hr3
        refine ⟨hp3, ?_, hr3⟩
        intro hu
        have heq : stateAt c m3 (pOff c true) = stateAt c m (pOff c true) :=
          stateAt_agree (((hi1.trans hi2).trans hi3).other.mono (Nat.le_refl _) (by simp; omega))
        simp only [Bool.not_false] at hu
        rw [heq] at hu
        exact absurd hu h1
      apply wp_bind
      apply wp_andThen_ok
      refine wp_count hwf (by decide) hb2 hr2 hw0 hw1 (hC _ (.inl (hB1 _ hi2 hb2))) ?_ ?_ ?_
      · intro m3 hi3 hp3 hr3
        exact hC _ (.inr (hgood m3 hi3 hp3 hr3))
      · intro m3 hi3 hp3 hr3
        have hg := hgood m3 hi3 hp3 hr3
        refine ⟨hC _ (.inr hg), hC _ (.inr hg), ?_⟩
        dsimp only
        rw [if_pos rfl]
        apply wp_bind
        refine wp_readParseDir hwf hFr hr3 (hC _ (.inr hg)) ?_
        exact ⟨hC _ (.inr hg), hok _ _ hg ⟨rfl, rfl, rfl, rfl, rfl, rfl⟩ (by simp)⟩
      · intro hf rc hrc
        refine ⟨?_, fun m3 hi3 hp3 hr3 => ?_⟩
        · have hm : NoUsed c m2 ∨ Good c m2 false 0 [] := .inl (hB1 _ hi2 hb2)
          exact ⟨hC _ hm, hC _ hm, err (hfw hf) rc m2 _ hrc hm⟩
        · have hm : NoUsed c m3 ∨ Good c m3 false 0 [] := .inr (hgood m3 hi3 hp3 hr3)
          exact ⟨hC _ hm, hC _ hm, err (hfw hf) rc m3 _ hrc hm⟩
    · intro hf rc m2 hrc hi2 hb2
      have hm : NoUsed c m2 ∨ Good c m2 false 0 [] := .inl (hB1 _ hi2 hb2)
      apply wp_bind
      refine wp_andThen_err hrc (hC _ hm) ?_
      exact ⟨hC _ hm, hC _ hm, err (hfw hf) rc m2 _ hrc hm⟩
    · intro rc m2 h
      apply wp_bind
      exact h
  · intro hf rc m' hrc hi he
    have hm : NoUsed c m' ∨ Good c m' false 0 [] := .inl (hE m' hi he)
    apply wp_bind
    refine wp_andThen_err hrc (hC _ hm) ?_
    apply wp_bind
    refine wp_andThen_err hrc (hC _ hm) ?_
    apply wp_bind
    refine wp_andThen_err hrc (hC _ hm) ?_
    exact ⟨hC _ hm, hC _ hm, err (hfw hf) rc m' _ hrc hm⟩

end

end WolfHsm.NvmFlash

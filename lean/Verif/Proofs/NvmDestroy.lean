import Verif.Proofs.NvmOps

/-! # DestroyObjects -/

namespace WolfHsm.NvmFlash

open Flash FlashUnit

variable {c : Cfg}

/-- The entries that survive destroying `ids`. -/
def keep (ids : List UInt16) : List Slot → List Slot
  | [] => []
  | s :: rest =>
    match s with
    | .used _ md _ =>
      if shadowed s rest = false ∧ ids.contains md.id = false then s :: keep ids rest
      else keep ids rest
    | _ => keep ids rest

theorem view_keep (ids : List UInt16) (slots : List Slot) (id : UInt16) :
    view (keep ids slots) id = if ids.contains id then none else view slots id := by
  induction slots with
  | nil => simp [keep, view]
  | cons s rest ih =>
    cases s with
    | used e md data =>
      simp only [keep]
      by_cases h : shadowed (.used e md data) rest = false ∧ ids.contains md.id = false
      · rw [if_pos h]
        simp only [view, ih, Slot.get]
        by_cases hid : md.id = id
        · subst hid
          rw [h.2]; simp
        · rw [if_neg hid]; simp
      · rw [if_neg h, ih]
        by_cases hc : ids.contains id = true
        · rw [if_pos hc, if_pos hc]
        · rw [if_neg hc, if_neg hc]
          simp only [view, Slot.get]
          by_cases hid : md.id = id
          · subst hid
            have hsh : shadowed (.used e md data) rest = true := by
              by_cases h1 : shadowed (.used e md data) rest = false
              · exact absurd ⟨h1, by simpa using hc⟩ h
              · simpa using h1
            cases hv : view rest md.id with
            | none =>
              have := (view_none_iff _ _).1 hv
              simp only [shadowed] at hsh
              rw [this] at hsh; cases hsh
            | some x => rfl
          · rw [if_neg hid]; simp
    | dataBad e md => simp only [keep, view, ih, Slot.get, Option.or_none]
    | metaBad => simp only [keep, view, ih, Slot.get, Option.or_none]

theorem keep_bounds (ids : List UInt16) (slots : List Slot) :
    (keep ids slots).length ≤ slots.length ∧ total (keep ids slots) ≤ total slots := by
  induction slots with
  | nil => simp [keep]
  | cons s rest ih =>
    cases s with
    | used e md data =>
      simp only [keep]
      split <;> simp only [List.length_cons, total] <;> omega
    | dataBad e md => simp only [keep, List.length_cons, total]; omega
    | metaBad => simp only [keep, List.length_cons, total]; omega

/-- A plain reclaim frees exactly what was counted. -/
theorem keep_nil (slots : List Slot) :
    (keep [] slots).length + recEntries slots = slots.length ∧
    total (keep [] slots) + recData slots = total slots := by
  induction slots with
  | nil => simp [keep, recEntries, recData]
  | cons s rest ih =>
    cases s with
    | used e md data =>
      simp only [keep, recEntries, recData, live, Slot.isUsed]
      by_cases h : shadowed (.used e md data) rest = true
      · rw [if_neg (by simp [h])]
        simp [h, total]; omega
      · simp only [Bool.not_eq_true] at h
        rw [if_pos (by simp [h])]
        simp [h, total]; omega
    | dataBad e md => simp [keep, recEntries, recData, live, Slot.isUsed, total]; omega
    | metaBad => simp [keep, recEntries, recData, live, Slot.isUsed, total]; omega

theorem keep_any (ids : List UInt16) (rest : List Slot) (id : UInt16)
    (h : (keep ids rest).any (·.hasId id) = true) : rest.any (·.hasId id) = true := by
  by_cases h1 : rest.any (·.hasId id) = false
  · rw [← view_none_iff] at h1
    have : view (keep ids rest) id = none := by rw [view_keep, h1]; simp
    rw [view_none_iff] at this
    rw [this] at h; cases h
  · simpa using h1

/-- After compaction there is nothing to reclaim. -/
theorem rec_keep (ids : List UInt16) (slots : List Slot) :
    recEntries (keep ids slots) = 0 ∧ recData (keep ids slots) = 0 := by
  induction slots with
  | nil => simp [keep, recEntries, recData]
  | cons s rest ih =>
    cases s with
    | used e md data =>
      simp only [keep]
      split
      · rename_i h
        have hl : live (.used e md data) (keep ids rest) = true := by
          simp only [live, Slot.isUsed, shadowed, Bool.true_and, Bool.not_eq_true']
          by_cases h1 : (keep ids rest).any (·.hasId md.id) = true
          · have := keep_any ids rest md.id h1
            have h2 := h.1
            simp only [shadowed] at h2
            rw [this] at h2; cases h2
          · simpa using h1
        simp only [recEntries, recData, hl, ih]; simp
      · exact ih
    | dataBad e md => simpa only [keep] using ih
    | metaBad => simpa only [keep] using ih

section
variable {F : Faults} {m : Mem} {C : Mem → Prop}

theorem copyObjects_free {src dst : Bool} {ids : List UInt16} (n i st : Nat) :
    copyObjects c src dst ids (List.replicate n freeObj) i st = pure .ok := by
  induction n with
  | zero => rfl
  | succ n ih =>
    have : freeObj.state.status ≠ .used := by simp [freeObj]
    simp [List.replicate_succ, copyObjects, this, ih]

theorem wp_copyObjects {Q : Rc → Mem → Prop} {src dst : Bool} {ids : List UInt16} {m0 : Mem}
    {n : Nat} (hwf : c.WF) (hsd : src = !dst) {slots0 : List Slot}
    (hC : ∀ m', Outside m0 m' ((pOff c dst + 3) * 8) ((pOff c dst + c.pu) * 8) → C m')
    (hok : ∀ m', Outside m0 m' ((pOff c dst + 3) * 8) ((pOff c dst + c.pu) * 8) →
      Rep c m' dst (keep ids slots0) → Q .ok m')
    (hF : F.write = true ∨ F.read = true → ∀ rc m', rc ≠ .ok →
      Outside m0 m' ((pOff c dst + 3) * 8) ((pOff c dst + c.pu) * 8) → Q rc m') :
    ∀ slots i st done m, SlotsAt c m0 src i st slots → i + slots.length ≤ c.N →
      st + total slots ≤ c.pu - c.dataOff → Rep c m dst done → done.length + slots.length ≤ c.N →
      total done + total slots ≤ c.pu - c.dataOff →
      Outside m0 m ((pOff c dst + 3) * 8) ((pOff c dst + c.pu) * 8) →
      keep ids slots0 = done ++ keep ids slots →
      wp c.dev F (copyObjects c src dst ids (objsOf c st slots ++ List.replicate n freeObj)
        done.length (total done)) Q C m := by
  intro slots
  induction slots with
  | nil =>
    intro i st done m _ _ _ hr _ _ ho hk
    simp only [objsOf, List.nil_append, copyObjects_free]
    refine ⟨hC m ho, hok m ho ?_⟩
    rw [hk]; simpa [keep] using hr
  | cons s rest ih =>
    intro i st done m hs hi hst hr hdn hdt ho hk
    simp only [List.length_cons, total] at hi hst hdn hdt
    have skip : (objOf c st (shadowed s rest) s).state.status ≠ .used ∨
        ids.contains (objOf c st (shadowed s rest) s).md.id = true →
        keep ids (s :: rest) = keep ids rest →
        wp c.dev F (copyObjects c src dst ids (objsOf c st (s :: rest) ++ List.replicate n freeObj)
          done.length (total done)) Q C m := by
      intro h1 h2
      simp only [objsOf, List.cons_append, copyObjects]
      rw [if_neg (by rintro ⟨h3, h4⟩; rcases h1 with h1 | h1; exact h1 h3; exact h4 h1)]
      rw [h2] at hk
      exact ih (i + 1) (st + s.size) done m hs.2 (by omega) (by omega) hr (by omega) (by omega)
        ho hk
    cases s with
    | used e md data =>
      by_cases h : shadowed (.used e md data) rest = false ∧ ids.contains md.id = false
      · have hk' : keep ids (.used e md data :: rest) = .used e md data :: keep ids rest := by
          simp only [keep]; rw [if_pos h]
        rw [hk'] at hk
        simp only [objsOf, List.cons_append, copyObjects, h.1]
        rw [if_pos ⟨by simp [objOf], by simpa [objOf] using h.2⟩]
        apply wp_bind
        have hl := hs.1.2.1
        have hslot : SlotAt c m src i st (.used e md data) := by
          have hin : InPart c dst m0 m := InPart.of_outside ho (by omega) (Nat.le_refl _)
          have ha := hin.other
          rw [← hsd] at ha
          have hfit := hwf.fits
          refine hs.1.frame (ha.mono ?_ ?_) (ha.mono ?_ ?_)
          · unfold objOff; omega
          · unfold objOff Cfg.dataOff at *; omega
          · unfold pDataOff; omega
          · simp only [Slot.size, pDataOff] at *; omega
        simp only [Slot.size] at hst hdt
        refine wp_objCopy hwf hsd (by omega) hslot (by omega) hr (by omega) (by rw [← hl]; omega) ?_ ?_ ?_
        · intro m' ho'; exact hC m' (ho.trans ho')
        · intro m' ho' hr'
          dsimp only
          apply wp_andThen_ok
          have := ih (i + 1) (st + (Slot.used e md data).size) (done ++ [.used e md data]) m' hs.2
            (by omega) (by simp only [Slot.size]; omega) hr' (by simp; omega)
            (by rw [total_append]; simp only [total, Slot.size]; omega) (ho.trans ho')
            (by simp [hk])
          simpa using this
        · intro hf rc dd m' hrc ho'
          dsimp only
          exact wp_andThen_err hrc (hC m' (ho.trans ho')) (hF hf rc m' hrc (ho.trans ho'))
      · refine skip ?_ (by simp only [keep]; rw [if_neg h])
        by_cases h1 : shadowed (.used e md data) rest = false
        · right
          by_cases h2 : ids.contains md.id = false
          · exact absurd ⟨h1, h2⟩ h
          · simpa [objOf] using h2
        · left; simp only [Bool.not_eq_false] at h1; simp [h1, objOf]
    | dataBad e md => exact skip (by simp [objOf]) (by simp [keep])
    | metaBad => exact skip (by simp [objOf]) (by simp [keep])

/-- Replication into the other partition. -/
theorem wp_replicate {Q : Rc → Mem → Prop} {ctx : Ctx} {b : Bool} {e : Nat}
    {slots tail : List Slot} {ids : List UInt16} {ns : MemState}
    (hwf : c.WF) (hg : Good c m b e (slots ++ tail)) (hctx : CtxOK c ctx b e slots)
    (he : e + 1 < 2 ^ 32) (hns : ns.epoch = e + 1 ∧ ns.start = c.dataOff ∧ ns.count = c.pu)
    (hC : ∀ m', Good c m' b e (slots ++ tail) ∨ Good c m' (!b) (e + 1) (keep ids slots) → C m')
    (hok : ∀ m', Good c m' (!b) (e + 1) (keep ids slots) → Q .ok m')
    (hF : F.write = true ∨ F.read = true → ∀ rc m', rc ≠ .ok → Rep c m' b (slots ++ tail) →
      Good c m' b e (slots ++ tail) ∨ Good c m' (!b) (e + 1) (keep ids slots) → Q rc m') :
    wp c.dev F (replicate c ctx ids ns) Q C m := by
  have hp := wf_pos hwf
  obtain ⟨n1, n2, n3⟩ := hns
  -- while the other partition is not in use the old contents count
  have hold : ∀ m', InPart c (!b) m m' → Stale c m' (!b) e → Good c m' b e (slots ++ tail) := by
    intro m' hi hs
    have ha := hi.other
    rw [Bool.not_not] at ha
    exact ⟨hg.part.frame (ha.mono (Nat.le_refl _) (by omega)), hs,
      hg.rep.frame hwf.fits (ha.mono (by omega) (Nat.le_refl _))⟩
  have holdE : ∀ m', InPart c (!b) m m' → Erasing c m m' → Good c m' b e (slots ++ tail) :=
    fun m' hi hE => hold m' hi (hE.stale hg.stale)
  have holdB : ∀ m', InPart c (!b) m m' → ublank c m' (pOff c (!b) + 2) = true →
      Good c m' b e (slots ++ tail) := fun m' hi hb => hold m' hi (stale_of_count hb)
  unfold replicate
  rw [hctx.active, n1, n2, n3, hctx.dir]
  apply wp_bind
  refine wp_blankOrErase hwf (fun m' hi hE => hC _ (.inl (holdE m' hi hE))) ?_ ?_
  · intro m1 hi1 hE1 hb1
    apply wp_bind
    apply wp_andThen_ok
    refine wp_mono (wp_header (Q := fun rc m' => wp c.dev F (do
        let rc ← andThen rc (copyObjects c b (!b) ids (mkDir c slots).objects 0 0)
        andThen rc (programCount c (!b) c.pu)) Q C m') (C := C) (st := c.dataOff) (e := e + 1)
        hwf hb1 (fun m' hi hb => hC _ (.inl (holdB m' (hi1.trans hi) hb))) ?_ ?_) ?_
        (fun _ h => h)
    · intro m2 hi2 hb2 hr2 hw0 hw1
      apply wp_bind
      apply wp_andThen_ok
      -- the copies do not touch the state words
      have hcp : ∀ m3, Outside m2 m3 ((pOff c (!b) + 3) * 8) ((pOff c (!b) + c.pu) * 8) →
          InPart c (!b) m m3 ∧ ublank c m3 (pOff c (!b) + 2) = true ∧
          word m3 (pOff c (!b)) = unitBytes (BASE_STATE ||| (e + 1)) ∧
          word m3 (pOff c (!b) + 1) = unitBytes (BASE_STATE ||| c.dataOff) := by
        intro m3 ho
        have ha := ho.below (a := pOff c (!b) * 8) (b := (pOff c (!b) + 3) * 8) (Nat.le_refl _)
        refine ⟨(hi1.trans hi2).trans (InPart.of_outside ho (by omega) (Nat.le_refl _)), ?_, ?_, ?_⟩
        · rw [ublank_agree ha (by omega) (by omega)]; exact hb2
        · rw [word_agree ha (by omega) (by omega)]; exact hw0
        · rw [word_agree ha (by omega) (by omega)]; exact hw1
      have hCo : ∀ m3, Outside m2 m3 ((pOff c (!b) + 3) * 8) ((pOff c (!b) + c.pu) * 8) →
          Good c m3 b e (slots ++ tail) := fun m3 ho => holdB m3 (hcp m3 ho).1 (hcp m3 ho).2.1
      have hrep2 := (holdB m2 (hi1.trans hi2) hb2).rep
      have hs2 := ((slotsAt_append slots tail 0 0).1 hrep2.ents).1
      have hlen := hrep2.len
      have hfit := hrep2.fits
      rw [List.length_append] at hlen
      rw [total_append] at hfit
      have hcopy := wp_copyObjects (F := F) (C := C) (Q := fun rc m' =>
          wp c.dev F (andThen rc (programCount c (!b) c.pu)) Q C m') (src := b) (dst := !b)
          (ids := ids) (m0 := m2) (n := c.N - slots.length) hwf (by simp) (slots0 := slots)
          (fun m3 ho => hC _ (.inl (hCo m3 ho))) ?_ ?_ slots 0 0 [] m2 hs2 (by omega) (by omega)
          hr2 (by simp; omega) (by simp [total]; omega) (Outside.refl _ _ _) (by simp)
      · exact hcopy
      · intro m3 ho hr3
        apply wp_andThen_ok
        obtain ⟨hi3, hb3, hw03, hw13⟩ := hcp m3 ho
        have hnew : ∀ m4, InPart c (!b) m3 m4 → PartState c m4 (!b) (e + 1) →
            Rep c m4 (!b) (keep ids slots) → Good c m4 (!b) (e + 1) (keep ids slots) := by
          intro m4 hi4 hp4 hr4
          refine ⟨hp4, ?_, hr4⟩
          rw [Bool.not_not]
          have ha := (hi3.trans hi4).other
          rw [Bool.not_not] at ha
          exact (hg.part.frame (ha.mono (Nat.le_refl _) (by omega))).stale hwf (by omega)
        have hsrc : ∀ m4, InPart c (!b) m3 m4 → Rep c m4 b (slots ++ tail) := by
          intro m4 hi4
          have ha := hi4.other
          rw [Bool.not_not] at ha
          exact (hCo m3 ho).rep.frame hwf.fits (ha.mono (by omega) (Nat.le_refl _))
        refine wp_count hwf he hb3 hr3 hw03 hw13 (hC _ (.inl (hCo m3 ho))) ?_ ?_ ?_
        · intro m4 hi4 hp4 hr4; exact hC _ (.inr (hnew m4 hi4 hp4 hr4))
        · intro m4 hi4 hp4 hr4; exact hok _ (hnew m4 hi4 hp4 hr4)
        · intro hf rc hrc
          exact ⟨hF hf rc _ hrc (hCo m3 ho).rep (.inl (hCo m3 ho)),
            fun m4 hi4 hp4 hr4 => hF hf rc _ hrc (hsrc m4 hi4) (.inr (hnew m4 hi4 hp4 hr4))⟩
      · intro hf rc m3 hrc ho
        exact wp_andThen_err hrc (hC _ (.inl (hCo m3 ho))) (hF hf rc _ hrc (hCo m3 ho).rep (.inl (hCo m3 ho)))
    · intro hf rc m2 hrc hi2 hb2
      have hm := holdB m2 (hi1.trans hi2) hb2
      apply wp_bind
      refine wp_andThen_err hrc (hC _ (.inl hm)) ?_
      exact wp_andThen_err hrc (hC _ (.inl hm)) (hF hf rc _ hrc hm.rep (.inl hm))
    · intro rc m2 h
      apply wp_bind
      exact h
  · intro hf rc m1 hrc hi1 hE1
    have hm := holdE m1 hi1 hE1
    apply wp_bind
    refine wp_andThen_err hrc (hC _ (.inl hm)) ?_
    apply wp_bind
    refine wp_andThen_err hrc (hC _ (.inl hm)) ?_
    apply wp_bind
    refine wp_andThen_err hrc (hC _ (.inl hm)) ?_
    exact wp_andThen_err hrc (hC _ (.inl hm)) (hF hf rc _ hrc hm.rep (.inl hm))

/-- Does the directory hold a listed object? -/
theorem any_listed (ids : List UInt16) (slots : List Slot) :
    ((mkDir c slots).objects.any fun o =>
      decide (o.state.status = .used) && ids.contains o.md.id) = false →
    ∀ id, ids.contains id = true → view slots id = none := by
  intro h id hid
  rw [view_none_iff, ← any_objsOf (c := c) id slots 0]
  simp only [mkDir, List.any_append, Bool.or_eq_false_iff] at h
  rw [List.any_eq_false] at h ⊢
  intro o ho
  have := h.1 o ho
  intro h2
  apply this
  simp only [MemObj.isUsedId, Bool.and_eq_true, decide_eq_true_eq, beq_iff_eq] at h2
  simp only [Bool.and_eq_true, decide_eq_true_eq]
  exact ⟨h2.1, by rw [h2.2]; exact hid⟩

/-- `DestroyObjects`. -/
theorem wp_destroy {Q : Rc × Ctx → Mem → Prop} {ctx : Ctx} {b : Bool} {e : Nat}
    {slots tail : List Slot} {ids : List UInt16}
    (hwf : c.WF) (hFr : F.read = false) (hg : Good c m b e (slots ++ tail))
    (hctx : CtxOK c ctx b e slots) (he : e + 1 < 2 ^ 32)
    (hC : ∀ m', Good c m' b e (slots ++ tail) ∨ Good c m' (!b) (e + 1) (keep ids slots) → C m')
    (hnop : ids ≠ [] → (∀ id, ids.contains id = true → view slots id = none) → Q (.ok, ctx) m)
    (hok : ∀ ctx' m', Good c m' (!b) (e + 1) (keep ids slots) →
      CtxOK c ctx' (!b) (e + 1) (keep ids slots) → Q (.ok, ctx') m')
    (hF : F.write = true → ∀ rc m', rc ≠ .ok →
      (Rep c m' b (slots ++ tail) →
        Good c m' b e (slots ++ tail) ∨ Good c m' (!b) (e + 1) (keep ids slots) →
        Q (rc, ctx) m') ∧
      (∀ ctx', Good c m' (!b) (e + 1) (keep ids slots) →
        CtxOK c ctx' (!b) (e + 1) (keep ids slots) → Q (rc, ctx') m')) :
    wp c.dev F (destroyObjects c ctx ids) Q C m := by
  have hp := wf_pos hwf
  have hC0 := hC m (.inl hg)
  have hfw : F.write = true ∨ F.read = true → F.write = true := by simp [hFr]
  have hctx' := hctx
  obtain ⟨ha, hep, hst, hcnt, hd, hbad⟩ := hctx'
  unfold destroyObjects
  rw [hbad]
  simp only [Bool.false_eq_true, if_false]
  by_cases hany : ids.length > 0 ∧ (!(ctx.dir.objects.any fun o =>
      decide (o.state.status = .used) && ids.contains o.md.id)) = true
  · rw [if_pos hany]
    refine ⟨hC0, hnop (by rintro rfl; simp at hany) ?_⟩
    apply any_listed (c := c)
    rw [← hd]; simpa using hany.2
  · rw [if_neg hany]
    apply wp_bind
    refine wp_replicate hwf hg hctx he ⟨?_, hst, hcnt⟩ hC ?_ ?_
    · rw [hep]; exact Nat.mod_eq_of_lt he
    · intro m1 hg1
      rw [if_neg (by simp)]
      apply wp_bind
      rw [ha]
      refine wp_readParseDir hwf hFr hg1.rep (hC _ (.inr hg1)) ?_
      dsimp only
      rw [if_neg (by simp)]
      apply wp_bind
      have hnew : ∀ m2, InPart c b m1 m2 → Erasing c m1 m2 →
          Good c m2 (!b) (e + 1) (keep ids slots) := by
        intro m2 hi hE
        have hag := hi.other
        refine ⟨hg1.part.frame (hag.mono (Nat.le_refl _) (by omega)), hE.stale hg1.stale,
          hg1.rep.frame hwf.fits (hag.mono (by omega) (Nat.le_refl _))⟩
      have hcx : ∀ i : Bool, CtxOK c ⟨⟨.used, (ctx.state.epoch + 1) % 2 ^ 32, ctx.state.start,
          ctx.state.count, 0, 0⟩, mkDir c (keep ids slots), !b, i, false⟩ (!b) (e + 1)
          (keep ids slots) := by
        intro i
        exact ⟨rfl, by simp only [hep]; exact Nat.mod_eq_of_lt he, hst, hcnt, rfl, rfl⟩
      refine wp_partErase hwf ?_ ?_ ?_
      · intro m2 hi hE; exact hC _ (.inr (hnew m2 hi hE))
      · intro m2 hi hE _
        exact ⟨hC _ (.inr (hnew m2 hi hE)), hok _ _ (hnew m2 hi hE) (hcx _)⟩
      · intro hf rc m2 hrc hi hE
        exact ⟨hC _ (.inr (hnew m2 hi hE)),
          (hF (hfw hf) rc m2 hrc).2 _ (hnew m2 hi hE) (hcx _)⟩
    · intro hf rc m1 hrc hr hm
      rw [if_pos hrc]
      exact ⟨hC _ hm, (hF (hfw hf) rc m1 hrc).1 hr hm⟩

/-- A program that only reads. -/
inductive ReadOnly {α : Type} : FP α → Prop
  | ret (a) : ReadOnly (.ret a)
  | read {a n k} : (∀ rc bs, ReadOnly (k rc bs)) → ReadOnly (.read a n k)
  | blank {a n k} : (∀ rc, ReadOnly (k rc)) → ReadOnly (.blank a n k)

theorem ReadOnly.bind {α β : Type} {p : FP α} {k : α → FP β} (hp : ReadOnly p)
    (hk : ∀ a, ReadOnly (k a)) : ReadOnly (p >>= k) := by
  induction hp with
  | ret a => exact hk a
  | read _ ih => exact .read fun rc bs => ih rc bs
  | blank _ ih => exact .blank fun rc => ih rc

theorem wp_readOnly {α : Type} {p : FP α} {d : Dev} {Q : α → Mem → Prop} (hp : ReadOnly p)
    (hC : C m) (hQ : ∀ a, Q a m) : wp d F p Q C m := by
  induction hp with
  | ret a => exact ⟨hC, hQ a⟩
  | read _ ih => exact ⟨hC, ih _ _, fun _ _ _ _ => ih _ _⟩
  | blank _ ih => exact ⟨hC, ih _, fun _ _ _ _ => ih _⟩

theorem stateRead_ro (off : Nat) : ReadOnly (stateRead c off) := by
  unfold stateRead
  refine ReadOnly.bind (.blank fun _ => .ret _) fun r1 => ?_
  split
  · exact .ret _
  refine ReadOnly.bind (.blank fun _ => .ret _) fun r2 => ?_
  split
  · exact .ret _
  refine ReadOnly.bind (.blank fun _ => .ret _) fun r3 => ?_
  split
  · exact .ret _
  split
  · refine ReadOnly.bind (.read fun _ _ => .ret _) fun r4 => ?_
    dsimp only
    split <;> exact .ret _
  · split
    · refine ReadOnly.bind (.read fun _ _ => .ret _) fun r4 => ?_
      dsimp only
      split <;> exact .ret _
    · split <;> exact .ret _

theorem objectRead_ro (off : Nat) : ReadOnly (objectRead c off) := by
  unfold objectRead
  refine ReadOnly.bind (stateRead_ro off) fun r => ?_
  dsimp only
  split
  · refine ReadOnly.bind (.read fun _ _ => .ret _) fun r4 => ?_
    split
    · split <;> exact .ret _
    · exact .ret _
  · exact .ret _

theorem readObjects_ro (p : Bool) : ∀ n i, ReadOnly (readObjects c p n i)
  | 0, _ => .ret _
  | n + 1, i => by
    unfold readObjects
    refine ReadOnly.bind (objectRead_ro _) fun r => ?_
    refine ReadOnly.bind (readObjects_ro p n (i + 1)) fun r => ?_
    exact .ret _

theorem readParseDir_ro (p : Bool) : ReadOnly (readParseDir c p) := by
  unfold readParseDir readDir
  exact ReadOnly.bind (ReadOnly.bind (readObjects_ro p _ _) fun _ => .ret _) fun _ => .ret _

/-- `DestroyObjects` with any faults: what the flash holds afterwards. -/
theorem wp_destroy_any {Q : Rc × Ctx → Mem → Prop} {ctx : Ctx} {b : Bool} {e : Nat}
    {slots tail : List Slot} {ids : List UInt16}
    (hwf : c.WF) (hg : Good c m b e (slots ++ tail))
    (hctx : CtxOK c ctx b e slots) (he : e + 1 < 2 ^ 32)
    (hC : ∀ m', Good c m' b e (slots ++ tail) ∨ Good c m' (!b) (e + 1) (keep ids slots) → C m')
    (hQ : ∀ r m', Good c m' b e (slots ++ tail) ∨ Good c m' (!b) (e + 1) (keep ids slots) →
      Q r m') :
    wp c.dev F (destroyObjects c ctx ids) Q C m := by
  have hp := wf_pos hwf
  have hC0 := hC m (.inl hg)
  have hctx' := hctx
  obtain ⟨ha, hep, hst, hcnt, hd, hbad⟩ := hctx'
  unfold destroyObjects
  rw [hbad]
  simp only [Bool.false_eq_true, if_false]
  by_cases hany : ids.length > 0 ∧ (!(ctx.dir.objects.any fun o =>
      decide (o.state.status = .used) && ids.contains o.md.id)) = true
  · rw [if_pos hany]
    exact ⟨hC0, hQ _ _ (.inl hg)⟩
  · rw [if_neg hany]
    apply wp_bind
    refine wp_replicate hwf hg hctx he ⟨?_, hst, hcnt⟩ hC ?_ ?_
    · rw [hep]; exact Nat.mod_eq_of_lt he
    · intro m1 hg1
      rw [if_neg (by simp)]
      apply wp_bind
      rw [ha]
      refine wp_readOnly (readParseDir_ro _) (hC _ (.inr hg1)) ?_
      intro r
      split
      · apply wp_bind
        refine wp_readOnly (readParseDir_ro _) (hC _ (.inr hg1)) ?_
        intro r2
        exact ⟨hC _ (.inr hg1), hQ _ _ (.inr hg1)⟩
      · apply wp_bind
        have hnew : ∀ m2, InPart c b m1 m2 → Erasing c m1 m2 →
            Good c m2 (!b) (e + 1) (keep ids slots) := by
          intro m2 hi hE
          have hag := hi.other
          refine ⟨hg1.part.frame (hag.mono (Nat.le_refl _) (by omega)), hE.stale hg1.stale,
            hg1.rep.frame hwf.fits (hag.mono (by omega) (Nat.le_refl _))⟩
        refine wp_partErase hwf ?_ ?_ ?_
        · intro m2 hi hE; exact hC _ (.inr (hnew m2 hi hE))
        · intro m2 hi hE _
          exact ⟨hC _ (.inr (hnew m2 hi hE)), hQ _ _ (.inr (hnew m2 hi hE))⟩
        · intro hf rc m2 hrc hi hE
          exact ⟨hC _ (.inr (hnew m2 hi hE)), hQ _ _ (.inr (hnew m2 hi hE))⟩
    · intro hf rc m1 hrc hr hm
      rw [if_pos hrc]
      exact ⟨hC _ hm, hQ _ _ hm⟩

end

end WolfHsm.NvmFlash

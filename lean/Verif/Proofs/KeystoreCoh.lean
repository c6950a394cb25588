import Verif.Proofs.KeystoreInv

/-! # Isolation and coherence over histories -/

namespace WolfHsm.Keystore

open NvmFlash (Meta Store withLen)

variable {F : Par}

theorem not_reachable {cfg : Cfg} {c i : UInt16} (hng : isGlobal cfg i = false)
    (hc : c ≠ KeyId.userOf i) : ¬Reachable cfg c i := by
  unfold Reachable isGlobal at *
  rintro (h | ⟨h1, h2⟩)
  · exact hc h.symm
  · simp [h1, h2] at hng

theorem step_key_other {cfg : Cfg} (hsg : GoodCfg cfg) (ncfg : NvmServer.Cfg) {s : Sys} (hw : WF s)
    {v : Srv} {lock : Rc} {r : Req} (hv : v.client < 16) {i : UInt16}
    (hi : ¬Reachable cfg v.client i) : Other i s (step cfg ncfg s (.key v lock r)).2 := by
  unfold step
  dsimp only
  split
  · exact (handle_trs hw hv hsg lock r).other hi
  · exact .refl _ _

/-- Without the right to write, the target can at most be loaded. -/
theorem EStep.readonly {i : UInt16} {e e' : E} (h : EStep F i e e') (hw : ¬F.w i) :
    e'.n = e.n ∧ (e'.c = e.c ∨ (e.c = none ∧ ∃ md bs, e.n = some (md, bs) ∧ e'.c = some ⟨md, bs, true⟩)) ∧
    (e'.p = e.p ∨ e'.p = none) := by
  cases h with
  | refl => exact ⟨rfl, Or.inl rfl, Or.inl rfl⟩
  | quiet => exact ⟨rfl, Or.inl rfl, Or.inr rfl⟩
  | load hc hn => exact ⟨rfl, Or.inr ⟨hc, _, _, hn, rfl⟩, Or.inl rfl⟩
  | evict a => exact absurd a hw
  | insert a => exact absurd a hw
  | unwrap a => exact absurd a hw
  | commit a => exact absurd a hw
  | commitCut a => exact absurd a hw
  | commitPend a => exact absurd a hw
  | revoke a => exact absurd a.1 hw
  | revokeRam a => exact absurd a.1 hw
  | revokeFail a => exact absurd a.1 hw
  | destroy a => exact absurd a.1 hw

/-- A sequence of transitions that may not write `i` keeps or drops cached copies. -/
theorem Trs.readonly {cfg : Cfg} {x : Nat} {T : UInt16 → Prop} {i : UInt16} {s s' : Sys}
    (h : Trs F cfg x T s s') (hi : ¬F.w i) :
    s'.nvm.store i = s.nvm.store i ∧
    ∀ a, (cacheAt s' a).find i = (cacheAt s a).find i ∨
      ((cacheAt s' a).find i = none ∧ ∃ k, (cacheAt s a).find i = some k ∧ k.committed = true) ∨
      (((cacheAt s a).find i = none ∨ ∃ k, (cacheAt s a).find i = some k ∧ k.committed = true) ∧
        ∃ md bs, s.nvm.store i = some (md, bs) ∧ (cacheAt s' a).find i = some ⟨md, bs, true⟩) := by
  induction h with
  | nil => exact ⟨rfl, fun a => Or.inl rfl⟩
  | @cons s s1 s2 id hT ht _ ih =>
    obtain ⟨ih1, ih2⟩ := ih
    by_cases hid : i = id
    · subst hid
      obtain ⟨h1, h2, -⟩ := ht.step.readonly hi
      replace h1 : s1.nvm.store i = s.nvm.store i := h1
      refine ⟨ih1.trans h1, ?_⟩
      intro a
      by_cases ha : a = area cfg x i
      · subst ha
        simp only [ent, cached_eq] at h2
        rcases h2 with h2 | ⟨h2, md, bs, h3, h4⟩
        · rw [← h2, ← h1]; exact ih2 _
        · have hl : ∃ md bs, s.nvm.store i = some (md, bs) ∧
              (cacheAt s1 (area cfg x i)).find i = some ⟨md, bs, true⟩ := ⟨md, bs, h3, h4⟩
          rcases ih2 (area cfg x i) with h5 | ⟨h5, _⟩ | ⟨_, md', bs', h6, h7⟩
          · right; right; exact ⟨Or.inl h2, md, bs, h3, h5.trans h4⟩
          · left; rw [h5, h2]
          · right; right; exact ⟨Or.inl h2, md', bs', h1 ▸ h6, h7⟩
      · rw [← ht.frame.areas a ha, ← h1]; exact ih2 a
    · have ho := ht.other hid
      refine ⟨ih1.trans ho.store, ?_⟩
      intro a
      rcases ho.cache a with h1 | ⟨k, h1, h2, h3⟩
      · rw [← h1, ← ho.store]; exact ih2 a
      · rcases ih2 a with h5 | ⟨h5, _⟩ | ⟨_, md', bs', h6, h7⟩
        · right; left; exact ⟨h5.trans h3, k, h1, h2⟩
        · right; left; exact ⟨h5, k, h1, h2⟩
        · right; right; exact ⟨Or.inr ⟨k, h1, h2⟩, md', bs', ho.store ▸ h6, h7⟩

/-! ## Coherence -/

/-- Coherence of one entry. -/
def CohE (e : E) : Prop := ∀ k, e.c = some k → k.committed = true → e.n = some (k.md, k.data)

theorem EStep.coh {i : UInt16} {e e' : E} (h : EStep F i e e') (hF : ¬F.fail ∨ ¬F.w i)
    (hc : CohE e) : CohE e' := by
  cases h with
  | refl => exact hc
  | quiet => exact hc
  | evict => intro k hk; cases hk
  | load _ hn => intro k hk _; cases hk; exact hn
  | insert => intro k hk hcm; cases hk; cases hcm
  | unwrap => intro k hk hcm; cases hk; cases hcm
  | commit w h1 h2 => intro k hk _; cases hk; rfl
  | commitCut w h1 h2 =>
    intro k hk _
    dsimp only at hk
    rw [h1] at hk; cases hk; rfl
  | commitPend w h1 h2 => exact hc
  | revoke w h1 h2 h3 => intro k hk _; cases hk; rfl
  | revokeRam w h1 h2 h3 =>
    intro k hk hcm
    cases hk
    have := hc _ h1 hcm
    rw [h3] at this; cases this
  | revokeFail w f => rcases hF with hF | hF <;> [exact absurd f hF; exact absurd w.1 hF]
  | destroy w h1 h2 => intro k hk; dsimp only at hk; rw [h1] at hk; cases hk

/-- The invariant behind coherence. -/
structure CohAt (cfg : Cfg) (x : Nat) (i : UInt16) (s : Sys) : Prop where
  only : ∀ y, area cfg y i ≠ area cfg x i → (cacheAt s (area cfg y i)).find i = none
  coh : CohE (ent cfg x s i)

theorem CohAt.other {cfg : Cfg} {x : Nat} {i : UInt16} {s s' : Sys} (h : CohAt cfg x i s)
    (o : Other i s s') : CohAt cfg x i s' := by
  refine ⟨?_, ?_⟩
  · intro y ha
    have h1 := h.only y ha
    rcases o.cache (area cfg y i) with h2 | ⟨k, h2, _, _⟩
    · rw [h2, h1]
    · rw [h1] at h2; cases h2
  · intro k hk hcm
    simp only [ent, cached_eq] at hk ⊢
    rw [o.store]
    rcases o.cache (area cfg x i) with h2 | ⟨k', _, _, h2⟩
    · exact h.coh k (by simp only [ent, cached_eq]; rw [← h2]; exact hk) hcm
    · rw [h2] at hk; cases hk

theorem area_eq {cfg : Cfg} {x y : Nat} {i : UInt16} (h : isGlobal cfg i = false → y = x) :
    area cfg y i = area cfg x i := by
  unfold area
  cases hg : isGlobal cfg i with
  | true => rfl
  | false => simp [h hg]

theorem CohAt.trs {cfg : Cfg} {x y : Nat} {T : UInt16 → Prop} {i : UInt16} {s s' : Sys}
    (h : CohAt cfg x i s) (ht : Trs F cfg y T s s')
    (hy : T i → isGlobal cfg i = false → y = x) (hF : ¬F.fail ∨ ¬F.w i) : CohAt cfg x i s' := by
  induction ht with
  | nil => exact h
  | @cons s s1 s2 id hT ht _ ih =>
    apply ih
    by_cases hid : i = id
    · subst hid
      have ha := area_eq (hy hT)
      have he : ∀ s, ent cfg y s i = ent cfg x s i := by
        intro s; simp only [ent, cached_eq, ha]
      refine ⟨?_, ?_⟩
      · intro z hne
        rw [ht.frame.areas _ (ha ▸ hne)]; exact h.only z hne
      · rw [← he]; exact ht.step.coh hF (by rw [he]; exact h.coh)
    · exact h.other (ht.other hid)

theorem cohAt_iff {cfg : Cfg} {x : Nat} {i : UInt16} {s : Sys} :
    CohAt cfg x i s ↔ Coherent cfg s i ∧ OnlyAt cfg x s i := by
  constructor
  · intro h
    refine ⟨?_, ?_⟩
    · intro y k hk hcm
      rw [cached_eq] at hk
      by_cases ha : area cfg y i = area cfg x i
      · exact h.coh k (by simp only [ent, cached_eq]; rw [← ha]; exact hk) hcm
      · rw [h.only _ ha] at hk; cases hk
    · intro hg y hy
      rw [cached_eq]
      exact h.only y (by simp [area, hg, hy])
  · rintro ⟨h1, h2⟩
    refine ⟨?_, fun k hk hcm => h1 x k hk hcm⟩
    intro y ha
    cases hg : isGlobal cfg i with
    | true => exact absurd (area_eq (fun h => by rw [hg] at h; cases h)) ha
    | false =>
      rw [← cached_eq]
      exact h2 hg y (by rintro rfl; exact ha rfl)

theorem rebooted_cohAt (cfg : Cfg) (x : Nat) (i : UInt16) (s : Sys) (b : Bool) :
    CohAt cfg x i (rebooted s b) := by
  refine ⟨fun y _ => rebooted_find _ _ _ _, ?_⟩
  intro k hk
  simp only [ent, cached_eq] at hk
  rw [rebooted_find] at hk; cases hk

theorem NvmAct.same {n m : Nvm} {r : NvmServer.Req} {i : UInt16} {lock : Rc}
    {cfg : NvmServer.Cfg} (h : NvmAct cfg n r i m) (h1 : (NvmServer.Ev.req lock r).NotAdding i) (h2 : i ∉ r.toDestroy) :
    m.store i = n.store i ∧
      ∀ md d, m.pending = some (md, d) → md.id = i → n.pending = some (md, d) := by
  cases h with
  | quiet a b => exact ⟨a, b⟩
  | added f g d hr hi =>
    rcases hr with ⟨rfl, rfl, _⟩ | ⟨_, _, _, _, rfl, _⟩ <;> exact absurd hi h1
  | pended f g d hr hi =>
    rcases hr with ⟨rfl, rfl, _⟩ | ⟨_, _, _, _, rfl, _⟩ <;> exact absurd hi h1
  | gone hi => exact absurd hi h2

theorem step_cohAt {cfg : Cfg} (hsg : GoodCfg cfg) (ncfg : NvmServer.Cfg) {x : Nat} {i : UInt16}
    {s : Sys} {e : Ev} (hw : WF s) (hv : e.Valid) (ht : e.Tame cfg x i)
    (hF : ¬e.Revokes cfg i ∨ ∀ t rc b, s.nvm.outs t ≠ .fail rc b)
    (h : s.nvm.powered = true → CohAt cfg x i s)
    (hp : (step cfg ncfg s e).2.nvm.powered = true) : CohAt cfg x i (step cfg ncfg s e).2 := by
  cases e with
  | key v lock r =>
    revert hp
    unfold step
    dsimp only
    split
    · rename_i hpow
      intro hp
      refine (h hpow).trs (handle_trs hw hv hsg lock r) ?_ ?_
      · intro hr hg
        apply ht hg
        unfold Reachable at hr
        rcases hr with hr | ⟨h1, h2⟩
        · exact hr.symm
        · simp [isGlobal, h1, h2] at hg
      · rcases hF with hF | hF
        · by_cases hrev : ∃ rid, r = .revoke rid
          · obtain ⟨rid, rfl⟩ := hrev
            right
            rintro (h1 | ⟨h1, _⟩)
            · exact hF h1
            · exact h1
          · left; rintro ⟨h1, _⟩; exact hrev h1
        · left
          rintro ⟨_, h1 | ⟨t, rc, b, h1⟩⟩
          · rw [hp] at h1; cases h1
          · exact hF _ _ _ h1
    · rename_i hpow; intro hp; exact absurd hp hpow
  | nvm lock r =>
    revert hp
    unfold step
    dsimp only
    split
    · rename_i hpow
      intro _
      have hs := (nvm_act ncfg s.nvm lock r i).same ht.1 ht.2
      refine (h hpow).other ⟨hs.1, hs.2, fun a => Or.inl (by rw [cacheAt_nvm])⟩
    · rename_i hpow; intro hp; exact absurd hp hpow
  | restart b => exact rebooted_cohAt _ _ _ _ _

/-! ## Keys that are not written -/

/-- The profile survives loading from the NVM. -/
def Prof.Loads (Q : Prof) : Prop := ∀ md bs, Q.N (some (md, bs)) → Q.C ⟨md, bs, true⟩

theorem Inv3.readonly {cfg : Cfg} {Q : Prof} {x : Nat} {T : UInt16 → Prop} {i : UInt16} {s s' : Sys}
    (h : Inv3 cfg Q i s) (hw : WF s) (ht : Trs F cfg x T s s') (hnw : ¬F.w i) (hl : Q.Loads) :
    Inv3 cfg Q i s' := by
  refine h.trs hw ht (fun _ e e' he _ _ hE => ?_)
  obtain ⟨h1, h2, h3⟩ := he.readonly hnw
  refine ⟨?_, by rw [h1]; exact hE.n, ?_⟩
  · intro k hk
    rcases h2 with h2 | ⟨_, md, bs, h4, h5⟩
    · exact hE.c k (by rw [← h2]; exact hk)
    · rw [h5] at hk; cases hk
      exact hl md bs (by rw [← h4]; exact hE.n)
  · intro md d hp hi
    rcases h3 with h3 | h3
    · exact hE.p md d (by rw [← h3]; exact hp) hi
    · rw [h3] at hp; cases hp

/-- A key that is not written keeps its profile. -/
theorem step_readonly {cfg : Cfg} (hsg : GoodCfg cfg) (ncfg : NvmServer.Cfg) {Q : Prof} {i : UInt16}
    {s : Sys} {e : Ev} (hw : WF s) (hv : e.Valid) (hn : ¬e.Writes cfg i)
    (hf : s.nvm.store i ≠ none ∨ ∀ v lock r, e = .key v lock r → ¬r.Picks cfg v)
    (hl : Q.Loads)
    (hpn : ∀ md d, md.id = i → d.length < 65536 → Q.P md d → Q.N (some (withLen md d, d)))
    (h : Inv3 cfg Q i s) : Inv3 cfg Q i (step cfg ncfg s e).2 := by
  cases e with
  | key v lock r =>
    unfold step
    dsimp only
    split
    · refine h.readonly hw (handle_trs hw hv hsg lock r) ?_ hl
      rintro (h1 | ⟨h1, _, _, h2⟩)
      · exact hn h1
      · rcases hf with hf | hf
        · exact hf h2
        · exact hf v lock r rfl h1
    · exact h
  | nvm lock r =>
    unfold step
    dsimp only
    split
    · have hs := (nvm_act ncfg s.nvm lock r i).same (lock := lock)
        (Classical.byContradiction fun hc => hn (Or.inl hc)) (fun hc => hn (Or.inr hc))
      refine h.other ⟨hs.1, hs.2, fun a => Or.inl (by rw [cacheAt_nvm])⟩
    · exact h
  | restart b => exact h.restart hw b hpn

end WolfHsm.Keystore

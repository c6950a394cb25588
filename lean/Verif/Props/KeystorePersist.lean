import Verif.Props.Keystore
import Mathlib.Tactic.IntervalCases

/-!
# C18, C19: committed keys persist, revoked keys stay revoked
-/

namespace WolfHsm.Props

open Keystore
open NvmFlash (Meta Store withLen)

section

variable {cfg : Keystore.Cfg} {ncfg : NvmServer.Cfg}

/-! ## C18 -/

/-- The profile of a key that reads as `o` everywhere. -/
def prof18 (o : Meta × List UInt8) : Prof :=
  ⟨fun k => (k.md, k.data) = o, fun n => n = some o, fun md d => (md, d) = o⟩

theorem prof18_loads (o : Meta × List UInt8) : (prof18 o).Loads := by
  intro md bs h; simpa [prof18] using h

/-- Eviction and commit keep the profile. -/
theorem prof18_estep {F : Par} {o : Meta × List UInt8} {i : UInt16} {e e' : E}
    (h : EStep F i e e') (hg : ∀ md d, ¬F.gives md d) (hr : ∀ i, ¬F.rev i) (hd : ∀ i, ¬F.des i)
    (hE : Inv3E (prof18 o) i e) : Inv3E (prof18 o) i e' := by
  cases h with
  | refl => exact hE
  | quiet => exact ⟨hE.c, hE.n, by simp⟩
  | evict => exact ⟨by simp, hE.n, hE.p⟩
  | load h1 h2 =>
    refine ⟨?_, hE.n, hE.p⟩
    rintro k ⟨⟩
    have := hE.n; rw [h2] at this
    exact prof18_loads o _ _ this
  | insert _ h1 => exact absurd h1 (hg _ _)
  | unwrap _ h1 => exact absurd h1 (hg _ _)
  | commit _ h1 =>
    have := hE.c _ h1
    exact ⟨by rintro k ⟨⟩; exact this, congrArg some this, by simp⟩
  | commitCut _ h1 =>
    have := hE.c _ h1
    exact ⟨hE.c, congrArg some this, by simp⟩
  | commitPend _ h1 =>
    have := hE.c _ h1
    exact ⟨hE.c, hE.n, by rintro md d ⟨⟩ _; exact this⟩
  | revoke h1 => exact absurd h1.2 (hr _)
  | revokeRam h1 => exact absurd h1.2 (hr _)
  | revokeFail h1 => exact absurd h1.2 (hr _)
  | destroy h1 => exact absurd h1.2 (hd _)

theorem prof18_step (hsg : GoodCfg cfg) {s : Sys} {e : Ev} {o : Meta × List UInt8} {id : UInt16}
    (hl : o.1.len.toNat = o.2.length) (hw : WF s) (hv : e.Valid) (hn : ¬e.Changes cfg id)
    (h : Inv3 cfg (prof18 o) id s) : Inv3 cfg (prof18 o) id (step cfg ncfg s e).2 := by
  by_cases hwr : e.Writes cfg id
  · -- evict, commit or evict option
    have key : ∀ (v : Srv) (lock : Rc) (r : Req), v.client < 16 →
        (∀ md d, ¬r.Brings cfg md d) → (∀ rid, r ≠ .revoke rid) → (∀ rid, r ≠ .erase rid) →
        Inv3 cfg (prof18 o) id (step cfg ncfg s (.key v lock r)).2 := by
      intro v lock r hc h1 h2 h3
      unfold step
      dsimp only
      split
      · refine h.trs hw (handle_trs hw hc hsg lock r) (fun _ e e' he _ _ hE => ?_)
        exact prof18_estep he h1 (fun i ⟨rid, hr, _⟩ => h2 rid hr) (fun i ⟨rid, hr, _⟩ => h3 rid hr) hE
      · exact h
    cases e with
    | key v lock r =>
      cases r with
      | evict rid => exact key v lock _ hv (fun _ _ h => h) (by simp) (by simp)
      | commit rid => exact key v lock _ hv (fun _ _ h => h) (by simp) (by simp)
      | evictOption rid => exact key v lock _ hv (fun _ _ h => h) (by simp) (by simp)
      | _ => exact absurd hwr hn
    | nvm lock r => exact absurd hwr hn
    | restart b => exact absurd hwr hn
  · refine step_readonly hsg ncfg hw hv hwr (Or.inl ?_) (prof18_loads o) ?_ h
    · have : s.nvm.store id = some o := h.n
      rw [this]; simp
    · intro md d _ _ hP
      have : (md, d) = o := hP
      subst this
      show some _ = some _
      rw [withLen_self hl]

theorem prof18_view {s : Sys} {o : Meta × List UInt8} {id : UInt16}
    (h : Inv3 cfg (prof18 o) id s) (y : Nat) : view cfg y s id = some o := by
  unfold view
  have hn : s.nvm.store id = some o := h.n
  cases hk : cached cfg y s id with
  | some k => exact congrArg some (h.c y k hk)
  | none => exact hn

/-- The invariant behind C18 for committed keys. -/
theorem committed_inv (hsg : GoodCfg cfg) {s : Sys} (hs : Reach cfg ncfg s) {v : Srv}
    (hc : v.client < 16) (lock : Rc) (rid : UInt16) (honly : OnlyAt cfg v.ctx s (ownId cfg v rid))
    (hok : (handle cfg v s lock (.commit rid)).1 = .code .ok) :
    ∃ k, cached cfg v.ctx s (ownId cfg v rid) = some k ∧
      ∀ evs : List Ev, (∀ e ∈ evs, e.Valid ∧ ¬e.Changes cfg (ownId cfg v rid)) →
        Inv3 cfg (prof18 (k.md, k.data)) (ownId cfg v rid)
          (run cfg ncfg (handle cfg v s lock (.commit rid)).2 evs) := by
  have hw := hs.wf hsg
  have hw' := (handle_trs hw hc hsg lock (.commit rid)).wf hw
  rcases handle_or cfg v s lock (.commit rid) with ⟨_, _, e⟩ | ⟨rc, hrc, e⟩
  · rw [e] at hok hw' ⊢
    change Resp.code (commitKeyChecked cfg v.ctx s (ownId cfg v rid)).1 = _ at hok
    change WF (commitKeyChecked cfg v.ctx s (ownId cfg v rid)).2 at hw'
    change ∃ k, _ ∧ ∀ evs : List Ev, _ → Inv3 cfg (prof18 (CKey.md k, CKey.data k)) (ownId cfg v rid)
      (run cfg ncfg (commitKeyChecked cfg v.ctx s (ownId cfg v rid)).2 evs)
    generalize ownId cfg v rid = id at honly hok hw' ⊢
    revert hok hw'
    refine commitKeyChecked_cases (F := Par.any) (P := fun r => Resp.code r.1 = .code .ok → WF r.2 →
      ∃ k, cached cfg v.ctx s id = some k ∧ ∀ evs : List Ev,
        (∀ e ∈ evs, e.Valid ∧ ¬e.Changes cfg id) →
          Inv3 cfg (prof18 (k.md, k.data)) id (run cfg ncfg r.2 evs)) hw trivial ?_ ?_
    · intro s' k _ hcm _ hw'
      refine ⟨k, hcm.before, fun evs hv => ?_⟩
      refine run_induct hsg ncfg (I := Inv3 cfg (prof18 (k.md, k.data)) id)
        (A := fun e => ¬e.Changes cfg id) ?_ hw' ?_ hv
      · intro s e hw hI hval hA
        refine prof18_step hsg ?_ hw hval hA hI
        have hn : s.nvm.store id = some (k.md, k.data) := hI.n
        exact (hw.nvm _ _ _ hn).2
      · refine ⟨?_, hcm.store, ?_⟩
        · intro y k' hk'
          by_cases ha : area cfg y id = area cfg v.ctx id
          · have h1 := hcm.entry
            rw [cached_eq] at hk' h1
            rw [ha, h1] at hk'
            cases hk'; rfl
          · rw [cached_eq, hcm.frame.areas _ ha, ← cached_eq] at hk'
            have hng : isGlobal cfg id = false := by
              cases h : isGlobal cfg id
              · rfl
              · unfold area at ha; simp [h] at ha
            rw [honly hng y (by rintro rfl; exact ha rfl)] at hk'
            cases hk'
        · intro md d hp; rw [hcm.pend] at hp; cases hp
    · intro rc s' hrc _ _ h
      simp only [Resp.code.injEq] at h
      exact absurd h hrc
  · rw [e] at hok
    simp only [Resp.code.injEq] at hok
    exact absurd hok hrc

/-- **C18 (committed keys).** Once a commit has been reported successful, the key reads the
same bytes and metadata at every server context, through any number of evictions, further
commits, reads, requests for other keys, NVM failures and restarts, until a request
replaces, revokes or erases it. -/
theorem C18_committed (hsg : GoodCfg cfg) {s : Sys} (hs : Reach cfg ncfg s) {v : Srv}
    (hc : v.client < 16) (lock : Rc) (rid : UInt16) (honly : OnlyAt cfg v.ctx s (ownId cfg v rid))
    (hok : (handle cfg v s lock (.commit rid)).1 = .code .ok) :
    ∃ k, cached cfg v.ctx s (ownId cfg v rid) = some k ∧
      ∀ evs : List Ev, (∀ e ∈ evs, e.Valid ∧ ¬e.Changes cfg (ownId cfg v rid)) →
        ∀ y, view cfg y (run cfg ncfg (handle cfg v s lock (.commit rid)).2 evs) (ownId cfg v rid) =
          some (k.md, k.data) := by
  obtain ⟨k, h1, h2⟩ := committed_inv (ncfg := ncfg) hsg hs hc lock rid honly hok
  exact ⟨k, h1, fun evs hv y => prof18_view (h2 evs hv) y⟩

/-- The hypotheses are met by the global key 6, and by a following history with another
client's requests, an eviction of the key and a power cycle. -/
example : ∃ s, ∃ evs : List Ev, Reach Demo.cfg Demo.ncfg s ∧
    OnlyAt Demo.cfg 0 s (ownId Demo.cfg Demo.one 0x0106) ∧
    (handle Demo.cfg Demo.one s .ok (.commit 0x0106)).1 = .code .ok ∧
    (∀ e ∈ evs, e.Valid ∧ ¬e.Changes Demo.cfg (ownId Demo.cfg Demo.one 0x0106)) ∧
    evs.length = 4 := by
  refine ⟨Demo.after [Demo.cacheG6], [.key Demo.one .ok (.evict 0x0106), Demo.fresh2, .restart true,
    Demo.freshG], Demo.after_reach _ (by decide +kernel), onlyAt_global (by decide +kernel),
    by decide +kernel, ?_, rfl⟩
  intro e he
  simp only [List.mem_cons, List.not_mem_nil, or_false] at he
  rcases he with rfl | rfl | rfl | rfl
  · exact ⟨by decide, fun h => h⟩
  · exact ⟨by decide, fun h => absurd h (by show ¬(_ = _); decide +kernel)⟩
  · exact ⟨trivial, fun h => h⟩
  · exact ⟨by decide, fun h => absurd h (by show ¬(_ = _); decide +kernel)⟩

/-- The profile of an absent key. -/
def profGone : Prof := ⟨fun _ => False, fun n => n = none, fun _ _ => False⟩

/-- **C18 (erased keys).** Once an erase has been reported successful, the key reads as absent
at every server context, through any requests for other keys, failures and restarts,
until a request creates it again.  Missing (`F_C18_erased_key_comes_back`): a key that the
NVM does not show but whose commit failed with the object complete on the media. -/
theorem C18_erased_partial (hsg : GoodCfg cfg) {s : Sys} (hs : Reach cfg ncfg s) {v : Srv}
    (hc : v.client < 16) (lock : Rc) (rid : UInt16) (honly : OnlyAt cfg v.ctx s (ownId cfg v rid))
    (hpend : s.nvm.store (ownId cfg v rid) ≠ none ∨
      ∀ md bs, s.nvm.pending = some (md, bs) → md.id ≠ ownId cfg v rid)
    (hok : (handle cfg v s lock (.erase rid)).1 = .code .ok) (evs : List Ev)
    (hv : ∀ e ∈ evs, e.Valid ∧ ¬e.MayCreate cfg (ownId cfg v rid)) (y : Nat) :
    view cfg y (run cfg ncfg (handle cfg v s lock (.erase rid)).2 evs) (ownId cfg v rid) = none := by
  have hw := hs.wf hsg
  have htr := handle_trs hw hc hsg lock (.erase rid)
  have hw' := htr.wf hw
  suffices h : Inv3 cfg profGone (ownId cfg v rid) (handle cfg v s lock (.erase rid)).2 by
    have hfin : Inv3 cfg profGone (ownId cfg v rid)
        (run cfg ncfg (handle cfg v s lock (.erase rid)).2 evs) := by
      refine run_induct hsg ncfg (I := Inv3 cfg profGone (ownId cfg v rid))
        (A := fun e => ¬e.MayCreate cfg (ownId cfg v rid)) ?_ hw' h hv
      intro s e hw hI hval hA
      by_cases hre : ∃ v' lock' r', e = .key v' lock' r' ∧ ¬Reachable cfg v'.client (ownId cfg v rid)
      · obtain ⟨v', lock', r', rfl, hre⟩ := hre
        exact hI.other (step_key_other hsg ncfg hw hval hre)
      · refine step_readonly hsg ncfg hw hval ?_ (Or.inr ?_) ?_ ?_ hI
        · intro hwr; apply hA
          cases e with
          | key v' lock' r' => exact Or.inl hwr
          | nvm lock' r' => exact hwr
          | restart b => exact hwr
        · rintro v' lock' r' rfl hp
          apply hA
          right
          refine ⟨hp, ?_⟩
          apply Classical.byContradiction
          intro hn
          exact hre ⟨v', lock', r', rfl, hn⟩
        · intro md bs h; cases h
        · intro md d _ _ h; exact h.elim
    unfold view
    cases hk : cached cfg y (run cfg ncfg (handle cfg v s lock (.erase rid)).2 evs) (ownId cfg v rid) with
    | some k => exact (hfin.c y k hk).elim
    | none => exact hfin.n
  rcases handle_or cfg v s lock (.erase rid) with ⟨_, _, e⟩ | ⟨rc, hrc, e⟩
  · rw [e] at hok htr ⊢
    change Resp.code (eraseKeyChecked cfg v.ctx s (ownId cfg v rid)).1 = _ at hok
    change Trs _ cfg _ _ _ (eraseKeyChecked cfg v.ctx s (ownId cfg v rid)).2 at htr
    change Inv3 cfg profGone _ (eraseKeyChecked cfg v.ctx s (ownId cfg v rid)).2
    generalize ownId cfg v rid = id at honly hpend hok htr ⊢
    revert hok htr
    refine eraseKeyChecked_cases (F := Par.any) (P := fun r => Resp.code r.1 = .code .ok →
      Trs _ cfg _ _ _ r.2 → Inv3 cfg profGone id r.2) hw ⟨trivial, trivial⟩ ?_ ?_
    · intro s' _ h1 h2 h3 _ htr
      have hq : ∀ md d, s'.nvm.pending = some (md, d) → md.id ≠ id := by
        intro md d hp
        rcases h3 with h3 | ⟨h4, h3⟩
        · rw [h3] at hp; cases hp
        · rcases hpend with h5 | h5
          · exact absurd h4 h5
          · exact h5 md d (h3 ▸ hp)
      refine ⟨?_, h2, fun md d hp hi => absurd hi (hq md d hp)⟩
      intro y k hk
      by_cases ha : area cfg y id = area cfg v.ctx id
      · rw [cached_eq] at hk h1
        rw [ha, h1] at hk; cases hk
      · have hng : isGlobal cfg id = false := by
          cases h : isGlobal cfg id
          · rfl
          · unfold area at ha; simp [h] at ha
        have hy : y ≠ v.ctx := by rintro rfl; exact ha rfl
        have h4 := honly hng y hy
        unfold cached cacheOf at hk h4
        rw [hng] at hk h4
        simp only [Bool.false_eq_true, if_false] at hk h4
        rw [trs_areas htr hy, h4] at hk
        cases hk
    · intro rc s' hrc _ h
      simp only [Resp.code.injEq] at h
      exact absurd h hrc
  · rw [e] at hok
    simp only [Resp.code.injEq] at hok
    exact absurd hok hrc

/-- The hypotheses are met by the committed global key 6. -/
example : ∃ s, ∃ evs : List Ev, Reach Demo.cfg Demo.ncfg s ∧
    (view Demo.cfg 0 s (ownId Demo.cfg Demo.one 0x0106)).isSome = true ∧
    (s.nvm.store (ownId Demo.cfg Demo.one 0x0106)).isSome = true ∧
    OnlyAt Demo.cfg 0 s (ownId Demo.cfg Demo.one 0x0106) ∧
    (handle Demo.cfg Demo.one s .ok (.erase 0x0106)).1 = .code .ok ∧
    (∀ e ∈ evs, e.Valid ∧ ¬e.MayCreate Demo.cfg (ownId Demo.cfg Demo.one 0x0106)) ∧
    evs.length = 3 := by
  refine ⟨Demo.after [Demo.cacheG6, Demo.commitG6], [.restart true, Demo.cache5,
    .key Demo.one .ok (.exportKey 0x0106)], Demo.after_reach _ (by decide +kernel),
    by decide +kernel, by decide +kernel, onlyAt_global (by decide +kernel),
    by decide +kernel, ?_, rfl⟩
  intro e he
  simp only [List.mem_cons, List.not_mem_nil, or_false] at he
  rcases he with rfl | rfl | rfl
  · exact ⟨trivial, fun h => h⟩
  · refine ⟨by decide, ?_⟩
    rintro (h | ⟨h, _⟩)
    · exact absurd h (by show ¬(_ = _); decide +kernel)
    · exact absurd h (by show ¬(_ = _); decide +kernel)
  · refine ⟨by decide, ?_⟩
    rintro (h | ⟨h, _⟩)
    · exact h
    · exact h

/-- The hypothesis about failed commits is met whenever the last NVM write succeeded, for a key
that was never committed, too. -/
example : ∃ s, Reach Demo.cfg Demo.ncfg s ∧
    s.nvm.store (ownId Demo.cfg Demo.one 0x0106) = none ∧
    (∀ md bs, s.nvm.pending = some (md, bs) → md.id ≠ ownId Demo.cfg Demo.one 0x0106) ∧
    (handle Demo.cfg Demo.one s .ok (.erase 0x0106)).1 = .code .ok :=
  ⟨Demo.after [Demo.cacheG6], Demo.after_reach _ (by decide +kernel), by decide +kernel,
    (fun _ _ h => by
      rw [show (Demo.after [Demo.cacheG6]).nvm.pending = none by decide +kernel] at h; cases h),
    by decide +kernel⟩

/-- The NVM write of the first commit is reported as failed, with the object complete on the
media; nothing else ever fails. -/
def lateFailure : Nat → Out := fun i => if i = 1 then .fail .aborted true else .ok

/-- **C18, finding.** The commit of global key 6 fails.  The client gives up and erases the
key, which is reported successful, and the key reads as absent.  After the next power cycle
the key is back: destroying ids that no shown object has does not touch the flash, where the
object is complete. -/
theorem F_C18_erased_key_comes_back :
    ∃ s, Reach Demo.cfg Demo.ncfg s ∧
      OnlyAt Demo.cfg 0 s (ownId Demo.cfg Demo.one 0x0106) ∧
      (handle Demo.cfg Demo.one s .ok (.erase 0x0106)).1 = .code .ok ∧
      view Demo.cfg 0 (handle Demo.cfg Demo.one s .ok (.erase 0x0106)).2
        (ownId Demo.cfg Demo.one 0x0106) = none ∧
      (view Demo.cfg 0 (run Demo.cfg Demo.ncfg (handle Demo.cfg Demo.one s .ok (.erase 0x0106)).2
        [.restart true]) (ownId Demo.cfg Demo.one 0x0106)).map Prod.snd = some [6, 6, 6] := by
  refine ⟨run Demo.cfg Demo.ncfg (Demo.boot lateFailure) [Demo.cacheG6, Demo.commitG6],
    reach_run (Demo.boot_reach _) _ (by decide +kernel), onlyAt_global (by decide +kernel),
    by decide +kernel, by decide +kernel, by decide +kernel⟩

/-- **C18 (reading).** Export returns exactly the key the server context sees, whether it is
cached or has to be read from the NVM, as long as the NVM read works and the key is
exportable, non-empty and fits into the response. -/
theorem C18_readable (hsg : GoodCfg cfg) {s : Sys} (hs : Reach cfg ncfg s) {v : Srv}
    (rid : UInt16) {md : Meta} {bs : List UInt8}
    (hview : view cfg v.ctx s (ownId cfg v rid) = some (md, bs))
    (hex : hasFlag md.flags Flag.trusted = false ∧ hasFlag md.flags Flag.nonExportable = false)
    (hid : KeyId.idOf (ownId cfg v rid) ≠ 0)
    (hty : KeyId.typeOf (ownId cfg v rid) = KeyId.typeCrypto)
    (hsz : bs.length ≤ cfg.commLen - 36) (h0 : bs ≠ [])
    (hp : s.nvm.powered = true) (ho : s.nvm.outs s.nvm.tick = .ok) :
    (handle cfg v s .ok (.exportKey rid)).1 = .key .ok (some md.label) bs := by
  have hw := hs.wf hsg
  change keyResp (readKeyChecked cfg v.ctx s (ownId cfg v rid) (cfg.commLen - 36)).1 = _
  generalize ownId cfg v rid = id at hview hid hty ⊢
  have hun : KeyId.isUnassigned id = false := by
    simp [KeyId.isUnassigned, KeyId.isErased, hid]
  have hhw : isHw cfg id = false := by
    simp only [isHw, hty, Bool.and_eq_false_iff]; right; decide
  have hnw : (KeyId.typeOf id == KeyId.typeWrapped) = false := by rw [hty]; decide
  have hns : ¬(KeyId.typeOf id = KeyId.typeShe ∧ KeyId.idOf id = 0) := by rw [hty]; exact fun h => hid h.2
  have hj : ∀ b, judge .exportKey md.flags b = .ok := by
    intro b; simp [judge, hex.1, hex.2]
  unfold view at hview
  cases hk : cached cfg v.ctx s id with
  | some k =>
    rw [hk] at hview
    simp only [Option.some.injEq, Prod.mk.injEq] at hview
    have hl : k.md.len.toNat = k.data.length := hw.clen _ _ _ (by rw [← cached_eq]; exact hk)
    have hpol : policy cfg v.ctx s .exportKey id = .ok := by
      simp only [policy, hun, hhw, hk, hview.1, hj]; rfl
    unfold readKeyChecked
    rw [hpol]
    unfold readKey
    have hle : ¬k.md.len.toNat > cfg.commLen - 36 := by rw [hl, hview.2]; omega
    simp only [hun, hhw, hk, if_neg hle]
    simp [keyResp, hview.1, hview.2]
  | none =>
    rw [hk] at hview
    dsimp only at hview
    have hm := Nvm.metadata_some hview
    obtain ⟨hmid, hl⟩ := hw.nvm _ _ _ hview
    have hpol : policy cfg v.ctx s .exportKey id = .ok := by
      simp only [policy, hun, hhw, hk, hm, hj]; rfl
    have hrd : s.nvm.read id 0 md.len.toNat = ((.ok, bs), { s.nvm with tick := s.nvm.tick + 1 }) := by
      have hpos : 0 < bs.length := List.length_pos_iff.mpr h0
      simp [Nvm.read, hp, ho, Store.slice, hview, hl, hpos]
    unfold readKeyChecked
    rw [hpol]
    unfold readKey
    have hle : ¬md.len.toNat > cfg.commLen - 36 := by rw [hl]; omega
    simp only [hun, hhw, hk, hnw, hm, if_neg hle, hrd, hmid, if_neg hns]
    simp only [Bool.false_eq_true, if_false]
    split <;> simp [keyResp]

/-- The hypotheses are met by a key that is only in the NVM, after a power cycle. -/
example : ∃ s, Reach Demo.cfg Demo.ncfg s ∧
    cached Demo.cfg 0 s (ownId Demo.cfg Demo.one 0x0106) = none ∧
    view Demo.cfg 0 s (ownId Demo.cfg Demo.one 0x0106) =
      some (⟨ownId Demo.cfg Demo.one 0x0106, 0xFFFF, Flag.usageEncrypt, 3, Demo.label⟩, [6, 6, 6]) ∧
    KeyId.idOf (ownId Demo.cfg Demo.one 0x0106) ≠ 0 ∧
    KeyId.typeOf (ownId Demo.cfg Demo.one 0x0106) = KeyId.typeCrypto ∧
    s.nvm.powered = true ∧ s.nvm.outs s.nvm.tick = .ok :=
  ⟨Demo.after [Demo.cacheG6, Demo.commitG6, .restart false], Demo.after_reach _ (by decide +kernel),
    by decide +kernel, by decide +kernel, by decide +kernel, by decide +kernel, by decide +kernel,
    by decide +kernel⟩

/-! ## C19 -/

theorem revoked_flags {md : Meta} (h : isRevoked md = true) :
    hasFlag md.flags Flag.nonModifiable = true ∧ md.flags &&& usageAny = 0 := by
  simpa [isRevoked] using h

theorem and_not_self (a b : UInt16) : (a &&& ~~~b) &&& b = 0 := by
  apply UInt16.eq_of_toBitVec_eq
  simp only [UInt16.toBitVec_and, UInt16.toBitVec_not]
  rw [BitVec.and_assoc]
  simp

theorem isRevoked_revokeMeta (md : Meta) : isRevoked (revokeMeta md) = true := by
  have h2 : (revokeMeta md).flags &&& usageAny = 0 := and_not_self _ _
  have h1 : hasFlag (revokeMeta md).flags Flag.nonModifiable = true := by
    have : ∀ f : UInt16, hasFlag ((f ||| Flag.nonModifiable) &&& ~~~usageAny) Flag.nonModifiable = true := by
      intro f
      have e : ((f ||| Flag.nonModifiable) &&& ~~~usageAny) &&& Flag.nonModifiable = Flag.nonModifiable := by
        apply UInt16.eq_of_toBitVec_eq
        apply BitVec.eq_of_getLsbD_eq
        intro i hi
        simp only [Flag.nonModifiable, usageAny, Flag.usageEncrypt, Flag.usageDecrypt, Flag.usageSign,
          Flag.usageVerify, Flag.usageWrap, Flag.usageDerive, UInt16.toBitVec_and, UInt16.toBitVec_or,
          UInt16.toBitVec_not]
        interval_cases i <;> simp
      simp only [hasFlag, e]; decide
    exact this _
  simp [isRevoked, h1, h2]

theorem and_one_of {f : UInt16} (h : f &&& 1 ≠ 0) : f &&& 1 = 1 := by
  apply UInt16.toNat.inj
  have h' : (f &&& 1).toNat ≠ 0 := fun hc => h (UInt16.toNat.inj (by simpa using hc))
  rw [UInt16.toNat_and] at h' ⊢
  simp only [UInt16.toNat_one, Nat.and_one_is_mod] at h' ⊢
  omega

theorem revokeMeta_revoked {md : Meta} (h : isRevoked md = true) : revokeMeta md = md := by
  obtain ⟨h1, h2⟩ := revoked_flags h
  unfold revokeMeta
  have : (md.flags ||| Flag.nonModifiable) &&& ~~~usageAny = md.flags := by
    have hn : md.flags &&& Flag.nonModifiable = Flag.nonModifiable := by
      refine and_one_of ?_
      simpa [hasFlag, Flag.nonModifiable] using h1
    generalize usageAny = u at h2
    generalize Flag.nonModifiable = m at hn
    generalize md.flags = f at h2 hn
    apply UInt16.eq_of_toBitVec_eq
    apply BitVec.eq_of_getLsbD_eq
    intro i hi
    have e1 := congrArg (fun x => x.toBitVec.getLsbD i) h2
    have e2 := congrArg (fun x => x.toBitVec.getLsbD i) hn
    simp only [UInt16.toBitVec_and, UInt16.toBitVec_or, UInt16.toBitVec_not, BitVec.getLsbD_and,
      BitVec.getLsbD_or, BitVec.getLsbD_not, hi] at e1 e2 ⊢
    have e3 : (0 : UInt16).toBitVec.getLsbD i = false := by simp
    rw [e3] at e1
    revert e1 e2
    cases f.toBitVec.getLsbD i <;> cases u.toBitVec.getLsbD i <;> cases m.toBitVec.getLsbD i <;> simp
  rw [this]

/-- The profile of a key that is revoked in the NVM. -/
def prof19 (o : Meta × List UInt8) : Prof :=
  ⟨fun k => (k.md, k.data) = o ∧ k.committed = true, fun n => n = some o, fun md d => (md, d) = o⟩

theorem prof19_estep {F : Par} {o : Meta × List UInt8} {i : UInt16} {e e' : E}
    (hr : isRevoked o.1 = true) (hty : KeyId.typeOf i = KeyId.typeCrypto)
    (h : EStep F i e e') (hE : Inv3E (prof19 o) i e) : Inv3E (prof19 o) i e' := by
  obtain ⟨f1, f2⟩ := revoked_flags hr
  have hn : e.n = some o := hE.n
  cases h with
  | refl => exact hE
  | quiet => exact ⟨hE.c, hE.n, by simp⟩
  | evict => exact ⟨by simp, hE.n, hE.p⟩
  | load h1 h2 =>
    refine ⟨?_, hE.n, hE.p⟩
    rintro k ⟨⟩
    rw [hn] at h2; cases h2
    exact ⟨rfl, rfl⟩
  | insert _ _ _ _ _ hm =>
    exfalso
    unfold MayCache at hm
    cases hc : e.c with
    | some k =>
      rw [hc] at hm
      have h3 := (hE.c _ hc).1
      rw [← h3] at f1
      have h4 := hm.2
      rw [f1] at h4; cases h4
    | none =>
      rw [hc, hn] at hm
      have h4 := hm.2
      rw [f1] at h4; cases h4
  | unwrap _ _ _ _ _ _ h1 =>
    exfalso
    rcases h1 with h1 | h1 <;> rw [hty] at h1 <;> exact absurd h1 (by decide)
  | commit _ h1 =>
    have := hE.c _ h1
    exact ⟨by rintro k ⟨⟩; exact ⟨this.1, rfl⟩, congrArg some this.1, by simp⟩
  | commitCut _ h1 =>
    have := hE.c _ h1
    exact ⟨hE.c, congrArg some this.1, by simp⟩
  | commitPend _ h1 =>
    have := hE.c _ h1
    exact ⟨hE.c, hE.n, by rintro md d ⟨⟩ _; exact this.1⟩
  | @revoke k h1 h2 =>
    have h3 := hE.c _ h2
    have h4 : revokeMeta k.md = k.md := revokeMeta_revoked (by have := h3.1; rw [← this] at hr; exact hr)
    rw [h4]
    exact ⟨by rintro k ⟨⟩; exact ⟨h3.1, rfl⟩, congrArg some h3.1, by simp⟩
  | revokeRam _ _ _ h1 => rw [hn] at h1; cases h1
  | @revokeFail k n p _ _ h2 _ h5 h6 =>
    have h3 := hE.c _ h2
    have h4 : revokeMeta k.md = k.md := revokeMeta_revoked (by have := h3.1; rw [← this] at hr; exact hr)
    rw [h4] at h5 h6 ⊢
    refine ⟨by rintro k ⟨⟩; exact h3, ?_, ?_⟩
    · rcases h5 with rfl | rfl
      · exact hn
      · exact congrArg some h3.1
    · rcases h6 with rfl | rfl | rfl
      · exact hE.p
      · simp
      · rintro md d ⟨⟩ _; exact h3.1
  | destroy _ _ h1 =>
    exfalso
    have := (h1 o.1 o.2 hn).2.1
    rw [f1] at this; cases this

/-- The client memory holding the metadata of a DMA add does not change while the server works
on the request. -/
def StableEv : Ev → Prop
  | .nvm lock r => (NvmServer.Ev.req lock r).Stable
  | _ => True

theorem prof19_step (hsg : GoodCfg cfg) {s : Sys} {e : Ev} {o : Meta × List UInt8} {id : UInt16}
    (hr : isRevoked o.1 = true) (hty : KeyId.typeOf id = KeyId.typeCrypto)
    (hw : WF s) (hv : e.Valid) (hst : StableEv e)
    (h : Inv3 cfg (prof19 o) id s) : Inv3 cfg (prof19 o) id (step cfg ncfg s e).2 := by
  obtain ⟨f1, f2⟩ := revoked_flags hr
  have hn : s.nvm.store id = some (o.1, o.2) := h.n
  cases e with
  | key v lock r =>
    unfold step
    dsimp only
    split
    · exact h.trs hw (handle_trs hw hv hsg lock r) (fun _ e e' he _ _ hE => prof19_estep hr hty he hE)
    · exact h
  | nvm lock r =>
    unfold step
    dsimp only
    split
    · refine h.nvm ncfg lock r ?_ ?_
      · intro first second data hreq hid hpass
        exfalso
        have heq : first = second := by
          rcases hreq with ⟨_, rfl, _⟩ | ⟨_, _, _, _, rfl, _⟩
          · rfl
          · exact hst
        subst heq
        rw [hid, Nvm.policy_add_refuses hn (Or.inl f1)] at hpass
        simp [Nvm.passes] at hpass
      · intro hi hall
        exact absurd hall (Nvm.checkAll_refuses (Nvm.policy_destroy_refuses hn (Or.inl f1)) _ hi)
    · exact h
  | restart b =>
    refine h.restart hw b ?_
    intro md d _ _ hP
    have : (md, d) = o := hP
    subst this
    show some _ = some _
    rw [withLen_self (hw.nvm _ _ _ hn).2]

/-- **C19.** Revoking a key that is in the NVM: once success is reported, the key stays revoked
(NONMODIFIABLE, no usage flag) with the same bytes at every server context, whatever
requests, evictions, NVM failures and restarts follow.  Missing: keys that are only
cached (`F_revoked_cached_key_returns`), and a success reported for a repeated request after
the NVM had failed (`F_revoke_retry`), which the hypothesis `Coherent` excludes.  An add of the
key that failed and may show up at the next restart must be of the object already stored. -/
theorem C19_revoked_partial (hsg : GoodCfg cfg) {s : Sys} (hs : Reach cfg ncfg s) {v : Srv}
    (hc : v.client < 16) (lock : Rc) (rid : UInt16)
    (hty : KeyId.typeOf (ownId cfg v rid) = KeyId.typeCrypto)
    (hstored : s.nvm.store (ownId cfg v rid) ≠ none) (hcoh : Coherent cfg s (ownId cfg v rid))
    (honly : OnlyAt cfg v.ctx s (ownId cfg v rid))
    (hset : ∀ md d, s.nvm.pending = some (md, d) → md.id = ownId cfg v rid →
      s.nvm.store (ownId cfg v rid) = some (md, d))
    (hok : (handle cfg v s lock (.revoke rid)).1 = .code .ok) :
    ∃ md bs, isRevoked md = true ∧
      ∀ evs : List Ev, (∀ e ∈ evs, e.Valid ∧ StableEv e) →
        (run cfg ncfg (handle cfg v s lock (.revoke rid)).2 evs).nvm.store (ownId cfg v rid) =
          some (md, bs) ∧
        ∀ y, view cfg y (run cfg ncfg (handle cfg v s lock (.revoke rid)).2 evs) (ownId cfg v rid) =
          some (md, bs) := by
  have hw := hs.wf hsg
  have htr := handle_trs hw hc hsg lock (.revoke rid)
  have hw' := htr.wf hw
  suffices h : ∃ o : Meta × List UInt8, isRevoked o.1 = true ∧
      Inv3 cfg (prof19 o) (ownId cfg v rid) (handle cfg v s lock (.revoke rid)).2 by
    obtain ⟨o, hr, hI⟩ := h
    refine ⟨o.1, o.2, hr, fun evs hv => ?_⟩
    have hfin : Inv3 cfg (prof19 o) (ownId cfg v rid)
        (run cfg ncfg (handle cfg v s lock (.revoke rid)).2 evs) :=
      run_induct hsg ncfg (I := Inv3 cfg (prof19 o) (ownId cfg v rid)) (A := StableEv)
        (fun s e hw hI hval hA => prof19_step hsg hr hty hw hval hA hI) hw' hI hv
    refine ⟨hfin.n, fun y => ?_⟩
    unfold view
    have hn : (run cfg ncfg (handle cfg v s lock (.revoke rid)).2 evs).nvm.store (ownId cfg v rid) =
      some o := hfin.n
    cases hk : cached cfg y (run cfg ncfg (handle cfg v s lock (.revoke rid)).2 evs) (ownId cfg v rid) with
    | some k => exact congrArg some (hfin.c y k hk).1
    | none => exact hn
  rcases handle_or cfg v s lock (.revoke rid) with ⟨_, _, e⟩ | ⟨rc, hrc, e⟩
  · rw [e] at hok ⊢
    change Resp.code (revokeKey cfg v.ctx s (ownId cfg v rid)).1 = _ at hok
    change ∃ o : Meta × List UInt8, _ ∧ Inv3 cfg (prof19 o) _ (revokeKey cfg v.ctx s (ownId cfg v rid)).2
    generalize ownId cfg v rid = id at honly hok hty hstored hcoh hset ⊢
    -- the other contexts have no copy
    have hoth : ∀ {s' s'' : Sys} {y}, Frame cfg v.ctx id s' s'' →
        (∀ y, area cfg y id ≠ area cfg v.ctx id → cached cfg y s' id = none) →
        (area cfg y id ≠ area cfg v.ctx id → cached cfg y s'' id = none) := by
      intro s' s'' y hf h0 ha
      rw [cached_eq, hf.areas _ ha, ← cached_eq]; exact h0 y ha
    have hno : ∀ y, area cfg y id ≠ area cfg v.ctx id → cached cfg y s id = none := by
      intro y ha
      have hng : isGlobal cfg id = false := by
        cases h : isGlobal cfg id
        · rfl
        · unfold area at ha; simp [h] at ha
      exact honly hng y (by rintro rfl; exact ha rfl)
    have hfr : ∀ {s' k}, Fresh cfg v.ctx id s s' k →
        ∀ y, area cfg y id ≠ area cfg v.ctx id → cached cfg y s' id = none := by
      intro s' k h y ha
      rcases h with ⟨rfl, _⟩ | ⟨md, bs, _, h⟩
      · exact hno y ha
      · exact hoth h.frame hno ha
    revert hok
    refine revokeKey_cases (F := Par.any) (P := fun r => Resp.code r.1 = .code .ok →
      ∃ o : Meta × List UInt8, isRevoked o.1 = true ∧ Inv3 cfg (prof19 o) id r.2) hw ⟨trivial, trivial⟩
      (fun _ _ _ => trivial) ?_ ?_ ?_ ?_
    · intro s' k h _; exact absurd h.stored hstored
    · intro s' k h hrv hcm _
      refine ⟨(k.md, k.data), hrv, ?_⟩
      have hstore : s'.nvm.store id = some (k.md, k.data) := by
        rw [h.store]
        rcases h with ⟨rfl, h⟩ | ⟨md, bs, rfl, h⟩
        · exact hcoh _ _ h hcm
        · exact h.stored
      refine ⟨?_, hstore, ?_⟩
      · intro y k' hk'
        by_cases ha : area cfg y id = area cfg v.ctx id
        · have h1 := h.now
          rw [cached_eq] at hk' h1
          rw [ha, h1] at hk'
          cases hk'; exact ⟨rfl, hcm⟩
        · rw [hfr h y ha] at hk'; cases hk'
      · intro md d hp hmid
        have hst : some (k.md, k.data) = s.nvm.store id := by rw [← h.store]; exact hstore.symm
        rcases h with ⟨rfl, h⟩ | ⟨md', bs, rfl, h⟩
        · exact (Option.some.inj (hst.trans (hset md d hp hmid))).symm
        · have hp' := h.pend
          rw [hp'] at hp
          exact (Option.some.inj (hst.trans (hset md d hp hmid))).symm
    · intro s1 s' k hf h _
      refine ⟨(revokeMeta k.md, k.data), isRevoked_revokeMeta _, ?_, h.store, ?_⟩
      · intro y k' hk'
        by_cases ha : area cfg y id = area cfg v.ctx id
        · have h1 := h.entry
          rw [cached_eq] at hk' h1
          rw [ha, h1] at hk'
          cases hk'; exact ⟨rfl, rfl⟩
        · rw [hoth h.frame (hfr hf) ha] at hk'; cases hk'
      · intro md d hp; rw [h.pend] at hp; cases hp
    · intro rc s' hrc _ h
      simp only [Resp.code.injEq] at h
      exact absurd h hrc
  · rw [e] at hok
    simp only [Resp.code.injEq] at hok
    exact absurd hok hrc

/-- The hypotheses are met by the committed global key 6. -/
example : ∃ s, Reach Demo.cfg Demo.ncfg s ∧
    KeyId.typeOf (ownId Demo.cfg Demo.one 0x0106) = KeyId.typeCrypto ∧
    s.nvm.store (ownId Demo.cfg Demo.one 0x0106) ≠ none ∧
    Coherent Demo.cfg s (ownId Demo.cfg Demo.one 0x0106) ∧
    OnlyAt Demo.cfg 0 s (ownId Demo.cfg Demo.one 0x0106) ∧
    (∀ md d, s.nvm.pending = some (md, d) → md.id = ownId Demo.cfg Demo.one 0x0106 →
      s.nvm.store (ownId Demo.cfg Demo.one 0x0106) = some (md, d)) ∧
    (handle Demo.cfg Demo.one s .ok (.revoke 0x0106)).1 = .code .ok := by
  refine ⟨Demo.after [Demo.cacheG6, Demo.commitG6, .restart false], Demo.after_reach _ (by decide +kernel),
    by decide +kernel, by decide +kernel, coherent_global (by decide +kernel) ?_,
    onlyAt_global (by decide +kernel), ?_, by decide +kernel⟩
  · intro k hk
    have : (Demo.after [Demo.cacheG6, Demo.commitG6, .restart false]).global.find
        (ownId Demo.cfg Demo.one 0x0106) = none := by decide +kernel
    rw [this] at hk; cases hk
  · intro md d h
    have : (Demo.after [Demo.cacheG6, Demo.commitG6, .restart false]).nvm.pending = none := by
      decide +kernel
    rw [this] at h; cases h

theorem enforce_revoked {md : Meta} (h : isRevoked md = true) {required : UInt16}
    (hreq : required &&& usageAny ≠ 0) : enforceUsage md.flags required ≠ .ok := by
  obtain ⟨_, h2⟩ := revoked_flags h
  unfold enforceUsage
  dsimp only
  rw [h2]
  split
  · rename_i hc
    simp only [UInt16.zero_and] at hc
    exact absurd hc.symm hreq
  · simp

/-- **C19 (use).** A revoked key is refused for every cryptographic use, and as the key that
encrypts or decrypts wrapped keys and data. -/
theorem C19_unusable (hsg : GoodCfg cfg) {s : Sys} (hs : Reach cfg ncfg s) {v : Srv}
    (hc : v.client < 16) (lock : Rc) (rid : UInt16) {md : Meta} {bs : List UInt8}
    (hty : KeyId.typeOf (ownId cfg v rid) = KeyId.typeCrypto)
    (hview : view cfg v.ctx s (ownId cfg v rid) = some (md, bs)) (hr : isRevoked md = true) :
    (∀ required outSz b, required &&& usageAny ≠ 0 →
      (handle cfg v s lock (.useKey rid required outSz)).1 ≠ .usable .ok b) ∧
    (∀ required b, required &&& usageAny ≠ 0 →
      (handle cfg v s lock (.loadKey rid required)).1 ≠ .usable .ok b) ∧
    (∀ data iv b, (handle cfg v s lock (.dataWrap rid data iv)).1 ≠ .wrapped .ok b) ∧
    (∀ blob b, (handle cfg v s lock (.dataUnwrap rid blob)).1 ≠ .data .ok b) ∧
    (∀ m key iv b, (handle cfg v s lock (.wrap rid m key iv)).1 ≠ .wrapped .ok b) ∧
    (∀ blob k, (handle cfg v s lock (.unwrapExport rid blob)).1 ≠ .unwrapped .ok k) ∧
    (∀ blob i, (handle cfg v s lock (.unwrapCache rid blob)).1 ≠ .keyId .ok i) := by
  have hw := hs.wf hsg
  have hfresh : ∀ s' k, Fresh cfg v.ctx (ownId cfg v rid) s s' k → k.md = md := by
    intro s' k h
    unfold view at hview
    rcases h with ⟨_, h⟩ | ⟨md', bs', rfl, h⟩
    · rw [h] at hview; simp at hview; exact hview.1
    · rw [h.before, h.stored] at hview; simp at hview; exact hview.1
  have hnhw : isHw cfg (ownId cfg v rid) = false := by
    simp only [isHw, hty, Bool.and_eq_false_iff]; right; decide
  have hkek : ∀ t, ∃ rc s', rc ≠ Rc.ok ∧
      resolveKek cfg v.ctx s (ownId cfg v rid) t = ((rc, []), s') := by
    intro t
    rcases resolveKek_or (F := Par.any) (cfg := cfg) (x := v.ctx) (ownId cfg v rid) t hw with
      ⟨h, _⟩ | ⟨k, s', _, h, h2, _, _⟩ | ⟨rc, s', h, _, e⟩
    · rw [hnhw] at h; cases h
    · rw [hfresh _ _ h] at h2
      exact absurd h2 (enforce_revoked hr (by decide))
    · exact ⟨rc, s', h, e⟩
  refine ⟨?_, ?_, ?_, ?_, ?_, ?_, ?_⟩
  · intro required outSz b hreq h
    rcases handle_or cfg v s lock (.useKey rid required outSz) with ⟨_, _, e⟩ | ⟨rc, _, e⟩
    · rw [e] at h
      change Resp.usable (readKeyEnforce cfg v.ctx s .ok (ownId cfg v rid) required outSz).1.1
        (readKeyEnforce cfg v.ctx s .ok (ownId cfg v rid) required outSz).1.2 = _ at h
      simp only [Resp.usable.injEq] at h
      revert h
      unfold readKeyEnforce
      dsimp only
      refine readKey_cases (P := fun r => ((match r with
        | ((.ok, some (md, bs)), s') =>
          match enforceUsage md.flags required with
          | .ok => ((Rc.ok, some bs), s')
          | rc => ((rc, some (List.replicate bs.length 0)), s')
        | ((rc, _), s') => ((rc, none), s')) : (Rc × Option (List UInt8)) × Sys).1.1 = .ok ∧ _ → False)
        hw ?_ ?_ ?_ ?_ ?_
      · intro k hk _
        have hkm : k.md = md := hfresh s k (Or.inl ⟨rfl, hk⟩)
        have hne := enforce_revoked hr hreq
        dsimp only
        rw [hkm]
        split
        · rename_i h; exact absurd h hne
        · rename_i h; intro h'; exact absurd h'.1 hne
      · intro md' bs' s' _ _ hl
        have hkm : md' = md := hfresh s' ⟨md', bs', true⟩ (Or.inr ⟨md', bs', rfl, hl⟩)
        have hne := enforce_revoked hr hreq
        dsimp only
        rw [hkm]
        split
        · rename_i h; exact absurd h hne
        · rename_i h; intro h'; exact absurd h'.1 hne
      · intro md' bs' s' _ _ h1 h2 _
        have hkm : md' = md := by
          unfold view at hview; rw [h1, h2] at hview; simp at hview; exact hview.1
        have hne := enforce_revoked hr hreq
        dsimp only
        rw [hkm]
        split
        · rename_i h; exact absurd h hne
        · rename_i h; intro h'; exact absurd h'.1 hne
      · intro s' _ h; exact absurd h (own_not_she cfg hc rid)
      · intro rc s' hrc _
        cases rc <;> first | exact absurd rfl hrc | simp
    · rw [e] at h; cases h
  · intro required b hreq h
    rcases handle_or cfg v s lock (.loadKey rid required) with ⟨_, _, e⟩ | ⟨rc, _, e⟩
    · rw [e] at h
      change Resp.usable (loadKey cfg v.ctx s (ownId cfg v rid) required).1.1
        (loadKey cfg v.ctx s (ownId cfg v rid) required).1.2 = _ at h
      simp only [Resp.usable.injEq] at h
      obtain ⟨s', k, hf, -, hu⟩ := loadKey_ok hw h.1
      rw [hfresh s' k hf] at hu
      exact enforce_revoked hr hreq hu
    · rw [e] at h; cases h
  · intro data iv b h
    rcases handle_or cfg v s lock (.dataWrap rid data iv) with ⟨_, _, e⟩ | ⟨rc, _, e⟩
    · rw [e] at h
      obtain ⟨rc, s', hrc, e'⟩ := hkek false
      simp only [act, handleDataWrap, Resp.wrapped.injEq] at h
      unfold ownId at e'
      rw [e'] at h
      split at h
      · simp at h
      · split at h
        · simp at h
        · cases rc <;> first | exact absurd rfl hrc | simp at h
    · rw [e] at h; cases h
  · intro blob b h
    rcases handle_or cfg v s lock (.dataUnwrap rid blob) with ⟨_, _, e⟩ | ⟨rc, _, e⟩
    · rw [e] at h
      obtain ⟨rc, s', hrc, e'⟩ := hkek false
      simp only [act, handleDataUnwrap, Resp.data.injEq] at h
      unfold ownId at e'
      rw [e'] at h
      split at h
      · simp at h
      · split at h
        · simp at h
        · cases rc <;> first | exact absurd rfl hrc | simp at h
    · rw [e] at h; cases h
  · intro m key iv b h
    rcases handle_or cfg v s lock (.wrap rid m key iv) with ⟨_, _, e⟩ | ⟨rc, _, e⟩
    · rw [e] at h
      obtain ⟨rc, s', hrc, e'⟩ := hkek false
      simp only [act, handleWrap, Resp.wrapped.injEq] at h
      unfold ownId at e'
      rw [e'] at h
      split at h
      · simp at h
      · split at h
        · simp at h
        · split at h
          · simp at h
          · cases rc <;> first | exact absurd rfl hrc | simp at h
    · rw [e] at h; cases h
  · intro blob k h
    rcases handle_or cfg v s lock (.unwrapExport rid blob) with ⟨_, _, e⟩ | ⟨rc, _, e⟩
    · rw [e] at h
      obtain ⟨rc, s', hrc, e'⟩ := hkek false
      simp only [act, handleUnwrapExport, unwrapKey, Resp.unwrapped.injEq] at h
      unfold ownId at e'
      rw [e'] at h
      split at h
      · simp at h
      · split at h
        · simp at h
        · cases rc <;> first | exact absurd rfl hrc | simp at h
    · rw [e] at h; cases h
  · intro blob i h
    rcases handle_or cfg v s lock (.unwrapCache rid blob) with ⟨_, _, e⟩ | ⟨rc, _, e⟩
    · rw [e] at h
      obtain ⟨rc, s', hrc, e'⟩ := hkek true
      simp only [act, handleUnwrapCache, unwrapKey, Resp.keyId.injEq] at h
      unfold ownId at e'
      rw [e'] at h
      split at h
      · simp at h
      · cases rc <;> first | exact absurd rfl hrc | simp at h
    · rw [e] at h; cases h

/-- Such a key exists. -/
example : ∃ s md, Reach Demo.cfg Demo.ncfg s ∧
    KeyId.typeOf (ownId Demo.cfg Demo.one 0x0106) = KeyId.typeCrypto ∧
    view Demo.cfg 0 s (ownId Demo.cfg Demo.one 0x0106) = some (md, [6, 6, 6]) ∧ isRevoked md = true :=
  ⟨Demo.after [Demo.cacheG6, Demo.commitG6, .key Demo.one .ok (.revoke 0x0106), .restart false],
    ⟨ownId Demo.cfg Demo.one 0x0106, 0xFFFF, Flag.nonModifiable, 3, Demo.label⟩,
    Demo.after_reach _ (by decide +kernel), by decide +kernel, by decide +kernel, by decide +kernel⟩

end

end WolfHsm.Props

import Verif.Props.KeystorePersist
import Verif.Proofs.NvmEnc

/-!
# C11 (keys), C15, C20, C21: trusted keys, non-exportable keys, usage flags, key wrapping
-/

namespace WolfHsm.Props

open Keystore
open NvmFlash (Meta Store withLen)

section

variable {cfg : Keystore.Cfg} {ncfg : NvmServer.Cfg}

/-- The requests that return a plain key held by the server. -/
def Exports (cfg : Keystore.Cfg) (v : Srv) (r : Req) (id : UInt16) : Prop :=
  match r with
  | .exportKey rid | .exportDma rid _ _ => id = ownId cfg v rid
  | _ => False

theorem judge_export_ok {f : UInt16} {c : Bool} (h : judge .exportKey f c = .ok) :
    hasFlag f Flag.trusted = false ∧ hasFlag f Flag.nonExportable = false := by
  unfold judge at h
  split at h
  · cases h
  · rename_i h1
    dsimp only at h
    split at h
    · cases h
    · rename_i h2; exact ⟨by simpa using h1, by simpa using h2⟩

/-- What the policy has checked when an export goes ahead. -/
theorem policy_export_view {x : Nat} {s : Sys} {id : UInt16}
    (h : policy cfg x s .exportKey id = .ok) :
    ∃ md bs, view cfg x s id = some (md, bs) ∧ hasFlag md.flags Flag.trusted = false ∧
      hasFlag md.flags Flag.nonExportable = false := by
  rcases policy_cases cfg x s .exportKey id with ⟨k, h1, h2⟩ | ⟨h1, md, bs, h2, h3⟩ | ⟨_, _, h3⟩ | h3 | h3
  · refine ⟨k.md, k.data, by unfold view; rw [h1], ?_⟩
    rw [h2] at h; exact judge_export_ok h
  · refine ⟨md, bs, by unfold view; rw [h1, h2], ?_⟩
    rw [h3] at h; exact judge_export_ok h
  all_goals rw [h3] at h; cases h

theorem fresh_view {x : Nat} {s s' : Sys} {id : UInt16} {k : CKey} (h : Fresh cfg x id s s' k) :
    view cfg x s id = some (k.md, k.data) := by
  unfold view
  rcases h with ⟨_, h⟩ | ⟨md, bs, rfl, h⟩
  · rw [h]
  · rw [h.before, h.stored]

/-- What `readKey` returns is what the context sees. -/
theorem readKey_view {x : Nat} {s : Sys} (hw : WF s) {id : UInt16} {outSz : Nat} {md : Meta}
    {bs : List UInt8} (hns : KeyId.typeOf id ≠ KeyId.typeShe)
    (h : (readKey cfg x s id outSz).1 = (.ok, some (md, bs))) :
    view cfg x s id = some (md, bs) := by
  revert h
  refine readKey_cases (P := fun r => r.1 = (.ok, some (md, bs)) → view cfg x s id = some (md, bs))
    hw ?_ ?_ ?_ ?_ ?_
  · intro k hk _ h
    simp only [Prod.mk.injEq, Option.some.injEq, true_and] at h
    unfold view; rw [hk, ← h.1, ← h.2]
  · intro md' bs' s' _ _ hl h
    simp only [Prod.mk.injEq, Option.some.injEq, true_and] at h
    unfold view; rw [hl.before, hl.stored, h.1, h.2]
  · intro md' bs' s' _ _ h1 h2 _ h
    simp only [Prod.mk.injEq, Option.some.injEq, true_and] at h
    unfold view; rw [h1, h2, h.1, h.2]
  · intro s' _ hty; exact absurd hty hns
  · intro rc s' hrc _ h; simp at h

theorem readKey_ok_some {x : Nat} {s : Sys} (hw : WF s) {id : UInt16} {outSz : Nat} :
    (readKey cfg x s id outSz).1 ≠ (.ok, none) := by
  refine readKey_cases (P := fun r => r.1 ≠ (.ok, none)) hw ?_ ?_ ?_ ?_ ?_
  · intro _ _ _ h; simp at h
  · intro _ _ _ _ _ _ h; simp at h
  · intro _ _ _ _ _ _ _ _ h; simp at h
  · intro _ _ _ _ _ _ h; simp at h
  · intro rc s' hrc _ h; simp only [Prod.mk.injEq, and_true] at h; exact hrc h

/-- **C10/C11/C15 (export).** A plain key in a response is one the requesting client may name,
with exactly the bytes and label the context sees, and it is neither TRUSTED nor
NONEXPORTABLE. -/
theorem C15_export_checked (hsg : GoodCfg cfg) {s : Sys} (hs : Reach cfg ncfg s) {v : Srv}
    (hc : v.client < 16) (lock : Rc) (r : Req) {label : Option (Vector UInt8 24)}
    {bytes : List UInt8} (h : (handle cfg v s lock r).1 = .key .ok label bytes) :
    ∃ id md, Exports cfg v r id ∧ Reachable cfg v.client id ∧
      view cfg v.ctx s id = some (md, bytes) ∧ label = some md.label ∧
      hasFlag md.flags Flag.trusted = false ∧ hasFlag md.flags Flag.nonExportable = false := by
  have hw := hs.wf hsg
  rcases handle_or cfg v s lock r with ⟨_, _, e⟩ | ⟨rc, _, e⟩
  · rw [e] at h
    cases r with
    | exportKey rid =>
      refine ⟨ownId cfg v rid, ?_⟩
      change keyResp (readKeyChecked cfg v.ctx s (ownId cfg v rid) (cfg.commLen - 36)).1 = _ at h
      unfold readKeyChecked at h
      split at h
      · rename_i hp
        obtain ⟨md, bs, h1, h2, h3⟩ := policy_export_view hp
        rcases hr : readKey cfg v.ctx s (ownId cfg v rid) (cfg.commLen - 36) with ⟨⟨rc, o⟩, s'⟩
        rw [hr] at h
        rcases o with _ | o
        · cases rc with
          | ok => exact absurd (by rw [hr]) (readKey_ok_some hw (cfg := cfg) (x := v.ctx)
              (id := ownId cfg v rid) (outSz := cfg.commLen - 36))
          | _ => simp [keyResp] at h
        have hrc : rc = .ok := by cases rc <;> simp [keyResp] at h; rfl
        subst hrc
        simp only [keyResp, Resp.key.injEq, true_and] at h
        have := readKey_view (md := o.1) (bs := o.2) hw (own_not_she cfg hc rid) (by rw [hr])
        rw [h1] at this
        simp only [Option.some.injEq, Prod.mk.injEq] at this
        refine ⟨md, rfl, reach_own cfg hc _ _, ?_, ?_, h2, h3⟩
        · rw [h1, this.2, ← h.2]
        · rw [← h.1, this.1]
      · rename_i hrc
        revert h hrc
        cases policy cfg v.ctx s .exportKey (ownId cfg v rid) <;> simp [keyResp]
    | exportDma rid sz dma =>
      refine ⟨ownId cfg v rid, ?_⟩
      change keyResp (exportKeyDma cfg v.ctx s (ownId cfg v rid) sz dma).1 = _ at h
      unfold exportKeyDma at h
      split at h
      · rename_i hp
        obtain ⟨md, bs, h1, h2, h3⟩ := policy_export_view hp
        rcases freshen_or (cfg := cfg) (x := v.ctx) (ownId cfg v rid) hw with ⟨k, s', e, hf⟩ | ⟨rc, s', hrc, e, hi⟩
        · rw [e] at h
          dsimp only at h
          have := fresh_view hf
          rw [h1] at this
          simp only [Option.some.injEq, Prod.mk.injEq] at this
          split at h
          · simp [keyResp] at h
          · split at h
            · simp only [keyResp, Resp.key.injEq, true_and] at h
              refine ⟨md, rfl, reach_own cfg hc _ _, ?_, ?_, h2, h3⟩
              · rw [h1, this.2, ← h.2]
              · rw [← h.1, this.1]
            · rename_i hd
              generalize dma k.md.len.toNat = rc at h hd
              cases rc <;> first | exact absurd rfl hd | simp [keyResp] at h
        · rw [e] at h
          cases rc <;> first | exact absurd rfl hrc | simp [keyResp] at h
      · rename_i hrc
        revert h hrc
        cases policy cfg v.ctx s .exportKey (ownId cfg v rid) <;> simp [keyResp]
    | _ => simp [act] at h
  · rw [e] at h; cases h

/-- Such a response exists, also by DMA. -/
example : ∃ s, Reach Demo.cfg Demo.ncfg s ∧
    (handle Demo.cfg Demo.one s .ok (.exportDma 5 100 fun _ => .ok)).1 = .key .ok (some Demo.label) [1, 2, 3] :=
  ⟨Demo.after [Demo.cache5], Demo.after_reach _ (by decide +kernel), by decide +kernel⟩

/-! ## C15 over histories -/

theorem revoke_flag (md : Meta) {m : UInt16} (h1 : m &&& usageAny = 0) (h2 : m &&& Flag.nonModifiable = 0) :
    hasFlag (revokeMeta md).flags m = hasFlag md.flags m := by
  have : (revokeMeta md).flags &&& m = md.flags &&& m := by
    show ((md.flags ||| Flag.nonModifiable) &&& ~~~usageAny) &&& m = _
    generalize usageAny = u at h1
    generalize Flag.nonModifiable = n at h2
    generalize md.flags = f
    apply UInt16.eq_of_toBitVec_eq
    apply BitVec.eq_of_getLsbD_eq
    intro i hi
    have e1 := congrArg (fun x => x.toBitVec.getLsbD i) h1
    have e2 := congrArg (fun x => x.toBitVec.getLsbD i) h2
    have e3 : (0 : UInt16).toBitVec.getLsbD i = false := by simp
    simp only [UInt16.toBitVec_and, UInt16.toBitVec_or, UInt16.toBitVec_not, BitVec.getLsbD_and,
      BitVec.getLsbD_or, BitVec.getLsbD_not, hi, e3] at e1 e2 ⊢
    revert e1 e2
    cases f.toBitVec.getLsbD i <;> cases u.toBitVec.getLsbD i <;> cases m.toBitVec.getLsbD i <;>
      cases n.toBitVec.getLsbD i <;> simp
  unfold hasFlag; rw [this]

/-- The event does not hand the server the secret bytes as an exportable key or object. -/
def Guards (cfg : Keystore.Cfg) (Sec : List UInt8 → Prop) : Ev → Prop
  | .key _ _ (.unwrapExport _ blob) => ∀ kek pt, openBlob cfg kek true blob = (.ok, pt) →
      Sec ((pt.drop 32).take (blob.length - 60)) →
      hasFlag (Meta.deser (pt.take 32)).flags Flag.nonExportable = true
  | .key _ _ r => ∀ md data, r.Brings cfg md data → Sec data → hasFlag md.flags Flag.nonExportable = true
  | .nvm _ (.add md data) => Sec data → hasFlag md.flags Flag.nonExportable = true
  | .nvm _ (.addDma _ _ _ _ md _ data) => Sec data → hasFlag md.flags Flag.nonExportable = true
  | _ => True

/-- Every copy of the secret bytes, in whichever cache or NVM object, is NONEXPORTABLE. -/
def Guarded (cfg : Keystore.Cfg) (Sec : List UInt8 → Prop) (s : Sys) : Prop :=
  (∀ y id md d, view cfg y s id = some (md, d) → Sec d → hasFlag md.flags Flag.nonExportable = true) ∧
  (∀ id md d, s.nvm.store id = some (md, d) → Sec d → hasFlag md.flags Flag.nonExportable = true) ∧
  (∀ md d, s.nvm.pending = some (md, d) → Sec d → hasFlag md.flags Flag.nonExportable = true)

/-- The profile of C15. -/
def prof15 (Sec : List UInt8 → Prop) : Prof :=
  ⟨fun k => Sec k.data → hasFlag k.md.flags Flag.nonExportable = true,
   fun n => ∀ md d, n = some (md, d) → Sec d → hasFlag md.flags Flag.nonExportable = true,
   fun md d => Sec d → hasFlag md.flags Flag.nonExportable = true⟩

theorem guarded_iff {Sec : List UInt8 → Prop} {s : Sys} :
    Guarded cfg Sec s ↔ ∀ id, Inv3 cfg (prof15 Sec) id s := by
  constructor
  · intro h id
    refine ⟨?_, fun md d hn hs => h.2.1 id md d hn hs, fun md d hp _ hs => h.2.2 md d hp hs⟩
    intro y k hk hs
    exact h.1 y id k.md k.data (by unfold view; rw [hk]) hs
  · intro h
    refine ⟨?_, fun id md d hn hs => (h id).n md d hn hs, fun md d hp hs => (h md.id).p md d hp rfl hs⟩
    intro y id md d hv hs
    unfold view at hv
    cases hk : cached cfg y s id with
    | some k =>
      rw [hk] at hv
      simp only [Option.some.injEq, Prod.mk.injEq] at hv
      have := (h id).c y k hk
      rw [← hv.1]; exact this (by rw [hv.2]; exact hs)
    | none => rw [hk] at hv; exact (h id).n md d hv hs

theorem prof15_estep {Sec : List UInt8 → Prop} {F : Par} {i : UInt16} {e e' : E}
    (hg : ∀ md d, F.gives md d → Sec d → hasFlag md.flags Flag.nonExportable = true)
    (h : EStep F i e e') (hE : Inv3E (prof15 Sec) i e) : Inv3E (prof15 Sec) i e' := by
  have hrv : ∀ md, hasFlag (revokeMeta md).flags Flag.nonExportable = hasFlag md.flags Flag.nonExportable :=
    fun md => revoke_flag md (by decide) (by decide)
  have ofC : ∀ k, e.c = some k → (prof15 Sec).N (some (k.md, k.data)) := by
    rintro k hk md d ⟨⟩ hs; exact hE.c k hk hs
  have ofR : ∀ k, e.c = some k → (prof15 Sec).N (some (revokeMeta k.md, k.data)) := by
    rintro k hk md d ⟨⟩ hs; rw [hrv]; exact hE.c k hk hs
  cases h with
  | refl => exact hE
  | quiet => exact ⟨hE.c, hE.n, by simp⟩
  | evict => exact ⟨by simp, hE.n, hE.p⟩
  | load h1 h2 => exact ⟨by rintro k ⟨⟩ hs; exact hE.n _ _ h2 hs, hE.n, hE.p⟩
  | insert _ h1 => exact ⟨by rintro k ⟨⟩ hs; exact hg _ _ h1 hs, hE.n, hE.p⟩
  | unwrap _ h1 => exact ⟨by rintro k ⟨⟩ hs; exact hg _ _ h1 hs, hE.n, hE.p⟩
  | commit _ h1 => exact ⟨by rintro k ⟨⟩; have := hE.c _ h1; exact this, ofC _ h1, by simp⟩
  | commitCut _ h1 => exact ⟨hE.c, ofC _ h1, by simp⟩
  | commitPend _ h1 => exact ⟨hE.c, hE.n, by rintro md d ⟨⟩ _ hs; exact hE.c _ h1 hs⟩
  | revoke _ h1 =>
    exact ⟨by rintro k ⟨⟩ hs; show hasFlag (revokeMeta _).flags _ = true; rw [hrv]; exact hE.c _ h1 hs,
      ofR _ h1, by simp⟩
  | revokeRam _ h1 =>
    exact ⟨by rintro k ⟨⟩ hs; show hasFlag (revokeMeta _).flags _ = true; rw [hrv]; exact hE.c _ h1 hs,
      hE.n, hE.p⟩
  | revokeFail _ _ h1 _ h5 h6 =>
    refine ⟨by rintro k ⟨⟩ hs; show hasFlag (revokeMeta _).flags _ = true; rw [hrv]; exact hE.c _ h1 hs, ?_, ?_⟩
    · rcases h5 with rfl | rfl
      · exact hE.n
      · exact ofR _ h1
    · rcases h6 with rfl | rfl | rfl
      · exact hE.p
      · simp
      · rintro md d ⟨⟩ _ hs; show hasFlag (revokeMeta _).flags _ = true; rw [hrv]; exact hE.c _ h1 hs
  | destroy => exact ⟨hE.c, by rintro md d ⟨⟩, by simp⟩

theorem sanitize_flag (f : UInt16) {m : UInt16} (h : m &&& Nvm.serverOnly = 0) :
    hasFlag (f &&& ~~~Nvm.serverOnly) m = hasFlag f m := by
  have : (f &&& ~~~Nvm.serverOnly) &&& m = f &&& m := by
    generalize Nvm.serverOnly = u at h
    apply UInt16.eq_of_toBitVec_eq
    apply BitVec.eq_of_getLsbD_eq
    intro i hi
    have e1 := congrArg (fun x => x.toBitVec.getLsbD i) h
    have e3 : (0 : UInt16).toBitVec.getLsbD i = false := by simp
    simp only [UInt16.toBitVec_and, UInt16.toBitVec_not, BitVec.getLsbD_and,
      BitVec.getLsbD_not, hi, e3] at e1 ⊢
    revert e1
    cases f.toBitVec.getLsbD i <;> cases u.toBitVec.getLsbD i <;> cases m.toBitVec.getLsbD i <;> simp
  unfold hasFlag; rw [this]

theorem prof15_step (hsg : GoodCfg cfg) {Sec : List UInt8 → Prop} {s : Sys} {e : Ev} {id : UInt16}
    (hw : WF s) (hv : e.Valid) (hg : Guards cfg Sec e)
    (h : Inv3 cfg (prof15 Sec) id s) : Inv3 cfg (prof15 Sec) id (step cfg ncfg s e).2 := by
  cases e with
  | key v lock r =>
    unfold step
    dsimp only
    split
    · refine h.trs hw (handle_trs hw hv hsg lock r) (fun _ e e' he _ _ hE => prof15_estep ?_ he hE)
      intro md d hb
      cases r with
      | unwrapExport _ _ => exact hb.elim
      | _ => exact hg md d hb
    · exact h
  | nvm lock r =>
    unfold step
    dsimp only
    split
    · refine h.nvm ncfg lock r ?_ ?_
      · intro first second data hreq hid _
        have hf : Sec data → hasFlag (Nvm.sanitize second).flags Flag.nonExportable = true := by
          intro hs
          show hasFlag (second.flags &&& ~~~Nvm.serverOnly) _ = true
          rw [sanitize_flag _ (by decide)]
          rcases hreq with ⟨rfl, rfl, _⟩ | ⟨_, _, _, _, rfl, _⟩
          · exact hg hs
          · exact hg hs
        exact ⟨by rintro md d ⟨⟩ hs; exact hf hs, hf⟩
      · intro _ _; rintro md d ⟨⟩
    · exact h
  | restart b =>
    refine h.restart hw b ?_
    intro md d _ _ hP
    rintro md' d' ⟨⟩ hs
    exact hP hs

/-- **C15 (flag kept).** If every copy of some secret bytes is NONEXPORTABLE and no client
hands the server those very bytes as an exportable key, then after every history every
copy is still NONEXPORTABLE: no request clears the flag and keeps the bytes. -/
theorem C15_flag_kept (hsg : GoodCfg cfg) {s : Sys} (hs : Reach cfg ncfg s) (Sec : List UInt8 → Prop)
    (h0 : Guarded cfg Sec s) (evs : List Ev) (hv : ∀ e ∈ evs, e.Valid ∧ Guards cfg Sec e) :
    Guarded cfg Sec (run cfg ncfg s evs) := by
  rw [guarded_iff] at h0 ⊢
  intro id
  exact run_induct hsg ncfg (I := Inv3 cfg (prof15 Sec) id) (A := Guards cfg Sec)
    (fun s e hw hI hval hA => prof15_step hsg hw hval hA hI) (hs.wf hsg) (h0 id) hv

/-- **C15.** Hence such bytes are never returned by an export, a DMA export or an
unwrap-and-export, whatever requests preceded it. -/
theorem C15_never_exported (hsg : GoodCfg cfg) {s : Sys} (hs : Reach cfg ncfg s)
    (Sec : List UInt8 → Prop) (h0 : Guarded cfg Sec s) (evs : List Ev) (e : Ev)
    (hv : ∀ e' ∈ evs ++ [e], e'.Valid ∧ Guards cfg Sec e') :
    (∀ label bytes, (step cfg ncfg (run cfg ncfg s evs) e).1 = .key (.key .ok label bytes) → ¬Sec bytes) ∧
    (∀ md bytes, (step cfg ncfg (run cfg ncfg s evs) e).1 = .key (.unwrapped .ok (some (md, bytes))) →
      ¬Sec bytes) := by
  have hgs := C15_flag_kept hsg hs Sec h0 evs fun e' he => hv e' (by simp [he])
  have hre := reach_run hs evs fun e' he => (hv e' (by simp [he])).1
  have hve := hv e (by simp)
  generalize run cfg ncfg s evs = t at hgs hre ⊢
  refine ⟨?_, ?_⟩
  · intro label bytes h hsec
    cases e with
    | key v lock r =>
      unfold step at h
      dsimp only at h
      split at h
      · split at h
        · simp only [Obs.key.injEq] at h
          obtain ⟨id, md, _, _, h1, _, _, h2⟩ := C15_export_checked hsg hre hve.1 lock r h
          have := hgs.1 _ _ _ _ h1 hsec
          rw [h2] at this; cases this
        · cases h
      · cases h
    | nvm lock r =>
      unfold step at h
      dsimp only at h
      split at h
      · split at h <;> cases h
      · cases h
    | restart b => cases h
  · intro md bytes h hsec
    cases e with
    | key v lock r =>
      unfold step at h
      dsimp only at h
      split at h
      · split at h
        · simp only [Obs.key.injEq] at h
          rcases handle_or cfg v t lock r with ⟨_, _, e⟩ | ⟨rc, _, e⟩
          · rw [e] at h
            cases r with
            | unwrapExport kekId blob =>
              simp only [act, Resp.unwrapped.injEq] at h
              unfold handleUnwrapExport at h
              split at h
              · simp at h
              · split at h
                · simp at h
                · rcases unwrapKey_or (cfg := cfg) (v := v) (s := t) kekId false blob with
                    ⟨kek, pt, _, h2, e'⟩ | ⟨rc, hrc, e'⟩
                  · rw [e'] at h
                    dsimp only at h
                    split at h
                    · simp at h
                    · split at h
                      · simp at h
                      · split at h
                        · simp at h
                        · rename_i hne
                          split at h
                          · simp at h
                          · simp only [Option.some.injEq, Prod.mk.injEq, true_and] at h
                            have := hve.2 kek pt h2 (by rw [h.2]; exact hsec)
                            exact hne this
                  · rw [e'] at h
                    cases rc <;> first | exact absurd rfl hrc | simp at h
            | _ => simp [act, keyResp] at h
                   try (split at h <;> simp at h)
          · rw [e] at h; cases h
        · cases h
      · cases h
    | nvm lock r =>
      unfold step at h
      dsimp only at h
      split at h
      · split at h <;> cases h
      · cases h
    | restart b => cases h

/-- The hypotheses are met: the bytes of the non-exportable key 7, and a client that loads,
evicts, revokes and tries to export it, also by wrapping. -/
example : ∃ evs : List Ev, Guarded Demo.cfg (· = [0x5E, 0xC2, 0xE7]) (Demo.after []) ∧
    (∀ e ∈ evs, e.Valid ∧ Guards Demo.cfg (· = [0x5E, 0xC2, 0xE7]) e) ∧ evs.length = 5 ∧
    cached Demo.cfg 0 (Demo.after evs) Demo.secretMd.id ≠ none := by
  refine ⟨[.key Demo.one .ok (.useKey 7 Flag.usageSign 100), .key Demo.one .ok (.evict 7),
    .key Demo.one .ok (.revoke 7), .key Demo.one .ok (.exportKey 7),
    .key Demo.one .ok (.wrapExport true 0x0109 1 7 (.ok []))], ?_, ?_, rfl, by decide +kernel⟩
  · have hst : ∀ id md d, (Demo.after []).nvm.store id = some (md, d) → d = [0x5E, 0xC2, 0xE7] →
        hasFlag md.flags Flag.nonExportable = true := by
      intro id md d h hd
      change Demo.store id = _ at h
      unfold Demo.store at h
      split at h
      · cases h; cases hd
      · split at h
        · cases h; decide
        · split at h
          · cases h; cases hd
          · cases h
    exact ⟨fun y id md d h => hst id md d (by
      rw [Demo.boot_view] at h; exact h), hst, fun _ _ h => by cases h⟩
  · intro e he
    simp only [List.mem_cons, List.not_mem_nil, or_false] at he
    rcases he with rfl | rfl | rfl | rfl | rfl <;> exact ⟨by decide, fun _ _ h => h.elim⟩

/-! ## C11: trusted keys -/

/-- The profile of "trusted copies are provisioned ones". -/
def prof11 (T : Meta → List UInt8 → Prop) : Prof :=
  ⟨fun k => hasFlag k.md.flags Flag.trusted = true → T k.md k.data,
   fun n => ∀ md d, n = some (md, d) → hasFlag md.flags Flag.trusted = true → T md d,
   fun md _ => hasFlag md.flags Flag.trusted = false⟩

theorem prof11_estep {T : Meta → List UInt8 → Prop} {F : Par} {i : UInt16} {e e' : E}
    (h : EStep F i e e') (hE : Inv3E (prof11 T) i e) : Inv3E (prof11 T) i e' := by
  have hrv : ∀ md, hasFlag (revokeMeta md).flags Flag.trusted = hasFlag md.flags Flag.trusted :=
    fun md => revoke_flag md (by decide) (by decide)
  have off : ∀ {md : Meta} {d}, Untrusted md → (prof11 T).N (some (md, d)) := by
    rintro md d h0 md' d' ⟨⟩ h1; rw [h0] at h1; cases h1
  have offC : ∀ {k : CKey}, Untrusted k.md → (prof11 T).C k := by
    intro k h0 h1; rw [h0] at h1; cases h1
  have offR : ∀ {md : Meta}, Untrusted md → Untrusted (revokeMeta md) := fun h0 => (hrv _).trans h0
  cases h with
  | refl => exact hE
  | quiet => exact ⟨hE.c, hE.n, by simp⟩
  | evict => exact ⟨by simp, hE.n, hE.p⟩
  | load h1 h2 => exact ⟨by rintro k ⟨⟩ ht; exact hE.n _ _ h2 ht, hE.n, hE.p⟩
  | insert _ _ _ ht => exact ⟨by rintro k ⟨⟩; exact offC ht, hE.n, hE.p⟩
  | unwrap _ _ _ ht => exact ⟨by rintro k ⟨⟩; exact offC ht, hE.n, hE.p⟩
  | commit _ _ ht => exact ⟨by rintro k ⟨⟩; exact offC ht, off ht, by simp⟩
  | commitCut _ _ ht => exact ⟨hE.c, off ht, by simp⟩
  | commitPend _ _ ht => exact ⟨hE.c, hE.n, by rintro md d ⟨⟩ _; exact ht⟩
  | revoke _ _ ht => exact ⟨by rintro k ⟨⟩; exact offC (offR ht), off (offR ht), by simp⟩
  | revokeRam _ _ ht => exact ⟨by rintro k ⟨⟩; exact offC (offR ht), hE.n, hE.p⟩
  | revokeFail _ _ _ ht h5 h6 =>
    refine ⟨by rintro k ⟨⟩; exact offC (offR ht), ?_, ?_⟩
    · rcases h5 with rfl | rfl
      · exact hE.n
      · exact off (offR ht)
    · rcases h6 with rfl | rfl | rfl
      · exact hE.p
      · simp
      · rintro md d ⟨⟩ _; exact offR ht
  | destroy => exact ⟨hE.c, by rintro md d ⟨⟩, by simp⟩

theorem prof11_step (hsg : GoodCfg cfg) {T : Meta → List UInt8 → Prop} {s : Sys} {e : Ev} {id : UInt16}
    (hw : WF s) (hv : e.Valid)
    (h : Inv3 cfg (prof11 T) id s) : Inv3 cfg (prof11 T) id (step cfg ncfg s e).2 := by
  cases e with
  | key v lock r =>
    unfold step
    dsimp only
    split
    · exact h.trs hw (handle_trs hw hv hsg lock r) (fun _ e e' he _ _ hE => prof11_estep he hE)
    · exact h
  | nvm lock r =>
    unfold step
    dsimp only
    split
    · refine h.nvm ncfg lock r ?_ ?_
      · intro first second data hreq hid _
        have ht := Nvm.sanitize_not_trusted second
        exact ⟨by rintro md d ⟨⟩ h1; exact absurd (ht.symm.trans h1) (by decide), ht⟩
      · intro _ _; rintro md d ⟨⟩
    · exact h
  | restart b =>
    refine h.restart hw b ?_
    intro md d _ _ hP
    rintro md' d' ⟨⟩ h1
    have : hasFlag md.flags Flag.trusted = true := h1
    exact absurd (Eq.trans (Eq.symm hP) this) (by decide)

/-- **C11 (keys).** Whatever key and NVM requests, NVM failures and restarts follow, every key
that any context sees with the TRUSTED flag, and every TRUSTED object in the NVM, was there
under the same id, with the same bytes and metadata, before: clients cannot make one. -/
theorem C11_no_new_trusted_key (hsg : GoodCfg cfg) {s : Sys} (hs : Reach cfg ncfg s)
    (hp : ∀ md d, s.nvm.pending = some (md, d) → hasFlag md.flags Flag.trusted = false)
    (evs : List Ev) (hv : ∀ e ∈ evs, e.Valid) (y : Nat) (id : UInt16) (md : Meta) (bs : List UInt8)
    (h : view cfg y (run cfg ncfg s evs) id = some (md, bs) ∨
      (run cfg ncfg s evs).nvm.store id = some (md, bs))
    (ht : hasFlag md.flags Flag.trusted = true) :
    (∃ y, view cfg y s id = some (md, bs)) ∨ s.nvm.store id = some (md, bs) := by
  let T : Meta → List UInt8 → Prop := fun md bs =>
    (∃ y, view cfg y s id = some (md, bs)) ∨ s.nvm.store id = some (md, bs)
  have hfin : Inv3 cfg (prof11 T) id (run cfg ncfg s evs) := by
    refine run_induct hsg ncfg (I := Inv3 cfg (prof11 T) id) (A := fun _ => True)
      (fun s e hw hI hval _ => prof11_step hsg hw hval hI) (hs.wf hsg) ?_
      fun e he => ⟨hv e he, trivial⟩
    refine ⟨?_, fun md d hn _ => Or.inr hn, fun md d h _ => hp md d h⟩
    intro y k hk _
    exact Or.inl ⟨y, by unfold view; rw [hk]⟩
  rcases h with h | h
  · unfold view at h
    cases hk : cached cfg y (run cfg ncfg s evs) id with
    | some k =>
      rw [hk] at h
      simp only [Option.some.injEq, Prod.mk.injEq] at h
      obtain ⟨rfl, rfl⟩ := h
      exact hfin.c y k hk ht
    | none => rw [hk] at h; exact hfin.n md bs h ht
  · exact hfin.n md bs h ht

/-- The hypotheses are met after a client used the trusted key. -/
example : ∃ evs : List Ev, (∀ e ∈ evs, e.Valid) ∧ (Demo.after []).nvm.pending = none ∧
    view Demo.cfg 1 (Demo.after evs) Demo.kekId = some (Demo.kekMd, [1, 2, 3, 4]) ∧
    hasFlag Demo.kekMd.flags Flag.trusted = true ∧ evs.length = 2 :=
  ⟨[Demo.cache5, .key Demo.two .ok (.dataWrap 0x0109 [1] (.ok []))], by decide +kernel, rfl,
    by decide +kernel, by decide, rfl⟩

/-- The profile of "the provisioned key `o` is what is stored and cached". -/
def prof11c (o : Meta × List UInt8) : Prof :=
  ⟨fun k => (k.md, k.data) = o, fun n => n = some o, fun _ _ => False⟩

theorem prof11c_estep {F : Par} {o : Meta × List UInt8} {i : UInt16} {e e' : E}
    (ho : hasFlag o.1.flags Flag.trusted = true)
    (hty : KeyId.typeOf i ≠ KeyId.typeWrapped ∧ KeyId.typeOf i ≠ KeyId.typeShe)
    (h : EStep F i e e') (hE : Inv3E (prof11c o) i e) : Inv3E (prof11c o) i e' := by
  have hn : e.n = some (o.1, o.2) := hE.n
  have hcc : ∀ {k}, e.c = some k → ¬ Untrusted k.md := by
    intro k hk h
    have : (k.md, k.data) = o := hE.c k hk
    subst this; rw [h] at ho; cases ho
  cases h with
  | refl => exact hE
  | quiet => exact ⟨hE.c, hE.n, by simp⟩
  | evict => exact ⟨by simp, hE.n, hE.p⟩
  | load h1 h2 =>
    rw [hn] at h2; cases h2
    exact ⟨by rintro k ⟨⟩; rfl, hE.n, hE.p⟩
  | insert _ _ _ _ _ hm =>
    exfalso
    unfold MayCache at hm
    cases hc : e.c with
    | some k => rw [hc] at hm; exact hcc hc hm.1
    | none => rw [hc, hn] at hm; rw [hm.1] at ho; cases ho
  | unwrap _ _ _ _ _ _ h => exact absurd h (by simp [hty.1, hty.2])
  | commit _ hc ht => exact absurd ht (hcc hc)
  | commitCut _ hc ht => exact absurd ht (hcc hc)
  | commitPend _ hc ht => exact absurd ht (hcc hc)
  | revoke _ hc ht => exact absurd ht (hcc hc)
  | revokeRam _ hc ht => exact absurd ht (hcc hc)
  | revokeFail _ _ hc ht => exact absurd ht (hcc hc)
  | destroy _ _ h1 => have := (h1 o.1 o.2 hn).1; rw [this] at ho; cases ho

theorem prof11c_step (hsg : GoodCfg cfg) {s : Sys} {e : Ev} {o : Meta × List UInt8} {id : UInt16}
    (ho : hasFlag o.1.flags Flag.trusted = true)
    (hty : KeyId.typeOf id ≠ KeyId.typeWrapped ∧ KeyId.typeOf id ≠ KeyId.typeShe)
    (hw : WF s) (hv : e.Valid) (hst : StableEv e)
    (h : Inv3 cfg (prof11c o) id s) : Inv3 cfg (prof11c o) id (step cfg ncfg s e).2 := by
  have hn : s.nvm.store id = some (o.1, o.2) := h.n
  cases e with
  | key v lock r =>
    unfold step
    dsimp only
    split
    · exact h.trs hw (handle_trs hw hv hsg lock r) (fun _ e e' he _ _ hE => prof11c_estep ho hty he hE)
    · exact h
  | nvm lock r =>
    unfold step
    dsimp only
    split
    · refine h.nvm ncfg lock r ?_ ?_
      · intro first second data hreq hid hpass
        exfalso
        have heq : first = second := by
          rcases hreq with ⟨_, rfl, _⟩ | ⟨_, _, _, _, rfl, _⟩
          · rfl
          · exact hst
        subst heq
        rw [hid, Nvm.policy_add_refuses hn (Or.inr ho)] at hpass
        simp [Nvm.passes] at hpass
      · intro hi hall
        exact absurd hall (Nvm.checkAll_refuses (Nvm.policy_destroy_refuses hn (Or.inr (Or.inr ho))) _ hi)
    · exact h
  | restart b =>
    refine h.restart hw b ?_
    intro md d _ _ hP
    exact hP.elim

/-- **C11 (keys).** A TRUSTED key provisioned in the NVM is what every context sees and what the
NVM holds after every history of client key and NVM requests, NVM failures and restarts:
it is neither changed, nor replaced, nor destroyed.  (Ids of a type that a client can name
in a key request: SHE keys can also come from a wrapped blob.  A trusted key that is only
cached is not protected, see `F_evict_option_drops_trusted`.) -/
theorem C11_trusted_key_constant (hsg : GoodCfg cfg) {s : Sys} (hs : Reach cfg ncfg s) (id : UInt16)
    (hty : KeyId.typeOf id ≠ KeyId.typeWrapped ∧ KeyId.typeOf id ≠ KeyId.typeShe)
    (md : Meta) (bs : List UInt8) (ht : hasFlag md.flags Flag.trusted = true)
    (hstore : s.nvm.store id = some (md, bs)) (hview : ∀ y, view cfg y s id = some (md, bs))
    (hset : NvmServer.Settled s.nvm id)
    (evs : List Ev) (hv : ∀ e ∈ evs, e.Valid ∧ StableEv e) :
    (run cfg ncfg s evs).nvm.store id = some (md, bs) ∧
      ∀ y, view cfg y (run cfg ncfg s evs) id = some (md, bs) := by
  have hfin : Inv3 cfg (prof11c (md, bs)) id (run cfg ncfg s evs) := by
    refine run_induct hsg ncfg (I := Inv3 cfg (prof11c (md, bs)) id) (A := StableEv)
      (fun s e hw hI hval hA => prof11c_step hsg ht hty hw hval hA hI) (hs.wf hsg) ?_ hv
    refine ⟨?_, hstore, fun md' d h hid => absurd hid (hset md' d h)⟩
    intro y k hk
    have := hview y
    unfold view at this
    rw [hk] at this
    exact Option.some.inj this
  refine ⟨hfin.n, fun y => ?_⟩
  have hn : (run cfg ncfg s evs).nvm.store id = some (md, bs) := hfin.n
  unfold view
  cases hk : cached cfg y (run cfg ncfg s evs) id with
  | some k => exact congrArg some (hfin.c y k hk)
  | none => exact hn

/-- The hypotheses are met by the provisioned key and clients that try to get rid of it. -/
example : ∃ evs : List Ev, KeyId.typeOf Demo.kekId = KeyId.typeCrypto ∧
    (Demo.after []).nvm.store Demo.kekId = some (Demo.kekMd, [1, 2, 3, 4]) ∧
    (∀ y, view Demo.cfg y (Demo.after []) Demo.kekId = some (Demo.kekMd, [1, 2, 3, 4])) ∧
    NvmServer.Settled (Demo.after []).nvm Demo.kekId ∧
    (∀ e ∈ evs, e.Valid ∧ StableEv e) ∧ evs.length = 5 := by
  refine ⟨[.key Demo.one .ok (.erase 0x0109), .key Demo.one .ok (.cache 0x0109 0 Demo.label [1]),
    .key Demo.one .ok (.evictOption 0x0109), .key Demo.one .ok (.revoke 0x0109), .restart true],
    by decide, by decide +kernel, fun y => Demo.boot_view y _, fun _ _ h => (by cases h), ?_, rfl⟩
  intro e he
  simp only [List.mem_cons, List.not_mem_nil, or_false] at he
  rcases he with rfl | rfl | rfl | rfl | rfl <;> exact ⟨by decide, trivial⟩

/-! ## C20: usage flags -/

theorem usage_mask (f r : UInt16) : (f &&& usageAny) &&& (r &&& usageAny) = f &&& (r &&& usageAny) := by
  generalize usageAny = u
  apply UInt16.eq_of_toBitVec_eq
  apply BitVec.eq_of_getLsbD_eq
  intro i hi
  simp only [UInt16.toBitVec_and, BitVec.getLsbD_and]
  cases f.toBitVec.getLsbD i <;> cases u.toBitVec.getLsbD i <;> simp

/-- **C20.** When a crypto request's key lookup lets it go on, the key is the one the context
sees under the id, its flags carry every usage the operation requires, and the buffer holds
exactly that key.  When it does not, the buffer holds no key byte. -/
theorem C20_usage_enforced (hsg : GoodCfg cfg) {s : Sys} (hs : Reach cfg ncfg s) {v : Srv}
    (hc : v.client < 16) (lock : Rc) (rid required : UInt16) (outSz : Nat) {rc : Rc}
    {buffer : Option (List UInt8)}
    (h : (handle cfg v s lock (.useKey rid required outSz)).1 = .usable rc buffer) :
    (rc = .ok → ∃ md bs, view cfg v.ctx s (ownId cfg v rid) = some (md, bs) ∧ buffer = some bs ∧
      md.flags &&& (required &&& usageAny) = required &&& usageAny) ∧
    (rc ≠ .ok → ∀ l, buffer = some l → ∀ b ∈ l, b = 0) := by
  have hw := hs.wf hsg
  rcases handle_or cfg v s lock (.useKey rid required outSz) with ⟨_, _, e⟩ | ⟨rc, _, e⟩
  · rw [e] at h
    simp only [act, Resp.usable.injEq] at h
    change (readKeyEnforce cfg v.ctx s .ok (ownId cfg v rid) required outSz).1.1 = rc ∧
      (readKeyEnforce cfg v.ctx s .ok (ownId cfg v rid) required outSz).1.2 = buffer at h
    unfold readKeyEnforce at h
    dsimp only at h
    rcases hr : readKey cfg v.ctx s (ownId cfg v rid) outSz with ⟨⟨rc', o⟩, s'⟩
    rw [hr] at h
    by_cases hok : rc' = .ok
    · subst hok
      rcases o with _ | ⟨md, bs⟩
      · exact absurd (by rw [hr]) (readKey_ok_some hw (cfg := cfg) (x := v.ctx)
          (id := ownId cfg v rid) (outSz := outSz))
      · have hview := readKey_view (md := md) (bs := bs) hw (own_not_she cfg hc rid) (by rw [hr])
        dsimp only at h
        by_cases hu : enforceUsage md.flags required = .ok
        · rw [hu] at h
          obtain ⟨rfl, rfl⟩ := h
          refine ⟨fun _ => ⟨md, bs, hview, rfl, ?_⟩, fun h => absurd rfl h⟩
          unfold enforceUsage at hu
          dsimp only at hu
          split at hu
          · rename_i h1; rw [usage_mask] at h1; exact h1
          · cases hu
        · have hu' : enforceUsage md.flags required = .usage := by
            unfold enforceUsage at hu ⊢
            dsimp only at hu ⊢
            split
            · rename_i h1; simp [h1] at hu
            · rfl
          rw [hu'] at h
          obtain ⟨rfl, rfl⟩ := h
          refine ⟨by simp, fun _ l hl b hb => ?_⟩
          simp only [Option.some.injEq] at hl
          rw [← hl] at hb
          exact (List.mem_replicate.1 hb).2
    · have : rc = rc' ∧ buffer = none := by
        revert h
        cases rc' <;> first | exact absurd rfl hok | (rintro ⟨rfl, rfl⟩; exact ⟨rfl, rfl⟩)
      obtain ⟨rfl, rfl⟩ := this
      exact ⟨fun h => absurd h hok, fun _ l hl => by cases hl⟩
  · rw [e] at h; cases h

/-- **C20 (keys used in place).** The same for a key that is decoded where it lies in the cache. -/
theorem C20_load_enforced (hsg : GoodCfg cfg) {s : Sys} (hs : Reach cfg ncfg s) {v : Srv}
    (lock : Rc) (rid required : UInt16) {rc : Rc} {buffer : Option (List UInt8)}
    (h : (handle cfg v s lock (.loadKey rid required)).1 = .usable rc buffer) :
    (rc = .ok → ∃ md bs, view cfg v.ctx s (ownId cfg v rid) = some (md, bs) ∧ buffer = some bs ∧
      md.flags &&& (required &&& usageAny) = required &&& usageAny) ∧
    (rc ≠ .ok → buffer = none) := by
  have hw := hs.wf hsg
  rcases handle_or cfg v s lock (.loadKey rid required) with ⟨_, _, e⟩ | ⟨rc, _, e⟩
  · rw [e] at h
    change Resp.usable (loadKey cfg v.ctx s (ownId cfg v rid) required).1.1
      (loadKey cfg v.ctx s (ownId cfg v rid) required).1.2 = _ at h
    simp only [Resp.usable.injEq] at h
    obtain ⟨rfl, rfl⟩ := h
    constructor
    · intro hok
      obtain ⟨s', k, hf, hb, hu⟩ := loadKey_ok hw hok
      refine ⟨k.md, k.data, ?_, hb, ?_⟩
      · unfold view
        rcases hf with ⟨_, h⟩ | ⟨md', bs', rfl, h⟩
        · rw [h]
        · rw [h.before, h.stored]
      · unfold enforceUsage at hu
        dsimp only at hu
        split at hu
        · rename_i h1; rw [usage_mask] at h1; exact h1
        · cases hu
    · intro hne
      unfold loadKey at hne ⊢
      split
      · rename_i e
        simp only [e] at hne
        split
        · rename_i hu; simp [hu] at hne
        · rfl
      · rfl
  · rw [e] at h; cases h

/-- Both outcomes occur for the same key. -/
example : ∃ s, Reach Demo.cfg Demo.ncfg s ∧
    (handle Demo.cfg Demo.one s .ok (.loadKey 5 Flag.usageEncrypt)).1 = .usable .ok (some [1, 2, 3]) ∧
    (handle Demo.cfg Demo.one s .ok (.loadKey 5 Flag.usageSign)).1 = .usable .usage none :=
  ⟨Demo.after [Demo.cache5], Demo.after_reach _ (by decide +kernel), by decide +kernel, by decide +kernel⟩

/-- Both outcomes occur for the same key. -/
example : ∃ s, Reach Demo.cfg Demo.ncfg s ∧
    (handle Demo.cfg Demo.one s .ok (.useKey 5 Flag.usageEncrypt 64)).1 = .usable .ok (some [1, 2, 3]) ∧
    (handle Demo.cfg Demo.one s .ok (.useKey 5 Flag.usageSign 64)).1 = .usable .usage (some [0, 0, 0]) :=
  ⟨Demo.after [Demo.cache5], Demo.after_reach _ (by decide +kernel), by decide +kernel, by decide +kernel⟩

/-! ## C21: key wrapping -/

/-- `kek` is the key-encryption key a client names by `kekId`: a hardware-only key, or a key the
context sees whose flags allow wrapping, and which is TRUSTED if `trusted` asks for that. -/
def KekFor (cfg : Keystore.Cfg) (v : Srv) (s : Sys) (kekId : UInt16) (trusted : Bool)
    (kek : List UInt8) : Prop :=
  (isHw cfg (ownId cfg v kekId) = true ∧ cfg.hwKey (ownId cfg v kekId) = (.ok, kek)) ∨
  ∃ md, view cfg v.ctx s (ownId cfg v kekId) = some (md, kek) ∧
    hasFlag md.flags Flag.usageWrap = true ∧
    (trusted = true → hasFlag md.flags Flag.trusted = true)

/-- What a correct authenticated encryption gives. -/
structure AeadOk (a : Aead) : Prop where
  open_enc : ∀ {k d iv pt ct tag}, a.enc k d iv pt = some (ct, tag) → a.dec k d iv ct tag = some pt
  lengths : ∀ {k d iv pt ct tag}, a.enc k d iv pt = some (ct, tag) →
    ct.length = pt.length ∧ tag.length = 16

theorem _root_.WolfHsm.Keystore.Demo.aead_ok : AeadOk Demo.cfg.aead := by
  constructor
  · intro k d iv pt ct tag h
    change some (pt, Demo.tag k d) = _ at h
    cases h
    show (if _ then _ else _) = _
    rw [if_pos rfl]
  · intro k d iv pt ct tag h
    change some (pt, Demo.tag k d) = _ at h
    cases h
    exact ⟨rfl, by simp [Demo.tag]⟩

theorem usage_has {f m : UInt16} (h : enforceUsage f m = .ok) (hm : m &&& usageAny = m) (h0 : m ≠ 0) :
    hasFlag f m = true := by
  unfold enforceUsage at h
  dsimp only at h
  split at h
  · rename_i h1
    rw [usage_mask, hm] at h1
    unfold hasFlag
    rw [h1]
    simpa using h0
  · cases h

theorem resolve_kekFor {v : Srv} {s : Sys} (hw : WF s) {kekId : UInt16} {trusted : Bool}
    {kek : List UInt8} (h : (resolveKek cfg v.ctx s (ownId cfg v kekId) trusted).1 = (.ok, kek)) :
    KekFor cfg v s kekId trusted kek := by
  rcases resolveKek_or (F := Par.any) (cfg := cfg) (x := v.ctx) (ownId cfg v kekId) trusted hw with
    ⟨h1, e⟩ | ⟨k, s', h1, h2, h3, h4, e⟩ | ⟨rc, s', hrc, _, e⟩
  · rw [e] at h; exact Or.inl ⟨h1, h⟩
  · rw [e] at h
    simp only [Prod.mk.injEq, true_and] at h
    subst h
    exact Or.inr ⟨k.md, fresh_view h2, usage_has h3 (by decide) (by decide), h4⟩
  · rw [e] at h
    simp only [Prod.mk.injEq] at h
    exact absurd h.1 hrc

theorem kekFor_unique {v : Srv} {s : Sys} {kekId : UInt16} {t t' : Bool} {kek kek' : List UInt8}
    (hh : isHw cfg (ownId cfg v kekId) = false)
    (h : KekFor cfg v s kekId t kek) (h' : KekFor cfg v s kekId t' kek') : kek = kek' := by
  rcases h with ⟨h1, _⟩ | ⟨md, h1, _⟩
  · rw [hh] at h1; cases h1
  · rcases h' with ⟨h2, _⟩ | ⟨md', h2, _⟩
    · rw [hh] at h2; cases h2
    · rw [h1] at h2
      simp only [Option.some.injEq, Prod.mk.injEq] at h2
      exact h2.2

theorem seal_open (ha : AeadOk cfg.aead) {kek iv pt blob : List UInt8} {d : Bool}
    (hiv : iv.length = 12) (h : sealBlob cfg kek d (.ok iv) pt = (.ok, blob)) :
    openBlob cfg kek d blob = (.ok, pt) ∧ blob.length = 28 + pt.length := by
  unfold sealBlob at h
  dsimp only at h
  split at h
  · rename_i ct tag he
    simp only [Prod.mk.injEq, true_and] at h
    obtain ⟨hct, htag⟩ := ha.lengths he
    have e1 : blob.take 12 = iv := by rw [← h, List.append_assoc, ← hiv, List.take_left]
    have e2 : (blob.drop 12).take 16 = tag := by
      rw [← h, List.append_assoc, ← hiv, List.drop_left, ← htag, List.take_left]
    have e3 : blob.drop 28 = ct := by
      have : (iv ++ tag).length = 28 := by simp [hiv, htag]
      rw [← h, ← this, List.drop_left]
    refine ⟨?_, by rw [← h]; simp [hiv, htag, hct]; omega⟩
    unfold openBlob
    rw [e1, e2, e3, ha.open_enc he]
  · cases h

/-- **C21 (contents).** A blob a client gets by wrapping its own key opens, under the key-encryption
key it named, to exactly the metadata and bytes it gave. -/
theorem C21_wrap_content (hsg : GoodCfg cfg) (ha : AeadOk cfg.aead) {s : Sys}
    (hs : Reach cfg ncfg s) (v : Srv) (lock : Rc) (kekId : UInt16) (md : Meta)
    (key iv blob : List UInt8) (hiv : iv.length = 12)
    (h : (handle cfg v s lock (.wrap kekId md key (.ok iv))).1 = .wrapped .ok blob) :
    ∃ kek, KekFor cfg v s kekId false kek ∧ openBlob cfg kek true blob = (.ok, md.ser ++ key) ∧
      blob.length = 60 + key.length ∧ key.length ≤ cfg.maxWrapKey ∧
      KeyId.typeOf md.id = KeyId.typeWrapped := by
  have hw := hs.wf hsg
  rcases handle_or cfg v s lock (.wrap kekId md key (.ok iv)) with ⟨_, _, e⟩ | ⟨rc, _, e⟩
  · rw [e] at h
    simp only [act, Resp.wrapped.injEq] at h
    change (handleWrap cfg v s kekId md key (.ok iv)).1.1 = _ ∧
      (handleWrap cfg v s kekId md key (.ok iv)).1.2 = _ at h
    unfold handleWrap at h
    split at h
    · simp at h
    · split at h
      · simp at h
      · split at h
        · simp at h
        · rename_i h1 h2 _
          rcases hr : resolveKek cfg v.ctx s (ownId cfg v kekId) false with ⟨⟨rc, kek⟩, s'⟩
          unfold ownId at hr
          rw [hr] at h
          by_cases hrc : rc = .ok
          · subst hrc
            dsimp only at h
            have hk := resolve_kekFor (v := v) (kekId := kekId) hw (by unfold ownId; rw [hr])
            obtain ⟨h3, h4⟩ := seal_open ha hiv (Prod.ext h.1 h.2)
            refine ⟨kek, hk, h3, ?_, by omega, by simpa using h2⟩
            rw [h4]; simp only [List.length_append, NvmFlash.ser_length]; omega
          · cases rc <;> first | exact absurd rfl hrc | simp at h
  · rw [e] at h; cases h

/-- Flags are single bits. -/
theorem flag_bit {f m : UInt16} (hm : ∃ i : Fin 16, m = 1 <<< i.val.toUInt16) (h : hasFlag f m = true) :
    f &&& m = m := by
  have hne : f &&& m ≠ 0 := by unfold hasFlag at h; simpa using h
  obtain ⟨i, rfl⟩ := hm
  have hb : ∀ j, j < 16 → ((1 : UInt16) <<< i.val.toUInt16).toBitVec.getLsbD j = decide (j = i.val) := by
    clear h hne; revert i; decide
  by_cases hi : f.toBitVec.getLsbD i.val = true
  · apply UInt16.eq_of_toBitVec_eq
    apply BitVec.eq_of_getLsbD_eq
    intro j hj
    rw [UInt16.toBitVec_and, BitVec.getLsbD_and, hb j hj]
    by_cases hji : j = i.val
    · rw [hji, hi]; rfl
    · simp [hji]
  · refine absurd ?_ hne
    apply UInt16.eq_of_toBitVec_eq
    apply BitVec.eq_of_getLsbD_eq
    intro j hj
    rw [UInt16.toBitVec_and, BitVec.getLsbD_and, hb j hj]
    by_cases hji : j = i.val
    · rw [hji, Bool.not_eq_true _ |>.mp hi]; simp
    · simp [hji]

theorem resolve_cached {v : Srv} {s : Sys} {kekId : UInt16} {k : CKey} (trusted : Bool)
    (hu : KeyId.isUnassigned (ownId cfg v kekId) = false) (hh : isHw cfg (ownId cfg v kekId) = false)
    (hk : cached cfg v.ctx s (ownId cfg v kekId) = some k)
    (hf : hasFlag k.md.flags Flag.usageWrap = true)
    (ht : trusted = true → hasFlag k.md.flags Flag.trusted = true) :
    resolveKek cfg v.ctx s (ownId cfg v kekId) trusted = ((.ok, k.data), s) := by
  have hen : enforceUsage k.md.flags Flag.usageWrap = .ok := by
    unfold enforceUsage
    dsimp only
    rw [usage_mask]
    split
    · rfl
    · rename_i h1
      refine absurd ?_ h1
      have h2 : Flag.usageWrap &&& usageAny = Flag.usageWrap := by decide
      rw [h2]
      exact flag_bit (by decide) hf
  unfold resolveKek freshen
  simp only [hh, hu, hk]
  simp only [Bool.false_eq_true, if_false]
  rw [hen]
  cases trusted
  · simp
  · simp [ht rfl]

/-- **C21 (round trip, client key).** Wrapping a key and unwrapping the blob later, at any context
that has a key-encryption key of the same bytes, returns the same metadata and bytes. -/
theorem C21_roundtrip (hsg : GoodCfg cfg) (ha : AeadOk cfg.aead) {s s' : Sys}
    (hs : Reach cfg ncfg s) (v v' : Srv) (lock : Rc) (kekId kekId' : UInt16) (md : Meta)
    (key iv blob : List UInt8) (hiv : iv.length = 12)
    (h : (handle cfg v s lock (.wrap kekId md key (.ok iv))).1 = .wrapped .ok blob)
    (hh : isHw cfg (ownId cfg v kekId) = false)
    (kmd : Meta) (k' : CKey) (hview : view cfg v.ctx s (ownId cfg v kekId) = some (kmd, k'.data))
    (hu' : KeyId.isUnassigned (ownId cfg v' kekId') = false)
    (hh' : isHw cfg (ownId cfg v' kekId') = false)
    (hk' : cached cfg v'.ctx s' (ownId cfg v' kekId') = some k')
    (hf' : hasFlag k'.md.flags Flag.usageWrap = true)
    (hid : KeyId.isUnassigned md.id = false)
    (hown : KeyId.userOf md.id = v'.client ∨ cfg.ids.globalKeys = true ∧ KeyId.userOf md.id = 0)
    (hexp : hasFlag md.flags Flag.nonExportable = false)
    (hfit : 32 + key.length ≤ cfg.commLen - 8) :
    (handle cfg v' s' .ok (.unwrapExport kekId' blob)).1 = .unwrapped .ok (some (md, key)) := by
  obtain ⟨kek, hkf, hopen, hlen, hmax, hty⟩ := C21_wrap_content hsg ha hs v lock kekId md key iv blob hiv h
  have hke : kek = k'.data := by
    rcases hkf with ⟨h1, _⟩ | ⟨md', h1, _⟩
    · rw [hh] at h1; cases h1
    · rw [hview] at h1
      simp only [Option.some.injEq, Prod.mk.injEq] at h1
      exact h1.2.symm
  subst hke
  have hr := resolve_cached (cfg := cfg) (v := v') false hu' hh' hk' hf' (by simp)
  unfold ownId at hr
  have howner : ownerOk cfg v'.client (KeyId.userOf md.id) = true := by
    unfold ownerOk
    rcases hown with h | ⟨h1, h2⟩
    · simp [h]
    · simp [h1, h2, KeyId.userGlobal]
  have h1 : (md.ser ++ key).take 32 = md.ser := by
    rw [← NvmFlash.ser_length md, List.take_left]
  have h2 : ((md.ser ++ key).drop 32).take (blob.length - 60) = key := by
    rw [← NvmFlash.ser_length md, List.drop_left, hlen]
    simp
  show Resp.unwrapped (handleUnwrapExport cfg v' s' kekId' blob).1.1
    (handleUnwrapExport cfg v' s' kekId' blob).1.2 = _
  unfold handleUnwrapExport unwrapKey
  have a1 : ¬ blob.length < 60 := by omega
  have a2 : ¬ cfg.commLen - 8 < blob.length - 28 := by omega
  have a3 : ¬ blob.length - 60 > cfg.maxWrapKey := by omega
  rw [if_neg a1, if_neg a2, hr]
  dsimp only
  rw [if_neg a3, hopen]
  dsimp only
  rw [h1, h2, NvmFlash.deser_ser]
  simp [hid, hty, hexp, howner]

/-- The hypotheses are met; the two requests are at different contexts. -/
example : ∃ s s' blob k', AeadOk Demo.cfg.aead ∧ Reach Demo.cfg Demo.ncfg s ∧
    (handle Demo.cfg Demo.one s .ok (.wrap 0x0109 ⟨KeyId.make KeyId.typeWrapped 2 8, 0, 0, 3, Demo.label⟩
      [7, 7, 7] (.ok (List.replicate 12 1)))).1 = .wrapped .ok blob ∧
    view Demo.cfg 0 s (ownId Demo.cfg Demo.one 0x0109) = some (Demo.kekMd, k'.data) ∧
    cached Demo.cfg 1 s' (ownId Demo.cfg Demo.two 0x0109) = some k' ∧
    hasFlag k'.md.flags Flag.usageWrap = true ∧
    (handle Demo.cfg Demo.two s' .ok (.unwrapExport 0x0109 blob)).1 =
      .unwrapped .ok (some (⟨KeyId.make KeyId.typeWrapped 2 8, 0, 0, 3, Demo.label⟩, [7, 7, 7])) :=
  ⟨Demo.after [], Demo.after [.key Demo.two .ok (.dataWrap 0x0109 [1] (.ok []))], _,
    ⟨Demo.kekMd, [1, 2, 3, 4], true⟩, Demo.aead_ok, Demo.after_reach _ (by decide),
    rfl, by decide +kernel, by decide +kernel, by decide +kernel, by decide +kernel⟩

/-- **C21 (wrapped data).** The same for data: what `dataWrap` produced opens to the data. -/
theorem C21_data_roundtrip (hsg : GoodCfg cfg) (ha : AeadOk cfg.aead) {s s' : Sys}
    (hs : Reach cfg ncfg s) (v v' : Srv) (lock : Rc) (kekId kekId' : UInt16)
    (data iv blob : List UInt8) (hiv : iv.length = 12)
    (h : (handle cfg v s lock (.dataWrap kekId data (.ok iv))).1 = .wrapped .ok blob)
    (hh : isHw cfg (ownId cfg v kekId) = false)
    (kmd : Meta) (k' : CKey) (hview : view cfg v.ctx s (ownId cfg v kekId) = some (kmd, k'.data))
    (hu' : KeyId.isUnassigned (ownId cfg v' kekId') = false)
    (hh' : isHw cfg (ownId cfg v' kekId') = false)
    (hk' : cached cfg v'.ctx s' (ownId cfg v' kekId') = some k')
    (hf' : hasFlag k'.md.flags Flag.usageWrap = true)
    (hfit : data.length ≤ cfg.commLen - 12) :
    (handle cfg v' s' .ok (.dataUnwrap kekId' blob)).1 = .data .ok data := by
  have hw := hs.wf hsg
  have key : ∃ kek, KekFor cfg v s kekId false kek ∧ openBlob cfg kek false blob = (.ok, data) ∧
      blob.length = 28 + data.length ∧ data.length ≤ cfg.maxWrapData := by
    rcases handle_or cfg v s lock (.dataWrap kekId data (.ok iv)) with ⟨_, _, e⟩ | ⟨rc, _, e⟩
    · rw [e] at h
      simp only [act, Resp.wrapped.injEq] at h
      change (handleDataWrap cfg v s kekId data (.ok iv)).1.1 = _ ∧
        (handleDataWrap cfg v s kekId data (.ok iv)).1.2 = _ at h
      unfold handleDataWrap at h
      split at h
      · simp at h
      · split at h
        · simp at h
        · rename_i h1 _
          rcases hr : resolveKek cfg v.ctx s (ownId cfg v kekId) false with ⟨⟨rc, kek⟩, s'⟩
          unfold ownId at hr
          rw [hr] at h
          by_cases hrc : rc = .ok
          · subst hrc
            dsimp only at h
            have hk := resolve_kekFor (v := v) (kekId := kekId) hw (by unfold ownId; rw [hr])
            obtain ⟨h3, h4⟩ := seal_open ha hiv (Prod.ext h.1 h.2)
            exact ⟨kek, hk, h3, h4, by omega⟩
          · cases rc <;> first | exact absurd rfl hrc | simp at h
    · rw [e] at h; cases h
  obtain ⟨kek, hkf, hopen, hlen, hmax⟩ := key
  have hke : kek = k'.data := by
    rcases hkf with ⟨h1, _⟩ | ⟨md', h1, _⟩
    · rw [hh] at h1; cases h1
    · rw [hview] at h1
      simp only [Option.some.injEq, Prod.mk.injEq] at h1
      exact h1.2.symm
  subst hke
  have hr := resolve_cached (cfg := cfg) (v := v') false hu' hh' hk' hf' (by simp)
  unfold ownId at hr
  show Resp.data (handleDataUnwrap cfg v' s' kekId' blob).1.1
    (handleDataUnwrap cfg v' s' kekId' blob).1.2 = _
  unfold handleDataUnwrap
  have a1 : ¬ blob.length < 28 := by omega
  have a2 : ¬ cfg.commLen - 12 < blob.length - 28 := by omega
  have a3 : ¬ blob.length - 28 > cfg.maxWrapData := by omega
  rw [if_neg a1, if_neg a2, hr]
  dsimp only
  rw [if_neg a3, hopen]

/-- The hypotheses are met. -/
example : ∃ s s' blob k', AeadOk Demo.cfg.aead ∧ Reach Demo.cfg Demo.ncfg s ∧
    (handle Demo.cfg Demo.one s .ok (.dataWrap 0x0109 [5, 6] (.ok (List.replicate 12 1)))).1 =
      .wrapped .ok blob ∧
    view Demo.cfg 0 s (ownId Demo.cfg Demo.one 0x0109) = some (Demo.kekMd, k'.data) ∧
    cached Demo.cfg 1 s' (ownId Demo.cfg Demo.two 0x0109) = some k' ∧
    (handle Demo.cfg Demo.two s' .ok (.dataUnwrap 0x0109 blob)).1 = .data .ok [5, 6] :=
  ⟨Demo.after [], Demo.after [.key Demo.two .ok (.dataWrap 0x0109 [1] (.ok []))], _,
    ⟨Demo.kekMd, [1, 2, 3, 4], true⟩, Demo.aead_ok, Demo.after_reach _ (by decide),
    rfl, by decide +kernel, by decide +kernel, by decide +kernel⟩

/-- **C21 (contents).** A blob of a key the server holds: the key was exportable, the
key-encryption key is hardware-only or TRUSTED, and the blob opens to the key's bytes and
metadata (re-typed as a wrapped key, same owner and id). -/
theorem C21_wrapExport_content (hsg : GoodCfg cfg) (ha : AeadOk cfg.aead) {s : Sys}
    (hs : Reach cfg ncfg s) (v : Srv) (lock : Rc) (gcm : Bool) (kekId keyType keyId : UInt16)
    (iv blob : List UInt8) (hiv : iv.length = 12)
    (h : (handle cfg v s lock (.wrapExport gcm kekId keyType keyId (.ok iv))).1 = .wrapped .ok blob) :
    ∃ t kek md key, wrapTarget cfg v.client keyType keyId = some t ∧
      (KeyId.typeOf t ≠ KeyId.typeShe → view cfg v.ctx s t = some (md, key) ∧
        hasFlag md.flags Flag.nonExportable = false ∧ hasFlag md.flags Flag.trusted = false) ∧
      KekFor cfg v (readKeyChecked cfg v.ctx s t cfg.maxWrapKey).2 kekId true kek ∧
      openBlob cfg kek true blob = (.ok, (wrapMeta md).ser ++ key) ∧
      blob.length = 60 + key.length := by
  have hw := hs.wf hsg
  rcases handle_or cfg v s lock (.wrapExport gcm kekId keyType keyId (.ok iv)) with ⟨_, _, e⟩ | ⟨rc, _, e⟩
  · rw [e] at h
    simp only [act, Resp.wrapped.injEq] at h
    change (handleWrapExport cfg v s gcm kekId keyType keyId (.ok iv)).1.1 = _ ∧
      (handleWrapExport cfg v s gcm kekId keyType keyId (.ok iv)).1.2 = _ at h
    unfold handleWrapExport at h
    cases ht : wrapTarget cfg v.client keyType keyId with
    | none => rw [ht] at h; simp at h
    | some t =>
      rw [ht] at h
      dsimp only at h
      have hw1 := (readKeyChecked_trs (F := Par.any) (cfg := cfg) (x := v.ctx) t cfg.maxWrapKey hw).wf hw
      rcases hr : readKeyChecked cfg v.ctx s t cfg.maxWrapKey with ⟨⟨rc, o⟩, s1⟩
      rw [hr] at h hw1
      by_cases hrc : rc = .ok
      · subst hrc
        rcases o with _ | ⟨md, key⟩
        · exfalso
          unfold readKeyChecked at hr
          split at hr
          · exact readKey_ok_some hw (by rw [hr])
          · rename_i hne
            revert hr hne
            cases policy cfg v.ctx s .exportKey t <;> simp
        · dsimp only at h
          split at h
          · cases gcm <;> simp at h
          · rcases hr2 : resolveKek cfg v.ctx s1 (ownId cfg v kekId) true with ⟨⟨rc, kek⟩, s2⟩
            unfold ownId at hr2
            rw [hr2] at h
            by_cases hrc : rc = .ok
            · subst hrc
              dsimp only at h
              have hk := resolve_kekFor (v := v) (kekId := kekId) hw1 (by unfold ownId; rw [hr2])
              obtain ⟨h3, h4⟩ := seal_open ha hiv (Prod.ext h.1 h.2)
              refine ⟨t, kek, md, key, rfl, ?_, by rw [hr]; exact hk, h3, ?_⟩
              · intro hns
                unfold readKeyChecked at hr
                split at hr
                · rename_i hp
                  obtain ⟨md', bs', a1, a2, a3⟩ := policy_export_view hp
                  have := readKey_view (md := md) (bs := key) hw hns (by rw [hr])
                  rw [a1] at this
                  cases this
                  exact ⟨a1, a3, a2⟩
                · rename_i hne
                  revert hr hne
                  cases policy cfg v.ctx s .exportKey t <;> simp
              · rw [h4]; simp only [List.length_append, NvmFlash.ser_length]; omega
            · cases rc <;> first | exact absurd rfl hrc | simp at h
      · cases rc <;> first | exact absurd rfl hrc | simp at h
  · rw [e] at h; cases h

theorem unwrapAccept_err (cfg : Keystore.Cfg) (v : Srv) (s : Sys) (md : Meta) (key : List UInt8)
    (i : UInt16) : unwrapAccept cfg v s md key ≠ .error (.ok, i) := by
  unfold unwrapAccept
  repeat' split
  all_goals first | (intro h; cases h; done) | skip
  rename_i hne
  intro h
  simp only [Except.error.injEq, Prod.mk.injEq] at h
  exact hne h.1

theorem she_not_wrapped (u i : UInt16) :
    KeyId.typeOf (KeyId.make KeyId.typeShe u i) ≠ KeyId.typeWrapped := by
  rw [KeyId.typeOf_make]; decide

/-- **C21 (acceptance).** A blob is accepted into the cache only if it opens under a hardware-only
or TRUSTED key-encryption key with the wrap usage; its key then has the length its metadata
says, its owner is the requesting client (or the global one), the counter of a SHE key is not
below the one stored for that key, and what is cached is the blob's key with the server-only
flags removed. -/
theorem C21_accept (hsg : GoodCfg cfg) {s : Sys} (hs : Reach cfg ncfg s) (v : Srv) (lock : Rc)
    (kekId : UInt16) (blob : List UInt8) (rid : UInt16)
    (h : (handle cfg v s lock (.unwrapCache kekId blob)).1 = .keyId .ok rid) :
    ∃ kek pt md key id, KekFor cfg v s kekId true kek ∧ openBlob cfg kek true blob = (.ok, pt) ∧
      md = Meta.deser (pt.take 32) ∧ key = (pt.drop 32).take (blob.length - 60) ∧
      60 ≤ blob.length ∧ key.length = md.len.toNat ∧
      (KeyId.userOf md.id = v.client ∨ cfg.ids.globalKeys = true ∧ KeyId.userOf md.id = 0) ∧
      (KeyId.typeOf id = KeyId.typeWrapped ∧ id = md.id ∨
        KeyId.typeOf id = KeyId.typeShe ∧ KeyId.typeOf md.id = KeyId.typeShe ∧
        ∀ old bs, s.nvm.store id = some (old, bs) → labelCount old.label ≤ labelCount md.label) ∧
      rid = KeyId.toClient cfg.ids id ∧
      cached cfg v.ctx (handle cfg v s lock (.unwrapCache kekId blob)).2 id =
        some ⟨{ md with id := id, flags := md.flags &&& ~~~Nvm.serverOnly }, key, false⟩ := by
  have hw := hs.wf hsg
  rcases handle_or cfg v s lock (.unwrapCache kekId blob) with ⟨_, _, e⟩ | ⟨rc, _, e⟩
  · rw [e] at h ⊢
    simp only [act, Resp.keyId.injEq] at h ⊢
    unfold handleUnwrapCache at h ⊢
    by_cases hlen : blob.length < 60
    · rw [if_pos hlen] at h; simp at h
    · rw [if_neg hlen] at h ⊢
      have hw1 : WF (resolveKek cfg v.ctx s (ownId cfg v kekId) true).2 := by
        rcases resolveKek_or (F := Par.any) (cfg := cfg) (x := v.ctx) (ownId cfg v kekId) true hw with
          ⟨h1, e⟩ | ⟨k, s', h1, h2, h3, h4, e⟩ | ⟨rc, s', hrc, ht, e⟩
        · rw [e]; exact hw
        · rw [e]; exact (h2.trs (F := Par.any)).wf hw
        · rw [e]; exact ht.wf hw
      rcases unwrapKey_or (cfg := cfg) (v := v) (s := s) kekId true blob with
        ⟨kek, pt, h1, h2, e'⟩ | ⟨rc, hrc, e'⟩
      · have hk := resolve_kekFor hw h1
        have hst : (resolveKek cfg v.ctx s (ownId cfg v kekId) true).2.nvm.store = s.nvm.store := by
          rcases resolveKek_or (F := Par.any) (cfg := cfg) (x := v.ctx) (ownId cfg v kekId) true hw with
            ⟨_, e⟩ | ⟨k, s', _, h2, _, _, e⟩ | ⟨rc, s', hrc, ht, e⟩
          · rw [e]
          · rw [e]; exact h2.store
          · rw [e] at h1; injection h1 with h1; exact absurd h1 hrc
        rw [e'] at h ⊢
        dsimp only at h ⊢
        generalize (resolveKek cfg v.ctx s (ownId cfg v kekId) true).2 = s1 at h hw1 hst ⊢
        generalize hmd : Meta.deser (pt.take 32) = md at h ⊢
        generalize hkey : (pt.drop 32).take (blob.length - 60) = key at h ⊢
        cases hacc : unwrapAccept cfg v s1 md key with
        | error rc =>
          rw [hacc] at h
          dsimp only at h
          refine absurd (hacc.trans ?_) (unwrapAccept_err cfg v s1 md key rc.2)
          rw [← h.1]
        | ok md' =>
          rw [hacc] at h
          dsimp only at h ⊢
          have ha := unwrapAccept_ok hacc
          have hl2 : key.length = md.len.toNat := by
            have h1 := ha.len
            have h2 := congrArg Meta.len ha.keeps
            dsimp only at h2
            rw [← h1, h2]
          refine ⟨kek, pt, md, key, md'.id, hk, h2, hmd.symm, hkey.symm, by omega, hl2, ?_, ?_, h.2.symm, ?_⟩
          · have := ha.owner
            unfold ownerOk at this
            simp only [KeyId.userGlobal, Bool.or_eq_true, Bool.and_eq_true, beq_iff_eq] at this
            exact this.symm
          · have hid := ha.id
            unfold unwrapSheId at hid
            rcases ha.type with ht | ht
            · left
              refine ⟨ht, ?_⟩
              split at hid
              · rename_i hshe
                exfalso
                split at hid
                · simp only [Option.some.injEq] at hid
                  rw [← hid] at ht
                  revert ht
                  exact she_not_wrapped _ _
                · split at hid
                  · cases hid
                  · simp only [Option.some.injEq] at hid
                    rw [← hid, hshe] at ht
                    revert ht; decide
              · simpa using hid.symm
            · refine Or.inr ⟨ht, ?_, by rw [← hst]; exact ha.count ht⟩
              split at hid
              · rename_i h; exact h
              · simp only [Option.some.injEq] at hid
                rw [hid]; exact ht
          · have hmd' : md' = { md with id := md'.id, flags := md.flags &&& ~~~Nvm.serverOnly } := by
              have h1 := ha.keeps
              have h2 := ha.flags
              rw [← h2]; exact h1
            revert h
            refine cacheKey_unchecked_cases (P := fun r => r.1 = .ok ∧ _ = rid → cached cfg v.ctx r.2 md'.id = _)
              hw1 ha.free ?_ ?_
            · intro s' hf _
              have := hf.entry
              rw [← hmd']
              exact this
            · intro rc hrc h; exact absurd h.1 hrc
      · rw [e'] at h
        cases rc <;> first | exact absurd rfl hrc | simp at h
  · rw [e] at h; cases h

/-- **C21 (round trip, server key).** A key exported in wrapped form and later accepted into a
cache under a key-encryption key of the same bytes is the same key: same bytes, label,
access and length, same owner and number, and the same flags (without server-only ones). -/
theorem C21_roundtrip_cache (hsg : GoodCfg cfg) (ha : AeadOk cfg.aead) {s s' : Sys}
    (hs : Reach cfg ncfg s) (hs' : Reach cfg ncfg s') (v v' : Srv) (lock lock' : Rc)
    (gcm : Bool) (kekId kekId' keyType keyId : UInt16) (iv blob : List UInt8) (hiv : iv.length = 12)
    (h : (handle cfg v s lock (.wrapExport gcm kekId keyType keyId (.ok iv))).1 = .wrapped .ok blob)
    (t : UInt16) (htgt : wrapTarget cfg v.client keyType keyId = some t)
    (htype : KeyId.typeOf t ≠ KeyId.typeShe) (md : Meta) (key : List UInt8)
    (hview : view cfg v.ctx s t = some (md, key)) (hmid : KeyId.typeOf md.id ≠ KeyId.typeShe)
    (rid : UInt16) (h' : (handle cfg v' s' lock' (.unwrapCache kekId' blob)).1 = .keyId .ok rid)
    (hsame : ∀ k k', KekFor cfg v (readKeyChecked cfg v.ctx s t cfg.maxWrapKey).2 kekId true k →
      KekFor cfg v' s' kekId' true k' → k = k') :
    rid = KeyId.toClient cfg.ids (wrapMeta md).id ∧
    cached cfg v'.ctx (handle cfg v' s' lock' (.unwrapCache kekId' blob)).2 (wrapMeta md).id =
      some ⟨{ wrapMeta md with flags := md.flags &&& ~~~Nvm.serverOnly }, key, false⟩ := by
  obtain ⟨t', kek, md', key', h1, h2, h3, h4, h5⟩ :=
    C21_wrapExport_content hsg ha hs v lock gcm kekId keyType keyId iv blob hiv h
  rw [htgt] at h1; cases h1
  obtain ⟨h2, _⟩ := h2 htype
  rw [hview] at h2; cases h2
  obtain ⟨kek', pt, md2, key2, id2, g1, g2, g3, g4, _, _, _, g5, g6, g7⟩ :=
    C21_accept hsg hs' v' lock' kekId' blob rid h'
  have hk := hsame _ _ h3 g1
  subst hk
  rw [h4] at g2
  cases g2
  have e1 : ((wrapMeta md).ser ++ key).take 32 = (wrapMeta md).ser := by
    rw [← NvmFlash.ser_length (wrapMeta md), List.take_left]
  have e2 : (((wrapMeta md).ser ++ key).drop 32).take (blob.length - 60) = key := by
    rw [← NvmFlash.ser_length (wrapMeta md), List.drop_left, h5]; simp
  rw [e1, NvmFlash.deser_ser] at g3
  rw [e2] at g4
  subst g3 g4
  have hwm : (wrapMeta md).flags = md.flags ∧ KeyId.typeOf (wrapMeta md).id = KeyId.typeWrapped := by
    unfold wrapMeta
    rw [if_neg hmid]
    refine ⟨rfl, ?_⟩
    show KeyId.typeOf (KeyId.make _ _ _) = _
    rw [KeyId.typeOf_make]; decide
  have hid : id2 = (wrapMeta md).id := by
    rcases g5 with ⟨_, h⟩ | ⟨_, h, _⟩
    · exact h
    · rw [hwm.2] at h; exact absurd h (by decide)
  subst hid
  rw [hwm.1] at g7
  exact ⟨g6, g7⟩

/-- Both requests succeed for client 1's key 5; the copy appears as its wrapped key 5. -/
example : ∃ s blob, Reach Demo.cfg Demo.ncfg s ∧
    (handle Demo.cfg Demo.one s .ok (.wrapExport true 0x0109 1 5 (.ok (List.replicate 12 1)))).1 =
      .wrapped .ok blob ∧
    (handle Demo.cfg Demo.one (Demo.after [.restart false]) .ok (.unwrapCache 0x0109 blob)).1 =
      .keyId .ok 0x0205 :=
  ⟨Demo.after [Demo.cache5], _, Demo.after_reach _ (by decide +kernel), rfl, by decide +kernel⟩

end

end WolfHsm.Props

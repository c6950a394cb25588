import Verif.Proofs.KeystoreHandle
import Verif.Proofs.KeystoreOuts

/-!
# Invariants of key store histories
-/

namespace WolfHsm.Keystore

open NvmFlash (Meta Store withLen)

variable {F : Par}

/-! ## What happens to ids that are not the target -/

theorem EStep.pend {id : UInt16} {e e' : E} (h : EStep F id e e')
    (hcid : ∀ k, e.c = some k → k.md.id = id) :
    e'.p = e.p ∨ e'.p = none ∨ ∃ md d, e'.p = some (md, d) ∧ md.id = id := by
  cases h with
  | refl => exact Or.inl rfl
  | quiet => exact Or.inr (Or.inl rfl)
  | evict => exact Or.inl rfl
  | load => exact Or.inl rfl
  | insert => exact Or.inl rfl
  | unwrap => exact Or.inl rfl
  | commit => exact Or.inr (Or.inl rfl)
  | commitCut => exact Or.inr (Or.inl rfl)
  | commitPend hw hc ht => exact Or.inr (Or.inr ⟨_, _, rfl, hcid _ hc⟩)
  | revoke => exact Or.inr (Or.inl rfl)
  | revokeRam => exact Or.inl rfl
  | revokeFail hw hF hc ht hn hp =>
    rcases hp with rfl | rfl | rfl
    · exact Or.inl rfl
    · exact Or.inr (Or.inl rfl)
    · exact Or.inr (Or.inr ⟨_, _, rfl, hcid _ hc⟩)
  | destroy => exact Or.inr (Or.inl rfl)

theorem ent_cid {cfg : Cfg} {x : Nat} {s : Sys} {id : UInt16} (k : CKey)
    (h : (ent cfg x s id).c = some k) : k.md.id = id := by
  simp only [ent, cached_eq] at h; exact Cache.find_id h

/-- How a transition affects an id that is not its target. -/
structure Other (i : UInt16) (s s' : Sys) : Prop where
  store : s'.nvm.store i = s.nvm.store i
  pend : ∀ md d, s'.nvm.pending = some (md, d) → md.id = i → s.nvm.pending = some (md, d)
  cache : ∀ a, (cacheAt s' a).find i = (cacheAt s a).find i ∨
    ∃ k, (cacheAt s a).find i = some k ∧ k.committed = true ∧ (cacheAt s' a).find i = none

theorem Other.refl (i : UInt16) (s : Sys) : Other i s s :=
  ⟨rfl, fun _ _ h _ => h, fun _ => Or.inl rfl⟩

theorem Other.trans {i : UInt16} {s s' s'' : Sys} (h : Other i s s') (h' : Other i s' s'') :
    Other i s s'' := by
  refine ⟨h'.store.trans h.store, fun md d hp hi => h.pend _ _ (h'.pend _ _ hp hi) hi, ?_⟩
  intro a
  rcases h'.cache a with h1 | ⟨k, h1, h2, h3⟩
  · rw [h1]; exact h.cache a
  · rcases h.cache a with h4 | ⟨k', h4, h5, h6⟩
    · exact Or.inr ⟨k, h4 ▸ h1, h2, h3⟩
    · rw [h6] at h1; cases h1

theorem Tr.other {cfg : Cfg} {x : Nat} {id i : UInt16} {s s' : Sys} (h : Tr F cfg x id s s')
    (hi : i ≠ id) : Other i s s' := by
  refine ⟨h.frame.store i hi, ?_, ?_⟩
  · intro md d hp hmd
    rcases h.step.pend ent_cid with h1 | h1 | ⟨md', d', h1, h2⟩
    · simp only [ent] at h1; rw [← h1]; exact hp
    · simp only [ent] at h1; rw [h1] at hp; cases hp
    · simp only [ent] at h1; rw [h1] at hp; cases hp; exact absurd (hmd.symm.trans h2) hi
  · intro a
    by_cases ha : a = area cfg x id
    · subst ha; exact h.frame.others i hi
    · left; rw [h.frame.areas a ha]

theorem Trs.other {cfg : Cfg} {x : Nat} {T : UInt16 → Prop} {i : UInt16} {s s' : Sys}
    (h : Trs F cfg x T s s') (hi : ¬T i) : Other i s s' := by
  induction h with
  | nil => exact .refl _ _
  | cons hT h _ ih => exact (h.other (by rintro rfl; exact hi hT)).trans ih

/-! ## Invariants about one id -/

/-- An invariant about one id: on cached copies, on the stored object, on a pending add. -/
structure Prof where
  C : CKey → Prop
  N : Option (Meta × List UInt8) → Prop
  P : Meta → List UInt8 → Prop

/-- The invariant holds for the id. -/
structure Inv3 (cfg : Cfg) (Q : Prof) (i : UInt16) (s : Sys) : Prop where
  c : ∀ y k, cached cfg y s i = some k → Q.C k
  n : Q.N (s.nvm.store i)
  p : ∀ md d, s.nvm.pending = some (md, d) → md.id = i → Q.P md d

/-- The invariant, for one entry. -/
structure Inv3E (Q : Prof) (i : UInt16) (e : E) : Prop where
  c : ∀ k, e.c = some k → Q.C k
  n : Q.N e.n
  p : ∀ md d, e.p = some (md, d) → md.id = i → Q.P md d

theorem Inv3.other {cfg : Cfg} {Q : Prof} {i : UInt16} {s s' : Sys} (h : Inv3 cfg Q i s)
    (o : Other i s s') : Inv3 cfg Q i s' := by
  refine ⟨?_, by rw [o.store]; exact h.n, fun md d hp hi => h.p _ _ (o.pend _ _ hp hi) hi⟩
  intro y k hk
  rw [cached_eq] at hk
  rcases o.cache (area cfg y i) with h1 | ⟨_, _, _, h1⟩
  · exact h.c y k (by rw [cached_eq]; exact h1 ▸ hk)
  · rw [h1] at hk; cases hk

theorem Inv3.tr {Q : Prof} {cfg : Cfg} {x : Nat} {id i : UInt16} {s s' : Sys}
    (h : Inv3 cfg Q i s)
    (hw : WF s) (ht : Tr F cfg x id s s')
    (hE : ∀ e e', EStep F i e e' → (∀ k, e.c = some k → k.md.id = i) →
      (∀ k, e.c = some k → k.md.len.toNat = k.data.length) → Inv3E Q i e → Inv3E Q i e') :
    Inv3 cfg Q i s' := by
  by_cases hi : i = id
  · subst hi
    have key := hE _ _ ht.step ent_cid
      (fun k hk => by simp only [ent, cached_eq] at hk; exact hw.clen _ _ _ hk)
      ⟨fun k hk => h.c _ _ hk, h.n, h.p⟩
    refine ⟨?_, key.n, key.p⟩
    intro y k hk
    by_cases ha : area cfg y i = area cfg x i
    · exact key.c k (by simp only [ent, cached_eq] at hk ⊢; rw [← ha]; exact hk)
    · rw [cached_eq, ht.frame.areas _ ha] at hk; exact h.c y k (by rw [cached_eq]; exact hk)
  · exact h.other (ht.other hi)

theorem Inv3.trs {Q : Prof} {cfg : Cfg} {x : Nat} {T : UInt16 → Prop} {i : UInt16} {s s' : Sys}
    (h : Inv3 cfg Q i s) (hw : WF s) (ht : Trs F cfg x T s s')
    (hE : T i → ∀ e e', EStep F i e e' → (∀ k, e.c = some k → k.md.id = i) →
      (∀ k, e.c = some k → k.md.len.toNat = k.data.length) → Inv3E Q i e → Inv3E Q i e') :
    Inv3 cfg Q i s' := by
  induction ht with
  | nil => exact h
  | @cons s s1 s2 id hT ht _ ih =>
    refine ih ?_ (ht.wf hw)
    by_cases hi : i = id
    · exact h.tr hw ht (hE (hi ▸ hT))
    · exact h.other (ht.other hi)

/-! ## NVM requests and restarts -/

theorem sanitize_id (md : Meta) : (Nvm.sanitize md).id = md.id := rfl

/-- What an NVM request does to one id. -/
inductive NvmAct (cfg : NvmServer.Cfg) (n : Nvm) (r : NvmServer.Req) (i : UInt16) (m : Nvm) : Prop where
  | quiet (hs : m.store i = n.store i)
      (hp : ∀ md d, m.pending = some (md, d) → md.id = i → n.pending = some (md, d))
  | added (first second data)
      (hr : r.Adds cfg first second data) (hi : second.id = i)
      (hpass : Nvm.passes (n.checkPolicy .add first.id) = true)
      (hs : m.store i = some (withLen (Nvm.sanitize second) data, data)) (hp : m.pending = none)
  | pended (first second data)
      (hr : r.Adds cfg first second data) (hi : second.id = i)
      (hpass : Nvm.passes (n.checkPolicy .add first.id) = true)
      (hs : m.store i = n.store i) (hp : m.pending = some (Nvm.sanitize second, data))
  | gone (hi : i ∈ r.toDestroy) (hpass : n.checkAll r.toDestroy = .ok) (hs : m.store i = none)
      (hp : m.pending = none)

theorem nvm_act (cfg : NvmServer.Cfg) (n : Nvm) (lock : Rc) (r : NvmServer.Req) (i : UInt16) :
    NvmAct cfg n r i (NvmServer.handle cfg n lock r).2 := by
  refine NvmServer.handle_cases cfg n lock r (P := NvmAct cfg n r i) ?_ ?_ ?_ ?_
  · exact .quiet rfl fun _ _ h _ => h
  · intro first second data hr
    unfold Nvm.addChecked
    dsimp only
    split
    · rename_i hp
      by_cases hi : second.id = i
      · have hset : ∀ n' : Nvm, n'.store = n.store.set (Nvm.sanitize second) data →
            n'.store i = some (withLen (Nvm.sanitize second) data, data) := by
          intro n' h; rw [h]; simp [NvmFlash.Store.set, sanitize_id, hi]
        refine n.add_cases (Nvm.sanitize second) data (P := fun p => NvmAct cfg n r i p.2) ?_ ?_ ?_ ?_
        · intro n' h1 h2 _; exact .added _ _ _ hr hi hp (hset _ h1) h2
        · intro n' h1 h2 _; exact .added _ _ _ hr hi hp (hset _ h1) h2
        · intro rc n' _ h1 h2; exact .pended _ _ _ hr hi hp (by rw [h1]) h2
        · intro rc n' _ h1 h2; exact .quiet (by rw [h1]) fun md d h _ => h2 ▸ h
      · have hset : ∀ n' : Nvm, n'.store = n.store.set (Nvm.sanitize second) data →
            n'.store i = n.store i := by
          intro n' h; rw [h]; exact NvmServer.set_other hi
        refine n.add_cases (Nvm.sanitize second) data (P := fun p => NvmAct cfg n r i p.2) ?_ ?_ ?_ ?_
        · intro n' h1 h2 _; exact .quiet (hset _ h1) fun md d h _ => by rw [h2] at h; cases h
        · intro n' h1 h2 _; exact .quiet (hset _ h1) fun md d h _ => by rw [h2] at h; cases h
        · intro rc n' _ h1 h2
          exact .quiet (by rw [h1]) fun md d h h' => by rw [h2] at h; cases h; exact absurd h' hi
        · intro rc n' _ h1 h2; exact .quiet (by rw [h1]) fun md d h _ => h2 ▸ h
    · exact .quiet rfl fun _ _ h _ => h
  · intro ids hr
    subst hr
    unfold Nvm.destroyChecked
    split
    · rename_i hc
      by_cases hi : i ∈ r.toDestroy
      · have hd : ∀ n' : Nvm, n'.store = n.store.drop r.toDestroy → n'.store i = none := by
          intro n' h; rw [h]; simp [NvmFlash.Store.drop, hi]
        refine n.destroy_cases r.toDestroy (P := fun p => NvmAct cfg n r i p.2) ?_ ?_ ?_ ?_
        · intro n' h1 h2; exact .gone hi hc (hd _ h1) h2
        · intro n' _ h1 h2; exact .quiet (by rw [h1]) fun md d h _ => h2 ▸ h
        · intro rc n' _ h1 h2; exact .gone hi hc (hd _ h1) h2
        · intro rc n' _ h1 h2; exact .quiet (by rw [h1]) fun md d h _ => h2 ▸ h
      · have hd : ∀ n' : Nvm, n'.store = n.store.drop r.toDestroy → n'.store i = n.store i := by
          intro n' h; rw [h]; exact NvmServer.drop_other hi
        refine n.destroy_cases r.toDestroy (P := fun p => NvmAct cfg n r i p.2) ?_ ?_ ?_ ?_
        · intro n' h1 h2; exact .quiet (hd _ h1) fun md d h _ => by rw [h2] at h; cases h
        · intro n' _ h1 h2; exact .quiet (by rw [h1]) fun md d h _ => h2 ▸ h
        · intro rc n' _ h1 h2; exact .quiet (hd _ h1) fun md d h _ => by rw [h2] at h; cases h
        · intro rc n' _ h1 h2; exact .quiet (by rw [h1]) fun md d h _ => h2 ▸ h
    · exact .quiet rfl fun _ _ h _ => h
  · intro id off len
    have := n.read_store id off len
    exact .quiet (by rw [this.1]) fun md d h _ => this.2 ▸ h

/-- The invariant over an NVM request. -/
theorem Inv3.nvm {c : Cfg} {Q : Prof} {i : UInt16} {s : Sys} (h : Inv3 c Q i s) (cfg : NvmServer.Cfg)
    (lock : Rc) (r : NvmServer.Req)
    (hadd : ∀ first second data, r.Adds cfg first second data → second.id = i →
      Nvm.passes (s.nvm.checkPolicy .add first.id) = true →
      Q.N (some (withLen (Nvm.sanitize second) data, data)) ∧ Q.P (Nvm.sanitize second) data)
    (hdes : i ∈ r.toDestroy → s.nvm.checkAll r.toDestroy = .ok → Q.N none) :
    Inv3 c Q i { s with nvm := (NvmServer.handle cfg s.nvm lock r).2 } := by
  have hc : ∀ (n : Nvm) y k, cached c y { s with nvm := n } i = some k → Q.C k :=
    fun n y k hk => h.c y k (by simpa [cached_eq] using hk)
  cases nvm_act cfg s.nvm lock r i with
  | quiet hs hp =>
    exact ⟨hc _, by show Q.N _; rw [hs]; exact h.n, fun md d hpd hid => h.p _ _ (hp _ _ hpd hid) hid⟩
  | added f g d hr hi hpass hs hp =>
    refine ⟨hc _, by show Q.N _; rw [hs]; exact (hadd _ _ _ hr hi hpass).1, fun md d hpd _ => ?_⟩
    replace hpd : (NvmServer.handle cfg s.nvm lock r).2.pending = some (md, d) := hpd
    rw [hp] at hpd; cases hpd
  | pended f g d hr hi hpass hs hp =>
    refine ⟨hc _, by show Q.N _; rw [hs]; exact h.n, fun md d hpd _ => ?_⟩
    replace hpd : (NvmServer.handle cfg s.nvm lock r).2.pending = some (md, d) := hpd
    rw [hp] at hpd; cases hpd; exact (hadd _ _ _ hr hi hpass).2
  | gone hi hpass hs hp =>
    refine ⟨hc _, by show Q.N _; rw [hs]; exact hdes hi hpass, fun md d hpd _ => ?_⟩
    replace hpd : (NvmServer.handle cfg s.nvm lock r).2.pending = some (md, d) := hpd
    rw [hp] at hpd; cases hpd

theorem findIn_replicate (n : Nat) (id : UInt16) : findIn (List.replicate n none) id = none := by
  unfold findIn
  have : (List.replicate n (none : Slot)).find? (Slot.holds id) = none := by
    rw [List.find?_eq_none]
    intro a ha
    rw [List.eq_of_mem_replicate ha]
    simp [Slot.holds]
  rw [this]; rfl

theorem cleared_find (c : Cache) (id : UInt16) : c.cleared.find id = none := by
  unfold Cache.cleared Cache.find
  dsimp only
  rw [findIn_replicate, findIn_replicate]

/-- The system after a restart. -/
def rebooted (s : Sys) (b : Bool) : Sys :=
  ⟨s.nvm.restart b, s.global.cleared, fun x => (s.loc x).cleared⟩

theorem rebooted_cache (s : Sys) (b : Bool) (a : Option Nat) :
    cacheAt (rebooted s b) a = (cacheAt s a).cleared := by
  cases a <;> rfl

theorem rebooted_find (s : Sys) (b : Bool) (a : Option Nat) (i : UInt16) :
    (cacheAt (rebooted s b) a).find i = none := by
  rw [rebooted_cache, cleared_find]

theorem Inv3.restart {cfg : Cfg} {Q : Prof} {i : UInt16} {s : Sys} (h : Inv3 cfg Q i s) (hw : WF s) (b : Bool)
    (hpn : ∀ md d, md.id = i → d.length < 65536 → Q.P md d → Q.N (some (withLen md d, d))) :
    Inv3 cfg Q i (rebooted s b) := by
  refine ⟨fun a k hk => (by rw [cached_eq, rebooted_find] at hk; cases hk), ?_, ?_⟩
  · refine s.nvm.restart_cases b (P := fun n => Q.N (n.store i)) ?_ ?_
    · intro n' h1 _ _; rw [h1]; exact h.n
    · intro md d n' h0 h1 _ _
      rw [h1]
      by_cases hi : md.id = i
      · have := hpn md d hi (hw.pend _ _ h0) (h.p _ _ h0 hi)
        simpa [NvmFlash.Store.set, hi] using this
      · rw [NvmServer.set_other hi]; exact h.n
  · refine s.nvm.restart_cases b (P := fun n => ∀ md d, n.pending = some (md, d) → md.id = i → Q.P md d) ?_ ?_
    · intro n' _ h2 _ md d h; rw [h2] at h; cases h
    · intro _ _ n' _ _ h2 _ md d h; rw [h2] at h; cases h

/-! ## Well-formedness over histories -/

theorem uniq_cleared (c : Cache) : c.cleared.Uniq := by
  unfold Cache.Uniq Cache.slots Cache.cleared
  have : ∀ n m, slotIds (List.replicate n none ++ List.replicate m none) = [] := by
    intro n m
    simp [slotIds]
  rw [this]; exact List.nodup_nil

theorem rebooted_wf {s : Sys} (h : WF s) (b : Bool) : WF (rebooted s b) := by
  refine ⟨?_, ?_, ?_, ?_⟩
  · intro a; rw [rebooted_cache]; exact uniq_cleared _
  · intro a i k hk; rw [rebooted_find] at hk; cases hk
  · intro i md bs
    show (s.nvm.restart b).store i = some (md, bs) → _
    refine s.nvm.restart_cases b (P := fun n => n.store i = some (md, bs) → _) ?_ ?_
    · intro n' h1 _ _; rw [h1]; exact h.nvm _ _ _
    · intro md' d n' h0 h1 _ _
      rw [h1]
      by_cases hi : md'.id = i
      · intro hs
        simp only [NvmFlash.Store.set, hi, if_true] at hs
        cases hs
        refine ⟨hi, ?_⟩
        simp only [withLen]
        rw [UInt16.toNat_ofNat_of_lt' (h.pend _ _ h0)]
      · rw [NvmServer.set_other hi]; exact h.nvm _ _ _
  · intro md bs
    show (s.nvm.restart b).pending = some (md, bs) → _
    refine s.nvm.restart_cases b (P := fun n => n.pending = some (md, bs) → _) ?_ ?_
    · intro n' _ h2 _ hp; rw [h2] at hp; cases hp
    · intro _ _ n' _ _ h2 _ hp; rw [h2] at hp; cases hp

theorem nvm_wf {s : Sys} (h : WF s) (cfg : NvmServer.Cfg) (lock : Rc) (r : NvmServer.Req)
    (hv : (Ev.nvm lock r).Valid) :
    WF { s with nvm := (NvmServer.handle cfg s.nvm lock r).2 } := by
  have hlen : ∀ first second data, r.Adds cfg first second data → data.length < 65536 := by
    rintro first second data (⟨rfl, -⟩ | ⟨pm, pd, z, peek, rfl, -⟩) <;> exact hv
  refine ⟨fun a => by rw [cacheAt_nvm]; exact h.uniq a,
    fun a i k hk => h.clen a i k (by simpa using hk), ?_, ?_⟩
  · intro i md bs hs
    replace hs : (NvmServer.handle cfg s.nvm lock r).2.store i = some (md, bs) := hs
    cases nvm_act cfg s.nvm lock r i with
    | quiet h1 => exact h.nvm _ _ _ (h1 ▸ hs)
    | added f g d hr hi hpass h1 =>
      rw [h1] at hs
      cases hs
      refine ⟨hi, ?_⟩
      simp only [withLen]
      rw [UInt16.toNat_ofNat_of_lt' (hlen _ _ _ hr)]
    | pended f g d hr hi hpass h1 => exact h.nvm _ _ _ (h1 ▸ hs)
    | gone hi hpass h1 => rw [h1] at hs; cases hs
  · intro md bs hs
    replace hs : (NvmServer.handle cfg s.nvm lock r).2.pending = some (md, bs) := hs
    cases nvm_act cfg s.nvm lock r md.id with
    | quiet _ h1 => exact h.pend _ _ (h1 _ _ hs rfl)
    | added f g d hr hi hpass _ h1 => rw [h1] at hs; cases hs
    | pended f g d hr hi hpass _ h1 => rw [h1] at hs; cases hs; exact hlen _ _ _ hr
    | gone hi hpass _ h1 => rw [h1] at hs; cases hs

/-- The configuration is one the build accepts: SHE_GLOBAL_KEYS needs GLOBAL_KEYS,
wolfhsm/wh_settings.h:601-607. -/
abbrev GoodCfg (cfg : Cfg) : Prop := cfg.sheGlobal = true → cfg.ids.globalKeys = true

theorem step_wf {cfg : Cfg} (hsg : GoodCfg cfg) (ncfg : NvmServer.Cfg) {s : Sys} (h : WF s) {e : Ev}
    (hv : e.Valid) : WF (step cfg ncfg s e).2 := by
  cases e with
  | key v lock r =>
    unfold step
    dsimp only
    split
    · exact (handle_trs h hv hsg lock r).wf h
    · exact h
  | nvm lock r =>
    unfold step
    dsimp only
    split
    · exact nvm_wf h _ _ _ hv
    · exact h
  | restart b => exact rebooted_wf h b

theorem run_cons (cfg : Cfg) (ncfg : NvmServer.Cfg) (s : Sys) (e : Ev) (evs : List Ev) :
    run cfg ncfg s (e :: evs) = run cfg ncfg (step cfg ncfg s e).2 evs := rfl

theorem run_wf {cfg : Cfg} (hsg : GoodCfg cfg) (ncfg : NvmServer.Cfg) : ∀ {evs : List Ev} {s : Sys},
    WF s → (∀ e ∈ evs, e.Valid) → WF (run cfg ncfg s evs)
  | [], _, h, _ => h
  | e :: evs, s, h, hv => by
    rw [run_cons]
    exact run_wf hsg ncfg (step_wf hsg ncfg h (hv e (by simp))) fun e he => hv e (by simp [he])

/-- Induction over histories. -/
theorem run_induct {cfg : Cfg} (hsg : GoodCfg cfg) (ncfg : NvmServer.Cfg) {I : Sys → Prop} {A : Ev → Prop}
    (hstep : ∀ s e, WF s → I s → e.Valid → A e → I (step cfg ncfg s e).2) :
    ∀ {evs : List Ev} {s : Sys}, WF s → I s → (∀ e ∈ evs, e.Valid ∧ A e) → I (run cfg ncfg s evs)
  | [], _, _, h, _ => h
  | e :: evs, s, hw, h, hv => by
    rw [run_cons]
    exact run_induct hsg ncfg hstep (step_wf hsg ncfg hw (hv e (by simp)).1)
      (hstep s e hw h (hv e (by simp)).1 (hv e (by simp)).2) fun e he => hv e (by simp [he])

/-- A change confined to one id keeps the state well-formed. -/
theorem Frame.wf {cfg : Cfg} {x : Nat} {id : UInt16} {s s' : Sys} (h : Frame cfg x id s s')
    (hw : WF s) (hn : s'.nvm = s.nvm)
    (hc : ∀ k, cached cfg x s' id = some k → k.md.len.toNat = k.data.length) : WF s' := by
  refine ⟨?_, ?_, by rw [hn]; exact hw.nvm, by rw [hn]; exact hw.pend⟩
  · intro a
    by_cases ha : a = area cfg x id
    · subst ha; exact h.uniq
    · rw [h.areas a ha]; exact hw.uniq a
  · intro a i k hk
    by_cases ha : a = area cfg x id
    · subst ha
      by_cases hi : i = id
      · subst hi; exact hc k (by rw [cached_eq]; exact hk)
      · rcases h.others i hi with h1 | ⟨k', -, -, h1⟩
        · exact hw.clen _ _ _ (h1 ▸ hk)
        · rw [h1] at hk; cases hk
    · rw [h.areas a ha] at hk; exact hw.clen _ _ _ hk

theorem provision_wf {cfg : Cfg} {x : Nat} {s : Sys} (hw : WF s) {md : Meta} {data : List UInt8}
    (hl : md.len.toNat = data.length) : WF (cacheKey cfg x s false md data).2 := by
  have key : (∃ loc s', Slotted cfg x md.id loc s s' ∧
      getSlot cfg x s md.id md.len.toNat = (.ok, some loc, s')) ∨
      (∃ rc s', rc ≠ .ok ∧ WF s' ∧ getSlot cfg x s md.id md.len.toNat = (rc, none, s')) := by
    refine getSlot_cases (P := fun r => (∃ loc s', Slotted cfg x md.id loc s s' ∧
      r = (.ok, some loc, s')) ∨ (∃ rc s', rc ≠ .ok ∧ WF s' ∧ r = (rc, none, s'))) hw ?_ ?_ ?_
    · intro loc s' h; exact Or.inl ⟨loc, s', h, rfl⟩
    · intro rc h; exact Or.inr ⟨rc, s, h, hw, rfl⟩
    · intro rc s' h1 h2 h3 h4 _
      exact Or.inr ⟨rc, s', h1, h2.wf hw h4 (by rw [h3]; simp), rfl⟩
  unfold cacheKey
  simp only [Bool.false_and, Bool.false_eq_true, if_false]
  split
  · exact hw
  · split
    · exact hw
    · split
      · exact hw
      · rcases key with ⟨loc, s', h, e⟩ | ⟨rc, s', hrc, h, e⟩
        · rw [e]
          obtain ⟨h1, h2, h3⟩ := h.fill data
          refine h1.wf hw h3 ?_
          rw [h2]; rintro k ⟨⟩; exact hl
        · rw [e]
          cases rc <;> first | exact absurd rfl hrc | exact h

theorem Reach.wf {cfg : Cfg} (hsg : GoodCfg cfg) {ncfg : NvmServer.Cfg} {s : Sys}
    (h : Reach cfg ncfg s) : WF s := by
  induction h with
  | boot s hg hl hp hn =>
    have hf : ∀ a, cacheAt s a = (cacheAt s a).cleared := by
      intro a; cases a with
      | none => exact hg
      | some x => exact hl x
    refine ⟨?_, ?_, hn, by rw [hp]; simp⟩
    · intro a; rw [hf]; exact uniq_cleared _
    · intro a i k hk; rw [hf, cleared_find] at hk; cases hk
  | step e hv _ ih => exact step_wf hsg ncfg ih hv
  | provision x md data hl _ ih => exact provision_wf ih hl

end WolfHsm.Keystore

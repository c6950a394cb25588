import Verif.Proofs.KeyCache
import Verif.Proofs.Nvm
import Verif.Proofs.KeyId
import Verif.Spec.Keystore

/-!
# Elementary transitions of the key store

Every key request is a sequence of elementary transitions `Tr`; invariants are proved
once for `Tr`.
-/

namespace WolfHsm.Keystore

open NvmFlash (Meta Store withLen)

/-- What is known about the transitions: whether a revocation may have failed in the NVM,
and which keys may have been brought in by a client. -/
structure Par where
  fail : Prop
  gives : Meta → List UInt8 → Prop
  /-- ids that may be written: stored, changed or removed -/
  w : UInt16 → Prop
  /-- ids that may be evicted without a policy check -/
  force : UInt16 → Prop
  /-- ids that may be revoked -/
  rev : UInt16 → Prop
  /-- ids that may be destroyed in the NVM -/
  des : UInt16 → Prop

/-- No information. -/
def Par.any : Par := ⟨True, fun _ _ => True, fun _ => True, fun _ => True, fun _ => True, fun _ => True⟩

/-- Less information. -/
def Par.le (F F' : Par) : Prop :=
  (F.fail → F'.fail) ∧ (∀ md d, F.gives md d → F'.gives md d) ∧ (∀ i, F.w i → F'.w i) ∧
  (∀ i, F.force i → F'.force i) ∧ (∀ i, F.rev i → F'.rev i) ∧ ∀ i, F.des i → F'.des i

variable {F : Par}

/-- Which cache: `none` the global one, `some x` the local one of context `x`. -/
def area (cfg : Cfg) (x : Nat) (id : UInt16) : Option Nat :=
  if isGlobal cfg id then none else some x

/-- Cache of an area. -/
def cacheAt (s : Sys) : Option Nat → Cache
  | none => s.global
  | some x => s.loc x

theorem cacheOf_eq (cfg : Cfg) (x : Nat) (s : Sys) (id : UInt16) :
    cacheOf cfg x s id = cacheAt s (area cfg x id) := by
  unfold cacheOf area; split <;> rfl

theorem cacheAt_setCache (cfg : Cfg) (x : Nat) (s : Sys) (id : UInt16) (c : Cache)
    (a : Option Nat) :
    cacheAt (setCache cfg x s id c) a = if a = area cfg x id then c else cacheAt s a := by
  unfold setCache area
  split
  · cases a <;> simp [cacheAt]
  · cases a with
    | none => simp [cacheAt]
    | some y => simp [cacheAt]

theorem setCache_nvm (cfg : Cfg) (x : Nat) (s : Sys) (id : UInt16) (c : Cache) :
    (setCache cfg x s id c).nvm = s.nvm := by
  unfold setCache; split <;> rfl

theorem cached_eq (cfg : Cfg) (x : Nat) (s : Sys) (id : UInt16) :
    cached cfg x s id = (cacheAt s (area cfg x id)).find id := by
  unfold cached; rw [cacheOf_eq]

@[simp] theorem cacheAt_nvm (s : Sys) (n : Nvm) (a : Option Nat) :
    cacheAt { s with nvm := n } a = cacheAt s a := by
  cases a <;> rfl

/-- Well-formed states. -/
structure WF (s : Sys) : Prop where
  uniq : ∀ a, (cacheAt s a).Uniq
  clen : ∀ a id k, (cacheAt s a).find id = some k → k.md.len.toNat = k.data.length
  nvm : ∀ id md bs, s.nvm.store id = some (md, bs) → md.id = id ∧ md.len.toNat = bs.length
  pend : ∀ md bs, s.nvm.pending = some (md, bs) → bs.length < 65536

/-- What the target of a transition looks like: cached entry, NVM entry, pending add. -/
structure E where
  c : Option CKey
  n : Option (Meta × List UInt8)
  p : Option (Meta × List UInt8)

/-- The entry of an id. -/
def ent (cfg : Cfg) (x : Nat) (s : Sys) (id : UInt16) : E :=
  ⟨cached cfg x s id, s.nvm.store id, s.nvm.pending⟩

/-- No TRUSTED flag. -/
abbrev Untrusted (md : Meta) : Prop := hasFlag md.flags Flag.trusted = false

/-- The policy allows replacing the cached key. -/
def MayCache (e : E) : Prop :=
  match e.c, e.n with
  | some k, _ => Untrusted k.md ∧ hasFlag k.md.flags Flag.nonModifiable = false
  | none, some (md, _) => Untrusted md ∧ hasFlag md.flags Flag.nonModifiable = false
  | none, none => True

/-- The policy allows removing the cached key. -/
def EvictOk (e : E) : Prop :=
  ∀ k, e.c = some k → Untrusted k.md ∧
    (k.committed = true ∨ hasFlag k.md.flags Flag.nonModifiable = false)

theorem MayCache.evictOk {e : E} (h : MayCache e) : EvictOk e := by
  intro k hk
  unfold MayCache at h
  rw [hk] at h
  exact ⟨h.1, Or.inr h.2⟩

/-- Elementary transitions of one id. -/
inductive EStep (F : Par) (id : UInt16) : E → E → Prop where
  | refl (e) : EStep F id e e
  | quiet (e : E) : EStep F id e { e with p := none }
  | evict (e : E) (hw : F.w id) (he : EvictOk e ∨ F.force id) : EStep F id e { e with c := none }
  | load {e : E} {md bs} (hc : e.c = none) (hn : e.n = some (md, bs)) :
      EStep F id e { e with c := some ⟨md, bs, true⟩ }
  | insert {e : E} {md : Meta} {data : List UInt8} (hw : F.w id) (hg : F.gives md data) (hid : md.id = id) (ht : Untrusted md)
      (hl : md.len.toNat = data.length) (hm : MayCache e) :
      EStep F id e { e with c := some ⟨md, data, false⟩ }
  | unwrap {e : E} {md : Meta} {data : List UInt8} (hw : F.w id) (hg : F.gives md data) (hid : md.id = id) (ht : Untrusted md)
      (hl : md.len.toNat = data.length) (hc : e.c = none)
      (hty : KeyId.typeOf id = KeyId.typeWrapped ∨ KeyId.typeOf id = KeyId.typeShe) :
      EStep F id e { e with c := some ⟨md, data, false⟩ }
  | commit {e : E} {k : CKey} (hw : F.w id) (hc : e.c = some k) (ht : Untrusted k.md) :
      EStep F id e ⟨some { k with committed := true }, some (k.md, k.data), none⟩
  | commitCut {e : E} {k : CKey} (hw : F.w id) (hc : e.c = some k) (ht : Untrusted k.md) :
      EStep F id e ⟨e.c, some (k.md, k.data), none⟩
  | commitPend {e : E} {k : CKey} (hw : F.w id) (hc : e.c = some k) (ht : Untrusted k.md) :
      EStep F id e ⟨e.c, e.n, some (k.md, k.data)⟩
  | revoke {e : E} {k : CKey} (hw : F.w id ∧ F.rev id) (hc : e.c = some k) (ht : Untrusted k.md) (hn : e.n ≠ none) :
      EStep F id e ⟨some { k with md := revokeMeta k.md, committed := true },
        some (revokeMeta k.md, k.data), none⟩
  | revokeRam {e : E} {k : CKey} (hw : F.w id ∧ F.rev id) (hc : e.c = some k) (ht : Untrusted k.md) (hn : e.n = none) :
      EStep F id e { e with c := some { k with md := revokeMeta k.md } }
  | revokeFail {e : E} {k : CKey} {n p : Option (Meta × List UInt8)} (hw : F.w id ∧ F.rev id) (hF : F.fail) (hc : e.c = some k)
      (ht : Untrusted k.md) (hn : n = e.n ∨ n = some (revokeMeta k.md, k.data))
      (hp : p = e.p ∨ p = none ∨ p = some (revokeMeta k.md, k.data)) :
      EStep F id e ⟨some { k with md := revokeMeta k.md }, n, p⟩
  | destroy {e : E} (hw : F.w id ∧ F.des id) (hc : e.c = none) (hp : ∀ md bs, e.n = some (md, bs) → Untrusted md ∧
        hasFlag md.flags Flag.nonModifiable = false ∧ hasFlag md.flags Flag.nonDestroyable = false) :
      EStep F id e ⟨e.c, none, none⟩

/-- Everything else: other caches untouched, in the same cache only committed entries may
disappear, other NVM objects untouched. -/
structure Frame (cfg : Cfg) (x : Nat) (id : UInt16) (s s' : Sys) : Prop where
  areas : ∀ a, a ≠ area cfg x id → cacheAt s' a = cacheAt s a
  uniq : (cacheAt s' (area cfg x id)).Uniq
  others : ∀ i, i ≠ id →
    (cacheAt s' (area cfg x id)).find i = (cacheAt s (area cfg x id)).find i ∨
    ∃ k, (cacheAt s (area cfg x id)).find i = some k ∧ k.committed = true ∧
      (cacheAt s' (area cfg x id)).find i = none
  store : ∀ i, i ≠ id → s'.nvm.store i = s.nvm.store i

/-- An elementary transition with target `id`. -/
structure Tr (F : Par) (cfg : Cfg) (x : Nat) (id : UInt16) (s s' : Sys) : Prop where
  frame : Frame cfg x id s s'
  step : EStep F id (ent cfg x s id) (ent cfg x s' id)

/-- Sequences of elementary transitions with targets in `T`. -/
inductive Trs (F : Par) (cfg : Cfg) (x : Nat) (T : UInt16 → Prop) : Sys → Sys → Prop where
  | nil (s) : Trs F cfg x T s s
  | cons {s s' s'' id} (hT : T id) (h : Tr F cfg x id s s') (t : Trs F cfg x T s' s'') :
      Trs F cfg x T s s''

theorem Trs.one {cfg : Cfg} {x : Nat} {T : UInt16 → Prop} {s s' : Sys} {id : UInt16} (hT : T id)
    (h : Tr F cfg x id s s') : Trs F cfg x T s s' := .cons hT h (.nil _)

theorem Trs.trans {cfg : Cfg} {x : Nat} {T : UInt16 → Prop} {s s' s'' : Sys}
    (h : Trs F cfg x T s s') (h' : Trs F cfg x T s' s'') : Trs F cfg x T s s'' := by
  induction h with
  | nil => exact h'
  | cons hT h _ ih => exact .cons hT h (ih h')

theorem Trs.mono {cfg : Cfg} {x : Nat} {T T' : UInt16 → Prop} {s s' : Sys}
    (hT : ∀ i, T i → T' i) (h : Trs F cfg x T s s') : Trs F cfg x T' s s' := by
  induction h with
  | nil => exact .nil _
  | cons hT' h _ ih => exact .cons (hT _ hT') h ih

theorem EStep.weaken {F F' : Par} (hF : F.le F') {id : UInt16} {e e' : E} (h : EStep F id e e') :
    EStep F' id e e' := by
  cases h with
  | refl => exact .refl _
  | quiet => exact .quiet _
  | evict a b => exact .evict _ (hF.2.2.1 _ a) (b.imp_right (hF.2.2.2.1 _))
  | load a b => exact .load a b
  | insert w g a b c d => exact .insert (hF.2.2.1 _ w) (hF.2.1 _ _ g) a b c d
  | unwrap w g a b c d e => exact .unwrap (hF.2.2.1 _ w) (hF.2.1 _ _ g) a b c d e
  | commit w a b => exact .commit (hF.2.2.1 _ w) a b
  | commitCut w a b => exact .commitCut (hF.2.2.1 _ w) a b
  | commitPend w a b => exact .commitPend (hF.2.2.1 _ w) a b
  | revoke w a b c => exact .revoke ⟨hF.2.2.1 _ w.1, hF.2.2.2.2.1 _ w.2⟩ a b c
  | revokeRam w a b c => exact .revokeRam ⟨hF.2.2.1 _ w.1, hF.2.2.2.2.1 _ w.2⟩ a b c
  | revokeFail w a b c d e => exact .revokeFail ⟨hF.2.2.1 _ w.1, hF.2.2.2.2.1 _ w.2⟩ (hF.1 a) b c d e
  | destroy w a b => exact .destroy ⟨hF.2.2.1 _ w.1, hF.2.2.2.2.2 _ w.2⟩ a b

theorem Trs.weaken {F F' : Par} (hF : F.le F') {cfg : Cfg} {x : Nat} {T : UInt16 → Prop}
    {s s' : Sys} (h : Trs F cfg x T s s') : Trs F' cfg x T s s' := by
  induction h with
  | nil => exact .nil _
  | cons hT h _ ih => exact .cons hT ⟨h.frame, h.step.weaken hF⟩ ih

theorem Frame.refl {cfg : Cfg} {x : Nat} {id : UInt16} {s : Sys} (h : WF s) :
    Frame cfg x id s s :=
  ⟨fun _ _ => rfl, h.uniq _, fun _ _ => Or.inl rfl, fun _ _ => rfl⟩

theorem withLen_self {md : Meta} {data : List UInt8} (h : md.len.toNat = data.length) :
    withLen md data = md := by
  unfold withLen
  rw [← h]
  simp

theorem len_lt {md : Meta} {data : List UInt8} (h : md.len.toNat = data.length) :
    data.length < 65536 := by
  rw [← h]; exact md.len.toNat_lt

theorem revokeMeta_id (md : Meta) : (revokeMeta md).id = md.id := rfl
theorem revokeMeta_len (md : Meta) : (revokeMeta md).len = md.len := rfl

theorem EStep.len {id : UInt16} {e e' : E} (h : EStep F id e e')
    (hcid : ∀ k, e.c = some k → k.md.id = id)
    (hc : ∀ k, e.c = some k → k.md.len.toNat = k.data.length)
    (hn : ∀ md bs, e.n = some (md, bs) → md.id = id ∧ md.len.toNat = bs.length)
    (hp : ∀ md bs, e.p = some (md, bs) → bs.length < 65536) :
    (∀ k, e'.c = some k → k.md.len.toNat = k.data.length) ∧
    (∀ md bs, e'.n = some (md, bs) → md.id = id ∧ md.len.toNat = bs.length) ∧
    (∀ md bs, e'.p = some (md, bs) → bs.length < 65536) := by
  cases h with
  | refl => exact ⟨hc, hn, hp⟩
  | quiet => exact ⟨hc, hn, by simp⟩
  | evict => exact ⟨by simp, hn, hp⟩
  | load hc' hn' => exact ⟨by rintro k ⟨⟩; exact (hn _ _ hn').2, hn, hp⟩
  | insert hw hg hid ht hl hm => exact ⟨by rintro k ⟨⟩; exact hl, hn, hp⟩
  | unwrap hw hg hid ht hl hc' => exact ⟨by rintro k ⟨⟩; exact hl, hn, hp⟩
  | commit hw hc' ht =>
    exact ⟨by rintro k ⟨⟩; have := hc _ hc'; exact this,
      by rintro md bs ⟨⟩; exact ⟨hcid _ hc', hc _ hc'⟩, by simp⟩
  | commitCut hw hc' ht =>
    exact ⟨hc, by rintro md bs ⟨⟩; exact ⟨hcid _ hc', hc _ hc'⟩, by simp⟩
  | commitPend hw hc' ht =>
    exact ⟨hc, hn, by rintro md bs ⟨⟩; exact len_lt (hc _ hc')⟩
  | revoke hw hc' ht hn' =>
    exact ⟨by rintro k ⟨⟩; have := hc _ hc'; exact this,
      by rintro md bs ⟨⟩; exact ⟨hcid _ hc', hc _ hc'⟩, by simp⟩
  | revokeRam hw hc' ht => exact ⟨by rintro k ⟨⟩; have := hc _ hc'; exact this, hn, hp⟩
  | revokeFail hw hF hc' ht hn' hp' =>
    refine ⟨by rintro k ⟨⟩; have := hc _ hc'; exact this, ?_, ?_⟩
    · rcases hn' with rfl | rfl
      · exact hn
      · rintro md bs ⟨⟩; exact ⟨hcid _ hc', hc _ hc'⟩
    · rcases hp' with rfl | rfl | rfl
      · exact hp
      · simp
      · rintro md bs ⟨⟩; exact len_lt (hc _ hc')
  | destroy hw hc' hp' => exact ⟨hc, by simp, by simp⟩

theorem Tr.wf {cfg : Cfg} {x : Nat} {id : UInt16} {s s' : Sys} (h : Tr F cfg x id s s')
    (hw : WF s) : WF s' := by
  have key := h.step.len (hcid := fun k hk => by
      simp only [ent, cached_eq] at hk; exact Cache.find_id hk)
    (hc := fun k hk => by simp only [ent, cached_eq] at hk; exact hw.clen _ _ _ hk)
    (hn := fun md bs hk => hw.nvm _ _ _ hk) (hp := fun md bs hk => hw.pend _ _ hk)
  refine ⟨?_, ?_, ?_, ?_⟩
  · intro a
    by_cases ha : a = area cfg x id
    · subst ha; exact h.frame.uniq
    · rw [h.frame.areas a ha]; exact hw.uniq a
  · intro a i k hk
    by_cases ha : a = area cfg x id
    · subst ha
      by_cases hi : i = id
      · subst hi
        exact key.1 k (by simpa only [ent, cached_eq] using hk)
      · rcases h.frame.others i hi with h1 | ⟨k', -, -, h1⟩
        · exact hw.clen _ _ _ (h1 ▸ hk)
        · rw [h1] at hk; cases hk
    · rw [h.frame.areas a ha] at hk; exact hw.clen _ _ _ hk
  · intro i md bs hi
    by_cases hid : i = id
    · subst hid; exact key.2.1 md bs hi
    · rw [h.frame.store i hid] at hi; exact hw.nvm _ _ _ hi
  · intro md bs hp; exact key.2.2 md bs hp

theorem Trs.wf {cfg : Cfg} {x : Nat} {T : UInt16 → Prop} {s s' : Sys} (h : Trs F cfg x T s s')
    (hw : WF s) : WF s' := by
  induction h with
  | nil => exact hw
  | cons _ h _ ih => exact ih (h.wf hw)

/-! ## Building transitions -/

/-- Updating the entry of the id in its cache. -/
theorem frame_update {cfg : Cfg} {x : Nat} {id : UInt16} {s : Sys}
    (hw : (cacheAt s (area cfg x id)).Uniq)
    {f : CKey → Slot} (hf : KeepsId f) (n : Nvm) (hn : ∀ i, i ≠ id → n.store i = s.nvm.store i) :
    Frame cfg x id s { setCache cfg x s id ((cacheOf cfg x s id).update id f) with nvm := n } ∧
    cached cfg x { setCache cfg x s id ((cacheOf cfg x s id).update id f) with nvm := n } id =
      (cached cfg x s id).bind f := by
  refine ⟨⟨?_, ?_, ?_, hn⟩, ?_⟩
  · intro a ha
    rw [cacheAt_nvm, cacheAt_setCache, if_neg ha]
  · rw [cacheAt_nvm, cacheAt_setCache, if_pos rfl, cacheOf_eq]
    exact Cache.uniq_update hw _ hf
  · intro i hi
    left
    rw [cacheAt_nvm, cacheAt_setCache, if_pos rfl, cacheOf_eq]
    exact Cache.find_update_other _ hf hi
  · rw [cached_eq, cached_eq, cacheAt_nvm, cacheAt_setCache, if_pos rfl, cacheOf_eq]
    exact Cache.find_update_self hw hf

/-- A change of the NVM only. -/
theorem frame_nvm {cfg : Cfg} {x : Nat} {id : UInt16} {s : Sys} (hw : WF s) (n : Nvm)
    (hn : ∀ i, i ≠ id → n.store i = s.nvm.store i) :
    Frame cfg x id s { s with nvm := n } ∧
    cached cfg x { s with nvm := n } id = cached cfg x s id := by
  refine ⟨⟨?_, ?_, ?_, hn⟩, ?_⟩
  · intro a _; rw [cacheAt_nvm]
  · rw [cacheAt_nvm]; exact hw.uniq _
  · intro i _; left; rw [cacheAt_nvm]
  · rw [cached_eq, cached_eq, cacheAt_nvm]

theorem setCache_with_nvm (cfg : Cfg) (x : Nat) (s : Sys) (id : UInt16) (c : Cache) :
    { setCache cfg x s id c with nvm := s.nvm } = setCache cfg x s id c := by
  unfold setCache; split <;> rfl

theorem setCache_nvm_comm (cfg : Cfg) (x : Nat) (s : Sys) (id : UInt16) (c : Cache) (n : Nvm) :
    setCache cfg x { s with nvm := n } id c = { setCache cfg x s id c with nvm := n } := by
  unfold setCache; split <;> rfl

theorem cacheOf_nvm (cfg : Cfg) (x : Nat) (s : Sys) (id : UInt16) (n : Nvm) :
    cacheOf cfg x { s with nvm := n } id = cacheOf cfg x s id := by
  unfold cacheOf; split <;> rfl

/-- A slot has been reserved for `id`. -/
structure Slotted (cfg : Cfg) (x : Nat) (id : UInt16) (loc : Loc) (s s' : Sys) : Prop where
  frame : Frame cfg x id s s'
  at_ : (cacheAt s' (area cfg x id)).at? loc = some none
  gone : cached cfg x s' id = none
  nvm : s'.nvm = s.nvm

theorem reserveIn_cases {cfg : Cfg} {x : Nat} {s : Sys} {id : UInt16} {sz : Nat} (hw : WF s)
    (hc : cached cfg x s id = none) {P : Rc × Option Loc × Sys → Prop}
    (hok : ∀ loc s', Slotted cfg x id loc s s' → P (.ok, some loc, s'))
    (hno : P (.nospace, none, s)) : P (reserveIn cfg x s id sz) := by
  unfold reserveIn
  split
  · rename_i loc c hr
    rw [cacheOf_eq] at hr
    obtain ⟨h1, h2, h3⟩ := reserve_spec (hw.uniq _) hr
    apply hok
    refine ⟨⟨?_, ?_, ?_, ?_⟩, ?_, ?_, ?_⟩
    · intro a ha; rw [cacheAt_setCache, if_neg ha]
    · rw [cacheAt_setCache, if_pos rfl]; exact h2
    · intro i _; rw [cacheAt_setCache, if_pos rfl]; exact h3 i
    · intro i _; rw [setCache_nvm]
    · rw [cacheAt_setCache, if_pos rfl]; exact h1
    · rw [cached_eq, cacheAt_setCache, if_pos rfl]
      rw [cached_eq] at hc
      rcases h3 id with h | ⟨k, h, -, -⟩
      · rw [h, hc]
      · rw [hc] at h; cases h
    · rw [setCache_nvm]
  · exact hno

theorem evicted {cfg : Cfg} {x : Nat} {s : Sys} {id : UInt16} (hw : WF s) :
    Frame cfg x id s (setCache cfg x s id ((cacheOf cfg x s id).evict id)) ∧
    cached cfg x (setCache cfg x s id ((cacheOf cfg x s id).evict id)) id = none ∧
    (setCache cfg x s id ((cacheOf cfg x s id).evict id)).nvm = s.nvm := by
  have h := frame_update (cfg := cfg) (x := x) (id := id) (hw.uniq _) keepsId_none s.nvm (fun _ _ => rfl)
  rw [setCache_with_nvm] at h
  refine ⟨h.1, ?_, setCache_nvm _ _ _ _ _⟩
  have := h.2
  rw [show (cached cfg x s id).bind (fun _ => (none : Slot)) = none by cases cached cfg x s id <;> rfl] at this
  exact this

theorem ent_eq {cfg : Cfg} {x : Nat} {s : Sys} {id : UInt16} {e : E}
    (h1 : cached cfg x s id = e.c) (h2 : s.nvm.store id = e.n) (h3 : s.nvm.pending = e.p) :
    ent cfg x s id = e := by
  unfold ent; rw [h1, h2, h3]

/-- Evicting the target, possibly together with committed entries. -/
theorem tr_evict {cfg : Cfg} {x : Nat} {s s' : Sys} {id : UInt16} (hf : Frame cfg x id s s')
    (hc : cached cfg x s' id = none) (hn : s'.nvm = s.nvm) (hwr : F.w id)
    (he : EvictOk (ent cfg x s id) ∨ F.force id) : Tr F cfg x id s s' := by
  refine ⟨hf, ?_⟩
  have : ent cfg x s' id = { ent cfg x s id with c := none } :=
    ent_eq hc (by rw [hn]; rfl) (by rw [hn]; rfl)
  rw [this]
  exact .evict _ hwr he

theorem Frame.trans {cfg : Cfg} {x : Nat} {s s' s'' : Sys} {id : UInt16}
    (h : Frame cfg x id s s') (h' : Frame cfg x id s' s'') : Frame cfg x id s s'' := by
  refine ⟨?_, h'.uniq, ?_, ?_⟩
  · intro a ha; rw [h'.areas a ha, h.areas a ha]
  · intro i hi
    rcases h'.others i hi with h1 | ⟨k, h1, h2, h3⟩
    · rw [h1]; exact h.others i hi
    · rcases h.others i hi with h4 | ⟨k', h4, h5, h6⟩
      · right; exact ⟨k, h4 ▸ h1, h2, h3⟩
      · rw [h6] at h1; cases h1
  · intro i hi; rw [h'.store i hi, h.store i hi]

theorem getSlot_cases {cfg : Cfg} {x : Nat} {s : Sys} {id : UInt16} {sz : Nat} (hw : WF s)
    {P : Rc × Option Loc × Sys → Prop}
    (hok : ∀ loc s', Slotted cfg x id loc s s' → P (.ok, some loc, s'))
    (herr : ∀ rc, rc ≠ .ok → P (rc, none, s))
    (hev : ∀ rc s', rc ≠ .ok → Frame cfg x id s s' → cached cfg x s' id = none → s'.nvm = s.nvm →
      cached cfg x s id ≠ none → P (rc, none, s')) :
    P (getSlot cfg x s id sz) := by
  unfold getSlot
  split
  · exact herr _ (by simp)
  · split
    · exact herr _ (by simp)
    · split
      · rename_i k hk
        unfold evictKey
        by_cases hu : KeyId.isUnassigned id = true
        · simp only [hu, if_true]
          exact herr _ (by simp)
        · by_cases hh : isHw cfg id = true
          · simp only [hu, hh, if_true]
            exact herr _ (by simp)
          · simp only [hu, hh, hk]
            simp only [Bool.false_eq_true, if_false]
            obtain ⟨h1, h2, h3⟩ := evicted (cfg := cfg) (x := x) (id := id) hw
            have hw' := (tr_evict (F := Par.any) h1 h2 h3 trivial (Or.inr trivial)).wf hw
            refine reserveIn_cases hw' h2 ?_ ?_
            · intro loc s' hs
              exact hok loc s' ⟨h1.trans hs.frame, hs.at_, hs.gone, by rw [hs.nvm, h3]⟩
            · exact hev _ _ (by simp) h1 h2 h3 (by rw [hk]; simp)
      · rename_i hk
        exact reserveIn_cases hw hk hok (herr _ (by simp))

theorem Slotted.tr {cfg : Cfg} {x : Nat} {s s' : Sys} {id : UInt16} {loc : Loc}
    (h : Slotted cfg x id loc s s') (hwr : F.w id) (he : EvictOk (ent cfg x s id) ∨ F.force id) :
    Tr F cfg x id s s' := tr_evict h.frame h.gone h.nvm hwr he

/-- Filling the reserved slot. -/
theorem Slotted.fill {cfg : Cfg} {x : Nat} {s s' : Sys} {loc : Loc} {md : Meta}
    (h : Slotted cfg x md.id loc s s') (data : List UInt8) :
    Frame cfg x md.id s (Keystore.fill cfg x s' loc md data) ∧
    cached cfg x (Keystore.fill cfg x s' loc md data) md.id = some ⟨md, data, false⟩ ∧
    (Keystore.fill cfg x s' loc md data).nvm = s.nvm := by
  have hp := put_spec (k := ⟨md, data, false⟩) h.frame.uniq h.at_
    (by have := h.gone; rw [cached_eq] at this; exact this)
  unfold Keystore.fill
  refine ⟨⟨?_, ?_, ?_, ?_⟩, ?_, ?_⟩
  · intro a ha; rw [cacheAt_setCache, if_neg ha]; exact h.frame.areas a ha
  · rw [cacheAt_setCache, if_pos rfl, cacheOf_eq]; exact hp.1
  · intro i hi
    rw [cacheAt_setCache, if_pos rfl, cacheOf_eq, hp.2 i, if_neg (Ne.symm hi)]
    exact h.frame.others i hi
  · intro i _; rw [setCache_nvm, h.nvm]
  · rw [cached_eq, cacheAt_setCache, if_pos rfl, cacheOf_eq, hp.2]
    simp
  · rw [setCache_nvm, h.nvm]

theorem judge_cache_ok {flags : UInt16} {b : Bool} (h : judge .cache flags b = .ok) :
    hasFlag flags Flag.trusted = false ∧ hasFlag flags Flag.nonModifiable = false := by
  unfold judge at h
  by_cases h1 : hasFlag flags Flag.trusted = true
  · simp [h1] at h
  · by_cases h2 : hasFlag flags Flag.nonModifiable = true
    · simp [h1, h2] at h
    · exact ⟨by simpa using h1, by simpa using h2⟩

theorem judge_ok_untrusted {op : Op} {flags : UInt16} {b : Bool} (h : judge op flags b = .ok) :
    hasFlag flags Flag.trusted = false := by
  unfold judge at h
  by_cases h1 : hasFlag flags Flag.trusted = true
  · simp [h1] at h
  · simpa using h1

theorem judge_ne_notfound {op : Op} {flags : UInt16} {b : Bool} : judge op flags b ≠ .notfound := by
  unfold judge
  cases op <;> cases b <;> simp <;> split <;> simp_all <;> split <;> simp

/-- The cases of the policy check. -/
theorem policy_cases (cfg : Cfg) (x : Nat) (s : Sys) (op : Op) (id : UInt16) :
    (∃ k, cached cfg x s id = some k ∧ policy cfg x s op id = judge op k.md.flags k.committed) ∨
    (cached cfg x s id = none ∧ ∃ md bs, s.nvm.store id = some (md, bs) ∧
      policy cfg x s op id = judge op md.flags false) ∨
    (cached cfg x s id = none ∧ s.nvm.store id = none ∧ policy cfg x s op id = .notfound) ∨
    policy cfg x s op id = .badargs ∨ policy cfg x s op id = .access := by
  unfold policy
  by_cases h1 : KeyId.isUnassigned id = true
  · simp [h1]
  · by_cases h2 : isHw cfg id = true
    · simp [h1, h2]
    · simp only [h1, h2, Bool.false_eq_true, if_false]
      cases hc : cached cfg x s id with
      | some k => left; exact ⟨k, rfl, rfl⟩
      | none =>
        right
        rcases hn : s.nvm.store id with _ | ⟨md, bs⟩
        · right; left; simp [Nvm.metadata_none hn]
        · left; exact ⟨rfl, md, bs, rfl, by simp [Nvm.metadata_some hn]⟩

theorem policy_cache_mayCache {cfg : Cfg} {x : Nat} {s : Sys} {id : UInt16}
    (h : policy cfg x s .cache id = .ok ∨ policy cfg x s .cache id = .notfound) :
    MayCache (ent cfg x s id) := by
  unfold MayCache ent
  rcases policy_cases cfg x s .cache id with ⟨k, h1, h2⟩ | ⟨h1, md, bs, h2, h3⟩ | ⟨h1, h2, h3⟩ | h1 | h1
  · simp only [h1]
    rw [h2] at h
    exact judge_cache_ok (h.resolve_right judge_ne_notfound)
  · simp only [h1, h2]
    rw [h3] at h
    exact judge_cache_ok (h.resolve_right judge_ne_notfound)
  · simp only [h1, h2]
  · rw [h1] at h; simp at h
  · rw [h1] at h; simp at h

theorem getSlotChecked_cases {cfg : Cfg} {x : Nat} {s : Sys} {id : UInt16} {sz : Nat} (hw : WF s)
    (hwr : F.w id) {P : Rc × Option Loc × Sys → Prop}
    (hok : ∀ loc s', MayCache (ent cfg x s id) → Slotted cfg x id loc s s' → P (.ok, some loc, s'))
    (herr : ∀ rc, rc ≠ .ok → P (rc, none, s))
    (hev : ∀ rc s', rc ≠ .ok → Tr F cfg x id s s' → P (rc, none, s')) :
    P (getSlotChecked cfg x s id sz) := by
  unfold getSlotChecked
  dsimp only
  split
  · rename_i h
    exact getSlot_cases hw (fun loc s' => hok loc s' (policy_cache_mayCache h)) herr
      (fun rc s' h1 h2 h3 h4 _ => hev rc s' h1
        (tr_evict h2 h3 h4 hwr (Or.inl (policy_cache_mayCache h).evictOk)))
  · rename_i h
    exact herr _ (fun hc => h (Or.inl hc))

/-- `getSlotChecked_cases` as a disjunction. -/
theorem getSlotChecked_or {cfg : Cfg} {x : Nat} {s : Sys} (id : UInt16) (sz : Nat) (hw : WF s)
    (hwr : F.w id) :
    (∃ loc s', MayCache (ent cfg x s id) ∧ Slotted cfg x id loc s s' ∧
      getSlotChecked cfg x s id sz = (.ok, some loc, s')) ∨
    (∃ rc s', rc ≠ .ok ∧ Tr F cfg x id s s' ∧ getSlotChecked cfg x s id sz = (rc, none, s')) := by
  refine getSlotChecked_cases (F := F) (P := fun r => (∃ loc s', MayCache (ent cfg x s id) ∧
    Slotted cfg x id loc s s' ∧ r = (.ok, some loc, s')) ∨
    (∃ rc s', rc ≠ .ok ∧ Tr F cfg x id s s' ∧ r = (rc, none, s'))) hw hwr ?_ ?_ ?_
  · intro loc s' h1 h2; exact Or.inl ⟨loc, s', h1, h2, rfl⟩
  · intro rc h; exact Or.inr ⟨rc, s, h, ⟨.refl hw, .refl _⟩, rfl⟩
  · intro rc s' h1 h2; exact Or.inr ⟨rc, s', h1, h2, rfl⟩

/-- `getSlot_cases` for an id that is not cached, as a disjunction. -/
theorem getSlot_or {cfg : Cfg} {x : Nat} {s : Sys} {id : UInt16} (sz : Nat) (hw : WF s)
    (hc : cached cfg x s id = none) :
    (∃ loc s', Slotted cfg x id loc s s' ∧ getSlot cfg x s id sz = (.ok, some loc, s')) ∨
    (∃ rc, rc ≠ .ok ∧ getSlot cfg x s id sz = (rc, none, s)) := by
  refine getSlot_cases (P := fun r => (∃ loc s', Slotted cfg x id loc s s' ∧
    r = (.ok, some loc, s')) ∨ (∃ rc, rc ≠ .ok ∧ r = (rc, none, s))) hw ?_ ?_ ?_
  · intro loc s' h2; exact Or.inl ⟨loc, s', h2, rfl⟩
  · intro rc h; exact Or.inr ⟨rc, h, rfl⟩
  · intro rc s' h1 _ _ _ h3; exact absurd hc h3

end WolfHsm.Keystore

import Verif.Proofs.Keystore

/-! # The key store operations as elementary transitions -/

namespace WolfHsm.Keystore

open NvmFlash (Meta Store withLen)

variable {F : Par}

/-- The key has been put into the cache as a new, uncommitted entry. -/
structure Filled (cfg : Cfg) (x : Nat) (s s' : Sys) (md : Meta) (data : List UInt8) : Prop where
  frame : Frame cfg x md.id s s'
  entry : cached cfg x s' md.id = some ⟨md, data, false⟩
  nvm : s'.nvm = s.nvm

theorem Filled.ent {cfg : Cfg} {x : Nat} {s s' : Sys} {md : Meta} {data : List UInt8}
    (h : Filled cfg x s s' md data) :
    ent cfg x s' md.id = { ent cfg x s md.id with c := some ⟨md, data, false⟩ } :=
  ent_eq h.entry (by rw [h.nvm]; rfl) (by rw [h.nvm]; rfl)

theorem Filled.tr {cfg : Cfg} {x : Nat} {s s' : Sys} {md : Meta} {data : List UInt8}
    (h : Filled cfg x s s' md data) (hwr : F.w md.id) (hg : F.gives md data) (ht : Untrusted md) (hl : md.len.toNat = data.length)
    (hm : MayCache (Keystore.ent cfg x s md.id)) : Tr F cfg x md.id s s' :=
  ⟨h.frame, by rw [h.ent]; exact .insert hwr hg rfl ht hl hm⟩

theorem Filled.tr_unwrap {cfg : Cfg} {x : Nat} {s s' : Sys} {md : Meta} {data : List UInt8}
    (h : Filled cfg x s s' md data) (hwr : F.w md.id) (hg : F.gives md data) (ht : Untrusted md) (hl : md.len.toNat = data.length)
    (hc : cached cfg x s md.id = none)
    (hty : KeyId.typeOf md.id = KeyId.typeWrapped ∨ KeyId.typeOf md.id = KeyId.typeShe) :
    Tr F cfg x md.id s s' :=
  ⟨h.frame, by rw [h.ent]; exact .unwrap hwr hg rfl ht hl hc hty⟩

theorem Slotted.filled {cfg : Cfg} {x : Nat} {s s' : Sys} {loc : Loc} {md : Meta}
    (h : Slotted cfg x md.id loc s s') (data : List UInt8) :
    Filled cfg x s (Keystore.fill cfg x s' loc md data) md data :=
  ⟨(h.fill data).1, (h.fill data).2.1, (h.fill data).2.2⟩

theorem Tr.of_refl {cfg : Cfg} {x : Nat} {id : UInt16} {s : Sys} (hw : WF s) :
    Tr F cfg x id s s := ⟨.refl hw, .refl _⟩

theorem cacheKey_checked_cases {cfg : Cfg} {x : Nat} {s : Sys} {md : Meta} {data : List UInt8}
    (hw : WF s) (hwr : F.w md.id) {P : Rc × Sys → Prop}
    (hok : ∀ s', MayCache (ent cfg x s md.id) → Filled cfg x s s' md data →
      KeyId.isUnassigned md.id = false → cfg.statefulBlob data = false → P (.ok, s'))
    (herr : ∀ rc s', rc ≠ .ok → Tr F cfg x md.id s s' → P (rc, s')) :
    P (cacheKey cfg x s true md data) := by
  unfold cacheKey
  split
  · exact herr _ _ (by simp) (.of_refl hw)
  · split
    · exact herr _ _ (by simp) (.of_refl hw)
    · split
      · exact herr _ _ (by simp) (.of_refl hw)
      · split
        · exact herr _ _ (by simp) (.of_refl hw)
        · simp only [if_true]
          refine getSlotChecked_cases (F := F) (P := fun r => P (match r with
            | (.ok, some loc, s') => (.ok, fill cfg x s' loc md data)
            | (rc, _, s') => (rc, s'))) hw hwr ?_ ?_ ?_
          · intro loc s' hm hs
            exact hok _ hm (hs.filled data) (by simp_all) (by simp_all)
          · intro rc hrc
            cases rc <;> first | exact absurd rfl hrc | exact herr _ _ (by simp) (.of_refl hw)
          · intro rc s' hrc ht
            cases rc <;> first | exact absurd rfl hrc | exact herr _ _ (by simp) ht

theorem cacheKey_unchecked_cases {cfg : Cfg} {x : Nat} {s : Sys} {md : Meta} {data : List UInt8}
    (hw : WF s) (hc : cached cfg x s md.id = none) {P : Rc × Sys → Prop}
    (hok : ∀ s', Filled cfg x s s' md data → P (.ok, s'))
    (herr : ∀ rc, rc ≠ .ok → P (rc, s)) :
    P (cacheKey cfg x s false md data) := by
  unfold cacheKey
  split
  · exact herr _ (by simp)
  · split
    · exact herr _ (by simp)
    · split
      · exact herr _ (by simp)
      · split
        · exact herr _ (by simp)
        · simp only [Bool.false_eq_true, if_false]
          refine getSlot_cases (P := fun r => P (match r with
            | (.ok, some loc, s') => (.ok, fill cfg x s' loc md data)
            | (rc, _, s') => (rc, s'))) hw ?_ ?_ ?_
          · intro loc s' hs
            exact hok _ (hs.filled data)
          · intro rc hrc
            cases rc <;> first | exact absurd rfl hrc | exact herr _ (by simp)
          · intro rc s' hrc _ _ _ h
            exact absurd hc h

theorem cacheRandomKey_cases {cfg : Cfg} {x : Nat} {s : Sys} {md : Meta}
    {rng : Except Rc (Nat → UInt8)} (hw : WF s) (hwr : F.w md.id) {P : Rc × Sys → Prop}
    (hok : ∀ s' f, rng = .ok f → MayCache (ent cfg x s md.id) →
      Filled cfg x s s' md ((List.range md.len.toNat).map f) → P (.ok, s'))
    (herr : ∀ rc s', rc ≠ .ok → Tr F cfg x md.id s s' → P (rc, s')) :
    P (cacheRandomKey cfg x s md rng) := by
  unfold cacheRandomKey
  split
  · exact herr _ _ (by simp) (.of_refl hw)
  · split
    · exact herr _ _ (by simp) (.of_refl hw)
    · split
      · exact herr _ _ (by simp) (.of_refl hw)
      · rcases getSlotChecked_or (cfg := cfg) (x := x) md.id md.len.toNat hw hwr with
          ⟨loc, s', hm, hs, e⟩ | ⟨rc, s', hrc, ht, e⟩
        · rw [e]
          cases rng with
          | ok f => exact hok _ f rfl hm (hs.filled _)
          | error rc => exact herr _ _ (errRc_ne_ok _) (hs.tr hwr (Or.inl hm.evictOk))
        · rw [e]
          cases rc <;> first | exact absurd rfl hrc | exact herr _ _ (by simp) ht

theorem cacheKeyDma_cases {cfg : Cfg} {x : Nat} {s : Sys} {md : Meta} {dma : Rc}
    {mem : Nat → UInt8} (hw : WF s) (hwr : F.w md.id) {P : Rc × Sys → Prop}
    (hok : ∀ s', dma = .ok → MayCache (ent cfg x s md.id) →
      Filled cfg x s s' md ((List.range md.len.toNat).map mem) →
      cfg.statefulBlob ((List.range md.len.toNat).map mem) = false → P (.ok, s'))
    (herr : ∀ rc s', rc ≠ .ok → Tr F cfg x md.id s s' → P (rc, s')) :
    P (cacheKeyDma cfg x s md dma mem) := by
  unfold cacheKeyDma
  rcases getSlotChecked_or (cfg := cfg) (x := x) md.id md.len.toNat hw hwr with
    ⟨loc, s', hm, hs, e⟩ | ⟨rc, s', hrc, ht, e⟩
  · rw [e]
    dsimp only
    split
    · rename_i h
      split
      · exact herr _ _ (by simp) (hs.tr hwr (Or.inl hm.evictOk))
      · rename_i hb; exact hok _ h hm (hs.filled _) (by simpa using hb)
    · rename_i h; exact herr _ _ h (hs.tr hwr (Or.inl hm.evictOk))
  · rw [e]
    cases rc <;> first | exact absurd rfl hrc | exact herr _ _ (by simp) ht

/-- Metadata of an imported key. -/
def importMeta (md : Meta) (data : List UInt8) : Meta :=
  { md with flags := md.flags &&& ~~~Nvm.serverOnly, len := UInt16.ofNat data.length }

theorem importKey_cases {cfg : Cfg} {x : Nat} {s : Sys} {md : Meta} {cap : UInt16}
    {der : Except Rc (List UInt8)} (hw : WF s) (hwr : F.w md.id) {P : Rc × Sys → Prop}
    (hok : ∀ s' data, der = .ok data → data.length < 65536 → MayCache (ent cfg x s md.id) →
      Filled cfg x s s' (importMeta md data) data → P (.ok, s'))
    (herr : ∀ rc s', rc ≠ .ok → Tr F cfg x md.id s s' → P (rc, s')) :
    P (importKey cfg x s md cap der) := by
  unfold importKey
  split
  · exact herr _ _ (by simp) (.of_refl hw)
  · rcases getSlotChecked_or (cfg := cfg) (x := x) md.id cap.toNat hw hwr with
      ⟨loc, s', hm, hs, e⟩ | ⟨rc, s', hrc, ht, e⟩
    · rw [e]
      cases der with
      | ok data =>
        dsimp only
        split
        · exact herr _ _ (by simp) (hs.tr hwr (Or.inl hm.evictOk))
        · rename_i hle
          have := cap.toNat_lt
          have hs' : Slotted cfg x (importMeta md data).id loc s s' := hs
          exact hok _ data rfl (by omega) hm (hs'.filled data)
      | error rc => exact herr _ _ (errRc_ne_ok _) (hs.tr hwr (Or.inl hm.evictOk))
    · rw [e]
      cases rc <;> first | exact absurd rfl hrc | exact herr _ _ (by simp) ht

/-! ## Reading -/

/-- The committed copy has been brought into the cache. -/
structure Loaded (cfg : Cfg) (x : Nat) (id : UInt16) (s s' : Sys) (md : Meta) (bs : List UInt8) :
    Prop where
  frame : Frame cfg x id s s'
  before : cached cfg x s id = none
  stored : s.nvm.store id = some (md, bs)
  entry : cached cfg x s' id = some ⟨md, bs, true⟩
  store : s'.nvm.store = s.nvm.store
  pend : s'.nvm.pending = s.nvm.pending

theorem Loaded.tr {cfg : Cfg} {x : Nat} {id : UInt16} {s s' : Sys} {md : Meta} {bs : List UInt8}
    (h : Loaded cfg x id s s' md bs) : Tr F cfg x id s s' := by
  refine ⟨h.frame, ?_⟩
  have : ent cfg x s' id = { ent cfg x s id with c := some ⟨md, bs, true⟩ } :=
    ent_eq h.entry (by rw [h.store]; rfl) (by rw [h.pend]; rfl)
  rw [this]
  exact .load h.before h.stored

/-- Nothing has happened to the key; the cache may have lost committed entries. -/
structure Idle (cfg : Cfg) (x : Nat) (id : UInt16) (s s' : Sys) : Prop where
  frame : Frame cfg x id s s'
  entry : cached cfg x s' id = cached cfg x s id
  store : s'.nvm.store = s.nvm.store
  pend : s'.nvm.pending = s.nvm.pending

theorem Idle.tr {cfg : Cfg} {x : Nat} {id : UInt16} {s s' : Sys} (h : Idle cfg x id s s') :
    Tr F cfg x id s s' := by
  refine ⟨h.frame, ?_⟩
  have : ent cfg x s' id = ent cfg x s id :=
    ent_eq h.entry (by rw [h.store]; rfl) (by rw [h.pend]; rfl)
  rw [this]
  exact .refl _

theorem Idle.refl {cfg : Cfg} {x : Nat} {id : UInt16} {s : Sys} (hw : WF s) :
    Idle cfg x id s s := ⟨.refl hw, rfl, rfl, rfl⟩

/-- Changing the NVM component without changing objects. -/
theorem Idle.nvm {cfg : Cfg} {x : Nat} {id : UInt16} {s : Sys} (hw : WF s) {n : Nvm}
    (h1 : n.store = s.nvm.store) (h2 : n.pending = s.nvm.pending) :
    Idle cfg x id s { s with nvm := n } := by
  obtain ⟨h3, h4⟩ := frame_nvm (cfg := cfg) (x := x) (id := id) hw n (fun i _ => by rw [h1])
  exact ⟨h3, h4, h1, h2⟩

theorem slice_all {n : Nvm} {id : UInt16} {md : Meta} {bs : List UInt8} {d : List UInt8}
    (h : n.store id = some (md, bs)) (hl : md.len.toNat = bs.length)
    (hr : n.store.slice id 0 md.len.toNat = (.ok, d)) : d = bs := by
  unfold Store.slice at hr
  simp only [h, hl] at hr
  split at hr
  · simp only [List.drop_zero, List.take_length, Prod.mk.injEq, true_and] at hr; exact hr.symm
  · simp at hr

/-- Reading a whole object: its bytes, or an error. -/
theorem read_all {n : Nvm} {id : UInt16} {md : Meta} {bs : List UInt8}
    (h : n.store id = some (md, bs)) (hl : md.len.toNat = bs.length) :
    ∃ n', n'.store = n.store ∧ n'.pending = n.pending ∧
      (n.read id 0 md.len.toNat = ((.ok, bs), n') ∨
       ∃ rc, rc ≠ .ok ∧ ∃ d, n.read id 0 md.len.toNat = ((rc, d), n')) := by
  refine ⟨(n.read id 0 md.len.toNat).2, (n.read_store _ _ _).1, (n.read_store _ _ _).2, ?_⟩
  rcases hr : n.read id 0 md.len.toNat with ⟨⟨rc, d⟩, n'⟩
  rcases n.read_result id 0 md.len.toNat with h1 | h1
  · rw [hr] at h1
    by_cases hrc : rc = .ok
    · subst hrc
      left
      rw [slice_all h hl h1.symm]
    · right; exact ⟨rc, hrc, d, rfl⟩
  · rw [hr] at h1; right; exact ⟨rc, h1.1, d, rfl⟩

theorem keepsId_mark (b : Bool) : KeepsId fun k => some { k with committed := b } := by
  intro k k' h; cases h; rfl

theorem keepsId_revoke : KeepsId fun k => some { k with md := revokeMeta k.md } := by
  intro k k' h; cases h; rfl

/-- Marking the entry as committed, together with a change of the NVM. -/
theorem mark_spec {cfg : Cfg} {x : Nat} {id : UInt16} {s : Sys}
    (hw : (cacheAt s (area cfg x id)).Uniq) (n : Nvm)
    (hn : ∀ i, i ≠ id → n.store i = s.nvm.store i) (b : Bool) {s' : Sys}
    (hs : s' = setCache cfg x { s with nvm := n } id
      ((cacheOf cfg x { s with nvm := n } id).mark id b)) :
    Frame cfg x id s s' ∧
    cached cfg x s' id = (cached cfg x s id).map (fun k => { k with committed := b }) ∧
    s'.nvm = n := by
  obtain ⟨h1, h2⟩ := frame_update (cfg := cfg) (x := x) (id := id) hw (keepsId_mark b) n hn
  have : s' = { setCache cfg x s id
      ((cacheOf cfg x s id).update id fun k => some { k with committed := b }) with nvm := n } := by
    rw [hs, cacheOf_nvm, setCache_nvm_comm]; rfl
  rw [this]
  refine ⟨h1, ?_, rfl⟩
  rw [h2]
  cases cached cfg x s id <;> rfl

theorem freshen_cases {cfg : Cfg} {x : Nat} {s : Sys} {id : UInt16} (hw : WF s)
    {P : Rc × Option CKey × Sys → Prop}
    (hhit : ∀ k, cached cfg x s id = some k → P (.ok, some k, s))
    (hload : ∀ md bs s', KeyId.typeOf id ≠ KeyId.typeWrapped →
      Loaded cfg x id s s' md bs → P (.ok, some ⟨md, bs, true⟩, s'))
    (herr : ∀ rc s', rc ≠ .ok → cached cfg x s id = none → Idle cfg x id s s' → P (rc, none, s'))
    (hbad : ∀ rc, rc ≠ .ok → P (rc, none, s)) :
    P (freshen cfg x s id) := by
  unfold freshen
  split
  · exact hbad _ (by simp)
  · split
    · exact hbad _ (by simp)
    · split
      · rename_i k hk; exact hhit k hk
      · rename_i hc
        split
        · exact herr _ _ (by simp) hc (.refl hw)
        · rename_i hty
          rcases hn : s.nvm.store id with _ | ⟨md, bs⟩
          · rw [Nvm.metadata_none hn]; exact herr _ _ (by simp) hc (.refl hw)
          · rw [Nvm.metadata_some hn]
            obtain ⟨hid, hl⟩ := hw.nvm _ _ _ hn
            dsimp only
            rcases getSlot_or md.len.toNat hw hc with ⟨loc, s', hs, e⟩ | ⟨rc, hrc, e⟩
            · rw [e]
              have hw' := (hs.tr (F := Par.any) trivial (Or.inr trivial)).wf hw
              have hn' : s'.nvm.store id = some (md, bs) := by rw [hs.nvm]; exact hn
              obtain ⟨n', h1, h2, h3⟩ := read_all hn' hl
              dsimp only
              rcases h3 with h3 | ⟨rc, hrc, d, h3⟩
              · rw [h3]
                dsimp only
                apply hload md bs _ (by simpa using hty)
                subst hid
                have hf := hs.filled bs
                have hfn : fill cfg x { s' with nvm := n' } loc md bs =
                    { fill cfg x s' loc md bs with nvm := n' } := by
                  unfold fill; rw [setCache_nvm_comm, cacheOf_nvm]
                rw [hfn]
                obtain ⟨g1, g2, g3⟩ := mark_spec (cfg := cfg) (x := x) (id := md.id) hf.frame.uniq n'
                  (fun i _ => by rw [h1, hs.nvm, hf.nvm]) true rfl
                refine ⟨hf.frame.trans g1, hc, hn, ?_, ?_, ?_⟩
                · rw [g2, hf.entry]; rfl
                · rw [g3, h1, hs.nvm]
                · rw [g3, h2, hs.nvm]
              · rw [h3]
                have hi : Idle cfg x id s { s' with nvm := n' } := by
                  have := Idle.nvm (cfg := cfg) (x := x) (id := id) hw' h1 h2
                  exact ⟨hs.frame.trans this.frame, by rw [this.entry, hs.gone, hc],
                    by rw [this.store, hs.nvm], by rw [this.pend, hs.nvm]⟩
                cases rc <;> first | exact absurd rfl hrc | exact herr _ _ (by simp) hc hi
            · rw [e]
              cases rc <;> first | exact absurd rfl hrc | exact herr _ _ (by simp) hc (.refl hw)

theorem readKey_cases {cfg : Cfg} {x : Nat} {s : Sys} {id : UInt16} {outSz : Nat} (hw : WF s)
    {P : (Rc × Option (Meta × List UInt8)) × Sys → Prop}
    (hhit : ∀ k, cached cfg x s id = some k → k.data.length ≤ outSz →
      P ((.ok, some (k.md, k.data)), s))
    (hload : ∀ md bs s', KeyId.typeOf id ≠ KeyId.typeWrapped → bs.length ≤ outSz →
      Loaded cfg x id s s' md bs → P ((.ok, some (md, bs)), s'))
    (hpass : ∀ md bs s', KeyId.typeOf id ≠ KeyId.typeWrapped → bs.length ≤ outSz →
      cached cfg x s id = none → s.nvm.store id = some (md, bs) →
      Idle cfg x id s s' → P ((.ok, some (md, bs)), s'))
    (hzero : ∀ s', cfg.she = true → KeyId.typeOf id = KeyId.typeShe → KeyId.idOf id = 1 →
      cached cfg x s id = none → Idle cfg x id s s' → P ((.ok, some (sheMasterZero id)), s'))
    (herr : ∀ rc s', rc ≠ .ok → Idle cfg x id s s' → P ((rc, none), s')) :
    P (readKey cfg x s id outSz) := by
  have hfall : ∀ rc s', rc ≠ .ok → cached cfg x s id = none → Idle cfg x id s s' →
      P (sheFallback cfg id rc, s') := by
    intro rc s' hrc hc hi
    unfold sheFallback
    split
    · rename_i h; exact hzero s' h.1 h.2.2.1 h.2.2.2 hc hi
    · exact herr _ _ hrc hi
  unfold readKey
  split
  · exact herr _ _ (by simp) (.refl hw)
  · split
    · exact herr _ _ (by simp) (.refl hw)
    · split
      · rename_i k hk
        split
        · exact herr _ _ (by simp) (.refl hw)
        · rename_i hle
          refine hhit k hk ?_
          rw [cached_eq] at hk
          rw [← hw.clen _ _ _ hk]; omega
      · rename_i hc
        split
        · exact herr _ _ (by simp) (.refl hw)
        · rename_i hty
          have hty' : KeyId.typeOf id ≠ KeyId.typeWrapped := by simpa using hty
          rcases hn : s.nvm.store id with _ | ⟨md, bs⟩
          · rw [Nvm.metadata_none hn]; exact hfall _ _ (by simp) hc (.refl hw)
          · rw [Nvm.metadata_some hn]
            obtain ⟨hid, hl⟩ := hw.nvm _ _ _ hn
            dsimp only
            split
            · exact herr _ _ (by simp) (.refl hw)
            · rename_i hle
              have hle' : bs.length ≤ outSz := by omega
              obtain ⟨n', h1, h2, h3⟩ := read_all hn hl
              have hi : Idle cfg x id s { s with nvm := n' } := .nvm hw h1 h2
              rcases h3 with h3 | ⟨rc, hrc, d, h3⟩
              · rw [h3]
                dsimp only
                split
                · exact hpass md bs _ hty' hle' hc hn hi
                · subst hid
                  have hw' := (hi.tr (F := Par.any)).wf hw
                  refine cacheKey_unchecked_cases (P := fun r => P (match r with
                    | (.ok, s'') => ((.ok, some (md, bs)),
                        setCache cfg x s'' md.id ((cacheOf cfg x s'' md.id).mark md.id true))
                    | (_, s'') => ((.ok, some (md, bs)), s''))) hw' (by rw [hi.entry]; exact hc) ?_ ?_
                  · intro s' hf
                    apply hload md bs _ hty' hle'
                    obtain ⟨g1, g2, g3⟩ := mark_spec (cfg := cfg) (x := x) (id := md.id)
                      (s := s') (s' := setCache cfg x s' md.id
                        ((cacheOf cfg x s' md.id).mark md.id true)) hf.frame.uniq s'.nvm
                      (fun i _ => rfl) true rfl
                    refine ⟨(hi.frame.trans hf.frame).trans g1, hc, hn, ?_, ?_, ?_⟩
                    · rw [g2, hf.entry]; rfl
                    · rw [g3, hf.nvm]; exact h1
                    · rw [g3, hf.nvm]; exact h2
                  · intro rc hrc
                    have : P ((.ok, some (md, bs)), { s with nvm := n' }) :=
                      hpass md bs _ hty' hle' hc hn hi
                    cases rc <;> first | exact absurd rfl hrc | exact this
              · rw [h3]
                cases rc <;> first | exact absurd rfl hrc | exact hfall _ _ (by simp) hc hi

/-! ## Evict, commit, erase, revoke -/

/-- The entry has been evicted. -/
structure Evicted (cfg : Cfg) (x : Nat) (id : UInt16) (s s' : Sys) (k : CKey) : Prop where
  frame : Frame cfg x id s s'
  before : cached cfg x s id = some k
  entry : cached cfg x s' id = none
  nvm : s'.nvm = s.nvm

theorem Evicted.tr {cfg : Cfg} {x : Nat} {id : UInt16} {s s' : Sys} {k : CKey}
    (h : Evicted cfg x id s s' k) (hwr : F.w id) (he : EvictOk (ent cfg x s id) ∨ F.force id) :
    Tr F cfg x id s s' := tr_evict h.frame h.entry h.nvm hwr he

theorem evictKey_cases {cfg : Cfg} {x : Nat} {s : Sys} {id : UInt16} (hw : WF s)
    {P : Rc × Sys → Prop}
    (hok : ∀ s' k, Evicted cfg x id s s' k → P (.ok, s'))
    (herr : ∀ rc, rc ≠ .ok → P (rc, s)) : P (evictKey cfg x s id) := by
  unfold evictKey
  split
  · exact herr _ (by simp)
  · split
    · exact herr _ (by simp)
    · split
      · exact herr _ (by simp)
      · rename_i k hk
        obtain ⟨h1, h2, h3⟩ := evicted (cfg := cfg) (x := x) (id := id) hw
        exact hok _ k ⟨h1, hk, h2, h3⟩

theorem evictKeyChecked_cases {cfg : Cfg} {x : Nat} {s : Sys} {id : UInt16} (hw : WF s)
    {P : Rc × Sys → Prop}
    (hok : ∀ s' k, judge .evict k.md.flags k.committed = .ok → Evicted cfg x id s s' k → P (.ok, s'))
    (herr : ∀ rc, rc ≠ .ok → P (rc, s)) : P (evictKeyChecked cfg x s id) := by
  unfold evictKeyChecked
  split
  · rename_i hp
    refine evictKey_cases hw (fun s' k h => hok s' k ?_ h) herr
    rcases policy_cases cfg x s .evict id with ⟨k', h1, h2⟩ | ⟨h1, _⟩ | ⟨h1, _⟩ | h1 | h1
    · rw [h.before] at h1; cases h1; rw [← h2]; exact hp
    · rw [h.before] at h1; cases h1
    · rw [h.before] at h1; cases h1
    · rw [h1] at hp; cases hp
    · rw [h1] at hp; cases hp
  · rename_i hrc; exact herr _ (fun hc => hrc hc)

/-- A successful commit. -/
structure Committed (cfg : Cfg) (x : Nat) (id : UInt16) (s s' : Sys) (k : CKey) : Prop where
  frame : Frame cfg x id s s'
  before : cached cfg x s id = some k
  untrusted : Untrusted k.md
  entry : cached cfg x s' id = some { k with committed := true }
  store : s'.nvm.store id = some (k.md, k.data)
  pend : s'.nvm.pending = none
  powered : s'.nvm.powered = true

theorem Committed.tr {cfg : Cfg} {x : Nat} {id : UInt16} {s s' : Sys} {k : CKey}
    (h : Committed cfg x id s s' k) (hwr : F.w id) : Tr F cfg x id s s' := by
  refine ⟨h.frame, ?_⟩
  rw [ent_eq (e := ⟨some { k with committed := true }, some (k.md, k.data), none⟩) h.entry h.store h.pend]
  exact .commit hwr h.before h.untrusted

theorem set_self {f : Store} {md : Meta} {data : List UInt8} {id : UInt16} (hid : md.id = id)
    (hl : md.len.toNat = data.length) : f.set md data id = some (md, data) := by
  simp [NvmFlash.Store.set, hid, withLen_self hl]

theorem set_ne {f : Store} {md : Meta} {data : List UInt8} {id i : UInt16} (hid : md.id = id)
    (hi : i ≠ id) : f.set md data i = f i := by
  simp [NvmFlash.Store.set, hid, hi]

/-- `commitKey` of a key without the TRUSTED flag. -/
theorem commitKey_cases {cfg : Cfg} {x : Nat} {s : Sys} {id : UInt16} (hw : WF s)
    (hwr : F.w id) (hut : ∀ k, cached cfg x s id = some k → Untrusted k.md) {P : Rc × Sys → Prop}
    (hok : ∀ s' k, KeyId.typeOf id ≠ KeyId.typeWrapped → Committed cfg x id s s' k → P (.ok, s'))
    (herr : ∀ rc s', rc ≠ .ok → Tr F cfg x id s s' → cached cfg x s' id = cached cfg x s id →
      P (rc, s')) : P (commitKey cfg x s id) := by
  unfold commitKey
  split
  · exact herr _ _ (by simp) (.of_refl hw) rfl
  · split
    · exact herr _ _ (by simp) (.of_refl hw) rfl
    · rename_i hty
      split
      · exact herr _ _ (by simp) (.of_refl hw) rfl
      · split
        · exact herr _ _ (by simp) (.of_refl hw) rfl
        · rename_i k hk
          have hut := hut k hk
          have hk' : (cacheAt s (area cfg x id)).find id = some k := by rw [← cached_eq]; exact hk
          have hid := Cache.find_id hk'
          have hl := hw.clen _ _ _ hk'
          refine Nvm.addWithReclaim_cases s.nvm k.md k.data (P := fun r => P (match r with
            | (.ok, n) => (.ok, setCache cfg x { s with nvm := n } id
                ((cacheOf cfg x { s with nvm := n } id).mark id true))
            | (rc, n) => (rc, { s with nvm := n }))) ?_ ?_ ?_ ?_
          · intro n hn hp' hpow
            obtain ⟨g1, g2, g3⟩ := mark_spec (cfg := cfg) (x := x) (id := id) (s := s)
              (hw.uniq _) n (fun i hi => by rw [hn, set_ne hid hi]) true rfl
            exact hok _ k hty ⟨g1, hk, hut, by rw [g2, hk]; rfl,
              by rw [g3, hn, set_self hid hl], by rw [g3, hp'], by rw [g3, hpow]⟩
          · intro n hn hp' hpow
            obtain ⟨g1, g2⟩ := frame_nvm (cfg := cfg) (x := x) (id := id) hw n
              (fun i hi => by rw [hn, set_ne hid hi])
            refine herr _ _ (by simp) ⟨g1, ?_⟩ g2
            rw [ent_eq (e := ⟨(ent cfg x s id).c, some (k.md, k.data), none⟩) g2
              (by rw [← set_self (f := s.nvm.store) hid hl, ← hn]) hp']
            exact .commitCut hwr hk hut
          · intro rc n hrc hn hp'
            obtain ⟨g1, g2⟩ := frame_nvm (cfg := cfg) (x := x) (id := id) hw n
              (fun i hi => by rw [hn])
            have ht : Tr F cfg x id s { s with nvm := n } := by
              refine ⟨g1, ?_⟩
              rw [ent_eq (e := ⟨(ent cfg x s id).c, (ent cfg x s id).n, some (k.md, k.data)⟩) g2
                (by rw [hn]; rfl) hp']
              exact .commitPend hwr hk hut
            cases rc <;> first | exact absurd rfl hrc | exact herr _ _ (by simp) ht g2
          · intro rc n hrc hn hp'
            obtain ⟨g1, g2⟩ := frame_nvm (cfg := cfg) (x := x) (id := id) hw n
              (fun i hi => by rw [hn])
            have ht : Tr F cfg x id s { s with nvm := n } := by
              refine ⟨g1, ?_⟩
              rcases hp' with hp' | hp'
              · rw [ent_eq (e := ent cfg x s id) g2 (by rw [hn]; rfl) hp']
                exact .refl _
              · rw [ent_eq (e := { ent cfg x s id with p := none }) g2 (by rw [hn]; rfl) hp']
                exact .quiet _
            cases rc <;> first | exact absurd rfl hrc | exact herr _ _ (by simp) ht g2

theorem commitKeyChecked_cases {cfg : Cfg} {x : Nat} {s : Sys} {id : UInt16} (hw : WF s)
    (hwr : F.w id) {P : Rc × Sys → Prop}
    (hok : ∀ s' k, KeyId.typeOf id ≠ KeyId.typeWrapped → Committed cfg x id s s' k → P (.ok, s'))
    (herr : ∀ rc s', rc ≠ .ok → Tr F cfg x id s s' → cached cfg x s' id = cached cfg x s id →
      P (rc, s')) : P (commitKeyChecked cfg x s id) := by
  unfold commitKeyChecked
  split
  · rename_i hp
    refine commitKey_cases hw hwr ?_ hok herr
    intro k hk
    rcases policy_cases cfg x s .commit id with ⟨k', h1, h2⟩ | ⟨h1, _⟩ | ⟨h1, _⟩ | h1 | h1
    · rw [hk] at h1; cases h1; rw [h2] at hp; exact judge_ok_untrusted hp
    · rw [hk] at h1; cases h1
    · rw [hk] at h1; cases h1
    · rw [h1] at hp; cases hp
    · rw [h1] at hp; cases hp
  · rename_i hrc; exact herr _ _ (fun hc => hrc hc) (.of_refl hw) rfl

/-- The checked destroy of one object. -/
theorem destroyOne_cases {cfg : Cfg} {x : Nat} {s : Sys} {id : UInt16} (hw : WF s)
    (hwr : F.w id ∧ F.des id) (hcn : cached cfg x s id = none) {P : Rc × Sys → Prop}
    (hok : ∀ n, n.store id = none → n.pending = none ∨ (s.nvm.store id = none ∧ n.pending = s.nvm.pending) →
      Tr F cfg x id s { s with nvm := n } →
      P (.ok, { s with nvm := n }))
    (herr : ∀ rc n, rc ≠ .ok → Tr F cfg x id s { s with nvm := n } → P (rc, { s with nvm := n })) :
    P ((s.nvm.destroyChecked [id]).1, { s with nvm := (s.nvm.destroyChecked [id]).2 }) := by
  have hstay : Tr F cfg x id s { s with nvm := s.nvm } := Tr.of_refl hw
  unfold Nvm.destroyChecked
  split
  · rename_i hp
    have hg : ∀ md bs, (ent cfg x s id).n = some (md, bs) → Untrusted md ∧
        hasFlag md.flags Flag.nonModifiable = false ∧
        hasFlag md.flags Flag.nonDestroyable = false := by
      intro md bs hn
      have hn' : s.nvm.store id = some (md, bs) := hn
      refine ⟨?_, ?_, ?_⟩
      · cases hf : hasFlag md.flags Flag.trusted with
        | false => exact hf
        | true =>
          exact absurd hp (Nvm.checkAll_refuses
            (Nvm.policy_destroy_refuses hn' (Or.inr (Or.inr hf))) [id] (by simp))
      · cases hf : hasFlag md.flags Flag.nonModifiable with
        | false => rfl
        | true =>
          exact absurd hp (Nvm.checkAll_refuses
            (Nvm.policy_destroy_refuses hn' (Or.inl hf)) [id] (by simp))
      · cases hf : hasFlag md.flags Flag.nonDestroyable with
        | false => rfl
        | true =>
          exact absurd hp (Nvm.checkAll_refuses
            (Nvm.policy_destroy_refuses hn' (Or.inr (Or.inl hf))) [id] (by simp))
    have hdes : ∀ n : Nvm, n.store = s.nvm.store.drop [id] → n.pending = none →
        Tr F cfg x id s { s with nvm := n } := by
      intro n hn hp'
      obtain ⟨g1, g2⟩ := frame_nvm (cfg := cfg) (x := x) (id := id) hw n
        (fun i hi => by rw [hn]; simp [NvmFlash.Store.drop, hi])
      refine ⟨g1, ?_⟩
      rw [ent_eq (e := ⟨(ent cfg x s id).c, none, none⟩) g2
        (by rw [hn]; simp [NvmFlash.Store.drop]) hp']
      exact .destroy hwr hcn hg
    refine Nvm.destroy_cases s.nvm [id] (P := fun r => P (r.1, { s with nvm := r.2 })) ?_ ?_ ?_ ?_
    · intro n hn hp'
      exact hok n (by rw [hn]; simp [NvmFlash.Store.drop]) (.inl hp') (hdes n hn hp')
    · intro n ha hn hp'
      exact hok n (by rw [hn]; exact ha id (by simp)) (.inr ⟨ha id (by simp), hp'⟩)
        (Idle.nvm hw hn hp').tr
    · intro rc n hrc hn hp'; exact herr rc n hrc (hdes n hn hp')
    · intro rc n hrc hn hp'
      exact herr rc n hrc (Idle.nvm hw hn hp').tr
  · rename_i hrc; exact herr _ _ (fun hc => hrc hc) hstay

/-- A successful revocation of a key that is stored. -/
structure Revoked (cfg : Cfg) (x : Nat) (id : UInt16) (s s' : Sys) (k : CKey) : Prop where
  frame : Frame cfg x id s s'
  before : cached cfg x s id = some k
  untrusted : Untrusted k.md
  stored : s.nvm.store id ≠ none
  entry : cached cfg x s' id = some { k with md := revokeMeta k.md, committed := true }
  store : s'.nvm.store id = some (revokeMeta k.md, k.data)
  pend : s'.nvm.pending = none
  powered : s'.nvm.powered = true

theorem Revoked.tr {cfg : Cfg} {x : Nat} {id : UInt16} {s s' : Sys} {k : CKey}
    (h : Revoked cfg x id s s' k) (hwr : F.w id ∧ F.rev id) : Tr F cfg x id s s' := by
  refine ⟨h.frame, ?_⟩
  rw [ent_eq (e := ⟨some { k with md := revokeMeta k.md, committed := true },
    some (revokeMeta k.md, k.data), none⟩) h.entry h.store h.pend]
  exact .revoke hwr h.before h.untrusted h.stored

/-- A successful revocation of a key that is only cached. -/
structure RevokedRam (cfg : Cfg) (x : Nat) (id : UInt16) (s s' : Sys) (k : CKey) : Prop where
  frame : Frame cfg x id s s'
  before : cached cfg x s id = some k
  untrusted : Untrusted k.md
  stored : s.nvm.store id = none
  entry : cached cfg x s' id = some { k with md := revokeMeta k.md }
  nvm : s'.nvm = s.nvm

theorem RevokedRam.tr {cfg : Cfg} {x : Nat} {id : UInt16} {s s' : Sys} {k : CKey}
    (h : RevokedRam cfg x id s s' k) (hwr : F.w id ∧ F.rev id) : Tr F cfg x id s s' := by
  refine ⟨h.frame, ?_⟩
  rw [ent_eq (e := { ent cfg x s id with c := some { k with md := revokeMeta k.md } }) h.entry
    (by rw [h.nvm]; rfl) (by rw [h.nvm]; rfl)]
  exact .revokeRam hwr h.before h.untrusted h.stored

theorem Idle.nvm_eq {cfg : Cfg} {x : Nat} {id : UInt16} {s s' : Sys} (h : Idle cfg x id s s') :
    s'.nvm.store = s.nvm.store := h.store

/-- An add that reports an error: power is gone or the media failed. -/
theorem addWithReclaim_err {n : Nvm} {md : Meta} {data : List UInt8}
    (h : (n.addWithReclaim md data).1 ≠ .ok) :
    (n.addWithReclaim md data).2.powered = false ∨ ∃ t rc b, n.outs t = .fail rc b := by
  have hadd : ∀ m : Nvm, m.outs = n.outs → (m.add md data).1 ≠ .ok →
      (m.add md data).2.powered = false ∨ ∃ t rc b, n.outs t = .fail rc b := by
    intro m hm hne
    unfold Nvm.add at hne ⊢
    by_cases hp : m.powered = true
    · simp only [hp, if_true] at hne ⊢
      cases ho : m.outs m.tick with
      | ok => simp [ho] at hne
      | fail rc b => right; exact ⟨m.tick, rc, b, by rw [← hm, ho]⟩
      | cut b => left; cases b <;> simp
    · left; simp [hp]
  unfold Nvm.addWithReclaim at h ⊢
  by_cases hp : n.powered = true
  · cases ho : n.outs n.tick with
    | ok =>
      have hd : n.destroy [] = (.ok, { n with tick := n.tick + 1 }) := by
        simp [Nvm.destroy, hp, ho]
      rw [hd] at h ⊢
      exact hadd _ rfl h
    | fail rc b => right; exact ⟨_, _, _, ho⟩
    | cut b => left; cases b <;> simp [Nvm.destroy, hp, ho]
  · left; simp [Nvm.destroy, hp]

/-- A key that was brought into the cache if necessary. -/
def Fresh (cfg : Cfg) (x : Nat) (id : UInt16) (s s' : Sys) (k : CKey) : Prop :=
  (s' = s ∧ cached cfg x s id = some k) ∨
  ∃ md bs, k = ⟨md, bs, true⟩ ∧ Loaded cfg x id s s' md bs

theorem Fresh.trs {cfg : Cfg} {x : Nat} {id : UInt16} {s s' : Sys} {k : CKey}
    (h : Fresh cfg x id s s' k) : Trs F cfg x (· = id) s s' := by
  rcases h with ⟨rfl, _⟩ | ⟨md, bs, _, h⟩
  · exact .nil _
  · exact .one rfl h.tr

theorem Fresh.now {cfg : Cfg} {x : Nat} {id : UInt16} {s s' : Sys} {k : CKey}
    (h : Fresh cfg x id s s' k) : cached cfg x s' id = some k := by
  rcases h with ⟨rfl, h⟩ | ⟨md, bs, rfl, h⟩
  · exact h
  · exact h.entry

theorem Fresh.store {cfg : Cfg} {x : Nat} {id : UInt16} {s s' : Sys} {k : CKey}
    (h : Fresh cfg x id s s' k) : s'.nvm.store = s.nvm.store := by
  rcases h with ⟨rfl, _⟩ | ⟨md, bs, _, h⟩
  · rfl
  · exact h.store

theorem freshen_or {cfg : Cfg} {x : Nat} {s : Sys} (id : UInt16) (hw : WF s) :
    (∃ k s', freshen cfg x s id = (.ok, some k, s') ∧ Fresh cfg x id s s' k) ∨
    (∃ rc s', rc ≠ .ok ∧ freshen cfg x s id = (rc, none, s') ∧ Idle cfg x id s s') := by
  refine freshen_cases (P := fun r => (∃ k s', r = (.ok, some k, s') ∧ Fresh cfg x id s s' k) ∨
    (∃ rc s', rc ≠ .ok ∧ r = (rc, none, s') ∧ Idle cfg x id s s')) hw ?_ ?_ ?_ ?_
  · intro k hk; exact Or.inl ⟨k, s, rfl, Or.inl ⟨rfl, hk⟩⟩
  · intro md bs s' _ h; exact Or.inl ⟨_, s', rfl, Or.inr ⟨md, bs, rfl, h⟩⟩
  · intro rc s' hrc _ h; exact Or.inr ⟨rc, s', hrc, rfl, h⟩
  · intro rc hrc; exact Or.inr ⟨rc, s, hrc, rfl, .refl hw⟩

theorem freshen_nvm {cfg : Cfg} {x : Nat} {s : Sys} (id : UInt16) :
    (freshen cfg x s id).2.2.nvm.outs = s.nvm.outs := by
  have hri : ∀ s sz, (reserveIn cfg x s id sz).2.2.nvm = s.nvm := by
    intro s sz; unfold reserveIn; split <;> simp [setCache_nvm]
  have hek : (evictKey cfg x s id).2.nvm = s.nvm := by
    unfold evictKey
    split
    · rfl
    · split
      · rfl
      · split <;> simp [setCache_nvm]
  have hg : ∀ sz, (getSlot cfg x s id sz).2.2.nvm = s.nvm := by
    intro sz
    unfold getSlot
    split
    · rfl
    · split
      · rfl
      · split
        · split
          · rename_i h
            rw [h] at hek
            rw [hri]; exact hek
          · rename_i h
            rw [h] at hek
            exact hek
        · exact hri _ _
  have hread : ∀ (n : Nvm) i o l, (n.read i o l).2.outs = n.outs := by
    intro n i o l; unfold Nvm.read; split
    · split <;> rfl
    · rfl
  unfold freshen
  split
  · rfl
  · split
    · rfl
    · split
      · rfl
      · split
        · rfl
        · split
          · rename_i md _
            have := hg md.len.toNat
            split
            · rename_i loc s' he
              rw [he] at this
              have hr := hread s'.nvm id 0 md.len.toNat
              dsimp only at this
              split
              · rename_i bs n hn
                rw [hn] at hr
                simp only [setCache_nvm, fill]
                rw [← this]; exact hr
              · rename_i bs n _ hn
                rw [hn] at hr
                rw [← this]; exact hr
            · rename_i he
              rw [he] at this
              rw [← this]
          · rfl

theorem revokeKey_cases {cfg : Cfg} {x : Nat} {s : Sys} {id : UInt16} (hw : WF s)
    (hwr : F.w id ∧ F.rev id) (hF : ∀ s', (revokeKey cfg x s id).2 = s' →
      (s'.nvm.powered = false ∨ ∃ t rc b, s.nvm.outs t = .fail rc b) → F.fail)
    {P : Rc × Sys → Prop}
    (hram : ∀ s' k, RevokedRam cfg x id s s' k → P (.ok, s'))
    (hdone : ∀ s' k, Fresh cfg x id s s' k → isRevoked k.md = true → k.committed = true →
      P (.ok, s'))
    (hnvm : ∀ s1 s' k, Fresh cfg x id s s1 k → Revoked cfg x id s1 s' k → P (.ok, s'))
    (herr : ∀ rc s', rc ≠ .ok → Trs F cfg x (· = id) s s' → P (rc, s')) :
    P (revokeKey cfg x s id) := by
  have hwf := hw
  revert hF
  unfold revokeKey
  split
  · intro _; exact herr _ _ (by simp) (.nil _)
  · split
    · rename_i hp
      have hunt : ∀ s' k, Fresh cfg x id s s' k → Untrusted k.md := by
        intro s' k hfr
        rcases policy_cases cfg x s .revoke id with ⟨k', h1, h2⟩ | ⟨h1, md, bs, h2, h3⟩ | ⟨h1, _, h3⟩ | h1 | h1
        · rcases hfr with ⟨_, h⟩ | ⟨md, bs, _, h⟩
          · rw [h1] at h; cases h; rw [h2] at hp; exact judge_ok_untrusted hp
          · have := h.before; rw [h1] at this; cases this
        · rcases hfr with ⟨_, h⟩ | ⟨md', bs', rfl, h⟩
          · rw [h1] at h; cases h
          · have := h.stored; rw [h2] at this; cases this
            rw [h3] at hp; exact judge_ok_untrusted hp
        · rw [h3] at hp; cases hp
        · rw [h1] at hp; cases hp
        · rw [h1] at hp; cases hp
      have hgo : ∀ b, (b = true ↔ s.nvm.store id ≠ none) →
          (∀ s', (revokeKey.go cfg x s id b).2 = s' →
            (s'.nvm.powered = false ∨ ∃ t rc b, s.nvm.outs t = .fail rc b) → F.fail) →
          P (revokeKey.go cfg x s id b) := by
        intro b hb hF
        revert hF
        have houts := freshen_nvm (cfg := cfg) (x := x) (s := s) id
        unfold revokeKey.go
        rcases freshen_or (cfg := cfg) (x := x) id hw with ⟨k, s1, e, hfr⟩ | ⟨rc, s1, hrc, e, hi⟩
        · rw [e] at houts ⊢
          dsimp only at houts ⊢
          have hw1 := (hfr.trs (F := Par.any)).wf hw
          have hk1 := hfr.now
          have hut := hunt _ _ hfr
          split
          · rename_i hr
            simp only [Bool.and_eq_true] at hr
            intro _; exact hdone _ k hfr hr.1 hr.2
          · obtain ⟨g1, g2⟩ := frame_update (cfg := cfg) (x := x) (id := id) (s := s1)
              (hw1.uniq _) keepsId_revoke s1.nvm (fun _ _ => rfl)
            rw [setCache_with_nvm] at g1 g2
            rw [hk1] at g2
            generalize hs2 : setCache cfg x s1 id ((cacheOf cfg x s1 id).update id
              fun k => some { k with md := revokeMeta k.md }) = s2 at g1 g2 ⊢
            have hn2 : s2.nvm = s1.nvm := by rw [← hs2, setCache_nvm]
            have hk1' : (cacheAt s1 (area cfg x id)).find id = some k := by
              rw [← cached_eq]; exact hk1
            have hid : (revokeMeta k.md).id = id := Cache.find_id hk1'
            have hl : (revokeMeta k.md).len.toNat = k.data.length := hw1.clen _ _ _ hk1'
            by_cases hbt : b = true
            · subst hbt
              simp only [if_true]
              have hst : s1.nvm.store id ≠ none := by rw [hfr.store]; exact hb.mp rfl
              have herrF := addWithReclaim_err (n := s2.nvm) (md := revokeMeta k.md) (data := k.data)
              -- the three failing outcomes
              have hfail : ∀ rc (n : Nvm), rc ≠ .ok → s2.nvm.addWithReclaim (revokeMeta k.md) k.data = (rc, n) →
                  (n.store = s1.nvm.store ∨ n.store = s1.nvm.store.set (revokeMeta k.md) k.data) →
                  (n.pending = s1.nvm.pending ∨ n.pending = none ∨
                    n.pending = some (revokeMeta k.md, k.data)) →
                  (∀ s', { s2 with nvm := n } = s' →
                    (s'.nvm.powered = false ∨ ∃ t rc b, s.nvm.outs t = .fail rc b) → F.fail) →
                  Trs F cfg x (· = id) s { s2 with nvm := n } := by
                intro rc n hrc heq hns hnp hF
                have hf : F.fail := by
                  apply hF _ rfl
                  rw [heq] at herrF
                  rcases herrF hrc with h | ⟨t, rc', b', h⟩
                  · exact Or.inl h
                  · right; exact ⟨t, rc', b', by rw [← houts, ← hn2]; exact h⟩
                refine hfr.trs.trans (.one rfl ?_)
                have hother : ∀ i, i ≠ id → n.store i = s2.nvm.store i := by
                  intro i hi
                  rw [hn2]
                  rcases hns with h | h
                  · rw [h]
                  · rw [h, set_ne hid hi]
                have hfr2 : Frame cfg x id s1 { s2 with nvm := n } := by
                  refine ⟨?_, ?_, ?_, ?_⟩
                  · intro a ha; rw [cacheAt_nvm]; exact g1.areas a ha
                  · rw [cacheAt_nvm]; exact g1.uniq
                  · intro i hi; rw [cacheAt_nvm]; exact g1.others i hi
                  · intro i hi; rw [← g1.store i hi]; exact hother i hi
                refine ⟨hfr2, ?_⟩
                rw [ent_eq (s := { s2 with nvm := n }) (e := ⟨some { k with md := revokeMeta k.md }, n.store id, n.pending⟩)
                  (by rw [cached_eq, cacheAt_nvm, ← cached_eq (s := s2), g2]; rfl) rfl rfl]
                refine .revokeFail hwr hf hk1 hut ?_ ?_
                · rcases hns with h | h
                  · left; rw [h]; rfl
                  · right; rw [h, set_self hid hl]
                · exact hnp
              rcases hadd : s2.nvm.addWithReclaim (revokeMeta k.md) k.data with ⟨rc, n⟩
              have hcases := Nvm.addWithReclaim_cases s2.nvm (revokeMeta k.md) k.data
                (P := fun r => (r.1 = .ok ∧ r.2.store = s1.nvm.store.set (revokeMeta k.md) k.data ∧
                    r.2.pending = none ∧ r.2.powered = true) ∨
                  (r.1 ≠ .ok ∧
                    (r.2.store = s1.nvm.store ∨ r.2.store = s1.nvm.store.set (revokeMeta k.md) k.data) ∧
                    (r.2.pending = s1.nvm.pending ∨ r.2.pending = none ∨
                      r.2.pending = some (revokeMeta k.md, k.data))))
                (by intro n' a b c; left; exact ⟨rfl, by rw [a, hn2], b, c⟩)
                (by intro n' a b c; right; exact ⟨by simp, Or.inr (by rw [a, hn2]), Or.inr (Or.inl b)⟩)
                (by intro rc n' h a b; right; exact ⟨h, Or.inl (by rw [a, hn2]), Or.inr (Or.inr b)⟩)
                (by intro rc n' h a b; right
                    refine ⟨h, Or.inl (by rw [a, hn2]), ?_⟩
                    rcases b with b | b
                    · left; rw [b, hn2]
                    · right; left; exact b)
              rw [hadd] at hcases
              rcases hcases with ⟨h1, h2, h3, h4⟩ | ⟨h1, h2, h3⟩
              · dsimp only at h1 h2 h3 h4
                subst h1
                intro _
                obtain ⟨m1, m2, m3⟩ := mark_spec (cfg := cfg) (x := x) (id := id) (s := s2)
                  g1.uniq n (fun i hi => by rw [h2, set_ne hid hi, hn2]) true rfl
                exact hnvm s1 _ k hfr ⟨g1.trans m1, hk1, hut, hst,
                  by rw [m2, g2]; rfl, by rw [m3, h2, set_self hid hl], by rw [m3, h3], by rw [m3, h4]⟩
              · dsimp only at h1 h2 h3
                cases rc <;> first
                  | exact absurd rfl h1
                  | (intro hF; exact herr _ _ (by simp) (hfail _ n (by simp) hadd h2 h3 hF))
            · have hbf : b = false := by simpa using hbt
              subst hbf
              simp only [Bool.false_eq_true, if_false]
              have hnone : s.nvm.store id = none := by
                cases h : s.nvm.store id with
                | none => rfl
                | some v => exact absurd (hb.mpr (by rw [h]; simp)) (by simp)
              intro _
              rcases hfr with ⟨rfl, hc⟩ | ⟨md, bs, _, h⟩
              · exact hram _ k ⟨g1, hc, hut, hnone, by rw [g2]; rfl, hn2⟩
              · have := h.stored; rw [hnone] at this; cases this
        · rw [e]
          intro _
          cases rc <;> first | exact absurd rfl hrc | exact herr _ _ (by simp) (.one rfl hi.tr)
      rcases hn : s.nvm.store id with _ | ⟨md, bs⟩
      · rw [Nvm.metadata_none hn]
        exact hgo false (by simp [hn])
      · rw [Nvm.metadata_some hn]
        exact hgo true (by simp [hn])
    · rename_i hrc
      intro _
      exact herr _ _ (fun hc => hrc hc) (.nil _)

end WolfHsm.Keystore

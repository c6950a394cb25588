import Verif.Proofs.KeystoreOps

/-!
# Key requests as sequences of elementary transitions
-/

namespace WolfHsm.Keystore

open NvmFlash (Meta Store withLen)

variable {F : Par}

theorem clean_untrusted (f : UInt16) : hasFlag (f &&& ~~~Nvm.serverOnly) Flag.trusted = false :=
  Nvm.sanitize_not_trusted ⟨0, 0, f, 0, Vector.replicate 24 0⟩

/-! ## Fresh ids -/

theorem candidates_pos {i : UInt16} (h : i ∈ candidates) : i &&& 0xFF = i ∧ i ≠ 0 := by
  have : ∀ j ∈ candidates, j &&& 0xFF = j ∧ j ≠ 0 := by decide +kernel
  exact this i h

theorem searchId_spec (c : Cache) (n : Nvm) (t u : UInt16) : ∀ l,
    (∃ i ∈ l, searchId c n t u l = (.ok, KeyId.make t u i) ∧ c.find (KeyId.make t u i) = none ∧
      n.store (KeyId.make t u i) = none) ∨
    (searchId c n t u l = (.nospace, 0) ∧
      ∀ i ∈ l, c.find (KeyId.make t u i) ≠ none ∨ n.store (KeyId.make t u i) ≠ none)
  | [] => Or.inr ⟨rfl, by simp⟩
  | i :: l => by
    have ih := searchId_spec c n t u l
    unfold searchId
    dsimp only
    have hskip : (c.find (KeyId.make t u i) ≠ none ∨ n.store (KeyId.make t u i) ≠ none) →
        (∃ j ∈ i :: l, searchId c n t u l = (.ok, KeyId.make t u j) ∧ c.find (KeyId.make t u j) = none ∧
          n.store (KeyId.make t u j) = none) ∨
        (searchId c n t u l = (.nospace, 0) ∧
          ∀ j ∈ i :: l, c.find (KeyId.make t u j) ≠ none ∨ n.store (KeyId.make t u j) ≠ none) := by
      intro hi
      rcases ih with ⟨j, hj, h1, h2, h3⟩ | ⟨h1, h2⟩
      · exact Or.inl ⟨j, List.mem_cons_of_mem _ hj, h1, h2, h3⟩
      · refine Or.inr ⟨h1, ?_⟩
        intro j hj
        rcases List.mem_cons.mp hj with rfl | hj
        · exact hi
        · exact h2 j hj
    cases hc : c.find (KeyId.make t u i) with
    | some k => exact hskip (Or.inl (by rw [hc]; simp))
    | none =>
      rcases hn : n.store (KeyId.make t u i) with _ | ⟨md, bs⟩
      · rw [Nvm.metadata_none hn]
        exact Or.inl ⟨i, List.mem_cons_self, rfl, hc, hn⟩
      · rw [Nvm.metadata_some hn]
        exact hskip (Or.inr (by rw [hn]; simp))

/-- An id handed out by the server. -/
structure FreshId (cfg : Cfg) (x : Nat) (s : Sys) (like id : UInt16) : Prop where
  type : KeyId.typeOf id = KeyId.typeOf like
  user : KeyId.userOf id = KeyId.userOf like
  pos : KeyId.idOf id ≠ 0
  cached : cached cfg x s id = none
  stored : s.nvm.store id = none

theorem area_user {cfg : Cfg} {x : Nat} {i j : UInt16} (h : KeyId.userOf i = KeyId.userOf j) :
    area cfg x i = area cfg x j := by
  unfold area isGlobal; rw [h]

theorem getUniqueId_or (cfg : Cfg) (x : Nat) (s : Sys) (like : UInt16) :
    (∃ id, getUniqueId cfg x s like = (.ok, id) ∧ FreshId cfg x s like id) ∨
    (∃ rc, rc ≠ .ok ∧ getUniqueId cfg x s like = (rc, 0)) := by
  unfold getUniqueId
  split
  · exact Or.inr ⟨_, by simp, rfl⟩
  · split
    · exact Or.inr ⟨_, by simp, rfl⟩
    · rcases searchId_spec (cacheOf cfg x s like) s.nvm (KeyId.typeOf like) (KeyId.userOf like)
        candidates with ⟨i, hi, h1, h2, h3⟩ | ⟨h1, _⟩
      · left
        obtain ⟨hi1, hi2⟩ := candidates_pos hi
        have hu : KeyId.userOf (KeyId.make (KeyId.typeOf like) (KeyId.userOf like) i) =
            KeyId.userOf like := by
          rw [KeyId.userOf_make, KeyId.and_F (KeyId.userOf_lt _)]
        refine ⟨_, h1, ?_, hu, ?_, ?_, h3⟩
        · rw [KeyId.typeOf_make, KeyId.and_F (KeyId.typeOf_lt _)]
        · rw [KeyId.idOf_make, hi1]; exact hi2
        · rw [cached_eq, area_user hu, ← cacheOf_eq]; exact h2
      · exact Or.inr ⟨_, by simp, h1⟩

/-! ## Ids a client can reach -/

theorem reach_own (cfg : Cfg) {c : UInt16} (hc : c < 16) (t rid : UInt16) :
    Reachable cfg c (KeyId.fromClient cfg.ids t c rid) := by
  unfold Reachable KeyId.fromClient
  dsimp only
  rw [KeyId.userOf_make]
  by_cases h : (cfg.ids.globalKeys && (rid &&& KeyId.globalFlag) != 0) = true
  · right
    rw [if_pos h]
    simp only [Bool.and_eq_true] at h
    exact ⟨h.1, by decide⟩
  · left
    rw [if_neg h]
    exact KeyId.and_F hc

theorem reach_fresh {cfg : Cfg} {x : Nat} {s : Sys} {c like id : UInt16}
    (h : FreshId cfg x s like id) (hr : Reachable cfg c like) : Reachable cfg c id := by
  unfold Reachable at *
  rw [h.user]; exact hr

/-! ## Transitions of the key functions -/

theorem cacheKey_trs {cfg : Cfg} {x : Nat} {s : Sys} {md : Meta} {data : List UInt8} (hw : WF s)
    (hwr : F.w md.id) (hg : cfg.statefulBlob data = false → F.gives md data) (ht : Untrusted md)
    (hl : md.len.toNat = data.length) :
    Trs F cfg x (· = md.id) s (cacheKey cfg x s true md data).2 := by
  refine cacheKey_checked_cases (P := fun r => Trs F cfg x (· = md.id) s r.2) hw hwr ?_ ?_
  · intro s' hm hf _ hb; exact .one rfl (hf.tr hwr (hg hb) ht hl hm)
  · intro rc s' _ h; exact .one rfl h

theorem cacheRandomKey_trs {cfg : Cfg} {x : Nat} {s : Sys} {md : Meta}
    {rng : Except Rc (Nat → UInt8)} (hw : WF s) (hwr : F.w md.id)
    (hg : ∀ f, rng = .ok f → F.gives md ((List.range md.len.toNat).map f)) (ht : Untrusted md) :
    Trs F cfg x (· = md.id) s (cacheRandomKey cfg x s md rng).2 := by
  refine cacheRandomKey_cases (P := fun r => Trs F cfg x (· = md.id) s r.2) hw hwr ?_ ?_
  · intro s' f hf hm h; exact .one rfl (h.tr hwr (hg f hf) ht (by simp) hm)
  · intro rc s' _ h; exact .one rfl h

theorem cacheKeyDma_trs {cfg : Cfg} {x : Nat} {s : Sys} {md : Meta} {dma : Rc}
    {mem : Nat → UInt8} (hw : WF s) (hwr : F.w md.id)
    (hg : cfg.statefulBlob ((List.range md.len.toNat).map mem) = false →
      F.gives md ((List.range md.len.toNat).map mem)) (ht : Untrusted md) :
    Trs F cfg x (· = md.id) s (cacheKeyDma cfg x s md dma mem).2 := by
  refine cacheKeyDma_cases (P := fun r => Trs F cfg x (· = md.id) s r.2) hw hwr ?_ ?_
  · intro s' _ hm h hb; exact .one rfl (h.tr hwr (hg hb) ht (by simp) hm)
  · intro rc s' _ h; exact .one rfl h

theorem importKey_trs {cfg : Cfg} {x : Nat} {s : Sys} {md : Meta} {cap : UInt16}
    {der : Except Rc (List UInt8)} (hw : WF s) (hwr : F.w md.id)
    (hg : ∀ data, der = .ok data → F.gives (importMeta md data) data) :
    Trs F cfg x (· = md.id) s (importKey cfg x s md cap der).2 := by
  refine importKey_cases (P := fun r => Trs F cfg x (· = md.id) s r.2) hw hwr ?_ ?_
  · intro s' data hd hlt hm h
    have hid : (importMeta md data).id = md.id := rfl
    refine .one rfl ?_
    rw [← hid]
    exact h.tr hwr (hg data hd) (clean_untrusted _)
      (by simp [importMeta, Nat.mod_eq_of_lt hlt]) hm
  · intro rc s' _ h; exact .one rfl h

theorem freshen_trs {cfg : Cfg} {x : Nat} {s : Sys} (id : UInt16) (hw : WF s) :
    Trs F cfg x (· = id) s (freshen cfg x s id).2.2 := by
  rcases freshen_or (cfg := cfg) (x := x) id hw with ⟨k, s', e, h⟩ | ⟨rc, s', _, e, h⟩
  · rw [e]; exact h.trs
  · rw [e]; exact .one rfl h.tr

theorem loadKey_state (cfg : Cfg) (x : Nat) (s : Sys) (id required : UInt16) :
    (loadKey cfg x s id required).2 = (freshen cfg x s id).2.2 := by
  unfold loadKey
  split
  · rename_i e
    split <;> simp only [e]
  · rename_i e; simp only [e]

/-- What a successful load says: the key is the one freshening yields, with the usages required. -/
theorem loadKey_ok {cfg : Cfg} {x : Nat} {s : Sys} {id required : UInt16} (hw : WF s)
    (h : (loadKey cfg x s id required).1.1 = .ok) :
    ∃ s' k, Fresh cfg x id s s' k ∧ (loadKey cfg x s id required).1.2 = some k.data ∧
      enforceUsage k.md.flags required = .ok := by
  rcases freshen_or (cfg := cfg) (x := x) id hw with ⟨k, s', e, hf⟩ | ⟨rc, s', hrc, e, _⟩
  · refine ⟨s', k, hf, ?_⟩
    unfold loadKey at h ⊢
    rw [e] at h ⊢
    dsimp only at h ⊢
    split
    · rename_i hu; exact ⟨rfl, hu⟩
    · rename_i hu
      split at h
      · rename_i hu'; exact absurd hu' hu
      · rename_i hu' hne; exact absurd h hne
  · unfold loadKey at h
    rw [e] at h
    cases rc <;> first | exact absurd rfl hrc | cases h

theorem readKey_trs {cfg : Cfg} {x : Nat} {s : Sys} (id : UInt16) (outSz : Nat) (hw : WF s) :
    Trs F cfg x (· = id) s (readKey cfg x s id outSz).2 := by
  refine readKey_cases (P := fun r => Trs F cfg x (· = id) s r.2) hw ?_ ?_ ?_ ?_ ?_
  · intro k _ _; exact .nil _
  · intro md bs s' _ _ h; exact .one rfl h.tr
  · intro md bs s' _ _ _ _ h; exact .one rfl h.tr
  · intro s' _ _ _ _ h; exact .one rfl h.tr
  · intro rc s' _ h; exact .one rfl h.tr

theorem readKeyChecked_trs {cfg : Cfg} {x : Nat} {s : Sys} (id : UInt16) (outSz : Nat)
    (hw : WF s) : Trs F cfg x (· = id) s (readKeyChecked cfg x s id outSz).2 := by
  unfold readKeyChecked
  split
  · exact readKey_trs id outSz hw
  · exact .nil _

theorem readKeyEnforce_state {cfg : Cfg} {x : Nat} {s : Sys} {lock : Rc} (id required : UInt16)
    (outSz : Nat) :
    (readKeyEnforce cfg x s lock id required outSz).2 = s ∨
    (readKeyEnforce cfg x s lock id required outSz).2 = (readKey cfg x s id outSz).2 := by
  unfold readKeyEnforce
  split
  · split
    · split <;> simp_all
    · simp_all
  · exact Or.inl rfl

theorem evictKeyChecked_trs {cfg : Cfg} {x : Nat} {s : Sys} {id : UInt16} (hw : WF s)
    (hwr : F.w id) : Trs F cfg x (· = id) s (evictKeyChecked cfg x s id).2 := by
  refine evictKeyChecked_cases (P := fun r => Trs F cfg x (· = id) s r.2) hw ?_ ?_
  · intro s' k hj h
    refine .one rfl (h.tr hwr (Or.inl ?_))
    intro k' hk'
    have hk2 : cached cfg x s id = some k' := hk'
    rw [h.before] at hk2; cases hk2
    refine ⟨judge_ok_untrusted hj, ?_⟩
    have hju := judge_ok_untrusted hj
    unfold judge at hj
    cases hc : k.committed with
    | true => exact Or.inl rfl
    | false =>
      right
      cases hn : hasFlag k.md.flags Flag.nonModifiable with
      | false => rfl
      | true =>
        rw [hc, hju] at hj
        simp [Nvm.hasFlag_or_left hn] at hj
  · intro rc _; exact .nil _

theorem evictKey_trs {cfg : Cfg} {x : Nat} {s : Sys} {id : UInt16} (hw : WF s) (hwr : F.w id)
    (hf : F.force id) : Trs F cfg x (· = id) s (evictKey cfg x s id).2 := by
  refine evictKey_cases (P := fun r => Trs F cfg x (· = id) s r.2) hw ?_ ?_
  · intro s' k h; exact .one rfl (h.tr hwr (Or.inr hf))
  · intro rc _; exact .nil _

theorem commitKeyChecked_trs {cfg : Cfg} {x : Nat} {s : Sys} {id : UInt16} (hw : WF s)
    (hwr : F.w id) : Trs F cfg x (· = id) s (commitKeyChecked cfg x s id).2 := by
  refine commitKeyChecked_cases (P := fun r => Trs F cfg x (· = id) s r.2) hw hwr ?_ ?_
  · intro s' k _ h; exact .one rfl (h.tr hwr)
  · intro rc s' _ h _; exact .one rfl h

theorem evictKeyChecked_gone {cfg : Cfg} {x : Nat} {s : Sys} {id : UInt16} (hw : WF s)
    (h : (evictKeyChecked cfg x s id).1 = .ok ∨ (evictKeyChecked cfg x s id).1 = .notfound) :
    cached cfg x (evictKeyChecked cfg x s id).2 id = none := by
  revert h
  unfold evictKeyChecked
  split
  · unfold evictKey
    split
    · simp
    · split
      · simp
      · split
        · rename_i hn; intro _; exact hn
        · intro _; exact (evicted hw).2.1
  · rename_i hrc
    intro h
    rcases h with h | h
    · exact absurd h hrc
    · dsimp only at h
      rcases policy_cases cfg x s .evict id with ⟨k', h1, h2⟩ | ⟨h1, _⟩ | ⟨h1, _⟩ | h1 | h1
      · rw [h2] at h; exact absurd h judge_ne_notfound
      · exact h1
      · exact h1
      · rw [h1] at h; cases h
      · rw [h1] at h; cases h

theorem evictKeyChecked_nvm (cfg : Cfg) (x : Nat) (s : Sys) (id : UInt16) :
    (evictKeyChecked cfg x s id).2.nvm = s.nvm := by
  unfold evictKeyChecked evictKey
  repeat' split
  all_goals first | rfl | (simp only [setCache]; split <;> rfl)

/-- The cases of an erase. -/
theorem eraseKeyChecked_cases {cfg : Cfg} {x : Nat} {s : Sys} {id : UInt16} (hw : WF s)
    (hwr : F.w id ∧ F.des id) {P : Rc × Sys → Prop}
    (hok : ∀ s', Trs F cfg x (· = id) s s' → cached cfg x s' id = none → s'.nvm.store id = none →
      s'.nvm.pending = none ∨ (s.nvm.store id = none ∧ s'.nvm.pending = s.nvm.pending) → P (.ok, s'))
    (herr : ∀ rc s', rc ≠ .ok → Trs F cfg x (· = id) s s' → P (rc, s')) :
    P (eraseKeyChecked cfg x s id) := by
  unfold eraseKeyChecked
  split
  · exact herr _ _ (by simp) (.nil _)
  · split
    · exact herr _ _ (by simp) (.nil _)
    · split
      · exact herr _ _ (by simp) (.nil _)
      · dsimp only
        have htr := evictKeyChecked_trs (F := F) (cfg := cfg) (x := x) hw hwr.1
        split
        · rename_i hor
          have hgone := evictKeyChecked_gone (cfg := cfg) (x := x) hw hor
          have hw1 := htr.wf hw
          refine destroyOne_cases (F := F) (P := P) hw1 hwr hgone ?_ ?_
          · intro n h1 h2 h3
            rw [evictKeyChecked_nvm] at h2
            refine hok _ (htr.trans (.one rfl h3)) ?_ h1 h2
            rw [cached_eq, cacheAt_nvm, ← cached_eq]; exact hgone
          · intro rc n hrc h
            exact herr _ _ hrc (htr.trans (.one rfl h))
        · rename_i hor
          exact herr _ _ (fun h => hor (Or.inl h)) htr

/-- The cases of finding the key-encryption key. -/
theorem resolveKek_or {cfg : Cfg} {x : Nat} {s : Sys} (id : UInt16) (trusted : Bool) (hw : WF s) :
    (isHw cfg id = true ∧ resolveKek cfg x s id trusted = (cfg.hwKey id, s)) ∨
    (∃ k s', isHw cfg id = false ∧ Fresh cfg x id s s' k ∧
      enforceUsage k.md.flags Flag.usageWrap = .ok ∧
      (trusted = true → hasFlag k.md.flags Flag.trusted = true) ∧
      resolveKek cfg x s id trusted = ((.ok, k.data), s')) ∨
    (∃ rc s', rc ≠ .ok ∧ Trs F cfg x (· = id) s s' ∧
      resolveKek cfg x s id trusted = ((rc, []), s')) := by
  unfold resolveKek
  by_cases hh : isHw cfg id = true
  · left; simp [hh]
  · right
    simp only [hh, Bool.false_eq_true, if_false]
    rcases freshen_or (cfg := cfg) (x := x) id hw with ⟨k, s', e, h⟩ | ⟨rc, s', hrc, e, h⟩
    · rw [e]
      dsimp only
      split
      · rename_i hu
        split
        · right; exact ⟨_, s', by simp, h.trs, rfl⟩
        · rename_i hn
          left
          refine ⟨k, s', by simpa using hh, h, hu, ?_, rfl⟩
          intro ht
          simpa [ht] using hn
      · rename_i hne
        right; exact ⟨_, s', fun hc => hne hc, h.trs, rfl⟩
    · rw [e]
      right
      refine ⟨rc, s', hrc, .one rfl h.tr, ?_⟩
      cases rc <;> first | exact absurd rfl hrc | rfl

theorem resolveKek_trs {cfg : Cfg} {x : Nat} {s : Sys} (id : UInt16) (trusted : Bool)
    (hw : WF s) : Trs F cfg x (· = id) s (resolveKek cfg x s id trusted).2 := by
  rcases resolveKek_or (F := F) (cfg := cfg) (x := x) id trusted hw with
    ⟨_, e⟩ | ⟨k, s', _, h, _, _, e⟩ | ⟨rc, s', _, h, e⟩
  · rw [e]; exact .nil _
  · rw [e]; exact h.trs
  · rw [e]; exact h

/-- The cases of unwrapping. -/
theorem unwrapKey_or {cfg : Cfg} {v : Srv} {s : Sys} (kekId : UInt16) (trusted : Bool)
    (blob : List UInt8) :
    (∃ kek pt,
      (resolveKek cfg v.ctx s (ownId cfg v kekId) trusted).1 = (.ok, kek) ∧
      openBlob cfg kek true blob = (.ok, pt) ∧
      unwrapKey cfg v s kekId trusted blob =
        ((.ok, some (Meta.deser (pt.take 32), (pt.drop 32).take (blob.length - 60))),
          (resolveKek cfg v.ctx s (ownId cfg v kekId) trusted).2)) ∨
    (∃ rc, rc ≠ .ok ∧ unwrapKey cfg v s kekId trusted blob =
      ((rc, none), (resolveKek cfg v.ctx s (ownId cfg v kekId) trusted).2)) := by
  unfold unwrapKey ownId
  rcases hr : resolveKek cfg v.ctx s (KeyId.fromClient cfg.ids KeyId.typeCrypto v.client kekId)
    trusted with ⟨⟨rc, kek⟩, s'⟩
  by_cases hrc : rc = .ok
  · subst hrc
    dsimp only
    split
    · right; exact ⟨_, by simp, rfl⟩
    · rcases ho : openBlob cfg kek true blob with ⟨rc, pt⟩
      by_cases hrc : rc = .ok
      · subst hrc
        left; exact ⟨kek, pt, rfl, ho, rfl⟩
      · right
        refine ⟨rc, hrc, ?_⟩
        cases rc <;> first | exact absurd rfl hrc | rfl
  · right
    refine ⟨rc, hrc, ?_⟩
    cases rc <;> first | exact absurd rfl hrc | rfl

/-- What an accepted blob looks like. -/
structure Accepted (cfg : Cfg) (v : Srv) (s : Sys) (md : Meta) (key : List UInt8) (md' : Meta) :
    Prop where
  len : md'.len.toNat = key.length
  owner : ownerOk cfg v.client (KeyId.userOf md.id) = true
  type : KeyId.typeOf md'.id = KeyId.typeWrapped ∨ KeyId.typeOf md'.id = KeyId.typeShe
  id : unwrapSheId cfg md.id = some md'.id
  flags : md'.flags = md.flags &&& ~~~Nvm.serverOnly
  free : cached cfg v.ctx s md'.id = none
  notState : cfg.statefulBlob key = false
  keeps : md' = { md with id := md'.id, flags := md'.flags }
  count : KeyId.typeOf md'.id = KeyId.typeShe → ∀ old bs, s.nvm.store md'.id = some (old, bs) →
    labelCount old.label ≤ labelCount md.label

theorem unwrapCounter_ok {s : Sys} {md : Meta} (h : unwrapCounter s md = .ok)
    (ht : KeyId.typeOf md.id = KeyId.typeShe) {old : Meta} {bs : List UInt8}
    (hs : s.nvm.store md.id = some (old, bs)) : labelCount old.label ≤ labelCount md.label := by
  unfold unwrapCounter Nvm.metadata Store.info at h
  rw [if_pos ht, hs] at h
  dsimp only at h
  split at h
  · cases h
  · omega

theorem unwrapAccept_ok {cfg : Cfg} {v : Srv} {s : Sys} {md md' : Meta} {key : List UInt8}
    (h : unwrapAccept cfg v s md key = .ok md') : Accepted cfg v s md key md' := by
  unfold unwrapAccept at h
  split at h
  · cases h
  · rename_i hl
    split at h
    · cases h
    · split at h
      · cases h
      · rename_i hty
        split at h
        · cases h
        · rename_i how
          split at h
          · cases h
          · rename_i id hid
            split at h
            · cases h
            · rename_i hfree
              split at h
              · rename_i hcnt
                split at h
                · cases h
                · rename_i hsb
                  cases h
                  refine ⟨(Classical.not_not.mp hl).symm, by simpa using how, ?_, hid, rfl,
                    by simpa using hfree, by simpa using hsb, rfl, fun ht old bs hs => unwrapCounter_ok hcnt ht hs⟩
                  show KeyId.typeOf id = _ ∨ KeyId.typeOf id = _
                  by_cases hshe : KeyId.typeOf md.id = KeyId.typeShe
                  · right
                    unfold unwrapSheId at hid
                    rw [if_pos hshe] at hid
                    split at hid
                    · cases hid
                      rw [KeyId.typeOf_make]; decide
                    · split at hid
                      · cases hid
                      · cases hid; exact hshe
                  · left
                    have hid' : md.id = id := by
                      unfold unwrapSheId at hid
                      rw [if_neg hshe] at hid
                      exact Option.some.inj hid
                    rw [← hid']
                    by_cases hwr : KeyId.typeOf md.id = KeyId.typeWrapped
                    · exact hwr
                    · exact absurd ⟨hwr, fun h => hshe h.2⟩ hty
              · cases h

theorem ownerOk_reach {cfg : Cfg} {c id : UInt16} (h : ownerOk cfg c (KeyId.userOf id) = true) :
    Reachable cfg c id := by
  unfold ownerOk at h
  unfold Reachable
  simp only [Bool.or_eq_true, Bool.and_eq_true, beq_iff_eq] at h
  rcases h with h | h
  · exact Or.inr h
  · exact Or.inl h

theorem unwrapSheId_reach {cfg : Cfg} {c id id' : UInt16}
    (hsg : cfg.sheGlobal = true → cfg.ids.globalKeys = true)
    (h : unwrapSheId cfg id = some id') (hr : Reachable cfg c id) : Reachable cfg c id' := by
  unfold unwrapSheId at h
  split at h
  · split at h
    · rename_i hg
      cases h
      right
      refine ⟨hsg hg, ?_⟩
      rw [KeyId.userOf_make]; decide
    · split at h
      · cases h
      · cases h; exact hr
  · cases h; exact hr

theorem handle_or (cfg : Cfg) (v : Srv) (s : Sys) (lock : Rc) (r : Req) :
    (lock = .ok ∧ r ≠ .malformed ∧ handle cfg v s lock r = act cfg v s r) ∨
    (∃ rc, rc ≠ .ok ∧ handle cfg v s lock r = (.code rc, s)) := by
  by_cases hm : r = .malformed
  · subst hm; right; exact ⟨.badargs, by simp, rfl⟩
  · by_cases hl : lock = .ok
    · left
      refine ⟨hl, hm, ?_⟩
      subst hl
      cases r <;> first | exact absurd rfl hm | rfl
    · right
      refine ⟨lock, hl, ?_⟩
      cases r <;> first | exact absurd rfl hm | (cases lock <;> first | exact absurd rfl hl | rfl)

theorem Trs.at {cfg : Cfg} {x : Nat} {i : UInt16} {T : UInt16 → Prop} {s s' : Sys}
    (h : Trs F cfg x (· = i) s s') (hT : T i) : Trs F cfg x T s s' :=
  h.mono (fun j hj => by subst hj; exact hT)

/-- What a key request may do. -/
def reqPar (cfg : Cfg) (v : Srv) (s : Sys) (r : Req) (s' : Sys) : Par where
  fail := (∃ rid, r = .revoke rid) ∧
    (s'.nvm.powered = false ∨ ∃ t rc b, s.nvm.outs t = .fail rc b)
  gives := r.Brings cfg
  w := fun id => r.Names cfg v id ∨
    (r.Picks cfg v ∧ KeyId.idOf id ≠ 0 ∧ cached cfg v.ctx s id = none ∧ s.nvm.store id = none)
  force := fun id => ∃ rid, r = .evictOption rid ∧ id = ownId cfg v rid
  rev := fun id => ∃ rid, r = .revoke rid ∧ id = ownId cfg v rid
  des := fun id => ∃ rid, r = .erase rid ∧ id = ownId cfg v rid

theorem withId_state (cfg : Cfg) (x : Nat) (s : Sys) (u : Bool) (md : Meta)
    (k : Meta → Rc × Sys) :
    (withId cfg x s u md k).2 = s ∨
    (u = true ∧ ∃ id, FreshId cfg x s md.id id ∧ (withId cfg x s u md k).2 = (k { md with id := id }).2) ∨
    (u = false ∧ (withId cfg x s u md k).2 = (k md).2) := by
  unfold withId
  cases u with
  | false => right; right; exact ⟨rfl, rfl⟩
  | true =>
    simp only [if_true]
    rcases getUniqueId_or cfg x s md.id with ⟨id, e, h⟩ | ⟨rc, hrc, e⟩
    · rw [e]; right; left; exact ⟨trivial, id, h, rfl⟩
    · left
      rw [e]
      cases rc <;> first | exact absurd rfl hrc | rfl

theorem withId_trs {cfg : Cfg} {v : Srv} {s : Sys} {u : Bool} {md : Meta} {k : Meta → Rc × Sys}
    (hr : Reachable cfg v.client md.id) (hn : F.w md.id)
    (hfr : u = true → ∀ id, KeyId.idOf id ≠ 0 → cached cfg v.ctx s id = none →
      s.nvm.store id = none → F.w id)
    (hk : ∀ md', F.w md'.id → md' = { md with id := md'.id } →
      Trs F cfg v.ctx (· = md'.id) s (k md').2) :
    Trs F cfg v.ctx (Reachable cfg v.client) s (withId cfg v.ctx s u md k).2 := by
  rcases withId_state cfg v.ctx s u md k with e | ⟨hu, id, hf, e⟩ | ⟨_, e⟩
  · rw [e]; exact .nil _
  · rw [e]
    exact (hk { md with id := id } (hfr hu id hf.pos hf.cached hf.stored) rfl).at (reach_fresh hf hr)
  · rw [e]
    exact (hk md hn rfl).at hr

/-- Every key request is a sequence of elementary transitions on ids the client may name. -/
theorem handle_trs {cfg : Cfg} {v : Srv} {s : Sys} (hw : WF s) (hc : v.client < 16)
    (hsg : cfg.sheGlobal = true → cfg.ids.globalKeys = true) (lock : Rc) (r : Req) :
    Trs (reqPar cfg v s r (handle cfg v s lock r).2) cfg v.ctx (Reachable cfg v.client) s
      (handle cfg v s lock r).2 := by
  generalize hF : reqPar cfg v s r (handle cfg v s lock r).2 = F
  have hfr : r.Picks cfg v → ∀ id, KeyId.idOf id ≠ 0 → cached cfg v.ctx s id = none →
      s.nvm.store id = none → F.w id := by
    intro h id h0 h1 h2; rw [← hF]; exact Or.inr ⟨h, h0, h1, h2⟩
  have her : ∀ {id}, KeyId.isErased id = true → KeyId.idOf id = 0 := by
    intro id h; simpa [KeyId.isErased] using h
  have hun : ∀ {id}, KeyId.isUnassigned id = true → KeyId.idOf id = 0 := by
    intro id h
    simp only [KeyId.isUnassigned, Bool.and_eq_true] at h
    exact her h.1
  have hown : ∀ rid, Reachable cfg v.client
      (KeyId.fromClient cfg.ids KeyId.typeCrypto v.client rid) := fun rid => reach_own cfg hc _ _
  have hmono : ∀ {rid s'}, Trs F cfg v.ctx
      (· = KeyId.fromClient cfg.ids KeyId.typeCrypto v.client rid) s s' →
      Trs F cfg v.ctx (Reachable cfg v.client) s s' :=
    fun h => h.at (hown _)
  have hw1 : ∀ id, r.Names cfg v id → F.w id := by
    intro id h; rw [← hF]; exact Or.inl h
  have hg1 : ∀ md d, r.Brings cfg md d → F.gives md d := by
    intro md d h; rw [← hF]; exact h
  rcases handle_or cfg v s lock r with ⟨_, _, e⟩ | ⟨rc, _, e⟩
  case inr => rw [e]; exact .nil _
  rw [e] at hF ⊢
  unfold act at hF ⊢
  cases r with
  | cache id flags label key =>
    dsimp only
    unfold handleCache
    split
    · exact .nil _
    · rename_i hlen
      refine withId_trs (hown id) (hw1 _ rfl) (fun h => hfr (hun h)) ?_
      intro md' hwr he
      refine cacheKey_trs hw hwr (fun hb => hg1 _ _ ⟨by rw [he]; rfl, rfl, hb⟩) ?_ ?_
      · rw [he]; exact clean_untrusted _
      · rw [he]
        show (UInt16.ofNat key.length).toNat = _
        simp [Nat.mod_eq_of_lt (Nat.lt_of_not_le hlen)]
  | cacheRandom id flags label sz rng =>
    dsimp only
    unfold handleCacheRandom
    refine withId_trs (hown id) (hw1 _ rfl) (fun h => hfr (her h)) ?_
    intro md' hwr he
    refine cacheRandomKey_trs hw hwr (fun f hf => hg1 _ _ ⟨by rw [he]; rfl, f, hf, ?_⟩) ?_
    · rw [he]; rfl
    · rw [he]; exact clean_untrusted _
  | cacheDma id flags label sz dma mem =>
    dsimp only
    unfold handleCacheDma
    refine withId_trs (hown id) (hw1 _ rfl) (fun h => hfr (hun h)) ?_
    intro md' hwr he
    refine cacheKeyDma_trs hw hwr (fun hb => hg1 _ _ ⟨by rw [he]; rfl, ?_, hb⟩) ?_
    · rw [he]; rfl
    · rw [he]; exact clean_untrusted _
  | exportKey id => exact hmono (readKeyChecked_trs _ _ hw)
  | exportDma id sz dma =>
    dsimp only
    unfold exportKeyDma
    have hfre := hmono (freshen_trs (F := F) (cfg := cfg) (x := v.ctx)
      (KeyId.fromClient cfg.ids KeyId.typeCrypto v.client id) hw)
    split
    · split
      · rename_i e
        rw [e] at hfre
        split
        · exact hfre
        · split <;> exact hfre
      · rename_i e
        rw [e] at hfre
        exact hfre
    · exact .nil _
  | exportPublic id algo =>
    dsimp only
    unfold handleExportPublic
    have hfre := hmono (freshen_trs (F := F) (cfg := cfg) (x := v.ctx)
      (KeyId.fromClient cfg.ids KeyId.typeCrypto v.client id) hw)
    split
    · split
      · rename_i e
        rw [e] at hfre
        exact hfre
      · rename_i e
        rw [e] at hfre
        exact hfre
    · exact .nil _
  | evict id => exact hmono (evictKeyChecked_trs hw (hw1 _ rfl))
  | commit id => exact hmono (commitKeyChecked_trs hw (hw1 _ rfl))
  | erase id =>
    refine hmono (rid := id) ?_
    have hde : F.w (ownId cfg v id) ∧ F.des (ownId cfg v id) :=
      ⟨hw1 _ rfl, by rw [← hF]; exact ⟨id, rfl, rfl⟩⟩
    exact eraseKeyChecked_cases (F := F) (P := fun r => Trs F cfg v.ctx _ s r.2) hw hde
      (fun s' h _ _ _ => h) (fun rc s' _ h => h)
  | revoke id =>
    refine hmono (rid := id) ?_
    have hre : F.w (ownId cfg v id) ∧ F.rev (ownId cfg v id) :=
      ⟨hw1 _ rfl, by rw [← hF]; exact ⟨id, rfl, rfl⟩⟩
    refine revokeKey_cases (F := F) (P := fun r => Trs F cfg v.ctx _ s r.2) hw hre
      ?_ ?_ ?_ ?_ ?_
    · intro s' hs' hbad
      rw [← hF]
      refine ⟨⟨id, rfl⟩, ?_⟩
      show (revokeKey cfg v.ctx s (ownId cfg v id)).2.nvm.powered = false ∨ _
      rw [hs']
      exact hbad
    · intro s' k h; exact .one rfl (h.tr hre)
    · intro s' k h _ _; exact h.trs
    · intro s1 s' k h h'; exact h.trs.trans (.one rfl (h'.tr hre))
    · intro rc s' _ h; exact h
  | wrap kekId md key iv =>
    have hk := hmono (resolveKek_trs (F := F) (cfg := cfg) (x := v.ctx)
      (KeyId.fromClient cfg.ids KeyId.typeCrypto v.client kekId) false hw)
    dsimp only
    unfold handleWrap
    split
    · exact .nil _
    · split
      · exact .nil _
      · split
        · exact .nil _
        · split
          · rename_i e; rw [e] at hk; exact hk
          · rename_i e; rw [e] at hk; exact hk
  | wrapExport gcm kekId keyType keyId iv =>
    dsimp only
    unfold handleWrapExport
    split
    · exact .nil _
    · rename_i t ht
      have hrt : Reachable cfg v.client t := by
        have h0 := reach_own cfg hc keyType keyId
        unfold wrapTarget at ht
        dsimp only at ht
        split at ht
        · cases ht; exact h0
        · split at ht
          · split at ht
            · rename_i hg
              cases ht
              right
              refine ⟨hsg hg, ?_⟩
              rw [KeyId.userOf_make]; decide
            · cases ht; exact h0
          · cases ht
      have hrd := (readKeyChecked_trs (F := F) (cfg := cfg) (x := v.ctx) t cfg.maxWrapKey hw).at (hrt)
      have hw' := hrd.wf hw
      split
      · rename_i e
        rw [e] at hrd hw'
        split
        · exact hrd
        · have hk := (resolveKek_trs (F := F) (cfg := cfg) (x := v.ctx)
            (KeyId.fromClient cfg.ids KeyId.typeCrypto v.client kekId) true hw').at (hown _)
          split
          · rename_i e; rw [e] at hk; exact hrd.trans hk
          · rename_i e; rw [e] at hk; exact hrd.trans hk
      · rename_i e
        rw [e] at hrd
        exact hrd
  | unwrapExport kekId blob =>
    dsimp only
    unfold handleUnwrapExport
    have hk := hmono (resolveKek_trs (F := F) (cfg := cfg) (x := v.ctx)
      (KeyId.fromClient cfg.ids KeyId.typeCrypto v.client kekId) false hw)
    have hu : Trs F cfg v.ctx (Reachable cfg v.client) s (unwrapKey cfg v s kekId false blob).2 := by
      rcases unwrapKey_or (cfg := cfg) (v := v) (s := s) kekId false blob with
        ⟨kek, pt, _, _, e⟩ | ⟨rc, _, e⟩
      · rw [e]; exact hk
      · rw [e]; exact hk
    split
    · exact .nil _
    · split
      · exact .nil _
      · split
        · rename_i e
          rw [e] at hu
          split
          · exact hu
          · split
            · exact hu
            · split
              · exact hu
              · split <;> exact hu
        · rename_i e
          rw [e] at hu
          exact hu
  | unwrapCache kekId blob =>
    dsimp only
    unfold handleUnwrapCache
    have hk := hmono (resolveKek_trs (F := F) (cfg := cfg) (x := v.ctx)
      (KeyId.fromClient cfg.ids KeyId.typeCrypto v.client kekId) true hw)
    split
    · exact .nil _
    · rcases unwrapKey_or (cfg := cfg) (v := v) (s := s) kekId true blob with
        ⟨kek, pt, _, ho, e⟩ | ⟨rc, hrc, e⟩
      · rw [e]
        dsimp only
        have hw' := hk.wf hw
        split
        · rename_i md' ha
          have hacc := unwrapAccept_ok ha
          have hrm : Reachable cfg v.client md'.id :=
            unwrapSheId_reach hsg hacc.id (ownerOk_reach hacc.owner)
          refine hk.trans ?_
          refine (?_ : Trs F cfg v.ctx (· = md'.id) _ _).at (hrm)
          refine cacheKey_unchecked_cases (P := fun r => Trs F cfg v.ctx (· = md'.id) _ r.2) hw'
            hacc.free ?_ ?_
          · intro s' hf
            refine .one rfl (hf.tr_unwrap (hw1 _ ?_) (hg1 _ _ ?_) ?_ hacc.len hacc.free hacc.type)
            · exact ⟨kek, pt, ho, hacc.id⟩
            · exact ⟨kek, pt, ho, hacc.flags, rfl, hacc.notState⟩
            · show hasFlag md'.flags _ = _
              rw [hacc.flags]; exact clean_untrusted _
          · intro rc _; exact .nil _
        · exact hk
      · rw [e]
        cases rc <;> first | exact absurd rfl hrc | exact hk
  | dataWrap kekId data iv =>
    have hk := hmono (resolveKek_trs (F := F) (cfg := cfg) (x := v.ctx)
      (KeyId.fromClient cfg.ids KeyId.typeCrypto v.client kekId) false hw)
    dsimp only
    unfold handleDataWrap
    split
    · exact .nil _
    · split
      · exact .nil _
      · split
        · rename_i e; rw [e] at hk; exact hk
        · rename_i e; rw [e] at hk; exact hk
  | dataUnwrap kekId blob =>
    have hk := hmono (resolveKek_trs (F := F) (cfg := cfg) (x := v.ctx)
      (KeyId.fromClient cfg.ids KeyId.typeCrypto v.client kekId) false hw)
    dsimp only
    unfold handleDataUnwrap
    split
    · exact .nil _
    · split
      · exact .nil _
      · split
        · rename_i e
          rw [e] at hk
          split <;> exact hk
        · rename_i e; rw [e] at hk; exact hk
  | malformed => exact .nil _
  | useKey id required outSz =>
    dsimp only
    rcases readKeyEnforce_state (cfg := cfg) (x := v.ctx) (s := s) (lock := .ok)
      (KeyId.fromClient cfg.ids KeyId.typeCrypto v.client id) required outSz with e | e
    · rw [e]; exact .nil _
    · rw [e]; exact hmono (readKey_trs _ _ hw)
  | importKey id flags label cap der =>
    dsimp only
    unfold handleImport
    refine withId_trs (hown id) (hw1 _ rfl) (fun h => hfr (her h)) ?_
    intro md' hwr he
    refine importKey_trs hw hwr (fun data hd => hg1 _ _ ⟨?_, hd⟩)
    show md'.flags &&& _ = _
    rw [he]
    show (flags &&& ~~~Nvm.serverOnly) &&& ~~~Nvm.serverOnly = _
    rw [UInt16.and_assoc, UInt16.and_self]
  | loadKey id required =>
    dsimp only
    rw [loadKey_state]
    exact hmono (freshen_trs _ hw)
  | evictOption id =>
    dsimp only
    split
    · exact .nil _
    · refine hmono (evictKey_trs hw (hw1 _ rfl) ?_)
      rw [← hF]
      exact ⟨id, rfl, rfl⟩

end WolfHsm.Keystore

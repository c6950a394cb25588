import Verif.Proofs.CertCache

/-!
# The keys a chain verification puts into the key cache
-/

namespace WolfHsm.Cert

open Keystore (Sys CKey Cache Slot)

variable {E : Type}

theorem mem_updFirst {id : UInt16} {k : CKey} : ∀ {l : List Keystore.Slot},
    some k ∈ Keystore.updFirst id (fun _ => none) l → some k ∈ l := by
  intro l
  induction l with
  | nil => exact fun h => h
  | cons o l ih =>
    intro h
    cases o with
    | none =>
      rcases List.mem_cons.1 h with h | h
      · cases h
      · exact List.mem_cons_of_mem _ (ih h)
    | some j =>
      unfold Keystore.updFirst at h
      split at h
      · rcases List.mem_cons.1 h with h | h
        · cases h
        · exact List.mem_cons_of_mem _ h
      · rcases List.mem_cons.1 h with h | h
        · exact h ▸ List.mem_cons_self
        · exact List.mem_cons_of_mem _ (ih h)

theorem evict_holds {c : Cache} {id : UInt16} {k : CKey} (h : Holds (c.evict id) k) : Holds c k := by
  unfold Cache.evict Cache.update at h
  unfold Holds at h ⊢
  split at h
  · exact h.imp mem_updFirst fun h => h
  · exact h.imp (fun h => h) mem_updFirst

theorem put_holds {c : Cache} {loc : Keystore.Loc} {o : Keystore.Slot} {k : CKey}
    (h : Holds (c.put loc o) k) : Holds c k ∨ some k = o := by
  unfold Cache.put at h
  unfold Holds at h ⊢
  split at h
  · rcases h with h | h
    · exact .inl (.inl h)
    · rcases List.mem_or_eq_of_mem_set h with h | h
      · exact .inl (.inr h)
      · exact .inr h
  · rcases h with h | h
    · rcases List.mem_or_eq_of_mem_set h with h | h
      · exact .inl (.inl h)
      · exact .inr h
    · exact .inl (.inr h)

theorem setCache_inCache {cfg : Keystore.Cfg} {x : Nat} {s : Sys} {id : UInt16} {c : Cache} {k : CKey}
    (h : InCache (Keystore.setCache cfg x s id c) k) : InCache s k ∨ Holds c k := by
  unfold Keystore.setCache at h
  unfold InCache at h ⊢
  split at h
  · rcases h with h | h
    · exact .inr h
    · exact .inl (.inr h)
  · rcases h with h | ⟨y, h⟩
    · exact .inl (.inl h)
    · dsimp only at h
      split at h
      · exact .inr h
      · exact .inl (.inr ⟨y, h⟩)

theorem cacheOf_inCache {cfg : Keystore.Cfg} {x : Nat} {s : Sys} {id : UInt16} {k : CKey}
    (h : Holds (Keystore.cacheOf cfg x s id) k) : InCache s k := by
  unfold Keystore.cacheOf at h
  split at h
  · exact .inl h
  · exact .inr ⟨x, h⟩

theorem reserveIn_inCache {cfg : Keystore.Cfg} {x : Nat} {s : Sys} {id : UInt16} {sz : Nat} {k : CKey}
    (h : InCache (Keystore.reserveIn cfg x s id sz).2.2 k) : InCache s k := by
  unfold Keystore.reserveIn at h
  split at h
  · next loc c hr =>
    rcases setCache_inCache h with h | hp
    · exact h
    · unfold Keystore.reserve at hr
      split at hr
      all_goals
        obtain ⟨i, -, hi⟩ := Option.map_eq_some_iff.1 hr
        cases hi
        rcases put_holds hp with hp | hp
        · exact cacheOf_inCache hp
        · cases hp
  · exact h

theorem evictKey_inCache {cfg : Keystore.Cfg} {x : Nat} {s : Sys} {id : UInt16} {k : CKey}
    (h : InCache (Keystore.evictKey cfg x s id).2 k) : InCache s k := by
  unfold Keystore.evictKey at h
  repeat' split at h
  all_goals first
    | exact h
    | (rcases setCache_inCache h with h | h
       · exact h
       · exact cacheOf_inCache (evict_holds h))

theorem getSlotChecked_inCache {cfg : Keystore.Cfg} {x : Nat} {s : Sys} {id : UInt16} {sz : Nat}
    {k : CKey} (h : InCache (Keystore.getSlotChecked cfg x s id sz).2.2 k) : InCache s k := by
  unfold Keystore.getSlotChecked at h
  dsimp only at h
  split at h
  · unfold Keystore.getSlot at h
    split at h
    · exact h
    · split at h
      · exact h
      · split at h
        · split at h
          · next he =>
            have := reserveIn_inCache h
            exact evictKey_inCache (by rw [he]; exact this)
          · next he => exact evictKey_inCache (by rw [he]; exact h)
        · exact reserveIn_inCache h
  · exact h

theorem cacheLeaf_inCache {cfg : Cfg E} {c : Call E} {cert : Der} {w : Walk} {k : CKey}
    (h : InCache (cacheLeaf cfg c cert w).2.st.sys k) :
    InCache w.st.sys k ∨ LeafKey cfg c.keyFlags cert k := by
  unfold cacheLeaf at h
  split at h
  · next hg =>
    have hi : ∀ {k}, InCache _ k → InCache w.st.sys k := fun {k} h =>
      getSlotChecked_inCache (k := k) (cfg := cfg.ks) (x := c.ctx) (id := w.keyId)
        (sz := cfg.ks.bigBufSize) (by rw [hg]; exact h)
    split at h
    · next pk hpk =>
      split at h
      · exact .inl (hi h)
      · rcases setCache_inCache h with h | h
        · exact .inl (hi h)
        · rcases put_holds h with h | h
          · exact .inl (hi (cacheOf_inCache h))
          · cases h
            exact .inr ⟨hpk, rfl, rfl, rfl⟩
    · exact .inl (hi h)
  · next hg =>
    exact .inl (getSlotChecked_inCache (cfg := cfg.ks) (x := c.ctx) (id := w.keyId)
        (sz := cfg.ks.bigBufSize) (by rw [hg]; exact h))

theorem leaf_inCache {cfg : Cfg E} {c : Call E} {cert : Der} {w : Walk} {k : CKey}
    (h : InCache (leaf cfg c cert w).2.st.sys k) :
    InCache w.st.sys k ∨ (c.flags &&& cacheLeafFlag ≠ 0 ∧ LeafKey cfg c.keyFlags cert k) := by
  unfold leaf at h
  split at h
  · exact .inl h
  · next hf =>
    split at h
    · split at h
      · exact (cacheLeaf_inCache h).imp (fun h => h) fun h => ⟨hf, h⟩
      · exact .inl h
    · exact (cacheLeaf_inCache h).imp (fun h => h) fun h => ⟨hf, h⟩

theorem verifyBuffer_sys (cfg : Cfg E) (c : Call E) (w : Walk) (d : Der) :
    (verifyBuffer cfg c w d).2.st.sys = w.st.sys := by
  unfold verifyBuffer; split <;> rfl

theorem checkCert_sys (cfg : Cfg E) (c : Call E) (i off len : Nat) (w : Walk) :
    (checkCert cfg c i off len w).2.2.st.sys = w.st.sys := by
  unfold checkCert
  dsimp only
  repeat' split
  all_goals first
    | rfl
    | (rw [verifyBuffer_sys])

theorem accepted_inCache {cfg : Cfg E} {c : Call E} {i off len : Nat} {d : Option (List UInt8)}
    {w : Walk} {k : CKey} (h : InCache (accepted cfg c i off len d w).2.st.sys k) :
    InCache w.st.sys k ∨ (c.flags &&& cacheLeafFlag ≠ 0 ∧
      ∃ j off' len', LeafKey cfg c.keyFlags (c.bytes j off' len') k) := by
  unfold accepted at h
  dsimp only at h
  repeat' split at h
  all_goals first
    | exact .inl h
    | exact (leaf_inCache h).imp (fun h => h) fun h => ⟨h.1, _, _, _, h.2⟩

theorem walk_inCache {cfg : Cfg E} {c : Call E} {k : CKey} : ∀ (fuel i off rem : Nat) (w : Walk),
    InCache (walk cfg c fuel i off rem w).2.st.sys k →
    InCache w.st.sys k ∨ (c.flags &&& cacheLeafFlag ≠ 0 ∧
      ∃ j off' len', LeafKey cfg c.keyFlags (c.bytes j off' len') k) := by
  intro fuel
  induction fuel with
  | zero => intro _ _ _ _ h; exact .inl h
  | succ fuel ih =>
    intro i off rem w h
    unfold walk at h
    split at h
    · exact .inl h
    · split at h
      · exact .inl h
      · split at h
        · exact .inl h
        · next n _ _ =>
          have hs := checkCert_sys cfg c i off (n + 2) w
          split at h
          · next hc =>
            rw [hc] at hs
            split at h
            · next ha =>
              rcases ih _ _ _ _ h with h | h
              · have := accepted_inCache (k := k) (cfg := cfg) (c := c) (by rw [ha]; exact h)
                rw [hs] at this
                exact this
              · exact .inr h
            · next ha =>
              have := accepted_inCache (k := k) (cfg := cfg) (c := c) (by rw [ha]; exact h)
              rw [hs] at this
              exact this
          · next hc =>
            rw [hc] at hs
            rw [hs] at h
            exact .inl h

theorem verifyChain_inCache {cfg : Cfg E} {c : Call E} {n : Nat} {w : Walk} {k : CKey}
    (h : InCache (verifyChain cfg c n w).2.st.sys k) :
    InCache w.st.sys k ∨ (c.flags &&& cacheLeafFlag ≠ 0 ∧
      ∃ j off len, LeafKey cfg c.keyFlags (c.bytes j off len) k) := by
  unfold verifyChain at h
  split at h
  · exact .inl h
  · exact walk_inCache _ _ _ _ _ h

theorem verifyMulti_inCache {cfg : Cfg E} {s : State} {c : Call E} {n : Nat} {id : UInt16} {k : CKey}
    (h : InCache (verifyMulti cfg s c n id).2.sys k) :
    InCache s.sys k ∨ (c.flags &&& cacheLeafFlag ≠ 0 ∧
      ∃ j off len, LeafKey cfg c.keyFlags (c.bytes j off len) k) := by
  unfold verifyMulti at h
  split at h
  · exact .inl h
  · split at h
    · dsimp only at h
      split at h
      · exact .inl h
      · split at h
        · next he => exact verifyChain_inCache (c := { c with roots := _ }) (by rw [he]; exact h)
        · next he => exact verifyChain_inCache (c := { c with roots := _ }) (by rw [he]; exact h)
    · exact .inl h

end WolfHsm.Cert

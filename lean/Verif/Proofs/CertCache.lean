import Verif.Proofs.Cert

/-!
# What a disabled cache contains

Any predicate on caches that survives the cache operations survives every history.
-/

namespace WolfHsm.Cert

variable {E : Type}

/-- A predicate kept by every operation on the cache. -/
structure Kept (Q : VCache → Prop) : Prop where
  fresh : ∀ n, Q (VCache.fresh n)
  clear : ∀ c lock, Q c → Q (c.clear lock).2
  enable : ∀ c lock b, Q c → Q (c.setEnabled lock b).2
  evict : ∀ c lock r, Q c → Q (c.evictRoot lock r).2
  insert : ∀ m c lock r h, Q c → Q (c.insert m lock r h)

theorem Kept.enter {Q : VCache → Prop} (k : Kept Q) (sc : Sched) (i : Nat) {c : VCache} (h : Q c) :
    Q (sc.enter i c) := by
  unfold Sched.enter
  generalize sc.before i = l
  induction l generalizing c with
  | nil => exact h
  | cons o l ih =>
    refine ih ?_
    cases o with
    | clear => exact k.clear _ _ h
    | enable b => exact k.enable _ _ _ h

theorem checkCert_kept {Q : VCache → Prop} (k : Kept Q) (cfg : Cfg E) (c : Call E)
    (i off len : Nat) (w : Walk) (h : Q w.st.vc) : Q (checkCert cfg c i off len w).2.2.st.vc := by
  unfold checkCert
  dsimp only
  repeat' split
  all_goals
    try rw [verifyBuffer_vc]
    first
      | exact h
      | exact k.enter _ _ h
      | exact k.enter _ _ (k.enter _ _ h)

theorem accepted_kept {Q : VCache → Prop} (k : Kept Q) (cfg : Cfg E) (c : Call E)
    (i off len : Nat) (d : Option (List UInt8)) (w : Walk) (h : Q w.st.vc) :
    Q (accepted cfg c i off len d w).2.st.vc := by
  unfold accepted
  dsimp only
  repeat' split
  all_goals first
    | exact h
    | exact k.insert _ _ _ _ _ (k.enter _ _ h)
    | (rw [(leaf_frame cfg c _ w).1]; exact h)

theorem walk_kept {Q : VCache → Prop} (k : Kept Q) (cfg : Cfg E) (c : Call E) :
    ∀ (fuel i off rem : Nat) (w : Walk), Q w.st.vc → Q (walk cfg c fuel i off rem w).2.st.vc := by
  intro fuel
  induction fuel with
  | zero => intro _ _ _ _ h; exact h
  | succ fuel ih =>
    intro i off rem w h
    unfold walk
    split
    · exact h
    · split
      · exact h
      · next n _ =>
        split
        · exact h
        · have h1 := checkCert_kept k cfg c i off (n + 2) w h
          split
          · next d w1 hck =>
            rw [hck] at h1
            have h2 := accepted_kept k cfg c i off (n + 2) d w1 h1
            split
            · next haw => rw [haw] at h2; exact ih _ _ _ _ h2
            · next haw => rw [haw] at h2; exact h2
          · next hck => rw [hck] at h1; exact h1

theorem verifyMulti_kept {Q : VCache → Prop} (k : Kept Q) (cfg : Cfg E) (s : State) (c : Call E)
    (n : Nat) (keyId : UInt16) (h : Q s.vc) : Q (verifyMulti cfg s c n keyId).2.vc := by
  unfold verifyMulti
  split
  · exact h
  · split
    · next store loaded n1 _ =>
      dsimp only
      split
      · exact h
      · have : Q (verifyChain cfg { c with roots := loaded } n
            ⟨{ s with sys := { s.sys with nvm := n1 } }, store, keyId⟩).2.st.vc := by
          unfold verifyChain
          split
          · exact h
          · exact walk_kept k _ _ _ _ _ _ _ h
        split
        · next hw => rw [hw] at this; exact this
        · next hw => rw [hw] at this; exact this
    · exact h

theorem evicting_kept {Q : VCache → Prop} (k : Kept Q) (cfg : Cfg E) (s : State) (rc lock : Rc)
    (id : UInt16) (h : Q s.vc) : Q (evicting cfg s rc lock id).2.vc := by
  unfold evicting
  split
  · exact k.evict _ _ _ h
  · exact h

theorem step_kept {Q : VCache → Prop} (k : Kept Q) (cfg : Cfg E) (s : State) (ev : Ev E)
    (h : Q s.vc) : Q (step cfg s ev).vc := by
  cases ev with
  | init lock =>
    simp only [step, certInit]
    split
    · exact k.clear _ _ h
    · exact h
  | add nl lock md d =>
    simp only [step]
    split
    · unfold addTrusted
      split
      · exact h
      · exact evicting_kept k _ _ _ _ _ h
    · exact h
  | erase nl lock id =>
    simp only [step]
    split
    · unfold eraseTrusted
      dsimp only
      repeat' split
      all_goals first
        | exact h
        | exact evicting_kept k _ _ _ _ _ h
    · exact h
  | verify nl c n kid =>
    simp only [step]
    split
    · exact verifyMulti_kept k _ _ _ _ _ h
    · exact h
  | clear nl lock =>
    simp only [step]
    split
    · exact k.clear _ _ h
    · exact h
  | enable nl lock b =>
    simp only [step]
    split
    · exact k.enable _ _ _ h
    · exact h
  | restart sys => exact k.fresh _
  | other sys => exact h

theorem run_kept {Q : VCache → Prop} (k : Kept Q) (cfg : Cfg E) : ∀ (evs : List (Ev E)) (s : State),
    Q s.vc → Q (run cfg s evs).vc := by
  intro evs
  induction evs with
  | nil => intro s h; exact h
  | cons ev evs ih => intro s h; exact ih _ (step_kept k cfg s ev h)

theorem wipe_empty (c : VCache) : c.wipe.Empty := by
  intro o ho
  obtain ⟨_, _, rfl⟩ := List.mem_map.1 ho
  rfl

theorem kept_disabled : Kept fun c => c.enabled = false → c.Empty where
  fresh n h := by cases h
  clear c lock h := by
    unfold VCache.clear
    split
    · exact h
    · exact fun _ => wipe_empty c
  enable c lock b h := by
    unfold VCache.setEnabled
    split
    · exact h
    · intro hb
      have hb : b = false := hb
      subst hb
      exact wipe_empty c
  evict c lock r h := by
    unfold VCache.evictRoot
    split
    · exact h
    · intro he o ho
      obtain ⟨o', ho', rfl⟩ := List.mem_map.1 ho
      rw [h he o' ho']
  insert m c lock r hd h := by
    unfold VCache.insert
    repeat' split
    all_goals first
      | exact h
      | (intro he; simp_all)

end WolfHsm.Cert

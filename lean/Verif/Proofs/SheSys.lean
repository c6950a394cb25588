import Verif.Proofs.SheHist
import Verif.Proofs.KeystoreCoh

/-! # What the SHE commands do to the key store -/

namespace WolfHsm.She

open NvmFlash (Meta Store withLen)
open Keystore hiding Req Ev Cfg step run Reach
open Server (Req)
open Wire

variable {cfg : Cfg} {ncfg : NvmServer.Cfg}

/-- No id is written. -/
def ro : Par := ⟨False, fun _ _ => False, fun _ => False, fun _ => False, fun _ => False, fun _ => False⟩

/-- Transitions that only read. -/
abbrev Reads (cfg : Cfg) (x : Nat) (s s' : Sys) : Prop := Trs ro cfg.ks x (fun _ => True) s s'

theorem readKey_reads {x : Nat} {s : Sys} (id : UInt16) (n : Nat) (hw : WF s) :
    Reads cfg x s (readKey cfg.ks x s id n).2 := (readKey_trs id n hw).mono fun _ _ => trivial

theorem Reads.store {x : Nat} {s s' : Sys} (h : Reads cfg x s s') : s'.nvm.store = s.nvm.store := by
  funext i; exact (h.readonly (i := i) id).1

/-- One object has been written: in the cache of the context, in the NVM, or as an add that may
show up later. -/
structure Wrote (cfg : Cfg) (x : Nat) (md : Meta) (data : List UInt8) (s s' : Sys) : Prop where
  frame : Frame cfg.ks x md.id s s'
  c : cached cfg.ks x s' md.id = cached cfg.ks x s md.id ∨ cached cfg.ks x s' md.id = none ∨
    cached cfg.ks x s' md.id = some ⟨md, data, false⟩
  n : s'.nvm.store md.id = s.nvm.store md.id ∨ s'.nvm.store md.id = some (md, data)
  p : s'.nvm.pending = s.nvm.pending ∨ s'.nvm.pending = none ∨ s'.nvm.pending = some (md, data)

theorem Wrote.wf {x : Nat} {md : Meta} {data : List UInt8} {s s' : Sys} (h : Wrote cfg x md data s s')
    (hl : md.len.toNat = data.length) (hw : WF s) : WF s' := by
  refine ⟨?_, ?_, ?_, ?_⟩
  · intro a
    by_cases ha : a = area cfg.ks x md.id
    · subst ha; exact h.frame.uniq
    · rw [h.frame.areas a ha]; exact hw.uniq a
  · intro a i k hk
    by_cases ha : a = area cfg.ks x md.id
    · subst ha
      by_cases hi : i = md.id
      · subst hi
        have hc := h.c
        simp only [cached_eq] at hc
        rcases hc with hc | hc | hc
        · exact hw.clen _ _ _ (hc ▸ hk)
        · rw [hc] at hk; cases hk
        · rw [hc] at hk; cases hk; exact hl
      · rcases h.frame.others i hi with h1 | ⟨k', -, -, h1⟩
        · exact hw.clen _ _ _ (h1 ▸ hk)
        · rw [h1] at hk; cases hk
    · rw [h.frame.areas a ha] at hk; exact hw.clen _ _ _ hk
  · intro i m bs hi
    by_cases hid : i = md.id
    · subst hid
      rcases h.n with h1 | h1
      · exact hw.nvm _ _ _ (h1 ▸ hi)
      · rw [h1] at hi; cases hi; exact ⟨rfl, hl⟩
    · rw [h.frame.store i hid] at hi; exact hw.nvm _ _ _ hi
  · intro m bs hp
    rcases h.p with h1 | h1 | h1
    · exact hw.pend _ _ (h1 ▸ hp)
    · rw [h1] at hp; cases hp
    · rw [h1] at hp; cases hp; exact len_lt hl

/-- Other ids are left alone. -/
theorem Wrote.other {x : Nat} {md : Meta} {data : List UInt8} {s s' : Sys} (h : Wrote cfg x md data s s')
    {i : UInt16} (hi : i ≠ md.id) : Other i s s' := by
  refine ⟨h.frame.store i hi, ?_, ?_⟩
  · intro m d hp hm
    rcases h.p with h1 | h1 | h1
    · rw [← h1]; exact hp
    · rw [h1] at hp; cases hp
    · rw [h1] at hp; cases hp; exact absurd hm.symm hi
  · intro a
    by_cases ha : a = area cfg.ks x md.id
    · subst ha; exact h.frame.others i hi
    · left; rw [h.frame.areas a ha]

theorem Wrote.refl {x : Nat} {md : Meta} {data : List UInt8} {s : Sys} (hw : WF s) :
    Wrote cfg x md data s s := ⟨.refl hw, Or.inl rfl, Or.inl rfl, Or.inl rfl⟩

/-- The NVM part of a write. -/
theorem add_wrote {x : Nat} {md : Meta} {data : List UInt8} {s : Sys} (hw : WF s)
    (hl : md.len.toNat = data.length) {P : Rc × Nvm → Prop}
    (hok : ∀ n, Wrote cfg x md data s { s with nvm := n } → n.store md.id = some (md, data) →
      n.pending = none → n.powered = true → P (.ok, n))
    (herr : ∀ rc n, rc ≠ .ok → Wrote cfg x md data s { s with nvm := n } → P (rc, n)) :
    P (s.nvm.add md data) := by
  have key : ∀ n : Nvm, (n.store = s.nvm.store.set md data ∨ n.store = s.nvm.store) →
      (n.pending = s.nvm.pending ∨ n.pending = none ∨ n.pending = some (md, data)) →
      Wrote cfg x md data s { s with nvm := n } := by
    intro n h1 h2
    have h3 : ∀ i, i ≠ md.id → n.store i = s.nvm.store i := by
      intro i hi; rcases h1 with h1 | h1
      · rw [h1]; exact set_ne rfl hi
      · rw [h1]
    obtain ⟨h4, h5⟩ := frame_nvm (cfg := cfg.ks) (x := x) (id := md.id) hw n h3
    refine ⟨h4, Or.inl h5, ?_, h2⟩
    rcases h1 with h1 | h1
    · right; show n.store md.id = _; rw [h1]; exact set_self rfl hl
    · left; show n.store md.id = _; rw [h1]
  refine Nvm.add_cases _ _ _ ?_ ?_ ?_ ?_
  · intro n h1 h2 h3
    exact hok n (key n (Or.inl h1) (Or.inr (Or.inl h2))) (by rw [h1]; exact set_self rfl hl) h2 h3
  · intro n h1 h2 _
    exact herr _ n (by simp) (key n (Or.inl h1) (Or.inr (Or.inl h2)))
  · intro rc n hrc h1 h2
    exact herr _ n hrc (key n (Or.inr h1) (Or.inr (Or.inr h2)))
  · intro rc n hrc h1 h2
    exact herr _ n hrc (key n (Or.inr h1) (Or.inl h2))

theorem cacheKey_wrote {x : Nat} {md : Meta} {data : List UInt8} {s : Sys} (hw : WF s)
    {P : Rc × Sys → Prop}
    (hok : ∀ s', Filled cfg.ks x s s' md data → P (.ok, s'))
    (herr : ∀ rc s', rc ≠ .ok → Wrote cfg x md data s s' → P (rc, s')) :
    P (cacheKey cfg.ks x s false md data) := by
  unfold cacheKey
  split
  · exact herr _ _ (by simp) (.refl hw)
  · split
    · exact herr _ _ (by simp) (.refl hw)
    · split
      · exact herr _ _ (by simp) (.refl hw)
      · split
        · exact herr _ _ (by simp) (.refl hw)
        · simp only [Bool.false_eq_true, if_false]
          refine getSlot_cases (P := fun r => P (match r with
            | (.ok, some loc, s') => (.ok, fill cfg.ks x s' loc md data)
            | (rc, _, s') => (rc, s'))) hw ?_ ?_ ?_
          · intro loc s' hs
            exact hok _ (hs.filled data)
          · intro rc hrc
            cases rc <;> first | exact absurd rfl hrc | exact herr _ _ (by simp) (.refl hw)
          · intro rc s' hrc h1 h2 h3 _
            have : Wrote cfg x md data s s' := ⟨h1, Or.inr (Or.inl h2), Or.inl (by rw [h3]), Or.inl (by rw [h3])⟩
            cases rc <;> first | exact absurd rfl hrc | exact herr _ _ (by simp) this

theorem filled_wrote {x : Nat} {md : Meta} {data : List UInt8} {s s' : Sys}
    (h : Filled cfg.ks x s s' md data) : Wrote cfg x md data s s' :=
  ⟨h.frame, Or.inr (Or.inr h.entry), Or.inl (by rw [h.nvm]), Or.inl (by rw [h.nvm])⟩

theorem Wrote.evicted {x : Nat} {md : Meta} {data : List UInt8} {s s1 s2 : Sys} {k : CKey}
    (h : Wrote cfg x md data s s1) (he : Evicted cfg.ks x md.id s1 s2 k) : Wrote cfg x md data s s2 := by
  refine ⟨h.frame.trans he.frame, Or.inr (Or.inl he.entry), ?_, ?_⟩
  · rw [he.nvm]; exact h.n
  · rw [he.nvm]; exact h.p

/-! ## Reading a slot -/

theorem typeOf_sheId (client slot : UInt16) : KeyId.typeOf (sheId cfg client slot) = KeyId.typeShe := by
  unfold sheId; rw [KeyId.typeOf_make]; decide

theorem idOf_sheId (client slot : UInt16) : KeyId.idOf (sheId cfg client slot) = slot &&& 0xFF := by
  unfold sheId; rw [KeyId.idOf_make]

/-- The NVM never reports `NOTFOUND` for a call that fails. -/
def HonestN (n : Nvm) : Prop := ∀ k b, n.outs k ≠ .fail .notfound b

/-- Reading a SHE key, with a medium that does not lie about what is there. -/
theorem readKey_she_cases {x : Nat} {s : Sys} {id : UInt16} (hw : WF s)
    (hty : KeyId.typeOf id = KeyId.typeShe)
    {P : (Rc × Option (Meta × List UInt8)) × Sys → Prop}
    (hok : ∀ md bs s', view cfg.ks x s id = some (md, bs) → bs.length ≤ 16 → Reads cfg x s s' →
      P ((.ok, some (md, bs)), s'))
    (hzero : ∀ s', KeyId.idOf id = 1 → cached cfg.ks x s id = none →
      (HonestN s.nvm → s.nvm.store id = none) → Reads cfg x s s' → P ((.ok, some (sheMasterZero id)), s'))
    (hbig : ∀ s', Reads cfg x s s' → P ((.nospace, none), s'))
    (hnone : ∀ s', cached cfg.ks x s id = none → (HonestN s.nvm → s.nvm.store id = none) →
      Reads cfg x s s' → P ((.notfound, none), s'))
    (herr : ∀ rc s', rc ≠ .ok → rc ≠ .nospace → rc ≠ .notfound → cached cfg.ks x s id = none →
      s.nvm.store id ≠ none → Reads cfg x s s' → P ((rc, none), s')) :
    P (readKey cfg.ks x s id 16) := by
  have hr := readKey_reads (cfg := cfg) (x := x) id 16 hw
  revert hr
  have hua : KeyId.isUnassigned id = false := by unfold KeyId.isUnassigned; rw [hty]; simp
  have hhw : isHw cfg.ks id = false := by
    unfold isHw; rw [hty]; cases cfg.ks.ids.hwKeystore <;> decide
  have hfall : ∀ rc s', rc ≠ .ok → cached cfg.ks x s id = none →
      (rc = .notfound → HonestN s.nvm → s.nvm.store id = none) →
      (rc ≠ .notfound → s.nvm.store id ≠ none) → Reads cfg x s s' →
      P (sheFallback cfg.ks id rc, s') := by
    intro rc s' hrc hc h1 h2 hr
    unfold sheFallback
    split
    · rename_i h; exact hzero s' h.2.2.2 hc (h1 h.2.1) hr
    · by_cases hnf : rc = .notfound
      · subst hnf; exact hnone _ hc (h1 rfl) hr
      · by_cases hns : rc = .nospace
        · subst hns; exact hbig _ hr
        · exact herr _ _ hrc hns hnf hc (h2 hnf) hr
  unfold readKey
  rw [if_neg (by simp [hua]), if_neg (by simp [hhw])]
  split
  · rename_i k hk
    split
    · exact hbig _
    · rename_i hle
      intro hr
      refine hok k.md k.data _ (by simp [view, hk]) ?_ hr
      rw [cached_eq] at hk
      rw [← hw.clen _ _ _ hk]; omega
  · rename_i hc
    rw [if_neg (by rw [hty]; decide)]
    rcases hn : s.nvm.store id with _ | ⟨md, bs⟩
    · rw [Nvm.metadata_none hn]
      dsimp only
      exact fun hr => hfall _ _ (by simp) hc (fun _ _ => hn) (fun h => absurd rfl h) hr
    · rw [Nvm.metadata_some hn]
      obtain ⟨hid, hl⟩ := hw.nvm _ _ _ hn
      dsimp only
      split
      · exact hbig _
      · rename_i hle
        have hle' : bs.length ≤ 16 := by omega
        have hv : view cfg.ks x s id = some (md, bs) := by simp [view, hc, hn]
        have hres := s.nvm.read_result id 0 md.len.toNat
        have hhon : ∀ rc d n', s.nvm.read id 0 md.len.toNat = ((rc, d), n') → rc ≠ .ok → rc = .notfound →
            HonestN s.nvm → False := by
          intro rc d n' e hrc hnf hh
          subst hnf
          unfold Nvm.read at e
          split at e
          · split at e
            · rename_i h
              simp only [Store.slice, hn] at e
              split at e <;> simp at e
            · rename_i rc' b h
              simp only [Prod.mk.injEq] at e
              have : rc' = .notfound := by
                have := e.1.1; unfold errRc at this; split at this
                · cases this
                · exact this
              subst this
              exact hh _ _ h
            · simp at e
          · simp at e
        rcases hrd : s.nvm.read id 0 md.len.toNat with ⟨⟨rc, d⟩, n'⟩
        by_cases hrc : rc = .ok
        · subst hrc
          have hd : d = bs := by
            rcases hres with h | h
            · rw [hrd] at h; exact slice_all hn hl h.symm
            · rw [hrd] at h; exact absurd rfl h.1
          subst hd
          dsimp only
          split
          · exact fun hr => hok _ _ _ hv hle' hr
          · split
            · exact fun hr => hok _ _ _ hv hle' hr
            · exact fun hr => hok _ _ _ hv hle' hr
        · have : Reads cfg x s { s with nvm := n' } → P (sheFallback cfg.ks id rc, { s with nvm := n' }) :=
            fun hr => hfall rc _ hrc hc (fun h1 h2 => (hhon rc d n' hrd hrc h1 h2).elim)
              (fun _ => by rw [hn]; simp) hr
          cases rc <;> first | exact absurd rfl hrc | exact this

theorem readSlot_reads {v : Srv} {s : Sys} (slot : UInt16) (hw : WF s) :
    Reads cfg v.ctx s (readSlot cfg v s slot).2 := readKey_reads _ _ hw

/-- A successful read shows the viewed key; for the master key the fallback. -/
theorem readSlot_ok {v : Srv} {s s' : Sys} {slot : UInt16} {md : Meta} {key : List UInt8} (hw : WF s)
    (h : readSlot cfg v s slot = ((.ok, some (md, key)), s')) :
    Reads cfg v.ctx s s' ∧ key.length ≤ 16 ∧
    (view cfg.ks v.ctx s (sheId cfg v.client slot) = some (md, key) ∨
      slot &&& 0xFF = 1 ∧ key = zeros 16 ∧ md = (sheMasterZero (sheId cfg v.client slot)).1 ∧
        (HonestN s.nvm → view cfg.ks v.ctx s (sheId cfg v.client slot) = none)) := by
  have hr := readSlot_reads (cfg := cfg) (v := v) slot hw
  rw [h] at hr
  refine ⟨hr, ?_⟩
  revert h
  unfold readSlot
  refine readKey_she_cases (P := fun r => r = _ → _) hw (typeOf_sheId ..) ?_ ?_ ?_ ?_ ?_
  · intro md' bs s2 hv hl _ e; cases e; exact ⟨hl, Or.inl hv⟩
  · intro s2 h1 h2 h3 _ e
    simp only [Prod.mk.injEq, Option.some.injEq, true_and, sheMasterZero] at e
    obtain ⟨⟨e1, e2⟩, _⟩ := e
    rw [idOf_sheId] at h1
    refine ⟨by rw [← e2]; simp, Or.inr ⟨h1, by rw [← e2]; rfl, by rw [← e1]; rfl, ?_⟩⟩
    intro hh; simp [view, h2, h3 hh]
  · intro s2 _ e; cases e
  · intro s2 _ _ _ e; cases e
  · intro rc s2 _ _ _ _ _ _ e; cases e

end WolfHsm.She

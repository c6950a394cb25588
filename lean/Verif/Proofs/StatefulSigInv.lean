import Verif.Proofs.StatefulSig

/-! # Stateful signatures: the invariant behind C48 -/

namespace WolfHsm.StatefulSig

open NvmFlash (Meta withLen)
open Keystore (Sys Srv CKey Par EStep E Inv3 Inv3E Prof Tr Trs WF Frame Other area cacheAt cached_eq
  cacheAt_nvm ent GoodCfg Reachable)

variable {cfg : Cfg} {a : Alg} {m : Meaning} {K : List UInt8} {id : UInt16} {x n : Nat}

/-- Private state of `K` is under `id` and has not used any index from `n` on. -/
def Past (cfg : Cfg) (a : Alg) (m : Meaning) (K : List UInt8) (id : UInt16) (n : Nat) (i : UInt16)
    (d : List UInt8) : Prop :=
  ∀ h pub priv, load cfg a d = .ok (h, pub, priv) → m.key priv = K → i = id ∧ n ≤ m.next priv

theorem Past.of_not {i : UInt16} {d : List UInt8} (h : ¬Holds cfg a m K d) : Past cfg a m K id n i d :=
  fun hh pub priv hl hk => absurd ⟨hh, pub, priv, hl, hk⟩ h

theorem Past.raise {i : UInt16} {d : List UInt8} {n' : Nat} (hi : i ≠ id)
    (h : Past cfg a m K id n i d) : Past cfg a m K id n' i d :=
  fun hh pub priv hl hk => absurd (h hh pub priv hl hk).1 hi

/-- `Past`, for every copy under one id. -/
def prof (cfg : Cfg) (a : Alg) (m : Meaning) (K : List UInt8) (id : UInt16) (n : Nat) (i : UInt16) :
    Prof where
  C := fun k => Past cfg a m K id n i k.data
  N := fun o => ∀ md d, o = some (md, d) → Past cfg a m K id n i d
  P := fun _ d => Past cfg a m K id n i d

/-- The invariant. -/
structure Good (cfg : Cfg) (a : Alg) (m : Meaning) (K : List UInt8) (id : UInt16) (x n : Nat)
    (s : Sys) : Prop where
  wf : WF s
  inv : ∀ i, Inv3 cfg.ks (prof cfg a m K id n i) i s
  only : ∀ y, area cfg.ks y id ≠ area cfg.ks x id → (cacheAt s (area cfg.ks y id)).find id = none

/-- A property of the content, for every copy under one id. -/
def dataProf (D : List UInt8 → Prop) : Prof where
  C := fun k => D k.data
  N := fun o => ∀ md d, o = some (md, d) → D d
  P := fun _ d => D d

theorem _root_.WolfHsm.Keystore.EStep.data {D : List UInt8 → Prop} {F : Par} {i : UInt16} {e e' : E} (h : EStep F i e e')
    (hg : ∀ md d, F.gives md d → D d)
    (hE : Inv3E (dataProf D) i e) : Inv3E (dataProf D) i e' := by
  have hC : ∀ {k : CKey}, e.c = some k → D k.data := fun hk => hE.c _ hk
  have hnone : (dataProf D).N none := fun _ _ h => by cases h
  have hN : ∀ {k : CKey} {md : Meta}, e.c = some k → (dataProf D).N (some (md, k.data)) :=
    fun hk _ _ h => by cases h; exact hE.c _ hk
  have hP : ∀ {k : CKey} {md : Meta}, e.c = some k → ∀ md' d, some (md, k.data) = some (md', d) →
      md'.id = i → (dataProf D).P md' d :=
    fun hk _ _ h _ => by cases h; exact hE.c _ hk
  have hq : ∀ md d, (none : Option (Meta × List UInt8)) = some (md, d) → md.id = i →
      (dataProf D).P md d := fun _ _ h => by cases h
  cases h with
  | refl => exact hE
  | quiet => exact ⟨hE.c, hE.n, hq⟩
  | evict => exact ⟨fun _ h => (by cases h), hE.n, hE.p⟩
  | load hc hn => exact ⟨fun _ h => by cases h; exact hE.n _ _ hn, hE.n, hE.p⟩
  | insert _ hgv => exact ⟨fun _ h => by cases h; exact hg _ _ hgv, hE.n, hE.p⟩
  | unwrap _ hgv => exact ⟨fun _ h => by cases h; exact hg _ _ hgv, hE.n, hE.p⟩
  | commit _ hc => exact ⟨fun _ h => by cases h; have := hC hc; exact this, hN hc, hq⟩
  | commitCut _ hc => exact ⟨hE.c, hN hc, hq⟩
  | commitPend _ hc => exact ⟨hE.c, hE.n, hP hc⟩
  | revoke _ hc => exact ⟨fun _ h => by cases h; have := hC hc; exact this, hN hc, hq⟩
  | revokeRam _ hc => exact ⟨fun _ h => by cases h; have := hC hc; exact this, hE.n, hE.p⟩
  | revokeFail _ _ hc _ hn hp =>
    refine ⟨fun _ h => by cases h; have := hC hc; exact this, ?_, ?_⟩
    · rcases hn with rfl | rfl
      · exact hE.n
      · exact hN hc
    · rcases hp with rfl | rfl | rfl
      · exact hE.p
      · exact hq
      · exact hP hc
  | destroy => exact ⟨hE.c, hnone, hq⟩

theorem _root_.WolfHsm.Keystore.EStep.past {F : Par} {i : UInt16} {e e' : E} (h : EStep F i e e')
    (hg : ∀ md d, F.gives md d → Past cfg a m K id n i d)
    (hE : Inv3E (prof cfg a m K id n i) i e) : Inv3E (prof cfg a m K id n i) i e' :=
  h.data (D := Past cfg a m K id n i) hg hE

theorem only_trs {F : Par} {ks : Keystore.Cfg} {y : Nat} {T : UInt16 → Prop} {s s' : Sys}
    (h : ∀ z, area ks z id ≠ area ks x id → (cacheAt s (area ks z id)).find id = none)
    (ht : Trs F ks y T s s') (hy : T id → Keystore.isGlobal ks id = false → y = x) :
    ∀ z, area ks z id ≠ area ks x id → (cacheAt s' (area ks z id)).find id = none := by
  induction ht with
  | nil => exact h
  | @cons s s1 s2 i hT ht _ ih =>
    apply ih
    intro z hz
    by_cases hi : id = i
    · subst hi
      have ha := Keystore.area_eq (hy hT)
      rw [ht.frame.areas _ (ha ▸ hz)]; exact h z hz
    · rcases (ht.other hi).cache (area ks z id) with h2 | ⟨k, h2, _, h3⟩
      · rw [h2]; exact h z hz
      · exact h3

theorem Good.trs' {F : Par} {y : Nat} {T : UInt16 → Prop} {s s' : Sys} (h : Good cfg a m K id x n s)
    (ht : Trs F cfg.ks y T s s') (hg : ∀ i, T i → ∀ md d, F.gives md d → Past cfg a m K id n i d)
    (hy : T id → Keystore.isGlobal cfg.ks id = false → y = x) : Good cfg a m K id x n s' :=
  ⟨ht.wf h.wf, fun i => (h.inv i).trs h.wf ht fun hT _ _ he _ _ hE => he.past (hg i hT) hE,
    only_trs h.only ht hy⟩

theorem Good.trs {F : Par} {y : Nat} {T : UInt16 → Prop} {s s' : Sys} (h : Good cfg a m K id x n s)
    (ht : Trs F cfg.ks y T s s') (hg : ∀ md d, F.gives md d → ¬Holds cfg a m K d)
    (hy : T id → Keystore.isGlobal cfg.ks id = false → y = x) : Good cfg a m K id x n s' :=
  h.trs' ht (fun _ _ md d h => .of_not (hg md d h)) hy

theorem Good.nvm {ncfg : NvmServer.Cfg} {s : Sys} (h : Good cfg a m K id x n s) (lock : Rc)
    (r : NvmServer.Req) (hv : (Keystore.Ev.nvm lock r).Valid)
    (hf : ∀ first second d, r.Adds ncfg first second d → ¬Holds cfg a m K d) :
    Good cfg a m K id x n { s with nvm := (NvmServer.handle ncfg s.nvm lock r).2 } := by
  refine ⟨Keystore.nvm_wf h.wf _ _ _ hv, fun i => (h.inv i).nvm ncfg lock r ?_ ?_, ?_⟩
  · intro first second data hr _ _
    have hp : Past cfg a m K id n i data := .of_not (hf _ _ _ hr)
    exact ⟨fun _ _ h => by cases h; exact hp, hp⟩
  · intro _ _ _ _ h; cases h
  · intro y hy; rw [cacheAt_nvm]; exact h.only y hy

theorem Good.restart {s : Sys} (h : Good cfg a m K id x n s) (b : Bool) :
    Good cfg a m K id x n (Keystore.rebooted s b) := by
  refine ⟨Keystore.rebooted_wf h.wf b, fun i => (h.inv i).restart h.wf b ?_, ?_⟩
  · intro _ _ _ _ hp _ _ h; cases h; exact hp
  · intro y _; exact Keystore.rebooted_find _ _ _ _

/-! ## Writing an advanced state -/

/-- One slot and its NVM object have been overwritten. -/
structure Written (ks : Keystore.Cfg) (y : Nat) (i : UInt16) (s s' : Sys) (k : CKey) : Prop where
  frame : Frame ks y i s s'
  entry : Keystore.cached ks y s' i = some k
  key : k.md.id = i
  len : k.md.len.toNat = k.data.length
  store : s'.nvm.store i = s.nvm.store i ∨ s'.nvm.store i = some (k.md, k.data)
  pend : s'.nvm.pending = s.nvm.pending ∨ s'.nvm.pending = none ∨
    s'.nvm.pending = some (k.md, k.data)

theorem Written.wf {ks : Keystore.Cfg} {y : Nat} {i : UInt16} {s s' : Sys} {k : CKey}
    (w : Written ks y i s s' k) (hw : WF s) : WF s' := by
  refine ⟨?_, ?_, ?_, ?_⟩
  · intro b
    by_cases ha : b = area ks y i
    · subst ha; exact w.frame.uniq
    · rw [w.frame.areas b ha]; exact hw.uniq b
  · intro b j k' hk
    by_cases ha : b = area ks y i
    · subst ha
      by_cases hj : j = i
      · subst hj
        have := w.entry
        rw [cached_eq, hk] at this; cases this; exact w.len
      · rcases w.frame.others j hj with h1 | ⟨k', -, -, h1⟩
        · exact hw.clen _ _ _ (h1 ▸ hk)
        · rw [h1] at hk; cases hk
    · rw [w.frame.areas b ha] at hk; exact hw.clen _ _ _ hk
  · intro j md bs hj
    by_cases hi : j = i
    · subst hi
      rcases w.store with h | h
      · rw [h] at hj; exact hw.nvm _ _ _ hj
      · rw [h] at hj; cases hj; exact ⟨w.key, w.len⟩
    · rw [w.frame.store j hi] at hj; exact hw.nvm _ _ _ hj
  · intro md bs hp
    rcases w.pend with h | h | h
    · rw [h] at hp; exact hw.pend _ _ hp
    · rw [h] at hp; cases hp
    · rw [h] at hp; cases hp; exact Keystore.len_lt w.len

theorem Written.other {ks : Keystore.Cfg} {y : Nat} {i j : UInt16} {s s' : Sys} {k : CKey}
    (w : Written ks y i s s' k) (hj : j ≠ i) : Other j s s' := by
  refine ⟨w.frame.store j hj, ?_, ?_⟩
  · intro md d hp hmd
    rcases w.pend with h | h | h
    · rw [← h]; exact hp
    · rw [h] at hp; cases hp
    · rw [h] at hp; cases hp; exact absurd (hmd.symm.trans w.key) hj
  · intro b
    by_cases ha : b = area ks y i
    · subst ha; exact w.frame.others j hj
    · left; rw [w.frame.areas b ha]

theorem Inv3.raise {ks : Keystore.Cfg} {i : UInt16} {n' : Nat} {s : Sys} (hi : i ≠ id)
    (h : Inv3 ks (prof cfg a m K id n i) i s) : Inv3 ks (prof cfg a m K id n' i) i s :=
  ⟨fun y k hk => Past.raise hi (h.c y k hk), fun md d hs => Past.raise hi (h.n md d hs),
    fun md d hp hid => Past.raise hi (h.p md d hp hid)⟩

theorem Good.written {n' y : Nat} {i : UInt16} {s s' : Sys} {k : CKey} (h : Good cfg a m K id x n s)
    (w : Written cfg.ks y i s s' k) (hy : i = id → area cfg.ks y id = area cfg.ks x id)
    (hk : Past cfg a m K id n' i k.data)
    (hn : n' = n ∨ (i = id ∧ s'.nvm.store i = some (k.md, k.data) ∧ s'.nvm.pending = none)) :
    Good cfg a m K id x n' s' := by
  refine ⟨w.wf h.wf, ?_, ?_⟩
  · intro j
    by_cases hj : j = i
    · subst hj
      refine ⟨?_, ?_, ?_⟩
      · intro z k' hz
        by_cases ha : area cfg.ks z j = area cfg.ks y j
        · have := w.entry
          rw [cached_eq] at hz this
          rw [ha, this] at hz; cases hz; exact hk
        · rw [cached_eq, w.frame.areas _ ha] at hz
          rcases hn with rfl | ⟨rfl, _⟩
          · exact (h.inv j).c z k' (by rw [cached_eq]; exact hz)
          · rw [hy rfl] at ha
            rw [h.only z ha] at hz; cases hz
      · intro md d hs
        rcases hn with rfl | ⟨_, h1, _⟩
        · rcases w.store with h2 | h2
          · rw [h2] at hs; exact (h.inv j).n md d hs
          · rw [h2] at hs; cases hs; exact hk
        · rw [h1] at hs; cases hs; exact hk
      · intro md d hp hid
        rcases hn with rfl | ⟨_, _, h1⟩
        · rcases w.pend with h2 | h2 | h2
          · rw [h2] at hp; exact (h.inv j).p md d hp hid
          · rw [h2] at hp; cases hp
          · rw [h2] at hp; cases hp; exact hk
        · rw [h1] at hp; cases hp
    · have hi := (h.inv j).other (w.other hj)
      rcases hn with rfl | ⟨rfl, _⟩
      · exact hi
      · exact Inv3.raise hj hi
  · intro z hz
    by_cases hi : i = id
    · subst hi
      rw [w.frame.areas _ (by rw [hy rfl]; exact hz)]; exact h.only z hz
    · rcases (w.other (Ne.symm hi)).cache (area cfg.ks z id) with h2 | ⟨_, _, _, h3⟩
      · rw [h2]; exact h.only z hz
      · exact h3

theorem writeCb_cases {y : Nat} {i : UInt16} {s : Sys} {k : CKey} {h : Hdr} {priv : List UInt8}
    (hw : WF s) (hk : Keystore.cached cfg.ks y s i = some k)
    (hl : h.privOff + priv.length < 65536) (h1 : 12 ≤ h.privOff) (h2 : h.privOff ≤ k.data.length)
    {P : Rc × Sys → Prop}
    (hok : ∀ s' k', k'.data = advanced cfg.le h k.data priv → k'.md.flags = k.md.flags →
      Written cfg.ks y i s s' k' →
      s'.nvm.store i = some (k'.md, k'.data) → s'.nvm.pending = none → s'.nvm.powered = true → P (.ok, s'))
    (herr : ∀ rc s' k', rc ≠ .ok → k'.data = advanced cfg.le h k.data priv →
      Written cfg.ks y i s s' k' → P (rc, s'))
    (hbig : P (.aborted, s)) : P (writeCb cfg y s i k h priv) := by
  unfold writeCb
  dsimp only
  split
  · exact hbig
  · let put : CKey → CKey := fun k => { k with
      md := { k.md with len := UInt16.ofNat (h.privOff + priv.length) }
      data := advanced cfg.le h k.data priv }
    have hkeep : Keystore.KeepsId fun k => some (put k) := by
      intro k k' he; cases he; rfl
    have hk' : (cacheAt s (area cfg.ks y i)).find i = some k := by rw [← cached_eq]; exact hk
    have hid : (put k).md.id = i := by
      show k.md.id = i
      exact Keystore.Cache.find_id hk'
    have hlen : (put k).md.len.toNat = (put k).data.length := by
      show (UInt16.ofNat _).toNat = (advanced cfg.le h k.data priv).length
      rw [UInt16.toNat_ofNat_of_lt' hl, advanced_length h1 h2]
    have hwr : ∀ nv : Nvm, (nv.store = s.nvm.store ∨ nv.store = s.nvm.store.set (put k).md (put k).data) →
        (nv.pending = s.nvm.pending ∨ nv.pending = none ∨ nv.pending = some ((put k).md, (put k).data)) →
        Written cfg.ks y i s { Keystore.setCache cfg.ks y s i
          ((Keystore.cacheOf cfg.ks y s i).update i fun k => some (put k)) with nvm := nv } (put k) := by
      intro nv hs hp
      obtain ⟨g1, g2⟩ := Keystore.frame_update (cfg := cfg.ks) (x := y) (id := i) (s := s) (hw.uniq _)
        hkeep nv (by
          intro j hj
          rcases hs with hs | hs
          · rw [hs]
          · rw [hs, Keystore.set_ne hid hj])
      rw [hk] at g2
      refine ⟨g1, g2, hid, hlen, ?_, hp⟩
      rcases hs with hs | hs
      · left; show nv.store i = _; rw [hs]
      · right; show nv.store i = _; rw [hs, Keystore.set_self hid hlen]
    rw [Keystore.setCache_nvm]
    refine Nvm.addWithReclaim_cases s.nvm (put k).md (put k).data (P := fun r => P (r.1, { Keystore.setCache cfg.ks y s i
          ((Keystore.cacheOf cfg.ks y s i).update i fun k => some (put k)) with nvm := r.2 })) ?_ ?_ ?_ ?_
    · intro nv e1 e2 e3
      exact hok _ (put k) rfl rfl (hwr nv (Or.inr e1) (Or.inr (Or.inl e2)))
        (by show nv.store i = _; rw [e1, Keystore.set_self hid hlen]) e2 e3
    · intro nv e1 e2 e3
      exact herr _ _ (put k) (by simp) rfl (hwr nv (Or.inr e1) (Or.inr (Or.inl e2)))
    · intro rc nv hrc e1 e2
      exact herr _ _ (put k) hrc rfl (hwr nv (Or.inl e1) (Or.inr (Or.inr e2)))
    · intro rc nv hrc e1 e2
      exact herr _ _ (put k) hrc rfl (hwr nv (Or.inl e1) (e2.imp_right Or.inl))

/-! ## Requests -/

/-- Transitions that bring nothing in. -/
def inert : Par := ⟨False, fun _ _ => False, fun _ => True, fun _ => True, fun _ => False, fun _ => False⟩

theorem served {ks : Keystore.Cfg} {v : Srv} (h : Keystore.isGlobal ks id = false → v.client = KeyId.userOf id → v.ctx = x)
    (hr : Reachable ks v.client id) : Keystore.isGlobal ks id = false → v.ctx = x := by
  intro hg
  apply h hg
  rcases hr with hr | ⟨h1, h2⟩
  · exact hr.symm
  · simp [Keystore.isGlobal, h1, h2] at hg

theorem Good.evict {y : Nat} {i : UInt16} {s : Sys} (h : Good cfg a m K id x n s)
    (hy : i = id → Keystore.isGlobal cfg.ks id = false → y = x) :
    Good cfg a m K id x n (Keystore.evictKey cfg.ks y s i).2 :=
  h.trs (Keystore.evictKey_trs (F := inert) h.wf trivial trivial) (fun _ _ h => absurd h (fun h => h))
    (fun hT => hy hT.symm)

/-- What a sign request does, to the state and to the client. -/
structure Signs (cfg : Cfg) (a : Alg) (m : Meaning) (K : List UInt8) (id : UInt16) (x n : Nat)
    (alg : Alg) (p : SignOut × Sys) : Prop where
  good : Good cfg a m K id x n p.2
  sig : ∀ sig, p.1.sig = some sig → alg = a → m.owner sig = K →
    n ≤ m.leaf sig ∧ Good cfg a m K id x (m.leaf sig + 1) p.2

theorem Signs.none {alg : Alg} {rc : Rc} {e : Option (List UInt8)} {s : Sys}
    (h : Good cfg a m K id x n s) : Signs cfg a m K id x n alg (⟨rc, .none, e⟩, s) :=
  ⟨h, fun _ h => by cases h⟩

theorem signKey_signs {ms : Alg → Meaning} (hs : ∀ b, (cfg.lib b).Sound (ms b)) {y : Nat} {i : UInt16} {s : Sys}
    {r : SignReq} (h : Good cfg a (ms a) K id x n s)
    (hy : i = id → Keystore.isGlobal cfg.ks id = false → y = x) :
    Signs cfg a (ms a) K id x n r.alg (signKey cfg y s i r) := by
  unfold signKey
  rcases Keystore.freshen_or (cfg := cfg.ks) (x := y) i h.wf with ⟨k, s1, e, hf⟩ | ⟨rc, s1, hrc, e, hi⟩
  · have g1 : Good cfg a (ms a) K id x n s1 :=
      h.trs (hf.trs (F := inert)) (fun _ _ h => absurd h (fun h => h)) (fun hT => hy hT.symm)
    have hk := hf.now
    rw [e]
    dsimp only
    split
    · split
      · exact .none g1
      · rename_i hd pub priv hl
        split
        · split
          · split
            · exact .none g1
            · rename_i sig priv' hsg
              obtain ⟨w1, w2, w3, w4, w5⟩ := hs _ _ _ _ _ _ _ hsg
              obtain ⟨np, ll⟩ := load_iff.mp hl
              obtain ⟨o1, o2⟩ := ll.offLe
              have hdl : k.data.length < 65536 :=
                Keystore.len_lt (g1.wf.clen _ _ _ (by rw [← cached_eq]; exact hk))
              have hfit := ll.fits
              have hpl := ll.privLength
              have hold := (g1.inv i).c y k hk
              have hnew : ∀ n', (r.alg = a → (ms a).key priv = K → i = id → n ≤ (ms a).next priv →
                  n' ≤ (ms a).next priv') → Past cfg a (ms a) K id n' i (advanced cfg.le hd k.data priv') := by
                intro n' hn' h' pub' p hl' hkey
                obtain ⟨hb, rfl⟩ := load_advanced hl hdl w5 hl'
                subst hb
                have hK : (ms r.alg).key priv = K := w3 ▸ hkey
                obtain ⟨e1, e2⟩ := hold _ _ _ hl hK
                exact ⟨e1, hn' rfl hK e1 e2⟩
              have hya : i = id → area cfg.ks y id = area cfg.ks x id := fun hi => Keystore.area_eq (hy hi)
              refine writeCb_cases (P := fun q => Signs cfg a (ms a) K id x n r.alg (match q with
                | (.ok, s2) => (⟨.ok, some sig, some sig⟩, s2)
                | (_, s2) => (⟨.aborted, .none, some sig⟩, s2))) g1.wf hk (by omega) o1 o2 ?_ ?_ ?_
              · intro s' k' hdat _ hwr e1 e2 e3
                have hn := hnew n (fun ha hK _ hle => by subst ha; omega)
                refine ⟨g1.written hwr hya (by rw [hdat]; exact hn) (Or.inl rfl), ?_⟩
                intro sig' hsig ha hown
                cases hsig
                subst ha
                have hK : (ms r.alg).key priv = K := by rw [← w1]; exact hown
                obtain ⟨f1, f2⟩ := hold _ _ _ hl hK
                refine ⟨by omega, ?_⟩
                refine g1.written hwr hya ?_ (Or.inr ⟨f1, e1, e2⟩)
                rw [hdat]
                exact hnew _ (fun _ _ _ _ => by omega)
              · intro rc s' k' hrc hdat hwr
                have hn := hnew n (fun ha hK _ hle => by subst ha; omega)
                have hg := g1.written hwr hya (by rw [hdat]; exact hn) (Or.inl rfl)
                cases rc <;> first | exact absurd rfl hrc | exact .none hg
              · exact .none g1
          · exact .none g1
        · exact .none g1
    · exact .none g1
  · have g1 : Good cfg a (ms a) K id x n s1 :=
      h.trs (Trs.one (F := inert) (T := (· = i)) rfl hi.tr) (fun _ _ h => absurd h (fun h => h)) (fun hT => hy hT.symm)
    rw [e]
    cases rc <;> first | exact absurd rfl hrc | exact .none g1

theorem sign_signs {ms : Alg → Meaning} (hs : ∀ b, (cfg.lib b).Sound (ms b)) {v : Srv} {s : Sys}
    {r : SignReq} (h : Good cfg a (ms a) K id x n s) (hc : v.client < 16)
    (hv : Keystore.isGlobal cfg.ks id = false → v.client = KeyId.userOf id → v.ctx = x) :
    Signs cfg a (ms a) K id x n r.alg (sign cfg v s r) := by
  unfold sign
  dsimp only
  split
  · exact .none h
  · split
    · have hy : KeyId.fromClient cfg.ks.ids KeyId.typeCrypto v.client r.id = id →
          Keystore.isGlobal cfg.ks id = false → v.ctx = x := by
        intro hi
        exact served hv (hi ▸ Keystore.reach_own cfg.ks hc _ _)
      have hk := signKey_signs hs (y := v.ctx) (r := r) h hy
      split
      · exact ⟨hk.good.evict hy, fun sig h1 h2 h3 => ⟨(hk.sig sig h1 h2 h3).1, (hk.sig sig h1 h2 h3).2.evict hy⟩⟩
      · exact hk
    · exact .none h

theorem look_good {v : Srv} {s : Sys} (h : Good cfg a m K id x n s) (hc : v.client < 16)
    (hv : Keystore.isGlobal cfg.ks id = false → v.client = KeyId.userOf id → v.ctx = x)
    (lock lock2 : Rc) (rid : UInt16) (ev : Bool) :
    Good cfg a m K id x n (look cfg v s lock lock2 rid ev) := by
  unfold look
  dsimp only
  split
  · exact h
  · have hy : KeyId.fromClient cfg.ks.ids KeyId.typeCrypto v.client rid = id →
        Keystore.isGlobal cfg.ks id = false → v.ctx = x := by
      intro hi
      exact served hv (hi ▸ Keystore.reach_own cfg.ks hc _ _)
    have h1 : Good cfg a m K id x n (if lock = .ok then (Keystore.freshen cfg.ks v.ctx s
        (KeyId.fromClient cfg.ks.ids KeyId.typeCrypto v.client rid)).2.2 else s) := by
      split
      · exact h.trs (Keystore.freshen_trs (F := inert) _ h.wf) (fun _ _ h => absurd h (fun h => h))
          (fun hT => hy hT.symm)
      · exact h
    split
    · exact h1.evict hy
    · exact h1

/-- Transitions that bring in what a key generation made. -/
def genPar (cfg : Cfg) (r : GenReq) : Par where
  fail := False
  gives := fun _ d => ∃ pub priv, r.made = .ok (pub, priv) ∧ d = encode cfg.le r.alg r.param pub priv
  w := fun _ => True
  force := fun _ => False
  rev := fun _ => False
  des := fun _ => False

theorem genStore_cases {y : Nat} {s : Sys} {i : UInt16} {r : GenReq} (hw : WF s) {P : Rc × Sys → Prop}
    (hok : ∀ s1 s2 pub priv, r.made = .ok (pub, priv) →
      (encode cfg.le r.alg r.param pub priv).length < 65536 →
      Trs (genPar cfg r) cfg.ks y (· = i) s s2 →
      Keystore.Committed cfg.ks y i s1 s2 ⟨⟨i, 0xFFFF, genFlags r.flags &&& ~~~Nvm.serverOnly,
        UInt16.ofNat (encode cfg.le r.alg r.param pub priv).length, r.label⟩,
        encode cfg.le r.alg r.param pub priv, false⟩ → P (.ok, s2))
    (herr : ∀ rc s2, rc ≠ .ok → Trs (genPar cfg r) cfg.ks y (· = i) s s2 → P (rc, s2)) :
    P (genStore cfg y s i r) := by
  unfold genStore
  dsimp only
  refine Keystore.importKey_cases (F := genPar cfg r) (P := fun q => P (match q with
    | (.ok, s1) => Keystore.commitKey cfg.ks y s1 i
    | p => p)) hw trivial ?_ ?_
  · intro s1 data hd hlt hm hfil
    have hmade : ∃ pub priv, r.made = .ok (pub, priv) ∧ data = encode cfg.le r.alg r.param pub priv := by
      rcases hr : r.made with rc | ⟨pub, priv⟩
      · rw [hr] at hd; cases hd
      · rw [hr] at hd; cases hd; exact ⟨pub, priv, rfl, rfl⟩
    obtain ⟨pub, priv, hr, rfl⟩ := hmade
    have ht : Tr (genPar cfg r) cfg.ks y i s s1 :=
      hfil.tr trivial ⟨pub, priv, hr, rfl⟩ (Keystore.clean_untrusted _)
        (by simp [Keystore.importMeta, Nat.mod_eq_of_lt hlt]) hm
    have hent := hfil.entry
    refine Keystore.commitKey_cases (F := genPar cfg r) (ht.wf hw) trivial ?_ ?_ ?_
    · intro k hk
      rw [show Keystore.cached cfg.ks y s1 i = _ from hent] at hk
      cases hk
      exact Keystore.clean_untrusted _
    · intro s2 k _ hcm
      have hb := hcm.before
      rw [show Keystore.cached cfg.ks y s1 i = _ from hent] at hb
      cases hb
      exact hok s1 s2 pub priv hr hlt (.cons rfl ht (.one rfl (hcm.tr trivial))) hcm
    · intro rc s2 hrc ht2 _
      exact herr rc s2 hrc (.cons rfl ht (.one rfl ht2))
  · intro rc s2 hrc ht
    cases rc <;> first | exact absurd rfl hrc | exact herr _ _ (by simp) (.one rfl ht)

/-- What a key generation request does. -/
theorem keyGen_cases {v : Srv} {s : Sys} {r : GenReq} (hw : WF s) (hc : v.client < 16)
    {P : (Rc × UInt16) × Sys → Prop}
    (hok : ∀ i s1 s2 pub priv, Reachable cfg.ks v.client i → r.made = .ok (pub, priv) →
      (encode cfg.le r.alg r.param pub priv).length < 65536 →
      r.flags &&& Flag.ephemeral = 0 →
      (Keystore.ownId cfg.ks v r.id = i ∨ (KeyId.isErased (Keystore.ownId cfg.ks v r.id) = true ∧
        Keystore.cached cfg.ks v.ctx s i = none ∧ s.nvm.store i = none)) →
      Trs (genPar cfg r) cfg.ks v.ctx (· = i) s s2 →
      Keystore.Committed cfg.ks v.ctx i s1 s2 ⟨⟨i, 0xFFFF, genFlags r.flags &&& ~~~Nvm.serverOnly,
        UInt16.ofNat (encode cfg.le r.alg r.param pub priv).length, r.label⟩,
        encode cfg.le r.alg r.param pub priv, false⟩ → P ((.ok, i), s2))
    (herr : ∀ rc i s2, rc ≠ .ok → Trs (genPar cfg r) cfg.ks v.ctx (Reachable cfg.ks v.client) s s2 →
      P ((rc, i), s2)) :
    P (keyGen cfg v s r) := by
  have hno : ∀ rc, rc ≠ .ok → P ((rc, 0), s) := fun rc h => herr rc 0 s h (.nil _)
  unfold keyGen
  split
  · exact hno _ (by simp)
  · rename_i hep
    have hep' : r.flags &&& Flag.ephemeral = 0 := Decidable.byContradiction hep
    split
    · split
      · exact hno _ (errRc_ne_ok _)
      · split
        · exact hno _ (by simp)
        · split
          · split
            · exact hno _ (by simp)
            · split
              · dsimp only
                have hgo : ∀ i, Reachable cfg.ks v.client i →
                    (Keystore.ownId cfg.ks v r.id = i ∨ (KeyId.isErased (Keystore.ownId cfg.ks v r.id) = true ∧
                      Keystore.cached cfg.ks v.ctx s i = none ∧ s.nvm.store i = none)) →
                    P (((genStore cfg v.ctx s i r).1, i), (genStore cfg v.ctx s i r).2) := by
                  intro i hi hid
                  refine genStore_cases (P := fun q => P ((q.1, i), q.2)) hw ?_ ?_
                  · intro s1 s2 pub priv h1 h2 h3 h4; exact hok i s1 s2 pub priv hi h1 h2 hep' hid h3 h4
                  · intro rc s2 hrc ht
                    exact herr rc i s2 hrc (ht.mono (by rintro _ rfl; exact hi))
                by_cases her : KeyId.isErased (KeyId.fromClient cfg.ks.ids KeyId.typeCrypto v.client r.id) = true
                · rw [if_pos her]
                  rcases Keystore.getUniqueId_or cfg.ks v.ctx s
                    (KeyId.fromClient cfg.ks.ids KeyId.typeCrypto v.client r.id) with ⟨i, e, hf⟩ | ⟨rc, hrc, e⟩
                  · rw [e]
                    exact hgo i (Keystore.reach_fresh hf (Keystore.reach_own cfg.ks hc _ _))
                      (Or.inr ⟨her, hf.cached, hf.stored⟩)
                  · rw [e]
                    cases rc <;> first | exact absurd rfl hrc | exact hno _ (by simp)
                · rw [if_neg her]
                  exact hgo _ (Keystore.reach_own cfg.ks hc _ _) (Or.inl rfl)
              · rename_i hl; exact hno _ (fun h => hl h)
          · rename_i hl; exact hno _ (fun h => hl h)
    · rename_i hl; exact hno _ (fun h => hl h)

theorem keyGen_trs {v : Srv} {s : Sys} {r : GenReq} (hw : WF s) (hc : v.client < 16) :
    Trs (genPar cfg r) cfg.ks v.ctx (Reachable cfg.ks v.client) s (keyGen cfg v s r).2 := by
  refine keyGen_cases (P := fun p => Trs (genPar cfg r) cfg.ks v.ctx (Reachable cfg.ks v.client) s p.2) hw hc ?_ ?_
  · intro i s1 s2 pub priv hi _ _ _ _ ht _; exact ht.mono (by rintro _ rfl; exact hi)
  · intro _ _ _ _ h; exact h

/-! ## Histories -/

/-- One event. -/
theorem step_good {ms : Alg → Meaning} (hs : ∀ b, (cfg.lib b).Sound (ms b)) (hsg : GoodCfg cfg.ks)
    {ncfg : NvmServer.Cfg} {s : Sys} {e : Ev} (h : Good cfg a (ms a) K id x n s) (hv : e.Valid)
    (hf : e.Foreign cfg ncfg a (ms a) K) (hx : e.Served cfg x id) :
    Good cfg a (ms a) K id x n (step cfg ncfg s e).2 ∧
    ∀ rc sig, (step cfg ncfg s e).1 = .signed a rc (some sig) → (ms a).owner sig = K →
      n ≤ (ms a).leaf sig ∧ Good cfg a (ms a) K id x ((ms a).leaf sig + 1) (step cfg ncfg s e).2 := by
  cases e with
  | base e =>
    refine ⟨?_, fun _ _ h => (by unfold step at h; dsimp only at h; cases h)⟩
    unfold step
    dsimp only
    cases e with
    | key v lock r =>
      unfold Keystore.step
      dsimp only
      split
      · refine h.trs (Keystore.handle_trs h.wf hv hsg lock r) (fun md d hb => hf md d hb) ?_
        exact fun hT => served hx hT
      · exact h
    | nvm lock r =>
      unfold Keystore.step
      dsimp only
      split
      · exact h.nvm lock r hv hf
      · exact h
    | restart b => exact h.restart b
  | keyGen v r =>
    unfold step
    dsimp only
    split
    · refine ⟨h.trs (keyGen_trs h.wf hv) ?_ (fun hT => served hx hT), ?_⟩
      · rintro md d ⟨pub, priv, h1, rfl⟩; exact hf pub priv h1
      · intro rc sig he; split at he <;> cases he
    · exact ⟨h, fun _ _ h => (by cases h)⟩
  | sign v r =>
    unfold step
    dsimp only
    split
    · have hk := sign_signs hs (v := v) (r := r) h hv hx
      refine ⟨hk.good, ?_⟩
      intro rc sig he hown
      split at he
      · have h1 : r.alg = a := by injection he
        have h2 : (sign cfg v s r).1.sig = some sig := by injection he
        exact hk.sig sig h2 h1 hown
      · cases he
    · exact ⟨h, fun _ _ h => (by cases h)⟩
  | look v lock lock2 rid ev =>
    unfold step
    dsimp only
    split
    · exact ⟨look_good h hv hx _ _ _ _, fun _ _ h => (by cases h)⟩
    · exact ⟨h, fun _ _ h => (by cases h)⟩

/-- The indexes used by released signatures of `K`. -/
theorem released_from {ms : Alg → Meaning} (hs : ∀ b, (cfg.lib b).Sound (ms b)) (hsg : GoodCfg cfg.ks)
    {ncfg : NvmServer.Cfg} : ∀ {evs : List Ev} {s : Sys} {n : Nat}, Good cfg a (ms a) K id x n s →
    (∀ e ∈ evs, e.Valid ∧ e.Foreign cfg ncfg a (ms a) K ∧ e.Served cfg x id) →
    (∀ l ∈ ((released cfg ncfg s evs).filter fun p => p.1 = a ∧ (ms a).owner p.2 = K).map
      fun p => (ms a).leaf p.2, n ≤ l) ∧
    (((released cfg ncfg s evs).filter fun p => p.1 = a ∧ (ms a).owner p.2 = K).map
      fun p => (ms a).leaf p.2).Pairwise (· < ·)
  | [], _, _, _, _ => ⟨by simp [released], by simp [released]⟩
  | e :: evs, s, n, h, he => by
    obtain ⟨hv, hf, hx⟩ := he e (by simp)
    have hrest : ∀ e ∈ evs, e.Valid ∧ e.Foreign cfg ncfg a (ms a) K ∧ e.Served cfg x id :=
      fun e h => he e (by simp [h])
    obtain ⟨hg, hsig⟩ := step_good hs hsg (ncfg := ncfg) h hv hf hx
    unfold released
    have ih := released_from hs hsg (ncfg := ncfg) hg hrest
    split
    · rename_i b rc sig hobs
      by_cases hb : b = a ∧ (ms a).owner sig = K
      · obtain ⟨hba, hown⟩ := hb
        rw [hba] at hobs
        obtain ⟨h1, h2⟩ := hsig _ _ hobs hown
        have ih2 := released_from hs hsg (ncfg := ncfg) h2 hrest
        simp only [List.cons_append, List.nil_append, List.filter_cons]
        rw [if_pos (by simp [hba, hown])]
        simp only [List.map_cons]
        refine ⟨?_, ?_⟩
        · intro l hl
          rcases List.mem_cons.mp hl with rfl | hl
          · exact h1
          · exact ih.1 l hl
        · refine List.pairwise_cons.mpr ⟨?_, ih.2⟩
          intro l hl
          have := ih2.1 l hl
          omega
      · simp only [List.cons_append, List.nil_append, List.filter_cons]
        rw [if_neg (by simpa using hb)]
        exact ih
    · exact ih

theorem Good.of_onlyUnder {s : Sys} (hw : WF s) (h : OnlyUnder cfg a m K id x s) :
    Good cfg a m K id x 0 s := by
  refine ⟨hw, fun i => ⟨?_, ?_, ?_⟩, ?_⟩
  · intro y k hk hh pub priv hl hkey
    exact ⟨h.cache y i k hk ⟨hh, pub, priv, hl, hkey⟩, Nat.zero_le _⟩
  · intro md d hs hh pub priv hl hkey
    exact ⟨h.store i md d hs ⟨hh, pub, priv, hl, hkey⟩, Nat.zero_le _⟩
  · intro md d hp hid hh pub priv hl hkey
    exact ⟨hid ▸ h.pending md d hp ⟨hh, pub, priv, hl, hkey⟩, Nat.zero_le _⟩
  · intro y ha
    cases hg : Keystore.isGlobal cfg.ks id with
    | true => exact absurd (Keystore.area_eq (fun h => by rw [hg] at h; cases h)) ha
    | false =>
      rw [← cached_eq]
      exact h.only hg y (by rintro rfl; exact ha rfl)

theorem step_wf (hsg : GoodCfg cfg.ks) (hs : ∀ b, ∃ m, (cfg.lib b).Sound m) (ncfg : NvmServer.Cfg) {s : Sys} {e : Ev}
    (h : WF s) (hv : e.Valid) : WF (step cfg ncfg s e).2 := by
  cases e with
  | base e => exact Keystore.step_wf hsg ncfg h hv
  | keyGen v r =>
    unfold step
    dsimp only
    split
    · exact (keyGen_trs h hv).wf h
    · exact h
  | look v lock lock2 rid ev =>
    unfold step
    dsimp only
    split
    · have h1 : ∀ (c : Prop) [Decidable c] i, WF (if c then (Keystore.freshen cfg.ks v.ctx s i).2.2 else s) := by
        intro c _ i
        split
        · exact (Keystore.freshen_trs (F := inert) i h).wf h
        · exact h
      unfold look
      dsimp only
      split
      · exact h
      · split
        · exact (Keystore.evictKey_trs (F := inert) (h1 _ _) trivial trivial).wf (h1 _ _)
        · exact h1 _ _
    · exact h
  | sign v r =>
    unfold step
    dsimp only
    split
    · have h1 : ∀ i, WF (signKey cfg v.ctx s i r).2 := by
        intro i
        unfold signKey
        rcases Keystore.freshen_or (cfg := cfg.ks) (x := v.ctx) i h with ⟨k, s1, e, hf⟩ | ⟨rc, s1, hrc, e, hi⟩
        · have w1 : WF s1 := (hf.trs (F := inert)).wf h
          have hk := hf.now
          rw [e]
          dsimp only
          split
          · split
            · exact w1
            · rename_i hd pub priv hl
              split
              · split
                · split
                  · exact w1
                  · rename_i sig priv' hsg
                    obtain ⟨m, hm⟩ := hs r.alg
                    obtain ⟨-, -, -, -, w5⟩ := hm _ _ _ _ _ _ hsg
                    obtain ⟨np, ll⟩ := load_iff.mp hl
                    obtain ⟨o1, o2⟩ := ll.offLe
                    have hdl : k.data.length < 65536 :=
                      Keystore.len_lt (w1.clen _ _ _ (by rw [← cached_eq]; exact hk))
                    have hfit := ll.fits
                    have hpl := ll.privLength
                    refine writeCb_cases (priv := priv') (P := fun q => WF (match q with
                      | (.ok, s2) => ((⟨.ok, some sig, some sig⟩ : SignOut), s2)
                      | (_, s2) => (⟨.aborted, .none, some sig⟩, s2)).2) w1 hk (by omega) o1 o2 ?_ ?_ ?_
                    · intro s' k' _ _ hwr _ _ _; exact hwr.wf w1
                    · intro rc s' k' hrc _ hwr
                      cases rc <;> first | exact absurd rfl hrc | exact hwr.wf w1
                    · exact w1
                · exact w1
              · exact w1
          · exact w1
        · have w1 : WF s1 := (hi.tr (F := inert)).wf h
          rw [e]
          cases rc <;> first | exact absurd rfl hrc | exact w1
      unfold sign
      dsimp only
      split
      · exact h
      · split
        · dsimp only
          split
          · exact (Keystore.evictKey_trs (F := inert) (h1 _) trivial trivial).wf (h1 _)
          · exact h1 _
        · exact h
    · exact h

theorem Reach.wf (hsg : GoodCfg cfg.ks) (hs : ∀ b, ∃ m, (cfg.lib b).Sound m) {ncfg : NvmServer.Cfg} {s : Sys}
    (h : Reach cfg ncfg s) : WF s := by
  induction h with
  | base h => exact h.wf hsg
  | step e hv _ ih => exact step_wf hsg hs ncfg ih hv

/-- With the guards, only disguised private state gets in. -/
theorem guarded {d : List UInt8} (hg : isPrivBlob cfg.le d = false) (hh : Holds cfg a m K d) :
    Disguised cfg a m K d := by
  obtain ⟨h, pub, priv, hl, hk⟩ := hh
  refine ⟨h, pub, priv, hl, hk, ?_⟩
  obtain ⟨np, l⟩ := load_iff.mp hl
  unfold isPrivBlob at hg
  rw [if_neg (by have := l.len; omega), ← l.hdr, if_neg] at hg
  · simpa using hg
  · rw [l.magic]; cases a <;> simp

theorem Clean.foreign {ncfg : NvmServer.Cfg} (hk : cfg.ks.statefulBlob = isPrivBlob cfg.le)
    (hn : ncfg.statefulBlob = isPrivBlob cfg.le) {e : Ev} (h : e.Clean cfg ncfg a m K) :
    e.Foreign cfg ncfg a m K := by
  cases e with
  | base e =>
    cases e with
    | key v lock r =>
      intro md d hb hh
      obtain ⟨h1, h2⟩ := h md d hb
      have : r.Generates ∨ isPrivBlob cfg.le d = false := by
        rw [← hk]
        cases r with
        | cache i f l key => exact Or.inr (by rw [hb.2.1]; exact hb.2.2)
        | cacheRandom => exact Or.inl trivial
        | cacheDma i f l sz dma mem => exact Or.inr hb.2.2
        | importKey => exact Or.inl trivial
        | unwrapCache kid blob => obtain ⟨_, _, _, _, _, hg⟩ := hb; exact Or.inr hg
        | _ => exact absurd hb (fun h => h)
      rcases this with hgen | hgd
      · exact h2 hgen hh
      · exact h1 (guarded hgd hh)
    | nvm lock r =>
      intro first second d hadd hh
      obtain ⟨h1, h2⟩ := h first second d hadd
      have : isPrivBlob cfg.le d = false := by
        rw [← hn]
        rcases hadd with ⟨_, _, hg⟩ | ⟨pm, pd, z, peek, rfl, hg⟩
        · exact hg
        · rw [← h2 _ _ _ _ rfl]; exact hg
      exact h1 (guarded this hh)
    | restart => trivial
  | keyGen v r => exact h
  | sign => trivial
  | look => trivial

/-! ## Histories without key generation -/

/-- `NoState` as an invariant. -/
theorem noState_iff {s : Sys} : NoState cfg s ↔
    ∀ i, Inv3 cfg.ks (dataProf fun d => isPrivBlob cfg.le d = false) i s := by
  constructor
  · intro h i
    exact ⟨fun y k hk => h.cache y i k hk, fun md d hs => h.store i md d hs, fun md d hp _ => h.pending md d hp⟩
  · intro h
    exact ⟨fun y i k hk => (h i).c y k hk, fun i md d hs => (h i).n md d hs, fun md d hp => (h md.id).p md d hp rfl⟩

theorem noState_step (hsg : GoodCfg cfg.ks) {ncfg : NvmServer.Cfg} (hk : cfg.ks.statefulBlob = isPrivBlob cfg.le)
    (hn : ncfg.statefulBlob = isPrivBlob cfg.le) {s : Sys} (hw : WF s) (h : NoState cfg s) {e : Keystore.Ev}
    (hv : e.Valid) (hr : Ev.Relays (.base e)) : NoState cfg (Keystore.step cfg.ks ncfg s e).2 := by
  rw [noState_iff] at h ⊢
  intro i
  cases e with
  | key v lock r =>
    unfold Keystore.step
    dsimp only
    split
    · refine (h i).trs hw (Keystore.handle_trs hw hv hsg lock r) fun _ _ _ he _ _ hE => he.data ?_ hE
      intro md d hb
      rw [← hk]
      have hb : r.Brings cfg.ks md d := hb
      cases r with
      | cache i f l key => rw [hb.2.1]; exact hb.2.2
      | cacheRandom => exact absurd trivial hr
      | cacheDma i f l sz dma mem => exact hb.2.2
      | importKey => exact absurd trivial hr
      | unwrapCache kid blob => obtain ⟨_, _, _, _, _, hg⟩ := hb; exact hg
      | _ => exact absurd hb (fun h => h)
    · exact h i
  | nvm lock r =>
    unfold Keystore.step
    dsimp only
    split
    · refine (h i).nvm ncfg lock r ?_ (fun _ _ _ _ h => by cases h)
      intro first second d hadd _ _
      have : isPrivBlob cfg.le d = false := by
        rw [← hn]
        rcases hadd with ⟨_, _, hg⟩ | ⟨pm, pd, z, peek, rfl, hg⟩
        · exact hg
        · rw [← show peek = d from hr]; exact hg
      exact ⟨fun _ _ h => by cases h; exact this, this⟩
    · exact h i
  | restart b => exact (h i).restart hw b fun _ _ _ _ hp _ _ h => by cases h; exact hp

/-! ## What a successful sign request has done -/

/-- The outcome of a sign request that returned a signature. -/
structure Signed (cfg : Cfg) (y : Nat) (i : UInt16) (r : SignReq) (s : Sys) (sig : List UInt8) (p : SignOut × Sys) : Prop where
  rc : p.1.rc = .ok
  done : ∃ md0 d md h pub priv priv', Keystore.view cfg.ks y s i = some (md0, d) ∧
    load cfg r.alg d = .ok (h, pub, priv) ∧
    (cfg.lib r.alg).sign pub priv r.msg r.sigSz = .ok (sig, priv') ∧
    p.2.nvm.store i = some (md, advanced cfg.le h d priv') ∧ md.flags = md0.flags ∧ d.length < 65536
  powered : p.2.nvm.powered = true

theorem fresh_view {ks : Keystore.Cfg} {y : Nat} {i : UInt16} {s s' : Sys} {k : CKey}
    (h : Keystore.Fresh ks y i s s' k) : Keystore.view ks y s i = some (k.md, k.data) := by
  unfold Keystore.view
  rcases h with ⟨_, h⟩ | ⟨md, bs, rfl, h⟩
  · rw [h]
  · rw [h.before, h.stored]

theorem evictKey_nvm (ks : Keystore.Cfg) (y : Nat) (s : Sys) (i : UInt16) :
    (Keystore.evictKey ks y s i).2.nvm = s.nvm := by
  unfold Keystore.evictKey
  split
  · rfl
  · split
    · rfl
    · split
      · rfl
      · exact Keystore.setCache_nvm ..

theorem sign_signed (hs : ∀ b, ∃ m, (cfg.lib b).Sound m) {v : Srv} {s : Sys} {r : SignReq} (hw : WF s) {sig : List UInt8}
    (hsig : (sign cfg v s r).1.sig = some sig) :
    Signed cfg v.ctx (Keystore.ownId cfg.ks v r.id) r s sig (sign cfg v s r) := by
  have key : ∀ i, (signKey cfg v.ctx s i r).1.sig = some sig →
      Signed cfg v.ctx i r s sig (signKey cfg v.ctx s i r) := by
    intro i
    unfold signKey
    rcases Keystore.freshen_or (cfg := cfg.ks) (x := v.ctx) i hw with ⟨k, s1, e, hf⟩ | ⟨rc, s1, hrc, e, hi⟩
    · have w1 : WF s1 := (hf.trs (F := inert)).wf hw
      have hk := hf.now
      rw [e]
      dsimp only
      split
      · split
        · intro h; cases h
        · rename_i hd pub priv hl
          split
          · split
            · split
              · intro h; cases h
              · rename_i sig0 priv' hsg
                obtain ⟨m, hm⟩ := hs r.alg
                obtain ⟨-, -, -, -, w5⟩ := hm _ _ _ _ _ _ hsg
                obtain ⟨np, ll⟩ := load_iff.mp hl
                obtain ⟨o1, o2⟩ := ll.offLe
                have hdl : k.data.length < 65536 :=
                  Keystore.len_lt (w1.clen _ _ _ (by rw [← cached_eq]; exact hk))
                have hfit := ll.fits
                have hpl := ll.privLength
                refine writeCb_cases (priv := priv') (P := fun q => (match q with
                  | (.ok, s2) => ((⟨.ok, some sig0, some sig0⟩ : SignOut), s2)
                  | (_, s2) => (⟨.aborted, .none, some sig0⟩, s2)).1.sig = some sig →
                  Signed cfg v.ctx i r s sig (match q with
                  | (.ok, s2) => ((⟨.ok, some sig0, some sig0⟩ : SignOut), s2)
                  | (_, s2) => (⟨.aborted, .none, some sig0⟩, s2))) w1 hk (by omega) o1 o2 ?_ ?_ ?_
                · intro s' k' hd' hfl hwr e1 _ e3 hsg'
                  have : sig0 = sig := by injection hsg'
                  subst this
                  exact ⟨rfl, ⟨_, _, k'.md, hd, pub, priv, priv', fresh_view hf, hl, hsg, by rw [← hd']; exact e1,
                    hfl, hdl⟩, e3⟩
                · intro rc s' k' hrc _ hwr
                  cases rc <;> first | exact absurd rfl hrc | (intro h; cases h; done)
                · intro h; cases h
            · intro h; cases h
          · intro h; cases h
      · intro h; cases h
    · rw [e]
      cases rc <;> first | exact absurd rfl hrc | (intro h; cases h; done)
  revert hsig
  unfold sign
  dsimp only
  split
  · intro h; cases h
  · split
    · intro h
      have hk := key _ h
      split
      · exact ⟨hk.rc, by dsimp only; rw [evictKey_nvm]; exact hk.done, by dsimp only; rw [evictKey_nvm]; exact hk.powered⟩
      · exact hk
    · intro h; cases h

/-! ## The format of a generated key -/

theorem genFlags_nonExportable (f : UInt16) :
    hasFlag (genFlags f &&& ~~~Nvm.serverOnly) Flag.nonExportable = true := by
  unfold hasFlag genFlags
  simp only [bne_iff_ne, ne_eq]
  intro hc
  have := congrArg (fun x => x.toBitVec.getLsbD (Nat.log2 Flag.nonExportable.toNat)) hc
  revert this
  rw [show Nat.log2 Flag.nonExportable.toNat = 2 by decide +kernel]
  simp only [UInt16.toBitVec_and, UInt16.toBitVec_or, BitVec.getLsbD_and, BitVec.getLsbD_or]
  rw [show Flag.nonExportable.toBitVec.getLsbD 2 = true by decide +kernel,
    show (~~~Nvm.serverOnly).toBitVec.getLsbD 2 = true by decide +kernel]
  simp

theorem encode_hdr {le : Bool} {b : Alg} {param pub priv : List UInt8} (h1 : pub.length < 65536)
    (h2 : priv.length < 65536) (h3 : param.length < 65536) :
    hdr le (encode le b param pub priv) = ⟨b.magic, pub.length, priv.length, param.length, 0⟩ := by
  unfold hdr encode
  have hm : b.magic < 4294967296 := by cases b <;> decide
  have e0 : at32 le (put32 le b.magic ++ put16 le pub.length ++ put16 le priv.length ++
      put16 le param.length ++ put16 le 0 ++ param ++ pub ++ priv) 0 = b.magic := by
    conv_rhs => rw [← at32_put32 (le := le) hm]
    simp only [List.append_assoc]
    exact at32_congr (at16_append (by simp [put32_length])) (at16_append (by simp [put32_length]))
  have e4 : ∀ (l : List UInt8) (k n : Nat) (rest : List UInt8), l.length = k → n < 65536 →
      at16 le (l ++ (put16 le n ++ rest)) k = n := by
    intro l k n rest hl hn
    have := at16_right (le := le) (l := l) (r := put16 le n ++ rest) (i := 0) (n := k) hl.symm
    rw [Nat.add_zero] at this
    rw [this, at16_append (by simp [put16_length]), at16_put16 hn]
  rw [e0]
  have f4 := e4 (put32 le b.magic) 4 pub.length
    (put16 le priv.length ++ (put16 le param.length ++ (put16 le 0 ++ (param ++ (pub ++ priv)))))
    (put32_length _ _) h1
  have f6 := e4 (put32 le b.magic ++ put16 le pub.length) 6 priv.length
    (put16 le param.length ++ (put16 le 0 ++ (param ++ (pub ++ priv))))
    (by simp [put32_length, put16_length]) h2
  have f8 := e4 (put32 le b.magic ++ put16 le pub.length ++ put16 le priv.length) 8 param.length
    (put16 le 0 ++ (param ++ (pub ++ priv))) (by simp [put32_length, put16_length]) h3
  have f10 := e4 (put32 le b.magic ++ put16 le pub.length ++ put16 le priv.length ++ put16 le param.length)
    10 0 (param ++ (pub ++ priv)) (by simp [put32_length, put16_length]) (by omega)
  simp only [List.append_assoc] at f4 f6 f8 f10 ⊢
  rw [f4, f6, f8, f10]

theorem encode_length {le : Bool} {b : Alg} {param pub priv : List UInt8} :
    (encode le b param pub priv).length = 12 + param.length + pub.length + priv.length := by
  unfold encode; simp [put32_length, put16_length]; omega

theorem encode_drop {le : Bool} {b : Alg} {param pub priv : List UInt8} {k : Nat} :
    (encode le b param pub priv).drop (12 + k) = (param ++ pub ++ priv).drop k := by
  unfold encode
  rw [show (put32 le b.magic ++ put16 le pub.length ++ put16 le priv.length ++ put16 le param.length ++
    put16 le 0 ++ param ++ pub ++ priv) = (put32 le b.magic ++ put16 le pub.length ++ put16 le priv.length ++
    put16 le param.length ++ put16 le 0) ++ (param ++ pub ++ priv) by simp only [List.append_assoc]]
  rw [List.drop_append, List.drop_eq_nil_of_le (by simp [put32_length, put16_length])]
  simp [put32_length, put16_length]

theorem load_encode {b : Alg} {param pub priv : List UInt8}
    (hl : (encode cfg.le b param pub priv).length < 65536) (hok : paramOk b param = true)
    (hp : (cfg.lib b).params param = .ok (pub.length, priv.length))
    (hr : (cfg.lib b).reload pub priv = .ok) :
    load cfg b (encode cfg.le b param pub priv) =
      .ok (⟨b.magic, pub.length, priv.length, param.length, 0⟩, pub, priv) := by
  rw [encode_length] at hl
  have hd : ((encode cfg.le b param pub priv).drop 12).take param.length = param := by
    have := encode_drop (le := cfg.le) (b := b) (param := param) (pub := pub) (priv := priv) (k := 0)
    rw [Nat.add_zero] at this
    rw [this, List.drop_zero, List.append_assoc, List.take_left]
  refine load_iff.mpr ⟨priv.length, ?_, ?_, rfl, rfl, ?_, ?_, ?_, Or.inr rfl, ?_, ?_, ?_, hr⟩
  · rw [encode_hdr (by omega) (by omega) (by omega)]
  · rw [encode_length]; omega
  · rw [encode_length]
  · dsimp only; rw [hd]; exact hok
  · dsimp only; rw [hd]; exact hp
  · rw [encode_length]; show 12 + param.length + pub.length + priv.length ≤ _; omega
  · dsimp only
    rw [encode_drop, List.append_assoc, List.drop_left, List.take_left]
  · show priv = ((encode cfg.le b param pub priv).drop (12 + param.length + pub.length)).take priv.length
    rw [show 12 + param.length + pub.length = 12 + (param ++ pub).length by simp; omega, encode_drop,
      List.drop_left, List.take_length]

end WolfHsm.StatefulSig

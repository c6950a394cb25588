import Verif.Spec.Cert
import Verif.Proofs.KeystoreOuts

/-! # Lemmas for the certificate manager -/

namespace WolfHsm.Cert

open Keystore (Sys)
open NvmFlash (Meta)

variable {E : Type}

/-! ## Anchored is monotone -/

theorem Anchored.mono {x : X509 E} {log log' : List (List Der × Der)} {roots roots' : List Der}
    (hl : ∀ p ∈ log, p ∈ log') (hr : ∀ r ∈ roots, r ∈ roots') {h : List UInt8}
    (ha : Anchored x log roots h) : Anchored x log' roots' h := by
  induction ha with
  | mk store d hm hp _ ih =>
    exact .mk store d (hl _ hm) (fun s hs hn => hp s hs fun h => hn (hr s h))
      (fun s hs hn => ih s hs fun h => hn (hr s h))

/-! ## The cache -/

/-- Slots of a cache. -/
def Has (c : VCache) (s : Slot) : Prop := some s ∈ c.slots

theorem fresh_has {n : Nat} {s : Slot} : ¬ Has (VCache.fresh n) s := by
  intro h
  have := List.eq_of_mem_replicate h
  cases this

theorem wipe_has {c : VCache} {s : Slot} : ¬ Has c.wipe s := by
  intro h
  simp only [Has, VCache.wipe, List.mem_map] at h
  obtain ⟨_, _, h⟩ := h
  cases h

theorem clear_has {c : VCache} {l : Rc} {s : Slot} (h : Has (c.clear l).2 s) : Has c s := by
  unfold VCache.clear at h
  split at h
  · exact h
  · exact absurd h wipe_has

theorem setEnabled_has {c : VCache} {l : Rc} {b : Bool} {s : Slot}
    (h : Has (c.setEnabled l b).2 s) : Has c s := by
  unfold VCache.setEnabled at h
  split at h
  · exact h
  · cases b
    · exact absurd h wipe_has
    · exact h

theorem evict_has {c : VCache} {r : UInt16} {s : Slot}
    (h : Has (c.evictRoot .ok r).2 s) : Has c s ∧ r ∉ s.roots := by
  unfold VCache.evictRoot at h
  rw [if_neg (by simp)] at h
  simp only [Has, List.mem_map] at h
  obtain ⟨o, ho, h⟩ := h
  cases o with
  | none => cases h
  | some t =>
    dsimp only at h
    split at h
    · cases h
    · next hc =>
      obtain rfl : t = s := Option.some.inj h
      exact ⟨ho, fun hm => hc (by simpa using hm)⟩

theorem evict_has' {c : VCache} {l : Rc} {r : UInt16} {s : Slot}
    (h : Has (c.evictRoot l r).2 s) : Has c s := by
  by_cases hl : l = .ok
  · subst hl; exact (evict_has h).1
  · unfold VCache.evictRoot at h
    rw [if_pos hl] at h
    exact h

theorem op_has {c : VCache} {o : CacheOp} {s : Slot} (h : Has (o.run c) s) : Has c s := by
  cases o with
  | clear => exact clear_has h
  | enable b => exact setEnabled_has h

theorem ops_has {ops : List CacheOp} : ∀ {c : VCache} {s : Slot},
    Has (ops.foldl CacheOp.run c) s → Has c s := by
  induction ops with
  | nil => intro c s h; exact h
  | cons o ops ih => intro c s h; exact op_has (ih h)

theorem enter_has {sc : Sched} {k : Nat} {c : VCache} {s : Slot} (h : Has (sc.enter k c) s) :
    Has c s := ops_has h

theorem insert_has {m : Nat} {c : VCache} {l : Rc} {roots : List UInt16} {d : List UInt8}
    {s : Slot} (h : Has (c.insert m l roots d) s) : Has c s ∨ s = ⟨roots, d⟩ := by
  unfold VCache.insert at h
  repeat' split at h
  all_goals first
    | exact .inl h
    | skip
  have := List.mem_or_eq_of_mem_set h
  rcases this with h | h
  · exact .inl h
  · exact .inr (Option.some.inj h)

theorem isSubset_iff {a b : List UInt16} : isSubset a b = true ↔ ∀ r ∈ a, r ∈ b := by
  simp [isSubset]

theorem lookup_ok {c : VCache} {l : Rc} {roots : List UInt16} {h : List UInt8}
    (hl : c.lookup l roots h = .ok) : ∃ s, Has c s ∧ s.hash = h ∧ ∀ r ∈ s.roots, r ∈ roots := by
  unfold VCache.lookup at hl
  repeat' split at hl
  all_goals first
    | (cases hl; done)
    | (next hx => exact absurd hl hx)
    | skip
  next hh =>
    simp only [VCache.hit, List.any_eq_true] at hh
    obtain ⟨o, ho, hh⟩ := hh
    cases o with
    | none => exact absurd hh (by simp)
    | some s =>
      simp only [Bool.and_eq_true, beq_iff_eq] at hh
      exact ⟨s, ho, hh.1, isSubset_iff.1 hh.2⟩

/-! ## Reading roots -/

theorem read_store (n : Nvm) (id : UInt16) (o l : Nat) : (n.read id o l).2.store = n.store := by
  unfold Nvm.read
  repeat' split
  all_goals rfl

theorem readTrusted_store (m : Nat) (n : Nvm) (id : UInt16) (b : Nat) :
    (readTrusted m n id b).2.store = n.store := by
  unfold readTrusted
  repeat' split
  all_goals first | rfl | exact read_store ..

theorem rootBytes_congr {n n' : Nvm} (h : n'.store = n.store) (r : UInt16) :
    rootBytes n' r = rootBytes n r := by simp only [rootBytes, h]

theorem readTrusted_ok {m : Nat} {n n' : Nvm} {id : UInt16} {b l : Nat} {d : Der}
    (h : readTrusted m n id b = ((.ok, l, d), n')) : rootBytes n id = some d := by
  unfold readTrusted at h
  split at h
  · exact absurd (congrArg (fun p => p.1.1) h) (by simp)
  · unfold Nvm.metadata NvmFlash.Store.info at h
    cases hs : n.store id with
    | none =>
      rw [hs] at h
      exact absurd (congrArg (fun p => p.1.1) h) (by simp)
    | some o =>
      obtain ⟨md, bs⟩ := o
      rw [hs] at h
      dsimp only at h
      split at h
      · exact absurd (congrArg (fun p => p.1.1) h) (by simp)
      · have h1 : (n.read id 0 md.len.toNat).1.1 = .ok := congrArg (fun p => p.1.1) h
        have h2 : (n.read id 0 md.len.toNat).1.2 = d := congrArg (fun p => p.1.2.2) h
        unfold Nvm.read at h1 h2
        repeat' split at h1
        all_goals first
          | (cases h1; done)
          | skip
        · next hp _ ho =>
          rw [if_pos hp, ho] at h2
          dsimp only at h1 h2
          unfold NvmFlash.Store.slice at h1 h2
          rw [hs] at h1 h2
          dsimp only at h1 h2
          split at h1
          · next hc =>
            rw [if_pos hc] at h2
            simp only [rootBytes, hs, Option.map_some]
            rw [← h2]
            simp
          · exact absurd h1 (by simp)
        · unfold errRc at h1
          split at h1
          · exact absurd h1 (by simp)
          · next hx => exact absurd h1 hx

/-- What `loadRoots` has loaded: the ids given or already loaded, each with the
certificate stored under it. -/
theorem loadRoots_ok (cfg : Cfg E) (g : UInt16 → Der) : ∀ (ids : List UInt16) (n n' : Nvm)
    (store store' : List Der) (loaded loaded' : List UInt16),
    (∀ r b, rootBytes n r = some b → b = g r) →
    (store = loaded.map g) → (∀ r ∈ loaded, rootBytes n r = some (g r)) →
    loadRoots cfg ids n store loaded = ((.ok, store', loaded'), n') →
    store' = loaded'.map g ∧ (∀ r ∈ loaded', rootBytes n r = some (g r)) ∧
      (∀ r ∈ loaded', r ∈ loaded ∨ r ∈ ids) ∧ n'.store = n.store := by
  intro ids
  induction ids with
  | nil =>
    intro n n' store store' loaded loaded' hg hs hl h
    simp only [loadRoots, Prod.mk.injEq] at h
    obtain ⟨⟨_, rfl, rfl⟩, rfl⟩ := h
    exact ⟨hs, hl, fun r h => .inl h, rfl⟩
  | cons r rs ih =>
    intro n n' store store' loaded loaded' hg hs hl h
    unfold loadRoots at h
    split at h
    · have := ih n n' store store' loaded loaded' hg hs hl h
      refine ⟨this.1, this.2.1, fun q hq => ?_, this.2.2.2⟩
      rcases this.2.2.1 q hq with h | h
      · exact .inl h
      · exact .inr (.tail _ h)
    · split at h
      · next a b n1 hr =>
        have hn : n1.store = n.store := by
          have := readTrusted_store cfg.maxCert n r cfg.maxCert
          rw [hr] at this; exact this
        have := ih n1 n' store store' loaded loaded'
          (fun q b hb => hg q b (by rw [← rootBytes_congr hn]; exact hb)) hs
          (fun q hq => by rw [rootBytes_congr hn]; exact hl q hq) h
        refine ⟨this.1, fun q hq => ?_, fun q hq => ?_, this.2.2.2.trans hn⟩
        · rw [← rootBytes_congr hn]; exact this.2.1 q hq
        · rcases this.2.2.1 q hq with h | h
          · exact .inl h
          · exact .inr (.tail _ h)
      · next a cert n1 hr =>
        split at h
        · have hb : rootBytes n r = some cert := readTrusted_ok hr
          have hc : cert = g r := hg _ _ hb
          have hn : n1.store = n.store := by
            have := readTrusted_store cfg.maxCert n r cfg.maxCert
            rw [hr] at this; exact this
          have := ih n1 n' (store ++ [cert]) store' (loaded ++ [r]) loaded'
            (fun q b hb => hg q b (by rw [← rootBytes_congr hn]; exact hb))
            (by rw [hs, hc, List.map_append]; rfl)
            (fun q hq => by
              rw [rootBytes_congr hn]
              rcases List.mem_append.1 hq with h | h
              · exact hl q h
              · obtain rfl := List.mem_singleton.1 h
                rw [hb, hc]) h
          refine ⟨this.1, fun q hq => ?_, fun q hq => ?_, this.2.2.2.trans hn⟩
          · rw [← rootBytes_congr hn]; exact this.2.1 q hq
          · rcases this.2.2.1 q hq with h | h
            · rcases List.mem_append.1 h with h | h
              · exact .inl h
              · obtain rfl := List.mem_singleton.1 h
                exact .inr (.head _)
            · exact .inr (.tail _ h)
        · exact absurd (congrArg (fun p => p.1.1) h) (by simp)
      · next hne =>
        rename_i hx hy hz
        have := congrArg (fun p => p.1.1) h
        simp only at this
        exact (hz this).elim

/-! ## The invariant -/

/-- A slot is justified: with the root certificates it was made with, its digest is
anchored, and those of them that are stored now are the same. -/
def SlotOK (cfg : Cfg E) (P : UInt16 → Prop) (log : List (List Der × Der)) (n : Nvm) (s : Slot) :
    Prop :=
  (∀ r ∈ s.roots, P r) → ∃ g : UInt16 → Der,
    (∀ r ∈ s.roots, ∀ b, rootBytes n r = some b → b = g r) ∧
    Anchored cfg.x509 log (s.roots.map g) s.hash

theorem SlotOK.mono {cfg : Cfg E} {P : UInt16 → Prop} {log log' : List (List Der × Der)}
    {n n' : Nvm} {s : Slot} (h : SlotOK cfg P log n s) (hl : ∀ p ∈ log, p ∈ log')
    (hn : ∀ r ∈ s.roots, P r → rootBytes n' r = none ∨ rootBytes n' r = rootBytes n r) :
    SlotOK cfg P log' n' s := by
  intro hp
  obtain ⟨g, hg, ha⟩ := h hp
  refine ⟨g, fun r hr b hb => ?_, ha.mono hl fun _ h => h⟩
  rcases hn r hr (hp r hr) with h | h
  · rw [h] at hb; cases hb
  · exact hg r hr b (by rw [← h]; exact hb)

/-- All slots are justified. -/
def CacheInv (cfg : Cfg E) (P : UInt16 → Prop) (st : State) : Prop :=
  cfg.caching = true → ∀ s, Has st.vc s → SlotOK cfg P st.log st.sys.nvm s

structure WalkInv (cfg : Cfg E) (P : UInt16 → Prop) (loaded : List UInt16) (g : UInt16 → Der)
    (n : Nvm) (log : List (List Der × Der)) (w : Walk) : Prop where
  cache : CacheInv cfg P w.st
  nvm : w.st.sys.nvm.store = n.store
  log : ∀ p ∈ log, p ∈ w.st.log
  store : (∀ r ∈ loaded, P r) → ∀ s ∈ w.store, s ∉ loaded.map g →
    cfg.x509.parse s = .ok true ∧ Anchored cfg.x509 w.st.log (loaded.map g) (cfg.x509.hash s)

theorem WalkInv.setVc {cfg : Cfg E} {P : UInt16 → Prop} {loaded : List UInt16}
    {g : UInt16 → Der} {n : Nvm} {log : List (List Der × Der)} {w : Walk}
    (h : WalkInv cfg P loaded g n log w) {vc : VCache} (hv : ∀ s, Has vc s → Has w.st.vc s) :
    WalkInv cfg P loaded g n log { w with st := { w.st with vc := vc } } :=
  ⟨fun hc s hs => h.cache hc s (hv s hs), h.nvm, h.log, h.store⟩

theorem verifyBuffer_inv {cfg : Cfg E} {c : Call E} {P : UInt16 → Prop} {loaded : List UInt16}
    {g : UInt16 → Der} {n : Nvm} {log : List (List Der × Der)} {w : Walk}
    (h : WalkInv cfg P loaded g n log w) (cert : Der) :
    WalkInv cfg P loaded g n log (verifyBuffer cfg c w cert).2 ∧
    ((verifyBuffer cfg c w cert).1 = .ok → (∀ r ∈ loaded, P r) →
      Anchored cfg.x509 (verifyBuffer cfg c w cert).2.st.log (loaded.map g)
        (cfg.x509.hash cert)) := by
  unfold verifyBuffer
  split
  · have hl : ∀ p ∈ w.st.log, p ∈ (w.store, cert) :: w.st.log := fun p h => .tail _ h
    refine ⟨⟨fun hc s hs => ?_, h.nvm, fun p hp => .tail _ (h.log p hp), fun hp s hs hn => ?_⟩,
      fun _ hp => ?_⟩
    · exact (h.cache hc s hs).mono hl fun _ _ _ => .inr rfl
    · exact ⟨(h.store hp s hs hn).1, (h.store hp s hs hn).2.mono hl fun _ h => h⟩
    · exact .mk w.store cert (.head _) (fun s hs hn => (h.store hp s hs hn).1)
        (fun s hs hn => (h.store hp s hs hn).2.mono hl fun _ h => h)
  · next hne => exact ⟨h, fun he => absurd he hne⟩

theorem checkCert_inv {cfg : Cfg E} {c : Call E} {P : UInt16 → Prop} {g : UInt16 → Der}
    {n : Nvm} {log : List (List Der × Der)} {w : Walk} (i off len : Nat)
    (hm : ∀ k, c.mem k = c.mem 0) (hl : ∀ r ∈ c.roots, rootBytes n r = some (g r))
    (h : WalkInv cfg P c.roots g n log w) :
    WalkInv cfg P c.roots g n log (checkCert cfg c i off len w).2.2 ∧
    ((checkCert cfg c i off len w).1 = .ok → (∀ r ∈ c.roots, P r) →
      Anchored cfg.x509 (checkCert cfg c i off len w).2.2.st.log (c.roots.map g)
        (cfg.x509.hash (c.bytes 0 off len))) ∧
    (∀ d, (checkCert cfg c i off len w).2.1 = some d →
      cfg.caching = true ∧ d = cfg.x509.hash (c.bytes 0 off len)) := by
  have hb : ∀ k, c.bytes k off len = c.bytes 0 off len := fun k => by
    simp only [Call.bytes, hm k]
  unfold checkCert
  by_cases hc : cfg.caching = true
  · rw [if_pos hc]
    dsimp only
    rw [hb (5 * i + 1), hb (5 * i + 2)]
    have h1 : WalkInv cfg P c.roots g n log
        { w with st := { w.st with vc := c.sched.enter (3 * i) w.st.vc } } :=
      h.setVc fun s hs => enter_has hs
    split
    · split
      · next hne => exact ⟨h1, fun he => absurd he hne, fun d hd => by cases hd⟩
      · have h2 : WalkInv cfg P c.roots g n log
            { w with st := { w.st with
              vc := c.sched.enter (3 * i + 1) (c.sched.enter (3 * i) w.st.vc) } } :=
          h.setVc fun s hs => enter_has (enter_has hs)
        split
        · next hlk =>
          refine ⟨h2, fun _ hp => ?_, fun d hd => ⟨hc, (Option.some.inj hd).symm⟩⟩
          obtain ⟨s, hs, hsh, hsub⟩ := lookup_ok hlk
          obtain ⟨g', hg', ha⟩ := h2.cache hc s hs fun r hr => hp r (hsub r hr)
          rw [hsh] at ha
          refine ha.mono (fun _ h => h) fun b hbm => ?_
          obtain ⟨r, hr, rfl⟩ := List.mem_map.1 hbm
          have : g r = g' r := hg' r hr (g r) (by
            rw [rootBytes_congr h2.nvm]; exact hl r (hsub r hr))
          rw [← this]
          exact List.mem_map.2 ⟨r, hsub r hr, rfl⟩
        · have := verifyBuffer_inv (c := c) h2 (c.bytes 0 off len)
          exact ⟨this.1, this.2, fun d hd => ⟨hc, (Option.some.inj hd).symm⟩⟩
    · have := verifyBuffer_inv (c := c) h1 (c.bytes 0 off len)
      exact ⟨this.1, this.2, fun d hd => by cases hd⟩
  · rw [if_neg hc]
    dsimp only
    rw [hb (5 * i + 2)]
    have := verifyBuffer_inv (c := c) h (c.bytes 0 off len)
    exact ⟨this.1, this.2, fun d hd => by cases hd⟩

/-! ## Caching the leaf's key leaves the objects alone -/

theorem cacheLeaf_frame (cfg : Cfg E) (c : Call E) (cert : Der) (w : Walk) :
    (cacheLeaf cfg c cert w).2.st.vc = w.st.vc ∧ (cacheLeaf cfg c cert w).2.st.log = w.st.log ∧
    (cacheLeaf cfg c cert w).2.st.sys.nvm = w.st.sys.nvm ∧
    (cacheLeaf cfg c cert w).2.store = w.store := by
  have hn := Keystore.getSlotChecked_nvm cfg.ks c.ctx w.st.sys w.keyId cfg.ks.bigBufSize
  unfold cacheLeaf
  split
  · next hg =>
    rw [hg] at hn
    split
    · split
      · exact ⟨rfl, rfl, hn, rfl⟩
      · exact ⟨rfl, rfl, (Keystore.fill_nvm ..).trans hn, rfl⟩
    · exact ⟨rfl, rfl, hn, rfl⟩
  · next hg =>
    rw [hg] at hn
    exact ⟨rfl, rfl, hn, rfl⟩

theorem leaf_frame (cfg : Cfg E) (c : Call E) (cert : Der) (w : Walk) :
    (leaf cfg c cert w).2.st.vc = w.st.vc ∧ (leaf cfg c cert w).2.st.log = w.st.log ∧
    (leaf cfg c cert w).2.st.sys.nvm = w.st.sys.nvm ∧
    (leaf cfg c cert w).2.store = w.store := by
  unfold leaf
  repeat' split
  all_goals first
    | exact ⟨rfl, rfl, rfl, rfl⟩
    | exact cacheLeaf_frame cfg c cert { w with keyId := _ }
    | exact cacheLeaf_frame cfg c cert w

theorem accepted_inv {cfg : Cfg E} {c : Call E} {P : UInt16 → Prop} {g : UInt16 → Der}
    {n : Nvm} {log : List (List Der × Der)} {w : Walk} (i off len : Nat)
    (d : Option (List UInt8))
    (hm : ∀ k, c.mem k = c.mem 0) (hl : ∀ r ∈ c.roots, rootBytes n r = some (g r))
    (h : WalkInv cfg P c.roots g n log w)
    (ha : (∀ r ∈ c.roots, P r) → Anchored cfg.x509 w.st.log (c.roots.map g)
      (cfg.x509.hash (c.bytes 0 off len)))
    (hd : ∀ x, d = some x → cfg.caching = true ∧ x = cfg.x509.hash (c.bytes 0 off len)) :
    WalkInv cfg P c.roots g n log (accepted cfg c i off len d w).2 ∧
    (∀ p ∈ w.st.log, p ∈ (accepted cfg c i off len d w).2.st.log) := by
  have hb : ∀ k, c.bytes k off len = c.bytes 0 off len := fun k => by
    simp only [Call.bytes, hm k]
  unfold accepted
  dsimp only
  rw [hb (5 * i + 3), hb (5 * i + 4)]
  split
  · exact ⟨h, fun _ h => h⟩
  · next hp =>
    split
    · have h1 : WalkInv cfg P c.roots g n log
          { w with store := w.store ++ [c.bytes 0 off len] } := by
        refine ⟨h.cache, h.nvm, h.log, fun hP s hs hn => ?_⟩
        rcases List.mem_append.1 hs with hs | hs
        · exact h.store hP s hs hn
        · obtain rfl := List.mem_singleton.1 hs
          exact ⟨hp, ha hP⟩
      split
      · next x =>
        obtain ⟨hc, rfl⟩ := hd _ rfl
        refine ⟨⟨fun _ s hs => ?_, h1.nvm, h1.log, h1.store⟩, fun _ h => h⟩
        rcases insert_has hs with hs | rfl
        · exact h1.cache hc s (enter_has hs)
        · intro hP
          refine ⟨g, fun r hr b hb => ?_, ha hP⟩
          rw [rootBytes_congr h1.nvm, hl r hr] at hb
          exact (Option.some.inj hb).symm
      · exact ⟨h1, fun _ h => h⟩
    · exact ⟨h, fun _ h => h⟩
  · have hf := leaf_frame cfg c (c.bytes 0 off len) w
    refine ⟨⟨fun hc s hs => ?_, ?_, ?_, ?_⟩, ?_⟩
    · rw [hf.1] at hs
      rw [hf.2.1, hf.2.2.1]
      exact h.cache hc s hs
    · rw [hf.2.2.1]; exact h.nvm
    · rw [hf.2.1]; exact h.log
    · rw [hf.2.1, hf.2.2.2]; exact h.store
    · rw [hf.2.1]; exact fun _ h => h

theorem drop_take_take {l : List UInt8} {a b k : Nat} (h : k ≤ b) :
    ((l.drop a).take b).take k = (l.drop a).take k := by
  rw [List.take_take, Nat.min_eq_left h]

theorem walk_inv {cfg : Cfg E} {c : Call E} {P : UInt16 → Prop} {g : UInt16 → Der}
    {n : Nvm} {log : List (List Der × Der)}
    (hm : ∀ k, c.mem k = c.mem 0) (hl : ∀ r ∈ c.roots, rootBytes n r = some (g r)) :
    ∀ (fuel i off rem : Nat) (w : Walk), WalkInv cfg P c.roots g n log w → rem ≤ fuel →
    off + rem ≤ (c.mem 0).length →
    WalkInv cfg P c.roots g n log (walk cfg c fuel i off rem w).2 ∧
    (∀ p ∈ w.st.log, p ∈ (walk cfg c fuel i off rem w).2.st.log) ∧
    ((walk cfg c fuel i off rem w).1 = .ok → (∀ r ∈ c.roots, P r) →
      ∃ certs, Splits cfg.x509.derLen (c.bytes 0 off rem) certs ∧
        ∀ d ∈ certs, Anchored cfg.x509 (walk cfg c fuel i off rem w).2.st.log (c.roots.map g)
          (cfg.x509.hash d)) := by
  intro fuel
  induction fuel with
  | zero =>
    intro i off rem w h hf _
    obtain rfl : rem = 0 := by omega
    refine ⟨h, fun _ h => h, fun _ _ => ⟨[], ?_, by simp⟩⟩
    simp only [Call.bytes, List.take_zero]
    exact .nil
  | succ fuel ih =>
    intro i off rem w h hf ho
    unfold walk
    by_cases hr : rem = 0
    · rw [if_pos hr]
      subst hr
      refine ⟨h, fun _ h => h, fun _ _ => ⟨[], ?_, by simp⟩⟩
      simp only [Call.bytes, List.take_zero]
      exact .nil
    · rw [if_neg hr]
      split
      · next rc _ =>
        exact ⟨h, fun _ h => h, fun he => absurd he (by unfold errRc; split <;> simp_all)⟩
      · next k hk =>
        have hk0 : cfg.x509.derLen (c.bytes 0 off rem) = .ok k := by
          rw [← hk]; simp only [Call.bytes, hm (5 * i)]
        split
        · exact ⟨h, fun _ h => h, fun he => by cases he⟩
        · next hle =>
          have hcc := checkCert_inv (P := P) i off (k + 2) hm hl h
          have hlog1 : ∀ p ∈ w.st.log, p ∈ (checkCert cfg c i off (k + 2) w).2.2.st.log := by
            have := (checkCert_inv (P := P) (log := w.st.log) i off (k + 2) hm hl
              ⟨h.cache, h.nvm, fun _ h => h, h.store⟩).1
            exact this.log
          split
          · next d w1 hck =>
            rw [hck] at hcc hlog1
            have hac := accepted_inv i off (k + 2) d hm hl hcc.1 (hcc.2.1 rfl)
              (fun x hx => hcc.2.2 x hx)
            split
            · next w2 haw =>
              rw [haw] at hac
              have := ih (i + 1) (off + (k + 2)) (rem - (k + 2)) w2 hac.1 (by omega) (by omega)
              refine ⟨this.1, fun p hp => this.2.1 p (hac.2 p (hlog1 p hp)), fun he hP => ?_⟩
              obtain ⟨cs, hsp, hcs⟩ := this.2.2 he hP
              have hb : c.bytes 0 off (k + 2) = (c.bytes 0 off rem).take (k + 2) := by
                simp only [Call.bytes]
                rw [drop_take_take (by omega)]
              refine ⟨(c.bytes 0 off rem).take (k + 2) :: cs, .cons ?_ hk0 ?_ ?_, ?_⟩
              · intro he
                have := congrArg List.length he
                simp only [Call.bytes, List.length_take, List.length_drop, List.length_nil] at this
                omega
              · simp only [Call.bytes, List.length_take, List.length_drop]
                omega
              · have : (c.bytes 0 off rem).drop (k + 2)
                    = c.bytes 0 (off + (k + 2)) (rem - (k + 2)) := by
                  simp only [Call.bytes]
                  rw [List.drop_take, List.drop_drop]
                rw [this]; exact hsp
              · intro d' hd'
                rcases List.mem_cons.1 hd' with rfl | hd'
                · rw [← hb]
                  exact (hcc.2.1 rfl hP).mono (fun p hp => this.2.1 p (hac.2 p hp)) fun _ h => h
                · exact hcs d' hd'
            · next w2 hne haw =>
              rw [haw] at hac
              exact ⟨hac.1, fun p hp => hac.2 p (hlog1 p hp), fun he => (hne he).elim⟩
          · next w1 hne hck =>
            rw [hck] at hcc hlog1
            exact ⟨hcc.1, hlog1, fun he => (hne he).elim⟩

/-! ## The chain walk leaves the NVM alone -/

theorem verifyBuffer_nvm (cfg : Cfg E) (c : Call E) (w : Walk) (d : Der) :
    (verifyBuffer cfg c w d).2.st.sys.nvm = w.st.sys.nvm := by
  unfold verifyBuffer
  split <;> rfl

theorem checkCert_nvm (cfg : Cfg E) (c : Call E) (i off len : Nat) (w : Walk) :
    (checkCert cfg c i off len w).2.2.st.sys.nvm = w.st.sys.nvm := by
  unfold checkCert
  dsimp only
  repeat' split
  all_goals first | rfl | exact verifyBuffer_nvm ..

theorem accepted_nvm (cfg : Cfg E) (c : Call E) (i off len : Nat) (h : Option (List UInt8))
    (w : Walk) : (accepted cfg c i off len h w).2.st.sys.nvm = w.st.sys.nvm := by
  unfold accepted
  dsimp only
  repeat' split
  all_goals first | rfl | exact (leaf_frame cfg c _ w).2.2.1

theorem walk_nvm (cfg : Cfg E) (c : Call E) : ∀ (fuel i off rem : Nat) (w : Walk),
    (walk cfg c fuel i off rem w).2.st.sys.nvm = w.st.sys.nvm := by
  intro fuel
  induction fuel with
  | zero => intros; rfl
  | succ fuel ih =>
    intro i off rem w
    unfold walk
    split
    · rfl
    · split
      · rfl
      · next k _ =>
        split
        · rfl
        · have h1 := checkCert_nvm cfg c i off (k + 2) w
          split
          · next d w1 hck =>
            rw [hck] at h1
            have h2 := accepted_nvm cfg c i off (k + 2) d w1
            split
            · next haw => rw [haw] at h2; exact (ih ..).trans (h2.trans h1)
            · next haw => rw [haw] at h2; exact h2.trans h1
          · next hck => rw [hck] at h1; exact h1

/-! ## Power -/

theorem readTrusted_off (m : Nat) {n : Nvm} (id : UInt16) (b : Nat) (h : n.powered = false) :
    (readTrusted m n id b).2.powered = false := by
  unfold readTrusted
  repeat' split
  all_goals first | exact h | skip
  unfold Nvm.read
  rw [h]
  exact h

theorem loadRoots_off (cfg : Cfg E) : ∀ (ids : List UInt16) (n : Nvm) (store : List Der)
    (loaded : List UInt16), n.powered = false →
    (loadRoots cfg ids n store loaded).2.powered = false := by
  intro ids
  induction ids with
  | nil => intro n _ _ h; exact h
  | cons r rs ih =>
    intro n store loaded h
    have hr := readTrusted_off cfg.maxCert r cfg.maxCert h
    unfold loadRoots
    split
    · exact ih _ _ _ h
    · split
      · next he => rw [he] at hr; exact ih _ _ _ hr
      · next he =>
        rw [he] at hr
        split
        · exact ih _ _ _ hr
        · exact hr
      · next he => rw [he] at hr; exact hr

theorem loadRoots_store (cfg : Cfg E) : ∀ (ids : List UInt16) (n : Nvm) (store : List Der)
    (loaded : List UInt16), (loadRoots cfg ids n store loaded).2.store = n.store := by
  intro ids
  induction ids with
  | nil => intro n _ _; rfl
  | cons r rs ih =>
    intro n store loaded
    have hr := readTrusted_store cfg.maxCert n r cfg.maxCert
    unfold loadRoots
    split
    · exact ih _ _ _
    · split
      · next he => rw [he] at hr; exact (ih _ _ _).trans hr
      · next he =>
        rw [he] at hr
        split
        · exact (ih _ _ _).trans hr
        · exact hr
      · next he => rw [he] at hr; exact hr

/-! ## The whole call -/

theorem verifyMulti_inv {cfg : Cfg E} {P : UInt16 → Prop} {s : State} {c : Call E}
    (chainLen : Nat) (keyId : UInt16) (h : CacheInv cfg P s) (hm : ∀ k, c.mem k = c.mem 0)
    (hlen : chainLen ≤ (c.mem 0).length) :
    CacheInv cfg P (verifyMulti cfg s c chainLen keyId).2 ∧
    (∀ p ∈ s.log, p ∈ (verifyMulti cfg s c chainLen keyId).2.log) ∧
    ((verifyMulti cfg s c chainLen keyId).1.1 = .ok → (∀ r ∈ c.roots, P r) →
      ∃ certs, certs ≠ [] ∧ Splits cfg.x509.derLen ((c.mem 0).take chainLen) certs ∧
        ∀ d ∈ certs, Anchored cfg.x509 (verifyMulti cfg s c chainLen keyId).2.log
          (c.roots.filterMap (rootBytes s.sys.nvm)) (cfg.x509.hash d)) := by
  have hst : ∀ n : Nvm, n.store = s.sys.nvm.store →
      CacheInv cfg P { s with sys := { s.sys with nvm := n } } := by
    intro n hn hc t ht
    refine (h hc t ht).mono (fun _ h => h) fun r _ _ => .inr (rootBytes_congr hn r)
  unfold verifyMulti
  split
  · exact ⟨h, fun _ h => h, fun he => by cases he⟩
  · next h0 =>
    split
    · next store loaded n hlr =>
      dsimp only
      have hn : n.store = s.sys.nvm.store := by
        have := loadRoots_store cfg c.roots s.sys.nvm [] []
        rw [hlr] at this; exact this
      split
      · exact ⟨hst n hn, fun _ h => h, fun he => by cases he⟩
      · next hne =>
        have hlo := loadRoots_ok cfg (fun r => (rootBytes s.sys.nvm r).getD []) c.roots s.sys.nvm n
          [] store [] loaded (fun r b hb => by simp [hb]) rfl (fun _ h => by cases h) hlr
        obtain ⟨hl1, hl2, hl3, _⟩ := hlo
        have hwi : WalkInv cfg P loaded (fun r => (rootBytes s.sys.nvm r).getD []) s.sys.nvm s.log
            ⟨{ s with sys := { s.sys with nvm := n } }, store, keyId⟩ :=
          ⟨hst n hn, hn, fun _ h => h, fun _ t ht hnt => by
            rw [hl1] at ht; exact absurd ht hnt⟩
        have hvc : ∀ w, verifyChain cfg { c with roots := loaded } chainLen w
            = walk cfg { c with roots := loaded } chainLen 0 0 chainLen w := by
          intro w
          unfold verifyChain
          rw [if_neg]
          rintro (h | h)
          · exact h0 (.inl h)
          · exact hne h
        rw [hvc]
        have := walk_inv (c := { c with roots := loaded }) (P := P) (log := s.log) hm hl2
          chainLen 0 0 chainLen _ hwi (Nat.le_refl _) (by
            show 0 + chainLen ≤ (c.mem 0).length
            omega)
        split
        · next w hw =>
          rw [hw] at this
          refine ⟨this.1.cache, this.2.1, fun _ hP => ?_⟩
          obtain ⟨certs, hsp, hcs⟩ := this.2.2 rfl fun r hr => by
            rcases hl3 r hr with h | h
            · cases h
            · exact hP r h
          simp only [Call.bytes, List.drop_zero] at hsp
          refine ⟨certs, ?_, hsp, fun d hd => (hcs d hd).mono (fun _ h => h) fun b hb => ?_⟩
          · rintro rfl
            have hne0 : (c.mem 0).take chainLen ≠ [] := by
              intro he
              have := congrArg List.length he
              rw [List.length_take, List.length_nil] at this
              exact h0 (.inl (by omega))
            generalize (c.mem 0).take chainLen = b at hsp hne0
            cases hsp
            exact hne0 rfl
          · obtain ⟨r, hr, rfl⟩ := List.mem_map.1 hb
            refine List.mem_filterMap.2 ⟨r, ?_, ?_⟩
            · rcases hl3 r hr with h | h
              · cases h
              · exact h
            · have := hl2 r hr
              exact this
        · next hx _ hw =>
          rw [hw] at this
          exact ⟨this.1.cache, this.2.1, fun he => by cases he⟩
    · next n hx hlr =>
      have hn : n.store = s.sys.nvm.store := by
        have := loadRoots_store cfg c.roots s.sys.nvm [] []
        rw [hlr] at this; exact this
      exact ⟨hst n hn, fun _ h => h, fun he => (hx he).elim⟩

theorem verifyMulti_off {cfg : Cfg E} {s : State} (c : Call E) (chainLen : Nat) (keyId : UInt16)
    (h : s.sys.nvm.powered = false) :
    (verifyMulti cfg s c chainLen keyId).2.sys.nvm.powered = false := by
  have hl := loadRoots_off cfg c.roots s.sys.nvm [] [] h
  unfold verifyMulti
  split
  · exact h
  · split
    · next store loaded n hlr =>
      rw [hlr] at hl
      dsimp only
      split
      · exact hl
      · have : ∀ w, (verifyChain cfg { c with roots := loaded } chainLen w).2.st.sys.nvm
            = w.st.sys.nvm := by
          intro w
          unfold verifyChain
          split
          · rfl
          · exact walk_nvm ..
        have := this ⟨{ s with sys := { s.sys with nvm := n } }, store, keyId⟩
        split
        · next hw => rw [hw] at this; dsimp only at this ⊢; rw [this]; exact hl
        · next hw => rw [hw] at this; dsimp only at this ⊢; rw [this]; exact hl
    · next hlr => rw [hlr] at hl; exact hl

/-! ## Adding and erasing roots -/

theorem addChecked_cases (n : Nvm) (md : Meta) (d : Der) :
    ((n.addChecked md md d).1 = .ok ∧
      ∀ r, r ≠ md.id → (n.addChecked md md d).2.store r = n.store r) ∨
    ((n.addChecked md md d).1 ≠ .ok ∧ ((n.addChecked md md d).2.powered = false ∨
      (n.addChecked md md d).2.store = n.store)) := by
  have her : ∀ rc, errRc rc ≠ .ok := fun rc => by unfold errRc; split <;> simp_all
  unfold Nvm.addChecked
  dsimp only
  split
  · unfold Nvm.add
    split
    · split
      · refine .inl ⟨rfl, fun r hr => ?_⟩
        show (if r = (Nvm.sanitize md).id then _ else _) = _
        exact if_neg hr
      · exact .inr ⟨her _, .inr rfl⟩
      · exact .inr ⟨her _, .inr rfl⟩
      · exact .inr ⟨(fun h => by cases h), .inl rfl⟩
      · exact .inr ⟨(fun h => by cases h), .inl rfl⟩
    · exact .inr ⟨(fun h => by cases h), .inr rfl⟩
  · next h =>
    refine .inr ⟨fun he => h ?_, .inr rfl⟩
    dsimp only at he
    rw [he]; rfl

theorem destroy_cases (n : Nvm) (id : UInt16) :
    ((n.destroy [id]).1 = .ok ∧ ∀ r, r ≠ id → (n.destroy [id]).2.store r = n.store r) ∨
    ((n.destroy [id]).1 ≠ .ok ∧ ((n.destroy [id]).2.powered = false ∨
      ∀ r, (n.destroy [id]).2.store r = none ∨ (n.destroy [id]).2.store r = n.store r)) := by
  have her : ∀ rc, errRc rc ≠ .ok := fun rc => by unfold errRc; split <;> simp_all
  unfold Nvm.destroy
  split
  · split
    · split
      · exact .inl ⟨rfl, fun r hr => rfl⟩
      · refine .inl ⟨rfl, fun r hr => ?_⟩
        simp [NvmFlash.Store.drop, hr]
    · refine .inr ⟨her _, .inr fun r => ?_⟩
      by_cases hr : r = id <;> simp [NvmFlash.Store.drop, hr]
    · exact .inr ⟨her _, .inr fun r => .inr rfl⟩
    · exact .inr ⟨(fun h => by cases h), .inl rfl⟩
    · exact .inr ⟨(fun h => by cases h), .inl rfl⟩
  · exact .inr ⟨(fun h => by cases h), .inr fun r => .inr rfl⟩

/-- The invariant of histories: it need not hold any more once power has been lost. -/
def Inv (cfg : Cfg E) (P : UInt16 → Prop) (s : State) : Prop :=
  s.sys.nvm.powered = true → CacheInv cfg P s

theorem evicting_inv {cfg : Cfg E} {P : UInt16 → Prop} {s : State} {n : Nvm} {rc : Rc}
    {id : UInt16} (h : CacheInv cfg P s)
    (hn : (rc = .ok ∧ ∀ r, r ≠ id → n.store r = s.sys.nvm.store r) ∨
      (rc ≠ .ok ∧ (n.powered = false ∨ ∀ r, n.store r = none ∨ n.store r = s.sys.nvm.store r))) :
    Inv cfg P (evicting cfg { s with sys := { s.sys with nvm := n } } rc .ok id).2 := by
  unfold evicting
  rcases hn with ⟨rfl, hn⟩ | ⟨hrc, hn⟩
  · by_cases hc : cfg.caching = true
    · rw [if_pos (by simp [hc])]
      intro _ _ t ht
      obtain ⟨ht, hr⟩ := evict_has ht
      refine (h hc t ht).mono (fun _ h => h) fun r hm _ => .inr ?_
      simp only [rootBytes]
      rw [hn r fun he => hr (he ▸ hm)]
    · rw [if_neg (by simp [hc])]
      exact fun _ hc' => absurd hc' hc
  · rw [if_neg (by simp [hrc])]
    rcases hn with hn | hn
    · intro hp
      rw [show n.powered = true from hp] at hn
      cases hn
    · intro _ hc t ht
      refine (h hc t ht).mono (fun _ h => h) fun r _ _ => ?_
      simp only [rootBytes]
      rcases hn r with h | h
      · rw [h]; exact .inl rfl
      · rw [h]; exact .inr rfl

theorem addChecked_off {n : Nvm} (md : Meta) (d : Der) (h : n.powered = false) :
    (n.addChecked md md d).2.powered = false := by
  unfold Nvm.addChecked
  dsimp only
  split
  · unfold Nvm.add; rw [h]; exact h
  · exact h

theorem destroy_off {n : Nvm} (ids : List UInt16) (h : n.powered = false) :
    (n.destroy ids).2.powered = false := by
  unfold Nvm.destroy; rw [h]; exact h

theorem evicting_nvm (cfg : Cfg E) (s : State) (rc l : Rc) (id : UInt16) :
    (evicting cfg s rc l id).2.sys = s.sys := by
  unfold evicting
  split <;> rfl

theorem step_inv {cfg : Cfg E} {P : UInt16 → Prop} {s : State} {ev : Ev E} (h : Inv cfg P s)
    (hr : Respects P s ev) :
    Inv cfg P (step cfg s ev) := by
  cases ev with
  | init lock =>
    simp only [step, certInit]
    split
    · exact fun hp hc t ht => h hp hc t (clear_has ht)
    · exact h
  | add nl lock md cert =>
    obtain rfl : lock = .ok := hr
    simp only [step]
    split
    · unfold addTrusted
      split
      · exact h
      · dsimp only
        by_cases hp : s.sys.nvm.powered = true
        · refine evicting_inv (h hp) ?_
          rcases addChecked_cases s.sys.nvm { md with len := UInt16.ofNat cert.length }
            (cert.take (cert.length % 65536)) with h | ⟨h, h' | h'⟩
          · exact .inl h
          · exact .inr ⟨h, .inl h'⟩
          · exact .inr ⟨h, .inr fun r => .inr (congrFun h' r)⟩
        · intro hp'
          rw [evicting_nvm] at hp'
          dsimp only at hp'
          rw [addChecked_off _ _ (by simpa using hp)] at hp'
          cases hp'
    · exact h
  | erase nl lock id =>
    obtain rfl : lock = .ok := hr
    have go : Inv cfg P (evicting cfg { s with sys := { s.sys with nvm := (s.sys.nvm.destroy [id]).2 } }
        (s.sys.nvm.destroy [id]).1 .ok id).2 := by
      by_cases hp : s.sys.nvm.powered = true
      · exact evicting_inv (h hp) (destroy_cases s.sys.nvm id)
      · intro hp'
        rw [evicting_nvm] at hp'
        dsimp only at hp'
        rw [destroy_off _ (by simpa using hp)] at hp'
        cases hp'
    simp only [step]
    split
    · unfold eraseTrusted
      dsimp only
      split
      · split
        · exact h
        · exact go
      · exact go
      · exact h
    · exact h
  | verify nl c n k =>
    simp only [step]
    split
    · by_cases hp : s.sys.nvm.powered = true
      · exact fun _ => (verifyMulti_inv n k (h hp) hr.1 hr.2).1
      · intro hp'
        rw [verifyMulti_off c n k (by simpa using hp)] at hp'
        cases hp'
    · exact h
  | clear nl lock =>
    simp only [step]
    split
    · exact fun hp hc t ht => h hp hc t (clear_has ht)
    · exact h
  | enable nl lock b =>
    simp only [step]
    split
    · exact fun hp hc t ht => h hp hc t (setEnabled_has ht)
    · exact h
  | restart sys => exact fun _ _ t ht => absurd ht fresh_has
  | other sys =>
    intro hp hc t ht
    exact (h (hr.1 hp) hc t ht).mono (fun _ h => h) fun r _ hP => hr.2 r hP

theorem run_inv {cfg : Cfg E} {P : UInt16 → Prop} : ∀ (evs : List (Ev E)) (s : State),
    Inv cfg P s → Guarded cfg P s evs → Inv cfg P (run cfg s evs) := by
  intro evs
  induction evs with
  | nil => intro s h _; exact h
  | cons ev evs ih => intro s h hg; exact ih _ (step_inv h hg.1) hg.2

theorem fresh_inv {cfg : Cfg E} {P : UInt16 → Prop} {s : State} (h : Fresh s) :
    Inv cfg P s := by
  intro _ _ t ht
  cases h.1 _ ht

/-! ## The ghost log records successful verifications only -/

theorem verifyBuffer_log {cfg : Cfg E} {c : Call E} {w : Walk} {d : Der} {p : List Der × Der}
    (h : p ∈ (verifyBuffer cfg c w d).2.st.log) :
    p ∈ w.st.log ∨ cfg.x509.verify c.env p.1 p.2 = .ok := by
  unfold verifyBuffer at h
  split at h
  · next hv =>
    rcases List.mem_cons.1 h with rfl | h
    · exact .inr hv
    · exact .inl h
  · exact .inl h

theorem checkCert_log {cfg : Cfg E} {c : Call E} {i off len : Nat} {w : Walk} {p : List Der × Der}
    (h : p ∈ (checkCert cfg c i off len w).2.2.st.log) :
    p ∈ w.st.log ∨ cfg.x509.verify c.env p.1 p.2 = .ok := by
  unfold checkCert at h
  dsimp only at h
  repeat' split at h
  all_goals first | exact .inl h | exact (verifyBuffer_log h).imp id id

theorem accepted_log (cfg : Cfg E) (c : Call E) (i off len : Nat) (h : Option (List UInt8))
    (w : Walk) : (accepted cfg c i off len h w).2.st.log = w.st.log := by
  unfold accepted
  dsimp only
  repeat' split
  all_goals first | rfl | exact (leaf_frame cfg c _ w).2.1

theorem walk_log {cfg : Cfg E} {c : Call E} {p : List Der × Der} : ∀ (fuel i off rem : Nat) (w : Walk),
    p ∈ (walk cfg c fuel i off rem w).2.st.log →
    p ∈ w.st.log ∨ cfg.x509.verify c.env p.1 p.2 = .ok := by
  intro fuel
  induction fuel with
  | zero => intro _ _ _ w h; exact .inl h
  | succ fuel ih =>
    intro i off rem w h
    unfold walk at h
    split at h
    · exact .inl h
    · split at h
      · exact .inl h
      · next k _ =>
        split at h
        · exact .inl h
        · split at h
          · next d w1 hck =>
            have h1 : p ∈ w1.st.log → p ∈ w.st.log ∨ cfg.x509.verify c.env p.1 p.2 = .ok :=
              fun h => checkCert_log (i := i) (off := off) (len := k + 2) (by rw [hck]; exact h)
            have h2 := accepted_log cfg c i off (k + 2) d w1
            split at h
            · next w2 haw =>
              rw [haw] at h2
              rcases ih _ _ _ _ h with h | h
              · exact h1 (by rw [← h2]; exact h)
              · exact .inr h
            · next w2 _ haw =>
              rw [haw] at h2
              exact h1 (by rw [← h2]; exact h)
          · next w1 _ hck =>
            exact checkCert_log (i := i) (off := off) (len := k + 2) (by rw [hck]; exact h)

theorem verifyMulti_log {cfg : Cfg E} {s : State} {c : Call E} {n : Nat} {k : UInt16}
    {p : List Der × Der} (h : p ∈ (verifyMulti cfg s c n k).2.log) :
    p ∈ s.log ∨ cfg.x509.verify c.env p.1 p.2 = .ok := by
  unfold verifyMulti at h
  split at h
  · exact .inl h
  · split at h
    · next store loaded n1 _ =>
      dsimp only at h
      split at h
      · exact .inl h
      · have key : ∀ w, p ∈ (verifyChain cfg { c with roots := loaded } n w).2.st.log →
            p ∈ w.st.log ∨ cfg.x509.verify c.env p.1 p.2 = .ok := by
          intro w hw
          unfold verifyChain at hw
          split at hw
          · exact .inl hw
          · exact walk_log (c := { c with roots := loaded }) _ _ _ _ _ hw
        split at h
        · next hw => exact key _ (by rw [hw]; exact h)
        · next hw => exact key _ (by rw [hw]; exact h)
    · exact .inl h

theorem step_log {cfg : Cfg E} {s : State} {ev : Ev E} {p : List Der × Der}
    (h : p ∈ (step cfg s ev).log) :
    p ∈ s.log ∨ ∃ c n k, ev = .verify .ok c n k ∧ cfg.x509.verify c.env p.1 p.2 = .ok := by
  cases ev with
  | init lock =>
    simp only [step, certInit] at h
    split at h <;> exact .inl h
  | add nl lock md cert =>
    simp only [step, addTrusted, evicting] at h
    repeat' split at h
    all_goals exact .inl h
  | erase nl lock id =>
    simp only [step, eraseTrusted, evicting] at h
    repeat' split at h
    all_goals exact .inl h
  | verify nl c n k =>
    simp only [step] at h
    split at h
    · next hn =>
      subst hn
      rcases verifyMulti_log h with h | h
      · exact .inl h
      · exact .inr ⟨c, n, k, rfl, h⟩
    · exact .inl h
  | clear nl lock =>
    simp only [step] at h
    split at h <;> exact .inl h
  | enable nl lock b =>
    simp only [step] at h
    split at h <;> exact .inl h
  | restart sys => exact .inl h
  | other sys => exact .inl h

theorem run_log {cfg : Cfg E} {p : List Der × Der} : ∀ (evs : List (Ev E)) (s : State),
    p ∈ (run cfg s evs).log →
    p ∈ s.log ∨ ∃ c n k, Ev.verify .ok c n k ∈ evs ∧ cfg.x509.verify c.env p.1 p.2 = .ok := by
  intro evs
  induction evs with
  | nil => intro s h; exact .inl h
  | cons ev evs ih =>
    intro s h
    rcases ih _ h with h | ⟨c, n, k, hm, hv⟩
    · rcases step_log h with h | ⟨c, n, k, rfl, hv⟩
      · exact .inl h
      · exact .inr ⟨c, n, k, .head _, hv⟩
    · exact .inr ⟨c, n, k, .tail _ hm, hv⟩

/-! ## The cache never makes a chain fail -/

/-- Same objects, keys and trust store; only the verify cache and the log may differ. -/
structure Sim (w w' : Walk) : Prop where
  sys : w'.st.sys = w.st.sys
  store : w'.store = w.store
  keyId : w'.keyId = w.keyId

theorem cacheLeaf_sim (cfg : Cfg E) (b : Bool) (c : Call E) (d : Der) {w w' : Walk}
    (h : Sim w w') :
    (cacheLeaf cfg c d w').1 = (cacheLeaf { cfg with caching := b } c d w).1 ∧
    Sim (cacheLeaf { cfg with caching := b } c d w).2 (cacheLeaf cfg c d w').2 := by
  obtain ⟨⟨sys, vc, log⟩, store, k⟩ := w
  obtain ⟨⟨sys', vc', log'⟩, store', k'⟩ := w'
  obtain ⟨h1, h2, h3⟩ := h
  dsimp only at h1 h2 h3
  subst h1 h2 h3
  unfold cacheLeaf
  dsimp only
  repeat' split
  all_goals exact ⟨rfl, ⟨rfl, rfl, rfl⟩⟩

theorem leaf_sim (cfg : Cfg E) (b : Bool) (c : Call E) (d : Der) {w w' : Walk} (h : Sim w w') :
    (leaf cfg c d w').1 = (leaf { cfg with caching := b } c d w).1 ∧
    Sim (leaf { cfg with caching := b } c d w).2 (leaf cfg c d w').2 := by
  unfold leaf
  rw [h.keyId, h.sys]
  split
  · exact ⟨rfl, h⟩
  · split
    · dsimp only
      split
      · exact cacheLeaf_sim cfg b c d ⟨h.sys, h.store, rfl⟩
      · exact ⟨rfl, h⟩
    · exact cacheLeaf_sim cfg b c d h

theorem verifyBuffer_sim (cfg : Cfg E) (b : Bool) (c : Call E) (d : Der) {w w' : Walk}
    (h : Sim w w') :
    (verifyBuffer cfg c w' d).1 = (verifyBuffer { cfg with caching := b } c w d).1 ∧
    Sim w (verifyBuffer cfg c w' d).2 ∧ Sim w (verifyBuffer { cfg with caching := b } c w d).2 := by
  unfold verifyBuffer
  rw [h.store]
  dsimp only
  split
  · exact ⟨rfl, ⟨h.sys, rfl, h.keyId⟩, ⟨rfl, rfl, rfl⟩⟩
  · exact ⟨rfl, h, ⟨rfl, rfl, rfl⟩⟩

theorem checkCert_sim (cfg : Cfg E) (c : Call E) (i off len : Nat) {w w' : Walk}
    (hh : ∀ d, cfg.x509.hashRc c.env d = .ok) (h : Sim w w')
    (hok : (checkCert { cfg with caching := false } c i off len w).1 = .ok) :
    (checkCert cfg c i off len w').1 = .ok ∧
    (checkCert { cfg with caching := false } c i off len w).2.1 = none ∧
    Sim (checkCert { cfg with caching := false } c i off len w).2.2
      (checkCert cfg c i off len w').2.2 := by
  unfold checkCert at hok ⊢
  simp only [Bool.false_eq_true, if_false] at hok ⊢
  have hv : ∀ vc, Sim w { w' with st := { w'.st with vc := vc } } := fun vc =>
    ⟨h.sys, h.store, h.keyId⟩
  have tr : ∀ {a b d : Walk}, Sim a b → Sim a d → Sim b d := fun h1 h2 =>
    ⟨h2.sys.trans h1.sys.symm, h2.store.trans h1.store.symm, h2.keyId.trans h1.keyId.symm⟩
  have key : ∀ vc, (verifyBuffer cfg c { w' with st := { w'.st with vc := vc } }
        (c.bytes (5 * i + 2) off len)).1 = .ok ∧
      Sim (verifyBuffer { cfg with caching := false } c w (c.bytes (5 * i + 2) off len)).2
        (verifyBuffer cfg c { w' with st := { w'.st with vc := vc } }
          (c.bytes (5 * i + 2) off len)).2 := by
    intro vc
    have := verifyBuffer_sim cfg false c (c.bytes (5 * i + 2) off len) (hv vc)
    exact ⟨this.1.trans hok, tr this.2.2 this.2.1⟩
  split
  · split
    · rw [if_neg (not_not_intro (hh _))]
      split
      · refine ⟨rfl, trivial, ?_⟩
        have := verifyBuffer_sim cfg false c (c.bytes (5 * i + 2) off len) (hv w'.st.vc)
        exact tr this.2.2 (hv _)
      · exact ⟨(key _).1, trivial, (key _).2⟩
    · exact ⟨(key _).1, trivial, (key _).2⟩
  · exact ⟨(key w'.st.vc).1, trivial, (key w'.st.vc).2⟩

theorem accepted_sim (cfg : Cfg E) (c : Call E) (i off len : Nat) (d : Option (List UInt8))
    {w w' : Walk} (h : Sim w w')
    (hok : (accepted { cfg with caching := false } c i off len none w).1 = .ok) :
    (accepted cfg c i off len d w').1 = .ok ∧
    Sim (accepted { cfg with caching := false } c i off len none w).2
      (accepted cfg c i off len d w').2 := by
  unfold accepted at hok ⊢
  dsimp only at hok ⊢
  rw [h.store]
  cases hp : cfg.x509.parse (c.bytes (5 * i + 3) off len) with
  | error rc =>
    rw [hp] at hok
    dsimp only at hok
    unfold errRc at hok
    split at hok
    · cases hok
    · next hne => exact absurd hok hne
  | ok ca =>
    rw [hp] at hok
    cases ca with
    | true =>
      dsimp only at hok ⊢
      by_cases hl : cfg.x509.loadCA w.store (c.bytes (5 * i + 4) off len) = .ok
      · rw [if_pos hl] at hok
        simp only [if_pos hl]
        cases d with
        | none => exact ⟨rfl, ⟨h.sys, rfl, h.keyId⟩⟩
        | some d => exact ⟨rfl, ⟨h.sys, rfl, h.keyId⟩⟩
      · rw [if_neg hl] at hok
        dsimp only at hok
        unfold errRc at hok
        rw [if_neg hl] at hok
        exact absurd hok hl
    | false =>
      dsimp only at hok ⊢
      have := leaf_sim cfg false c (c.bytes (5 * i + 4) off len) h
      exact ⟨this.1.trans hok, this.2⟩

theorem walk_sim (cfg : Cfg E) (c : Call E) (hh : ∀ d, cfg.x509.hashRc c.env d = .ok) :
    ∀ (fuel i off rem : Nat) (w w' : Walk), Sim w w' →
    (walk { cfg with caching := false } c fuel i off rem w).1 = .ok →
    (walk cfg c fuel i off rem w').1 = .ok ∧
    Sim (walk { cfg with caching := false } c fuel i off rem w).2
      (walk cfg c fuel i off rem w').2 := by
  intro fuel
  induction fuel with
  | zero => intro _ _ _ w w' h _; exact ⟨rfl, h⟩
  | succ fuel ih =>
    intro i off rem w w' h hok
    unfold walk at hok ⊢
    by_cases hr : rem = 0
    · simp only [if_pos hr]
      exact ⟨trivial, h⟩
    · simp only [if_neg hr] at hok ⊢
      cases hd : cfg.x509.derLen (c.bytes (5 * i) off rem) with
      | error rc =>
        rw [hd] at hok
        dsimp only at hok
        unfold errRc at hok
        split at hok
        · cases hok
        · next hne => exact absurd hok hne
      | ok k =>
        rw [hd] at hok
        dsimp only at hok ⊢
        by_cases hk : k + 2 > rem
        · rw [if_pos hk] at hok; cases hok
        · simp only [if_neg hk] at hok ⊢
          have hck : (checkCert { cfg with caching := false } c i off (k + 2) w).1 = .ok := by
            split at hok
            · next he => rw [he]
            · next hne he => exact absurd hok hne
          have hc := checkCert_sim cfg c i off (k + 2) hh h hck
          revert hc hok
          rcases he : checkCert { cfg with caching := false } c i off (k + 2) w with ⟨rc, d, w1⟩
          rcases he' : checkCert cfg c i off (k + 2) w' with ⟨rc', d', w1'⟩
          rw [he] at hck
          dsimp only at hck
          subst hck
          intro hok hc
          obtain ⟨hc1, hc2, hc3⟩ := hc
          dsimp only at hc1 hc2 hc3 hok ⊢
          subst hc1 hc2
          dsimp only at hok ⊢
          have haw : (accepted { cfg with caching := false } c i off (k + 2) none w1).1 = .ok := by
            split at hok
            · next he => rw [he]
            · next hne he => exact absurd hok hne
          have ha := accepted_sim cfg c i off (k + 2) d' hc3 haw
          revert ha hok
          rcases hf : accepted { cfg with caching := false } c i off (k + 2) none w1 with ⟨rc, w2⟩
          rcases hf' : accepted cfg c i off (k + 2) d' w1' with ⟨rc', w2'⟩
          rw [hf] at haw
          dsimp only at haw
          subst haw
          intro hok ha
          obtain ⟨ha1, ha2⟩ := ha
          dsimp only at ha1 ha2 hok ⊢
          subst ha1
          exact ih _ _ _ _ _ ha2 hok

theorem loadRoots_caching (cfg : Cfg E) (b : Bool) : ∀ (ids : List UInt16) (n : Nvm)
    (store : List Der) (loaded : List UInt16),
    loadRoots { cfg with caching := b } ids n store loaded = loadRoots cfg ids n store loaded := by
  intro ids
  induction ids with
  | nil => intros; rfl
  | cons r rs ih =>
    intro n store loaded
    unfold loadRoots
    simp only [ih]

theorem verifyMulti_sim {cfg : Cfg E} {s : State} {c : Call E} {n : Nat} {k : UInt16}
    (hh : ∀ d, cfg.x509.hashRc c.env d = .ok)
    (hok : (verifyMulti { cfg with caching := false } s c n k).1.1 = .ok) :
    (verifyMulti cfg s c n k).1 = (verifyMulti { cfg with caching := false } s c n k).1 ∧
    (verifyMulti cfg s c n k).2.sys = (verifyMulti { cfg with caching := false } s c n k).2.sys := by
  have hlc := loadRoots_caching cfg false c.roots s.sys.nvm [] []
  unfold verifyMulti at hok ⊢
  rw [hlc] at hok ⊢
  dsimp only at hok ⊢
  split
  · next h => rw [if_pos h] at hok; cases hok
  · next h0 =>
    rw [if_neg h0] at hok
    rcases hl : loadRoots cfg c.roots s.sys.nvm [] [] with ⟨⟨rc, store, loaded⟩, n1⟩
    rw [hl] at hok
    by_cases hrc : rc = .ok
    · subst hrc
      dsimp only at hok ⊢
      by_cases hne : loaded = []
      · rw [if_pos hne] at hok; cases hok
      · simp only [if_neg hne] at hok ⊢
        have hcc : ¬ (n = 0 ∨ loaded = []) := by
          rintro (h | h)
          · exact h0 (.inl h)
          · exact hne h
        unfold verifyChain at hok ⊢
        simp only [if_neg hcc] at hok ⊢
        have := walk_sim cfg { c with roots := loaded } hh n 0 0 n
          ⟨{ s with sys := { s.sys with nvm := n1 } }, store, k⟩
          ⟨{ s with sys := { s.sys with nvm := n1 } }, store, k⟩ ⟨rfl, rfl, rfl⟩
        revert this hok
        rcases walk { cfg with caching := false } { c with roots := loaded } n 0 0 n
          ⟨{ s with sys := { s.sys with nvm := n1 } }, store, k⟩ with ⟨rc, w⟩
        rcases walk cfg { c with roots := loaded } n 0 0 n
          ⟨{ s with sys := { s.sys with nvm := n1 } }, store, k⟩ with ⟨rc', w'⟩
        intro hok this
        by_cases hrc : rc = .ok
        · subst hrc
          obtain ⟨h1, h2⟩ := this rfl
          dsimp only at h1 h2 ⊢
          subst h1
          dsimp only
          exact ⟨by rw [h2.keyId], h2.sys⟩
        · exfalso
          split at hok
          · next he => exact hrc (congrArg Prod.fst he)
          · cases hok
    · exfalso
      split at hok
      · next he => exact hrc (congrArg (fun p => p.1.1) he)
      · next hx he =>
        exact hrc ((congrArg (fun p => p.1.1) he).trans hok)

/-! ## A disabled cache is no cache -/

theorem verifyBuffer_vc (cfg : Cfg E) (c : Call E) (w : Walk) (d : Der) :
    (verifyBuffer cfg c w d).2.st.vc = w.st.vc := by
  unfold verifyBuffer
  split <;> rfl

theorem verifyBuffer_caching (cfg : Cfg E) (b : Bool) (c : Call E) (w : Walk) (d : Der) :
    verifyBuffer { cfg with caching := b } c w d = verifyBuffer cfg c w d := rfl

theorem cacheLeaf_caching (cfg : Cfg E) (b : Bool) (c : Call E) (w : Walk) (d : Der) :
    cacheLeaf { cfg with caching := b } c d w = cacheLeaf cfg c d w := rfl

theorem accepted_caching (cfg : Cfg E) (b : Bool) (c : Call E) (i off len : Nat)
    (h : Option (List UInt8)) (w : Walk) :
    accepted { cfg with caching := b } c i off len h w = accepted cfg c i off len h w := rfl

theorem checkCert_disabled (cfg : Cfg E) (c : Call E) (i off len : Nat) (w : Walk)
    (hb : ∀ k, c.sched.before k = []) (he : w.st.vc.enabled = false) :
    checkCert cfg c i off len w = checkCert { cfg with caching := false } c i off len w ∧
    (checkCert cfg c i off len w).2.1 = none ∧
    (checkCert cfg c i off len w).2.2.st.vc = w.st.vc := by
  have hen : ∀ k v, c.sched.enter k v = v := fun k v => by simp [Sched.enter, hb k]
  unfold checkCert
  simp only [hen, he, Bool.false_eq_true, and_false, if_false, ite_self]
  exact ⟨rfl, trivial, verifyBuffer_vc ..⟩

theorem accepted_none_vc (cfg : Cfg E) (c : Call E) (i off len : Nat) (w : Walk) :
    (accepted cfg c i off len none w).2.st.vc = w.st.vc := by
  unfold accepted
  dsimp only
  repeat' split
  all_goals first | rfl | exact (leaf_frame cfg c _ w).1

theorem walk_disabled (cfg : Cfg E) (c : Call E) (hb : ∀ k, c.sched.before k = []) :
    ∀ (fuel i off rem : Nat) (w : Walk), w.st.vc.enabled = false →
    walk cfg c fuel i off rem w = walk { cfg with caching := false } c fuel i off rem w := by
  intro fuel
  induction fuel with
  | zero => intros; rfl
  | succ fuel ih =>
    intro i off rem w he
    unfold walk
    split
    · rfl
    · dsimp only
      split
      · rfl
      · next k _ =>
        split
        · rfl
        · have hc := checkCert_disabled cfg c i off (k + 2) w hb he
          rw [← hc.1]
          rcases hck : checkCert cfg c i off (k + 2) w with ⟨rc, d, w1⟩
          rw [hck] at hc
          obtain ⟨_, hc2, hc3⟩ := hc
          dsimp only at hc2 hc3
          subst hc2
          simp only [accepted_caching]
          have ha := accepted_none_vc cfg c i off (k + 2) w1
          rcases haw : accepted cfg c i off (k + 2) none w1 with ⟨rc2, w2⟩
          rw [haw] at ha
          dsimp only at ha
          have hi := ih (i + 1) (off + (k + 2)) (rem - (k + 2)) w2 (by rw [ha, hc3]; exact he)
          cases rc
          case ok =>
            simp only [haw]
            cases rc2 <;> first | exact hi | rfl
          all_goals rfl

theorem verifyMulti_disabled {cfg : Cfg E} {s : State} {c : Call E} {n : Nat} {k : UInt16}
    (hb : ∀ k, c.sched.before k = []) (he : s.vc.enabled = false) :
    verifyMulti cfg s c n k = verifyMulti { cfg with caching := false } s c n k := by
  have hlc := loadRoots_caching cfg false c.roots s.sys.nvm [] []
  unfold verifyMulti
  rw [hlc]
  dsimp only
  split
  · rfl
  · split
    · split
      · rfl
      · next store loaded n1 _ _ =>
        have : verifyChain cfg { c with roots := loaded } n
            ⟨{ s with sys := { s.sys with nvm := n1 } }, store, k⟩
          = verifyChain { cfg with caching := false } { c with roots := loaded } n
            ⟨{ s with sys := { s.sys with nvm := n1 } }, store, k⟩ := by
          unfold verifyChain
          split
          · rfl
          · exact walk_disabled cfg { c with roots := loaded } hb _ _ _ _ _ he
        rw [this]
    · rfl

end WolfHsm.Cert

import Verif.Spec.Auth
import Verif.Proofs.AuthCodec
import Verif.Proofs.Nvm

/-! # The user database in RAM and in NVM -/

namespace WolfHsm.Auth

open NvmFlash (Meta Store withLen)

/-! ## Identifiers -/

theorem credId_toNat {i : Nat} (h : i < maxUsers) : (credId i).toNat = 0xFE01 + i := by
  have : i < 5 := h
  simp only [credId, UInt16.toNat_add, UInt16.toNat_ofNat']
  rw [show (65025 : UInt16).toNat = 65025 from rfl]
  omega

theorem credId_inj {i j : Nat} (hi : i < maxUsers) (hj : j < maxUsers) (h : credId i = credId j) :
    i = j := by
  have := congrArg UInt16.toNat h
  rw [credId_toNat hi, credId_toNat hj] at this
  omega

theorem credId_ne_index {i : Nat} (h : i < maxUsers) : credId i ≠ indexId := by
  intro e
  have := congrArg UInt16.toNat e
  rw [credId_toNat h, show indexId.toNat = 65024 from rfl] at this
  omega

theorem reserved_index : reserved indexId = true := by decide
theorem reserved_cred {i : Nat} (h : i < maxUsers) : reserved (credId i) = true := by
  have : i < 5 := h
  simp only [reserved, credId_toNat h, decide_eq_true_eq]
  omega

theorem upd_self {α : Type} (f : Nat → α) (i : Nat) (v : α) : upd f i v i = v := by simp [upd]
theorem upd_ne {α : Type} {f : Nat → α} {i j : Nat} {v : α} (h : j ≠ i) : upd f i v j = f j := by
  simp [upd, h]
theorem upd_upd {α : Type} (f : Nat → α) (i : Nat) (v w : α) : upd (upd f i v) i w = upd f i w := by
  funext j; simp only [upd]; split <;> rfl
theorem upd_eq {α : Type} {f : Nat → α} {i : Nat} {v : α} (h : f i = v) : upd f i v = f := by
  funext j; simp only [upd]; split
  · rename_i e; rw [e, h]
  · rfl

/-! ## NVM calls with at most one failure at a time -/

/-- What the NVM must be like for the persistence theorems. -/
structure Safe (n : Nvm) : Prop where
  spaced : Spaced n.outs
  pending : n.pending = none

/-- The next two backend calls do not fail. -/
def Calm (n : Nvm) : Prop :=
  (∀ rc a, n.outs n.tick ≠ .fail rc a) ∧ (∀ rc a, n.outs (n.tick + 1) ≠ .fail rc a)

theorem destroy_safe {n : Nvm} (hs : Safe n) (hp : n.powered = true) (ids : List UInt16)
    {P : Rc × Nvm → Prop}
    (hok : ∀ n', Safe n' → n'.outs = n.outs → n'.powered = true → n'.tick = n.tick + 1 →
      n'.store = n.store.drop ids → P (.ok, n'))
    (hfail : ∀ rc n', rc ≠ .ok → Safe n' → n'.outs = n.outs → n'.powered = true →
      n'.store = n.store → Calm n' → ¬ Calm n → P (rc, n'))
    (hcut : ∀ n', Safe n' → n'.outs = n.outs → n'.powered = false →
      n'.store = n.store ∨ n'.store = n.store.drop ids → P (.aborted, n')) :
    P (n.destroy ids) := by
  unfold Nvm.destroy
  rw [if_pos hp]
  split
  · split
    · rename_i h
      refine hok _ ⟨hs.spaced, hs.pending⟩ rfl hp rfl ?_
      funext id
      unfold NvmFlash.Store.drop
      split
      · rename_i hi
        have := List.all_eq_true.mp h id hi
        simpa using this
      · rfl
    · exact hok _ ⟨hs.spaced, rfl⟩ rfl hp rfl rfl
  · rename_i h; exact absurd (hs.spaced _ _ _ h).1 (by simp)
  · rename_i h
    refine hfail _ _ (errRc_ne_ok _) ⟨hs.spaced, hs.pending⟩ rfl hp rfl ?_ (fun c => c.1 _ _ h)
    exact (hs.spaced _ _ _ h).2
  · exact hcut _ ⟨hs.spaced, rfl⟩ rfl rfl (Or.inr rfl)
  · exact hcut _ ⟨hs.spaced, hs.pending⟩ rfl rfl (Or.inl rfl)

theorem add_safe {n : Nvm} (hs : Safe n) (hp : n.powered = true) (md : Meta) (data : List UInt8)
    {P : Rc × Nvm → Prop}
    (hok : ∀ n', Safe n' → n'.outs = n.outs → n'.powered = true →
      n'.store = n.store.set md data → P (.ok, n'))
    (hfail : ∀ rc n', rc ≠ .ok → Safe n' → n'.outs = n.outs → n'.powered = true →
      n'.store = n.store → Calm n' → (∃ rc a, n.outs n.tick = .fail rc a) → P (rc, n'))
    (hcut : ∀ n', Safe n' → n'.outs = n.outs → n'.powered = false →
      n'.store = n.store ∨ n'.store = n.store.set md data → P (.aborted, n')) :
    P (n.add md data) := by
  unfold Nvm.add
  rw [if_pos hp]
  split
  · exact hok _ ⟨hs.spaced, rfl⟩ rfl hp rfl
  · rename_i h; exact absurd (hs.spaced _ _ _ h).1 (by simp)
  · rename_i h
    exact hfail _ _ (errRc_ne_ok _) ⟨hs.spaced, hs.pending⟩ rfl hp rfl (hs.spaced _ _ _ h).2 ⟨_, _, h⟩
  · exact hcut _ ⟨hs.spaced, rfl⟩ rfl rfl (Or.inr rfl)
  · exact hcut _ ⟨hs.spaced, hs.pending⟩ rfl rfl (Or.inl rfl)

theorem addWithReclaim_safe {n : Nvm} (hs : Safe n) (hp : n.powered = true) (md : Meta)
    (data : List UInt8) {P : Rc × Nvm → Prop}
    (hok : ∀ n', Safe n' → n'.outs = n.outs → n'.powered = true →
      n'.store = n.store.set md data → P (.ok, n'))
    (hfail : ∀ rc n', rc ≠ .ok → Safe n' → n'.outs = n.outs → n'.powered = true →
      n'.store = n.store → Calm n' → ¬ Calm n → P (rc, n'))
    (hcut : ∀ n', Safe n' → n'.outs = n.outs → n'.powered = false →
      n'.store = n.store ∨ n'.store = n.store.set md data → P (.aborted, n')) :
    P (n.addWithReclaim md data) := by
  unfold Nvm.addWithReclaim
  refine destroy_safe hs hp [] (P := fun p => P (match p with
    | (.ok, n') => n'.add md data
    | (rc, n') => (rc, n'))) ?_ ?_ ?_
  · intro n1 h1 h2 h3 h4 h5
    rw [Nvm.drop_nil] at h5
    refine add_safe h1 h3 md data ?_ ?_ ?_
    · intro n' a b c d; exact hok n' a (by rw [b, h2]) c (by rw [d, h5])
    · intro rc n' a b c d e f g
      refine hfail rc n' a b (by rw [c, h2]) d (by rw [e, h5]) f ?_
      obtain ⟨r, x, g⟩ := g
      intro calm
      rw [h2, h4] at g
      exact calm.2 _ _ g
    · intro n' a b c d; exact hcut n' a (by rw [b, h2]) c (by rw [← h5]; exact d)
  · intro rc n' hrc h1 h2 h3 h4 h5 h6
    cases rc <;> first | exact absurd rfl hrc | exact hfail _ n' (by simp) h1 h2 h3 h4 h5 h6
  · intro n' h1 h2 h3 h4
    rw [Nvm.drop_nil] at h4
    exact hcut n' h1 h2 h3 (Or.inl (by cases h4 <;> assumption))

theorem read_safe {n : Nvm} (hs : Safe n) (hp : n.powered = true) (id : UInt16) (off len : Nat)
    {P : (Rc × List UInt8) × Nvm → Prop}
    (hok : ∀ n', Safe n' → n'.outs = n.outs → n'.powered = true → n'.store = n.store →
      P (n.store.slice id off len, n'))
    (hfail : ∀ rc n', rc ≠ .ok → Safe n' → n'.outs = n.outs → n'.powered = true →
      n'.store = n.store → P ((rc, []), n'))
    (hcut : ∀ n', Safe n' → n'.outs = n.outs → n'.powered = false → n'.store = n.store →
      P ((.aborted, []), n')) :
    P (n.read id off len) := by
  unfold Nvm.read
  rw [if_pos hp]
  split
  · exact hok _ ⟨hs.spaced, hs.pending⟩ rfl hp rfl
  · exact hfail _ _ (errRc_ne_ok _) ⟨hs.spaced, hs.pending⟩ rfl hp rfl
  · exact hcut _ ⟨hs.spaced, hs.pending⟩ rfl rfl rfl

/-! ## Well-formed databases -/

/-- A table entry and the credential object of its slot. -/
structure SlotOk (st : Store) (i : Nat) (u : Slot) : Prop where
  name : NameOk u.name
  free : u.id = 0 → u = Slot.empty
  used : u.id ≠ 0 → u.id = UInt16.ofNat (i + 1) ∧ u.name ≠ [] ∧ u.perms.keyIdCount.toNat ≤ maxKeyIds
  bare : u.id ≠ 0 → u.credLen = 0 → u.method = mNone ∧ st (credId i) = none
  cred : u.id ≠ 0 → u.credLen ≠ 0 → u.credLen ≤ maxCred ∧ (u.method = mPin ∨ u.method = mCert) ∧
    ∃ data, data.length = u.credLen ∧ st (credId i) = some (credMeta i u.method u.credLen, data)

/-- All entries. -/
def Wf (st : Store) (us : Nat → Slot) : Prop := ∀ i, i < maxUsers → SlotOk st i (us i)

/-- The index object describes the table. -/
def Idx (st : Store) (us : Nat → Slot) : Prop :=
  (st indexId = none ∧ ∀ i, i < maxUsers → (us i).id = 0) ∨ st indexId = some (indexMeta, encIndex us)

/-- The store holds the database of the table. -/
structure Match (st : Store) (us : Nat → Slot) : Prop where
  idx : Idx st us
  wf : Wf st us

/-- Only the credential object of the slot matters. -/
theorem SlotOk.store {st st' : Store} {i : Nat} {u : Slot} (h : SlotOk st i u)
    (e : st' (credId i) = st (credId i)) : SlotOk st' i u :=
  ⟨h.name, h.free, h.used, by rw [e]; exact h.bare, by rw [e]; exact h.cred⟩

/-- A free slot is well formed over any store. -/
theorem SlotOk.empty (st : Store) (i : Nat) : SlotOk st i Slot.empty :=
  ⟨⟨by simp [Slot.empty], by simp [Slot.empty]⟩, fun _ => rfl, fun h => absurd rfl h,
    fun h => absurd rfl h, fun h => absurd rfl h⟩

theorem flatMap_congr' {α β : Type} {f g : α → List β} :
    ∀ {l : List α}, (∀ a ∈ l, f a = g a) → l.flatMap f = l.flatMap g
  | [], _ => rfl
  | a :: l, h => by
    rw [List.flatMap_cons, List.flatMap_cons, h a (by simp),
      flatMap_congr' (fun b hb => h b (by simp [hb]))]

/-- The index depends on ids, names and permissions only. -/
theorem encIndex_congr {us us' : Nat → Slot}
    (h : ∀ i, i < maxUsers → (us' i).id = (us i).id ∧ (us' i).name = (us i).name ∧
      (us' i).perms = (us i).perms) : encIndex us' = encIndex us := by
  unfold encIndex
  congr 1
  apply flatMap_congr'
  intro i hi
  obtain ⟨a, b, c⟩ := h i (by simpa using hi)
  simp only [encUser, a, b, c]

theorem Idx.congr {st st' : Store} {us us' : Nat → Slot} (h : Idx st us)
    (e : st' indexId = st indexId)
    (hu : ∀ i, i < maxUsers → (us' i).id = (us i).id ∧ (us' i).name = (us i).name ∧
      (us' i).perms = (us i).perms) : Idx st' us' := by
  cases h with
  | inl h => exact Or.inl ⟨by rw [e, h.1], fun i hi => by rw [(hu i hi).1, h.2 i hi]⟩
  | inr h => exact Or.inr (by rw [e, h, encIndex_congr hu])

theorem Wf.upd {st : Store} {us : Nat → Slot} {i : Nat} {u : Slot} (h : Wf st us)
    (hu : SlotOk st i u) : Wf st (upd us i u) := by
  intro j hj
  by_cases e : j = i
  · subst e; rw [upd_self]; exact hu
  · rw [upd_ne e]; exact h j hj

/-- Writing the index makes the store match the table. -/
theorem Match.writeIndex {st : Store} {us : Nat → Slot} (h : Wf st us) :
    Match (st.set indexMeta (encIndex us)) us := by
  refine ⟨Or.inr ?_, ?_⟩
  · have hl := encIndex_length (fun i hi => (h i hi).name)
    simp only [NvmFlash.Store.set, show indexMeta.id = indexId from rfl, if_true, withLen, hl]
    rfl
  · intro i hi
    refine (h i hi).store ?_
    simp only [NvmFlash.Store.set, show indexMeta.id = indexId from rfl, if_neg (credId_ne_index hi)]

theorem set_cred_self (st : Store) (i : Nat) (m : UInt16) (data : List UInt8) :
    (st.set (credMeta i m data.length) data) (credId i) =
      some (credMeta i m data.length, data) := by
  simp only [NvmFlash.Store.set, show (credMeta i m data.length).id = credId i from rfl, if_true,
    withLen]
  rfl

theorem set_cred_other {st : Store} {i j : Nat} (hi : i < maxUsers) (hj : j < maxUsers) (h : j ≠ i)
    (m : UInt16) (data : List UInt8) :
    (st.set (credMeta i m data.length) data) (credId j) = st (credId j) := by
  simp only [NvmFlash.Store.set, show (credMeta i m data.length).id = credId i from rfl]
  rw [if_neg (fun e => h (credId_inj hj hi e))]

theorem set_cred_index {st : Store} {i : Nat} (hi : i < maxUsers) (m : UInt16) (data : List UInt8) :
    (st.set (credMeta i m data.length) data) indexId = st indexId := by
  simp only [NvmFlash.Store.set, show (credMeta i m data.length).id = credId i from rfl]
  rw [if_neg (fun e => credId_ne_index hi e.symm)]

theorem drop_cred_self (st : Store) (i : Nat) : (st.drop [credId i]) (credId i) = none := by
  simp [NvmFlash.Store.drop]

theorem drop_cred_other {st : Store} {i j : Nat} (hi : i < maxUsers) (hj : j < maxUsers) (h : j ≠ i) :
    (st.drop [credId i]) (credId j) = st (credId j) := by
  simp only [NvmFlash.Store.drop, List.mem_singleton]
  rw [if_neg (fun e => h (credId_inj hj hi e))]

theorem drop_cred_index {st : Store} {i : Nat} (hi : i < maxUsers) :
    (st.drop [credId i]) indexId = st indexId := by
  simp only [NvmFlash.Store.drop, List.mem_singleton]
  rw [if_neg (fun e => credId_ne_index hi e.symm)]

theorem set_index_cred {st : Store} {i : Nat} (hi : i < maxUsers) (d : List UInt8) :
    (st.set indexMeta d) (credId i) = st (credId i) := by
  simp only [NvmFlash.Store.set, show indexMeta.id = indexId from rfl, if_neg (credId_ne_index hi)]

/-- A change of the credential object of a free slot is invisible. -/
theorem Match.free {st st' : Store} {us : Nat → Slot} {i : Nat} (h : Match st us)
    (hfree : (us i).id = 0) (hidx : st' indexId = st indexId)
    (hoth : ∀ j, j < maxUsers → j ≠ i → st' (credId j) = st (credId j)) : Match st' us := by
  refine ⟨h.idx.congr hidx (fun _ _ => ⟨rfl, rfl, rfl⟩), ?_⟩
  intro j hj
  by_cases e : j = i
  · subst e
    rw [(h.wf j hj).free hfree]
    exact SlotOk.empty _ _
  · exact (h.wf j hj).store (hoth j hj e)

/-! ## Views -/

theorem viewOf_congr {st st' : Store} {us us' : Nat → Slot}
    (h : ∀ i, i < maxUsers → (us' i).id = (us i).id ∧ ((us i).id ≠ 0 →
      (us' i).name = (us i).name ∧ (us' i).perms = (us i).perms ∧ (us' i).method = (us i).method ∧
      (us' i).credLen = (us i).credLen ∧ st' (credId i) = st (credId i))) :
    viewOf st' us' = viewOf st us := by
  funext i
  unfold viewOf
  by_cases hi : i < maxUsers
  · obtain ⟨a, b⟩ := h i hi
    by_cases hz : (us i).id = 0
    · rw [if_neg (by rw [a]; simp [hz]), if_neg (by simp [hz])]
    · obtain ⟨b1, b2, b3, b4, b5⟩ := b hz
      rw [if_pos ⟨hi, by rw [a]; exact hz⟩, if_pos ⟨hi, hz⟩, b1, b2, b3]
      simp only [credOf, b4, b5]
  · rw [if_neg (fun e => hi e.1), if_neg (fun e => hi e.1)]

theorem viewOf_none {st : Store} {us : Nat → Slot} {i : Nat} (h : (us i).id = 0) :
    viewOf st us i = none := by
  unfold viewOf; rw [if_neg (by simp [h])]

theorem viewOf_some {st : Store} {us : Nat → Slot} {i : Nat} (hi : i < maxUsers) (h : (us i).id ≠ 0) :
    viewOf st us i = some ⟨(us i).name, (us i).perms, (us i).method, credOf st (us i) i⟩ := by
  unfold viewOf; rw [if_pos ⟨hi, h⟩]

/-- Changing one entry. -/
theorem viewOf_upd {st st' : Store} {us us' : Nat → Slot} {i : Nat} {r : Option Rec}
    (hi : viewOf st' us' i = r)
    (ho : ∀ j, j < maxUsers → j ≠ i → us' j = us j ∧ st' (credId j) = st (credId j)) :
    viewOf st' us' = upd (viewOf st us) i r := by
  funext j
  by_cases e : j = i
  · subst e; rw [upd_self, hi]
  · rw [upd_ne e]
    unfold viewOf
    by_cases hj : j < maxUsers
    · obtain ⟨a, b⟩ := ho j hj e
      simp only [credOf, a, b]
    · rw [if_neg (fun e => hj e.1), if_neg (fun e => hj e.1)]

/-! ## Loading -/

/-- The table as it is after a restart. -/
def fresh (us : Nat → Slot) : Nat → Slot := fun i =>
  if i < maxUsers then { us i with active := false } else Slot.empty

theorem loadSlot_match {n : Nvm} {us : Nat → Slot} (h : Wf n.store us) {i : Nat} (hi : i < maxUsers) :
    loadSlot n (encIndex us) i = .ok { us i with active := false } := by
  have hs := h i hi
  unfold loadSlot
  rw [encIndex_slot (fun j hj => (h j hj).name) hi, decUser_encUser hs.name]
  dsimp only
  by_cases hz : (us i).id = 0
  · have := hs.free hz
    rw [if_pos hz, this]
    rfl
  · obtain ⟨u1, u2, u3⟩ := hs.used hz
    have u3' : ¬ (us i).perms.keyIdCount.toNat > maxKeyIds := by omega
    rw [if_neg hz, if_neg (by simp only [ne_eq, not_or]; exact ⟨fun e => e u1, u3'⟩)]
    by_cases hc : (us i).credLen = 0
    · obtain ⟨b1, b2⟩ := hs.bare hz hc
      rw [Nvm.metadata_none b2]
      dsimp only
      rw [← b1, ← hc]
    · obtain ⟨c1, c2, data, c3, c4⟩ := hs.cred hz hc
      have hlen : (credMeta i (us i).method (us i).credLen).len.toNat = (us i).credLen := by
        simp only [credMeta, UInt16.toNat_ofNat']
        have : (us i).credLen ≤ 2048 := c1
        omega
      have hm : labelMethod (credMeta i (us i).method (us i).credLen) = (us i).method := by
        simp only [labelMethod, credMeta, Vector.getElem_set_self]
        cases c2 with
        | inl c2 => rw [c2]; rfl
        | inr c2 => rw [c2]; rfl
      rw [Nvm.metadata_some c4]
      dsimp only
      rw [hlen, hm, if_neg]
      rintro (e | e | e)
      · exact hc e
      · omega
      · cases c2 with
        | inl c2 => exact e.1 c2
        | inr c2 => exact e.2 c2

theorem loadSlots_match {n : Nvm} {us : Nat → Slot} (h : Wf n.store us) :
    ∀ k, k ≤ maxUsers → loadSlots n (encIndex us) k =
      .ok fun i => if i < k then { us i with active := false } else Slot.empty
  | 0, _ => by
    simp only [loadSlots]
    congr 1
  | k + 1, hk => by
    simp only [loadSlots, loadSlots_match h k (by omega), loadSlot_match h (i := k) (by omega)]
    congr 1
    funext j
    unfold upd
    by_cases e : j = k
    · subst e; simp
    · rw [if_neg e]
      dsimp only
      by_cases h' : j < k
      · rw [if_pos h', if_pos (by omega)]
      · rw [if_neg h', if_neg (by omega)]

/-- Loading a matching store gives the table back, or the read of the index fails. -/
theorem loadFromNvm_match {n : Nvm} {us : Nat → Slot} (hs : Safe n) (hp : n.powered = true)
    (h : Match n.store us) {P : Except Rc (Nat → Slot) × Nvm → Prop}
    (hok : ∀ n', Safe n' → n'.outs = n.outs → n'.powered = true → n'.store = n.store →
      P (.ok (fresh us), n'))
    (hfail : ∀ rc n', Safe n' → n'.outs = n.outs → n'.store = n.store →
      (∃ t, n.outs t ≠ .ok) → P (.error rc, n')) :
    P (loadFromNvm n) := by
  unfold loadFromNvm
  cases h.idx with
  | inl e =>
    rw [Nvm.metadata_none e.1]
    dsimp only
    have : (fun _ => Slot.empty : Nat → Slot) = fresh us := by
      funext i
      unfold fresh
      by_cases hi : i < maxUsers
      · rw [if_pos hi, (h.wf i hi).free (e.2 i hi)]; rfl
      · rw [if_neg hi]
    rw [this]
    exact hok n hs rfl hp rfl
  | inr e =>
    rw [Nvm.metadata_some e]
    dsimp only
    rw [if_pos (show indexMeta.len.toNat = indexLen from by decide)]
    have hl := encIndex_length (fun i hi => (h.wf i hi).name)
    have hslice : n.store.slice indexId 0 indexLen = (.ok, encIndex us) := by
      unfold NvmFlash.Store.slice
      rw [e]
      dsimp only
      rw [if_pos (by rw [hl]; exact ⟨by decide, by decide⟩), List.drop_zero, ← hl, List.take_length]
    unfold Nvm.read
    rw [if_pos hp]
    cases ho : n.outs n.tick with
    | ok =>
      dsimp only
      rw [hslice]
      dsimp only
      rw [if_neg (by rw [encIndex_magic]; simp)]
      have := loadSlots_match (n := { n with tick := n.tick + 1 }) (us := us) h.wf maxUsers
        (Nat.le_refl _)
      rw [this]
      exact hok _ ⟨hs.spaced, hs.pending⟩ rfl hp rfl
    | fail rc a =>
      dsimp only
      have hne := errRc_ne_ok rc
      generalize errRc rc = r at *
      cases r <;> first
        | exact absurd rfl hne
        | exact hfail _ _ ⟨hs.spaced, hs.pending⟩ rfl rfl ⟨n.tick, by rw [ho]; simp⟩
    | cut a =>
      exact hfail _ _ ⟨hs.spaced, hs.pending⟩ rfl rfl ⟨n.tick, by rw [ho]; simp⟩

theorem Match.fresh {st : Store} {us : Nat → Slot} (h : Match st us) : Match st (fresh us) := by
  have hf : ∀ i, i < maxUsers → Auth.fresh us i = { us i with active := false } := by
    intro i hi; unfold Auth.fresh; rw [if_pos hi]
  refine ⟨h.idx.congr rfl (fun i hi => by rw [hf i hi]; exact ⟨rfl, rfl, rfl⟩), ?_⟩
  intro i hi
  rw [hf i hi]
  have hs := h.wf i hi
  refine ⟨hs.name, ?_, hs.used, hs.bare, hs.cred⟩
  intro hz
  have := hs.free hz
  rw [this]; rfl

theorem viewOf_fresh (st : Store) (us : Nat → Slot) : viewOf st (fresh us) = viewOf st us := by
  apply viewOf_congr
  intro i hi
  unfold fresh
  rw [if_pos hi]
  exact ⟨rfl, fun _ => ⟨rfl, rfl, rfl, rfl, rfl⟩⟩

end WolfHsm.Auth

import Verif.Spec.Counter
import Verif.Proofs.Nvm
import Verif.Proofs.KeyId
import Mathlib.Tactic.IntervalCases

/-! # Lemmas about counters -/

namespace WolfHsm.Counter

open NvmFlash (Meta Store withLen)

theorem bytes32 (v : UInt32) :
    v.toUInt8.toUInt32 ||| ((v >>> 8).toUInt8.toUInt32 <<< 8) |||
      ((v >>> 16).toUInt8.toUInt32 <<< 16) ||| ((v >>> 24).toUInt8.toUInt32 <<< 24) = v := by
  apply UInt32.eq_of_toBitVec_eq
  apply BitVec.eq_of_getLsbD_eq
  intro i hi
  simp only [UInt32.toBitVec_or, UInt32.toBitVec_shiftLeft, UInt32.toBitVec_shiftRight,
    UInt8.toBitVec_toUInt32, UInt32.toBitVec_toUInt8]
  interval_cases i <;> simp

theorem get_put (md : Meta) (v : UInt32) : get (put md v) = v := by
  simp only [get, put]
  simp
  exact bytes32 v

theorem get_withLen (md : Meta) (d : List UInt8) : get (withLen md d) = get md := rfl
theorem put_id (md : Meta) (v : UInt32) : (put md v).id = md.id := rfl

/-- Stored objects carry their id. -/
def IdsOk (f : Store) : Prop := ∀ id md bs, f id = some (md, bs) → md.id = id

theorem IdsOk.set {f : Store} (h : IdsOk f) (md : Meta) (d : List UInt8) : IdsOk (f.set md d) := by
  intro id md' bs hs
  unfold Store.set at hs
  split at hs
  · simp only [Option.some.injEq, Prod.mk.injEq] at hs
    rw [← hs.1]; simp [withLen]; rename_i h; exact h.symm
  · exact h id md' bs hs

theorem IdsOk.drop {f : Store} (h : IdsOk f) (ids : List UInt16) : IdsOk (f.drop ids) := by
  intro id md' bs hs
  unfold Store.drop at hs
  split at hs
  · cases hs
  · exact h id md' bs hs

theorem name_eq_of_key {c1 c2 a b : UInt16} (h : keyOf c1 a = keyOf c2 b) :
    c1.toNat % 16 = c2.toNat % 16 ∧ a.toNat % 256 = b.toNat % 256 := by
  have hu := congrArg KeyId.userOf h
  have hi := congrArg KeyId.idOf h
  unfold keyOf at hu hi
  rw [KeyId.userOf_make, KeyId.userOf_make] at hu
  rw [KeyId.idOf_make, KeyId.idOf_make] at hi
  have e1 : ∀ x : UInt16, (x &&& 0xF).toNat = x.toNat % 16 := by
    intro x; rw [UInt16.toNat_and]; exact Nat.and_two_pow_sub_one_eq_mod _ 4
  have e2 : ∀ x : UInt16, (x &&& 0xFF).toNat = x.toNat % 256 := by
    intro x; rw [UInt16.toNat_and]; exact Nat.and_two_pow_sub_one_eq_mod _ 8
  exact ⟨by rw [← e1, ← e1, hu], by rw [← e2, ← e2, hi]⟩

theorem key_eq_of_name {c1 c2 a b : UInt16} (h1 : c1.toNat % 16 = c2.toNat % 16)
    (h2 : a.toNat % 256 = b.toNat % 256) : keyOf c1 a = keyOf c2 b := by
  have e1 : ∀ x : UInt16, (x &&& 0xF).toNat = x.toNat % 16 := by
    intro x; rw [UInt16.toNat_and]; exact Nat.and_two_pow_sub_one_eq_mod _ 4
  have e2 : ∀ x : UInt16, (x &&& 0xFF).toNat = x.toNat % 256 := by
    intro x; rw [UInt16.toNat_and]; exact Nat.and_two_pow_sub_one_eq_mod _ 8
  apply KeyId.ext_fields <;> unfold keyOf
  · rw [KeyId.typeOf_make, KeyId.typeOf_make]
  · rw [KeyId.userOf_make, KeyId.userOf_make]; apply UInt16.toNat_inj.mp; rw [e1, e1, h1]
  · rw [KeyId.idOf_make, KeyId.idOf_make]; apply UInt16.toNat_inj.mp; rw [e2, e2, h2]

/-- Everything that can happen to the object under `key` in one event that does not reset
it: nothing (or a pending object of the same event shows up). -/
structure J (key : UInt16) (lo : UInt32) (n : Nvm) : Prop where
  ids : IdsOk n.store
  cur : ∀ md bs, n.store key = some (md, bs) → lo ≤ get md
  pend : ∀ pm pd, n.pending = some (pm, pd) → pm.id = key →
    lo ≤ get pm ∧ ∀ md bs, n.store key = some (md, bs) → get md ≤ get pm

theorem J.mono {key : UInt16} {lo lo' : UInt32} {n : Nvm} (h : J key lo n) (hl : lo' ≤ lo) :
    J key lo' n :=
  ⟨h.ids, fun md bs hs => UInt32.le_trans hl (h.cur md bs hs), fun pm pd hp hi =>
    ⟨UInt32.le_trans hl (h.pend pm pd hp hi).1, (h.pend pm pd hp hi).2⟩⟩

theorem J.keep {key : UInt16} {lo : UInt32} {n n' : Nvm} (h : J key lo n)
    (hs : n'.store = n.store) (hp : n'.pending = n.pending ∨ n'.pending = none) : J key lo n' := by
  refine ⟨by rw [hs]; exact h.ids, by rw [hs]; exact h.cur, ?_⟩
  intro pm pd hpm hi
  rcases hp with hp | hp
  · rw [hp] at hpm; rw [hs]; exact h.pend pm pd hpm hi
  · rw [hp] at hpm; cases hpm

theorem J.setOther {key : UInt16} {lo : UInt32} {n n' : Nvm} (h : J key lo n) {md : Meta}
    {d : List UInt8} (hne : md.id ≠ key) (hs : n'.store = n.store.set md d)
    (hp : n'.pending = none) : J key lo n' := by
  refine ⟨by rw [hs]; exact h.ids.set _ _, ?_, by intro pm pd hc; rw [hp] at hc; cases hc⟩
  intro md' bs hm
  rw [hs, NvmServer.set_other hne] at hm
  exact h.cur md' bs hm

theorem J.setSame {key : UInt16} {lo v : UInt32} {n n' : Nvm} (h : J key lo n) {md : Meta}
    {d : List UInt8} (he : md.id = key) (hv : v ≤ get md) (hs : n'.store = n.store.set md d)
    (hp : n'.pending = none) : J key v n' := by
  refine ⟨by rw [hs]; exact h.ids.set _ _, ?_, by intro pm pd hc; rw [hp] at hc; cases hc⟩
  intro md' bs hm
  rw [hs] at hm
  simp only [Store.set, he, if_true, Option.some.injEq, Prod.mk.injEq] at hm
  rw [← hm.1, get_withLen]; exact hv

theorem J.restart {key : UInt16} {lo : UInt32} {n : Nvm} (h : J key lo n) (b : Bool) :
    J key lo (n.restart b) := by
  refine Nvm.restart_cases n b (P := J key lo) ?_ ?_
  · intro n' a b _; exact h.keep a (Or.inr b)
  · intro md d n' hp a b _
    by_cases hk : md.id = key
    · exact h.setSame hk (h.pend md d hp hk).1 a b
    · exact h.setOther hk a b

/-- Writing another key with reclaim. -/
theorem J.addOther {key : UInt16} {lo : UInt32} {n : Nvm} (h : J key lo n) {md : Meta}
    {d : List UInt8} (hne : md.id ≠ key) : J key lo (n.addWithReclaim md d).2 := by
  refine Nvm.addWithReclaim_cases n md d (P := fun p => J key lo p.2) ?_ ?_ ?_ ?_
  · intro n' a b _; exact h.setOther hne a b
  · intro n' a b _; exact h.setOther hne a b
  · intro _ n' _ a b
    refine ⟨by rw [a]; exact h.ids, by rw [a]; exact h.cur, ?_⟩
    intro pm pd hp hi
    rw [b] at hp; cases hp; exact absurd hi hne
  · intro _ n' _ a b; exact h.keep a b

theorem J.destroyOther {key : UInt16} {lo : UInt32} {n : Nvm} (h : J key lo n) {ids : List UInt16}
    (hne : key ∉ ids) : J key lo (n.destroy ids).2 := by
  have hd : ∀ n' : Nvm, n'.store = n.store.drop ids → n'.pending = none → J key lo n' := by
    intro n' a b
    refine ⟨by rw [a]; exact h.ids.drop _, ?_, by intro pm pd hc; rw [b] at hc; cases hc⟩
    intro md bs hm
    rw [a, NvmServer.drop_other hne] at hm
    exact h.cur md bs hm
  refine Nvm.destroy_cases n ids (P := fun p => J key lo p.2) ?_ ?_ ?_ ?_
  · intro n' a b; exact hd n' a b
  · intro n' _ a b; exact h.keep a (Or.inl b)
  · intro _ n' _ a b; exact hd n' a b
  · intro _ n' _ a b; exact h.keep a (Or.inl b)

theorem initCounter_snd (n : Nvm) (key : UInt16) (v : UInt32) :
    (initCounter n key v).2 = (n.addWithReclaim (put (blankMeta key) v) []).2 := by
  unfold initCounter
  split <;> rename_i h <;> rw [h]

/-- What an increment does when the counter exists. -/
theorem increment_cases {n : Nvm} {key : UInt16} {md : Meta} {bs : List UInt8}
    (hm : n.store key = some (md, bs)) {P : Resp × Nvm → Prop}
    (hsat : get md = 0xFFFFFFFF → P (⟨.ok, 0xFFFFFFFF⟩, n))
    (hok : ∀ n', get md ≠ 0xFFFFFFFF → n'.store = n.store.set (put md (get md + 1)) [] →
      n'.pending = none → n'.powered = true → P (⟨.ok, get md + 1⟩, n'))
    (hcut : ∀ n', get md ≠ 0xFFFFFFFF → n'.store = n.store.set (put md (get md + 1)) [] →
      n'.pending = none → n'.powered = false → P (⟨.aborted, 0⟩, n'))
    (hpend : ∀ rc n', get md ≠ 0xFFFFFFFF → rc ≠ .ok → n'.store = n.store →
      n'.pending = some (put md (get md + 1), []) → P (⟨rc, 0⟩, n'))
    (hnop : ∀ rc n', rc ≠ .ok → n'.store = n.store →
      n'.pending = n.pending ∨ n'.pending = none → P (⟨rc, 0⟩, n')) :
    P (increment n key) := by
  have hz : get md + 1 = 0 ↔ get md = 0xFFFFFFFF := by
    constructor
    · intro h
      have : get md + 1 - 1 = 0 - 1 := by rw [h]
      rw [UInt32.add_sub_cancel] at this
      rw [this]; rfl
    · intro h; rw [h]; rfl
  unfold increment
  rw [Nvm.metadata_some hm]
  simp only [bump]
  by_cases h0 : get md + 1 = 0
  · simp only [h0, if_true]; exact hsat (hz.mp h0)
  · have h1 : get md ≠ 0xFFFFFFFF := fun h => h0 (hz.mpr h)
    simp only [h0, if_false]
    refine Nvm.addWithReclaim_cases n (put md (get md + 1)) [] (P := fun p => P (match p with
      | (.ok, n') => (⟨.ok, get md + 1⟩, n')
      | (rc, n') => (⟨rc, 0⟩, n'))) ?_ ?_ ?_ ?_
    · intro n' a b c; exact hok n' h1 a b c
    · intro n' a b c; exact hcut n' h1 a b c
    · intro rc n' a b c
      have := hpend rc n' h1 a b c
      cases rc <;> first | exact absurd rfl a | exact this
    · intro rc n' a b c
      have := hnop rc n' a b c
      cases rc <;> first | exact absurd rfl a | exact this

theorem increment_none {n : Nvm} {key : UInt16} (h : n.store key = none) :
    increment n key = (⟨.notfound, 0⟩, n) := by
  unfold increment; rw [Nvm.metadata_none h]

theorem value_congr {n n' : Nvm} {client cid : UInt16}
    (h : n'.store (keyOf client cid) = n.store (keyOf client cid)) :
    value n' client cid = value n client cid := by
  have : readCounter n' (keyOf client cid) = readCounter n (keyOf client cid) := by
    simp [readCounter, Nvm.metadata, Store.info, h]
  unfold value
  rw [this]

theorem succ_le {x : UInt32} (h : x ≠ 0xFFFFFFFF) : (x + 1).toNat = x.toNat + 1 := by
  have : x.toNat ≠ 4294967295 := by
    intro hc; apply h; apply UInt32.toNat_inj.mp; rw [hc]; rfl
  have := x.toNat_lt
  rw [UInt32.toNat_add]
  have e : (1 : UInt32).toNat = 1 := rfl
  rw [e, Nat.mod_eq_of_lt (by omega)]

/-- An increment of this counter keeps the invariant, and a successful one raises the bound
to the reported value. -/
theorem J.increment {key : UInt16} {lo : UInt32} {n : Nvm} (h : J key lo n) :
    J key lo (increment n key).2 ∧
    ((increment n key).1.rc = .ok → lo ≤ (increment n key).1.value ∧
      J key (increment n key).1.value (increment n key).2) := by
  rcases e : n.store key with _ | ⟨md, bs⟩
  · rw [increment_none e]; exact ⟨h, by simp⟩
  · have hlo := h.cur md bs e
    have hid := h.ids key md bs e
    refine increment_cases e (P := fun p => J key lo p.2 ∧
      (p.1.rc = .ok → lo ≤ p.1.value ∧ J key p.1.value p.2)) ?_ ?_ ?_ ?_ ?_
    · intro hs
      refine ⟨h, fun _ => ⟨by rw [hs] at hlo; exact hlo, h.ids, ?_, ?_⟩⟩
      · intro md' bs' hm; rw [e] at hm; cases hm; rw [hs]; exact UInt32.le_refl _
      · intro pm pd hp hi
        have := (h.pend pm pd hp hi).2
        exact ⟨by rw [← hs]; exact this md bs e, this⟩
    · intro n' h1 a b _
      have hle : lo ≤ get md + 1 := by
        rw [UInt32.le_iff_toNat_le, succ_le h1]
        rw [UInt32.le_iff_toNat_le] at hlo; omega
      have : J key (get md + 1) n' := h.setSame (by rw [put_id, hid])
        (by rw [get_put]; exact UInt32.le_refl _) a b
      exact ⟨this.mono hle, fun _ => ⟨hle, this⟩⟩
    · intro n' h1 a b _
      have hle : lo ≤ get md + 1 := by
        rw [UInt32.le_iff_toNat_le, succ_le h1]
        rw [UInt32.le_iff_toNat_le] at hlo; omega
      exact ⟨h.setSame (by rw [put_id, hid]) (by rw [get_put]; exact hle) a b, by simp⟩
    · intro rc n' h1 hrc a b
      refine ⟨⟨by rw [a]; exact h.ids, by rw [a]; exact h.cur, ?_⟩, fun hc => absurd hc hrc⟩
      intro pm pd hp hi
      rw [b] at hp
      cases hp
      have hle : get md ≤ get md + 1 := by
        rw [UInt32.le_iff_toNat_le, succ_le h1]; omega
      rw [get_put]
      refine ⟨UInt32.le_trans hlo hle, ?_⟩
      intro md' bs' hm
      rw [a, e] at hm
      cases hm
      exact hle
    · intro rc n' hrc a b
      exact ⟨h.keep a b, fun hc => absurd hc hrc⟩

theorem J.incrementOther {key k' : UInt16} {lo : UInt32} {n : Nvm} (h : J key lo n) (hne : k' ≠ key) :
    J key lo (Counter.increment n k').2 := by
  rcases e : n.store k' with _ | ⟨md, bs⟩
  · rw [increment_none e]; exact h
  · have hid := h.ids k' md bs e
    unfold Counter.increment
    rw [Nvm.metadata_some e]
    simp only [bump]
    split
    · exact h
    · have := h.addOther (md := put md (get md + 1)) (d := []) (by rw [put_id, hid]; exact hne)
      split <;> rename_i heq <;> rw [heq] at this <;> exact this

theorem target_iff {client cid : UInt16} {c : Name} {key : UInt16} {c0 i0 : UInt16}
    (hk : key = keyOf c0 i0) (hc : c = ⟨c0.toNat % 16, i0.toNat % 256⟩) :
    (some (⟨client.toNat % 16, cid.toNat % 256⟩ : Name) = some c) ↔ keyOf client cid = key := by
  subst hk hc
  constructor
  · intro h
    simp only [Option.some.injEq, Name.mk.injEq] at h
    exact key_eq_of_name h.1 h.2
  · intro h
    have := name_eq_of_key h
    rw [this.1, this.2]

/-- One event: the invariant persists, and a reported value is at least the bound and
becomes the new bound. -/
theorem J.step {c0 i0 : UInt16} {lo : UInt32} {n : Nvm} (h : J (keyOf c0 i0) lo n) (e : Ev)
    (he : e.Keeps ⟨c0.toNat % 16, i0.toNat % 256⟩) :
    J (keyOf c0 i0) lo (step n e) ∧
    ∀ v, report ⟨c0.toNat % 16, i0.toNat % 256⟩ n e = some v →
      lo ≤ v ∧ J (keyOf c0 i0) v (step n e) := by
  cases e with
  | restart b => exact ⟨h.restart b, by intro v hv; simp [report] at hv⟩
  | req client lock r =>
    have hlock : ∀ P : Resp × Nvm → Prop, (lock ≠ .ok → ∀ rc, rc ≠ .ok → P (⟨rc, 0⟩, n)) →
        (lock = .ok → P (handle n client .ok r)) → (∀ rc, rc ≠ .ok → P (⟨rc, 0⟩, n)) →
        P (handle n client lock r) := by
      intro P h1 h2 h3
      by_cases hl : lock = .ok
      · subst hl; exact h2 rfl
      · have hs : handle n client lock r = (⟨lock, 0⟩, n) ∨ handle n client lock r = (⟨.badargs, 0⟩, n) := by
          cases r <;> cases lock <;> simp_all [handle]
        rcases hs with hs | hs <;> rw [hs]
        · exact h3 _ hl
        · exact h3 _ (by simp)
    suffices hmain : ∀ p : Resp × Nvm, handle n client lock r = p →
        J (keyOf c0 i0) lo p.2 ∧
        (r.target client = some ⟨c0.toNat % 16, i0.toNat % 256⟩ → p.1.rc = .ok →
          lo ≤ p.1.value ∧ J (keyOf c0 i0) p.1.value p.2) by
      have := hmain _ rfl
      refine ⟨this.1, ?_⟩
      intro v hv
      simp only [report] at hv
      split at hv
      · rename_i hc
        simp only [Option.some.injEq] at hv
        have h2 := this.2 hc.1 hc.2.1
        rw [hv] at h2
        exact h2
      · cases hv
    intro p hp
    rw [← hp]
    refine hlock (fun p => J (keyOf c0 i0) lo p.2 ∧
        (r.target client = some ⟨c0.toNat % 16, i0.toNat % 256⟩ → p.1.rc = .ok →
          lo ≤ p.1.value ∧ J (keyOf c0 i0) p.1.value p.2)) ?_ ?_ ?_
    · intro _ rc hrc; exact ⟨h, fun _ hc => absurd hc hrc⟩
    · intro hl
      cases r with
      | init cid v =>
        have hne : keyOf client cid ≠ keyOf c0 i0 := by
          intro hc
          exact he rfl ((target_iff (client := client) (cid := cid) rfl rfl).mpr hc)
        refine ⟨?_, fun ht => absurd ((target_iff rfl rfl).mp ht) hne⟩
        simp only [handle, initCounter_snd]
        exact h.addOther hne
      | increment cid =>
        simp only [handle]
        by_cases hk : keyOf client cid = keyOf c0 i0
        · rw [hk]; exact ⟨h.increment.1, fun _ => h.increment.2⟩
        · exact ⟨h.incrementOther hk, fun ht => absurd ((target_iff rfl rfl).mp ht) hk⟩
      | read cid =>
        simp only [handle]
        refine ⟨h, ?_⟩
        intro ht hrc
        have hk := (target_iff (client := client) (cid := cid) rfl rfl).mp ht
        rw [hk] at hrc ⊢
        rcases e : n.store (keyOf c0 i0) with _ | ⟨md, bs⟩
        · simp [readCounter, Nvm.metadata_none e] at hrc
        · simp only [readCounter, Nvm.metadata_some e]
          refine ⟨h.cur md bs e, h.ids, ?_, ?_⟩
          · intro md' bs' hm; rw [e] at hm; cases hm; exact UInt32.le_refl _
          · intro pm pd hp hi
            have := (h.pend pm pd hp hi).2
            exact ⟨this md bs e, this⟩
      | destroy cid =>
        have hne : keyOf client cid ≠ keyOf c0 i0 := by
          intro hc
          exact he rfl ((target_iff (client := client) (cid := cid) rfl rfl).mpr hc)
        refine ⟨?_, fun ht => absurd ((target_iff rfl rfl).mp ht) hne⟩
        simp only [handle]
        exact h.destroyOther (by simpa using Ne.symm hne)
      | malformed => exact ⟨h, fun ht => by simp [Req.target] at ht⟩
      | unknown => exact ⟨h, fun ht => by simp [Req.target] at ht⟩
    · intro rc hrc; exact ⟨h, fun _ hc => absurd hc hrc⟩

end WolfHsm.Counter

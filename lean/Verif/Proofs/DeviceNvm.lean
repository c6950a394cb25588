import Verif.Proofs.Server
import Verif.Proofs.AuthHist
import Verif.Proofs.Nvm
import Verif.Model.CounterMsg

/-!
# Which NVM objects the counter and authentication groups write
-/

namespace WolfHsm.Device

open NvmFlash (Meta Store)

/-- Objects carry their own id and length; a pending object is not too long. -/
structure Tidy (n : Nvm) : Prop where
  nvm : ∀ id md bs, n.store id = some (md, bs) → md.id = id ∧ md.len.toNat = bs.length
  pend : ∀ md bs, n.pending = some (md, bs) → bs.length < 65536

/-- Only objects with ids in `P` have been changed. -/
structure Only (P : UInt16 → Prop) (n n' : Nvm) : Prop where
  store : ∀ i, ¬P i → n'.store i = n.store i
  pend : ∀ md d, n'.pending = some (md, d) → n.pending = some (md, d) ∨ P md.id

theorem Only.refl (P : UInt16 → Prop) (n : Nvm) : Only P n n := ⟨fun _ _ => rfl, fun _ _ h => .inl h⟩

theorem Only.trans {P : UInt16 → Prop} {a b c : Nvm} (h : Only P a b) (h' : Only P b c) : Only P a c :=
  ⟨fun i hi => (h'.store i hi).trans (h.store i hi),
   fun md d hp => (h'.pend md d hp).elim (h.pend md d) .inr⟩

theorem Only.mono {P Q : UInt16 → Prop} {a b : Nvm} (h : Only P a b) (hq : ∀ i, P i → Q i) : Only Q a b :=
  ⟨fun i hi => h.store i fun hp => hi (hq i hp), fun md d hp => (h.pend md d hp).imp id (hq _)⟩

theorem set_other' {f : Store} {md : Meta} {d : List UInt8} {i : UInt16} (h : i ≠ md.id) : f.set md d i = f i := by
  unfold Store.set; exact if_neg h

theorem set_tidy {n : Nvm} (h : Tidy n) {md : Meta} {d : List UInt8} (hd : d.length < 65536) :
    ∀ id m bs, n.store.set md d id = some (m, bs) → m.id = id ∧ m.len.toNat = bs.length := by
  intro id m bs hs
  unfold Store.set at hs
  split at hs
  · next hi => cases hs; exact ⟨hi.symm, UInt16.toNat_ofNat_of_lt' hd⟩
  · exact h.nvm id m bs hs

theorem add_only {n : Nvm} (h : Tidy n) (md : Meta) {d : List UInt8} (hd : d.length < 65536) {P : UInt16 → Prop}
    (hP : P md.id) : Tidy (n.addWithReclaim md d).2 ∧ Only P n (n.addWithReclaim md d).2 := by
  refine Nvm.addWithReclaim_cases n md d (P := fun r => Tidy r.2 ∧ Only P n r.2) ?_ ?_ ?_ ?_
  · intro n' h1 h2 _
    exact ⟨⟨by rw [h1]; exact set_tidy h hd, by rw [h2]; intro _ _ e; cases e⟩,
      ⟨fun i hi => by rw [h1]; exact set_other' fun e => hi (e ▸ hP), by rw [h2]; intro _ _ e; cases e⟩⟩
  · intro n' h1 h2 _
    exact ⟨⟨by rw [h1]; exact set_tidy h hd, by rw [h2]; intro _ _ e; cases e⟩,
      ⟨fun i hi => by rw [h1]; exact set_other' fun e => hi (e ▸ hP), by rw [h2]; intro _ _ e; cases e⟩⟩
  · intro rc n' _ h1 h2
    exact ⟨⟨by rw [h1]; exact h.nvm, by rw [h2]; intro _ _ e; cases e; exact hd⟩,
      ⟨fun i _ => by rw [h1], by rw [h2]; intro _ _ e; cases e; exact .inr hP⟩⟩
  · intro rc n' _ h1 h2
    rcases h2 with h2 | h2
    · exact ⟨⟨by rw [h1]; exact h.nvm, by rw [h2]; exact h.pend⟩, ⟨fun i _ => by rw [h1], by rw [h2]; exact fun _ _ e => .inl e⟩⟩
    · exact ⟨⟨by rw [h1]; exact h.nvm, by rw [h2]; intro _ _ e; cases e⟩, ⟨fun i _ => by rw [h1], by rw [h2]; intro _ _ e; cases e⟩⟩

theorem destroy_only {n : Nvm} (h : Tidy n) (id : UInt16) {P : UInt16 → Prop} (hP : P id) :
    Tidy (n.destroy [id]).2 ∧ Only P n (n.destroy [id]).2 := by
  have hd : ∀ i, ¬P i → n.store.drop [id] i = n.store i := by
    intro i hi
    unfold Store.drop
    exact if_neg (by simpa using fun e : i = id => hi (e ▸ hP))
  have ht : ∀ i m bs, n.store.drop [id] i = some (m, bs) → m.id = i ∧ m.len.toNat = bs.length := by
    intro i m bs e
    unfold Store.drop at e
    split at e
    · cases e
    · exact h.nvm i m bs e
  have none_ : ∀ {n' : Nvm}, n'.store = n.store.drop [id] → n'.pending = none → Tidy n' ∧ Only P n n' := by
    intro n' h1 h2
    exact ⟨⟨by rw [h1]; exact ht, by rw [h2]; intro _ _ e; cases e⟩, ⟨by rw [h1]; exact hd, by rw [h2]; intro _ _ e; cases e⟩⟩
  have same : ∀ {n' : Nvm}, n'.store = n.store → n'.pending = n.pending → Tidy n' ∧ Only P n n' := by
    intro n' h1 h2
    exact ⟨⟨by rw [h1]; exact h.nvm, by rw [h2]; exact h.pend⟩, ⟨fun i _ => by rw [h1], by rw [h2]; exact fun _ _ e => .inl e⟩⟩
  refine Nvm.destroy_cases n [id] (P := fun r => Tidy r.2 ∧ Only P n r.2) ?_ ?_ ?_ ?_
  · intro n' h1 h2; exact none_ h1 h2
  · intro n' _ h1 h2; exact same h1 h2
  · intro rc n' _ h1 h2; exact none_ h1 h2
  · intro rc n' _ h1 h2; exact same h1 h2

theorem same_only {n n' : Nvm} (h : Tidy n) (h1 : n'.store = n.store) (h2 : n'.pending = n.pending) (P : UInt16 → Prop) :
    Tidy n' ∧ Only P n n' :=
  ⟨⟨by rw [h1]; exact h.nvm, by rw [h2]; exact h.pend⟩, ⟨fun i _ => by rw [h1], by rw [h2]; exact fun _ _ e => .inl e⟩⟩

/-! ## Counters -/

/-- Ids of counters. -/
def IsCounter (i : UInt16) : Prop := ∃ client cid, i = Counter.keyOf client cid

theorem put_id (md : Meta) (v : UInt32) : (Counter.put md v).id = md.id := rfl

theorem counter_only {n : Nvm} (h : Tidy n) (client : UInt16) (lock : Rc) (q : Counter.Req) :
    Tidy (Counter.handle n client lock q).2 ∧ Only IsCounter n (Counter.handle n client lock q).2 := by
  have quiet : Tidy n ∧ Only IsCounter n n := ⟨h, .refl _ _⟩
  have z : ([] : List UInt8).length < 65536 := by decide
  cases q with
  | init cid v =>
    unfold Counter.handle
    cases lock <;> first | exact quiet | skip
    have := add_only h (Counter.put (Counter.blankMeta (Counter.keyOf client cid)) v) z (P := IsCounter) ⟨client, cid, rfl⟩
    unfold Counter.initCounter
    dsimp only
    split <;> (next e => rw [e] at this; exact this)
  | increment cid =>
    unfold Counter.handle
    cases lock <;> first | exact quiet | skip
    unfold Counter.increment
    dsimp only
    split
    · next md hm =>
      have hid : md.id = Counter.keyOf client cid := by
        unfold Nvm.metadata Store.info at hm
        split at hm
        · cases hm
        · next hs => injection hm with _ e; injection e with e; subst e; exact (h.nvm _ _ _ hs).1
      have := fun v => add_only h (Counter.put md v) z (P := IsCounter) ⟨client, cid, by rw [put_id, hid]⟩
      unfold Counter.bump
      try dsimp only
      split
      · exact quiet
      · have := this (Counter.get md + 1)
        split <;> (next e => rw [e] at this; exact this)
    · exact quiet
  | read cid => unfold Counter.handle; cases lock <;> exact quiet
  | destroy cid =>
    unfold Counter.handle
    cases lock <;> first | exact quiet | skip
    exact destroy_only h _ ⟨client, cid, rfl⟩
  | malformed => exact quiet
  | unknown => exact quiet

end WolfHsm.Device

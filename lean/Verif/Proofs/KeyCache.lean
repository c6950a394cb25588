import Verif.Model.Keystore

/-! # Lemmas about one key cache -/

namespace WolfHsm.Keystore

open NvmFlash (Meta Store)

/-- Ids held by a list of slots. -/
def slotIds (l : List Slot) : List UInt16 := l.filterMap fun s => s.map (·.md.id)

@[simp] theorem findIn_nil (id : UInt16) : findIn [] id = none := rfl

@[simp] theorem findIn_cons_none (l : List Slot) (id : UInt16) :
    findIn (none :: l) id = findIn l id := by
  simp [findIn, Slot.holds]

theorem findIn_cons_some (k : CKey) (l : List Slot) (id : UInt16) :
    findIn (some k :: l) id = if k.md.id = id then some k else findIn l id := by
  unfold findIn
  by_cases h : k.md.id = id
  · simp [Slot.holds, h]
  · simp [Slot.holds, h]

@[simp] theorem slotIds_nil : slotIds [] = [] := rfl
@[simp] theorem slotIds_cons_none (l : List Slot) : slotIds (none :: l) = slotIds l := rfl
@[simp] theorem slotIds_cons_some (k : CKey) (l : List Slot) :
    slotIds (some k :: l) = k.md.id :: slotIds l := rfl

theorem slotIds_append (a b : List Slot) : slotIds (a ++ b) = slotIds a ++ slotIds b := by
  simp [slotIds]

theorem findIn_eq_none {l : List Slot} {id : UInt16} :
    findIn l id = none ↔ id ∉ slotIds l := by
  induction l with
  | nil => simp
  | cons s l ih =>
    cases s with
    | none => simpa using ih
    | some k =>
      rw [findIn_cons_some]
      by_cases h : k.md.id = id
      · simp [h]
      · simp [h, ih, Ne.symm h]

theorem findIn_id {l : List Slot} {id : UInt16} {k : CKey} (h : findIn l id = some k) :
    k.md.id = id := by
  induction l with
  | nil => simp at h
  | cons s l ih =>
    cases s with
    | none => exact ih (by simpa using h)
    | some k' =>
      rw [findIn_cons_some] at h
      split at h
      · rename_i h1; cases h; exact h1
      · exact ih h

theorem findIn_append (a b : List Slot) (id : UInt16) :
    findIn (a ++ b) id = match findIn a id with
      | some k => some k
      | none => findIn b id := by
  induction a with
  | nil => simp
  | cons s a ih =>
    cases s with
    | none => simpa using ih
    | some k =>
      rw [List.cons_append, findIn_cons_some, findIn_cons_some]
      split
      · rfl
      · exact ih

theorem updFirst_append_left {a : List Slot} (b : List Slot) {id : UInt16} (f : CKey → Slot)
    {k : CKey} (h : findIn a id = some k) :
    updFirst id f (a ++ b) = updFirst id f a ++ b := by
  induction a with
  | nil => simp at h
  | cons s a ih =>
    cases s with
    | none => simp [updFirst, ih (by simpa using h)]
    | some k' =>
      rw [findIn_cons_some] at h
      by_cases h1 : k'.md.id = id
      · simp [updFirst, h1]
      · simp only [h1, if_false] at h
        simp [updFirst, h1, ih h]

theorem updFirst_append_right {a : List Slot} (b : List Slot) {id : UInt16} (f : CKey → Slot)
    (h : findIn a id = none) : updFirst id f (a ++ b) = a ++ updFirst id f b := by
  induction a with
  | nil => simp
  | cons s a ih =>
    cases s with
    | none => simp [updFirst, ih (by simpa using h)]
    | some k' =>
      rw [findIn_cons_some] at h
      by_cases h1 : k'.md.id = id
      · simp [h1] at h
      · simp only [h1, if_false] at h
        simp [updFirst, h1, ih h]

/-- `f` keeps ids. -/
def KeepsId (f : CKey → Slot) : Prop := ∀ k k', f k = some k' → k'.md.id = k.md.id

theorem mem_slotIds_updFirst {l : List Slot} {id i : UInt16} {f : CKey → Slot} (hf : KeepsId f)
    (h : i ∈ slotIds (updFirst id f l)) : i ∈ slotIds l := by
  induction l with
  | nil => simp [updFirst] at h
  | cons s l ih =>
    cases s with
    | none => simpa [updFirst] using ih (by simpa [updFirst] using h)
    | some k =>
      by_cases h1 : k.md.id = id
      · simp only [updFirst, h1, if_true] at h
        cases hk : f k with
        | none => rw [hk] at h; simp at h; simp [h]
        | some k' =>
          rw [hk] at h
          simp only [slotIds_cons_some, hf k k' hk, List.mem_cons] at h
          simpa using h
      · simp only [updFirst, h1, if_false, slotIds_cons_some, List.mem_cons] at h
        rcases h with h | h
        · simp [h]
        · simp [ih h]

theorem nodup_updFirst {l : List Slot} {id : UInt16} {f : CKey → Slot} (hf : KeepsId f)
    (h : (slotIds l).Nodup) : (slotIds (updFirst id f l)).Nodup := by
  induction l with
  | nil => simp [updFirst]
  | cons s l ih =>
    cases s with
    | none => simpa [updFirst] using ih (by simpa using h)
    | some k =>
      simp only [slotIds_cons_some, List.nodup_cons] at h
      by_cases h1 : k.md.id = id
      · simp only [updFirst, h1, if_true]
        cases hk : f k with
        | none => simpa using h.2
        | some k' =>
          simp only [slotIds_cons_some, hf k k' hk, List.nodup_cons]
          exact h
      · simp only [updFirst, h1, if_false, slotIds_cons_some, List.nodup_cons]
        exact ⟨fun hc => h.1 (mem_slotIds_updFirst hf hc), ih h.2⟩

theorem findIn_updFirst_other {l : List Slot} {id id' : UInt16} {f : CKey → Slot}
    (hf : KeepsId f) (hne : id' ≠ id) : findIn (updFirst id f l) id' = findIn l id' := by
  induction l with
  | nil => simp [updFirst]
  | cons s l ih =>
    cases s with
    | none => simpa [updFirst] using ih
    | some k =>
      by_cases h1 : k.md.id = id
      · simp only [updFirst, h1, if_true]
        rw [findIn_cons_some]
        have : ¬ k.md.id = id' := by rw [h1]; exact Ne.symm hne
        simp only [this, if_false]
        cases hk : f k with
        | none => simp
        | some k' => rw [findIn_cons_some, hf k k' hk]; simp [this]
      · simp only [updFirst, h1, if_false]
        rw [findIn_cons_some, findIn_cons_some, ih]

theorem findIn_updFirst_self {l : List Slot} {id : UInt16} {f : CKey → Slot}
    (hf : KeepsId f) (h : (slotIds l).Nodup) :
    findIn (updFirst id f l) id = (findIn l id).bind f := by
  induction l with
  | nil => simp [updFirst]
  | cons s l ih =>
    cases s with
    | none => simpa [updFirst] using ih (by simpa using h)
    | some k =>
      simp only [slotIds_cons_some, List.nodup_cons] at h
      by_cases h1 : k.md.id = id
      · simp only [updFirst, h1, if_true]
        rw [findIn_cons_some]
        simp only [h1, if_true, Option.bind_some]
        cases hk : f k with
        | none => simpa using findIn_eq_none.mpr (h1 ▸ h.1)
        | some k' => rw [findIn_cons_some, hf k k' hk]; simp [h1]
      · simp only [updFirst, h1, if_false]
        rw [findIn_cons_some, findIn_cons_some, ih h.2]
        simp [h1]

/-! Setting one slot -/

theorem nodup_set_none {l : List Slot} (i : Nat) (h : (slotIds l).Nodup) :
    (slotIds (l.set i none)).Nodup ∧ ∀ j ∈ slotIds (l.set i none), j ∈ slotIds l := by
  induction l generalizing i with
  | nil => simp
  | cons s l ih =>
    cases i with
    | zero =>
      cases s with
      | none => simpa using h
      | some k =>
        simp only [slotIds_cons_some, List.nodup_cons] at h
        simp only [List.set_cons_zero, slotIds_cons_none, slotIds_cons_some, List.mem_cons]
        exact ⟨h.2, fun j hj => Or.inr hj⟩
    | succ i =>
      cases s with
      | none => simpa using ih i (by simpa using h)
      | some k =>
        simp only [slotIds_cons_some, List.nodup_cons] at h
        obtain ⟨h1, h2⟩ := ih i h.2
        simp only [List.set_cons_succ, slotIds_cons_some, List.nodup_cons, List.mem_cons]
        exact ⟨⟨fun hc => h.1 (h2 _ hc), h1⟩, fun j hj => hj.imp id (h2 j)⟩

theorem findIn_set_none {l : List Slot} (i : Nat) (h : (slotIds l).Nodup) (id : UInt16) :
    findIn (l.set i none) id = findIn l id ∨
    ∃ k, l[i]? = some (some k) ∧ k.md.id = id ∧ findIn l id = some k ∧
      findIn (l.set i none) id = none := by
  induction l generalizing i with
  | nil => simp
  | cons s l ih =>
    cases i with
    | zero =>
      cases s with
      | none => simp
      | some k =>
        simp only [slotIds_cons_some, List.nodup_cons] at h
        simp only [List.set_cons_zero, findIn_cons_none, findIn_cons_some]
        by_cases h1 : k.md.id = id
        · right
          exact ⟨k, by simp, h1, by simp [h1], findIn_eq_none.mpr (h1 ▸ h.1)⟩
        · left; simp [h1]
    | succ i =>
      cases s with
      | none => simpa using ih i (by simpa using h)
      | some k =>
        simp only [slotIds_cons_some, List.nodup_cons] at h
        simp only [List.set_cons_succ, findIn_cons_some, List.getElem?_cons_succ]
        by_cases h1 : k.md.id = id
        · left; simp [h1]
        · simp only [h1, if_false]
          exact ih i h.2

theorem nodup_set_some {l : List Slot} {i : Nat} {k : CKey} (hi : l[i]? = some none)
    (h : (slotIds l).Nodup) (hk : findIn l k.md.id = none) :
    (slotIds (l.set i (some k))).Nodup ∧
    ∀ j ∈ slotIds (l.set i (some k)), j = k.md.id ∨ j ∈ slotIds l := by
  induction l generalizing i with
  | nil => simp at hi
  | cons s l ih =>
    cases i with
    | zero =>
      simp only [List.getElem?_cons_zero, Option.some.injEq] at hi
      subst hi
      simp only [List.set_cons_zero, slotIds_cons_some, List.nodup_cons, List.mem_cons,
        slotIds_cons_none]
      exact ⟨⟨findIn_eq_none.mp (by simpa using hk), by simpa using h⟩, fun j hj => hj⟩
    | succ i =>
      simp only [List.getElem?_cons_succ] at hi
      cases s with
      | none => simpa using ih hi (by simpa using h) (by simpa using hk)
      | some k' =>
        simp only [slotIds_cons_some, List.nodup_cons] at h
        rw [findIn_cons_some] at hk
        by_cases h1 : k'.md.id = k.md.id
        · simp [h1] at hk
        · simp only [h1, if_false] at hk
          obtain ⟨h2, h3⟩ := ih hi h.2 hk
          simp only [List.set_cons_succ, slotIds_cons_some, List.nodup_cons, List.mem_cons]
          refine ⟨⟨fun hc => ?_, h2⟩, fun j hj => ?_⟩
          · rcases h3 _ hc with h4 | h4
            · exact h1 h4
            · exact h.1 h4
          · rcases hj with hj | hj
            · exact Or.inr (Or.inl hj)
            · exact (h3 j hj).imp id Or.inr

theorem findIn_set_some {l : List Slot} {i : Nat} {k : CKey} (hi : l[i]? = some none)
    (hk : findIn l k.md.id = none) (id : UInt16) :
    findIn (l.set i (some k)) id = if k.md.id = id then some k else findIn l id := by
  induction l generalizing i with
  | nil => simp at hi
  | cons s l ih =>
    cases i with
    | zero =>
      simp only [List.getElem?_cons_zero, Option.some.injEq] at hi
      subst hi
      simp [findIn_cons_some]
    | succ i =>
      simp only [List.getElem?_cons_succ] at hi
      cases s with
      | none => simpa using ih hi (by simpa using hk)
      | some k' =>
        rw [findIn_cons_some] at hk
        by_cases h1 : k'.md.id = k.md.id
        · simp [h1] at hk
        · simp only [h1, if_false] at hk
          simp only [List.set_cons_succ]
          rw [findIn_cons_some, findIn_cons_some, ih hi hk]
          by_cases h2 : k.md.id = id
          · subst h2; simp [h1]
          · simp [h2]

/-! ## The two-part cache -/

/-- All slots, in search order. -/
def Cache.slots (c : Cache) : List Slot := c.reg ++ c.big

/-- No id is held twice. -/
def Cache.Uniq (c : Cache) : Prop := (slotIds c.slots).Nodup

theorem Cache.find_eq (c : Cache) (id : UInt16) : c.find id = findIn c.slots id := by
  rw [Cache.slots, findIn_append]; rfl

theorem Cache.slots_update (c : Cache) (id : UInt16) (f : CKey → Slot) :
    (c.update id f).slots = updFirst id f c.slots := by
  unfold Cache.update Cache.slots
  cases h : findIn c.reg id with
  | some k => exact (updFirst_append_left c.big f h).symm
  | none => exact (updFirst_append_right c.big f h).symm

theorem Cache.find_id {c : Cache} {id : UInt16} {k : CKey} (h : c.find id = some k) :
    k.md.id = id := by
  rw [Cache.find_eq] at h; exact findIn_id h

theorem Cache.uniq_update {c : Cache} (h : c.Uniq) (id : UInt16) {f : CKey → Slot}
    (hf : KeepsId f) : (c.update id f).Uniq := by
  unfold Cache.Uniq; rw [Cache.slots_update]; exact nodup_updFirst hf h

theorem Cache.find_update_other (c : Cache) {id id' : UInt16} {f : CKey → Slot}
    (hf : KeepsId f) (hne : id' ≠ id) : (c.update id f).find id' = c.find id' := by
  rw [Cache.find_eq, Cache.find_eq, Cache.slots_update, findIn_updFirst_other hf hne]

theorem Cache.find_update_self {c : Cache} (h : c.Uniq) {id : UInt16} {f : CKey → Slot}
    (hf : KeepsId f) : (c.update id f).find id = (c.find id).bind f := by
  rw [Cache.find_eq, Cache.find_eq, Cache.slots_update, findIn_updFirst_self hf h]

theorem keepsId_none : KeepsId fun _ => none := by intro k k' h; cases h

/-- Slot at a location. -/
def Cache.at? (c : Cache) (loc : Loc) : Option Slot :=
  if loc.big then c.big[loc.idx]? else c.reg[loc.idx]?

/-- Position of a location in the list of all slots. -/
def Cache.pos (c : Cache) (loc : Loc) : Nat := if loc.big then c.reg.length + loc.idx else loc.idx

theorem Cache.at?_slots {c : Cache} {loc : Loc} {s : Slot} (h : c.at? loc = some s) :
    c.slots[c.pos loc]? = some s := by
  unfold Cache.at? at h
  unfold Cache.slots Cache.pos
  split at h
  · rename_i hb
    simp only [hb, if_true]
    rw [List.getElem?_append_right (by omega)]
    simpa using h
  · rename_i hb
    simp only [hb]
    have : loc.idx < c.reg.length := (List.getElem?_eq_some_iff.mp h).1
    simpa [List.getElem?_append_left this] using h

theorem Cache.slots_put {c : Cache} {loc : Loc} {s : Slot} (h : c.at? loc = some s) (t : Slot) :
    (c.put loc t).slots = c.slots.set (c.pos loc) t := by
  unfold Cache.at? at h
  unfold Cache.put Cache.slots Cache.pos
  split at h
  · rename_i hb
    simp only [hb, if_true]
    rw [List.set_append]
    simp only [Nat.add_sub_cancel_left]
    rw [if_neg (by omega)]
  · rename_i hb
    have : loc.idx < c.reg.length := (List.getElem?_eq_some_iff.mp h).1
    simp [hb, List.set_append_left _ _ this]

theorem freeIdx_spec {l : List Slot} {i : Nat} (h : freeIdx l = some i) :
    l[i]? = some none ∨ ∃ k, l[i]? = some (some k) ∧ k.committed = true := by
  unfold freeIdx at h
  split at h
  · rename_i j hj
    cases h
    obtain ⟨h1, h2, -⟩ := List.findIdx?_eq_some_iff_getElem.mp hj
    left
    rw [List.getElem?_eq_getElem h1]
    simpa using h2
  · obtain ⟨h1, h2, -⟩ := List.findIdx?_eq_some_iff_getElem.mp h
    right
    cases hs : l[i] with
    | none => simp [hs, Slot.isCommitted] at h2
    | some k => exact ⟨k, by rw [List.getElem?_eq_getElem h1, hs], by simpa [hs, Slot.isCommitted] using h2⟩

/-- What `_GetKeyCacheSlot` does: an empty slot results, and at most one entry, a
committed one, disappears. -/
theorem reserve_spec {cfg : Cfg} {c c' : Cache} {sz : Nat} {loc : Loc} (hu : c.Uniq)
    (h : reserve cfg c sz = some (loc, c')) :
    c'.at? loc = some none ∧ c'.Uniq ∧
    ∀ id, c'.find id = c.find id ∨ ∃ k, c.find id = some k ∧ k.committed = true ∧ c'.find id = none := by
  have key : ∀ (loc : Loc) (s : Slot), c.at? loc = some s →
      (s = none ∨ ∃ k, s = some k ∧ k.committed = true) →
      (c.put loc none).at? loc = some none ∧ (c.put loc none).Uniq ∧
      ∀ id, (c.put loc none).find id = c.find id ∨
        ∃ k, c.find id = some k ∧ k.committed = true ∧ (c.put loc none).find id = none := by
    intro loc s h1 h2
    refine ⟨?_, ?_, ?_⟩
    · unfold Cache.at? Cache.put at *
      split at h1
      · rename_i hb
        have := (List.getElem?_eq_some_iff.mp h1).1
        simp [hb, this]
      · rename_i hb
        have := (List.getElem?_eq_some_iff.mp h1).1
        simp [hb, this]
    · unfold Cache.Uniq
      rw [Cache.slots_put h1]
      exact (nodup_set_none _ hu).1
    · intro id
      rw [Cache.find_eq, Cache.find_eq, Cache.slots_put h1]
      rcases findIn_set_none (c.pos loc) hu id with h3 | ⟨k, h3, h4, h5, h6⟩
      · exact Or.inl h3
      · right
        refine ⟨k, h5, ?_, h6⟩
        rw [Cache.at?_slots h1] at h3
        simp only [Option.some.injEq] at h3
        subst h3
        rcases h2 with h2 | ⟨k', h2, h7⟩
        · cases h2
        · cases h2; exact h7
  unfold reserve at h
  split at h
  · cases hf : freeIdx c.reg with
    | none => simp [hf] at h
    | some i =>
      simp only [hf, Option.map_some, Option.some.injEq, Prod.mk.injEq] at h
      obtain ⟨rfl, rfl⟩ := h
      rcases freeIdx_spec hf with h1 | ⟨k, h1, h2⟩
      · exact key _ none (by simpa [Cache.at?] using h1) (Or.inl rfl)
      · exact key _ (some k) (by simpa [Cache.at?] using h1) (Or.inr ⟨k, rfl, h2⟩)
  · cases hf : freeIdx c.big with
    | none => simp [hf] at h
    | some i =>
      simp only [hf, Option.map_some, Option.some.injEq, Prod.mk.injEq] at h
      obtain ⟨rfl, rfl⟩ := h
      rcases freeIdx_spec hf with h1 | ⟨k, h1, h2⟩
      · exact key _ none (by simpa [Cache.at?] using h1) (Or.inl rfl)
      · exact key _ (some k) (by simpa [Cache.at?] using h1) (Or.inr ⟨k, rfl, h2⟩)

/-- Filling a reserved slot with a key whose id is not cached. -/
theorem put_spec {c : Cache} {loc : Loc} {k : CKey} (hu : c.Uniq) (hl : c.at? loc = some none)
    (hk : c.find k.md.id = none) :
    (c.put loc (some k)).Uniq ∧
    ∀ id, (c.put loc (some k)).find id = if k.md.id = id then some k else c.find id := by
  rw [Cache.find_eq] at hk
  constructor
  · unfold Cache.Uniq
    rw [Cache.slots_put hl]
    exact (nodup_set_some (Cache.at?_slots hl) hu hk).1
  · intro id
    rw [Cache.find_eq, Cache.find_eq, Cache.slots_put hl]
    exact findIn_set_some (Cache.at?_slots hl) hk id

end WolfHsm.Keystore

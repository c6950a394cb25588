import Verif.Proofs.NvmRep

/-! # Directory lookups -/

namespace WolfHsm.NvmFlash

open Flash FlashUnit

variable {c : Cfg}

/-- The object a slot holds for an id. -/
def Slot.get : Slot → UInt16 → Option (Meta × List UInt8)
  | .used _ md data, id => if md.id = id then some (md, data) else none
  | _, _ => none

/-- The store a list of slots denotes: the last intact entry of an id counts. -/
def view : List Slot → UInt16 → Option (Meta × List UInt8)
  | [], _ => none
  | s :: rest, id => (view rest id).or (s.get id)

theorem view_append (a b : List Slot) (id : UInt16) :
    view (a ++ b) id = (view b id).or (view a id) := by
  induction a with
  | nil => simp [view]
  | cons s rest ih => simp [view, ih, Option.or_assoc]

theorem view_none_iff (slots : List Slot) (id : UInt16) :
    view slots id = none ↔ slots.any (·.hasId id) = false := by
  induction slots with
  | nil => simp [view]
  | cons s rest ih =>
    simp only [view, Option.or_eq_none_iff, ih, List.any_cons, Bool.or_eq_false_iff]
    rw [and_comm]
    cases s <;> simp [Slot.get, Slot.hasId]

theorem find_lookup {α : Type} (p : α → Bool) (l : List α) :
    (l.findIdx? p).bind (l[·]?) = l.find? p := by
  induction l with
  | nil => rfl
  | cons a l ih =>
    simp only [List.findIdx?_cons, List.find?_cons]
    cases h : p a
    · simp only [Bool.false_eq_true, if_false, ← ih]
      cases l.findIdx? p <;> simp
    · simp

theorem findIdx_lt {α : Type} (p : α → Bool) (l : List α) (i : Nat)
    (h : l.findIdx? p = some i) : i < l.length := by
  have := List.findIdx?_eq_some_iff_findIdx_eq.1 h
  exact this.1

@[simp] theorem mkDir_take (slots : List Slot) :
    (mkDir c slots).objects.take (mkDir c slots).nextFreeObject = objsOf c 0 slots := by
  simp only [mkDir]
  rw [List.take_left' (by simp)]

theorem findIndex_mkDir (slots : List Slot) (id : UInt16) :
    findIndex (mkDir c slots) id = (objsOf c 0 slots).findIdx? (·.isUsedId id) := by
  unfold findIndex; rw [mkDir_take]

theorem lookup_mkDir (slots : List Slot) (id : UInt16) :
    (findIndex (mkDir c slots) id).bind ((mkDir c slots).objects[·]?) =
      (objsOf c 0 slots).find? (·.isUsedId id) := by
  rw [findIndex_mkDir, ← find_lookup]
  cases h : (objsOf c 0 slots).findIdx? (·.isUsedId id) with
  | none => rfl
  | some i =>
    have := findIdx_lt _ _ _ h
    simp only [Option.bind_some, mkDir]
    rw [List.getElem?_append_left this]

/-- Lookup in the directory, with the place where the object lies. -/
theorem find_objsOf (id : UInt16) {m : Mem} {p : Bool} {slots : List Slot} : ∀ {i st : Nat},
    SlotsAt c m p i st slots →
    (view slots id = none ∧ (objsOf c st slots).find? (·.isUsedId id) = none) ∨
    ∃ e md data i' st', view slots id = some (md, data) ∧ md.id = id ∧
      (objsOf c st slots).find? (·.isUsedId id) = some (objOf c st' false (.used e md data)) ∧
      SlotAt c m p i' st' (.used e md data) ∧
      st ≤ st' ∧ st' + bytes2units md.len.toNat ≤ st + total slots := by
  induction slots with
  | nil => intro i st _; exact .inl ⟨rfl, rfl⟩
  | cons s rest ih =>
    intro i st h
    rcases ih h.2 with ⟨hv, hf⟩ | ⟨e, md, data, i', st', hv, hid, hf, hs, hb1, hb2⟩
    · -- nothing later
      have hsh : ∀ e md data, s = .used e md data → md.id = id → shadowed s rest = false := by
        rintro e md data rfl rfl
        simp only [shadowed]
        exact (view_none_iff _ _).1 hv
      simp only [view, hv, Option.none_or, objsOf, List.find?_cons, isUsedId_objOf]
      cases s with
      | used e md data =>
        by_cases hid : md.id = id
        · right
          have := hsh e md data rfl hid
          refine ⟨e, md, data, i, st, by simp [Slot.get, hid], hid, ?_, h.1, Nat.le_refl _, ?_⟩
          · simp [Slot.hasId, hid, this]
          · simp [total, Slot.size]
        · left
          refine ⟨by simp [Slot.get, hid], ?_⟩
          have h2 : (md.id == id) = false := by simpa using hid
          simp [Slot.hasId, h2, hf]
      | dataBad e md => left; refine ⟨rfl, ?_⟩; simp [Slot.hasId, hf]
      | metaBad => left; refine ⟨rfl, ?_⟩; simp [Slot.hasId, hf]
    · right
      refine ⟨e, md, data, i', st', by simp [view, hv], hid, ?_, hs, by omega, ?_⟩
      · simp only [objsOf, List.find?_cons, isUsedId_objOf]
        have : (s.hasId id && !shadowed s rest) = false := by
          cases s with
          | used e2 md2 data2 =>
            by_cases h2 : md2.id = id
            · have : rest.any (·.hasId md2.id) = true := by
                by_cases h3 : rest.any (·.hasId id) = false
                · rw [(view_none_iff _ _).2 h3] at hv; cases hv
                · rw [h2]; simpa using h3
              simp only [shadowed, this, Bool.not_true, Bool.and_false]
            · simp [Slot.hasId, h2]
          | dataBad => simp [Slot.hasId]
          | metaBad => simp [Slot.hasId]
        rw [this]; exact hf
      · simp only [total]; omega

/-- `GetMetadata` answers from the view. -/
theorem getMetadata_spec {ctx : Ctx} {slots : List Slot} (hd : ctx.dir = mkDir c slots)
    (hb : ctx.directoryBad = false) {m : Mem} {p : Bool} (h : SlotsAt c m p 0 0 slots)
    (id : UInt16) :
    getMetadata ctx id = match view slots id with
      | none => (.notfound, none)
      | some (md, _) => (.ok, some md) := by
  unfold getMetadata
  rw [hb, hd]
  simp only [Bool.false_eq_true, if_false]
  have hl := lookup_mkDir (c := c) slots id
  rcases find_objsOf id h with ⟨hv, hf⟩ | ⟨e, md, data, i', st', hv, hid, hf, hs, -⟩
  · rw [hv]
    rw [hf] at hl
    cases h1 : findIndex (mkDir c slots) id with
    | none => rfl
    | some i =>
      exfalso
      rw [findIndex_mkDir] at h1
      have := findIdx_lt _ _ _ h1
      have h2 := find_lookup (·.isUsedId id) (objsOf c 0 slots)
      rw [h1, hf] at h2
      simp only [Option.bind_some, List.getElem?_eq_none_iff] at h2
      omega
  · rw [hv]
    rw [hf] at hl
    cases h1 : findIndex (mkDir c slots) id with
    | none => rw [h1] at hl; cases hl
    | some i =>
      rw [h1] at hl
      simp only [Option.bind_some] at hl
      simp only [hl]
      rfl

/-! ## Adding an entry -/

/-- Mark an entry superseded. -/
def markObj (id : UInt16) (o : MemObj) : MemObj :=
  if o.isUsedId id then { o with state := { o.state with status := .dataBad } } else o

theorem shadowed_append (s : Slot) (rest : List Slot) (t : Slot) :
    shadowed s (rest ++ [t]) = (shadowed s rest ||
      match s with | .used _ md _ => t.hasId md.id | _ => false) := by
  cases s <;> simp [shadowed]

theorem objsOf_append_used (slots : List Slot) (e : Nat) (md : Meta) (data : List UInt8) :
    ∀ st, objsOf c st (slots ++ [.used e md data]) =
      (objsOf c st slots).map (markObj md.id) ++
        [objOf c (st + total slots) false (.used e md data)] := by
  induction slots with
  | nil => intro st; simp [objsOf, shadowed, total]
  | cons s rest ih =>
    intro st
    simp only [List.cons_append, objsOf, ih, List.map_cons, total,
      show st + s.size + total rest = st + (s.size + total rest) by omega]
    congr 1
    rw [shadowed_append]
    unfold markObj
    rw [isUsedId_objOf]
    cases s with
    | used e2 md2 data2 =>
      simp only [Slot.hasId]
      by_cases h : md.id = md2.id
      · by_cases h2 : shadowed (.used e2 md2 data2) rest = true
        · simp [h, h2, objOf]
        · simp only [Bool.not_eq_true] at h2; simp [h, h2, objOf]
      · have h1 : (md2.id == md.id) = false := by simpa using fun h' => h (Eq.symm h')
        have h2 : (md.id == md2.id) = false := by simpa using h
        simp [h1, h2]
    | dataBad => simp [shadowed, Slot.hasId]
    | metaBad => simp [shadowed, Slot.hasId]

/-- At most one entry is current for an id. -/
def UniqueUsed (l : List MemObj) (id : UInt16) : Prop :=
  l.Pairwise fun a b => ¬ (a.isUsedId id = true ∧ b.isUsedId id = true)

theorem objsOf_unique (id : UInt16) (slots : List Slot) : ∀ st,
    UniqueUsed (objsOf c st slots) id := by
  induction slots with
  | nil => intro st; exact List.Pairwise.nil
  | cons s rest ih =>
    intro st
    refine List.Pairwise.cons ?_ (ih _)
    intro b hb ⟨h1, h2⟩
    rw [isUsedId_objOf] at h1
    simp only [Bool.and_eq_true, Bool.not_eq_true'] at h1
    have : rest.any (·.hasId id) = true := by
      rw [← any_objsOf (c := c) id rest (st + s.size), List.any_eq_true]
      exact ⟨b, hb, h2⟩
    cases s with
    | used e md data =>
      have hid : md.id = id := by simpa [Slot.hasId] using h1.1
      subst hid
      have h3 := h1.2
      simp only [shadowed] at h3
      rw [h3] at this; cases this
    | dataBad => simp [Slot.hasId] at h1
    | metaBad => simp [Slot.hasId] at h1

theorem map_mark_eq (idx : UInt16) (l : List MemObj) (h : UniqueUsed l idx) :
    l.map (markObj idx) = match l.findIdx? (·.isUsedId idx), l.find? (·.isUsedId idx) with
      | some i, some o => l.set i { o with state := { o.state with status := .dataBad } }
      | _, _ => l := by
  induction l with
  | nil => rfl
  | cons a l ih =>
    simp only [List.map_cons, List.findIdx?_cons, List.find?_cons]
    by_cases ha : a.isUsedId idx = true
    · simp only [ha, if_true, List.set_cons_zero]
      have h1 : markObj idx a = { a with state := { a.state with status := .dataBad } } := by
        simp [markObj, ha]
      rw [h1]
      congr 1
      refine (List.map_congr_left (g := id) ?_).trans (List.map_id _)
      intro b hb
      have := (List.pairwise_cons.1 h).1 b hb
      unfold markObj
      have hb' : ¬ b.isUsedId idx = true := fun hb' => this ⟨ha, hb'⟩
      rw [if_neg hb']; rfl
    · simp only [Bool.not_eq_true] at ha
      have h1 : markObj idx a = a := by simp [markObj, ha]
      rw [h1, ih (List.pairwise_cons.1 h).2]
      simp only [ha, Bool.false_eq_true, if_false]
      cases l.findIdx? (·.isUsedId idx) <;> cases l.find? (·.isUsedId idx) <;> simp

theorem live_append (s : Slot) (rest : List Slot) (t : Slot) :
    live s (rest ++ [t]) = (live s rest &&
      !(match s with | .used _ md _ => t.hasId md.id | _ => false)) := by
  unfold live
  rw [shadowed_append]
  cases s <;> simp [Slot.isUsed]

/-- The current entry of an id. -/
def liveSlot : List Slot → UInt16 → Option Slot
  | [], _ => none
  | s :: rest, id => (liveSlot rest id).or (if s.hasId id then some s else none)

theorem liveSlot_none (slots : List Slot) (id : UInt16) :
    liveSlot slots id = none ↔ slots.any (·.hasId id) = false := by
  induction slots with
  | nil => simp [liveSlot]
  | cons s rest ih =>
    simp only [liveSlot, Option.or_eq_none_iff, ih, List.any_cons, Bool.or_eq_false_iff]
    rw [and_comm]
    simp

theorem rec_append_used (slots : List Slot) (e : Nat) (md : Meta) (data : List UInt8) :
    recEntries (slots ++ [.used e md data]) =
      recEntries slots + (if (liveSlot slots md.id).isSome then 1 else 0) ∧
    recData (slots ++ [.used e md data]) =
      recData slots + ((liveSlot slots md.id).map Slot.size).getD 0 := by
  induction slots with
  | nil => simp [recEntries, recData, live, Slot.isUsed, shadowed, liveSlot]
  | cons s rest ih =>
    simp only [List.cons_append, recEntries, recData, ih.1, ih.2, liveSlot]
    rw [live_append]
    rcases Option.eq_none_or_eq_some (liveSlot rest md.id) with hl | ⟨t, hl⟩
    case inr =>
      have hany : rest.any (·.hasId md.id) = true := by
        by_cases h : rest.any (·.hasId md.id) = false
        · rw [(liveSlot_none _ _).2 h] at hl; cases hl
        · simpa using h
      have : (live s rest && !(match s with | .used _ md2 _ => (Slot.used e md data).hasId md2.id | _ => false))
          = live s rest := by
        cases s with
        | used e2 md2 data2 =>
          by_cases h : md.id = md2.id
          · have : live (.used e2 md2 data2) rest = false := by
              simp only [live, shadowed, ← h, hany]; rfl
            simp [this]
          · simp [Slot.hasId, h]
        | dataBad => simp
        | metaBad => simp
      simp only [this, hl]
      simp
      omega
    case inl =>
      have hany := (liveSlot_none _ _).1 hl
      cases s with
      | used e2 md2 data2 =>
        by_cases h : md2.id = md.id
        · have : live (.used e2 md2 data2) rest = true := by
            simp only [live, shadowed, h, hany]; rfl
          simp [this, hl, Slot.hasId, h]; omega
        · have h1 : (md2.id == md.id) = false := by simpa using h
          have h2 : (md.id == md2.id) = false := by simpa using fun h' => h (Eq.symm h')
          simp [Slot.hasId, h1, h2, hl]
      | dataBad => simp [Slot.hasId, hl]
      | metaBad => simp [Slot.hasId, hl]

theorem find_liveSlot (id : UInt16) (slots : List Slot) : ∀ st,
    ((objsOf c st slots).find? (·.isUsedId id)).map (fun o => o.state.count) =
      (liveSlot slots id).map Slot.size := by
  induction slots with
  | nil => intro st; rfl
  | cons s rest ih =>
    intro st
    simp only [objsOf, List.find?_cons, isUsedId_objOf, liveSlot]
    cases hl : liveSlot rest id with
    | some t =>
      have hany : rest.any (·.hasId id) = true := by
        by_cases h : rest.any (·.hasId id) = false
        · rw [(liveSlot_none _ _).2 h] at hl; cases hl
        · simpa using h
      have : (s.hasId id && !shadowed s rest) = false := by
        cases s with
        | used e md data =>
          by_cases h : md.id = id
          · subst h; simp only [shadowed, hany, Bool.not_true, Bool.and_false]
          · simp [Slot.hasId, h]
        | dataBad => simp [Slot.hasId]
        | metaBad => simp [Slot.hasId]
      rw [this]
      simp only [← hl]
      simpa [hl] using ih (st + s.size)
    | none =>
      have hany := (liveSlot_none _ _).1 hl
      cases s with
      | used e md data =>
        by_cases h : md.id = id
        · subst h
          have : shadowed (.used e md data) rest = false := by simp only [shadowed, hany]
          simp [Slot.hasId, this, objOf, Slot.size]
        · have := ih (st + (Slot.used e md data).size)
          rw [hl] at this
          have h2 : (md.id == id) = false := by simpa using h
          simpa [Slot.hasId, h2] using this
      | dataBad e md =>
        have := ih (st + (Slot.dataBad e md).size)
        rw [hl] at this
        simpa [Slot.hasId] using this
      | metaBad =>
        have := ih (st + Slot.metaBad.size)
        rw [hl] at this
        simpa [Slot.hasId] using this

end WolfHsm.NvmFlash

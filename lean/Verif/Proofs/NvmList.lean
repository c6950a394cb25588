import Verif.Proofs.NvmInv

/-! # Listing and space accounting -/

namespace WolfHsm.NvmFlash

open Flash FlashUnit

variable {c : Cfg}

/-- Ids of the used entries, in order. -/
def usedIds : List MemObj → List UInt16
  | [] => []
  | o :: rest => if o.state.status = .used then o.md.id :: usedIds rest else usedIds rest

theorem countUsed_eq (l : List MemObj) : countUsed l = (usedIds l).length := by
  induction l with
  | nil => rfl
  | cons o rest ih =>
    simp only [countUsed, List.filter_cons, usedIds] at *
    by_cases h : o.state.status = .used <;> simp [h, ih]

theorem listNext_spec (l : List MemObj) :
    match usedIds l with
    | [] => listNext l = none
    | id :: rest => ∃ l', listNext l = some (id, l') ∧ usedIds l' = rest := by
  induction l with
  | nil => rfl
  | cons o rest ih =>
    by_cases h : o.state.status = .used
    · simp [usedIds, listNext, h]
    · simpa [usedIds, listNext, h] using ih

theorem listFind_zero (l : List MemObj) : listFind 0 l = listNext l := by
  induction l with
  | nil => rfl
  | cons o rest ih => simp [listFind, listNext, ih]

theorem listFind_spec (s : UInt16) (hs : s ≠ 0) (A B : List UInt16) (hA : s ∉ A) :
    ∀ (l : List MemObj), usedIds l = A ++ s :: B →
      ∃ l', listFind s l = some (s, l') ∧ usedIds l' = B := by
  intro l
  induction l generalizing A with
  | nil => intro h; simp [usedIds] at h
  | cons o rest ih =>
    intro h
    by_cases hu : o.state.status = .used
    · simp only [usedIds, hu, if_true] at h
      cases A with
      | nil =>
        simp only [List.nil_append, List.cons.injEq] at h
        refine ⟨rest, ?_, h.2⟩
        simp [listFind, hu, h.1]
      | cons a A' =>
        simp only [List.cons_append, List.cons.injEq] at h
        simp only [List.mem_cons, not_or] at hA
        obtain ⟨l', h1, h2⟩ := ih A' hA.2 h.2
        refine ⟨l', ?_, h2⟩
        have : ¬ s = o.md.id := by rw [h.1]; exact hA.1
        simp [listFind, hu, hs, this, h1]
    · simp only [usedIds, hu, if_false] at h
      obtain ⟨l', h1, h2⟩ := ih A hA h
      exact ⟨l', by simp [listFind, hu, h1], h2⟩

theorem usedIds_cons (s : Slot) (rest : List Slot) (st : Nat) :
    usedIds (objsOf c st (s :: rest)) =
      match s with
      | .used _ md _ => if rest.any (·.hasId md.id) then usedIds (objsOf c (st + s.size) rest)
        else md.id :: usedIds (objsOf c (st + s.size) rest)
      | _ => usedIds (objsOf c (st + s.size) rest) := by
  cases s with
  | used e md data =>
    simp only [objsOf, usedIds, objOf, shadowed]
    by_cases h : rest.any (·.hasId md.id) = true <;> simp [h]
  | dataBad e md => simp [objsOf, usedIds, objOf]
  | metaBad => simp [objsOf, usedIds, objOf]

theorem mem_usedIds (id : UInt16) (slots : List Slot) : ∀ st,
    id ∈ usedIds (objsOf c st slots) ↔ (view slots id).isSome := by
  induction slots with
  | nil => intro st; simp [objsOf, usedIds, view]
  | cons s rest ih =>
    intro st
    rw [usedIds_cons]
    have ih' := ih (st + s.size)
    cases s with
    | used e md data =>
      dsimp only
      by_cases h : rest.any (·.hasId md.id) = true
      · rw [if_pos h, ih']
        simp only [view, Slot.get]
        by_cases hid : md.id = id
        · subst hid
          have : view rest md.id ≠ none := by
            intro hn; rw [view_none_iff] at hn; rw [hn] at h; cases h
          obtain ⟨x, hx⟩ := Option.ne_none_iff_exists'.1 this
          simp [hx]
        · simp [hid]
      · rw [if_neg h, List.mem_cons, ih']
        simp only [view, Slot.get]
        by_cases hid : md.id = id
        · simp [hid]
        · have : ¬ id = md.id := fun h' => hid h'.symm
          simp [hid, this]
    | dataBad e md => dsimp only; rw [ih']; simp [view, Slot.get]
    | metaBad => dsimp only; rw [ih']; simp [view, Slot.get]

theorem usedIds_nodup (slots : List Slot) : ∀ st, (usedIds (objsOf c st slots)).Nodup := by
  induction slots with
  | nil => intro st; simp [objsOf, usedIds]
  | cons s rest ih =>
    intro st
    rw [usedIds_cons]
    cases s with
    | used e md data =>
      dsimp only
      by_cases h : rest.any (·.hasId md.id) = true
      · rw [if_pos h]; exact ih _
      · rw [if_neg h, List.nodup_cons]
        refine ⟨?_, ih _⟩
        rw [mem_usedIds]
        have : view rest md.id = none := by rw [view_none_iff]; simpa using h
        simp [this]
    | dataBad e md => exact ih _
    | metaBad => exact ih _

theorem padded_cons {s : Slot} {rest : List Slot} {id : UInt16} (h : (view rest id).isSome) :
    padded (view (s :: rest)) id = padded (view rest) id := by
  obtain ⟨x, hx⟩ := Option.isSome_iff_exists.1 h
  simp [padded, view, hx]

theorem sum_padded_cons (s : Slot) (rest : List Slot) (l : List UInt16)
    (h : ∀ id ∈ l, (view rest id).isSome) :
    (l.map (padded (view (s :: rest)))).sum = (l.map (padded (view rest))).sum := by
  congr 1
  apply List.map_congr_left
  intro id hid
  exact padded_cons (h id hid)

theorem sum_live {m : Mem} {p : Bool} (slots : List Slot) : ∀ i st,
    SlotsAt c m p i st slots →
    ((usedIds (objsOf c st slots)).map (padded (view slots))).sum + recData slots * 8
      = total slots * 8 ∧
    (usedIds (objsOf c st slots)).length + recEntries slots = slots.length := by
  induction slots with
  | nil => intro i st _; simp [objsOf, usedIds, recData, recEntries, total]
  | cons s rest ih =>
    intro i st h
    obtain ⟨hs, hr⟩ := h
    have ih' := ih _ _ hr
    have hsum := sum_padded_cons s rest (usedIds (objsOf c (st + s.size) rest))
      (fun id hid => (mem_usedIds id rest _).1 hid)
    rw [usedIds_cons]
    cases s with
    | used e md data =>
      dsimp only
      by_cases h : rest.any (·.hasId md.id) = true
      · have hl : live (.used e md data) rest = false := by
          simp [live, Slot.isUsed, shadowed, h]
        rw [if_pos h, hsum]
        simp only [recData, recEntries, total, hl, List.length_cons]
        simp only [Bool.false_eq_true, if_false]
        omega
      · have hl : live (.used e md data) rest = true := by
          simp [live, Slot.isUsed, shadowed, h]
        have hv : view rest md.id = none := by rw [view_none_iff]; simpa using h
        rw [if_neg h, List.map_cons, List.sum_cons, hsum]
        simp only [recData, recEntries, total, hl, List.length_cons]
        simp only [if_true]
        have hlen := hs.2.1
        have hp : padded (view (Slot.used e md data :: rest)) md.id =
            (Slot.used e md data).size * 8 := by
          simp only [padded, view, hv, Slot.get, if_true, Option.none_or, Slot.size, hlen,
            bytes2units]
          split <;> omega
        rw [hp]
        omega
    | dataBad e md =>
      have hl : live (.dataBad e md) rest = false := by simp [live, Slot.isUsed]
      dsimp only
      rw [hsum]
      simp only [recData, recEntries, total, hl, List.length_cons]
      simp only [Bool.false_eq_true, if_false]
      omega
    | metaBad =>
      have hl : live .metaBad rest = false := by simp [live, Slot.isUsed]
      dsimp only
      rw [hsum]
      simp only [recData, recEntries, total, hl, List.length_cons]
      simp only [Bool.false_eq_true, if_false]
      omega

theorem list_zero {ctx : Ctx} {slots : List Slot} (hd : ctx.dir = mkDir c slots)
    (hb : ctx.directoryBad = false) (hz : (0 : UInt16) ∉ usedIds (objsOf c 0 slots)) :
    list ctx 0 = match usedIds (objsOf c 0 slots) with
      | [] => (.ok, 0, 0)
      | id :: rest => (.ok, 1 + rest.length, id) := by
  unfold list
  rw [hb, hd, mkDir_take, listFind_zero]
  have := listNext_spec (objsOf c 0 slots)
  cases hu : usedIds (objsOf c 0 slots) with
  | nil => rw [hu] at this; dsimp only at this; simp [this]
  | cons id rest =>
    rw [hu] at this hz
    obtain ⟨l', h1, h2⟩ := this
    have hne : ¬ id = 0 := by rintro rfl; simp at hz
    simp [h1, hne, countUsed_eq, h2]

theorem list_next {ctx : Ctx} {slots : List Slot} (hd : ctx.dir = mkDir c slots)
    (hb : ctx.directoryBad = false) {A B : List UInt16} {s : UInt16} (hs : s ≠ 0)
    (hA : s ∉ A) (hu : usedIds (objsOf c 0 slots) = A ++ s :: B) :
    list ctx s = match B with
      | [] => (.ok, 0, 0)
      | id :: rest => (.ok, 1 + rest.length, id) := by
  unfold list
  rw [hb, hd, mkDir_take]
  obtain ⟨l', h1, h2⟩ := listFind_spec s hs A B hA _ hu
  simp only [h1, Bool.false_eq_true, if_false, ne_eq, hs, not_false_eq_true, if_true]
  have := listNext_spec l'
  rw [h2] at this
  cases B with
  | nil => dsimp only at this; simp [this]
  | cons id rest =>
    obtain ⟨l'', h3, h4⟩ := this
    simp [h3, countUsed_eq, h4]

theorem getAvailable_spec {ctx : Ctx} {slots : List Slot} (hd : ctx.dir = mkDir c slots)
    (hb : ctx.directoryBad = false) :
    getAvailable c ctx = (.ok, (c.pu - c.dataOff - total slots) * 8, c.N - slots.length,
      recData slots * 8, recEntries slots) := by
  unfold getAvailable
  rw [hb, hd]
  simp [mkDir]

theorem drop_nil (f : Store) : f.drop [] = f := by funext id; simp [Store.drop]

theorem listing_from {ctx : Ctx} {slots : List Slot} (hd : ctx.dir = mkDir c slots)
    (hb : ctx.directoryBad = false) : ∀ (B A : List UInt16) (s : UInt16) (fuel : Nat),
    usedIds (objsOf c 0 slots) = A ++ s :: B → (A ++ s :: B).Nodup → (∀ x ∈ s :: B, x ≠ 0) →
    B.length ≤ fuel →
    listing ctx fuel s = B.zipIdx.map fun p => (B.length - p.2, p.1) := by
  intro B
  induction B with
  | nil =>
    intro A s fuel hu hnd hz hf
    cases fuel with
    | zero => rfl
    | succ k =>
      have hA : s ∉ A := by
        intro h
        have := List.nodup_append.1 hnd
        exact this.2.2 s h s (by simp) rfl
      have := list_next hd hb (hz s (by simp)) hA hu
      simp [listing, this]
  | cons t B ih =>
    intro A s fuel hu hnd hz hf
    cases fuel with
    | zero => simp at hf
    | succ k =>
      have hA : s ∉ A := by
        intro h
        have := List.nodup_append.1 hnd
        exact this.2.2 s h s (by simp) rfl
      have := list_next hd hb (hz s (by simp)) hA hu
      simp only [listing, this]
      rw [if_neg (by simp)]
      have ih' := ih (A ++ [s]) t k (by simpa using hu) (by simpa using hnd)
        (fun x hx => hz x (List.mem_cons_of_mem _ hx)) (by simpa using hf)
      rw [ih']
      simp only [List.zipIdx_cons, List.map_cons, List.length_cons, Nat.zero_add]
      rw [List.zipIdx_succ]
      simp [Nat.add_comm]

end WolfHsm.NvmFlash

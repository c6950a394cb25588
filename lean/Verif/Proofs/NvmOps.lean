import Verif.Proofs.NvmInit

/-! # The API operations on flash -/

namespace WolfHsm.NvmFlash

open Flash FlashUnit

variable {c : Cfg}

/-! ## AddObject -/

/-- The metadata `AddObject` stores. -/
def stored (md : Meta) (data : List UInt8) : Meta := { md with len := UInt16.ofNat data.length }

theorem stored_len {md : Meta} {data : List UInt8} (h : data.length < 2 ^ 16) :
    (stored md data).len.toNat = data.length := by
  simp [stored]; omega

/-- What an unfinished add may leave behind. -/
def AddTail (md : Meta) (data : List UInt8) (tail : List Slot) : Prop :=
  tail = [] ∨ tail = [.metaBad] ∨ ∃ ep, tail = [.dataBad ep (stored md data)] ∨
    tail = [.used ep (stored md data) data]

/-- The directory after an entry was added. -/
theorem mkDir_add (slots : List Slot) (ep : Nat) (md : Meta) (data : List UInt8)
    (hn : slots.length < c.N) :
    dirAdd (mkDir c slots)
      ⟨⟨.used, ep, (mkDir c slots).nextFreeData, bytes2units (stored md data).len.toNat,
        mcrc c (stored md data), dcrc c data⟩, stored md data⟩
      (findIndex (mkDir c slots) md.id)
      ((findIndex (mkDir c slots) md.id).bind ((mkDir c slots).objects[·]?)) =
    mkDir c (slots ++ [.used ep (stored md data) data]) := by
  have hid : (stored md data).id = md.id := rfl
  have hl := lookup_mkDir (c := c) slots md.id
  have hfi := findIndex_mkDir (c := c) slots md.id
  have hmark := map_mark_eq md.id (objsOf c 0 slots) (objsOf_unique md.id slots 0)
  have happ := objsOf_append_used (c := c) slots ep (stored md data) data 0
  have hrec := rec_append_used slots ep (stored md data) data
  have hls := find_liveSlot (c := c) md.id slots 0
  rw [hid] at happ hrec
  have hset : ∀ (l : List MemObj) (new : MemObj), l.length = slots.length →
      (l ++ List.replicate (c.N - slots.length) freeObj).set slots.length new =
        l ++ [new] ++ List.replicate (c.N - (slots ++ [Slot.used ep (stored md data) data]).length)
          freeObj := by
    intro l new hlen
    rw [List.set_append_right _ _ (by omega), hlen, Nat.sub_self,
      show c.N - slots.length = (c.N - (slots.length + 1)) + 1 by omega, List.replicate_succ,
      List.set_cons_zero]
    simp
  have htot : total (slots ++ [Slot.used ep (stored md data) data]) =
      total slots + bytes2units (stored md data).len.toNat := by
    rw [total_append]; simp [total, Slot.size]
  unfold dirAdd
  rw [hl, hfi]
  have hnew : objOf c (0 + total slots) false (.used ep (stored md data) data) =
      ⟨⟨.used, ep, total slots, bytes2units (stored md data).len.toNat, mcrc c (stored md data),
       dcrc c data⟩, stored md data⟩ := by simp [objOf]
  rcases Option.eq_none_or_eq_some ((objsOf c 0 slots).findIdx? (·.isUsedId md.id)) with
    hfi' | ⟨i, hfi'⟩
  · have hf : (objsOf c 0 slots).find? (·.isUsedId md.id) = none := by
      rw [← find_lookup, hfi']; rfl
    rw [hfi', hf] at hmark
    rw [hf] at hls
    have hlive : liveSlot slots md.id = none := by simpa using hls.symm
    rw [hfi']
    simp only [setObj]
    unfold mkDir
    simp only [hrec, hlive, htot, happ, hmark, hnew, hset _ _ (objsOf_length slots 0)]
    simp
  · have hi := findIdx_lt _ _ _ hfi'
    obtain ⟨o, hf⟩ : ∃ o, (objsOf c 0 slots).find? (·.isUsedId md.id) = some o := by
      rw [← find_lookup, hfi']
      exact ⟨(objsOf c 0 slots)[i], by simp⟩
    rw [hfi', hf] at hmark
    rw [hf] at hls
    have hlive : ∃ s, liveSlot slots md.id = some s ∧ s.size = o.state.count := by
      cases h : liveSlot slots md.id with
      | none => rw [h] at hls; simp at hls
      | some s => rw [h] at hls; exact ⟨s, rfl, by simpa using hls.symm⟩
    obtain ⟨s, hs, hsz⟩ := hlive
    rw [hfi', hf]
    simp only [setObj]
    unfold mkDir
    simp only [hrec, hs, htot, happ, hmark, hnew, hset _ _ (objsOf_length slots 0)]
    simp only [objsOf_length] at hi
    rw [List.set_append_left _ _ (by simp; omega), List.set_append_left _ _ (by simp; omega)]
    simp [hsz]

section
variable {F : Faults} {m : Mem} {C : Mem → Prop}

theorem Good.append_frame {m' : Mem} {b : Bool} {e : Nat} {slots slots' : List Slot}
    (hg : Good c m b e slots) (hwf : c.WF)
    (ho : Outside m m' ((pOff c b + 3) * 8) ((pOff c b + c.pu) * 8))
    (hr : Rep c m' b slots') : Good c m' b e slots' := by
  have hp := wf_pos hwf
  refine ⟨hg.part.frame (ho.below (by omega)), hg.stale.frame ?_, hr⟩
  have hi : InPart c b m m' := InPart.of_outside ho (by omega) (Nat.le_refl _)
  exact hi.other.mono (Nat.le_refl _) (by omega)

/-- `AddObject` from a clean state. -/
theorem wp_add {Q : Rc × Ctx → Mem → Prop} {ctx : Ctx} {b : Bool} {e : Nat} {slots : List Slot}
    {md : Meta} {data : List UInt8}
    (hwf : c.WF) (hg : Good c m b e slots) (hctx : CtxOK c ctx b e slots)
    (hlen : data.length < 2 ^ 16)
    (hC : ∀ m' tail, Good c m' b e (slots ++ tail) → AddTail md data tail → C m')
    (hok : ∀ ctx' m' ep, Good c m' b e (slots ++ [.used ep (stored md data) data]) →
      CtxOK c ctx' b e (slots ++ [.used ep (stored md data) data]) → Q (.ok, ctx') m')
    (hno : slots.length = c.N ∨ total slots * 8 + data.length > (c.pu - c.dataOff) * 8 →
      Q (.nospace, ctx) m)
    (hF : F.write = true ∨ F.read = true → ∀ rc m' tail, rc ≠ .ok →
      Good c m' b e (slots ++ tail) → AddTail md data tail → Q (rc, ctx) m') :
    wp c.dev F (addObject c ctx md data) Q C m := by
  obtain ⟨ha, hep, hst, hcnt, hd, hbad⟩ := hctx
  have hbb := bytes2units_bounds data.length
  have hsl := stored_len (md := md) hlen
  have hC0 : C m := hC m [] (by simpa using hg) (.inl rfl)
  unfold addObject
  rw [hbad]
  simp only [Bool.false_eq_true, if_false, hd, ha]
  by_cases hsp : (mkDir c slots).nextFreeObject = c.N ∨
      (mkDir c slots).nextFreeData * 8 + data.length > (mkDir c slots).maxData * 8
  · rw [if_pos hsp]; exact ⟨hC0, hno hsp⟩
  rw [if_neg hsp]
  have hn : slots.length < c.N := by
    have := hg.rep.len
    simp only [mkDir] at hsp; omega
  have hsz : total slots + bytes2units data.length ≤ c.pu - c.dataOff := by
    simp only [mkDir] at hsp; omega
  generalize hepd : newEpoch ((findIndex (mkDir c slots) md.id).bind
    ((mkDir c slots).objects[·]?)) = ep
  have hep' : ep < 2 ^ 32 := by
    rw [← hepd]; unfold newEpoch; split
    · exact Nat.mod_lt _ (by decide)
    · decide
  apply wp_bind
  have hgood : ∀ m' tail, Rep c m' b (slots ++ tail) →
      Outside m m' ((pOff c b + 3) * 8) ((pOff c b + c.pu) * 8) →
      Good c m' b e (slots ++ tail) := fun m' tail hr ho => hg.append_frame hwf ho hr
  have htail : ∀ tail, (tail = [] ∨ tail = [.metaBad] ∨ tail = [.dataBad ep (stored md data)] ∨
      tail = [.used ep (stored md data) data]) → AddTail md data tail := by
    rintro tail (h | h | h | h)
    · exact .inl h
    · exact .inr (.inl h)
    · exact .inr (.inr ⟨ep, .inl h⟩)
    · exact .inr (.inr ⟨ep, .inr h⟩)
  refine wp_objProgram (slots := slots) (e := ep) (md := stored md data) (data := data) hwf
    hg.rep hn hep' hsl hsz ?_ ?_ ?_
  · intro m' tail hr ho ht; exact hC m' tail (hgood m' tail hr ho) (htail tail ht)
  · intro m' hr ho
    rw [if_neg (by simp)]
    have hg' := hgood m' _ hr ho
    refine ⟨hC m' _ hg' (.inr (.inr ⟨ep, .inr rfl⟩)), ?_⟩
    refine hok _ m' ep hg' ⟨rfl, hep, hst, hcnt, ?_, rfl⟩
    exact mkDir_add slots ep md data hn
  · intro hf rc m' tail hrc hr ho ht
    rw [if_pos hrc]
    have hg' := hgood m' _ hr ho
    exact ⟨hC m' _ hg' (htail _ ht), hF hf rc m' tail hrc hg' (htail _ ht)⟩

theorem rep_tail_nonblank {b : Bool} {slots : List Slot} {t : Slot} {rest : List Slot}
    (h : Rep c m b (slots ++ t :: rest)) : ublank c m (objOff c b slots.length) = false := by
  have := (slotsAt_append slots (t :: rest) 0 0).1 h.ents
  have h2 := this.2.1
  simp only [Nat.zero_add] at h2
  exact slotAt_nonblank h2

/-- `AddObject` after an earlier add left an unfinished entry. -/
theorem wp_add_refused {Q : Rc × Ctx → Mem → Prop} {ctx : Ctx} {b : Bool} {e : Nat}
    {slots : List Slot} {t : Slot} {rest : List Slot} {md : Meta} {data : List UInt8}
    (hr : Rep c m b (slots ++ t :: rest)) (hctx : CtxOK c ctx b e slots)
    (hC : C m) (hQ : ∀ rc, rc ≠ .ok → Q (rc, ctx) m) :
    wp c.dev F (addObject c ctx md data) Q C m := by
  obtain ⟨ha, hep, hst, hcnt, hd, hbad⟩ := hctx
  have hnb := rep_tail_nonblank hr
  unfold addObject
  rw [hbad]
  simp only [Bool.false_eq_true, if_false, hd, ha]
  split
  · exact ⟨hC, hQ _ (by simp)⟩
  · apply wp_bind
    unfold objProgram
    apply wp_bind
    unfold objProgramBegin
    apply wp_bind
    refine wp_program_refused (by simpa [ublank, mkDir] using hnb) hC ?_
    intro rc hrc
    apply wp_bind
    refine wp_andThen_err hrc hC ?_
    refine wp_andThen_err hrc hC ?_
    apply wp_bind
    refine wp_andThen_err hrc hC ?_
    refine wp_andThen_err hrc hC ?_
    rw [if_pos hrc]
    exact ⟨hC, hQ rc hrc⟩

/-! ## Reading -/

theorem wp_objRead {Q : Rc × List UInt8 → Mem → Prop} {p : Bool} {i st : Nat} {e : Nat} {md : Meta}
    {data : List UInt8} {off n : Nat} (hwf : c.WF) (h : SlotAt c m p i st (.used e md data))
    (hst : st + bytes2units md.len.toNat ≤ c.pu - c.dataOff)
    (hoff : off < data.length) (hn : off + n ≤ data.length) (hC : C m)
    (hQ : Q (.ok, (data.drop off).take n) m)
    (hF : F.read = true → ∀ rc bs, rc ≠ .ok → Q (rc, bs) m) :
    wp c.dev F (objReadData c p (objOf c st false (.used e md data)) off n) Q C m := by
  obtain ⟨he, hl, h0, h1, h2, h3, h4⟩ := h
  have hb := bytes2units_bounds md.len.toNat
  have hfit := hwf.fits
  have hdev := pOff_bound (c := c) p
  have hrd : rd m ((pDataOff c p + st) * 8 + off) n = (data.drop off).take n := by
    conv => rhs; rw [← h4]
    rw [rd_drop _ _ _ _ (by omega), rd_take _ _ _ _ (by omega)]
  unfold objReadData
  simp only [objOf, Bool.false_eq_true, if_false]
  rw [if_neg (by omega), if_neg (by omega),
    if_neg (by simp [checkDataRange_ok (c := c) (p := p) (st := st) (k := off) (len := n) hwf
      (by omega)])]
  apply wp_bind
  refine wp_readBytes ?_ ?_ hC ?_ ?_
  · left; show _ ≤ 16 * c.pu; unfold pDataOff; omega
  · show _ ≤ 16 * c.pu; rw [bytes2units_eq]; unfold pDataOff; omega
  · dsimp only
    rw [hrd]
    split
    · rename_i hc
      exfalso
      obtain ⟨hcrc, -, -, ho0, hlen, hne⟩ := hc
      apply hne
      rw [ho0, hlen, hl]; simp [dcrc, hcrc]
    · exact ⟨hC, hQ⟩
  · intro hf rc bs hrc
    dsimp only
    rw [if_neg (by simp [hrc])]
    exact ⟨hC, hF hf rc bs hrc⟩

/-- `Read` answers from the view. -/
theorem wp_readObject {Q : Rc × List UInt8 → Mem → Prop} {ctx : Ctx} {b : Bool} {e : Nat}
    {slots slots' : List Slot} {id : UInt16} {off n : Nat}
    (hwf : c.WF) (hr : Rep c m b (slots ++ slots')) (hctx : CtxOK c ctx b e slots) (hC : C m)
    (h1 : view slots id = none → Q (.notfound, []) m)
    (h2 : ∀ md data, view slots id = some (md, data) → md.len.toNat = data.length →
      (off < data.length → off + n ≤ data.length → Q (.ok, (data.drop off).take n) m) ∧
      (¬ (off < data.length ∧ off + n ≤ data.length) → Q (.badargs, []) m))
    (hF : F.read = true → ∀ rc bs, rc ≠ .ok → Q (rc, bs) m) :
    wp c.dev F (readObject c ctx id off n) Q C m := by
  obtain ⟨ha, hep, hst, hcnt, hd, hbad⟩ := hctx
  have hs := ((slotsAt_append slots slots' 0 0).1 hr.ents).1
  have hfit := hr.fits
  rw [total_append] at hfit
  unfold readObject
  rw [hbad, hd, lookup_mkDir]
  simp only [Bool.false_eq_true, if_false]
  rcases find_objsOf id hs with ⟨hv, hf⟩ | ⟨e', md, data, i', st', hv, hid, hf, hslot, -, hb⟩
  · rw [hf]; exact ⟨hC, h1 hv⟩
  · rw [hf, ha]
    have hl := hslot.2.1
    have h2' := h2 md data hv hl
    by_cases hin : off < data.length ∧ off + n ≤ data.length
    · exact wp_objRead hwf hslot (by omega) hin.1 hin.2 hC (h2'.1 hin.1 hin.2) hF
    · dsimp only
      unfold objReadData
      simp only [objOf]
      by_cases h3 : off ≥ md.len.toNat
      · simp only [h3, if_true]; exact ⟨hC, h2'.2 hin⟩
      · have h4 : n > md.len.toNat - off := by omega
        simp only [h3, h4, if_true, if_false]; exact ⟨hC, h2'.2 hin⟩

/-! ## Copying one object -/

theorem wp_copyLoop {Q : Rc × List UInt8 × Nat → Mem → Prop} {src dst : Bool} {i st e : Nat}
    {md : Meta} {data : List UInt8} {done : List Slot} {m0 : Mem}
    (hwf : c.WF) (hsd : src = !dst)
    (hi : i < c.N) (hslot : SlotAt c m0 src i st (.used e md data))
    (hst : st + bytes2units md.len.toNat ≤ c.pu - c.dataOff)
    (hn : done.length < c.N)
    (hsz : total done + bytes2units data.length ≤ c.pu - c.dataOff)
    (hC : ∀ m', Near c dst done m0 m' (bytes2units data.length) → C m')
    (hok : ∀ m', Near c dst done m0 m' (bytes2units data.length) →
      SlotAt c m' dst done.length (total done) (.dataBad e md) →
      rd m' ((pDataOff c dst + total done) * 8) data.length = data →
      Q (.ok, data, total done + bytes2units data.length) m')
    (hF : F.write = true ∨ F.read = true → ∀ rc acc dd m', rc ≠ .ok →
      Near c dst done m0 m' (bytes2units data.length) → Q (rc, acc, dd) m') :
    ∀ fuel k m, k ≤ data.length → (k % 8 = 0 ∨ k = data.length) → data.length - k ≤ fuel →
      Near c dst done m0 m (bytes2units data.length) →
      SlotAt c m dst done.length (total done) (.dataBad e md) →
      rd m ((pDataOff c dst + total done) * 8) k = data.take k →
      isBlank c.dev m ((pDataOff c dst + total done + bytes2units k) * 8)
        ((bytes2units data.length - bytes2units k) * 8) = true →
      wp c.dev F (copyLoop c src dst (objOf c st false (.used e md data)) fuel k
        (total done + bytes2units k) (data.take k)) Q C m := by
  have hl := hslot.2.1
  have hlen := hslot.2.1
  have hfin : ∀ m, Near c dst done m0 m (bytes2units data.length) →
      SlotAt c m dst done.length (total done) (.dataBad e md) →
      rd m ((pDataOff c dst + total done) * 8) data.length = data.take data.length →
      C m ∧ Q (.ok, data.take data.length, total done + bytes2units data.length) m := by
    intro m hnear hs hrd
    rw [List.take_length] at *
    exact ⟨hC m hnear, hok m hnear hs hrd⟩
  intro fuel
  induction fuel with
  | zero =>
    intro k m hk hk8 hfuel hnear hs hrd hbl
    have : k = data.length := by omega
    subst this
    exact hfin m hnear hs hrd
  | succ fuel ih =>
    intro k m hk hk8 hfuel hnear hs hrd hbl
    unfold copyLoop
    simp only [objOf, Bool.false_eq_true, if_false]
    by_cases hlt : k < md.len.toNat
    · rw [if_pos hlt]
      have hnk : k + (if md.len.toNat - k < 64 then md.len.toNat - k else 64) ≤ data.length := by
        split <;> omega
      have hnk8 : (k + (if md.len.toNat - k < 64 then md.len.toNat - k else 64)) % 8 = 0 ∨
          k + (if md.len.toNat - k < 64 then md.len.toNat - k else 64) = data.length := by
        split <;> omega
      have hnpos : 0 < (if md.len.toNat - k < 64 then md.len.toNat - k else 64) := by
        split <;> omega
      generalize (if md.len.toNat - k < 64 then md.len.toNat - k else 64) = n at *
      have hk8' : k % 8 = 0 := by omega
      have hbk : bytes2units k * 8 = k := by rw [bytes2units_eq]; omega
      have hbn : bytes2units (k + n) = bytes2units k + bytes2units n := by
        rw [bytes2units_eq, bytes2units_eq, bytes2units_eq]; omega
      have hble : bytes2units (k + n) ≤ bytes2units data.length := by
        rw [bytes2units_eq, bytes2units_eq]; omega
      -- the source is untouched
      have hsrc : SlotAt c m src i st (.used e md data) := by
        have hin : InPart c dst m0 m := InPart.of_outside (hnear.outside hwf hn hsz)
          (by omega) (Nat.le_refl _)
        have ha := hin.other
        rw [← hsd] at ha
        refine hslot.frame ?_ ?_
        · refine ha.mono (by unfold objOff; omega) ?_
          have := hwf.fits
          unfold objOff Cfg.dataOff at *; omega
        · refine ha.mono (by unfold pDataOff; omega) ?_
          have := hwf.fits
          simp only [Slot.size, pDataOff]; omega
      apply wp_bind
      have := wp_objRead (F := F) (C := C) (off := k) (n := n) hwf hsrc hst (by omega) (by omega)
        (hC m hnear) (Q := fun r m' => r = (.ok, (data.drop k).take n) ∧ m' = m ∨
          F.read = true ∧ r.1 ≠ .ok ∧ m' = m) (.inl ⟨rfl, rfl⟩)
        (fun hf rc bs hrc => .inr ⟨hf, hrc, rfl⟩)
      refine wp_mono this ?_ (fun _ h => h)
      rintro ⟨rc, buf⟩ m' (⟨h, rfl⟩ | ⟨hf, hrc, rfl⟩)
      · cases h
        dsimp only
        apply wp_bind
        apply wp_andThen_ok
        have hbuf : ((data.drop k).take n).length = n := by simp; omega
        have hadr : (pDataOff c dst + (total done + bytes2units k)) * 8 =
            (pDataOff c dst + total done) * 8 + k := by omega
        have hstep : ∀ m2, Outside m' m2 ((pDataOff c dst + (total done + bytes2units k)) * 8)
            ((pDataOff c dst + (total done + bytes2units k)) * 8 +
              bytes2units ((data.drop k).take n).length * 8) →
            Near c dst done m0 m2 (bytes2units data.length) ∧
            SlotAt c m2 dst done.length (total done) (.dataBad e md) := by
          intro m2 ho
          rw [hbuf] at ho
          refine ⟨hnear.trans (Near.of_data ho (by omega) (by omega)), ?_⟩
          exact dataBad_data hn hs fun x hx => ho x (by omega)
        refine wp_progData hwf (by rw [hbuf]; omega) ?_ ?_ ?_ ?_
        · rw [hbuf]
          exact isBlank_sub hbl (by omega) (by omega)
        · intro m2 ho; exact hC m2 (hstep m2 ho).1
        · intro m2 ho hrd2
          rw [if_pos rfl]
          have h1 := hstep m2 ho
          rw [hbuf] at ho hrd2
          have e1 : total done + bytes2units k + bytes2units n = total done + bytes2units (k + n) := by
            omega
          have e2 : data.take k ++ (data.drop k).take n = data.take (k + n) := by
            rw [List.take_add]
          rw [e1, e2]
          refine ih (k + n) m2 hnk hnk8 (by omega) h1.1 h1.2 ?_ ?_
          · rw [rd_append, ← e2, rd_agree (m := m') (m' := m2), hrd, ← hadr, hrd2]
            exact ho.below (by omega)
          · rw [isBlank_agree (ho.above (a := (pDataOff c dst + total done +
              bytes2units (k + n)) * 8) (b := (pDataOff c dst + total done +
              bytes2units data.length) * 8) (by omega)) (by omega) (by omega)]
            exact isBlank_sub hbl (by omega) (by omega)
        · intro hf rc m2 hrc ho
          rw [if_neg hrc]
          have h1 := hstep m2 ho
          exact ⟨hC m2 h1.1, hF hf _ _ _ _ hrc h1.1⟩
      · dsimp only at hrc ⊢
        apply wp_bind
        refine wp_andThen_err hrc (hC _ hnear) ?_
        rw [if_neg hrc]
        exact ⟨hC _ hnear, hF (.inr hf) _ _ _ _ hrc hnear⟩
    · rw [if_neg hlt]
      have : k = data.length := by omega
      subst this
      exact hfin m hnear hs hrd

/-- `nfObject_Copy`. -/
theorem wp_objCopy {Q : Rc × Nat → Mem → Prop} {src dst : Bool} {i st e : Nat}
    {md : Meta} {data : List UInt8} {done : List Slot}
    (hwf : c.WF) (hsd : src = !dst) (hi : i < c.N)
    (hslot : SlotAt c m src i st (.used e md data))
    (hst : st + bytes2units md.len.toNat ≤ c.pu - c.dataOff)
    (hrep : Rep c m dst done)
    (hn : done.length < c.N)
    (hsz : total done + bytes2units data.length ≤ c.pu - c.dataOff)
    (hC : ∀ m', Outside m m' ((pOff c dst + 3) * 8) ((pOff c dst + c.pu) * 8) → C m')
    (hok : ∀ m', Outside m m' ((pOff c dst + 3) * 8) ((pOff c dst + c.pu) * 8) →
      Rep c m' dst (done ++ [.used e md data]) →
      Q (.ok, total (done ++ [.used e md data])) m')
    (hF : F.write = true ∨ F.read = true → ∀ rc dd m', rc ≠ .ok →
      Outside m m' ((pOff c dst + 3) * 8) ((pOff c dst + c.pu) * 8) → Q (rc, dd) m') :
    wp c.dev F (objCopy c src dst (objOf c st false (.used e md data)) done.length (total done))
      Q C m := by
  have hfit := hwf.fits
  have hl := hslot.2.1
  have hout : ∀ m', Near c dst done m m' (bytes2units data.length) →
      Outside m m' ((pOff c dst + 3) * 8) ((pOff c dst + c.pu) * 8) :=
    fun m' h => h.outside hwf hn hsz
  have hCn : ∀ m', Near c dst done m m' (bytes2units data.length) → C m' :=
    fun m' h => hC m' (hout m' h)
  have hPn : ∀ m', Partly c dst done m m' e md → Near c dst done m m' (bytes2units data.length) := by
    intro m' hp
    cases hp with
    | none h => subst h; exact Near.refl
    | metaBad h _ => exact h.mono (Nat.zero_le _)
    | dataBad h _ => rw [hl] at h; exact h
  have htot : total (done ++ [Slot.used e md data]) = total done + bytes2units data.length := by
    rw [total_append]; simp [total, Slot.size, hl]
  unfold objCopy
  simp only [objOf, Bool.false_eq_true, if_false]
  rw [if_neg (by rintro ⟨hc, hne⟩; apply hne; simp [mcrc, hc])]
  apply wp_bind
  refine wp_begin hwf hrep hn hslot.1 (fun m' hp => hCn m' (hPn m' hp)) ?_ ?_
  · intro m1 hn1 hs1
    rw [if_pos rfl]
    apply wp_bind
    have hn1' := hn1.mono (Nat.zero_le (bytes2units data.length))
    have hloop := wp_copyLoop (F := F) (C := C) (Q := fun r m2 => wp c.dev F (do
        let rc ← andThen r.1 (if c.crc ∧ crcOf r.2.1 ≠ dcrc c data then pure .notverified
          else objProgramFinish c dst done.length md.len.toNat (dcrc c data))
        pure (rc, r.2.2)) Q C m2) hwf hsd hi hslot hst hn hsz hCn ?_ ?_
      md.len.toNat 0 m1 (by omega) (.inl rfl) (by omega) hn1' hs1 rfl ?_
    · have e0 : bytes2units 0 = 0 := rfl
      rw [e0, Nat.add_zero, List.take_zero] at hloop
      exact hloop
    · intro m2 hn2 hs2 hrd2
      dsimp only
      apply wp_bind
      apply wp_andThen_ok
      rw [if_neg (by rintro ⟨hc, hne⟩; apply hne; simp [dcrc, hc])]
      have hfin : ∀ m3, Outside m2 m3 (objOff c dst done.length * 8)
          ((objOff c dst done.length + 7) * 8) →
          SlotAt c m3 dst done.length (total done) (.used e md data) →
          Rep c m3 dst (done ++ [.used e md data]) ∧
          Near c dst done m m3 (bytes2units data.length) := by
        intro m3 ho3 hs3
        have hn3 : Near c dst done m m3 (bytes2units data.length) :=
          hn2.trans (Near.of_obj ho3 (by omega) (by rw [objOff_succ]))
        exact ⟨rep_extend hwf hrep hn (by simp only [Slot.size, hl]; omega)
          (by simp only [Slot.size, hl]; exact hn3) hs3, hn3⟩
      refine wp_finish hwf hn hl hs2 hrd2 (hCn _ hn2) ?_ ?_ ?_
      · intro m3 ho3 hs3; exact hCn _ (hfin m3 ho3 hs3).2
      · intro m3 ho3 hs3
        have h3 := hfin m3 ho3 hs3
        refine ⟨hCn _ h3.2, ?_⟩
        rw [← htot]
        exact hok m3 (hout _ h3.2) h3.1
      · intro hf rc hrc
        refine ⟨⟨hCn _ hn2, hF hf rc _ _ hrc (hout _ hn2)⟩, fun m3 ho3 hs3 => ?_⟩
        have h3 := hfin m3 ho3 hs3
        exact ⟨hCn _ h3.2, hF hf rc _ _ hrc (hout _ h3.2)⟩
    · intro hf rc acc dd m2 hrc hn2
      dsimp only
      apply wp_bind
      refine wp_andThen_err hrc (hCn _ hn2) ?_
      exact ⟨hCn _ hn2, hF hf rc _ _ hrc (hout _ hn2)⟩
    · have e0 : bytes2units 0 = 0 := rfl
      rw [e0, Nat.sub_zero, Nat.add_zero]
      have ha : Agree m m1 ((pDataOff c dst + total done) * 8) ((pOff c dst + c.pu) * 8) := by
        intro x h1 h2
        apply hn1 x
        · right; unfold objOff pDataOff Cfg.dataOff at *; omega
        · omega
      rw [isBlank_agree ha (by omega) (by unfold pDataOff at *; omega)]
      exact isBlank_sub hrep.dataBlank (by omega) (by omega)
  · intro hf rc m' hrc hp
    rw [if_neg hrc]
    exact ⟨hCn _ (hPn _ hp), hF hf rc _ _ hrc (hout _ (hPn _ hp))⟩

end

end WolfHsm.NvmFlash

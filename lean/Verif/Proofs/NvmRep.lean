import Verif.Proofs.NvmEnc
import Verif.Proofs.FlashUnit

/-!
# What the flash content of a partition means

`Slot` is one directory entry as the recovery code classifies it; `Rep` relates the
bytes of a partition to a list of slots; `mkDir` is the directory that reading and
parsing such a partition yields.
-/

namespace WolfHsm.NvmFlash

open Flash FlashUnit

/-- The 8 bytes of unit `u`. -/
def word (m : Mem) (u : Nat) : List UInt8 := rd m (u * 8) 8

/-- Unit `u` is blank. -/
def ublank (c : Cfg) (m : Mem) (u : Nat) : Bool := isBlank c.dev m (u * 8) 8

/-- One directory entry. -/
inductive Slot
  | used (e : Nat) (md : Meta) (data : List UInt8)
  | dataBad (e : Nat) (md : Meta)
  | metaBad

/-- Units of the data area an entry occupies. -/
def Slot.size : Slot → Nat
  | .used _ md _ => bytes2units md.len.toNat
  | .dataBad _ md => bytes2units md.len.toNat
  | .metaBad => 0

/-- Is it an intact object with this id? -/
def Slot.hasId : Slot → UInt16 → Bool
  | .used _ md _, id => md.id == id
  | _, _ => false

def Slot.isUsed : Slot → Bool
  | .used _ _ _ => true
  | _ => false

/-- Total units. -/
def total : List Slot → Nat
  | [] => 0
  | s :: rest => s.size + total rest

/-- CRC stored for metadata. -/
def mcrc (c : Cfg) (md : Meta) : Nat := if c.crc then crcOf md.ser else 0
/-- CRC stored for data. -/
def dcrc (c : Cfg) (data : List UInt8) : Nat := if c.crc then crcOf data else 0

theorem mcrc_lt (c : Cfg) (md : Meta) : mcrc c md < 2 ^ 16 := by
  unfold mcrc; split
  · exact crcOf_lt _
  · decide
theorem dcrc_lt (c : Cfg) (data : List UInt8) : dcrc c data < 2 ^ 16 := by
  unfold dcrc; split
  · exact crcOf_lt _
  · decide

/-- Entry `i` of partition `p`, with its data at unit `st` of the data area. -/
def SlotAt (c : Cfg) (m : Mem) (p : Bool) (i st : Nat) : Slot → Prop
  | .used e md data => e < 2 ^ 32 ∧ md.len.toNat = data.length ∧
      word m (objOff c p i) = unitBytes (BASE_STATE ||| e) ∧
      word m (objOff c p i + 1) = unitBytes (startWord c st (mcrc c md)) ∧
      word m (objOff c p i + 2) =
        unitBytes (countWord c (bytes2units md.len.toNat) (dcrc c data)) ∧
      rd m ((objOff c p i + 3) * 8) 32 = md.ser ∧
      rd m ((pDataOff c p + st) * 8) data.length = data
  | .dataBad e md => e < 2 ^ 32 ∧
      word m (objOff c p i) = unitBytes (BASE_STATE ||| e) ∧
      word m (objOff c p i + 1) = unitBytes (startWord c st (mcrc c md)) ∧
      ublank c m (objOff c p i + 2) = true ∧
      rd m ((objOff c p i + 3) * 8) 32 = md.ser
  | .metaBad =>
      ublank c m (objOff c p i) = false ∧
      ublank c m (objOff c p i + 1) = true ∧
      ublank c m (objOff c p i + 2) = true

/-- Entries from index `i`, data unit `st` on. -/
def SlotsAt (c : Cfg) (m : Mem) (p : Bool) : Nat → Nat → List Slot → Prop
  | _, _, [] => True
  | i, st, s :: rest => SlotAt c m p i st s ∧ SlotsAt c m p (i + 1) (st + s.size) rest

/-- The partition holds exactly these entries; the rest of it is blank. -/
structure Rep (c : Cfg) (m : Mem) (p : Bool) (slots : List Slot) : Prop where
  len : slots.length ≤ c.N
  fits : total slots ≤ c.pu - c.dataOff
  ents : SlotsAt c m p 0 0 slots
  dirBlank : isBlank c.dev m (objOff c p slots.length * 8)
    ((7 * (c.N - slots.length)) * 8) = true
  dataBlank : isBlank c.dev m ((pDataOff c p + total slots) * 8)
    ((c.pu - c.dataOff - total slots) * 8) = true

theorem total_append (a b : List Slot) : total (a ++ b) = total a + total b := by
  induction a with
  | nil => simp [total]
  | cons s rest ih => simp [total, ih]; omega

theorem slotsAt_append {c : Cfg} {m : Mem} {p : Bool} (a b : List Slot) : ∀ i st,
    SlotsAt c m p i st (a ++ b) ↔
      SlotsAt c m p i st a ∧ SlotsAt c m p (i + a.length) (st + total a) b := by
  induction a with
  | nil => intro i st; simp [SlotsAt, total]
  | cons s rest ih =>
    intro i st
    simp only [List.cons_append, SlotsAt, ih, List.length_cons, total, and_assoc]
    rw [show i + 1 + rest.length = i + (rest.length + 1) by omega,
      show st + s.size + total rest = st + (s.size + total rest) by omega]

/-! ## Offsets -/

variable {c : Cfg}

theorem pOff_bound (p : Bool) : pOff c p + c.pu ≤ 2 * c.pu := by
  cases p <;> simp [pOff] <;> omega

theorem objOff_le (p : Bool) {i : Nat} (h : i ≤ c.N) : objOff c p i ≤ pDataOff c p := by
  unfold objOff pDataOff Cfg.dataOff; omega

theorem objOff_succ (p : Bool) (i : Nat) : objOff c p (i + 1) = objOff c p i + 7 := by
  unfold objOff; omega

/-! ## Frames -/

theorem word_agree {m m' : Mem} {u lo hi : Nat} (h : Agree m m' lo hi) (h1 : lo ≤ u * 8)
    (h2 : u * 8 + 8 ≤ hi) : word m' u = word m u := rd_eq_of_agree h h1 h2

theorem ublank_agree {m m' : Mem} {u lo hi : Nat} (h : Agree m m' lo hi) (h1 : lo ≤ u * 8)
    (h2 : u * 8 + 8 ≤ hi) : ublank c m' u = ublank c m u := isBlank_agree h h1 h2

theorem SlotAt.frame {m m' : Mem} {p : Bool} {i st : Nat} {s : Slot} (h : SlotAt c m p i st s)
    (h1 : Agree m m' (objOff c p i * 8) ((objOff c p i + 7) * 8))
    (h2 : Agree m m' ((pDataOff c p + st) * 8) ((pDataOff c p + st + s.size) * 8)) :
    SlotAt c m' p i st s := by
  cases s with
  | used e md data =>
    obtain ⟨a, b, c1, c2, c3, c4, c5⟩ := h
    have hb := bytes2units_bounds md.len.toNat
    refine ⟨a, b, ?_, ?_, ?_, ?_, ?_⟩
    · rw [word_agree h1 (by omega) (by omega)]; exact c1
    · rw [word_agree h1 (by omega) (by omega)]; exact c2
    · rw [word_agree h1 (by omega) (by omega)]; exact c3
    · rw [rd_eq_of_agree h1 (by omega) (by omega)]; exact c4
    · simp only [Slot.size] at h2
      rw [rd_eq_of_agree h2 (by omega) (by omega)]; exact c5
  | dataBad e md =>
    obtain ⟨a, c1, c2, c3, c4⟩ := h
    refine ⟨a, ?_, ?_, ?_, ?_⟩
    · rw [word_agree h1 (by omega) (by omega)]; exact c1
    · rw [word_agree h1 (by omega) (by omega)]; exact c2
    · rw [ublank_agree h1 (by omega) (by omega)]; exact c3
    · rw [rd_eq_of_agree h1 (by omega) (by omega)]; exact c4
  | metaBad =>
    obtain ⟨c1, c2, c3⟩ := h
    refine ⟨?_, ?_, ?_⟩
    · rw [ublank_agree h1 (by omega) (by omega)]; exact c1
    · rw [ublank_agree h1 (by omega) (by omega)]; exact c2
    · rw [ublank_agree h1 (by omega) (by omega)]; exact c3

theorem SlotsAt.frame {m m' : Mem} {p : Bool} {slots : List Slot} : ∀ {i st : Nat},
    SlotsAt c m p i st slots →
    Agree m m' (objOff c p i * 8) (objOff c p (i + slots.length) * 8) →
    Agree m m' ((pDataOff c p + st) * 8) ((pDataOff c p + st + total slots) * 8) →
    SlotsAt c m' p i st slots := by
  induction slots with
  | nil => intros; trivial
  | cons s rest ih =>
    intro i st h h1 h2
    simp only [List.length_cons, total] at h1 h2
    have e1 : objOff c p (i + (rest.length + 1)) = objOff c p i + 7 * (rest.length + 1) := by
      unfold objOff; omega
    have e2 : objOff c p (i + 1 + rest.length) = objOff c p i + 7 * (rest.length + 1) := by
      unfold objOff; omega
    refine ⟨h.1.frame (h1.mono (by omega) (by omega)) (h2.mono (by omega) (by omega)), ?_⟩
    refine ih h.2 (h1.mono ?_ (by omega)) (h2.mono (by omega) (by omega))
    rw [objOff_succ]; omega

/-- `Rep` only depends on the directory and data area of the partition. -/
theorem Rep.frame {m m' : Mem} {p : Bool} {slots : List Slot} (h : Rep c m p slots)
    (hwf : c.dataOff ≤ c.pu)
    (ha : Agree m m' ((pOff c p + 3) * 8) ((pOff c p + c.pu) * 8)) : Rep c m' p slots := by
  have hl := h.len
  have hf := h.fits
  have e1 : objOff c p slots.length + 7 * (c.N - slots.length) = pOff c p + c.dataOff := by
    unfold objOff Cfg.dataOff; omega
  have e0 : objOff c p (0 + slots.length) = objOff c p slots.length := by simp
  have e2 : pOff c p + 3 ≤ objOff c p slots.length := by unfold objOff; omega
  have e3 : objOff c p 0 = pOff c p + 3 := by unfold objOff; omega
  have e4 : pDataOff c p = pOff c p + c.dataOff := rfl
  refine ⟨hl, hf, h.ents.frame (ha.mono ?_ ?_) (ha.mono ?_ ?_), ?_, ?_⟩
  · omega
  · omega
  · unfold Cfg.dataOff at *; omega
  · omega
  · rw [isBlank_agree ha (by omega) (by omega)]; exact h.dirBlank
  · rw [isBlank_agree ha (by unfold Cfg.dataOff at *; omega) (by omega)]; exact h.dataBlank

/-! ## Reading state and objects -/

/-- The outcome of `nfMemState_Read` as a function of the flash content. -/
def stateAt (c : Cfg) (m : Mem) (off : Nat) : MemState :=
  if ublank c m off = false ∧ ublank c m (off + 1) = false ∧ ublank c m (off + 2) = false then
    { status := .used
      epoch := unitVal (word m off) % 2 ^ 32
      start := unitVal (word m (off + 1)) % 2 ^ 32
      count := unitVal (word m (off + 2)) % 2 ^ 32
      crcMeta := if c.crc then crcExtract (unitVal (word m (off + 1))) else 0
      crcData := if c.crc then crcExtract (unitVal (word m (off + 2))) else 0 }
  else if ublank c m off = false ∧ ublank c m (off + 1) = false then
    { status := .dataBad
      epoch := unitVal (word m off) % 2 ^ 32
      start := unitVal (word m (off + 1)) % 2 ^ 32
      count := 0
      crcMeta := if c.crc then crcExtract (unitVal (word m (off + 1))) else 0
      crcData := 0 }
  else if ublank c m off = false then { MemState.zero with status := .metaBad }
  else { MemState.zero with status := .free }

/-- The outcome of `nfMemObject_Read`. -/
def objectAt (c : Cfg) (m : Mem) (off : Nat) : MemObj :=
  let st := stateAt c m off
  if st.status = .used ∨ st.status = .dataBad then
    let md := Meta.deser (rd m ((off + 3) * 8) 32)
    if c.crc ∧ crcOf md.ser ≠ st.crcMeta then
      ⟨{ st with status := if st.status = .used then .crcBad else .lenBad }, Meta.zero⟩
    else ⟨st, md⟩
  else ⟨st, Meta.zero⟩

theorem rcOf_blank (b : Bool) : (if b then Rc.ok else Rc.notblank) = .notblank ↔ b = false := by
  cases b <;> simp

section
variable {F : Faults} {m : Mem} {C : Mem → Prop}

theorem wp_blank1 {Q : Rc → Mem → Prop} {u : Nat} (hF : F.read = false)
    (hr : u * 8 + 8 ≤ c.dev.size) (hC : C m)
    (hQ : Q (if ublank c m u then .ok else .notblank) m) :
    wp c.dev F (blankCheck u 1) Q C m := by
  refine wp_blankCheck (by omega) hC ?_ ?_ (by simp [hF])
  · intro h
    have : ublank c m u = true := by simpa only [ublank, Nat.one_mul] using h
    simpa only [this, if_true] using hQ
  · intro h
    have : ublank c m u = false := by simpa only [ublank, Nat.one_mul] using h
    simpa [this] using hQ

theorem wp_stateRead {Q : Rc × MemState → Mem → Prop} {off : Nat} (hF : F.read = false)
    (hr : (off + 3) * 8 ≤ c.dev.size) (hC : C m) (hQ : Q (.ok, stateAt c m off) m) :
    wp c.dev F (stateRead c off) Q C m := by
  unfold stateRead
  apply wp_bind
  refine wp_blank1 hF (by omega) hC ?_
  dsimp only
  rw [if_neg (by cases ublank c m off <;> simp)]
  apply wp_bind
  refine wp_blank1 hF (by omega) hC ?_
  rw [if_neg (by cases ublank c m (off + 1) <;> simp)]
  apply wp_bind
  refine wp_blank1 hF (by omega) hC ?_
  rw [if_neg (by cases ublank c m (off + 2) <;> simp)]
  unfold stateAt at hQ
  simp only [rcOf_blank]
  split
  · rename_i h
    rw [if_pos h] at hQ
    apply wp_bind
    refine wp_read (by omega) hC ?_ (by simp [hF])
    simp only [ne_eq, not_true, if_false]
    refine ⟨hC, ?_⟩
    have e0 : (rd m (off * 8) (3 * 8)).take 8 = word m off := rd_take _ _ _ _ (by omega)
    have e1 : ((rd m (off * 8) (3 * 8)).drop 8).take 8 = word m (off + 1) := by
      rw [rd_drop _ _ _ _ (by omega), rd_take _ _ _ _ (by omega)]
      unfold word; congr 1; omega
    have e2 : ((rd m (off * 8) (3 * 8)).drop 16).take 8 = word m (off + 2) := by
      rw [rd_drop _ _ _ _ (by omega), rd_take _ _ _ _ (by omega)]
      unfold word; congr 1; omega
    rw [e0, e1, e2]
    exact hQ
  · rename_i h
    rw [if_neg h] at hQ
    split
    · rename_i h'
      rw [if_pos h'] at hQ
      apply wp_bind
      refine wp_read (by omega) hC ?_ (by simp [hF])
      simp only [ne_eq, not_true, if_false]
      refine ⟨hC, ?_⟩
      have e0 : (rd m (off * 8) (2 * 8)).take 8 = word m off := rd_take _ _ _ _ (by omega)
      have e1 : ((rd m (off * 8) (2 * 8)).drop 8).take 8 = word m (off + 1) := by
        rw [rd_drop _ _ _ _ (by omega), rd_take _ _ _ _ (by omega)]
        unfold word; congr 1; omega
      rw [e0, e1]
      exact hQ
    · rename_i h'
      rw [if_neg h'] at hQ
      split
      · rename_i h''; rw [if_pos h''] at hQ; exact ⟨hC, hQ⟩
      · rename_i h''; rw [if_neg h''] at hQ; exact ⟨hC, hQ⟩

theorem wp_objectRead {Q : Rc × MemObj → Mem → Prop} {off : Nat} (hF : F.read = false)
    (hr : (off + 7) * 8 ≤ c.dev.size) (hC : C m) (hQ : Q (.ok, objectAt c m off) m) :
    wp c.dev F (objectRead c off) Q C m := by
  unfold objectRead
  apply wp_bind
  refine wp_stateRead hF (by omega) hC ?_
  unfold objectAt at hQ
  dsimp only at hQ ⊢
  simp only [true_and]
  split
  · rename_i h
    rw [if_pos h] at hQ
    apply wp_bind
    refine wp_read (by omega) hC ?_ (by simp [hF])
    simp only [if_true]
    split
    · rename_i h'
      rw [if_pos h'] at hQ
      exact ⟨hC, hQ⟩
    · rename_i h'
      rw [if_neg h'] at hQ
      exact ⟨hC, hQ⟩
  · rename_i h
    rw [if_neg h] at hQ
    exact ⟨hC, hQ⟩

theorem wp_readObjects {p : Bool} (hF : F.read = false) (hC : C m) : ∀ (n i : Nat)
    {Q : List MemObj → Mem → Prop}
    (_ : objOff c p (i + n) * 8 ≤ c.dev.size)
    (_ : Q ((List.range' i n).map fun j => objectAt c m (objOff c p j)) m),
    wp c.dev F (readObjects c p n i) Q C m := by
  intro n
  induction n with
  | zero => intro i Q _ hQ; exact ⟨hC, hQ⟩
  | succ n ih =>
    intro i Q hr hQ
    unfold readObjects
    have e : objOff c p (i + (n + 1)) = objOff c p i + 7 + 7 * n := by unfold objOff; omega
    apply wp_bind
    refine wp_objectRead hF (by omega) hC ?_
    apply wp_bind
    refine ih (i + 1) (by unfold objOff at *; omega) ?_
    refine ⟨hC, ?_⟩
    simpa [List.range'_succ] using hQ

end

/-! ## From slots to the directory -/

/-- The directory entry of a slot; `sh`: a later entry supersedes it. -/
def objOf (c : Cfg) (st : Nat) (sh : Bool) : Slot → MemObj
  | .used e md data =>
    ⟨⟨if sh then .dataBad else .used, e, st, bytes2units md.len.toNat, mcrc c md,
      dcrc c data⟩, md⟩
  | .dataBad e md => ⟨⟨.dataBad, e, st, 0, mcrc c md, 0⟩, md⟩
  | .metaBad => ⟨⟨.metaBad, 0, 0, 0, 0, 0⟩, Meta.zero⟩

/-- A free entry. -/
def freeObj : MemObj := ⟨⟨.free, 0, 0, 0, 0, 0⟩, Meta.zero⟩

/-- Is the slot superseded by a later one? -/
def shadowed (s : Slot) (rest : List Slot) : Bool :=
  match s with
  | .used _ md _ => rest.any (·.hasId md.id)
  | _ => false

/-- Entries as read (before duplicates are marked). -/
def rawObjs (c : Cfg) : Nat → List Slot → List MemObj
  | _, [] => []
  | st, s :: rest => objOf c st false s :: rawObjs c (st + s.size) rest

/-- Entries after duplicates are marked. -/
def objsOf (c : Cfg) : Nat → List Slot → List MemObj
  | _, [] => []
  | st, s :: rest => objOf c st (shadowed s rest) s :: objsOf c (st + s.size) rest

/-- A slot that holds a current object. -/
def live (s : Slot) (rest : List Slot) : Bool := s.isUsed && !shadowed s rest

/-- Number of entries that compaction frees. -/
def recEntries : List Slot → Nat
  | [] => 0
  | s :: rest => (if live s rest then 0 else 1) + recEntries rest

/-- Data units that compaction frees. -/
def recData : List Slot → Nat
  | [] => 0
  | s :: rest => (if live s rest then 0 else s.size) + recData rest

/-- The directory of a partition holding `slots`. -/
def mkDir (c : Cfg) (slots : List Slot) : Dir where
  objects := objsOf c 0 slots ++ List.replicate (c.N - slots.length) freeObj
  nextFreeObject := slots.length
  nextFreeData := total slots
  reclaimEntries := recEntries slots
  reclaimData := recData slots
  maxData := c.pu - c.dataOff

@[simp] theorem rawObjs_length (slots : List Slot) : ∀ st, (rawObjs c st slots).length =
    slots.length := by
  induction slots with
  | nil => intro; rfl
  | cons s rest ih => intro st; simp [rawObjs, ih]

@[simp] theorem objsOf_length (slots : List Slot) : ∀ st, (objsOf c st slots).length =
    slots.length := by
  induction slots with
  | nil => intro; rfl
  | cons s rest ih => intro st; simp [objsOf, ih]

theorem ublank_word {m : Mem} {u w : Nat} (hw : IsWord w) (h : word m u = unitBytes w) :
    ublank c m u = false := word_not_blank hw h

theorem slotAt_nonblank {m : Mem} {p : Bool} {i st : Nat} {s : Slot} (h : SlotAt c m p i st s) :
    ublank c m (objOff c p i) = false := by
  cases s with
  | used e md data => exact ublank_word (isWord_base h.1) h.2.2.1
  | dataBad e md => exact ublank_word (isWord_base h.1) h.2.1
  | metaBad => exact h.1

theorem objectAt_slot {m : Mem} {p : Bool} {i st : Nat} {s : Slot} (h : SlotAt c m p i st s)
    (hst : st < 2 ^ 32) (hsz : s.size < 2 ^ 32) :
    objectAt c m (objOff c p i) = objOf c st false s := by
  cases s with
  | used e md data =>
    obtain ⟨he, hl, h0, h1, h2, h3, h4⟩ := h
    simp only [Slot.size] at hsz
    have w0 := isWord_base he
    have w1 := isWord_start (c := c) hst (mcrc_lt c md)
    have w2 := isWord_start (c := c) hsz (dcrc_lt c data)
    have hst' : stateAt c m (objOff c p i) =
        ⟨.used, e, st, bytes2units md.len.toNat, mcrc c md, dcrc c data⟩ := by
      unfold stateAt
      rw [if_pos ⟨ublank_word w0 h0, ublank_word w1 h1, ublank_word w2 h2⟩, h0, h1, h2,
        countWord_eq, unitVal_unitBytes w0.lt, unitVal_unitBytes w1.lt, unitVal_unitBytes w2.lt,
        base_mod he, startWord_mod hst (mcrc_lt c md), startWord_mod hsz (dcrc_lt c data)]
      by_cases hc : c.crc = true
      · simp only [hc, if_true, startWord_crc hst (mcrc_lt c md) hc,
          startWord_crc hsz (dcrc_lt c data) hc]
      · simp only [mcrc, dcrc, hc]; rfl
    unfold objectAt
    rw [hst']
    simp only [true_or, if_true, h3, deser_ser]
    rw [if_neg]
    · rfl
    · rintro ⟨hc, hne⟩
      apply hne; simp [mcrc, hc]
  | dataBad e md =>
    obtain ⟨he, h0, h1, h2, h3⟩ := h
    have w0 := isWord_base he
    have w1 := isWord_start (c := c) hst (mcrc_lt c md)
    have hst' : stateAt c m (objOff c p i) = ⟨.dataBad, e, st, 0, mcrc c md, 0⟩ := by
      unfold stateAt
      rw [if_neg (by simp [h2]), if_pos ⟨ublank_word w0 h0, ublank_word w1 h1⟩, h0, h1,
        unitVal_unitBytes w0.lt, unitVal_unitBytes w1.lt,
        base_mod he, startWord_mod hst (mcrc_lt c md)]
      by_cases hc : c.crc = true
      · simp only [hc, if_true, startWord_crc hst (mcrc_lt c md) hc]
      · simp only [mcrc, hc]; rfl
    unfold objectAt
    rw [hst']
    simp only [or_true, if_true, h3, deser_ser]
    rw [if_neg]
    · rfl
    · rintro ⟨hc, hne⟩
      apply hne; simp [mcrc, hc]
  | metaBad =>
    obtain ⟨h0, h1, h2⟩ := h
    have hst' : stateAt c m (objOff c p i) = ⟨.metaBad, 0, 0, 0, 0, 0⟩ := by
      unfold stateAt
      rw [if_neg (by simp [h1]), if_neg (by simp [h1]), if_pos h0]; rfl
    unfold objectAt
    rw [hst']
    simp [objOf]

theorem objectAt_free {m : Mem} {off : Nat} (h : ublank c m off = true) :
    objectAt c m off = freeObj := by
  have hst' : stateAt c m off = ⟨.free, 0, 0, 0, 0, 0⟩ := by
    unfold stateAt
    rw [if_neg (by simp [h]), if_neg (by simp [h]), if_neg (by simp [h])]; rfl
  unfold objectAt
  rw [hst']
  simp [freeObj]

theorem objectAt_slots {m : Mem} {p : Bool} {slots : List Slot} : ∀ {i st : Nat},
    SlotsAt c m p i st slots → st + total slots < 2 ^ 32 →
    ((List.range' i slots.length).map fun j => objectAt c m (objOff c p j)) =
      rawObjs c st slots := by
  induction slots with
  | nil => intros; rfl
  | cons s rest ih =>
    intro i st h ht
    simp only [total] at ht
    simp only [List.length_cons, List.range'_succ, List.map_cons, rawObjs]
    rw [objectAt_slot h.1 (by omega) (by omega), ih h.2 (by omega)]

theorem objectAt_rep {m : Mem} {p : Bool} {slots : List Slot} (hwf : c.WF)
    (h : Rep c m p slots) :
    ((List.range' 0 c.N).map fun j => objectAt c m (objOff c p j)) =
      rawObjs c 0 slots ++ List.replicate (c.N - slots.length) freeObj := by
  have hl := h.len
  have hsm := hwf.small
  have hf := h.fits
  have e : c.N = slots.length + (c.N - slots.length) := by omega
  have e2 : List.range' 0 c.N = List.range' 0 slots.length ++
      List.range' slots.length (c.N - slots.length) := by
    have := List.range'_append (s := 0) (m := slots.length) (n := c.N - slots.length) (step := 1)
    simp only [Nat.one_mul, Nat.zero_add] at this
    rw [this, ← e]
  rw [e2, List.map_append, objectAt_slots h.ents (by omega)]
  congr 1
  rw [List.eq_replicate_iff]
  refine ⟨by simp, ?_⟩
  intro o ho
  simp only [List.mem_map, List.mem_range'_1] at ho
  obtain ⟨j, ⟨h1, h2⟩, rfl⟩ := ho
  apply objectAt_free
  unfold ublank
  refine isBlank_sub h.dirBlank ?_ ?_
  · unfold objOff; omega
  · unfold objOff; omega

/-- Reclaimable entries/data found by the first scan of Parse. -/
def badEntries : List Slot → Nat
  | [] => 0
  | s :: rest => (if s.isUsed then 0 else 1) + badEntries rest
def badData : List Slot → Nat
  | [] => 0
  | s :: rest => (if s.isUsed then 0 else s.size) + badData rest

theorem scan_raw (mx n : Nat) (slots : List Slot) : ∀ (st nfo re rdt : Nat),
    scan mx (rawObjs c st slots ++ List.replicate n freeObj) ⟨nfo, st, re, rdt⟩ =
      some ⟨nfo + slots.length, st + total slots, re + badEntries slots,
        rdt + badData slots⟩ := by
  induction slots with
  | nil =>
    intro st nfo re rdt
    cases n <;> simp [rawObjs, scan, List.replicate_succ, freeObj, total, badEntries, badData]
  | cons s rest ih =>
    intro st nfo re rdt
    cases s with
    | used e md data =>
      simp only [rawObjs, objOf, List.cons_append, scan, Bool.false_eq_true, if_false, Slot.size]
      rw [ih]
      simp [total, badEntries, badData, Slot.isUsed, Slot.size]; omega
    | dataBad e md =>
      simp only [rawObjs, objOf, List.cons_append, scan, Slot.size]
      rw [ih]
      simp [total, badEntries, badData, Slot.isUsed, Slot.size]; omega
    | metaBad =>
      simp only [rawObjs, objOf, List.cons_append, scan, Slot.size, Nat.add_zero]
      rw [ih]
      simp [total, badEntries, badData, Slot.isUsed, Slot.size]; omega

theorem isUsedId_objOf (st : Nat) (sh : Bool) (s : Slot) (id : UInt16) :
    (objOf c st sh s).isUsedId id = (s.hasId id && !sh) := by
  cases s <;> cases sh <;> simp [objOf, MemObj.isUsedId, Slot.hasId]

theorem isUsedId_free (id : UInt16) : freeObj.isUsedId id = false := by
  simp [freeObj, MemObj.isUsedId]

theorem any_objsOf (id : UInt16) (slots : List Slot) : ∀ st,
    (objsOf c st slots).any (·.isUsedId id) = slots.any (·.hasId id) := by
  induction slots with
  | nil => intro; rfl
  | cons s rest ih =>
    intro st
    simp only [objsOf, List.any_cons, ih, isUsedId_objOf]
    cases s with
    | used e md data =>
      simp only [Slot.hasId, shadowed]
      by_cases h : md.id = id
      · subst h
        generalize rest.any (·.hasId md.id) = b
        cases b <;> simp
      · have h2 : (md.id == id) = false := by simpa using h
        rw [h2]; simp only [Bool.false_and, Bool.false_or]
    | dataBad e md => simp [Slot.hasId]
    | metaBad => simp [Slot.hasId]

/-- Entries/data marked as duplicates. -/
def dupEntries : List Slot → Nat
  | [] => 0
  | s :: rest => (if shadowed s rest then 1 else 0) + dupEntries rest
def dupData : List Slot → Nat
  | [] => 0
  | s :: rest => (if shadowed s rest then s.size else 0) + dupData rest

theorem dedup_free (n : Nat) :
    dedup (List.replicate n freeObj) = (List.replicate n freeObj, 0, 0) := by
  induction n with
  | zero => rfl
  | succ n ih =>
    have : freeObj.state.status ≠ .used := by simp [freeObj]
    simp [List.replicate_succ, dedup, ih, this]

theorem dedup_raw (n : Nat) (slots : List Slot) : ∀ st,
    dedup (rawObjs c st slots ++ List.replicate n freeObj) =
      (objsOf c st slots ++ List.replicate n freeObj, dupEntries slots, dupData slots) := by
  induction slots with
  | nil => intro st; simp [rawObjs, objsOf, dedup_free, dupEntries, dupData]
  | cons s rest ih =>
    intro st
    simp only [rawObjs, objsOf, List.cons_append, dedup, ih, dupEntries, dupData]
    have hany : ∀ id, (objsOf c (st + s.size) rest ++ List.replicate n freeObj).any
        (·.isUsedId id) = rest.any (·.hasId id) := by
      intro id
      rw [List.any_append, any_objsOf]
      simp [isUsedId_free]
    cases s with
    | used e md data =>
      simp only [objOf, Bool.false_eq_true, if_false, true_and, hany, shadowed]
      by_cases h' : rest.any (·.hasId md.id) = true
      · simp [h', Slot.size, Nat.add_comm]
      · simp only [Bool.not_eq_true] at h'; simp [h', Slot.size]
    | dataBad e md => simp [objOf, shadowed]
    | metaBad => simp [objOf, shadowed]

theorem recEntries_eq (slots : List Slot) :
    badEntries slots + dupEntries slots = recEntries slots := by
  induction slots with
  | nil => rfl
  | cons s rest ih =>
    simp only [badEntries, dupEntries, recEntries, ← ih, live]
    have h : s.isUsed = false → shadowed s rest = false := by cases s <;> simp [Slot.isUsed, shadowed]
    by_cases h1 : s.isUsed = true <;> by_cases h2 : shadowed s rest = true <;> simp_all <;> omega

theorem recData_eq (slots : List Slot) : badData slots + dupData slots = recData slots := by
  induction slots with
  | nil => rfl
  | cons s rest ih =>
    simp only [badData, dupData, recData, ← ih, live]
    have h : s.isUsed = false → shadowed s rest = false := by cases s <;> simp [Slot.isUsed, shadowed]
    by_cases h1 : s.isUsed = true <;> by_cases h2 : shadowed s rest = true <;> simp_all <;> omega

/-- Parsing what was read yields the directory of the slots. -/
theorem parse_raw (slots : List Slot) (hf : total slots ≤ c.pu - c.dataOff) :
    parse ⟨rawObjs c 0 slots ++ List.replicate (c.N - slots.length) freeObj, 0, 0, 0, 0,
      c.pu - c.dataOff⟩ = (.ok, mkDir c slots) := by
  unfold parse
  simp only [scan_raw, dedup_raw, Nat.zero_add]
  rw [if_neg (by omega), recEntries_eq, recData_eq]
  rfl

theorem wp_readParseDir {F : Faults} {m : Mem} {C : Mem → Prop} {p : Bool} {slots : List Slot}
    {Q : Rc × Dir → Mem → Prop} (hwf : c.WF) (hF : F.read = false) (h : Rep c m p slots)
    (hC : C m) (hQ : Q (.ok, mkDir c slots) m) : wp c.dev F (readParseDir c p) Q C m := by
  have hfit := hwf.fits
  have hb := pOff_bound (c := c) p
  unfold readParseDir readDir
  apply wp_bind
  apply wp_bind
  refine wp_readObjects hF hC c.N 0 ?_ ?_
  · unfold objOff Cfg.dev Cfg.dataOff at *; simp only; omega
  · rw [objectAt_rep hwf h]
    refine ⟨hC, hC, ?_⟩
    rw [parse_raw _ h.fits]; exact hQ

end WolfHsm.NvmFlash

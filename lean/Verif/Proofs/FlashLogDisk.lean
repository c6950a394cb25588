import Verif.Proofs.FlashLogRam
import Verif.Proofs.FlashGWp

/-! # The two partitions on flash -/

namespace WolfHsm.FlashLog

open Flash (FP Mem Dev Faults rd wr isBlank erasedBytes devRead devBlank devProg devVerify devErase run Agree
  isBlank_iff rd_agree rd_eq_of_agree erasedBytes_length wr_agree_lt wr_agree_ge rd_wr isBlank_wr_erased
  isBlank_agree isBlank_sub rd_length)
open NvmFlash (Meta Store withLen unitBytes unitVal unitBytes_length unitVal_unitBytes unitBytes_eq)
open FlashG (wp wp_bind' wp_mono wp_run wp_adequate wp_crash torn)

/-- Objects that fit a partition. -/
structure Objs (c : Cfg) (os : List Obj) : Prop where
  ok : ∀ o ∈ os, o.OK
  nodup : (os.map (·.md.id)).Nodup
  fits : (imgs os).length ≤ c.P - 64
  count : os.length ≤ c.N

def hdrBytes (e n : Nat) : List UInt8 := unitBytes (e + 2 ^ 32 * n) ++ List.replicate 56 0

/-- Partition `p` holds `os` with epoch `e`. -/
structure Img (c : Cfg) (m : Mem) (p e : Nat) (os : List Obj) : Prop where
  objs : Objs c os
  elt : e < 2 ^ 32
  hdr : rd m (p * c.P) 64 = hdrBytes e (imgs os).length
  body : rd m (p * c.P + 64) (imgs os).length = imgs os

/-- The header of partition `p` is blank. -/
def HB (c : Cfg) (m : Mem) (p : Nat) : Prop := isBlank c.dev m (p * c.P) 64 = true

/-- `Init` will choose partition `p`, of epoch `e` (unless it is blank too). -/
def Guard (c : Cfg) (m : Mem) (p e : Nat) : Prop :=
  HB c m (other p) ∨ (¬ HB c m p ∧ ¬ HB c m (other p) ∧
    if p = 0 then e > hdrEpoch (rd m (other p * c.P) 64) else ¬ hdrEpoch (rd m (other p * c.P) 64) > e)

/-- The flash holds `f`, with an epoch of at most `n`. -/
def Disk (c : Cfg) (n : Nat) (m : Mem) (f : Store) : Prop :=
  (∃ p e os, p < 2 ∧ Img c m p e os ∧ storeOf os = f ∧ e ≤ n ∧ Guard c m p e) ∨
  (HB c m 0 ∧ HB c m 1 ∧ f = Store.empty)

/-- The NVM runs and holds `f`. -/
structure On (c : Cfg) (n : Nat) (s : Ctx) (m : Mem) (os : List Obj) : Prop where
  rep : Rep c s os
  up : s.up = true
  active : s.active < 2
  le : s.epoch ≤ n
  hpad : s.hpad = List.replicate 56 0
  img : Img c m s.active s.epoch os
  hb : HB c m (other s.active)

/-! ## Small facts -/

theorem other_lt (p : Nat) : other p < 2 := by unfold other; split <;> omega

theorem other_other {p : Nat} (h : p < 2) : other (other p) = p := by
  unfold other; split <;> split <;> omega

theorem lt_two {p : Nat} (h : p < 2) : p = 0 ∨ p = 1 := by omega

theorem hdrBytes_length (e n : Nat) : (hdrBytes e n).length = 64 := by
  simp only [hdrBytes, List.length_append, unitBytes_length, List.length_replicate]

theorem hdrVal {e n : Nat} (he : e < 2 ^ 32) (hn : n < 2 ^ 32) :
    unitVal ((hdrBytes e n).take 8) = e + 2 ^ 32 * n := by
  unfold hdrBytes
  rw [List.take_left' (unitBytes_length _), unitVal_unitBytes (by omega)]

theorem hdrEpoch_hdr {e n : Nat} (he : e < 2 ^ 32) (hn : n < 2 ^ 32) : hdrEpoch (hdrBytes e n) = e := by
  unfold hdrEpoch; rw [hdrVal he hn]; omega

theorem hdrSize_hdr {e n : Nat} (he : e < 2 ^ 32) (hn : n < 2 ^ 32) : hdrSize (hdrBytes e n) = n := by
  unfold hdrSize; rw [hdrVal he hn]; omega

theorem hdr_drop (e n : Nat) : (hdrBytes e n).drop 8 = List.replicate 56 0 := by
  unfold hdrBytes; rw [List.drop_left' (unitBytes_length _)]

/-- A blank header that holds an image is the header of the empty image of epoch 0. -/
theorem hdr_blank {d : Dev} {m : Mem} {a e n : Nat} (he : e < 2 ^ 32) (hn : n < 2 ^ 32)
    (hb : isBlank d m a 64 = true) (h : rd m a 64 = hdrBytes e n) : e = 0 ∧ n = 0 := by
  have hx : ∀ i, i < 64 → (hdrBytes e n)[i]? = some d.erased := by
    intro i hi
    rw [← h, List.getElem?_eq_getElem (by rw [rd_length]; exact hi), Flash.rd_getElem]
    rw [isBlank_iff] at hb
    rw [hb _ (by omega) (by omega)]
  have h0 : d.erased = 0 := by
    have := hx 8 (by omega)
    unfold hdrBytes at this
    rw [List.getElem?_append_right (by rw [unitBytes_length]), unitBytes_length,
      List.getElem?_replicate, if_pos (by omega)] at this
    injection this with this
    exact this.symm
  have h8 : (hdrBytes e n).take 8 = List.replicate 8 0 := by
    apply List.ext_getElem?
    intro i
    rw [List.getElem?_take, List.getElem?_replicate]
    split
    · rw [hx i (by omega), h0]
    · rfl
  have hv := hdrVal he hn
  rw [h8] at hv
  have : unitVal (List.replicate 8 0) = 0 := by decide
  rw [this] at hv
  omega

theorem Objs.lt {c : Cfg} (w : c.WF) {os : List Obj} (h : Objs c os) : (imgs os).length < 2 ^ 32 := by
  have := h.fits; have := w.small; omega

theorem Img.blank {c : Cfg} (w : c.WF) {m : Mem} {p e : Nat} {os : List Obj} (h : Img c m p e os)
    (hb : HB c m p) : e = 0 ∧ os = [] := by
  obtain ⟨h1, h2⟩ := hdr_blank h.elt (h.objs.lt w) hb h.hdr
  refine ⟨h1, ?_⟩
  have := imgs_ge h.objs.ok
  exact List.eq_nil_of_length_eq_zero (by omega)

theorem Img.agree {c : Cfg} (w : c.WF) {m m' : Mem} {p e : Nat} {os : List Obj} (h : Img c m p e os)
    (ha : Agree m m' (p * c.P) (p * c.P + c.P)) : Img c m' p e os := by
  have hf := h.objs.fits
  have hp := w.pos
  refine ⟨h.objs, h.elt, ?_, ?_⟩
  · rw [rd_eq_of_agree ha (Nat.le_refl _) (by omega)]; exact h.hdr
  · rw [rd_eq_of_agree ha (by omega) (by omega)]; exact h.body

theorem HB.agree {c : Cfg} {m m' : Mem} {p : Nat} (h : HB c m p)
    (ha : Agree m m' (p * c.P) (p * c.P + 64)) : HB c m' p := by
  unfold HB at *
  rw [isBlank_agree ha (Nat.le_refl _) (Nat.le_refl _)]; exact h

theorem HB.agree_iff {c : Cfg} {m m' : Mem} {p : Nat} (ha : Agree m m' (p * c.P) (p * c.P + 64)) :
    HB c m' p ↔ HB c m p := ⟨fun h => h.agree ha.symm, fun h => h.agree ha⟩

/-- Writing in the other partition leaves a partition alone. -/
theorem torn_other {c : Cfg} (m : Mem) {p a : Nat} (hp : p < 2) (bs : List UInt8) (sel : Nat → Bool)
    (h1 : other p * c.P ≤ a) (h2 : a + bs.length ≤ other p * c.P + c.P) :
    Agree m (torn 64 m a bs sel) (p * c.P) (p * c.P + c.P) := by
  rcases lt_two hp with rfl | rfl
  · simp only [other, if_pos] at h1 h2
    exact FlashG.torn_agree_lt 64 m a bs sel _ _ (by omega)
  · simp only [other, Nat.one_ne_zero, if_false] at h1 h2
    exact FlashG.torn_agree_ge 64 m a bs sel _ _ (by omega)

theorem wr_eq_torn (m : Mem) (a : Nat) (bs : List UInt8) : wr m a bs = torn 64 m a bs fun _ => true := by
  funext x; simp [torn]

theorem HB.torn_erase {c : Cfg} {m : Mem} {p : Nat} (h : HB c m p) (a n : Nat) (sel : Nat → Bool) :
    HB c (torn 64 m a (erasedBytes c.dev n) sel) p := by
  unfold HB at *
  rw [isBlank_iff] at *
  intro x h1 h2
  rcases FlashG.torn_erase_byte 64 c.dev m a n sel x with e | e
  · rw [e]; exact h x h1 h2
  · exact e

/-! ## Commands -/

theorem partErase_wp {c : Cfg} {p : Nat} (hp : p < 2) {Q : Rc → Mem → Prop} {C : Mem → Prop} {m : Mem}
    (hC : C m) (ht : ∀ sel, C (torn 64 m (p * c.P) (erasedBytes c.dev c.P) sel))
    (hQ : Q .ok (wr m (p * c.P) (erasedBytes c.dev c.P))) :
    wp 64 c.dev Faults.none (partErase c p) Q C m := by
  have hle : p * c.P + c.P ≤ c.dev.size := by
    show _ ≤ 2 * c.P
    rcases lt_two hp with rfl | rfl <;> omega
  have he : devErase c.dev (p * c.P) c.P = .ok := by unfold devErase; rw [if_neg (by omega)]
  have hw : C (wr m (p * c.P) (erasedBytes c.dev c.P)) := by rw [wr_eq_torn]; exact ht _
  unfold partErase
  refine ⟨hC, fun h => absurd he h, fun _ => ⟨?_, ht, fun h => by cases h⟩⟩
  try dsimp only
  rw [if_neg (by simp)]
  refine ⟨hw, ?_, fun h => by cases h⟩
  have hb : devBlank c.dev (wr m (p * c.P) (erasedBytes c.dev c.P)) (p * c.P) c.P = .ok := by
    unfold devBlank; rw [if_neg (by omega), isBlank_wr_erased]; rfl
  rw [hb]
  try dsimp only
  rw [if_neg (by simp)]
  exact ⟨hw, hQ⟩

theorem program_wp {c : Cfg} {a : Nat} {bs : List UInt8} (hle : a + bs.length ≤ 2 * c.P)
    {Q : Rc → Mem → Prop} {C : Mem → Prop} {m : Mem} (hb : isBlank c.dev m a bs.length = true)
    (hC : C m) (ht : ∀ sel, C (torn 64 m a bs sel)) (hQ : Q .ok (wr m a bs)) :
    wp 64 c.dev Faults.none (program a bs) Q C m := by
  have hle' : a + bs.length ≤ c.dev.size := hle
  have hw : C (wr m a bs) := by rw [wr_eq_torn]; exact ht _
  have h1 : devBlank c.dev m a bs.length = .ok := by unfold devBlank; rw [if_neg (by omega), hb]; rfl
  have h2 : devProg c.dev m a bs = .ok := by unfold devProg; rw [if_neg (by omega), hb]; rfl
  have h3 : devVerify c.dev (wr m a bs) a bs = .ok := by
    unfold devVerify; rw [if_neg (by omega), if_pos (rd_wr m a bs)]
  unfold program
  refine ⟨hC, ?_, fun h => by cases h⟩
  rw [h1]
  try dsimp only
  rw [if_neg (by simp)]
  refine ⟨hC, fun h => absurd h2 h, fun _ => ⟨?_, ht, fun h => by cases h⟩⟩
  try dsimp only
  rw [if_neg (by simp)]
  refine ⟨hw, ?_, fun h => by cases h⟩
  rw [h3]
  try dsimp only
  rw [if_neg (by simp)]
  exact ⟨hw, hQ⟩

theorem header_eq {s : Ctx} (h : s.hpad = List.replicate 56 0) : s.header = hdrBytes s.epoch s.size := by
  unfold Ctx.header hdrBytes; rw [h]

theorem partCommit_wp {c : Cfg} (w : c.WF) {p : Nat} (hp : p < 2) {s : Ctx} (hh : s.hpad = List.replicate 56 0)
    {Q : Rc → Mem → Prop} {C : Mem → Prop} {m : Mem} (hb : HB c m p) (hC : C m)
    (hw : C (wr m (p * c.P) (hdrBytes s.epoch s.size)))
    (hQ : Q .ok (wr m (p * c.P) (hdrBytes s.epoch s.size))) :
    wp 64 c.dev Faults.none (partCommit c s p) Q C m := by
  have h64 : p * c.P + 64 ≤ 2 * c.P := by
    have := w.pos
    rcases lt_two hp with rfl | rfl <;> omega
  have hl := hdrBytes_length s.epoch s.size
  have h1 : devBlank c.dev m (p * c.P) 64 = .ok := by
    unfold devBlank
    rw [if_neg (by show ¬ _ > 2 * c.P; omega), show isBlank c.dev m (p * c.P) 64 = true from hb]; rfl
  have hal : p * c.P % 64 = 0 := by
    have := w.align
    rcases lt_two hp with rfl | rfl <;> omega
  unfold partCommit
  refine ⟨hC, ?_, fun h => by cases h⟩
  rw [h1]
  try dsimp only
  rw [if_neg (by simp), header_eq hh]
  apply wp_bind'
  refine program_wp (by rw [hl]; exact h64) (by rw [hl]; exact hb) hC ?_ ⟨hw, hQ⟩
  intro sel
  rcases FlashG.torn_granule 64 (by omega) m _ hal _ hl sel with e | e
  · rw [e]; exact hw
  · rw [e]; exact hC

theorem partWrite_wp {c : Cfg} (w : c.WF) {p : Nat} (hp : p < 2) {s : Ctx} {os : List Obj} (h : Rep c s os)
    {Q : Rc → Mem → Prop} {C : Mem → Prop} {m : Mem}
    (hb : isBlank c.dev m (p * c.P) c.P = true) (hC : C m)
    (ht : ∀ sel, C (torn 64 m (p * c.P + 64) (imgs os) sel))
    (hQ : Q .ok (wr m (p * c.P + 64) (imgs os))) :
    wp 64 c.dev Faults.none (partWrite c s p) Q C m := by
  have hmod := imgs_mod h.ok
  have hf := h.fits
  have hpos := w.pos
  unfold partWrite
  rw [if_neg (by rw [h.size]; omega)]
  have htake : s.data.take s.size = imgs os := by
    obtain ⟨rest, hd⟩ := h.data
    rw [hd, List.take_left' h.size.symm]
  by_cases h0 : s.size > 0
  · rw [if_pos h0, htake]
    rw [h.size] at hf
    refine program_wp ?_ (isBlank_sub hb (by omega) (by omega)) hC ht hQ
    rcases lt_two hp with rfl | rfl <;> omega
  · rw [if_neg h0]
    have he : imgs os = [] := List.eq_nil_of_length_eq_zero (by rw [← h.size]; omega)
    have hn : wr m (p * c.P + 64) (imgs os) = m := by
      funext x; simp only [wr, he, List.length_nil]; rw [if_neg (by omega)]
    rw [hn] at hQ
    exact ⟨hC, hQ⟩

/-! ## Reading a partition back -/

theorem partRead_wp {c : Cfg} (w : c.WF) {s : Ctx} {e : Nat} {os : List Obj} (hp : s.active < 2)
    {m : Mem} (hi : Img c m s.active e os) (hl : s.data.length = c.P)
    (hz : os = [] → (objMeta s.data 0).id = 0)
    {Q : Rc × Ctx → Mem → Prop} {C : Mem → Prop} (hC : C m)
    (hQ : ∀ t : Ctx, Rep c t os → t.up = s.up → t.active = s.active → t.epoch = e →
      t.hpad = List.replicate 56 0 → t.wild = s.wild → Q (.ok, t) m) :
    wp 64 c.dev Faults.none (partRead c s) Q C m := by
  have hlt := hi.objs.lt w
  have hf := hi.objs.fits
  have hpos := w.pos
  have hr1 : devRead c.dev m (s.active * c.P) 64 = (.ok, rd m (s.active * c.P) 64) := by
    unfold devRead; rw [if_neg]
    show ¬ _ > 2 * c.P
    rcases lt_two hp with e | e <;> rw [e] <;> omega
  have hrep : ∀ t : Ctx, t.size = (imgs os).length → (∃ rest, t.data = imgs os ++ rest) → t.data.length = c.P →
      (os = [] → (objMeta t.data 0).id = 0) → Rep c t os := fun t h1 h2 h3 h4 =>
    ⟨hi.objs.ok, hi.objs.nodup, h2, h1, h3, by rw [h1]; exact hf, h4, hi.objs.count⟩
  unfold partRead
  refine ⟨hC, ?_, fun h => by cases h⟩
  rw [hr1]
  try dsimp only
  rw [if_neg (by simp), hi.hdr, hdrEpoch_hdr hi.elt hlt, hdrSize_hdr hi.elt hlt, hdr_drop, if_neg (by omega)]
  by_cases h0 : (imgs os).length > 0
  · rw [if_pos h0]
    have hr2 : devRead c.dev m (s.active * c.P + 64) (imgs os).length = (.ok, imgs os) := by
      unfold devRead; rw [if_neg, hi.body]
      show ¬ _ > 2 * c.P
      rcases lt_two hp with e | e <;> rw [e] <;> omega
    refine ⟨hC, ?_, fun h => by cases h⟩
    rw [hr2]
    try dsimp only
    rw [if_neg (by simp)]
    refine ⟨hC, hQ _ (hrep _ rfl ⟨_, rfl⟩ ?_ ?_) rfl rfl rfl rfl rfl⟩
    · rw [List.length_append, List.length_drop, hl]; omega
    · intro he; rw [he] at h0; simp at h0
  · rw [if_neg h0]
    have he : imgs os = [] := List.eq_nil_of_length_eq_zero (by omega)
    exact ⟨hC, hQ _ (hrep _ rfl ⟨s.data, by rw [he]; rfl⟩ hl hz) rfl rfl rfl rfl rfl⟩

/-! ## Guards -/

/-- The guard survives a (torn) erase of the other partition. -/
theorem Guard.torn_erase {c : Cfg} (w : c.WF) {m : Mem} {p e : Nat} (hp : p < 2) (h : Guard c m p e)
    (sel : Nat → Bool) :
    Guard c (torn 64 m (other p * c.P) (erasedBytes c.dev c.P) sel) p e := by
  have hag : Agree m (torn 64 m (other p * c.P) (erasedBytes c.dev c.P) sel) (p * c.P) (p * c.P + c.P) :=
    torn_other m hp _ sel (Nat.le_refl _) (by rw [erasedBytes_length])
  have hpos := w.pos
  have hal : other p * c.P % 64 = 0 := by
    have := w.align
    rcases lt_two (other_lt p) with e | e <;> rw [e] <;> omega
  rcases h with h | ⟨h1, h2, h3⟩
  · exact Or.inl (h.torn_erase _ _ _)
  · rcases FlashG.torn_erase_block c.dev m (other p * c.P) c.P sel (other p * c.P) hal w.align hal with hb | hb
    · by_cases hbl : HB c (torn 64 m (other p * c.P) (erasedBytes c.dev c.P) sel) (other p)
      · exact Or.inl hbl
      · refine Or.inr ⟨?_, hbl, ?_⟩
        · rw [HB.agree_iff (hag.mono (Nat.le_refl _) (by omega))]; exact h1
        · rw [hb]; exact h3
    · exact Or.inl hb

theorem Disk.of {c : Cfg} {n : Nat} {m : Mem} {p e : Nat} {os : List Obj} (hp : p < 2) (hi : Img c m p e os)
    (he : e ≤ n) (hg : Guard c m p e) : Disk c n m (storeOf os) :=
  Or.inl ⟨p, e, os, hp, hi, rfl, he, hg⟩

theorem On.disk {c : Cfg} {n : Nat} {s : Ctx} {m : Mem} {os : List Obj} (h : On c n s m os) :
    Disk c n m (storeOf os) := Disk.of h.active h.img h.le (Or.inl h.hb)

theorem HB.wr_erased {c : Cfg} (w : c.WF) (m : Mem) (p : Nat) :
    HB c (wr m (p * c.P) (erasedBytes c.dev c.P)) p :=
  isBlank_sub (isBlank_wr_erased c.dev m (p * c.P) c.P) (Nat.le_refl _) (by have := w.pos; omega)

/-! ## Init -/

/-- The part of `Init` after the partition is chosen. -/
theorem init_tail {c : Cfg} (w : c.WF) {n : Nat} {m : Mem} {p e : Nat} {os : List Obj} (hp : p < 2)
    (hi : Img c m p e os) (he : e ≤ n) (hg : Guard c m p e) {s : Ctx}
    (hs : s = { Ctx.zero c with active := p }) :
    wp 64 c.dev Faults.none
      ((partRead c s).bind fun r => if r.1 ≠ .ok then .ret r else
        (partErase c (other r.2.active)).bind fun rc => if rc ≠ .ok then .ret (rc, r.2) else
          .ret (.ok, { r.2 with up := true }))
      (fun r m' => r.1 = .ok ∧ r.2.wild = false ∧ On c n r.2 m' os) (fun m' => Disk c n m' (storeOf os)) m := by
  apply wp_bind'
  have hact : s.active = p := by rw [hs]
  refine partRead_wp w (e := e) (os := os) (by rw [hact]; exact hp) (by rw [hact]; exact hi)
    (by rw [hs]; simp only [Ctx.zero, List.length_replicate]) ?_ (Disk.of hp hi he hg) ?_
  · intro _
    rw [hs]
    have hpos := w.pos
    unfold objMeta
    simp only [Ctx.zero]
    rw [List.drop_zero, List.take_replicate, Nat.min_eq_left (by omega)]
    decide
  · intro t ht hup hta hte hth htw
    try dsimp only
    rw [if_neg (by simp), hta, hact]
    apply wp_bind'
    have hag : ∀ sel, Agree m (torn 64 m (other p * c.P) (erasedBytes c.dev c.P) sel) (p * c.P) (p * c.P + c.P) :=
      fun sel => torn_other m hp _ sel (Nat.le_refl _) (by rw [erasedBytes_length])
    have hC : ∀ sel, Disk c n (torn 64 m (other p * c.P) (erasedBytes c.dev c.P) sel) (storeOf os) :=
      fun sel => Disk.of hp (hi.agree w (hag sel)) he (hg.torn_erase w hp sel)
    refine partErase_wp (other_lt p) (Disk.of hp hi he hg) hC ?_
    try dsimp only
    rw [if_neg (by simp)]
    have hC' := hC fun _ => true
    have hag' := hag fun _ => true
    rw [← wr_eq_torn] at hC' hag'
    refine ⟨hC', rfl, ?_, ?_⟩
    · show t.wild = false
      rw [htw, hs]; rfl
    refine ⟨?_, rfl, ?_, ?_, hth, ?_, ?_⟩
    · exact ⟨ht.ok, ht.nodup, ht.data, ht.size, ht.len, ht.fits, ht.empty, ht.count⟩
    · exact hp
    · show t.epoch ≤ n
      rw [hte]; exact he
    · show Img c _ p t.epoch os
      rw [hte]; exact hi.agree w hag'
    · exact HB.wr_erased w m _

theorem devBlank_hdr {c : Cfg} (w : c.WF) (m : Mem) {p : Nat} (hp : p < 2) :
    (HB c m p → devBlank c.dev m (p * c.P) 64 = .ok) ∧ (¬ HB c m p → devBlank c.dev m (p * c.P) 64 = .notblank) := by
  have hpos := w.pos
  have hle : ¬ (p * c.P + 64 > c.dev.size) := by
    show ¬ _ > 2 * c.P
    rcases lt_two hp with rfl | rfl <;> omega
  constructor
  · intro h; unfold devBlank; rw [if_neg hle, show isBlank c.dev m (p * c.P) 64 = true from h]; rfl
  · intro h; unfold devBlank; rw [if_neg hle, if_neg (show ¬ isBlank c.dev m (p * c.P) 64 = true from h)]

theorem storeOf_nil : storeOf [] = Store.empty := rfl

theorem objs_nil (c : Cfg) : Objs c [] :=
  ⟨by simp, by simp, by simp, by simp⟩

theorem choose_wp {c : Cfg} (w : c.WF) {n : Nat} {m : Mem} {f : Store} (h : Disk c n m f)
    {Q : Rc × Ctx → Mem → Prop}
    (hQ : ∀ m' p e os, p < 2 → Img c m' p e os → storeOf os = f → e ≤ n → Guard c m' p e →
      Q (.ok, { Ctx.zero c with active := p }) m') :
    wp 64 c.dev Faults.none (choose c (Ctx.zero c)) Q (fun m' => Disk c n m' f) m := by
  have d0 := devBlank_hdr w m (p := 0) (by omega)
  have d1 := devBlank_hdr w m (p := 1) (by omega)
  rw [Nat.zero_mul] at d0
  rw [Nat.one_mul] at d1
  have hpos := w.pos
  unfold choose
  refine ⟨h, ?_, fun h => by cases h⟩
  have hboth : HB c m 0 → HB c m 1 → f = Store.empty := by
    intro b0 b1
    rcases h with ⟨p, e, os, hp, hi, hf, he, hg⟩ | ⟨_, _, hf⟩
    · have : HB c m p := by rcases lt_two hp with rfl | rfl <;> assumption
      rw [← hf, (hi.blank w this).2]; rfl
    · exact hf
  by_cases b0 : HB c m 0
  · rw [d0.1 b0]
    try dsimp only
    rw [if_neg (by simp)]
    refine ⟨h, ?_, fun h => by cases h⟩
    by_cases b1 : HB c m 1
    · rw [d1.1 b1]
      try dsimp only
      rw [if_neg (by simp)]
      have hf := hboth b0 b1
      subst hf
      rw [if_pos (by rfl)]
      apply wp_bind'
      refine partErase_wp (by omega) h ?_ ?_
      · intro sel
        exact Or.inr ⟨b0.torn_erase _ _ _, b1.torn_erase _ _ _, rfl⟩
      · rw [if_neg (by simp)]
        apply wp_bind'
        have e0 : HB c (wr m (0 * c.P) (erasedBytes c.dev c.P)) 0 := HB.wr_erased w m 0
        have e1 : HB c (wr m (0 * c.P) (erasedBytes c.dev c.P)) 1 := by
          rw [wr_eq_torn]; exact b1.torn_erase _ _ _
        generalize wr m (0 * c.P) (erasedBytes c.dev c.P) = m1 at *
        have hag : Agree m1 (wr m1 (0 * c.P) (hdrBytes 0 0)) (1 * c.P) (1 * c.P + c.P) := by
          rw [wr_eq_torn]
          refine torn_other m1 (by omega) _ _ (by simp [other]) ?_
          rw [hdrBytes_length]; simp [other]; omega
        have e1' : HB c (wr m1 (0 * c.P) (hdrBytes 0 0)) 1 := e1.agree (hag.mono (Nat.le_refl _) (by omega))
        have himg : Img c (wr m1 (0 * c.P) (hdrBytes 0 0)) 0 0 [] := by
          refine ⟨objs_nil c, by omega, ?_, rfl⟩
          have := rd_wr m1 (0 * c.P) (hdrBytes 0 0)
          rw [hdrBytes_length] at this
          exact this
        refine partCommit_wp w (by omega) rfl e0 (Or.inr ⟨e0, e1, rfl⟩) ?_ ⟨?_, ?_⟩
        · exact Disk.of (by omega) himg (Nat.zero_le _) (Or.inl e1')
        · exact Disk.of (by omega) himg (Nat.zero_le _) (Or.inl e1')
        · exact hQ _ 0 0 [] (by omega) himg rfl (Nat.zero_le _) (Or.inl e1')
    · rw [d1.2 b1]
      try dsimp only
      rw [if_neg (by simp), if_neg (by decide), if_pos (by rfl)]
      refine ⟨h, ?_⟩
      rcases h with ⟨p, e, os, hp, hi, hf, he, hg⟩ | ⟨_, h1, _⟩
      · have : p = 1 := by
          rcases lt_two hp with rfl | rfl
          · rcases hg with hg | hg
            · exact absurd hg b1
            · exact absurd b0 hg.1
          · rfl
        subst this
        exact hQ _ 1 e os (by omega) hi hf he hg
      · exact absurd h1 b1
  · rw [d0.2 b0]
    try dsimp only
    rw [if_neg (by simp)]
    refine ⟨h, ?_, fun h => by cases h⟩
    by_cases b1 : HB c m 1
    · rw [d1.1 b1]
      try dsimp only
      rw [if_neg (by simp), if_neg (by decide), if_neg (by decide), if_pos (by rfl)]
      refine ⟨h, ?_⟩
      rcases h with ⟨p, e, os, hp, hi, hf, he, hg⟩ | ⟨h0, _, _⟩
      · have : p = 0 := by
          rcases lt_two hp with rfl | rfl
          · rfl
          · rcases hg with hg | hg
            · exact absurd hg b0
            · exact absurd b1 hg.1
        subst this
        exact hQ _ 0 e os (by omega) hi hf he hg
      · exact absurd h0 b0
    · rw [d1.2 b1]
      try dsimp only
      rw [if_neg (by simp), if_neg (by decide), if_neg (by decide), if_neg (by decide)]
      have hr0 : devRead c.dev m 0 64 = (.ok, rd m 0 64) := by
        unfold devRead; rw [if_neg]; show ¬ _ > 2 * c.P; omega
      have hr1 : devRead c.dev m c.P 64 = (.ok, rd m c.P 64) := by
        unfold devRead; rw [if_neg]; show ¬ _ > 2 * c.P; omega
      refine ⟨h, ?_, fun h => by cases h⟩
      rw [hr0]; dsimp only; rw [if_neg (by simp)]
      refine ⟨h, ?_, fun h => by cases h⟩
      rw [hr1]; dsimp only; rw [if_neg (by simp)]
      refine ⟨h, ?_⟩
      rcases h with ⟨p, e, os, hp, hi, hf, he, hg⟩ | ⟨h0, _, _⟩
      · have hg' := hg
        rcases hg with hg | ⟨_, _, hg⟩
        · exfalso
          rcases lt_two hp with rfl | rfl
          · exact b1 hg
          · exact b0 hg
        · have hh := hi.hdr
          rcases lt_two hp with rfl | rfl
          · rw [if_pos rfl] at hg
            simp only [other, if_pos, Nat.one_mul] at hg
            rw [Nat.zero_mul] at hh
            rw [hh, hdrEpoch_hdr hi.elt (hi.objs.lt w), if_pos hg]
            exact hQ _ 0 e os (by omega) hi hf he hg'
          · rw [if_neg (by omega)] at hg
            simp only [other, Nat.one_ne_zero, if_false, Nat.zero_mul] at hg
            rw [Nat.one_mul] at hh
            rw [hh, hdrEpoch_hdr hi.elt (hi.objs.lt w), if_neg hg]
            exact hQ _ 1 e os (by omega) hi hf he hg'
      · exact absurd h0 b0

/-- `Init` finds what the flash holds; a power loss during it leaves it. -/
theorem init_wp {c : Cfg} (w : c.WF) {n : Nat} {m : Mem} {f : Store} (h : Disk c n m f) :
    wp 64 c.dev Faults.none (init c)
      (fun r m' => r.1 = .ok ∧ r.2.wild = false ∧ ∃ os, storeOf os = f ∧ On c n r.2 m' os)
      (fun m' => Disk c n m' f) m := by
  unfold init
  apply wp_bind'
  refine choose_wp w h ?_
  intro m' p e os hp hi hf he hg
  try dsimp only
  rw [if_neg (by simp)]
  refine wp_mono (init_tail w hp hi he hg rfl) ?_ ?_
  · intro r m2 ⟨h1, h2, h3⟩; exact ⟨h1, h2, os, hf, h3⟩
  · intro m2 h2; rw [hf] at h2; exact h2

/-! ## Updates -/

/-- Writing the next epoch: afterwards the flash holds the RAM image; a power loss leaves the old
or the new image. -/
theorem newEpoch_wp {c : Cfg} (w : c.WF) {n : Nat} (hn : n + 1 < 2 ^ 32) {s : Ctx} {m : Mem} {os : List Obj}
    (h : On c n s m os) {t : Ctx} {os' : List Obj} (ht : Rep c t os') (hup : t.up = true)
    (ha : t.active = s.active) (he : t.epoch = s.epoch) (hp : t.hpad = List.replicate 56 0) :
    wp 64 c.dev Faults.none (newEpochOrFallback c t)
      (fun r m' => r.1 = .ok ∧ r.2.wild = t.wild ∧ On c (n + 1) r.2 m' os')
      (fun m' => Disk c (n + 1) m' (storeOf os) ∨ Disk c (n + 1) m' (storeOf os')) m := by
  have hact := h.active
  have hle := h.le
  have hpos := w.pos
  have hobj' : Objs c os' := ⟨ht.ok, ht.nodup, by rw [← ht.size]; exact ht.fits, ht.count⟩
  have hfit := hobj'.fits
  -- Facts about the flash while the active partition is untouched and the other header blank.
  have hold : ∀ m', Agree m m' (s.active * c.P) (s.active * c.P + c.P) → HB c m' (other s.active) →
      Disk c (n + 1) m' (storeOf os) ∨ Disk c (n + 1) m' (storeOf os') := fun m' hg hb =>
    Or.inl (Disk.of hact (h.img.agree w hg) (by omega) (Or.inl hb))
  have e1 : (s.epoch + 1) % 2 ^ 32 = s.epoch + 1 := Nat.mod_eq_of_lt (by omega)
  unfold newEpochOrFallback newEpoch
  dsimp only
  rw [ha, he, e1]
  apply wp_bind'
  apply wp_bind'
  have hagE : ∀ sel, Agree m (torn 64 m (other s.active * c.P) (erasedBytes c.dev c.P) sel)
      (s.active * c.P) (s.active * c.P + c.P) :=
    fun sel => torn_other m hact _ sel (Nat.le_refl _) (by rw [erasedBytes_length])
  refine partErase_wp (other_lt _) (hold m (Agree.refl _ _ _) h.hb)
    (fun sel => hold _ (hagE sel) (h.hb.torn_erase _ _ _)) ?_
  try dsimp only
  rw [if_neg (by simp)]
  have hag1 : Agree m (wr m (other s.active * c.P) (erasedBytes c.dev c.P)) (s.active * c.P) (s.active * c.P + c.P) := by
    rw [wr_eq_torn]; exact hagE _
  have hb1 : isBlank c.dev (wr m (other s.active * c.P) (erasedBytes c.dev c.P)) (other s.active * c.P) c.P = true :=
    isBlank_wr_erased ..
  generalize wr m (other s.active * c.P) (erasedBytes c.dev c.P) = m1 at *
  have hhb1 : HB c m1 (other s.active) := isBlank_sub hb1 (Nat.le_refl _) (by omega)
  -- write the objects
  apply wp_bind'
  have hagW : ∀ sel, Agree m1 (torn 64 m1 (other s.active * c.P + 64) (imgs os') sel)
      (s.active * c.P) (s.active * c.P + c.P) :=
    fun sel => torn_other m1 hact _ sel (by omega) (by omega)
  have hhW : ∀ sel, HB c (torn 64 m1 (other s.active * c.P + 64) (imgs os') sel) (other s.active) :=
    fun sel => hhb1.agree (FlashG.torn_agree_lt 64 m1 _ _ sel _ _ (Nat.le_refl _))
  refine partWrite_wp w (other_lt _) (os := os')
    (s := { t with epoch := s.epoch + 1 })
    ⟨ht.ok, ht.nodup, ht.data, ht.size, ht.len, ht.fits, ht.empty, ht.count⟩ hb1
    (hold m1 hag1 hhb1) (fun sel => hold _ (hag1.trans (hagW sel)) (hhW sel)) ?_
  try dsimp only
  rw [if_neg (by simp)]
  have hag2 : Agree m (wr m1 (other s.active * c.P + 64) (imgs os')) (s.active * c.P) (s.active * c.P + c.P) := by
    rw [wr_eq_torn]; exact hag1.trans (hagW _)
  have hhb2 : HB c (wr m1 (other s.active * c.P + 64) (imgs os')) (other s.active) := by
    rw [wr_eq_torn]; exact hhW _
  have hbody : rd (wr m1 (other s.active * c.P + 64) (imgs os')) (other s.active * c.P + 64) (imgs os').length =
      imgs os' := rd_wr ..
  generalize wr m1 (other s.active * c.P + 64) (imgs os') = m2 at *
  -- commit the header
  apply wp_bind'
  have hsz : ({ t with epoch := s.epoch + 1 } : Ctx).size = (imgs os').length := ht.size
  have hagH : Agree m2 (wr m2 (other s.active * c.P) (hdrBytes (s.epoch + 1) (imgs os').length))
      (s.active * c.P) (s.active * c.P + c.P) := by
    rw [wr_eq_torn]
    exact torn_other m2 hact _ _ (Nat.le_refl _) (by rw [hdrBytes_length]; omega)
  have himg : Img c (wr m2 (other s.active * c.P) (hdrBytes (s.epoch + 1) (imgs os').length))
      (other s.active) (s.epoch + 1) os' := by
    refine ⟨hobj', by omega, ?_, ?_⟩
    · have := rd_wr m2 (other s.active * c.P) (hdrBytes (s.epoch + 1) (imgs os').length)
      rw [hdrBytes_length] at this
      exact this
    · rw [rd_agree (wr_agree_ge m2 _ _ _ _ (by rw [hdrBytes_length]))]
      exact hbody
  have hag3 := hag2.trans hagH
  have hC3 : Guard c (wr m2 (other s.active * c.P) (hdrBytes (s.epoch + 1) (imgs os').length))
      (other s.active) (s.epoch + 1) := by
    generalize wr m2 (other s.active * c.P) (hdrBytes (s.epoch + 1) (imgs os').length) = m3 at *
    have hnb : ¬ HB c m3 (other s.active) := fun hb => by
      have := (himg.blank w hb).1; omega
    unfold Guard
    rw [other_other hact]
    by_cases hba : HB c m3 s.active
    · exact Or.inl hba
    · refine Or.inr ⟨hnb, hba, ?_⟩
      rw [(h.img.agree w hag3).hdr, hdrEpoch_hdr h.img.elt (h.img.objs.lt w)]
      split <;> omega
  have hd3 := Disk.of (n := n + 1) (other_lt _) himg (by omega) hC3
  refine partCommit_wp w (other_lt _) (s := { t with epoch := s.epoch + 1 }) hp hhb2 (hold m2 hag2 hhb2) ?_ ?_
  · rw [hsz]; exact Or.inr hd3
  rw [hsz]
  try dsimp only
  rw [if_neg (by simp)]
  generalize wr m2 (other s.active * c.P) (hdrBytes (s.epoch + 1) (imgs os').length) = m3 at *
  refine ⟨Or.inr hd3, ?_⟩
  try dsimp only
  rw [if_neg (by simp)]
  -- erase the old partition
  apply wp_bind'
  have hagF : ∀ sel, Agree m3 (torn 64 m3 (other (other s.active) * c.P) (erasedBytes c.dev c.P) sel)
      (other s.active * c.P) (other s.active * c.P + c.P) :=
    fun sel => torn_other m3 (other_lt _) _ sel (Nat.le_refl _) (by rw [erasedBytes_length])
  have hd4 : ∀ sel, Disk c (n + 1) (torn 64 m3 (other (other s.active) * c.P) (erasedBytes c.dev c.P) sel) (storeOf os') :=
    fun sel => Disk.of (other_lt _) (himg.agree w (hagF sel)) (by omega) (hC3.torn_erase w (other_lt _) sel)
  refine partErase_wp (other_lt _) (Or.inr hd3) (fun sel => Or.inr (hd4 sel)) ⟨?_, rfl, rfl, ?_⟩
  · rw [wr_eq_torn]; exact Or.inr (hd4 _)
  · refine ⟨⟨ht.ok, ht.nodup, ht.data, rfl, ht.len, hfit, ht.empty, ht.count⟩, hup, other_lt _, ?_, hp, ?_, ?_⟩
    · show s.epoch + 1 ≤ n + 1
      omega
    · have := hagF fun _ => true
      rw [← wr_eq_torn] at this
      exact himg.agree w this
    · exact HB.wr_erased w m3 _

end WolfHsm.FlashLog

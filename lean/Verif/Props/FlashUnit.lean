import Verif.Proofs.FlashUnit

/-!
# C07: byte-granular flash access

`mem` is a flash content, `d` the device.  `run` is a fault-free execution; `Exec`
ranges over every execution with power loss and driver faults.
-/

namespace WolfHsm.Props

open Flash FlashUnit

/-- The bytes `[a, a+n)` are blank. -/
def Blank (d : Dev) (m : Mem) (a n : Nat) : Prop := ∀ x, a ≤ x → x < a + n → m x = d.erased

/-- Reading any in-range bytes returns exactly them, whatever the alignment. -/
theorem C07_read_exact (d : Dev) (m : Mem) (off len : Nat) (hd : d.size % 8 = 0)
    (hr : off + len ≤ d.size) :
    run d (readBytes off len) m = ((.ok, (List.range len).map fun i => m (off + i)), m) := by
  have hbe := bytes2units_eq (off + len)
  have := wp_run (F := Faults.none) (wp_readBytes (d := d) (m := m) (C := fun _ => True)
    (Q := fun r m' => r = (.ok, rd m off len) ∧ m' = m) (byteOff := off) (len := len)
    (by omega) (by omega) trivial ⟨rfl, rfl⟩ (by simp [Faults.none]))
  exact Prod.ext this.1 this.2

/-- Programming bytes into blank flash and reading any sub-range back returns exactly
those bytes; nothing outside the rounded-up range changes. -/
theorem C07_roundtrip (d : Dev) (m : Mem) (u : Nat) (data : List UInt8)
    (hr : u * 8 + (data.length + 7) / 8 * 8 ≤ d.size)
    (hb : Blank d m (u * 8) ((data.length + 7) / 8 * 8)) :
    ∃ m', run d (programBytes (u * 8) data) m = (.ok, m') ∧
      (∀ x, x < u * 8 ∨ u * 8 + (data.length + 7) / 8 * 8 ≤ x → m' x = m x) ∧
      ∀ i n, i + n ≤ data.length →
        run d (readBytes (u * 8 + i) n) m' = ((.ok, (data.drop i).take n), m') := by
  have hbe := bytes2units_eq data.length
  have := wp_run (F := Faults.none) (wp_programBytes (d := d) (m := m) (C := fun _ => True)
    (Q := fun r m' => r = .ok ∧ Outside m m' (u * 8) (u * 8 + bytes2units data.length * 8) ∧
      rd m' (u * 8) data.length = data) (u := u) (data := data)
    (by omega) (by rw [isBlank_iff, hbe]; exact hb) (fun _ _ => trivial)
    (fun m' h1 h2 => ⟨rfl, h1, h2⟩) (by simp [Faults.none]))
  refine ⟨_, Prod.ext this.1 rfl, ?_, ?_⟩
  · rw [← hbe]; exact this.2.1
  · intro i n hin
    have hbe' := bytes2units_eq (u * 8 + i + n)
    have h2 := wp_run (F := Faults.none) (wp_readBytes (d := d)
      (m := (run d (programBytes (u * 8) data) m).2) (C := fun _ => True)
      (Q := fun r m' => r = (.ok, rd (run d (programBytes (u * 8) data) m).2 (u * 8 + i) n) ∧
        m' = (run d (programBytes (u * 8) data) m).2) (byteOff := u * 8 + i) (len := n)
      (by omega) (by omega) trivial ⟨rfl, rfl⟩ (by simp [Faults.none]))
    refine Prod.ext (h2.1.trans ?_) h2.2
    congr 1
    have h3 := this.2.2
    conv => rhs; rw [← h3]
    rw [rd_drop _ _ _ _ (by omega), rd_take _ _ _ _ (by omega)]

/-- Units: a target that is not blank or not in range is refused and nothing changes,
in every execution (power loss and driver faults included). -/
theorem C07_refused (d : Dev) (F : Faults) (m m' : Mem) (off : Nat) (bs : List UInt8)
    (o : Option Rc)
    (h : ¬ (Blank d m (off * 8) bs.length ∧ off * 8 + bs.length ≤ d.size))
    (hx : Exec d F (program off bs) m o m') : o ≠ some .ok ∧ m' = m := by
  have hw : wp d F (program off bs) (fun rc m' => rc ≠ .ok ∧ m' = m) (fun m' => m' = m) m := by
    by_cases hb : isBlank d m (off * 8) bs.length = true
    · have hr : ¬ off * 8 + bs.length ≤ d.size := fun hr => h ⟨isBlank_iff.1 hb, hr⟩
      have h1 : devBlank d m (off * 8) bs.length = .badargs := by
        simp only [devBlank]; rw [if_pos (by omega)]
      refine ⟨rfl, ?_, ?_⟩
      · rw [h1]; simp
      · intro _ e he _; simp [he]
    · exact wp_program_refused (by simpa using hb) rfl fun e he => ⟨he, rfl⟩
  have := wp_adequate hx hw
  cases o with
  | none => exact ⟨by simp, this⟩
  | some rc => exact ⟨by simpa using this.1, this.2⟩

/-- Bytes: in every execution, only erased bytes inside the rounded-up target range
ever change, and success is only reported if the whole range was blank. -/
theorem C07_only_blank_changes (d : Dev) (F : Faults) (m m' : Mem) (u : Nat)
    (data : List UInt8) (o : Option Rc)
    (hx : Exec d F (programBytes (u * 8) data) m o m') :
    (∀ x, m' x ≠ m x →
      u * 8 ≤ x ∧ x < u * 8 + (data.length + 7) / 8 * 8 ∧ m x = d.erased) ∧
    (o = some .ok → Blank d m (u * 8) ((data.length + 7) / 8 * 8)) := by
  let Only : Mem → Prop := fun m' => ∀ x, m' x ≠ m x →
      u * 8 ≤ x ∧ x < u * 8 + (data.length + 7) / 8 * 8 ∧ m x = d.erased
  have hrefl : Only m := fun x h => absurd rfl h
  have step : ∀ m1 off bs sel, Only m1 → u * 8 ≤ off * 8 →
      off * 8 + bs.length ≤ u * 8 + (data.length + 7) / 8 * 8 →
      isBlank d m1 (off * 8) bs.length = true → Only (torn m1 (off * 8) bs sel) := by
    intro m1 off bs sel ho h1 h2 hb x hx
    by_cases hc : m1 x = m x
    · rw [← hc] at hx ⊢
      have he := torn_same_blank hb x hx
      by_cases hin : off * 8 ≤ x ∧ x < off * 8 + bs.length
      · exact ⟨by omega, by omega, he⟩
      · exact absurd (torn_outside m1 (off * 8) bs sel x (by omega)) hx
    · exact ho x hc
  have hw : wp d F (programBytes (u * 8) data)
      (fun rc m' => Only m' ∧ (rc = .ok → Blank d m (u * 8) ((data.length + 7) / 8 * 8)))
      Only m := by
    unfold programBytes
    have e1 : u * 8 / 8 = u := by omega
    have e2 : u * 8 % 8 = 0 := by omega
    simp only [e1, e2, List.drop_zero]
    have last : ∀ m1, Only m1 → Outside m m1 (u * 8) (u * 8 + data.length / 8 * 8) →
        Blank d m (u * 8) (data.length / 8 * 8) →
        wp d F (andThen .ok (if data.length % 8 ≠ 0 then
          program (u + data.length / 8)
            ((data.drop (data.length / 8 * 8)).take (data.length % 8) ++
              List.replicate (8 - data.length % 8) 0)
          else pure .ok))
        (fun rc m' => Only m' ∧ (rc = .ok → Blank d m (u * 8) ((data.length + 7) / 8 * 8)))
        Only m1 := by
      intro m1 ho hout hbl
      apply wp_andThen_ok
      by_cases hrem : data.length % 8 = 0
      · rw [if_neg (by simp [hrem])]
        refine ⟨ho, ho, fun _ x h1 h2 => hbl x h1 (by omega)⟩
      · rw [if_pos hrem]
        have hlen : ((data.drop (data.length / 8 * 8)).take (data.length % 8) ++
              List.replicate (8 - data.length % 8) (0 : UInt8)).length = 8 := by
          simp; omega
        have hst := fun sel hb => step m1 (u + data.length / 8) _ sel ho (by omega)
          (by rw [hlen]; omega) hb
        refine wp_program ho (fun hb sel => hst sel hb) ?_ ?_ ?_ ?_
        · intro hb
          refine ⟨by rw [← torn_true]; exact hst _ hb, fun _ x h1 h2 => ?_⟩
          by_cases hx : x < u * 8 + data.length / 8 * 8
          · exact hbl x h1 hx
          · rw [hlen] at hb
            have := isBlank_iff.1 hb x (by omega) (by omega)
            rw [← hout x (by omega)]; exact this
        · intro _ _ e he; exact ⟨ho, fun h => absurd h he⟩
        · intro _ e he; exact ⟨ho, fun h => absurd h he⟩
        · intro _ hb e sel he; exact ⟨hst sel hb, fun h => absurd h he⟩
    apply wp_bind
    apply wp_andThen_ok
    by_cases hc : data.length / 8 = 0
    · rw [if_neg (by simp [hc])]
      exact ⟨hrefl, last m hrefl (Outside.refl _ _ _) (fun x h1 h2 => by omega)⟩
    · rw [if_pos hc]
      have hl : (data.take (data.length / 8 * 8)).length = data.length / 8 * 8 := by
        simp; omega
      have hst := fun sel hb => step m u (data.take (data.length / 8 * 8)) sel hrefl (by omega)
          (by rw [hl]; omega) hb
      refine wp_program hrefl (fun hb sel => hst sel hb) ?_ ?_ ?_ ?_
      · intro hb
        refine last _ (by rw [← torn_true]; exact hst _ hb) ?_ ?_
        · have := wr_outside m (u * 8) (data.take (data.length / 8 * 8)); rwa [hl] at this
        · rw [hl] at hb; exact isBlank_iff.1 hb
      · intro _ _ e he; exact wp_andThen_err he hrefl ⟨hrefl, fun h => absurd h he⟩
      · intro _ e he; exact wp_andThen_err he hrefl ⟨hrefl, fun h => absurd h he⟩
      · intro _ hb e sel he
        exact wp_andThen_err he (hst sel hb) ⟨hst sel hb, fun h => absurd h he⟩
  have := wp_adequate hx hw
  cases o with
  | none => exact ⟨this, by simp⟩
  | some rc => exact ⟨this.1, fun h => this.2 (by simpa using h)⟩

/-- The hypotheses are met: an 11-byte string into unit 1 of a blank 64-byte device. -/
example : ∃ (d : Dev) (m : Mem) (data : List UInt8), data.length = 11 ∧
    1 * 8 + (data.length + 7) / 8 * 8 ≤ d.size ∧
    Blank d m (1 * 8) ((data.length + 7) / 8 * 8) :=
  ⟨⟨64, 0xFF⟩, fun _ => 0xFF, [1, 2, 3, 4, 5, 6, 7, 8, 9, 10, 11], rfl, by decide,
    fun _ _ _ => rfl⟩

/-- … and the run behaves as stated on it. -/
example :
    let d : Dev := ⟨64, 0xFF⟩
    let r := run d (programBytes 8 [1, 2, 3, 4, 5, 6, 7, 8, 9, 10, 11]) (fun _ => 0xFF)
    r.1 = .ok ∧ (run d (readBytes 13 5) r.2).1 = (.ok, [6, 7, 8, 9, 10]) := by
  decide

/-- A refused case: the target holds a programmed byte. -/
example : ∃ (d : Dev) (m : Mem), ¬ (Blank d m (1 * 8) 8 ∧ 1 * 8 + 8 ≤ d.size) :=
  ⟨⟨64, 0xFF⟩, fun x => if x = 9 then 0 else 0xFF, fun h => by
    have := h.1 9 (by decide) (by decide); simp at this⟩

end WolfHsm.Props

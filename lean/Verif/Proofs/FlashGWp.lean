import Verif.Model.FlashGranule
import Verif.Proofs.FlashWp

/-! # The program logic of `FlashWp.lean` for devices with larger granules -/

namespace WolfHsm.FlashG

open Flash (FP Mem Dev Faults rd wr isBlank erasedBytes devRead devBlank devProg devVerify devErase run Agree
  isBlank_iff rd_agree erasedBytes_length wr_agree_lt wr_agree_ge)

theorem torn_agree_lt (g : Nat) (m : Mem) (a : Nat) (bs : List UInt8) (sel : Nat → Bool) (lo hi : Nat)
    (h : hi ≤ a) : Agree m (torn g m a bs sel) lo hi := by
  intro x h1 hx
  simp only [torn]
  split
  · exact wr_agree_lt m a bs lo hi h x h1 hx
  · rfl

theorem torn_agree_ge (g : Nat) (m : Mem) (a : Nat) (bs : List UInt8) (sel : Nat → Bool) (lo hi : Nat)
    (h : a + bs.length ≤ lo) : Agree m (torn g m a bs sel) lo hi := by
  intro x h1 hx
  simp only [torn]
  split
  · exact wr_agree_ge m a bs lo hi h x h1 hx
  · rfl

/-- A torn write of a single aligned granule either happened or did not. -/
theorem torn_granule (g : Nat) (hg : 0 < g) (m : Mem) (a : Nat) (ha : a % g = 0) (bs : List UInt8)
    (h : bs.length = g) (sel : Nat → Bool) :
    torn g m a bs sel = wr m a bs ∨ torn g m a bs sel = m := by
  have key : ∀ x, ¬ x / g = a / g → wr m a bs x = m x := by
    intro x hx
    simp only [wr]
    rw [if_neg]
    intro ⟨h1, h2⟩
    apply hx
    obtain ⟨q, hq⟩ : ∃ q, a = g * q := ⟨a / g, by
      have := Nat.div_add_mod a g; rw [ha] at this; omega⟩
    have e1 : a / g = q := by rw [hq, Nat.mul_div_cancel_left _ hg]
    rw [e1]
    refine Nat.div_eq_of_lt_le ?_ ?_
    · rw [Nat.mul_comm, ← hq]; exact h1
    · rw [Nat.add_mul, Nat.one_mul, Nat.mul_comm, ← hq]; omega
  cases hs : sel (a / g)
  · right
    funext x
    simp only [torn]
    by_cases hx : x / g = a / g
    · rw [hx, hs]; simp
    · split
      · exact key x hx
      · rfl
  · left
    funext x
    simp only [torn]
    by_cases hx : x / g = a / g
    · rw [hx, hs]; simp
    · split
      · rfl
      · exact (key x hx).symm

/-- A torn erase leaves every byte as it was or erased. -/
theorem torn_erase_byte (g : Nat) (d : Dev) (m : Mem) (a n : Nat) (sel : Nat → Bool) (x : Nat) :
    torn g m a (erasedBytes d n) sel x = m x ∨ torn g m a (erasedBytes d n) sel x = d.erased := by
  simp only [torn]
  split
  · simp only [wr, erasedBytes, List.length_replicate]
    split
    · right
      rw [List.getD_eq_getElem?_getD, List.getElem?_replicate, if_pos (by omega)]; rfl
    · left; rfl
  · left; rfl

/-- A torn erase leaves an aligned 64-byte block as it was or blank. -/
theorem torn_erase_block (d : Dev) (m : Mem) (a n : Nat) (sel : Nat → Bool) (b : Nat) (ha : a % 64 = 0)
    (hn : n % 64 = 0) (hb : b % 64 = 0) :
    rd (torn 64 m a (erasedBytes d n) sel) b 64 = rd m b 64 ∨
    isBlank d (torn 64 m a (erasedBytes d n) sel) b 64 = true := by
  by_cases h : a ≤ b ∧ b + 64 ≤ a + n
  · cases hs : sel (b / 64)
    · left
      apply rd_agree
      intro x h1 h2
      have : x / 64 = b / 64 := by omega
      simp [torn, this, hs]
    · right
      rw [isBlank_iff]
      intro x h1 h2
      have : x / 64 = b / 64 := by omega
      simp only [torn, this, hs, if_true, wr, erasedBytes, List.length_replicate]
      rw [if_pos (by omega), List.getD_eq_getElem?_getD, List.getElem?_replicate, if_pos (by omega)]
      rfl
  · left
    apply rd_agree
    intro x h1 h2
    simp only [torn]
    split
    · simp only [wr, erasedBytes_length]; rw [if_neg (by omega)]
    · rfl

/-! ## The logic -/

variable {α β : Type}

/-- `wp g d F p Q C m`: every execution of `p` from `m` that returns satisfies `Q`, and
every flash content that a power loss can leave satisfies `C`. -/
def wp (g : Nat) (d : Dev) (F : Faults) : FP α → (α → Mem → Prop) → (Mem → Prop) → Mem → Prop
  | .ret a, Q, C, m => C m ∧ Q a m
  | .read a n k, Q, C, m => C m ∧
      wp g d F (k (devRead d m a n).1 (devRead d m a n).2) Q C m ∧
      (F.read = true → ∀ e bs, e ≠ .ok → wp g d F (k e bs) Q C m)
  | .blank a n k, Q, C, m => C m ∧
      wp g d F (k (devBlank d m a n)) Q C m ∧
      (F.read = true → ∀ e, e ≠ .ok → e ≠ .notblank → wp g d F (k e) Q C m)
  | .prog a bs k, Q, C, m => C m ∧
      (devProg d m a bs ≠ .ok → wp g d F (k (devProg d m a bs)) Q C m) ∧
      (devProg d m a bs = .ok →
        wp g d F (k .ok) Q C (wr m a bs) ∧ (∀ sel, C (torn g m a bs sel)) ∧
        (F.write = true → ∀ e sel, e ≠ .ok → wp g d F (k e) Q C (torn g m a bs sel)))
  | .verify a bs k, Q, C, m => C m ∧
      wp g d F (k (devVerify d m a bs)) Q C m ∧
      (F.write = true → ∀ e, e ≠ .ok → wp g d F (k e) Q C m)
  | .erase a n k, Q, C, m => C m ∧
      (devErase d a n ≠ .ok → wp g d F (k (devErase d a n)) Q C m) ∧
      (devErase d a n = .ok →
        wp g d F (k .ok) Q C (wr m a (erasedBytes d n)) ∧
        (∀ sel, C (torn g m a (erasedBytes d n) sel)) ∧
        (F.write = true → ∀ e sel, e ≠ .ok →
          wp g d F (k e) Q C (torn g m a (erasedBytes d n) sel)))

theorem wp_crash {g : Nat} {d : Dev} {F : Faults} {p : FP α} {Q C m} (h : wp g d F p Q C m) : C m := by
  cases p <;> exact h.1

/-- What `wp` promises of an outcome. -/
def Post (Q : α → Mem → Prop) (C : Mem → Prop) : Option α → Mem → Prop
  | some a, m => Q a m
  | none, m => C m

/-- Adequacy: `wp` covers every execution. -/
theorem wp_adequate {g : Nat} {d : Dev} {F : Faults} {p : FP α} {m m' : Mem} {o : Option α}
    (h : Exec g d F p m o m') : ∀ {Q C}, wp g d F p Q C m → Post Q C o m' := by
  induction h with
  | ret a m => intro Q C h; exact h.2
  | crash p m => intro Q C h; exact wp_crash h
  | read _ ih => intro Q C h; exact ih h.2.1
  | readFault e bs hr he _ ih => intro Q C h; exact ih (h.2.2 hr e bs he)
  | blank _ ih => intro Q C h; exact ih h.2.1
  | blankFault e hr he he' _ ih => intro Q C h; exact ih (h.2.2 hr e he he')
  | progRefused hp _ ih => intro Q C h; exact ih (h.2.1 hp)
  | prog hp _ ih => intro Q C h; exact ih (h.2.2 hp).1
  | progTorn sel hp => intro Q C h; exact (h.2.2 hp).2.1 sel
  | progFault e sel hw he hp _ ih => intro Q C h; exact ih ((h.2.2 hp).2.2 hw e sel he)
  | verify _ ih => intro Q C h; exact ih h.2.1
  | verifyFault e hw he _ ih => intro Q C h; exact ih (h.2.2 hw e he)
  | eraseRefused hp _ ih => intro Q C h; exact ih (h.2.1 hp)
  | erase hp _ ih => intro Q C h; exact ih (h.2.2 hp).1
  | eraseTorn sel hp => intro Q C h; exact (h.2.2 hp).2.1 sel
  | eraseFault e sel hw he hp _ ih => intro Q C h; exact ih ((h.2.2 hp).2.2 hw e sel he)

/-- The fault-free run is one of the executions. -/
theorem run_exec (g : Nat) (d : Dev) (F : Faults) (p : FP α) : ∀ m,
    Exec g d F p m (some (run d p m).1) (run d p m).2 := by
  induction p with
  | ret a => intro m; exact .ret _ _
  | read a n k ih => intro m; exact .read (ih _ _ _)
  | blank a n k ih => intro m; exact .blank (ih _ _)
  | prog a bs k ih =>
    intro m
    by_cases h : devProg d m a bs = .ok
    · have : run d (.prog a bs k) m = run d (k .ok) (wr m a bs) := by simp [run, h]
      rw [this]; exact .prog h (ih _ _)
    · have : run d (.prog a bs k) m = run d (k (devProg d m a bs)) m := by simp [run, h]
      rw [this]; exact .progRefused h (ih _ _)
  | verify a bs k ih => intro m; exact .verify (ih _ _)
  | erase a n k ih =>
    intro m
    by_cases h : devErase d a n = .ok
    · have : run d (.erase a n k) m = run d (k .ok) (wr m a (erasedBytes d n)) := by
        simp [run, h]
      rw [this]; exact .erase h (ih _ _)
    · have : run d (.erase a n k) m = run d (k (devErase d a n)) m := by simp [run, h]
      rw [this]; exact .eraseRefused h (ih _ _)

/-- Without faults, a returning execution is the run. -/
theorem exec_run {g : Nat} {d : Dev} {p : FP α} {m m' : Mem} {o : Option α}
    (h : Exec g d Faults.none p m o m') : ∀ a, o = some a → run d p m = (a, m') := by
  induction h with
  | ret a m => intro b h; cases h; rfl
  | crash p m => intro b h; cases h
  | read _ ih => intro b h; exact ih b h
  | readFault e bs hr => cases hr
  | blank _ ih => intro b h; exact ih b h
  | blankFault e hr => cases hr
  | progRefused hp _ ih => intro b h; simp only [run, hp, if_false]; exact ih b h
  | prog hp _ ih => intro b h; simp only [run, hp, if_true]; exact ih b h
  | progTorn sel hp => intro b h; cases h
  | progFault e sel hw => cases hw
  | verify _ ih => intro b h; exact ih b h
  | verifyFault e hw => cases hw
  | eraseRefused hp _ ih => intro b h; simp only [run, hp, if_false]; exact ih b h
  | erase hp _ ih => intro b h; simp only [run, hp, if_true]; exact ih b h
  | eraseTorn sel hp => intro b h; cases h
  | eraseFault e sel hw => cases hw

theorem wp_run {g : Nat} {d : Dev} {F : Faults} {p : FP α} {Q C m} (h : wp g d F p Q C m) :
    Q (run d p m).1 (run d p m).2 := wp_adequate (run_exec g d F p m) h

theorem wp_mono {g : Nat} {d : Dev} {F : Faults} {p : FP α} : ∀ {Q Q' : α → Mem → Prop}
    {C C' : Mem → Prop} {m}, wp g d F p Q C m → (∀ a m, Q a m → Q' a m) → (∀ m, C m → C' m) →
    wp g d F p Q' C' m := by
  induction p with
  | ret a => intro Q Q' C C' m h hQ hC; exact ⟨hC _ h.1, hQ _ _ h.2⟩
  | read a n k ih =>
    intro Q Q' C C' m h hQ hC
    exact ⟨hC _ h.1, ih _ _ h.2.1 hQ hC, fun hr e bs he => ih _ _ (h.2.2 hr e bs he) hQ hC⟩
  | blank a n k ih =>
    intro Q Q' C C' m h hQ hC
    exact ⟨hC _ h.1, ih _ h.2.1 hQ hC, fun hr e he he' => ih _ (h.2.2 hr e he he') hQ hC⟩
  | prog a bs k ih =>
    intro Q Q' C C' m h hQ hC
    exact ⟨hC _ h.1, fun hp => ih _ (h.2.1 hp) hQ hC, fun hp =>
      ⟨ih _ (h.2.2 hp).1 hQ hC, fun sel => hC _ ((h.2.2 hp).2.1 sel),
       fun hw e sel he => ih _ ((h.2.2 hp).2.2 hw e sel he) hQ hC⟩⟩
  | verify a bs k ih =>
    intro Q Q' C C' m h hQ hC
    exact ⟨hC _ h.1, ih _ h.2.1 hQ hC, fun hw e he => ih _ (h.2.2 hw e he) hQ hC⟩
  | erase a n k ih =>
    intro Q Q' C C' m h hQ hC
    exact ⟨hC _ h.1, fun hp => ih _ (h.2.1 hp) hQ hC, fun hp =>
      ⟨ih _ (h.2.2 hp).1 hQ hC, fun sel => hC _ ((h.2.2 hp).2.1 sel),
       fun hw e sel he => ih _ ((h.2.2 hp).2.2 hw e sel he) hQ hC⟩⟩

theorem wp_bind' {g : Nat} {d : Dev} {F : Faults} {p : FP α} {f : α → FP β} : ∀ {Q C m},
    wp g d F p (fun a m => wp g d F (f a) Q C m) C m → wp g d F (p.bind f) Q C m := by
  induction p with
  | ret a => intro Q C m h; exact h.2
  | read a n k ih =>
    intro Q C m h
    exact ⟨h.1, ih _ _ h.2.1, fun hr e bs he => ih _ _ (h.2.2 hr e bs he)⟩
  | blank a n k ih =>
    intro Q C m h
    exact ⟨h.1, ih _ h.2.1, fun hr e he he' => ih _ (h.2.2 hr e he he')⟩
  | prog a bs k ih =>
    intro Q C m h
    exact ⟨h.1, fun hp => ih _ (h.2.1 hp), fun hp =>
      ⟨ih _ (h.2.2 hp).1, (h.2.2 hp).2.1, fun hw e sel he => ih _ ((h.2.2 hp).2.2 hw e sel he)⟩⟩
  | verify a bs k ih =>
    intro Q C m h
    exact ⟨h.1, ih _ h.2.1, fun hw e he => ih _ (h.2.2 hw e he)⟩
  | erase a n k ih =>
    intro Q C m h
    exact ⟨h.1, fun hp => ih _ (h.2.1 hp), fun hp =>
      ⟨ih _ (h.2.2 hp).1, (h.2.2 hp).2.1, fun hw e sel he => ih _ ((h.2.2 hp).2.2 hw e sel he)⟩⟩

theorem wp_bind {g : Nat} {d : Dev} {F : Faults} {p : FP α} {f : α → FP β} {Q C m}
    (h : wp g d F p (fun a m => wp g d F (f a) Q C m) C m) : wp g d F (p >>= f) Q C m := wp_bind' h

theorem wp_pure {g : Nat} {d : Dev} {F : Faults} {a : α} {Q : α → Mem → Prop} {C m} (hC : C m)
    (h : Q a m) : wp g d F (pure a : FP α) Q C m := ⟨hC, h⟩

@[simp] theorem wp_pure_iff {g : Nat} {d : Dev} {F : Faults} {a : α} {Q : α → Mem → Prop} {C m} :
    wp g d F (pure a : FP α) Q C m ↔ C m ∧ Q a m := Iff.rfl

@[simp] theorem wp_ret_iff {g : Nat} {d : Dev} {F : Faults} {a : α} {Q : α → Mem → Prop} {C m} :
    wp g d F (.ret a : FP α) Q C m ↔ C m ∧ Q a m := Iff.rfl

end WolfHsm.FlashG

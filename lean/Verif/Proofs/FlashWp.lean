import Verif.Model.FlashUnit

/-!
# Memory lemmas and a crash-aware program logic for flash programs
-/

namespace WolfHsm.Flash

/-! ## Reading and writing memory -/

@[simp] theorem rd_length (m : Mem) (a n : Nat) : (rd m a n).length = n := by simp [rd]

theorem rd_getElem (m : Mem) (a n i : Nat) (h : i < (rd m a n).length) :
    (rd m a n)[i] = m (a + i) := by simp [rd]

/-- `m` and `m'` agree on `[lo, hi)`. -/
def Agree (m m' : Mem) (lo hi : Nat) : Prop := ∀ x, lo ≤ x → x < hi → m' x = m x

theorem Agree.refl (m : Mem) (lo hi : Nat) : Agree m m lo hi := fun _ _ _ => rfl

theorem Agree.trans {m1 m2 m3 : Mem} {lo hi : Nat} (h1 : Agree m1 m2 lo hi)
    (h2 : Agree m2 m3 lo hi) : Agree m1 m3 lo hi := fun x a b => (h2 x a b).trans (h1 x a b)

theorem Agree.mono {m m' : Mem} {lo hi lo' hi' : Nat} (h : Agree m m' lo hi) (h1 : lo ≤ lo')
    (h2 : hi' ≤ hi) : Agree m m' lo' hi' :=
  fun x a b => h x (Nat.le_trans h1 a) (Nat.lt_of_lt_of_le b h2)

theorem Agree.symm {m m' : Mem} {lo hi : Nat} (h : Agree m m' lo hi) : Agree m' m lo hi :=
  fun x a b => (h x a b).symm

theorem rd_agree {m m' : Mem} {a n : Nat} (h : Agree m m' a (a + n)) : rd m' a n = rd m a n := by
  simp only [rd]
  apply List.map_congr_left
  intro i hi
  exact h _ (Nat.le_add_right _ _) (Nat.add_lt_add_left (List.mem_range.1 hi) _)

theorem rd_eq_of_agree {m m' : Mem} {a n lo hi : Nat} (h : Agree m m' lo hi) (h1 : lo ≤ a)
    (h2 : a + n ≤ hi) : rd m' a n = rd m a n := rd_agree (h.mono h1 h2)

theorem isBlank_agree {d : Dev} {m m' : Mem} {a n lo hi : Nat} (h : Agree m m' lo hi)
    (h1 : lo ≤ a) (h2 : a + n ≤ hi) : isBlank d m' a n = isBlank d m a n := by
  simp only [isBlank, rd_eq_of_agree h h1 h2]

theorem isBlank_iff {d : Dev} {m : Mem} {a n : Nat} :
    isBlank d m a n = true ↔ ∀ x, a ≤ x → x < a + n → m x = d.erased := by
  simp only [isBlank, rd, List.all_map, List.all_eq_true, List.mem_range, Function.comp,
    beq_iff_eq]
  constructor
  · intro h x h1 h2
    have := h (x - a) (by omega)
    rwa [Nat.add_sub_cancel' h1] at this
  · intro h i hi
    exact h _ (by omega) (by omega)

theorem isBlank_sub {d : Dev} {m : Mem} {a n a' n' : Nat} (h : isBlank d m a n = true)
    (h1 : a ≤ a') (h2 : a' + n' ≤ a + n) : isBlank d m a' n' = true := by
  rw [isBlank_iff] at *
  exact fun x hx hx' => h x (by omega) (by omega)

theorem isBlank_append {d : Dev} {m : Mem} {a n1 n2 : Nat} (h1 : isBlank d m a n1 = true)
    (h2 : isBlank d m (a + n1) n2 = true) : isBlank d m a (n1 + n2) = true := by
  rw [isBlank_iff] at *
  intro x hx hx'
  by_cases h : x < a + n1
  · exact h1 x hx h
  · exact h2 x (by omega) (by omega)

theorem wr_agree_lt (m : Mem) (a : Nat) (bs : List UInt8) (lo hi : Nat) (h : hi ≤ a) :
    Agree m (wr m a bs) lo hi := by
  intro x _ hx
  simp only [wr]
  rw [if_neg (by omega)]

theorem wr_agree_ge (m : Mem) (a : Nat) (bs : List UInt8) (lo hi : Nat)
    (h : a + bs.length ≤ lo) : Agree m (wr m a bs) lo hi := by
  intro x hx _
  simp only [wr]
  rw [if_neg (by omega)]

theorem torn_agree_lt (m : Mem) (a : Nat) (bs : List UInt8) (sel : Nat → Bool) (lo hi : Nat)
    (h : hi ≤ a) : Agree m (torn m a bs sel) lo hi := by
  intro x h1 hx
  simp only [torn]
  split
  · exact wr_agree_lt m a bs lo hi h x h1 hx
  · rfl

theorem torn_agree_ge (m : Mem) (a : Nat) (bs : List UInt8) (sel : Nat → Bool) (lo hi : Nat)
    (h : a + bs.length ≤ lo) : Agree m (torn m a bs sel) lo hi := by
  intro x h1 hx
  simp only [torn]
  split
  · exact wr_agree_ge m a bs lo hi h x h1 hx
  · rfl

theorem rd_wr (m : Mem) (a : Nat) (bs : List UInt8) : rd (wr m a bs) a bs.length = bs := by
  apply List.ext_getElem (by simp)
  intro i h1 h2
  rw [rd_getElem]
  simp only [wr]
  rw [if_pos (by omega), Nat.add_sub_cancel_left, List.getD_eq_getElem?_getD,
    List.getElem?_eq_getElem h2, Option.getD_some]

theorem rd_wr_sub (m : Mem) (a : Nat) (bs : List UInt8) (i n : Nat) (h : i + n ≤ bs.length) :
    rd (wr m a bs) (a + i) n = (bs.drop i).take n := by
  apply List.ext_getElem (by simp; omega)
  intro j h1 h2
  rw [rd_getElem]
  simp only [rd_length] at h1
  simp only [wr]
  rw [if_pos (by omega), List.getD_eq_getElem?_getD]
  have : a + i + j - a = i + j := by omega
  rw [this]
  simp [List.getElem?_eq_getElem (show i + j < bs.length by omega)]

theorem torn_true (m : Mem) (a : Nat) (bs : List UInt8) :
    torn m a bs (fun _ => true) = wr m a bs := by
  funext x; simp [torn]

theorem torn_false (m : Mem) (a : Nat) (bs : List UInt8) :
    torn m a bs (fun _ => false) = m := by
  funext x; simp [torn]

/-- A torn write of a single aligned unit either happened or did not. -/
theorem torn_unit (m : Mem) (u : Nat) (bs : List UInt8) (h : bs.length = 8) (sel : Nat → Bool) :
    torn m (u * 8) bs sel = wr m (u * 8) bs ∨ torn m (u * 8) bs sel = m := by
  cases hs : sel u
  · right
    funext x
    simp only [torn]
    by_cases hx : x / 8 = u
    · rw [hx, hs]; simp
    · split
      · simp only [wr]; rw [if_neg (by omega)]
      · rfl
  · left
    funext x
    simp only [torn]
    by_cases hx : x / 8 = u
    · rw [hx, hs]; simp
    · split
      · rfl
      · simp only [wr]; rw [if_neg (by omega)]

theorem rd_append (m : Mem) (a n1 n2 : Nat) :
    rd m a (n1 + n2) = rd m a n1 ++ rd m (a + n1) n2 := by
  apply List.ext_getElem (by simp)
  intro i h1 h2
  rw [rd_getElem, List.getElem_append]
  split
  · rw [rd_getElem]
  · rename_i h
    simp only [rd_length] at h
    rw [rd_getElem]; simp only [rd_length]; congr 1; omega

theorem rd_take (m : Mem) (a n k : Nat) (h : k ≤ n) : (rd m a n).take k = rd m a k := by
  obtain ⟨j, rfl⟩ := Nat.exists_eq_add_of_le h
  rw [rd_append, List.take_left' (by simp)]

theorem rd_drop (m : Mem) (a n k : Nat) (h : k ≤ n) : (rd m a n).drop k = rd m (a + k) (n - k) := by
  obtain ⟨j, rfl⟩ := Nat.exists_eq_add_of_le h
  rw [rd_append, List.drop_left' (by simp), Nat.add_sub_cancel_left]

@[simp] theorem rd_zero (m : Mem) (a : Nat) : rd m a 0 = [] := rfl

theorem isBlank_wr_erased (d : Dev) (m : Mem) (a n : Nat) :
    isBlank d (wr m a (erasedBytes d n)) a n = true := by
  rw [isBlank_iff]
  intro x h1 h2
  simp only [wr, erasedBytes, List.length_replicate]
  rw [if_pos ⟨h1, h2⟩]
  rw [List.getD_eq_getElem?_getD, List.getElem?_replicate, if_pos (by omega)]
  rfl

@[simp] theorem erasedBytes_length (d : Dev) (n : Nat) : (erasedBytes d n).length = n := by
  simp [erasedBytes]

/-- A torn erase leaves each unit as it was or blank. -/
theorem torn_erase_unit (d : Dev) (m : Mem) (a n : Nat) (sel : Nat → Bool) (u : Nat) (ha : a % 8 = 0)
    (hn : n % 8 = 0) :
    rd (torn m a (erasedBytes d n) sel) (u * 8) 8 = rd m (u * 8) 8 ∨
    isBlank d (torn m a (erasedBytes d n) sel) (u * 8) 8 = true := by
  by_cases h : a ≤ u * 8 ∧ u * 8 + 8 ≤ a + n
  · cases hs : sel u
    · left
      apply rd_agree
      intro x h1 h2
      have : x / 8 = u := by omega
      simp [torn, this, hs]
    · right
      rw [isBlank_iff]
      intro x h1 h2
      have : x / 8 = u := by omega
      simp only [torn, this, hs, if_true, wr, erasedBytes, List.length_replicate]
      rw [if_pos (by omega), List.getD_eq_getElem?_getD, List.getElem?_replicate,
        if_pos (by omega)]
      rfl
  · left
    apply rd_agree
    intro x h1 h2
    simp only [torn]
    split
    · simp only [wr, erasedBytes_length]; rw [if_neg (by omega)]
    · rfl

/-! ## The logic -/

variable {α β : Type}

/-- `wp d F p Q C m`: every execution of `p` from `m` that returns satisfies `Q`, and
every flash content that a power loss can leave satisfies `C`. -/
def wp (d : Dev) (F : Faults) : FP α → (α → Mem → Prop) → (Mem → Prop) → Mem → Prop
  | .ret a, Q, C, m => C m ∧ Q a m
  | .read a n k, Q, C, m => C m ∧
      wp d F (k (devRead d m a n).1 (devRead d m a n).2) Q C m ∧
      (F.read = true → ∀ e bs, e ≠ .ok → wp d F (k e bs) Q C m)
  | .blank a n k, Q, C, m => C m ∧
      wp d F (k (devBlank d m a n)) Q C m ∧
      (F.read = true → ∀ e, e ≠ .ok → e ≠ .notblank → wp d F (k e) Q C m)
  | .prog a bs k, Q, C, m => C m ∧
      (devProg d m a bs ≠ .ok → wp d F (k (devProg d m a bs)) Q C m) ∧
      (devProg d m a bs = .ok →
        wp d F (k .ok) Q C (wr m a bs) ∧ (∀ sel, C (torn m a bs sel)) ∧
        (F.write = true → ∀ e sel, e ≠ .ok → wp d F (k e) Q C (torn m a bs sel)))
  | .verify a bs k, Q, C, m => C m ∧
      wp d F (k (devVerify d m a bs)) Q C m ∧
      (F.write = true → ∀ e, e ≠ .ok → wp d F (k e) Q C m)
  | .erase a n k, Q, C, m => C m ∧
      (devErase d a n ≠ .ok → wp d F (k (devErase d a n)) Q C m) ∧
      (devErase d a n = .ok →
        wp d F (k .ok) Q C (wr m a (erasedBytes d n)) ∧
        (∀ sel, C (torn m a (erasedBytes d n) sel)) ∧
        (F.write = true → ∀ e sel, e ≠ .ok →
          wp d F (k e) Q C (torn m a (erasedBytes d n) sel)))

theorem wp_crash {d : Dev} {F : Faults} {p : FP α} {Q C m} (h : wp d F p Q C m) : C m := by
  cases p <;> exact h.1

/-- What `wp` promises of an outcome. -/
def Post (Q : α → Mem → Prop) (C : Mem → Prop) : Option α → Mem → Prop
  | some a, m => Q a m
  | none, m => C m

/-- Adequacy: `wp` covers every execution. -/
theorem wp_adequate {d : Dev} {F : Faults} {p : FP α} {m m' : Mem} {o : Option α}
    (h : Exec d F p m o m') : ∀ {Q C}, wp d F p Q C m → Post Q C o m' := by
  induction h with
  | ret a m => intro Q C h; exact h.2
  | crash p m => intro Q C h; exact wp_crash h
  | read _ ih => intro Q C h; exact ih h.2.1
  | readFault e bs hr he _ ih => intro Q C h; exact ih (h.2.2 hr e bs he)
  | blank _ ih => intro Q C h; exact ih h.2.1
  | blankFault e hr he he' _ ih => intro Q C h; exact ih (h.2.2 hr e he he')
  | progRefused hp _ ih => intro Q C h; exact ih (h.2.1 hp)
  | prog hp _ ih => intro Q C h; exact ih (h.2.2 hp).1
  | progTorn sel hp => intro Q C h; exact (h.2.2 hp).2.1 sel
  | progFault e sel hw he hp _ ih => intro Q C h; exact ih ((h.2.2 hp).2.2 hw e sel he)
  | verify _ ih => intro Q C h; exact ih h.2.1
  | verifyFault e hw he _ ih => intro Q C h; exact ih (h.2.2 hw e he)
  | eraseRefused hp _ ih => intro Q C h; exact ih (h.2.1 hp)
  | erase hp _ ih => intro Q C h; exact ih (h.2.2 hp).1
  | eraseTorn sel hp => intro Q C h; exact (h.2.2 hp).2.1 sel
  | eraseFault e sel hw he hp _ ih => intro Q C h; exact ih ((h.2.2 hp).2.2 hw e sel he)

/-- The fault-free run is one of the executions. -/
theorem run_exec (d : Dev) (F : Faults) (p : FP α) : ∀ m,
    Exec d F p m (some (run d p m).1) (run d p m).2 := by
  induction p with
  | ret a => intro m; exact .ret _ _
  | read a n k ih => intro m; exact .read (ih _ _ _)
  | blank a n k ih => intro m; exact .blank (ih _ _)
  | prog a bs k ih =>
    intro m
    by_cases h : devProg d m a bs = .ok
    · have : run d (.prog a bs k) m = run d (k .ok) (wr m a bs) := by simp [run, h]
      rw [this]; exact .prog h (ih _ _)
    · have : run d (.prog a bs k) m = run d (k (devProg d m a bs)) m := by simp [run, h]
      rw [this]; exact .progRefused h (ih _ _)
  | verify a bs k ih => intro m; exact .verify (ih _ _)
  | erase a n k ih =>
    intro m
    by_cases h : devErase d a n = .ok
    · have : run d (.erase a n k) m = run d (k .ok) (wr m a (erasedBytes d n)) := by
        simp [run, h]
      rw [this]; exact .erase h (ih _ _)
    · have : run d (.erase a n k) m = run d (k (devErase d a n)) m := by simp [run, h]
      rw [this]; exact .eraseRefused h (ih _ _)

/-- Without faults, a returning execution is the run. -/
theorem exec_run {d : Dev} {p : FP α} {m m' : Mem} {o : Option α}
    (h : Exec d Faults.none p m o m') : ∀ a, o = some a → run d p m = (a, m') := by
  induction h with
  | ret a m => intro b h; cases h; rfl
  | crash p m => intro b h; cases h
  | read _ ih => intro b h; exact ih b h
  | readFault e bs hr => cases hr
  | blank _ ih => intro b h; exact ih b h
  | blankFault e hr => cases hr
  | progRefused hp _ ih => intro b h; simp only [run, hp, if_false]; exact ih b h
  | prog hp _ ih => intro b h; simp only [run, hp, if_true]; exact ih b h
  | progTorn sel hp => intro b h; cases h
  | progFault e sel hw => cases hw
  | verify _ ih => intro b h; exact ih b h
  | verifyFault e hw => cases hw
  | eraseRefused hp _ ih => intro b h; simp only [run, hp, if_false]; exact ih b h
  | erase hp _ ih => intro b h; simp only [run, hp, if_true]; exact ih b h
  | eraseTorn sel hp => intro b h; cases h
  | eraseFault e sel hw => cases hw

theorem wp_run {d : Dev} {F : Faults} {p : FP α} {Q C m} (h : wp d F p Q C m) :
    Q (run d p m).1 (run d p m).2 := wp_adequate (run_exec d F p m) h

theorem wp_mono {d : Dev} {F : Faults} {p : FP α} : ∀ {Q Q' : α → Mem → Prop}
    {C C' : Mem → Prop} {m}, wp d F p Q C m → (∀ a m, Q a m → Q' a m) → (∀ m, C m → C' m) →
    wp d F p Q' C' m := by
  induction p with
  | ret a => intro Q Q' C C' m h hQ hC; exact ⟨hC _ h.1, hQ _ _ h.2⟩
  | read a n k ih =>
    intro Q Q' C C' m h hQ hC
    exact ⟨hC _ h.1, ih _ _ h.2.1 hQ hC, fun hr e bs he => ih _ _ (h.2.2 hr e bs he) hQ hC⟩
  | blank a n k ih =>
    intro Q Q' C C' m h hQ hC
    exact ⟨hC _ h.1, ih _ h.2.1 hQ hC, fun hr e he he' => ih _ (h.2.2 hr e he he') hQ hC⟩
  | prog a bs k ih =>
    intro Q Q' C C' m h hQ hC
    exact ⟨hC _ h.1, fun hp => ih _ (h.2.1 hp) hQ hC, fun hp =>
      ⟨ih _ (h.2.2 hp).1 hQ hC, fun sel => hC _ ((h.2.2 hp).2.1 sel),
       fun hw e sel he => ih _ ((h.2.2 hp).2.2 hw e sel he) hQ hC⟩⟩
  | verify a bs k ih =>
    intro Q Q' C C' m h hQ hC
    exact ⟨hC _ h.1, ih _ h.2.1 hQ hC, fun hw e he => ih _ (h.2.2 hw e he) hQ hC⟩
  | erase a n k ih =>
    intro Q Q' C C' m h hQ hC
    exact ⟨hC _ h.1, fun hp => ih _ (h.2.1 hp) hQ hC, fun hp =>
      ⟨ih _ (h.2.2 hp).1 hQ hC, fun sel => hC _ ((h.2.2 hp).2.1 sel),
       fun hw e sel he => ih _ ((h.2.2 hp).2.2 hw e sel he) hQ hC⟩⟩

theorem wp_bind' {d : Dev} {F : Faults} {p : FP α} {f : α → FP β} : ∀ {Q C m},
    wp d F p (fun a m => wp d F (f a) Q C m) C m → wp d F (p.bind f) Q C m := by
  induction p with
  | ret a => intro Q C m h; exact h.2
  | read a n k ih =>
    intro Q C m h
    exact ⟨h.1, ih _ _ h.2.1, fun hr e bs he => ih _ _ (h.2.2 hr e bs he)⟩
  | blank a n k ih =>
    intro Q C m h
    exact ⟨h.1, ih _ h.2.1, fun hr e he he' => ih _ (h.2.2 hr e he he')⟩
  | prog a bs k ih =>
    intro Q C m h
    exact ⟨h.1, fun hp => ih _ (h.2.1 hp), fun hp =>
      ⟨ih _ (h.2.2 hp).1, (h.2.2 hp).2.1, fun hw e sel he => ih _ ((h.2.2 hp).2.2 hw e sel he)⟩⟩
  | verify a bs k ih =>
    intro Q C m h
    exact ⟨h.1, ih _ h.2.1, fun hw e he => ih _ (h.2.2 hw e he)⟩
  | erase a n k ih =>
    intro Q C m h
    exact ⟨h.1, fun hp => ih _ (h.2.1 hp), fun hp =>
      ⟨ih _ (h.2.2 hp).1, (h.2.2 hp).2.1, fun hw e sel he => ih _ ((h.2.2 hp).2.2 hw e sel he)⟩⟩

theorem wp_bind {d : Dev} {F : Faults} {p : FP α} {f : α → FP β} {Q C m}
    (h : wp d F p (fun a m => wp d F (f a) Q C m) C m) : wp d F (p >>= f) Q C m := wp_bind' h

theorem wp_pure {d : Dev} {F : Faults} {a : α} {Q : α → Mem → Prop} {C m} (hC : C m)
    (h : Q a m) : wp d F (pure a : FP α) Q C m := ⟨hC, h⟩

@[simp] theorem wp_pure_iff {d : Dev} {F : Faults} {a : α} {Q : α → Mem → Prop} {C m} :
    wp d F (pure a : FP α) Q C m ↔ C m ∧ Q a m := Iff.rfl

@[simp] theorem wp_ret_iff {d : Dev} {F : Faults} {a : α} {Q : α → Mem → Prop} {C m} :
    wp d F (.ret a : FP α) Q C m ↔ C m ∧ Q a m := Iff.rfl

end WolfHsm.Flash

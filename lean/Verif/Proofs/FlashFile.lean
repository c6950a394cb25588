import Verif.Model.FlashFile
import Verif.Model.FlashGranule
import Verif.Model.FlashLog
import Verif.Model.NvmFlash
import Verif.Proofs.FlashWp

/-! # The file driver behaves as the flash driver: proofs (C62) -/

namespace WolfHsm.FlashFile

open Flash (FP Mem Dev Faults rd wr isBlank devRead devBlank devProg devVerify devErase erasedBytes)

/-- The bytes at the addresses. -/
def mem (f : File) : Mem := fun x => f.getD x 0

/-- The flash device a file stands for. -/
def Ctx.dev (c : Ctx) : Dev := { size := c.size, erased := c.erased }

/-- A driver in use, with its file. -/
structure Up (c : Ctx) (f : File) : Prop where
  op : c.isOpen = true
  unl : c.unlocked = true
  len : f.length = c.size

theorem put_eq {f : File} {off : Nat} {bs : List UInt8} (h : off ≤ f.length) :
    put f off bs = f.take off ++ bs ++ f.drop (off + bs.length) := by
  unfold put
  rw [List.take_append_of_le_length h]

theorem put_length {f : File} {off : Nat} {bs : List UInt8} (h : off + bs.length ≤ f.length) :
    (put f off bs).length = f.length := by
  rw [put_eq (by omega)]; simp; omega

theorem put_nil {f : File} {off : Nat} (h : off ≤ f.length) : put f off [] = f := by
  rw [put_eq h]; simp

theorem put_put {f : File} {off : Nat} {bs cs : List UInt8} (h : off ≤ f.length) :
    put (put f off bs) (off + bs.length) cs = put f off (bs ++ cs) := by
  have h1 : off + bs.length ≤ (put f off bs).length := by rw [put_eq h]; simp; omega
  rw [put_eq h1, put_eq (bs := bs ++ cs) h, put_eq h]
  rw [List.take_append_of_le_length (by simp; omega)]
  rw [List.take_of_length_le (by simp; omega)]
  rw [List.drop_append, List.drop_eq_nil_of_le (by simp; omega)]
  simp only [List.append_assoc, List.nil_append, List.length_append, List.length_take, List.drop_drop]
  congr 4
  omega

theorem mem_put {f : File} {off : Nat} {bs : List UInt8} (h : off + bs.length ≤ f.length) :
    mem (put f off bs) = wr (mem f) off bs := by
  funext x
  unfold mem wr
  rw [put_eq (by omega)]
  simp only [List.getD_eq_getElem?_getD, List.getElem?_append, List.length_append, List.length_take,
    List.getElem?_take, List.getElem?_drop, Nat.min_eq_left (show off ≤ f.length by omega)]
  by_cases h1 : x < off
  · rw [if_pos (by omega), if_pos h1, if_pos h1, if_neg (by omega)]
  · by_cases h2 : x < off + bs.length
    · rw [if_pos h2, if_neg h1, if_pos ⟨by omega, h2⟩]
    · rw [if_neg h2, if_neg (by omega)]
      congr 2
      omega

theorem rd_mem {f : File} {a n : Nat} (h : a + n ≤ f.length) : rd (mem f) a n = (f.drop a).take n := by
  apply List.ext_getElem
  · simp; omega
  · intro i h1 h2
    rw [Flash.rd_getElem]
    simp only [Flash.rd_length] at h1
    unfold mem
    rw [List.getD_eq_getElem?_getD, List.getElem?_eq_getElem (by omega)]
    simp

/-! ## The calls without faults -/

theorem read_eq {c : Ctx} {f : File} (u : Up c f) (off n : Nat) :
    read c f true off n = devRead c.dev (mem f) off n := by
  unfold read devRead
  show _ = if off + n > c.size then _ else _
  by_cases h : off + n > c.size
  · rw [if_pos h, if_pos h]
  · rw [if_neg h, if_neg h, rd_mem (by rw [u.len]; omega)]
    by_cases hn : n = 0
    · subst hn; simp
    · rw [if_neg hn, if_pos]
      rw [u.op]; simp; rw [u.len]; omega

theorem read_bad {c : Ctx} {f : File} {off n : Nat} (h : ¬ off + n > c.size) (hn : n ≠ 0) :
    read c f false off n = (.aborted, []) := by
  unfold read; rw [if_neg h, if_neg hn, if_neg (by simp)]

theorem verifyLoop_eq {c : Ctx} {f : File} (u : Up c f) : ∀ (fuel i off : Nat) (bs : List UInt8),
    off + bs.length ≤ c.size → bs.length ≤ fuel →
    verifyLoop c f (fun _ => true) fuel i off bs = if rd (mem f) off bs.length = bs then .ok else .notverified := by
  intro fuel
  induction fuel with
  | zero =>
    intro i off bs _ hl
    have : bs = [] := List.eq_nil_of_length_eq_zero (by omega)
    subst this; rfl
  | succ fuel ih =>
    intro i off bs hb hl
    unfold verifyLoop
    by_cases h0 : bs.length = 0
    · have : bs = [] := List.eq_nil_of_length_eq_zero h0
      subst this; rfl
    · rw [if_neg h0]
      dsimp only
      have hr : read c f true off (min 64 bs.length) = (.ok, rd (mem f) off (min 64 bs.length)) := by
        rw [read_eq u]; unfold devRead
        rw [if_neg]; show ¬ off + min 64 bs.length > c.size; omega
      rw [hr, if_neg (by simp)]
      have hsplit : rd (mem f) off bs.length = rd (mem f) off (min 64 bs.length) ++
          rd (mem f) (off + min 64 bs.length) (bs.length - min 64 bs.length) := by
        rw [← Flash.rd_append]; congr 1; omega
      have hbs : bs = bs.take 64 ++ bs.drop 64 := (List.take_append_drop 64 bs).symm
      rw [ih (i + 1) _ _ (by rw [List.length_drop]; omega) (by rw [List.length_drop]; omega)]
      have hd : bs.length - min 64 bs.length = (bs.drop 64).length := by rw [List.length_drop]; omega
      by_cases ht : bs.take 64 = rd (mem f) off (min 64 bs.length)
      · rw [if_neg (by simpa using ht)]
        have : rd (mem f) off bs.length = bs ↔
            rd (mem f) (off + min 64 bs.length) (bs.drop 64).length = bs.drop 64 := by
          rw [hsplit, ← ht, hd]
          conv => lhs; rhs; rw [hbs]
          rw [List.append_cancel_left_eq]
        simp only [this]
      · rw [if_pos (by simpa using ht), if_neg]
        intro he
        apply ht
        rw [← Flash.rd_take (mem f) off bs.length _ (Nat.min_le_right ..), he, ← List.take_take, List.take_length]

theorem verify_eq {c : Ctx} {f : File} (u : Up c f) (off : Nat) (bs : List UInt8) :
    verify c f (fun _ => true) off bs = devVerify c.dev (mem f) off bs := by
  unfold verify devVerify
  show _ = if off + bs.length > c.size then _ else _
  by_cases h : off + bs.length > c.size
  · rw [if_pos h, if_pos h]
  · rw [if_neg h, if_neg h, verifyLoop_eq u _ _ _ _ (by omega) (Nat.le_refl _)]

theorem isBlank_rd {d : Dev} {m : Mem} {a n : Nat} :
    isBlank d m a n = true ↔ rd m a n = List.replicate n d.erased := by
  unfold isBlank
  rw [List.all_eq_true]
  constructor
  · intro h
    rw [List.eq_replicate_iff]
    exact ⟨by simp, fun b hb => by simpa using h b hb⟩
  · intro h b hb
    rw [h] at hb
    simpa using (List.mem_replicate.1 hb).2

theorem blankLoop_eq {c : Ctx} {f : File} (u : Up c f) : ∀ (fuel i off n : Nat),
    off + n ≤ c.size → n ≤ fuel →
    blankLoop c f (fun _ => true) fuel i off n = if isBlank c.dev (mem f) off n then .ok else .notblank := by
  intro fuel
  induction fuel with
  | zero =>
    intro i off n _ hl
    have : n = 0 := by omega
    subst this; rfl
  | succ fuel ih =>
    intro i off n hb hl
    unfold blankLoop
    by_cases h0 : n = 0
    · subst h0; rfl
    · rw [if_neg h0]
      dsimp only
      have hr : read c f true off (min 64 n) = (.ok, rd (mem f) off (min 64 n)) := by
        rw [read_eq u]; unfold devRead
        rw [if_neg]; show ¬ off + min 64 n > c.size; omega
      rw [hr, if_neg (by simp), ih _ _ _ (by omega) (by omega)]
      by_cases ht : rd (mem f) off (min 64 n) = List.replicate (min 64 n) c.erased
      · rw [if_neg (by simpa using ht)]
        have hbl : isBlank c.dev (mem f) off (min 64 n) = true := isBlank_rd.2 ht
        have : isBlank c.dev (mem f) off n = true ↔
            isBlank c.dev (mem f) (off + min 64 n) (n - min 64 n) = true := by
          constructor
          · intro h; exact Flash.isBlank_sub h (by omega) (by omega)
          · intro h
            have := Flash.isBlank_append hbl h
            rwa [show min 64 n + (n - min 64 n) = n by omega] at this
        simp only [this]
      · rw [if_pos (by simpa using ht), if_neg]
        intro he
        exact ht (isBlank_rd.1 (Flash.isBlank_sub (d := c.dev) he (by omega) (by omega)))

theorem blank_eq {c : Ctx} {f : File} (u : Up c f) (off n : Nat) :
    blank c f (fun _ => true) off n = devBlank c.dev (mem f) off n := by
  unfold blank devBlank
  show _ = if off + n > c.size then _ else _
  by_cases h : off + n > c.size
  · rw [if_pos h, if_pos h]
  · rw [if_neg h, if_neg h, blankLoop_eq u _ _ _ _ (by omega) (Nat.le_refl _)]

/-! ## The calls with faults -/

theorem verifyLoop_any {c : Ctx} {f : File} (io : Nat → Bool) : ∀ (fuel i off : Nat) (bs : List UInt8),
    off + bs.length ≤ c.size →
    verifyLoop c f io fuel i off bs = verifyLoop c f (fun _ => true) fuel i off bs ∨
    verifyLoop c f io fuel i off bs = .aborted := by
  intro fuel
  induction fuel with
  | zero => intro i off bs _; exact .inl rfl
  | succ fuel ih =>
    intro i off bs hb
    unfold verifyLoop
    by_cases h0 : bs.length = 0
    · rw [if_pos h0, if_pos h0]; exact .inl rfl
    · rw [if_neg h0, if_neg h0]
      dsimp only
      cases hio : io i with
      | false =>
        right
        rw [read_bad (by omega) (by omega)]
        rfl
      | true =>
        split
        · exact .inl rfl
        · split
          · exact .inl rfl
          · exact ih _ _ _ (by rw [List.length_drop]; omega)

theorem verify_any {c : Ctx} {f : File} (io : Nat → Bool) (off : Nat) (bs : List UInt8) :
    verify c f io off bs = verify c f (fun _ => true) off bs ∨ verify c f io off bs = .aborted := by
  unfold verify
  split
  · exact .inl rfl
  · exact verifyLoop_any io _ _ _ _ (by omega)

theorem blankLoop_any {c : Ctx} {f : File} (io : Nat → Bool) : ∀ (fuel i off n : Nat),
    off + n ≤ c.size →
    blankLoop c f io fuel i off n = blankLoop c f (fun _ => true) fuel i off n ∨
    blankLoop c f io fuel i off n = .aborted := by
  intro fuel
  induction fuel with
  | zero => intro i off n _; exact .inl rfl
  | succ fuel ih =>
    intro i off n hb
    unfold blankLoop
    by_cases h0 : n = 0
    · rw [if_pos h0, if_pos h0]; exact .inl rfl
    · rw [if_neg h0, if_neg h0]
      dsimp only
      cases hio : io i with
      | false =>
        right
        rw [read_bad (by omega) (by omega)]
        rfl
      | true =>
        split
        · exact .inl rfl
        · split
          · exact .inl rfl
          · exact ih _ _ _ (by omega)

theorem blank_any {c : Ctx} {f : File} (io : Nat → Bool) (off n : Nat) :
    blank c f io off n = blank c f (fun _ => true) off n ∨ blank c f io off n = .aborted := by
  unfold blank
  split
  · exact .inl rfl
  · exact blankLoop_any io _ _ _ _ (by omega)

/-- How many of `n` writes work before one fails. -/
def lead (io : Nat → Bool) : (n i : Nat) → Nat
  | 0, _ => 0
  | n + 1, i => if io i then lead io n (i + 1) + 1 else 0

theorem lead_le (io : Nat → Bool) : ∀ n i, lead io n i ≤ n := by
  intro n
  induction n with
  | zero => intro i; exact Nat.le_refl _
  | succ n ih =>
    intro i; unfold lead
    have := ih (i + 1)
    split <;> omega

theorem lead_all : ∀ n i, lead (fun _ => true) n i = n := by
  intro n
  induction n with
  | zero => intro i; rfl
  | succ n ih => intro i; unfold lead; rw [if_pos rfl, ih]

theorem lead_cut (j : Nat) : ∀ n i, lead (fun x => decide (x < j)) n i = min n (j - i) := by
  intro n
  induction n with
  | zero => intro i; unfold lead; omega
  | succ n ih =>
    intro i; unfold lead
    by_cases h : i < j
    · rw [if_pos (by simpa using h), ih]; omega
    · rw [if_neg (by simpa using h)]; omega

theorem pfill_eq (io : Nat → Bool) (b : UInt8) : ∀ (n : Nat) (f : File) (i off : Nat), off ≤ f.length →
    pfill io f b n i off = (decide (lead io n i = n), put f off (List.replicate (lead io n i) b)) := by
  intro n
  induction n with
  | zero =>
    intro f i off h
    simp [pfill, lead, put_nil h]
  | succ n ih =>
    intro f i off h
    unfold pfill lead
    cases hio : io i with
    | false => simp [put_nil h]
    | true =>
      rw [if_pos rfl, if_pos rfl, ih _ _ _ (by rw [put_eq h]; simp; omega)]
      have := put_put (bs := [b]) (cs := List.replicate (lead io n (i + 1)) b) h
      simp only [List.length_singleton, List.singleton_append] at this
      rw [this, ← List.replicate_succ]
      simp

theorem erase_any {c : Ctx} {f : File} (u : Up c f) (io : Nat → Bool) {off n : Nat} (h : off + n ≤ c.size) :
    erase c f io off n = (if lead io n 0 = n then .ok else .aborted,
      put f off (List.replicate (lead io n 0) c.erased)) := by
  unfold erase
  rw [if_neg (by omega)]
  by_cases hn : n = 0
  · subst hn
    rw [if_pos rfl]
    simp [lead, put_nil (show off ≤ f.length by rw [u.len]; omega)]
  · rw [if_neg hn, u.unl, u.op]
    dsimp only
    rw [if_neg (by simp), if_neg (by simp), pfill_eq _ _ _ _ _ _ (by rw [u.len]; omega)]
    simp

theorem erase_bad {c : Ctx} {f : File} (io : Nat → Bool) {off n : Nat} (h : off + n > c.size) :
    erase c f io off n = (.badargs, f) := by
  unfold erase; rw [if_pos h]

theorem erase_ok {c : Ctx} {f : File} (u : Up c f) {off n : Nat} (h : off + n ≤ c.size) :
    erase c f (fun _ => true) off n = (.ok, put f off (erasedBytes c.dev n)) := by
  rw [erase_any u _ h, lead_all, if_pos rfl]; rfl

theorem erase_cut {c : Ctx} {f : File} (u : Up c f) {off n j : Nat} (h : off + n ≤ c.size) (hj : j < n) :
    erase c f (fun i => decide (i < j)) off n = (.aborted, put f off ((erasedBytes c.dev n).take j)) := by
  rw [erase_any u _ h, lead_cut, if_neg (by omega)]
  unfold erasedBytes
  rw [List.take_replicate]
  congr 3
  omega

theorem program_ok {c : Ctx} {f : File} (u : Up c f) {off : Nat} {bs : List UInt8} (h : off + bs.length ≤ c.size) :
    program c f .all off bs = (.ok, put f off bs) := by
  unfold program
  rw [if_neg (by omega)]
  by_cases hn : bs.length = 0
  · have : bs = [] := List.eq_nil_of_length_eq_zero hn
    subst this
    rw [if_pos (show ([] : List UInt8).length = 0 from rfl), put_nil (by rw [u.len]; simpa using h)]
  · rw [if_neg hn, u.unl, u.op]; rfl

theorem program_cut {c : Ctx} {f : File} (u : Up c f) {off n : Nat} {bs : List UInt8}
    (h : off + bs.length ≤ c.size) (hj : n < bs.length) :
    program c f (.only n) off bs = (.aborted, put f off (bs.take n)) := by
  unfold program
  rw [if_neg (by omega), if_neg (by omega), u.unl, u.op]
  dsimp only
  rw [if_neg (by simp), if_neg (by simp), if_neg (by omega)]

theorem program_bad {c : Ctx} {f : File} (io : Wr) {off : Nat} {bs : List UInt8}
    (h : off + bs.length > c.size) : program c f io off bs = (.badargs, f) := by
  unfold program; rw [if_pos h]

theorem Up.put {c : Ctx} {f : File} (u : Up c f) {off : Nat} {bs : List UInt8} (h : off + bs.length ≤ c.size) :
    Up c (put f off bs) := ⟨u.op, u.unl, by rw [put_length (by rw [u.len]; exact h), u.len]⟩

theorem mem_cut {g : Nat} (hg : 0 < g) {f : File} {off n : Nat} {bs : List UInt8} (h : off + bs.length ≤ f.length)
    (hj : n < bs.length) (hd : g ∣ off + n) :
    mem (put f off (bs.take n)) = FlashG.torn g (mem f) off bs (fun u => decide (u * g < off + n)) := by
  have hl : (bs.take n).length = n := by rw [List.length_take]; omega
  rw [mem_put (by omega)]
  funext x
  unfold FlashG.torn wr
  obtain ⟨q, hq⟩ := hd
  have hx : x / g * g < off + n ↔ x < off + n := by
    rw [hq]
    constructor
    · intro h1
      rw [Nat.mul_comm g q] at h1
      have := Nat.lt_of_mul_lt_mul_right h1
      rw [Nat.div_lt_iff_lt_mul hg] at this
      rwa [Nat.mul_comm]
    · intro h1
      exact Nat.lt_of_le_of_lt (Nat.div_mul_le_self x g) h1
  rw [hl]
  dsimp only
  by_cases h1 : x < off + n
  · rw [if_pos (c := decide (x / g * g < off + n) = true) (by simpa using hx.2 h1)]
    by_cases h2 : off ≤ x
    · rw [if_pos ⟨h2, h1⟩, if_pos ⟨h2, by omega⟩]
      simp only [List.getD_eq_getElem?_getD]
      rw [List.getElem?_take, if_pos (by omega)]
    · rw [if_neg (fun h => h2 h.1), if_neg (fun h => h2 h.1)]
  · rw [if_neg (c := decide (x / g * g < off + n) = true) (by simpa using fun h => h1 (hx.1 h)),
      if_neg (fun h => h1 h.2)]

/-! ## Programs that look before they write -/

/-- Every write follows a successful blank check of the same bytes. -/
inductive Guarded {α : Type} : FP α → Prop
  | ret (a) : Guarded (.ret a)
  | read {a n k} : (∀ rc bs, Guarded (k rc bs)) → Guarded (.read a n k)
  | blank {a n k} : (∀ rc, Guarded (k rc)) → Guarded (.blank a n k)
  | verify {a bs k} : (∀ rc, Guarded (k rc)) → Guarded (.verify a bs k)
  | erase {a n k} : (∀ rc, Guarded (k rc)) → Guarded (.erase a n k)
  | prog {a : Nat} {bs : List UInt8} {k k' : Rc → FP α} : (∀ rc, rc ≠ .ok → Guarded (k rc)) →
      k .ok = .prog a bs k' → (∀ rc, Guarded (k' rc)) → Guarded (.blank a bs.length k)

/-- The program may go on: it is guarded, or about to write where it has just looked. -/
def Fine {α : Type} (c : Ctx) (p : FP α) (f : File) : Prop :=
  Guarded p ∨ ∃ a bs k, p = .prog a bs k ∧ (∀ rc, Guarded (k rc)) ∧ devBlank c.dev (mem f) a bs.length = .ok

theorem fine_blank {α : Type} {c : Ctx} {f : File} {a n : Nat} {k : Rc → FP α}
    (h : Fine c (.blank a n k) f) {rc : Rc} (hrc : rc = devBlank c.dev (mem f) a n ∨ rc ≠ .ok) : Fine c (k rc) f := by
  rcases h with h | ⟨_, _, _, h, _⟩
  · cases h with
    | blank h => exact .inl (h rc)
    | @prog _ bs _ k' h1 h2 h3 =>
      by_cases hok : rc = .ok
      · subst hok
        rcases hrc with hrc | hrc
        · exact .inr ⟨_, _, _, h2, h3, hrc.symm⟩
        · exact absurd rfl hrc
      · exact .inl (h1 rc hok)
  · cases h

theorem devBlank_ok {d : Dev} {m : Mem} {a n : Nat} (h : devBlank d m a n = .ok) :
    a + n ≤ d.size ∧ isBlank d m a n = true := by
  unfold devBlank at h
  split at h
  · cases h
  · split at h
    · exact ⟨by omega, by assumption⟩
    · cases h

/-- Every outcome on the file is an outcome on the flash device. -/
theorem exec_flash {α : Type} {c : Ctx} {F : Faults} {g : Nat} (hg : 0 < g) {p : FP α} {f f' : File} {o : Option α}
    (hx : Exec c F (fun x => g ∣ x) p f o f') : Up c f → Fine c p f →
    FlashG.Exec g c.dev F p (mem f) o (mem f') ∧ Up c f' := by
  induction hx with
  | ret a f => intro u _; exact ⟨.ret _ _, u⟩
  | kill p f => intro u _; exact ⟨.crash _ _, u⟩
  | @read a n k f o f' io hio _ ih =>
    intro u hf
    have hk : ∀ rc bs, Fine c (k rc bs) f := by
      rcases hf with hf | ⟨_, _, _, hf, _⟩
      · cases hf with | read h => exact fun rc bs => .inl (h rc bs)
      · cases hf
    obtain ⟨h1, h2⟩ := ih u (hk _ _)
    refine ⟨?_, h2⟩
    cases io with
    | true => rw [read_eq u] at h1; exact .read h1
    | false =>
      by_cases hr : a + n > c.size ∨ n = 0
      · have : FlashFile.read c f false a n = FlashFile.read c f true a n := by
          unfold FlashFile.read
          by_cases h : a + n > c.size
          · rw [if_pos h, if_pos h]
          · rw [if_neg h, if_neg h, if_pos (by omega), if_pos (by omega)]
        rw [this, read_eq u] at h1
        exact .read h1
      · rw [read_bad (by omega) (by omega)] at h1
        exact .readFault _ _ (by simpa using hio) (by simp) h1
  | @blank a n k f o f' io hio _ ih =>
    intro u hf
    have hb := blank_any (c := c) (f := f) io a n
    rw [blank_eq u] at hb
    obtain ⟨h1, h2⟩ := ih u (fine_blank hf (by rcases hb with h | h <;> rw [h] <;> simp))
    refine ⟨?_, h2⟩
    by_cases hall : ∀ i, io i = true
    · have : io = fun _ => true := funext hall
      subst this
      rw [blank_eq u] at h1
      exact .blank h1
    · rcases hb with h | h
      · rw [h] at h1; exact .blank h1
      · rw [h] at h1
        exact .blankFault _ (hio.resolve_left hall) (by simp) (by simp) h1
  | @verify a bs k f o f' io hio _ ih =>
    intro u hf
    have hk : ∀ rc, Fine c (k rc) f := by
      rcases hf with hf | ⟨_, _, _, hf, _⟩
      · cases hf with | verify h => exact fun rc => .inl (h rc)
      · cases hf
    obtain ⟨h1, h2⟩ := ih u (hk _)
    refine ⟨?_, h2⟩
    have hb := verify_any (c := c) (f := f) io a bs
    rw [verify_eq u] at hb
    by_cases hall : ∀ i, io i = true
    · have : io = fun _ => true := funext hall
      subst this
      rw [verify_eq u] at h1
      exact .verify h1
    · rcases hb with h | h
      · rw [h] at h1; exact .verify h1
      · rw [h] at h1
        exact .verifyFault _ (hio.resolve_left hall) (by simp) h1
  | @prog a bs k f o f' _ ih =>
    intro u hf
    rcases hf with hf | ⟨_, _, _, hf, hk, hb⟩
    · cases hf
    cases hf
    obtain ⟨hr, hb⟩ := devBlank_ok hb
    rw [program_ok u hr] at ih
    obtain ⟨h1, h2⟩ := ih (u.put hr) (.inl (hk _))
    rw [mem_put (by rw [u.len]; exact hr)] at h1
    refine ⟨.prog ?_ h1, h2⟩
    unfold devProg
    rw [if_neg (by omega), hb]; rfl
  | @progFails a bs k f o f' n hF hn hc _ ih =>
    intro u hf
    rcases hf with hf | ⟨_, _, _, hf, hk, hb⟩
    · cases hf
    cases hf
    obtain ⟨hr, hb⟩ := devBlank_ok hb
    have hl : (bs.take n).length ≤ bs.length := by rw [List.length_take]; omega
    have hr : a + bs.length ≤ c.size := hr
    rw [program_cut u hr hn] at ih
    obtain ⟨h1, h2⟩ := ih (u.put (by omega)) (.inl (hk _))
    rw [mem_cut hg (by rw [u.len]; exact hr) hn hc] at h1
    refine ⟨.progFault _ _ hF (by simp) ?_ h1, h2⟩
    unfold devProg
    rw [if_neg (by show ¬ a + bs.length > c.size; omega), hb]; rfl
  | @progKilled a bs k f n hn hc =>
    intro u hf
    rcases hf with hf | ⟨_, _, _, hf, hk, hb⟩
    · cases hf
    cases hf
    obtain ⟨hr, hb⟩ := devBlank_ok hb
    have hl : (bs.take n).length ≤ bs.length := by rw [List.length_take]; omega
    have hr : a + bs.length ≤ c.size := hr
    rw [program_cut u hr hn]
    refine ⟨?_, u.put (by omega)⟩
    rw [mem_cut hg (by rw [u.len]; exact hr) hn hc]
    refine .progTorn _ ?_
    unfold devProg
    rw [if_neg (by show ¬ a + bs.length > c.size; omega), hb]; rfl
  | @erase a n k f o f' _ ih =>
    intro u hf
    have hk : ∀ rc f, Fine c (k rc) f := by
      rcases hf with hf | ⟨_, _, _, hf, _⟩
      · cases hf with | erase h => exact fun rc f => .inl (h rc)
      · cases hf
    by_cases hr : a + n ≤ c.size
    · have hl := Flash.erasedBytes_length c.dev n
      rw [erase_ok u hr] at ih
      obtain ⟨h1, h2⟩ := ih (u.put (by omega)) (hk _ _)
      rw [mem_put (by rw [hl, u.len]; exact hr)] at h1
      exact ⟨.erase (by unfold devErase; rw [if_neg]; show ¬ a + n > c.size; omega) h1, h2⟩
    · rw [erase_bad _ (by omega)] at ih
      obtain ⟨h1, h2⟩ := ih u (hk _ _)
      have hd : devErase c.dev a n = .badargs := by
        unfold devErase; rw [if_pos]; show a + n > c.size; omega
      exact ⟨.eraseRefused (by rw [hd]; simp) (by rw [hd]; exact h1), h2⟩
  | @eraseFails a n k f o f' j hF hj hc _ ih =>
    intro u hf
    have hk : ∀ rc f, Fine c (k rc) f := by
      rcases hf with hf | ⟨_, _, _, hf, _⟩
      · cases hf with | erase h => exact fun rc f => .inl (h rc)
      · cases hf
    by_cases hr : a + n ≤ c.size
    · have hl := Flash.erasedBytes_length c.dev n
      have hl2 : ((erasedBytes c.dev n).take j).length ≤ n := by rw [List.length_take]; omega
      rw [erase_cut u hr hj] at ih
      obtain ⟨h1, h2⟩ := ih (u.put (by omega)) (hk _ _)
      rw [mem_cut hg (by rw [hl, u.len]; exact hr) (by omega) hc] at h1
      exact ⟨.eraseFault _ _ hF (by simp)
        (by unfold devErase; rw [if_neg]; show ¬ a + n > c.size; omega) h1, h2⟩
    · rw [erase_bad _ (by omega)] at ih
      obtain ⟨h1, h2⟩ := ih u (hk _ _)
      have hd : devErase c.dev a n = .badargs := by
        unfold devErase; rw [if_pos]; show a + n > c.size; omega
      exact ⟨.eraseRefused (by rw [hd]; simp) (by rw [hd]; exact h1), h2⟩
  | @eraseKilled a n k f j hj hc =>
    intro u hf
    by_cases hr : a + n ≤ c.size
    · have hl := Flash.erasedBytes_length c.dev n
      have hl2 : ((erasedBytes c.dev n).take j).length ≤ n := by rw [List.length_take]; omega
      rw [erase_cut u hr hj]
      refine ⟨?_, u.put (by omega)⟩
      rw [mem_cut hg (by rw [hl, u.len]; exact hr) (by omega) hc]
      exact .eraseTorn _ (by unfold devErase; rw [if_neg]; show ¬ a + n > c.size; omega)
    · rw [erase_bad _ (by omega)]
      exact ⟨.crash _ _, u⟩

/-- With 8-byte granules the outcomes are those of `Flash.Exec`. -/
theorem exec_eight {α : Type} {d : Dev} {F : Faults} {p : FP α} {m m' : Mem} {o : Option α}
    (h : FlashG.Exec 8 d F p m o m') : Flash.Exec d F p m o m' := by
  induction h with
  | ret a m => exact .ret _ _
  | crash p m => exact .crash _ _
  | read _ ih => exact .read ih
  | readFault e bs h1 h2 _ ih => exact .readFault e bs h1 h2 ih
  | blank _ ih => exact .blank ih
  | blankFault e h1 h2 h3 _ ih => exact .blankFault e h1 h2 h3 ih
  | progRefused h _ ih => exact .progRefused h ih
  | prog h _ ih => exact .prog h ih
  | progTorn sel h => exact .progTorn sel h
  | progFault e sel h1 h2 h3 _ ih => exact .progFault e sel h1 h2 h3 ih
  | verify _ ih => exact .verify ih
  | verifyFault e h1 h2 _ ih => exact .verifyFault e h1 h2 ih
  | eraseRefused h _ ih => exact .eraseRefused h ih
  | erase h _ ih => exact .erase h ih
  | eraseTorn sel h => exact .eraseTorn sel h
  | eraseFault e sel h1 h2 h3 _ ih => exact .eraseFault e sel h1 h2 h3 ih

/-- Without faults a guarded program does on the file what it does on the flash device. -/
theorem run_flash {α : Type} {c : Ctx} : ∀ (p : FP α) (f : File), Up c f → Fine c p f →
    (run c p f).1 = (Flash.run c.dev p (mem f)).1 ∧ mem (run c p f).2 = (Flash.run c.dev p (mem f)).2 ∧
      Up c (run c p f).2 := by
  intro p
  induction p with
  | ret a => intro f u _; exact ⟨rfl, rfl, u⟩
  | read a n k ih =>
    intro f u hf
    unfold run Flash.run
    rw [read_eq u]
    refine ih _ _ f u ?_
    rcases hf with hf | ⟨_, _, _, hf, _⟩
    · cases hf with | read h => exact .inl (h _ _)
    · cases hf
  | blank a n k ih =>
    intro f u hf
    unfold run Flash.run
    rw [blank_eq u]
    exact ih _ f u (fine_blank hf (.inl rfl))
  | verify a bs k ih =>
    intro f u hf
    unfold run Flash.run
    rw [verify_eq u]
    refine ih _ f u ?_
    rcases hf with hf | ⟨_, _, _, hf, _⟩
    · cases hf with | verify h => exact .inl (h _)
    · cases hf
  | prog a bs k ih =>
    intro f u hf
    rcases hf with hf | ⟨_, _, _, hf, hk, hb⟩
    · cases hf
    cases hf
    obtain ⟨hr, hb⟩ := devBlank_ok hb
    unfold run Flash.run
    have hp : devProg c.dev (mem f) a bs = .ok := by
      unfold devProg
      rw [if_neg (by omega), hb]; rfl
    rw [program_ok u hr, if_pos hp, ← mem_put (by rw [u.len]; exact hr)]
    exact ih _ _ (u.put hr) (.inl (hk _))
  | erase a n k ih =>
    intro f u hf
    have hk : ∀ rc f, Fine c (k rc) f := by
      rcases hf with hf | ⟨_, _, _, hf, _⟩
      · cases hf with | erase h => exact fun rc f => .inl (h rc)
      · cases hf
    unfold run Flash.run
    by_cases hr : a + n ≤ c.size
    · have hl := Flash.erasedBytes_length c.dev n
      have hd : devErase c.dev a n = .ok := by
        unfold devErase; rw [if_neg]; show ¬ a + n > c.size; omega
      rw [erase_ok u hr, if_pos hd, ← mem_put (by rw [hl, u.len]; exact hr)]
      exact ih _ _ (u.put (by omega)) (hk _ _)
    · have hd : devErase c.dev a n = .badargs := by
        unfold devErase; rw [if_pos]; show a + n > c.size; omega
      rw [erase_bad _ (by omega), hd, if_neg (by simp)]
      exact ih _ _ u (hk _ _)

end WolfHsm.FlashFile

import Verif.Model.Dma

/-!
# C39: DMA stays inside the allow list
-/

namespace WolfHsm.Dma

/-! ### Specification -/

/-- The bytes `addr .. addr+size-1` all lie in region `r`, as sets of addresses
(no modular arithmetic). -/
def Inside (r : Region) (addr size : Nat) : Prop :=
  ∀ b, addr ≤ b → b < addr + size → r.addr ≤ b ∧ b < r.addr + r.size

/-- The access is inside one region of the list for its direction. -/
def Allowed (al : AllowList) : Access → Prop
  | .read a n => ∃ r ∈ al.readList, Inside r a n
  | .write a n => ∃ r ∈ al.writeList, Inside r a n

/-! ### Proof -/

theorem scan_ok (P s e : Nat) (l : List Region) :
    scan P s e l = .ok ↔ ∃ r ∈ l, r.size ≠ 0 ∧ r.addr ≤ P - 1 - r.size ∧ s ≥ r.addr ∧
      e ≤ (r.addr + r.size) % P := by
  induction l with
  | nil => simp [scan]
  | cons r l ih =>
    simp only [scan, List.mem_cons, exists_eq_or_imp]
    split
    · rename_i h; simp [ih, h]
    · split
      · rename_i h1 h2
        have : ¬ r.addr ≤ P - 1 - r.size := by omega
        simp [ih, this]
      · rename_i h1 h2
        split
        · rename_i h3
          exact ⟨fun _ => Or.inl ⟨h1, by omega, h3.1, h3.2⟩, fun _ => rfl⟩
        · rename_i h3
          rw [ih]
          constructor
          · exact fun h => Or.inr h
          · rintro (⟨_, _, h4, h5⟩ | h)
            · exact absurd ⟨h4, h5⟩ h3
            · exact h

theorem checkAddr_ok {P : Nat} {l : List Region} {addr size : Nat} (hsz : size < P)
    (hl : ∀ r ∈ l, r.size < P) :
    checkAddr P l addr size = .ok ↔
      size ≠ 0 ∧ addr + size < P ∧
      ∃ r ∈ l, r.addr + r.size < P ∧ r.addr ≤ addr ∧ addr + size ≤ r.addr + r.size := by
  unfold checkAddr
  split
  · rename_i h; simp [h]
  · split
    · rename_i h1 h2
      constructor
      · intro h; cases h
      · rintro ⟨_, h, _⟩; omega
    · rename_i h1 h2
      rw [scan_ok]
      have hmod : (addr + size) % P = addr + size := Nat.mod_eq_of_lt (by omega)
      rw [hmod]
      constructor
      · rintro ⟨r, hr, hr0, hr1, hr2, hr3⟩
        have := hl r hr
        rw [Nat.mod_eq_of_lt (by omega)] at hr3
        exact ⟨h1, by omega, r, hr, by omega, hr2, hr3⟩
      · rintro ⟨_, _, r, hr, h4, h5, h6⟩
        refine ⟨r, hr, by omega, by omega, h5, ?_⟩
        rw [Nat.mod_eq_of_lt (by omega)]
        exact h6

theorem inside_of_bounds {r : Region} {a n : Nat} (h1 : r.addr ≤ a)
    (h2 : a + n ≤ r.addr + r.size) : Inside r a n := fun b hb1 hb2 => ⟨by omega, by omega⟩

theorem process_ok {P : Nat} {s : Server} {a len : Nat} {op : Oper} (hpos : len > 0)
    (h : (processClientAddress P s a len op).1 = .ok) :
    checkMemOper P s.allow op (processClientAddress P s a len op).2 len = .ok := by
  cases hcb : s.cb with
  | none => simpa [processClientAddress, hcb, hpos] using h
  | some cb =>
    by_cases hrc : (cb a len op).1 = .ok
    · simpa [processClientAddress, hcb, hpos, hrc] using h
    · simp [processClientAddress, hcb, hrc] at h

/-! ### Theorems -/

/-- **C39 (decision).** With an allow list registered, a range is accepted for
reading (writing) exactly if it is non-empty, does not reach the end of the
address space, and lies inside one read-list (write-list) region that does not
wrap either.  Sizes are machine integers. -/
theorem C39_check_exact (P : Nat) (al : AllowList) (addr size : Nat) (hsz : size < P)
    (hr : ∀ r ∈ al.readList, r.size < P) (hw : ∀ r ∈ al.writeList, r.size < P) :
    (checkMemOper P (some al) .readPre addr size = .ok ↔
      0 < size ∧ addr + size < P ∧
        ∃ r ∈ al.readList, r.addr + r.size < P ∧ Inside r addr size) ∧
    (checkMemOper P (some al) .writePre addr size = .ok ↔
      0 < size ∧ addr + size < P ∧
        ∃ r ∈ al.writeList, r.addr + r.size < P ∧ Inside r addr size) := by
  have key : ∀ l : List Region, (∀ r ∈ l, r.size < P) →
      (checkAddr P l addr size = .ok ↔ 0 < size ∧ addr + size < P ∧
        ∃ r ∈ l, r.addr + r.size < P ∧ Inside r addr size) := by
    intro l hl
    rw [checkAddr_ok hsz hl]
    constructor
    · rintro ⟨h0, h1, r, hr, h2, h3, h4⟩
      exact ⟨by omega, h1, r, hr, h2, inside_of_bounds h3 h4⟩
    · rintro ⟨h0, h1, r, hr, h2, h3⟩
      have a1 := h3 addr (by omega) (by omega)
      have a2 := h3 (addr + size - 1) (by omega) (by omega)
      exact ⟨by omega, h1, r, hr, h2, a1.1, by omega⟩
  unfold checkMemOper
  by_cases h0 : size = 0
  · subst h0; simp
  · simp only [h0, if_false, reduceCtorEq]
    exact ⟨key _ hr, key _ hw⟩

/-- **C39 (copies from the client).** Whatever the port callbacks do, every
client-memory access made by a DMA read lies inside one region of the read
list. -/
theorem C39_copyFromClient (P : Nat) (s : Server) (al : AllowList) (copyRc : Rc)
    (clientAddr len : Nat) (hal : s.allow = some al) (hlen : len < P)
    (hr : ∀ r ∈ al.readList, r.size < P) :
    ∀ a ∈ (copyFromClient P s copyRc clientAddr len).2, Allowed al a := by
  have key : ∀ x, checkMemOper P s.allow .readPre x len = .ok → Allowed al (.read x len) := by
    intro x hx
    rw [hal] at hx
    unfold checkMemOper at hx
    split at hx
    · cases hx
    · simp only [reduceCtorEq, if_false] at hx
      obtain ⟨_, _, r, hr1, _, h3, h4⟩ := (checkAddr_ok hlen hr).mp hx
      exact ⟨r, hr1, inside_of_bounds h3 h4⟩
  intro a ha
  unfold copyFromClient at ha
  split at ha
  · cases ha
  · rename_i hl0
    have hpos : len > 0 := Nat.pos_of_ne_zero hl0
    have hproc : (processClientAddress P s clientAddr len .readPre).1 = .ok →
        Allowed al (.read (processClientAddress P s clientAddr len .readPre).2 len) := by
      exact fun h => key _ (process_ok hpos h)
    generalize processClientAddress P s clientAddr len .readPre = pr at ha hproc
    obtain ⟨rc, x⟩ := pr
    simp only at ha hproc
    split at ha
    · cases ha
    · rename_i hrc
      have hok := hproc (by simpa using hrc)
      split at ha <;> (rw [List.mem_singleton] at ha; subst ha; exact hok)

/-- **C39 (copies to the client)**, partial: the same for DMA writes, provided
the port has no custom copy callback or no address-translation callback.
Missing: both callbacks together, where the claim is false
(`C39_custom_copy_escapes`). -/
theorem C39_copyToClient_partial (P : Nat) (s : Server) (al : AllowList) (copyRc : Rc)
    (clientAddr len : Nat) (hal : s.allow = some al) (hlen : len < P)
    (hw : ∀ r ∈ al.writeList, r.size < P) (hcb : s.hasMemCopyCb = false ∨ s.cb = none) :
    ∀ a ∈ (copyToClient P s copyRc clientAddr len).2, Allowed al a := by
  have key : ∀ x, checkMemOper P s.allow .writePre x len = .ok → Allowed al (.write x len) := by
    intro x hx
    rw [hal] at hx
    unfold checkMemOper at hx
    split at hx
    · cases hx
    · simp only [reduceCtorEq, if_false] at hx
      obtain ⟨_, _, r, hr1, _, h3, h4⟩ := (checkAddr_ok hlen hw).mp hx
      exact ⟨r, hr1, inside_of_bounds h3 h4⟩
  intro a ha
  unfold copyToClient at ha
  split at ha
  · cases ha
  · rename_i hl0
    have hpos : len > 0 := Nat.pos_of_ne_zero hl0
    have hproc : (processClientAddress P s clientAddr len .writePre).1 = .ok →
        Allowed al (.write (processClientAddress P s clientAddr len .writePre).2 len) := by
      exact fun h => key _ (process_ok hpos h)
    have hx : s.cb = none → (processClientAddress P s clientAddr len .writePre).2 = clientAddr := by
      intro h
      simp [processClientAddress, h, hpos]
    generalize processClientAddress P s clientAddr len .writePre = pr at ha hproc hx
    obtain ⟨rc, x⟩ := pr
    simp only at ha hproc hx
    split at ha
    · cases ha
    · rename_i hrc
      have hok := hproc (by simpa using hrc)
      split at ha
      · rename_i hm
        have hx' := hx (by rcases hcb with h | h; · simp [h] at hm
                           · exact h)
        subst hx'
        split at ha <;> (rw [List.mem_singleton] at ha; subst ha; exact hok)
      · rw [List.mem_singleton] at ha; subst ha; exact hok

/-- **C39 fails** for DMA writes on ports with both an address-translation and a
custom copy callback: the copy callback receives the raw client address
(src/wh_server_dma.c:193) while the allow list was applied to the translated
one, so a write outside every listed region happens and reports success. -/
theorem C39_custom_copy_escapes :
    ∃ (s : Server) (al : AllowList) (clientAddr len : Nat), s.allow = some al ∧
      (copyToClient (2 ^ 32) s .ok clientAddr len).1 = .ok ∧
      ∃ a ∈ (copyToClient (2 ^ 32) s .ok clientAddr len).2, ¬ Allowed al a := by
  refine ⟨⟨some ⟨[], [⟨0x8000, 0x100⟩]⟩, some (fun _ _ _ => (.ok, 0x8000)), true⟩,
    ⟨[], [⟨0x8000, 0x100⟩]⟩, 0x20, 16, rfl, by decide, .write 0x20 16, by decide, ?_⟩
  rintro ⟨r, hr, hin⟩
  simp only [List.mem_singleton] at hr
  subst hr
  have := hin 0x20 (by omega) (by omega)
  simp at this

/-- The hypotheses are met: a 16-byte read inside the second listed region, after
translation, is performed; one byte more is refused. -/
example : copyFromClient (2 ^ 32) ⟨some ⟨[⟨0, 0⟩, ⟨0x1000, 0x20⟩], []⟩,
      some (fun a _ _ => (.ok, a + 0x1000)), false⟩ .ok 0x10 16
      = (.ok, [.read 0x1010 16]) ∧
    copyFromClient (2 ^ 32) ⟨some ⟨[⟨0, 0⟩, ⟨0x1000, 0x20⟩], []⟩,
      some (fun a _ _ => (.ok, a + 0x1000)), false⟩ .ok 0x10 17 = (.access, []) := by decide

end WolfHsm.Dma

import Verif.Proofs.FlashFileNvm

/-!
# C62: flash memory in a file

`port/posix/posix_flash_file.c`.  What the driver does to the bytes of the file; that both NVM backends run on it
as on the flash device of `Model/Flash.lean`; that the store survives processes killed anywhere, if an erase or
a write ends on the boundary of a unit; and what happens if it does not.
-/

namespace WolfHsm.Props

open FlashFile

section driver

/-- **C62**, opening: when `posixFlashFile_Init` succeeds and could ask for the size of the file, the file has
exactly two partitions; what fits of what was in it is still there; the rest is erased. -/
theorem C62_opened {io : InitIo} {psize : Nat} {erased : UInt8} {file : Option File} {d : Ctx} {file' : Option File}
    (h : init io psize erased file = (.ok, d, file')) (hs : io.stat = true) :
    d = ⟨true, psize, erased, false⟩ ∧ 2 * psize < 2 ^ 32 ∧ ∃ f, file' = some f ∧ f.length = 2 * psize ∧
      ∀ x, x < 2 * psize → f[x]? = some ((file.getD [])[x]?.getD erased) := by
  revert h
  unfold init
  dsimp only
  rw [show Ctx.size ⟨true, psize, erased, false⟩ = 2 * psize by unfold Ctx.size; dsimp only; omega]
  split
  · intro h; cases h
  split
  · intro h; cases h
  rename_i hsz
  split
  · rename_i h; rw [hs] at h; cases h
  split
  · rename_i hl
    rw [pfill_eq _ _ _ _ _ _ (Nat.le_refl _), put_end]
    dsimp only
    split
    · rename_i hall
      have hall := of_decide_eq_true hall
      rw [hall]
      intro h
      cases h
      refine ⟨rfl, by omega, _, rfl, by simp; omega, ?_⟩
      intro x hx
      rw [List.getElem?_append]
      split
      · rename_i h; rw [List.getElem?_eq_getElem h]; rfl
      · rename_i h
        rw [List.getElem?_replicate, if_pos (by omega), List.getElem?_eq_none (by omega)]; rfl
    · intro h; cases h
  split
  · rename_i hl
    split
    · intro h
      cases h
      refine ⟨rfl, by omega, _, rfl, by simp; omega, ?_⟩
      intro x hx
      rw [List.getElem?_take, if_pos hx, List.getElem?_eq_getElem (by omega)]; rfl
    · intro h; cases h
  · intro h
    cases h
    refine ⟨rfl, by omega, _, rfl, by omega, ?_⟩
    intro x hx
    rw [List.getElem?_eq_getElem (by omega)]; rfl

/-- **C62**, opening, whatever the system does and whether it succeeds or not: of the bytes that were in the file,
those within the two partitions stay. -/
theorem C62_opening_keeps (io : InitIo) (psize : Nat) (erased : UInt8) (f : File) (x : Nat) (hx : x < 2 * psize)
    (hf : x < f.length) : ∃ f', (init io psize erased (some f)).2.2 = some f' ∧ f'[x]? = f[x]? := by
  unfold init
  dsimp only
  rw [show Ctx.size ⟨true, psize, erased, false⟩ = 2 * psize by unfold Ctx.size; dsimp only; omega]
  simp only [Option.getD_some]
  split
  · exact ⟨_, rfl, rfl⟩
  split
  · exact ⟨_, rfl, rfl⟩
  split
  · exact ⟨_, rfl, rfl⟩
  split
  · rw [pfill_eq _ _ _ _ _ _ (Nat.le_refl _), put_end]
    dsimp only
    split
    · exact ⟨_, rfl, by rw [List.getElem?_append_left hf]⟩
    · exact ⟨_, rfl, by rw [List.getElem?_append_left hf]⟩
  split
  · split
    · exact ⟨_, rfl, by rw [List.getElem?_take, if_pos hx]⟩
    · exact ⟨_, rfl, rfl⟩
  · exact ⟨_, rfl, rfl⟩

/-- **C62**, reading: inside the two partitions the bytes of the file, outside `WH_ERROR_BADARGS`. -/
theorem C62_read {d : Ctx} {f : File} (ho : d.isOpen = true) (hl : f.length = 2 * d.psize) (off n : Nat) :
    FlashFile.read d f true off n = if off + n ≤ 2 * d.psize then (.ok, (f.drop off).take n) else (.badargs, []) := by
  have hsz : d.size = 2 * d.psize := by unfold Ctx.size; omega
  unfold FlashFile.read
  rw [hsz]
  by_cases h : off + n ≤ 2 * d.psize
  · rw [if_neg (by omega), if_pos h]
    by_cases hn : n = 0
    · subst hn; simp
    · rw [if_neg hn, if_pos]
      rw [ho]; simp; omega
  · rw [if_pos (by omega), if_neg h]

/-- **C62**, locked: no call changes a byte. -/
theorem C62_locked {d : Ctx} (h : d.unlocked = false) (f : File) (io : Wr) (ios : Nat → Bool) (off n : Nat)
    (bs : List UInt8) : (program d f io off bs).2 = f ∧ (erase d f ios off n).2 = f := by
  unfold program erase
  rw [h]
  constructor
  · split
    · rfl
    · split
      · rfl
      · rfl
  · split
    · rfl
    · split
      · rfl
      · rfl

/-- **C62**, programming, whatever the system does: the size of the file and the bytes outside the range stay;
inside, a beginning of the data is written, all of it if success is reported. -/
theorem C62_program {d : Ctx} {f : File} (hl : f.length = 2 * d.psize) (io : Wr) (off : Nat) (bs : List UInt8) :
    ∃ k, k ≤ bs.length ∧ ((program d f io off bs).1 = .ok → k = bs.length) ∧
      (program d f io off bs).2.length = f.length ∧
      ∀ x, x < f.length → (program d f io off bs).2[x]? =
        if off ≤ x ∧ x < off + k then bs[x - off]? else f[x]? := by
  have hsz : d.size = 2 * d.psize := by unfold Ctx.size; omega
  have hput : ∀ cs : List UInt8, off + cs.length ≤ f.length → ∀ x, (put f off cs)[x]? =
      if off ≤ x ∧ x < off + cs.length then cs[x - off]? else f[x]? := by
    intro cs hc x
    rw [put_eq (by omega)]
    simp only [List.getElem?_append, List.length_append, List.length_take, List.getElem?_take,
      List.getElem?_drop, Nat.min_eq_left (show off ≤ f.length by omega)]
    by_cases h1 : x < off
    · rw [if_pos (by omega), if_pos h1, if_pos h1, if_neg (by omega)]
    · by_cases h2 : x < off + cs.length
      · rw [if_pos h2, if_neg h1, if_pos ⟨by omega, h2⟩]
      · rw [if_neg h2, if_neg (by omega)]
        congr 1
        omega
  have hstay : ∀ rc : Rc, rc ≠ .ok ∨ bs.length = 0 → ∃ k, k ≤ bs.length ∧ (rc = .ok → k = bs.length) ∧
      f.length = f.length ∧ ∀ x, x < f.length → f[x]? = if off ≤ x ∧ x < off + k then bs[x - off]? else f[x]? := by
    intro rc h
    refine ⟨0, by omega, ?_, rfl, fun x _ => by rw [if_neg (by omega)]⟩
    intro hk
    rcases h with h | h
    · exact absurd hk h
    · omega
  unfold program
  rw [hsz]
  split
  · exact hstay _ (.inl (by simp))
  split
  · exact hstay _ (.inr (by assumption))
  split
  · exact hstay _ (.inl (by simp))
  split
  · exact hstay _ (.inl (by simp))
  cases io with
  | all =>
    exact ⟨bs.length, Nat.le_refl _, fun _ => rfl, put_length (by omega), fun x _ => hput bs (by omega) x⟩
  | only n =>
    dsimp only
    have hk : (bs.take n).length = min n bs.length := List.length_take
    refine ⟨min n bs.length, by omega, ?_, put_length (by omega), ?_⟩
    · intro h
      split at h
      · omega
      · cases h
    · intro x _
      rw [hput (bs.take n) (by omega) x, hk]
      split
      · rw [List.getElem?_take, if_pos (by omega)]
      · rfl

/-- **C62**, erasing, whatever the system does: the same with the erased byte. -/
theorem C62_erase {d : Ctx} {f : File} (hl : f.length = 2 * d.psize) (io : Nat → Bool) (off n : Nat) :
    ∃ k, k ≤ n ∧ ((erase d f io off n).1 = .ok → k = n) ∧ (erase d f io off n).2.length = f.length ∧
      ∀ x, x < f.length → (erase d f io off n).2[x]? =
        if off ≤ x ∧ x < off + k then some d.erased else f[x]? := by
  have hsz : d.size = 2 * d.psize := by unfold Ctx.size; omega
  have hstay : ∀ rc : Rc, rc ≠ .ok ∨ n = 0 → ∃ k, k ≤ n ∧ (rc = .ok → k = n) ∧
      f.length = f.length ∧ ∀ x, x < f.length → f[x]? = if off ≤ x ∧ x < off + k then some d.erased else f[x]? := by
    intro rc h
    refine ⟨0, by omega, ?_, rfl, fun x _ => by rw [if_neg (by omega)]⟩
    intro hk
    rcases h with h | h
    · exact absurd hk h
    · omega
  unfold erase
  rw [hsz]
  split
  · exact hstay _ (.inl (by simp))
  split
  · exact hstay _ (.inr (by assumption))
  split
  · exact hstay _ (.inl (by simp))
  split
  · exact hstay _ (.inl (by simp))
  rw [pfill_eq _ _ _ _ _ _ (by omega)]
  dsimp only
  have hle := lead_le io n 0
  generalize lead io n 0 = j at hle ⊢
  have hc : off + (List.replicate j d.erased).length ≤ f.length := by rw [List.length_replicate]; omega
  refine ⟨j, hle, ?_, put_length hc, ?_⟩
  · intro h
    split at h
    · rename_i hj; exact of_decide_eq_true hj
    · cases h
  · intro x hx
    have h1 := congrFun (mem_put hc) x
    unfold mem Flash.wr at h1
    dsimp only at h1
    rw [List.getD_eq_getElem?_getD, List.getD_eq_getElem?_getD, List.getD_eq_getElem?_getD,
      List.getElem?_eq_getElem (by rw [put_length hc]; exact hx), List.getElem?_eq_getElem hx] at h1
    rw [List.getElem?_eq_getElem (by rw [put_length hc]; exact hx), List.getElem?_eq_getElem hx]
    rw [List.length_replicate] at h1
    simp only [Option.getD_some] at h1
    rw [h1]
    split
    · rename_i h
      rw [List.getElem?_replicate, if_pos (by omega)]; rfl
    · rfl

/-- **C62**, comparing: `Verify` says whether the bytes are there, `BlankCheck` whether all are erased; an error
of the system makes them fail, never succeed. -/
theorem C62_compare {d : Ctx} {f : File} (ho : d.isOpen = true) (hu : d.unlocked = true)
    (hl : f.length = 2 * d.psize) (io : Nat → Bool) (off n : Nat) (bs : List UInt8) :
    (verify d f io off bs = .ok → (f.drop off).take bs.length = bs ∧ off + bs.length ≤ f.length) ∧
    (blank d f io off n = .ok → (f.drop off).take n = List.replicate n d.erased ∧ off + n ≤ f.length) ∧
    ((f.drop off).take bs.length = bs → off + bs.length ≤ f.length → verify d f (fun _ => true) off bs = .ok) ∧
    ((f.drop off).take n = List.replicate n d.erased → off + n ≤ f.length → blank d f (fun _ => true) off n = .ok) := by
  have hsz : d.size = 2 * d.psize := by unfold Ctx.size; omega
  have u : Up d f := ⟨ho, hu, by rw [hsz, hl]⟩
  have hds : d.dev.size = f.length := by show d.size = _; rw [hsz, hl]
  have hv := verify_eq u off bs
  have hb := blank_eq u off n
  unfold Flash.devVerify at hv
  unfold Flash.devBlank at hb
  rw [hds] at hv hb
  refine ⟨?_, ?_, ?_, ?_⟩
  · intro h
    rcases verify_any (c := d) (f := f) io off bs with h1 | h1
    · rw [h1, hv] at h
      split at h
      · cases h
      · split at h
        · rename_i h2 h3; rw [rd_mem (by omega)] at h3; exact ⟨h3, by omega⟩
        · cases h
    · rw [h1] at h; cases h
  · intro h
    rcases blank_any (c := d) (f := f) io off n with h1 | h1
    · rw [h1, hb] at h
      split at h
      · cases h
      · split at h
        · rename_i h2 h3; rw [isBlank_rd, rd_mem (by omega)] at h3; exact ⟨h3, by omega⟩
        · cases h
    · rw [h1] at h; cases h
  · intro h1 h2
    rw [hv, if_neg (by omega), rd_mem h2, if_pos h1]
  · intro h1 h2
    rw [hb, if_neg (by omega), if_pos]
    rw [isBlank_rd, rd_mem h2]; exact h1

end driver

/-! ## The NVM on the file -/

section nvm

variable {c : NvmFlash.Cfg}

/-- **C62**, without kills, for every program that blank-checks what it writes directly before writing (both
NVM backends do, next theorems): the same answers and the same bytes as on the flash device. -/
theorem C62_same_as_flash {α : Type} {d : Ctx} {p : Flash.FP α} (hp : Guarded p) {f : File} (ho : d.isOpen = true)
    (hu : d.unlocked = true) (hl : f.length = 2 * d.psize) :
    (run d p f).1 = (Flash.run ⟨2 * d.psize, d.erased⟩ p (fun x => f.getD x 0)).1 ∧
    (fun x => (run d p f).2.getD x 0) = (Flash.run ⟨2 * d.psize, d.erased⟩ p (fun x => f.getD x 0)).2 := by
  have hsz : d.size = 2 * d.psize := by unfold Ctx.size; omega
  have h := run_flash (c := d) p f ⟨ho, hu, by rw [hsz, hl]⟩ (.inl hp)
  unfold Ctx.dev at h
  rw [hsz] at h
  exact ⟨h.1, h.2.1⟩

/-- The flash NVM looks before it writes. -/
theorem C62_nvm_looks (c : NvmFlash.Cfg) (ctx : NvmFlash.Ctx) (md : NvmFlash.Meta) (data : List UInt8)
    (ids : List UInt16) (id : UInt16) (off n : Nat) :
    Guarded (NvmFlash.init c) ∧ Guarded (NvmFlash.addObject c ctx md data) ∧
    Guarded (NvmFlash.destroyObjects c ctx ids) ∧ Guarded (NvmFlash.readObject c ctx id off n) :=
  ⟨nvm_init c, nvm_add c ctx md data, nvm_destroy c ctx ids, nvm_read c ctx id off n⟩

/-- And so does the log-structured one. -/
theorem C62_log_looks (c : FlashLog.Cfg) (s : FlashLog.Ctx) (md : NvmFlash.Meta) (data : List UInt8)
    (ids : List UInt16) :
    Guarded (FlashLog.init c) ∧ Guarded (FlashLog.addObject c s md data) ∧ Guarded (FlashLog.destroyObjects c s ids) :=
  ⟨log_init c, log_add c s md data, log_destroy c s ids⟩

/-- **C62**, the full property would allow an erase or a write to end at any byte; here it ends at a multiple of
eight.  Then, whatever happened before: a process killed while it adds an object leaves a file from which the
next one shows the old store, or the old store with exactly the new object. -/
theorem C62_add_atomic_partial (hwf : c.WF) {n : Nat} {ctx : NvmFlash.Ctx} {f : File}
    (h : Reach c (fun x => 8 ∣ x) n (.on ctx f)) {st : NvmFlash.Store} (hs : Shows c ctx f st)
    (md : NvmFlash.Meta) (data : List UInt8) (hd : data.length < 2 ^ 16) {f' : File}
    (hx : Exec (drv c) Flash.Faults.none (fun x => 8 ∣ x) (NvmFlash.addObject c ctx md data) f none f') :
    Boots c (some f') st ∨ Boots c (some f') (st.set md data) := by
  obtain ⟨h1, h2⟩ := reach_sim hwf h
  obtain ⟨h3, h4⟩ := exec_nvm (nvm_add c ctx md data) h1 hx
  rw [boots_iff hwf (by simp [h4]), boots_iff hwf (by simp [h4]), full_some h4]
  exact C01_add_atomic hwf h2 ((shows_iff h1).1 hs) md data hd h3

/-- **C62**, destroying: the old store, or the store without the listed objects. -/
theorem C62_destroy_atomic_partial (hwf : c.WF) {n : Nat} {ctx : NvmFlash.Ctx} {f : File}
    (h : Reach c (fun x => 8 ∣ x) n (.on ctx f)) (hn : n + 1 < 2 ^ 32) {st : NvmFlash.Store} (hs : Shows c ctx f st)
    (ids : List UInt16) {f' : File}
    (hx : Exec (drv c) Flash.Faults.none (fun x => 8 ∣ x) (NvmFlash.destroyObjects c ctx ids) f none f') :
    Boots c (some f') st ∨ Boots c (some f') (st.drop ids) := by
  obtain ⟨h1, h2⟩ := reach_sim hwf h
  obtain ⟨h3, h4⟩ := exec_nvm (nvm_destroy c ctx ids) h1 hx
  rw [boots_iff hwf (by simp [h4]), boots_iff hwf (by simp [h4]), full_some h4]
  exact C02_destroy_atomic hwf h2 hn ((shows_iff h1).1 hs) ids h3

/-- **C62**, restarting: a running process shows a store, and the next one shows the same. -/
theorem C62_restart_partial (hwf : c.WF) {n : Nat} {ctx : NvmFlash.Ctx} {f : File}
    (h : Reach c (fun x => 8 ∣ x) n (.on ctx f)) : ∃ st, Shows c ctx f st ∧ Boots c (some f) st := by
  obtain ⟨h1, h2⟩ := reach_sim hwf h
  obtain ⟨st, sd, h3, h4, h5⟩ := C03_always_a_store hwf h2
  rw [h5 rfl] at h4
  refine ⟨st, (shows_iff h1).2 h3, ?_⟩
  rw [boots_iff hwf (by simp [h1]), full_some h1]
  exact h4

/-- **C62**, a process that does not start: however the last one ended, also while it opened the file, the next
one starts and shows a store; stopping it while it starts does not change which. -/
theorem C62_starts_partial (hwf : c.WF) {n : Nat} {file : Option File} (h : Reach c (fun x => 8 ∣ x) n (.off file)) :
    ∃ st, Boots c file st ∧ (∀ io, Boots c (init io (8 * c.pu) c.erased file).2.2 st) ∧
      ∀ f f', Opens c file f → Exec (drv c) Flash.Faults.none (fun x => 8 ∣ x) (NvmFlash.init c) f none f' →
        Boots c (some f') st := by
  obtain ⟨h1, h2⟩ := reach_sim hwf h
  obtain ⟨st, hst⟩ := C01_always_boots hwf h2
  refine ⟨st, (boots_iff hwf h1).2 hst, ?_, ?_⟩
  · intro io
    obtain ⟨h3, h4⟩ := opening_full hwf h1 io
    rw [boots_iff hwf h3, h4]
    exact hst
  · intro f f' ho hx
    rw [opens_iff hwf h1] at ho
    subst ho
    obtain ⟨h3, h4⟩ := exec_nvm (nvm_init c) (full_length h1) hx
    rw [boots_iff hwf (by simp [h4]), full_some h4]
    exact C01_boot_interrupted hwf h2 hst h3

/-- **C62**, adding: the object is there, also for the next process, or there was no space and nothing changed. -/
theorem C62_add_partial (hwf : c.WF) {n : Nat} {ctx : NvmFlash.Ctx} {f : File}
    (h : Reach c (fun x => 8 ∣ x) n (.on ctx f)) {st : NvmFlash.Store} (hs : Shows c ctx f st)
    (md : NvmFlash.Meta) (data : List UInt8) (hd : data.length < 2 ^ 16) {rc : Rc} {ctx' : NvmFlash.Ctx} {f' : File}
    (hx : run (drv c) (NvmFlash.addObject c ctx md data) f = ((rc, ctx'), f')) :
    (rc = .ok ∧ Shows c ctx' f' (st.set md data) ∧ Boots c (some f') (st.set md data)) ∨
    (rc = .nospace ∧ ctx' = ctx ∧ f' = f) := by
  obtain ⟨h1, h2⟩ := reach_sim hwf h
  obtain ⟨h3, h4, h5⟩ := run_flash (c := drv c) _ f (up_drv h1) (.inl (nvm_add c ctx md data))
  rw [hx, drv_dev] at h3 h4
  rw [hx] at h5
  have h6 : f'.length = 16 * c.pu := by have := h5.len; rw [drv_size] at this; exact this
  have hrun : Flash.run c.dev (NvmFlash.addObject c ctx md data) (mem f) = ((rc, ctx'), mem f') :=
    Prod.ext h3.symm h4.symm
  have hsm := (shows_iff h1).1 hs
  rcases C03_add hwf h2 hsm md data hd hrun with ⟨ha, hb⟩ | ⟨ha, hb, hc⟩
  · left
    subst ha
    refine ⟨rfl, (shows_iff h6).2 hb, ?_⟩
    rw [boots_iff hwf (by simp [h6]), full_some h6]
    exact C01_add_durable hwf h2 hsm md data hd hrun
  · exact .inr ⟨ha, hb, mem_inj (by rw [h6, h1]) hc⟩

end nvm

/-! ## Findings about the driver -/

/-- `Program` writes over what is there: alone it does not keep the rule of flash memory. -/
theorem F_C62_overwrite : ∃ d f, d.unlocked = true ∧ program d f .all 0 [2] = (.ok, [2]) ∧ f = [1] ∧ d.erased = 0xFF :=
  ⟨⟨true, 1, 0xFF, true⟩, [1], rfl, by decide +kernel, rfl, rfl⟩

/-- When the size of the file cannot be asked for, `Init` succeeds without filling the file, and reading fails. -/
theorem F_C62_stat : ∃ io d f, io.stat = false ∧ init io 8 0xFF none = (.ok, d, some f) ∧
    (FlashFile.read d f true 0 8).1 = .aborted :=
  ⟨⟨true, false, fun _ => true, true⟩, _, _, rfl, rfl, by decide +kernel⟩

/-- Opening the file with smaller partitions cuts it: what was in the second one is gone for good. -/
theorem F_C62_shrink : ∃ f f' : File, ∃ d d', init .good 4 0xFF (some f) = (.ok, d, some f') ∧
    (∃ f'', init .good 8 0xFF (some f') = (.ok, d', some f'') ∧ f.length = 16 ∧ f'' ≠ f) :=
  ⟨List.replicate 16 1, List.replicate 8 1, ⟨true, 4, 0xFF, false⟩, ⟨true, 8, 0xFF, false⟩, by decide +kernel, List.replicate 8 1 ++ List.replicate 8 0xFF,
    by decide +kernel, rfl, by decide +kernel⟩

end WolfHsm.Props

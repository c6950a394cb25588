import Verif.Proofs.FlashFileGuard
import Verif.Spec.FlashFile
import Verif.Props.NvmFlash

/-! # The flash NVM on a file (C62): proofs -/

namespace WolfHsm.FlashFile

open Flash (FP Mem Dev Faults)
open NvmFlash (Cfg Store Meta)

variable {c : Cfg}

theorem drv_size (c : Cfg) : (drv c).size = 16 * c.pu := by unfold drv Ctx.size; dsimp only; omega

theorem drv_dev (c : Cfg) : (drv c).dev = c.dev := by
  unfold Ctx.dev Cfg.dev; rw [drv_size]; rfl

theorem up_drv {f : File} (h : f.length = 16 * c.pu) : Up (drv c) f := ⟨rfl, rfl, by rw [drv_size, h]⟩

theorem mem_inj {f g : File} (hl : f.length = g.length) (h : mem f = mem g) : f = g := by
  apply List.ext_getElem hl
  intro i h1 h2
  have := congrFun h i
  unfold mem at this
  rw [List.getD_eq_getElem?_getD, List.getD_eq_getElem?_getD, List.getElem?_eq_getElem h1,
    List.getElem?_eq_getElem h2] at this
  exact this

theorem shows_iff {ctx : NvmFlash.Ctx} {f : File} (hl : f.length = 16 * c.pu) {st : Store} :
    Shows c ctx f st ↔ NvmFlash.Shows c ctx (mem f) st := by
  have hr : ∀ id off n, run (drv c) (NvmFlash.readObject c ctx id off n) f = (st.slice id off n, f) ↔
      Flash.run c.dev (NvmFlash.readObject c ctx id off n) (mem f) = (st.slice id off n, mem f) := by
    intro id off n
    obtain ⟨h1, h2, h3⟩ := run_flash (c := drv c) _ f (up_drv hl) (.inl (nvm_read c ctx id off n))
    rw [drv_dev] at h1 h2
    constructor
    · intro h
      rw [h] at h1 h2
      exact Prod.ext h1.symm h2.symm
    · intro h
      rw [h] at h1 h2
      exact Prod.ext h1 (mem_inj (by rw [h3.len, drv_size, hl]) h2)
  exact ⟨fun h => ⟨h.info, fun id off n => (hr id off n).1 (h.slice id off n), h.len⟩,
    fun h => ⟨h.info, fun id off n => (hr id off n).2 (h.slice id off n), h.len⟩⟩

/-- The file as it is after opening. -/
def full (c : Cfg) (file : Option File) : File :=
  file.getD [] ++ List.replicate (16 * c.pu - (file.getD []).length) c.erased

theorem put_end (f bs : List UInt8) : put f f.length bs = f ++ bs := by
  rw [put_eq (Nat.le_refl _)]; simp

theorem opens_iff (hwf : c.WF) {file : Option File} (hl : (file.getD []).length ≤ 16 * c.pu) {f : File} :
    Opens c file f ↔ f = full c file := by
  unfold Opens init InitIo.good
  dsimp only
  have hs := hwf.small
  have hsz : Ctx.size ⟨true, 8 * c.pu, c.erased, false⟩ = 16 * c.pu := by unfold Ctx.size; dsimp only; omega
  rw [if_neg (by simp), hsz, if_neg (by omega), if_neg (by simp)]
  by_cases h : (file.getD []).length < 16 * c.pu
  · rw [if_pos h, pfill_eq _ _ _ _ _ _ (Nat.le_refl _), lead_all, put_end]
    simp [full, eq_comm]
  · rw [if_neg h, if_neg (by omega)]
    have : 16 * c.pu - (file.getD []).length = 0 := by omega
    simp [full, this, eq_comm]

theorem full_length {file : Option File} (hl : (file.getD []).length ≤ 16 * c.pu) :
    (full c file).length = 16 * c.pu := by
  unfold full; simp; omega

theorem full_some {f : File} (hl : f.length = 16 * c.pu) : full c (some f) = f := by
  unfold full
  simp [hl]

theorem boots_iff (hwf : c.WF) {file : Option File} (hl : (file.getD []).length ≤ 16 * c.pu) {st : Store} :
    Boots c file st ↔ NvmFlash.Boots c (mem (full c file)) st := by
  have hfl := full_length hl
  obtain ⟨h1, h2, h3⟩ := run_flash (c := drv c) _ _ (up_drv hfl) (.inl (nvm_init c))
  rw [drv_dev] at h1 h2
  have h4 : (run (drv c) (NvmFlash.init c) (full c file)).2.length = 16 * c.pu := by rw [h3.len, drv_size]
  unfold Boots NvmFlash.Boots
  rw [← h1, ← h2]
  constructor
  · rintro ⟨f, hf, ha, hb⟩
    rw [opens_iff hwf hl] at hf
    subst hf
    exact ⟨ha, (shows_iff h4).1 hb⟩
  · rintro ⟨ha, hb⟩
    exact ⟨_, (opens_iff hwf hl).2 rfl, ha, (shows_iff h4).2 hb⟩

/-- Whatever happens while it is opened, the file holds what it held, with more or less of the end filled. -/
theorem opening_full (hwf : c.WF) {file : Option File} (hl : (file.getD []).length ≤ 16 * c.pu) (io : InitIo) :
    (((init io (8 * c.pu) c.erased file).2.2).getD []).length ≤ 16 * c.pu ∧
      full c (init io (8 * c.pu) c.erased file).2.2 = full c file := by
  have hs := hwf.small
  have hsz : Ctx.size ⟨true, 8 * c.pu, c.erased, false⟩ = 16 * c.pu := by unfold Ctx.size; dsimp only; omega
  have hg : ∀ f : File, file.getD [] = f → full c (some f) = full c file := by
    rintro f rfl; unfold full; rfl
  unfold init
  dsimp only
  rw [hsz, if_neg (show ¬ 16 * c.pu > 4294967295 by omega)]
  split
  · exact ⟨hl, rfl⟩
  split
  · exact ⟨hl, hg _ rfl⟩
  split
  · rename_i h
    rw [pfill_eq _ _ _ _ _ _ (Nat.le_refl _), put_end]
    have hle := lead_le io.fill (16 * c.pu - (file.getD []).length) 0
    generalize lead io.fill (16 * c.pu - (file.getD []).length) 0 = j at hle ⊢
    have hx : (file.getD [] ++ List.replicate j c.erased).length ≤ 16 * c.pu ∧
        full c (some (file.getD [] ++ List.replicate j c.erased)) = full c file := by
      refine ⟨by simp; omega, ?_⟩
      unfold full
      simp only [Option.getD_some, List.length_append, List.length_replicate, List.append_assoc,
        List.replicate_append_replicate]
      congr 2
      omega
    dsimp only
    split <;> exact hx
  · split
    · omega
    · exact ⟨hl, hg _ rfl⟩

/-- A history of the file is a history of the flash device. -/
def Sim (c : Cfg) (n : Nat) : FState → Prop
  | .off file => (file.getD []).length ≤ 16 * c.pu ∧ NvmFlash.Reach c false n (.off (mem (full c file)))
  | .on ctx f => f.length = 16 * c.pu ∧ NvmFlash.Reach c false n (.on ctx (mem f))

theorem exec_nvm {α : Type} {p : FP α} (hp : Guarded p) {f f' : File} {o : Option α} (hl : f.length = 16 * c.pu)
    (h : Exec (drv c) Faults.none (fun x => 8 ∣ x) p f o f') :
    Flash.Exec c.dev Faults.none p (mem f) o (mem f') ∧ f'.length = 16 * c.pu := by
  obtain ⟨h1, h2⟩ := exec_flash (by omega) h (up_drv hl) (.inl hp)
  rw [drv_dev] at h1
  exact ⟨exec_eight h1, by rw [h2.len, drv_size]⟩

theorem sim_off {n : Nat} {f : File} (hl : f.length = 16 * c.pu) (h : NvmFlash.Reach c false n (.off (mem f))) :
    Sim c n (.off (some f)) := by
  refine ⟨by simp [hl], ?_⟩
  rw [full_some hl]; exact h

theorem reach_sim (hwf : c.WF) {n : Nat} {s : FState} (h : Reach c (fun x => 8 ∣ x) n s) : Sim c n s := by
  induction h with
  | new =>
    refine ⟨by simp, .blank ?_⟩
    intro x hx
    have hx : x < 16 * c.pu := hx
    unfold mem full
    simp [List.getD_eq_getElem?_getD, hx]
  | opening io _ ih =>
    obtain ⟨h1, h2⟩ := ih
    obtain ⟨h3, h4⟩ := opening_full hwf h1 io
    exact ⟨h3, by rw [h4]; exact h2⟩
  | boot _ ho hx ih =>
    obtain ⟨h1, h2⟩ := ih
    rw [opens_iff hwf h1] at ho
    subst ho
    obtain ⟨h3, h4⟩ := exec_nvm (nvm_init c) (full_length h1) hx
    exact ⟨h4, .boot h2 h3⟩
  | bootFailed _ ho hx hrc ih =>
    obtain ⟨h1, h2⟩ := ih
    rw [opens_iff hwf h1] at ho
    subst ho
    obtain ⟨h3, h4⟩ := exec_nvm (nvm_init c) (full_length h1) hx
    exact sim_off h4 (.bootFailed h2 h3 hrc)
  | bootKilled _ ho hx ih =>
    obtain ⟨h1, h2⟩ := ih
    rw [opens_iff hwf h1] at ho
    subst ho
    obtain ⟨h3, h4⟩ := exec_nvm (nvm_init c) (full_length h1) hx
    exact sim_off h4 (.bootCut h2 h3)
  | add _ hd hx ih =>
    obtain ⟨h1, h2⟩ := ih
    obtain ⟨h3, h4⟩ := exec_nvm (nvm_add c _ _ _) h1 hx
    exact ⟨h4, .add h2 hd h3⟩
  | addKilled _ hd hx ih =>
    obtain ⟨h1, h2⟩ := ih
    obtain ⟨h3, h4⟩ := exec_nvm (nvm_add c _ _ _) h1 hx
    exact sim_off h4 (.addCut h2 hd h3)
  | @destroy n ctx f ids rc ctx' f' _ hn hx ih =>
    obtain ⟨h1, h2⟩ := ih
    obtain ⟨h3, h4⟩ := exec_nvm (nvm_destroy c _ _) h1 hx
    refine ⟨h4, ?_⟩
    have hrun := Flash.exec_run h3
    obtain ⟨_, fs, hs, -⟩ := Props.C03_always_a_store hwf h2
    have := (Props.C03_destroy hwf h2 hn hs ids (hrun _ rfl)).1
    subst this
    exact .destroy h2 hn h3
  | destroyKilled _ hn hx ih =>
    obtain ⟨h1, h2⟩ := ih
    obtain ⟨h3, h4⟩ := exec_nvm (nvm_destroy c _ _) h1 hx
    exact sim_off h4 (.destroyCut h2 hn h3)
  | stop _ ih =>
    obtain ⟨h1, h2⟩ := ih
    exact sim_off h1 (.powerOff h2)

/-- Without faults, the function and the relation agree. -/
theorem run_exec {α : Type} (d : Ctx) (F : Faults) (cut : Nat → Prop) : ∀ (p : FP α) (f : File),
    Exec d F cut p f (some (run d p f).1) (run d p f).2 := by
  intro p
  induction p with
  | ret a => intro f; exact .ret _ _
  | read a n k ih => intro f; exact .read true (.inl rfl) (ih _ _ _)
  | blank a n k ih => intro f; exact .blank _ (.inl fun _ => rfl) (ih _ _)
  | prog a bs k ih => intro f; exact .prog (ih _ _)
  | verify a bs k ih => intro f; exact .verify _ (.inl fun _ => rfl) (ih _ _)
  | erase a n k ih => intro f; exact .erase (ih _ _)

theorem runKilled_exec {α : Type} (d : Ctx) (F : Faults) (j : Nat) : ∀ (p : FP α) (e : Nat) (f f' : File),
    runKilled d j e p f = some f' → Exec d F (fun _ => True) p f none f' := by
  intro p
  induction p with
  | ret a => intro e f f' h; unfold runKilled at h; cases h
  | read a n k ih =>
    intro e f f' h; unfold runKilled at h; exact .read true (.inl rfl) (ih _ _ _ _ _ h)
  | blank a n k ih =>
    intro e f f' h; unfold runKilled at h; exact .blank _ (.inl fun _ => rfl) (ih _ _ _ _ h)
  | prog a bs k ih => intro e f f' h; unfold runKilled at h; exact .prog (ih _ _ _ _ h)
  | verify a bs k ih =>
    intro e f f' h; unfold runKilled at h; exact .verify _ (.inl fun _ => rfl) (ih _ _ _ _ h)
  | erase a n k ih =>
    intro e f f' h
    cases e with
    | zero =>
      unfold runKilled at h
      split at h
      · cases h
        exact .eraseKilled j (by assumption) trivial
      · cases h
    | succ e => unfold runKilled at h; exact .erase (ih _ _ _ _ h)

end WolfHsm.FlashFile

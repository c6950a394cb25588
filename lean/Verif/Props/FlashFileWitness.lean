import Verif.Props.FlashFile

/-!
# C62: a case, and findings about the NVM on a file

The states are computed on the flash device the file stands for, and carried over to the file.
-/

namespace WolfHsm.FlashFile

open Flash (FP Mem Dev Faults)

/-- `runKilled` on the flash device. -/
def runKilledM {α : Type} (d : Dev) (j : Nat) : (e : Nat) → FP α → Mem → Option Mem
  | _, .ret _, _ => none
  | e, .read a n k, m => runKilledM d j e (k (Flash.devRead d m a n).1 (Flash.devRead d m a n).2) m
  | e, .blank a n k, m => runKilledM d j e (k (Flash.devBlank d m a n)) m
  | e, .prog a bs k, m => runKilledM d j e (k .ok) (Flash.wr m a bs)
  | e, .verify a bs k, m => runKilledM d j e (k (Flash.devVerify d m a bs)) m
  | 0, .erase a n _, m =>
    if j < n ∧ a + n ≤ d.size then some (Flash.wr m a (List.replicate j d.erased)) else none
  | e + 1, .erase a n k, m =>
    if a + n ≤ d.size then runKilledM d j e (k .ok) (Flash.wr m a (Flash.erasedBytes d n)) else none

theorem runKilledM_file {α : Type} {c : Ctx} (j : Nat) : ∀ (p : FP α) (e : Nat) (f : File) (m' : Mem), Up c f →
    Fine c p f → runKilledM c.dev j e p (mem f) = some m' → ∃ f', runKilled c j e p f = some f' ∧ mem f' = m' ∧ Up c f' := by
  intro p
  induction p with
  | ret a => intro e f m' _ _ h; unfold runKilledM at h; cases h
  | read a n k ih =>
    intro e f m' u hf h
    unfold runKilledM at h
    unfold runKilled
    rw [read_eq u]
    refine ih _ _ e f m' u ?_ h
    rcases hf with hf | ⟨_, _, _, hf, _⟩
    · cases hf with | read h => exact .inl (h _ _)
    · cases hf
  | blank a n k ih =>
    intro e f m' u hf h
    unfold runKilledM at h
    unfold runKilled
    rw [blank_eq u]
    exact ih _ e f m' u (fine_blank hf (.inl rfl)) h
  | verify a bs k ih =>
    intro e f m' u hf h
    unfold runKilledM at h
    unfold runKilled
    rw [verify_eq u]
    refine ih _ e f m' u ?_ h
    rcases hf with hf | ⟨_, _, _, hf, _⟩
    · cases hf with | verify h => exact .inl (h _)
    · cases hf
  | prog a bs k ih =>
    intro e f m' u hf h
    rcases hf with hf | ⟨_, _, _, hf, hk, hb⟩
    · cases hf
    cases hf
    obtain ⟨hr, _⟩ := devBlank_ok hb
    unfold runKilledM at h
    unfold runKilled
    rw [← mem_put (by rw [u.len]; exact hr)] at h
    rw [program_ok u hr]
    exact ih _ e _ m' (u.put hr) (.inl (hk _)) h
  | erase a n k ih =>
    intro e f m' u hf h
    have hk : ∀ rc f, Fine c (k rc) f := by
      rcases hf with hf | ⟨_, _, _, hf, _⟩
      · cases hf with | erase h => exact fun rc f => .inl (h rc)
      · cases hf
    have hl := Flash.erasedBytes_length c.dev n
    cases e with
    | zero =>
      unfold runKilledM at h
      unfold runKilled
      split at h
      · rename_i hj
        cases h
        have hr : a + n ≤ c.size := hj.2
        rw [if_pos hj.1, erase_cut u hr hj.1]
        have ht : (Flash.erasedBytes c.dev n).take j = List.replicate j c.dev.erased := by
          unfold Flash.erasedBytes
          rw [List.take_replicate, Nat.min_eq_left (by omega)]
        rw [ht]
        have hx : a + (List.replicate j c.dev.erased).length ≤ c.size := by rw [List.length_replicate]; omega
        exact ⟨_, rfl, mem_put (by rw [u.len]; exact hx), u.put hx⟩
      · cases h
    | succ e =>
      unfold runKilledM at h
      unfold runKilled
      split at h
      · rename_i hr
        have hr : a + n ≤ c.size := hr
        rw [← mem_put (by rw [hl, u.len]; exact hr)] at h
        rw [erase_ok u hr]
        exact ih _ e _ m' (u.put (by omega)) (hk _ _) h
      · cases h

end WolfHsm.FlashFile

namespace WolfHsm.Props

open FlashFile
open Flash (Mem)

namespace FileDemo

def c0 : NvmFlash.Cfg := { N := 3, pu := 30, erased := 0xFF, crc := false }
theorem wf0 : c0.WF := ⟨by decide, by decide⟩
def md5 : NvmFlash.Meta := ⟨5, 1, 2, 0, Vector.replicate 24 0x41⟩
def md7 : NvmFlash.Meta := ⟨7, 0, 0, 0, Vector.replicate 24 0x42⟩
def md9 : NvmFlash.Meta := ⟨9, 0, 0, 0, Vector.replicate 24 0x44⟩

/-- A new file is opened; the NVM starts on it; objects 5 and 7 are added. -/
def m0 : Mem := fun x => if x < 480 then 0xFF else 0
@[irreducible] def s1 := Flash.run c0.dev (NvmFlash.init c0) m0
@[irreducible] def s2 := Flash.run c0.dev (NvmFlash.addObject c0 s1.1.2 md5 [1, 2, 3]) s1.2
@[irreducible] def s3 := Flash.run c0.dev (NvmFlash.addObject c0 s2.1.2 md7 [4]) s2.2
/-- The process is killed while it destroys object 7: one byte of the old partition is erased. -/
@[irreducible] def k4 := runKilledM c0.dev 1 0 (NvmFlash.destroyObjects c0 s3.1.2 [7]) s3.2
/-- The next process still has 7, and adds object 9. -/
@[irreducible] def s5 := Flash.run c0.dev (NvmFlash.init c0) (k4.getD m0)
@[irreducible] def s6 := Flash.run c0.dev (NvmFlash.addObject c0 s5.1.2 md9 [5, 6]) s5.2
/-- It is killed while it destroys object 5: two bytes of the other partition are erased. -/
@[irreducible] def k7 := runKilledM c0.dev 2 0 (NvmFlash.destroyObjects c0 s6.1.2 [5]) s6.2
@[irreducible] def s8 := Flash.run c0.dev (NvmFlash.init c0) (k7.getD m0)

theorem ok1 : s1.1.1 = .ok := by decide +kernel
theorem ok4 : k4.isSome = true := by decide +kernel
theorem ok5 : s5.1.1 = .ok := by decide +kernel
theorem ok7 : k7.isSome = true := by decide +kernel

/-- The file at this point of the history. -/
def At (cut : Nat → Prop) (n : Nat) (ctx : NvmFlash.Ctx) (m : Mem) : Prop :=
  ∃ f, Reach c0 cut n (.on ctx f) ∧ mem f = m ∧ f.length = 480

theorem at_boot {cut : Nat → Prop} {n : Nat} {file : Option File} (h : Reach c0 cut n (.off file))
    (hl : (file.getD []).length ≤ 480) {m : Mem} (hm : mem (full c0 file) = m)
    (hok : (Flash.run c0.dev (NvmFlash.init c0) m).1.1 = .ok) :
    At cut n (Flash.run c0.dev (NvmFlash.init c0) m).1.2 (Flash.run c0.dev (NvmFlash.init c0) m).2 := by
  have hfl := full_length (c := c0) hl
  obtain ⟨h1, h2, h3⟩ := run_flash (c := drv c0) _ _ (up_drv hfl) (.inl (nvm_init c0))
  rw [drv_dev, hm] at h1 h2
  have hx := run_exec (drv c0) Flash.Faults.none cut (NvmFlash.init c0) (full c0 file)
  rw [h1] at hx
  refine ⟨_, .boot h ((opens_iff wf0 hl).2 rfl) ?_, h2, by rw [h3.len, drv_size]; rfl⟩
  rw [← hok]
  exact hx

theorem at_add {cut : Nat → Prop} {n : Nat} {ctx : NvmFlash.Ctx} {m : Mem} (md : NvmFlash.Meta)
    (data : List UInt8) (h : At cut n ctx m) (hl : data.length < 2 ^ 16) :
    At cut n (Flash.run c0.dev (NvmFlash.addObject c0 ctx md data) m).1.2
      (Flash.run c0.dev (NvmFlash.addObject c0 ctx md data) m).2 := by
  obtain ⟨f, h, rfl, hf⟩ := h
  obtain ⟨h1, h2, h3⟩ := run_flash (c := drv c0) _ f (up_drv hf) (.inl (nvm_add c0 ctx md data))
  rw [drv_dev] at h1 h2
  have hx := run_exec (drv c0) Flash.Faults.none cut (NvmFlash.addObject c0 ctx md data) f
  rw [h1] at hx
  exact ⟨_, .add h hl hx, h2, by rw [h3.len, drv_size]; rfl⟩

theorem killed {n : Nat} {ctx : NvmFlash.Ctx} {m : Mem} {ids : List UInt16} (j e : Nat)
    (h : At (fun _ => True) n ctx m) (hs : (runKilledM c0.dev j e (NvmFlash.destroyObjects c0 ctx ids) m).isSome = true) :
    ∃ f f', Reach c0 (fun _ => True) n (.on ctx f) ∧
      Exec (drv c0) Flash.Faults.none (fun _ => True) (NvmFlash.destroyObjects c0 ctx ids) f none f' ∧
      mem f' = (runKilledM c0.dev j e (NvmFlash.destroyObjects c0 ctx ids) m).getD m0 ∧ f'.length = 480 := by
  obtain ⟨f, h, rfl, hf⟩ := h
  obtain ⟨m', hm⟩ := Option.isSome_iff_exists.1 hs
  rw [hm]
  rw [← drv_dev] at hm
  obtain ⟨f', h1, h2, h3⟩ := runKilledM_file (c := drv c0) j _ e f m' (up_drv hf) (.inl (nvm_destroy c0 ctx ids)) hm
  exact ⟨f, f', h, runKilled_exec _ _ j _ e _ _ h1, h2, by rw [h3.len, drv_size]; rfl⟩

theorem at3 (cut : Nat → Prop) : At cut 0 s3.1.2 s3.2 := by
  have h1 : At cut 0 s1.1.2 s1.2 := by
    have h := ok1
    unfold s1 at h ⊢
    refine at_boot .new (by decide) ?_ h
    funext x
    unfold mem full m0 c0
    simp only [Option.getD_none, List.length_nil, List.nil_append, List.getD_eq_getElem?_getD,
      List.getElem?_replicate]
    split <;> simp_all
  have h2 : At cut 0 s2.1.2 s2.2 := by unfold s2; exact at_add _ _ h1 (by decide)
  unfold s3; exact at_add _ _ h2 (by decide)

/-- Both objects are there. -/
example : NvmFlash.getMetadata s3.1.2 5 = (.ok, some { md5 with len := 3 }) ∧
    (Flash.run c0.dev (NvmFlash.readObject c0 s3.1.2 7 0 1) s3.2).1 = (.ok, [4]) := by decide +kernel

/-- A state, a store, and a process killed while it destroys an object, as in `C62_destroy_atomic_partial`. -/
example : ∃ f st, Reach c0 (fun x => 8 ∣ x) 0 (.on s3.1.2 f) ∧ Shows c0 s3.1.2 f st ∧ st 7 ≠ none ∧
    Exec (drv c0) Flash.Faults.none (fun x => 8 ∣ x) (NvmFlash.destroyObjects c0 s3.1.2 [7]) f none f := by
  obtain ⟨f, h, _, _⟩ := at3 (fun x => 8 ∣ x)
  obtain ⟨st, h1, _⟩ := C62_restart_partial wf0 h
  refine ⟨f, st, h, h1, ?_, .kill _ _⟩
  intro h0
  have := h1.info 7
  unfold NvmFlash.Store.info at this
  rw [h0, show NvmFlash.getMetadata s3.1.2 7 = (.ok, some { md7 with len := 1 }) by decide +kernel] at this
  cases this

end FileDemo

open FileDemo in
/-- Erasing goes byte by byte, from the lowest address, where the epoch of the partition is: one killed after one
to four bytes leaves a partition that looks newer than it is.  So objects whose add succeeded are lost by two
kills.  Here object 9 is there for the process that added it; then that process is killed while it destroys
object 5, and the next one has no object 9. -/
theorem F_C62_killed_twice : ∃ n ctx f f', Reach c0 (fun _ => True) n (.on ctx f) ∧
    NvmFlash.getMetadata ctx 9 = (.ok, some { md9 with len := 2 }) ∧
    Exec (drv c0) Flash.Faults.none (fun _ => True) (NvmFlash.destroyObjects c0 ctx [5]) f none f' ∧
    ∀ st, Boots c0 (some f') st → st 9 = none ∧ st 5 ≠ none := by
  have h5 : At (fun _ => True) 1 s5.1.2 s5.2 := by
    have h4 := ok4
    have h5 := ok5
    unfold s5 at h5 ⊢
    unfold k4 at h4 h5 ⊢
    obtain ⟨f, f', ha, hb, hc, hd⟩ := killed 1 0 (at3 _) h4
    exact at_boot (.destroyKilled ha (by decide) hb) (Nat.le_of_eq hd)
      (by rw [full_some hd, hc]) h5
  have h6 : At (fun _ => True) 1 s6.1.2 s6.2 := by unfold s6; exact at_add _ _ h5 (by decide)
  have h7 := ok7
  unfold k7 at h7
  obtain ⟨f, f', ha, hb, hc, hd⟩ := killed 2 0 h6 h7
  refine ⟨1, _, f, f', ha, by decide +kernel, hb, ?_⟩
  intro st hst
  rw [boots_iff (file := some f') wf0 (Nat.le_of_eq hd), full_some hd, hc] at hst
  have hs := hst.2
  have h9 := hs.info 9
  have h5 := hs.info 5
  have e9 : NvmFlash.getMetadata s8.1.2 9 = (.notfound, none) := by decide +kernel
  have e5 : NvmFlash.getMetadata s8.1.2 5 = (.ok, some { md5 with len := 3 }) := by decide +kernel
  unfold s8 k7 at e9 e5
  rw [e9] at h9
  rw [e5] at h5
  unfold NvmFlash.Store.info at h9 h5
  constructor
  · cases h : st 9 with
    | none => rfl
    | some x => rw [h] at h9; cases h9
  · intro h; rw [h] at h5; cases h5

namespace LogFileDemo

def c1 : FlashLog.Cfg := { P := 320, N := 2, erased := 0xFF }
def d1 : Ctx := ⟨true, 320, 0xFF, true⟩
def m0 : Mem := fun x => if x < 640 then 0xFF else 0
@[irreducible] def s1 := Flash.run c1.dev (FlashLog.init c1) m0
@[irreducible] def s2 := Flash.run c1.dev (FlashLog.addObject c1 s1.1.2 FileDemo.md5 [1, 2, 3]) s1.2
/-- Adding object 7, killed after eight bytes of the last erase. -/
@[irreducible] def k3 := runKilledM c1.dev 8 1 (FlashLog.addObject c1 s2.1.2 FileDemo.md7 [4]) s2.2
@[irreducible] def s4 := Flash.run c1.dev (FlashLog.init c1) (k3.getD m0)

theorem ok1 : s1.1.1 = .ok := by decide +kernel
theorem ok2 : s2.1.1 = .ok := by decide +kernel
theorem ok3 : k3.isSome = true := by decide +kernel
theorem ok4 : s4.1.1 = .aborted := by decide +kernel
theorem same4 : ∀ x, x < 640 → s4.2 x = (k3.getD m0) x := by decide +kernel

end LogFileDemo

open LogFileDemo in
/-- The log-structured NVM: a new file, an object added; a process killed after eight bytes of an erase while it
adds another leaves a file on which `Init` fails, changing nothing, and so does every later one. -/
theorem F_C62_log_bricked : ∃ f0 f1 f2 f3 s1 s2, init .good 320 0xFF none = (.ok, ⟨true, 320, 0xFF, false⟩, some f0) ∧
    run d1 (FlashLog.init c1) f0 = ((.ok, s1), f1) ∧
    run d1 (FlashLog.addObject c1 s1 FileDemo.md5 [1, 2, 3]) f1 = ((.ok, s2), f2) ∧
    Exec d1 Flash.Faults.none (fun _ => True) (FlashLog.addObject c1 s2 FileDemo.md7 [4]) f2 none f3 ∧
    ∃ s3, run d1 (FlashLog.init c1) f3 = ((.aborted, s3), f3) := by
  obtain ⟨f0, hf0⟩ : ∃ f0 : File, f0 = List.replicate 640 0xFF := ⟨_, rfl⟩
  have hm0 : mem f0 = m0 := by
    rw [hf0]
    funext x
    unfold mem m0
    simp only [List.getD_eq_getElem?_getD, List.getElem?_replicate]
    by_cases h : x < 640
    · rw [if_pos h, if_pos h]; rfl
    · rw [if_neg h, if_neg h]; rfl
  have hl0 : f0.length = 640 := by rw [hf0]; exact List.length_replicate
  have hi0 : init .good 320 0xFF none = (.ok, ⟨true, 320, 0xFF, false⟩, some f0) := by
    rw [hf0]
    unfold init InitIo.good
    dsimp only
    rw [if_neg (by simp), if_neg (by decide), if_neg (by simp), if_pos (by decide),
      pfill_eq _ _ _ _ _ _ (Nat.le_refl _), lead_all, show (none : Option File).getD [] = [] from rfl, put_end]
    rfl
  clear hf0
  obtain ⟨a1, a2, a3⟩ := run_flash (c := d1) _ f0 ⟨rfl, rfl, hl0⟩ (.inl (log_init c1))
  rw [hm0, show d1.dev = c1.dev from rfl, show Flash.run c1.dev (FlashLog.init c1) m0 = s1 by unfold s1; rfl] at a1 a2
  generalize hr1 : run d1 (FlashLog.init c1) f0 = r1 at a1 a2 a3
  obtain ⟨⟨rc1, x1⟩, f1⟩ := r1
  dsimp only at a1 a2 a3
  have hrc1 : rc1 = .ok := by rw [← ok1, ← a1]
  have hx1 : x1 = s1.1.2 := by rw [← a1]
  subst hrc1 hx1
  obtain ⟨b1, b2, b3⟩ := run_flash (c := d1) _ f1 a3 (.inl (log_add c1 s1.1.2 FileDemo.md5 [1, 2, 3]))
  rw [a2, show d1.dev = c1.dev from rfl,
    show Flash.run c1.dev (FlashLog.addObject c1 s1.1.2 FileDemo.md5 [1, 2, 3]) s1.2 = s2 by unfold s2; rfl] at b1 b2
  generalize hr2 : run d1 (FlashLog.addObject c1 s1.1.2 FileDemo.md5 [1, 2, 3]) f1 = r2 at b1 b2 b3
  obtain ⟨⟨rc2, x2⟩, f2⟩ := r2
  dsimp only at b1 b2 b3
  have hrc2 : rc2 = .ok := by rw [← ok2, ← b1]
  have hx2 : x2 = s2.1.2 := by rw [← b1]
  subst hrc2 hx2
  obtain ⟨m', hm'⟩ := Option.isSome_iff_exists.1 ok3
  have hk' := hm'
  unfold k3 at hk'
  rw [← b2] at hk'
  obtain ⟨f3, c1', c2, c3⟩ := runKilledM_file (c := d1) 8 _ 1 _ m' b3 (.inl (log_add c1 s2.1.2 FileDemo.md7 [4])) hk'
  obtain ⟨d1', d2, d3⟩ := run_flash (c := d1) _ f3 c3 (.inl (log_init c1))
  rw [show d1.dev = c1.dev from rfl, show Flash.run c1.dev (FlashLog.init c1) (mem f3) = s4 by
    unfold s4; rw [hm', c2]; rfl] at d1' d2
  refine ⟨f0, f1, f2, f3, s1.1.2, s2.1.2, hi0, hr1, hr2, runKilled_exec _ _ 8 _ 1 _ _ c1', s4.1.2, ?_⟩
  generalize run d1 (FlashLog.init c1) f3 = r4 at d1' d2 d3
  obtain ⟨⟨rc4, x4⟩, f4⟩ := r4
  dsimp only at d1' d2 d3
  have h4 : rc4 = .aborted := by rw [← ok4, ← d1']
  have hx4 : x4 = s4.1.2 := by rw [← d1']
  have hf4 : f4 = f3 := by
    apply List.ext_getElem
    · rw [d3.len, c3.len]
    · intro x hx1 hx2
      have hx : x < 640 := by have := c3.len; rw [show d1.size = 640 from rfl] at this; omega
      have h6 := same4 x hx
      rw [← d2, hm', Option.getD_some, ← c2] at h6
      unfold mem at h6
      rw [List.getD_eq_getElem?_getD, List.getD_eq_getElem?_getD, List.getElem?_eq_getElem hx1,
        List.getElem?_eq_getElem hx2] at h6
      exact h6
  rw [h4, hx4, hf4]

end WolfHsm.Props

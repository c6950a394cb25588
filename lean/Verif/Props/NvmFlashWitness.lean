import Verif.Props.NvmFlash
import Verif.Proofs.FlashScript

/-!
# C01–C06: concrete cases meeting the hypotheses, and findings

The examples evaluate the model on a small device (two partitions of 30 units, 3 objects)
to show that the hypotheses of the theorems in `Verif/Props/NvmFlash.lean` are met by
non-trivial states and that both outcomes of the crash theorems occur.  The theorems named
`F_…` are findings: executions of the code that show why a claim cannot be stronger.
-/

namespace WolfHsm.Props

open NvmFlash Flash

namespace NvmDemo

/-- A small device. -/
def c0 : Cfg := { N := 3, pu := 30, erased := 0xFF, crc := false }
/-- The same with CRCs. -/
def c1 : Cfg := { c0 with crc := true }

theorem wf0 : c0.WF := ⟨by decide, by decide⟩
example : c1.WF := ⟨by decide, by decide⟩

def m0 : Mem := fun _ => 0xFF
theorem erased0 : Erased c0 m0 := fun _ _ => rfl

def md5 : Meta := ⟨5, 1, 2, 0, Vector.replicate 24 0x41⟩
def md7 : Meta := ⟨7, 0, 0, 0, Vector.replicate 24 0x42⟩
def md0 : Meta := ⟨0, 0, 0, 0, Vector.replicate 24 0x43⟩
/-- 10 bytes, so two units, the second partly used. -/
def data5 : List UInt8 := [1, 2, 3, 4, 5, 6, 7, 8, 9, 10]
def data7 : List UInt8 := [0xAA]

/-- Boot of an erased device. -/
@[irreducible] def s1 := run c0.dev (init c0) m0
/-- Then object 5 is added. -/
@[irreducible] def s2 := run c0.dev (addObject c0 s1.1.2 md5 data5) s1.2
/-- Then object 7 is added. -/
@[irreducible] def s3 := run c0.dev (addObject c0 s2.1.2 md7 data7) s2.2
/-- Then object 5 is replaced. -/
@[irreducible] def s4 := run c0.dev (addObject c0 s3.1.2 md5 data7) s3.2

/-- A fault-free add is a step of a history. -/
theorem reach_add {c : Cfg} {faulty : Bool} {n : Nat} {ctx : Ctx} {m : Mem} {md : Meta}
    {data : List UInt8} (h : Reach c faulty n (.on ctx m)) (hl : data.length < 2 ^ 16) :
    Reach c faulty n (.on (run c.dev (addObject c ctx md data) m).1.2
      (run c.dev (addObject c ctx md data) m).2) :=
  .add h hl (run_exec c.dev (addFaults faulty) _ _)

theorem s1_ok : s1.1.1 = .ok := by decide +kernel

theorem reach1 (faulty : Bool) : Reach c0 faulty 0 (.on s1.1.2 s1.2) := by
  have h := run_exec c0.dev (wrFaults faulty) (init c0) m0
  have h1 := s1_ok
  unfold s1 at h1 ⊢
  generalize run c0.dev (init c0) m0 = r at *
  obtain ⟨⟨rc, ctx⟩, m⟩ := r
  dsimp only at h1 h
  subst h1
  exact .boot (.blank erased0) h
theorem reach2 (faulty : Bool) : Reach c0 faulty 0 (.on s2.1.2 s2.2) := by
  unfold s2; exact reach_add (reach1 faulty) (by decide)
theorem reach3 (faulty : Bool) : Reach c0 faulty 0 (.on s3.1.2 s3.2) := by
  unfold s3; exact reach_add (reach2 faulty) (by decide)
theorem reach4 (faulty : Bool) : Reach c0 faulty 0 (.on s4.1.2 s4.2) := by
  unfold s4; exact reach_add (reach3 faulty) (by decide)

/-- The adds succeeded and are visible: object 5 has its metadata and bytes. -/
example : (s2.1.1, s3.1.1, s4.1.1) = (.ok, .ok, .ok) := by decide +kernel
example : getMetadata s3.1.2 5 = (.ok, some { md5 with len := 10 }) := by decide +kernel
example : (run c0.dev (readObject c0 s3.1.2 5 8 2) s3.2).1 = (.ok, [9, 10]) := by decide +kernel
example : getMetadata s4.1.2 5 = (.ok, some { md5 with len := 1 }) := by decide +kernel
/-- A fourth object does not fit (3 directory entries). -/
example : (run c0.dev (addObject c0 s4.1.2 md7 data7) s4.2).1.1 = .nospace := by decide +kernel
example : getAvailable c0 s4.1.2 = (.ok, 16, 0, 16, 1) := by decide +kernel
/-- With reclaim it does. -/
example : (run c0.dev (addObjectWithReclaim c0 s4.1.2 md7 data7) s4.2).1.1 = .ok := by
  decide +kernel

/-- Object 7 after a restart with this flash content. -/
def has7 (m : Mem) : Rc := (getMetadata (run c0.dev (init c0) m).1.2 7).1
def has5 (m : Mem) : Rc := (getMetadata (run c0.dev (init c0) m).1.2 5).1

/-- C01: power lost after 3 driver calls of the add of object 7: a power loss exists, and
the restart does not show the object; lost after 17 calls, it shows it. -/
example : ((runCut c0.dev (addObject c0 s2.1.2 md7 data7) 3 s2.2).map has7) = some .notfound := by
  decide +kernel
example : ((runCut c0.dev (addObject c0 s2.1.2 md7 data7) 14 s2.2).map has7) = some .ok := by
  decide +kernel

/-- C02: power lost early or late in the destroy of object 5. -/
example : ((runCut c0.dev (destroyObjects c0 s3.1.2 [5]) 20 s3.2).map
    fun m => (has5 m, has7 m)) = some (.ok, .ok) := by decide +kernel
example : ((runCut c0.dev (destroyObjects c0 s3.1.2 [5]) 30 s3.2).map
    fun m => (has5 m, has7 m)) = some (.notfound, .ok) := by decide +kernel

/-- C03: the hypotheses of the sequence theorem are met by a run with a replace, a destroy
and a restart. -/
example : ∃ f, Shows c0
    (runBoth c0 [.add md7 data5, .reinit, .destroy [5], .add md5 data7] (s3.1.2, s3.2) f).1
    (runBoth c0 [.add md7 data5, .reinit, .destroy [5], .add md5 data7] (s3.1.2, s3.2) f).2.1
    (runBoth c0 [.add md7 data5, .reinit, .destroy [5], .add md5 data7] (s3.1.2, s3.2) f).2.2 := by
  obtain ⟨f, fD, hf, -, -⟩ := C03_always_a_store wf0 (reach3 false)
  refine ⟨f, C03_sequence wf0 _ (reach3 false) hf ?_ (by decide)⟩
  simp [Op.Valid, data5, data7]

/-- C05: a listing of two objects. -/
example : listing s4.1.2 10 0 = [(2, 7), (1, 5)] := by decide +kernel

/-- One fault at driver call number `i`. -/
def flt (i : Nat) (done : Bool) : List Event :=
  List.replicate i none ++ [some (.aborted, done)]

/-- C04: an add that fails at its 6th driver call; the device still shows the old state. -/
example : ((runScript c0.dev ⟨true, true⟩ (addObject c0 s2.1.2 md7 data7) (flt 5 true) s2.2).map
    fun r => (r.1.1, (getMetadata r.1.2 7).1, (getMetadata r.1.2 5).1)) =
    some (.aborted, .notfound, .ok) := by decide +kernel

/-- Objects 0 and 5. -/
@[irreducible] def t0 := run c0.dev (addObject c0 s1.1.2 md0 data5) s1.2
@[irreducible] def u0 := run c0.dev (addObject c0 t0.1.2 md5 data5) t0.2
theorem reacht : Reach c0 false 0 (.on t0.1.2 t0.2) := by
  unfold t0; exact reach_add (reach1 false) (by decide)
theorem reachu : Reach c0 false 0 (.on u0.1.2 u0.2) := by
  unfold u0; exact reach_add reacht (by decide)

end NvmDemo

open NvmDemo

/-! ## Findings -/

/-- Finding: one transient read error while `Init` reads the partition state makes `Init`
report success after erasing the partition: an object stored before is gone for good. -/
theorem F_init_read_fault :
    ∃ (ctx ctx' : Ctx) (m m' : Mem), c0.WF ∧ Reach c0 false 0 (.on ctx m) ∧
      (getMetadata ctx 5).1 = .ok ∧
      Exec c0.dev ⟨false, true⟩ (init c0) m (some (.ok, ctx')) m' ∧
      (run c0.dev (init c0) m').1.1 = .ok ∧
      (getMetadata (run c0.dev (init c0) m').1.2 5).1 = .notfound := by
  have h : ((runScript c0.dev ⟨false, true⟩ (init c0) (flt 0 true) s2.2).map fun r =>
      (r.1.1, (run c0.dev (init c0) r.2).1.1, has5 r.2)) =
      some (.ok, .ok, .notfound) := by decide +kernel
  obtain ⟨⟨⟨rc, ctx'⟩, m'⟩, h1, h2⟩ := Option.map_eq_some_iff.1 h
  simp only [Prod.mk.injEq] at h2
  obtain ⟨rfl, h3, h4⟩ := h2
  exact ⟨_, ctx', _, m', wf0, reach2 false, by decide +kernel, runScript_exec _ h1, h3, h4⟩

/-- Finding: one transient read error while `Init` reads an object's metadata hides the
object (with status used and id 0), and the next compaction loses it for good. -/
theorem F_metadata_read_fault :
    ∃ (ctx ctx' : Ctx) (m m' : Mem), c0.WF ∧ Reach c0 false 0 (.on ctx m) ∧
      (getMetadata ctx 5).1 = .ok ∧
      Exec c0.dev ⟨false, true⟩ (init c0) m (some (.ok, ctx')) m' ∧
      (getMetadata (run c0.dev (init c0) m').1.2 5).1 = .ok ∧
      (run c0.dev (destroyObjects c0 ctx' []) m').1.1 = .ok ∧
      (getMetadata (run c0.dev (init c0)
        (run c0.dev (destroyObjects c0 ctx' []) m').2).1.2 5).1 = .notfound := by
  have h : ((runScript c0.dev ⟨false, true⟩ (init c0) (flt 11 true) s2.2).map fun r =>
      (r.1.1, has5 r.2, (run c0.dev (destroyObjects c0 r.1.2 []) r.2).1.1,
        has5 (run c0.dev (destroyObjects c0 r.1.2 []) r.2).2)) =
      some (.ok, .ok, .ok, .notfound) := by decide +kernel
  obtain ⟨⟨⟨rc, ctx'⟩, m'⟩, h1, h2⟩ := Option.map_eq_some_iff.1 h
  simp only [Prod.mk.injEq] at h2
  obtain ⟨rfl, h5, h3, h4⟩ := h2
  exact ⟨_, ctx', _, _, wf0, reach2 false, by decide +kernel, runScript_exec _ h1, h5, h3, h4⟩

/-- Finding: if the last write of `DestroyObjects` takes effect but is reported as failed,
the running device continues on the old partition: a later add that reports success is lost
by the next restart.  (Hence `Reach` lets the caller re-initialise after a failed destroy.) -/
theorem F_failed_destroy_then_add_lost :
    ∃ (ctx ctx' ctx'' : Ctx) (m m' m'' : Mem) (rc : Rc), c0.WF ∧ Reach c0 true 0 (.on ctx m) ∧
      Exec c0.dev ⟨true, false⟩ (destroyObjects c0 ctx []) m (some (rc, ctx')) m' ∧ rc ≠ .ok ∧
      run c0.dev (addObject c0 ctx' md7 data7) m' = ((.ok, ctx''), m'') ∧
      (getMetadata ctx'' 7).1 = .ok ∧
      (getMetadata (run c0.dev (init c0) m'').1.2 7).1 = .notfound := by
  have h : ((runScript c0.dev ⟨true, false⟩ (destroyObjects c0 s2.1.2 []) (flt 29 true)
      s2.2).map fun r =>
      (r.1.1, (run c0.dev (addObject c0 r.1.2 md7 data7) r.2).1.1,
        (getMetadata (run c0.dev (addObject c0 r.1.2 md7 data7) r.2).1.2 7).1,
        has7 (run c0.dev (addObject c0 r.1.2 md7 data7) r.2).2)) =
      some (.aborted, .ok, .ok, .notfound) := by decide +kernel
  obtain ⟨⟨⟨rc, ctx'⟩, m'⟩, h1, h2⟩ := Option.map_eq_some_iff.1 h
  simp only [Prod.mk.injEq] at h2
  obtain ⟨rfl, h3, h4, h5⟩ := h2
  exact ⟨_, ctx', _, _, m', _, _, wf0, reach2 true, runScript_exec _ h1, by decide,
    Prod.ext (Prod.ext h3 rfl) rfl, h4, h5⟩

/-- Finding: after an add that failed midway, the same add is refused (the next directory
entry is not blank) until the device is restarted, even though there is room. -/
theorem F_add_retry_refused :
    ∃ (ctx ctx' : Ctx) (m m' : Mem) (rc : Rc), c0.WF ∧ Reach c0 true 0 (.on ctx m) ∧
      Exec c0.dev ⟨true, true⟩ (addObject c0 ctx md7 data7) m (some (rc, ctx')) m' ∧ rc ≠ .ok ∧
      (getAvailable c0 ctx').2.2.1 = 2 ∧
      (run c0.dev (addObject c0 ctx' md7 data7) m').1.1 = .notblank ∧
      (run c0.dev (addObject c0 (run c0.dev (init c0) m').1.2 md7 data7)
        (run c0.dev (init c0) m').2).1.1 = .ok := by
  have h : ((runScript c0.dev ⟨true, true⟩ (addObject c0 s2.1.2 md7 data7) (flt 4 true)
      s2.2).map fun r =>
      (r.1.1, (getAvailable c0 r.1.2).2.2.1, (run c0.dev (addObject c0 r.1.2 md7 data7) r.2).1.1,
        (run c0.dev (addObject c0 (run c0.dev (init c0) r.2).1.2 md7 data7)
        (run c0.dev (init c0) r.2).2).1.1)) =
      some (.aborted, 2, .notblank, .ok) := by decide +kernel
  obtain ⟨⟨⟨rc, ctx'⟩, m'⟩, h1, h2⟩ := Option.map_eq_some_iff.1 h
  simp only [Prod.mk.injEq] at h2
  obtain ⟨rfl, h3, h4, h5⟩ := h2
  exact ⟨_, ctx', _, m', _, wf0, reach2 true, runScript_exec _ h1, by decide,
    h3, h4, h5⟩

/-- Finding (C05 without its id-0 exclusion is false): an object with id 0 can be added, and
then a client feeding back the returned ids never gets past it, however long it runs, while
object 5 is never visited. -/
theorem C05_id_zero :
    ∃ (ctx : Ctx) (m : Mem), c0.WF ∧ Reach c0 false 0 (.on ctx m) ∧
      (getMetadata ctx 5).1 = .ok ∧ ∀ fuel, listing ctx fuel 0 = List.replicate fuel (1, 0) := by
  refine ⟨u0.1.2, u0.2, wf0, reachu, by decide +kernel, ?_⟩
  have hl : list u0.1.2 0 = (.ok, 1, 0) := by decide +kernel
  intro fuel
  induction fuel with
  | zero => rfl
  | succ k ih =>
    simp only [listing, hl, List.replicate_succ]
    rw [if_neg (by simp), ih]

end WolfHsm.Props

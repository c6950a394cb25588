import Verif.Props.FlashLog

/-!
# C08: concrete cases meeting the hypotheses, and findings
-/

namespace WolfHsm.Props.FlashLog

open WolfHsm.FlashLog
open Flash (Mem Faults run)
open NvmFlash (Meta Store)
open FlashG (Ev runS runS_exec)

namespace Demo

/-- A small device: two partitions of 192 bytes (room for one short object), 2 objects. -/
def c0 : Cfg := { P := 192, N := 2, erased := 0xFF }
/-- A device with room for two short objects. -/
def c1 : Cfg := { P := 320, N := 2, erased := 0xFF }
theorem wf0 : c0.WF := ⟨by decide, by decide, by decide, by decide⟩
theorem wf1 : c1.WF := ⟨by decide, by decide, by decide, by decide⟩
def m0 : Mem := fun _ => 0xFF
theorem erased0 (c : Cfg) (h : c.erased = 0xFF) : Erased c m0 := fun _ _ => h.symm
def md5 : Meta := ⟨5, 1, 2, 0, Vector.replicate 24 0x41⟩
def md7 : Meta := ⟨7, 0, 0, 0, Vector.replicate 24 0x42⟩
def md9 : Meta := ⟨9, 0, 0, 0, Vector.replicate 24 0x44⟩
def md0 : Meta := ⟨0, 0, 0, 0, Vector.replicate 24 0x43⟩
def data5 : List UInt8 := [1, 2, 3, 4, 5, 6, 7, 8, 9, 10]
def data7 : List UInt8 := [0xAA]

theorem reach_boot {c : Cfg} {n : Nat} {m : Mem} (h : Reach c n (.off m)) :
    Reach c n (.on (run c.dev (init c) m).1.2 (run c.dev (init c) m).2) :=
  .boot h (FlashG.run_exec 64 c.dev Faults.none (init c) m)

theorem reach_add {c : Cfg} {n : Nat} {s : Ctx} {m : Mem} {md : Meta} {data : List UInt8}
    (h : Reach c n (.on s m)) (hi : md.id ≠ 0) (hl : data.length < 2 ^ 16) :
    Reach c (n + 1) (.on (run c.dev (addObject c s md data) m).1.2 (run c.dev (addObject c s md data) m).2) :=
  .add h hi hl (FlashG.run_exec 64 c.dev Faults.none _ m)

/-- Boot of an erased device. -/
@[irreducible] def s1 := run c0.dev (init c0) m0
/-- Then object 5 is added. -/
@[irreducible] def s2 := run c0.dev (addObject c0 s1.1.2 md5 data5) s1.2

theorem reach1 : Reach c0 0 (.on s1.1.2 s1.2) := by
  unfold s1; exact reach_boot (.blank (erased0 c0 rfl))
theorem reach2 : Reach c0 1 (.on s2.1.2 s2.2) := by
  unfold s2; exact reach_add reach1 (by decide) (by decide)

/-- On the larger device: boot, add object 5, add object 7. -/
@[irreducible] def t1 := run c1.dev (init c1) m0
@[irreducible] def t2 := run c1.dev (addObject c1 t1.1.2 md5 data5) t1.2
@[irreducible] def t3 := run c1.dev (addObject c1 t2.1.2 md7 data7) t2.2

theorem reacht1 : Reach c1 0 (.on t1.1.2 t1.2) := by
  unfold t1; exact reach_boot (.blank (erased0 c1 rfl))
theorem reacht2 : Reach c1 1 (.on t2.1.2 t2.2) := by
  unfold t2; exact reach_add reacht1 (by decide) (by decide)
theorem reacht3 : Reach c1 2 (.on t3.1.2 t3.2) := by
  unfold t3; exact reach_add reacht2 (by decide) (by decide)

/-- Both objects are there, with their bytes, and are listed; a third is refused; an overwrite and
a destroy are accepted. -/
example : (t3.1.1, (getMetadata t3.1.2 5).2.map (·.len), readObject t3.1.2 5 8 2, listing t3.1.2 5 0) =
    (.ok, some 10, (.ok, [9, 10]), [(2, 5), (1, 7)]) := by decide +kernel
example : (getAvailable c1 t2.1.2, (run c1.dev (addObject c1 t3.1.2 md9 data7) t3.2).1.1,
      (run c1.dev (addObject c1 t3.1.2 md5 data7) t3.2).1.1,
      (run c1.dev (destroyObjects c1 t3.1.2 [5]) t3.2).1.1) =
    ((.ok, 128, 1), .nospace, .ok, .ok) := by decide +kernel

/-- The hypotheses of the theorems are met. -/
example : ∃ f, Shows t3.1.2 f ∧ Boots c1 t3.2 f := C08_running wf1 (by decide) reacht3

/-- What a restart says about an object: the code of `Init` and the length of the object. -/
def has (id : UInt16) (m : Mem) : Rc × Option UInt16 :=
  ((run c0.dev (init c0) m).1.1, (getMetadata (run c0.dev (init c0) m).1.2 id).2.map (·.len))

/-- Power loss at the `k`-th driver call. -/
def cutAt (k : Nat) (sel : Nat → Bool) : List Ev := List.replicate k .ok ++ [.cut sel]

/-! Both outcomes of a cut occur: during the header write nothing or everything happened. -/
example : ((runS 64 c0.dev Faults.none (addObject c0 s2.1.2 md5 data7) (cutAt 7 fun _ => false) s2.2).map
    fun r => (r.1.isNone, has 5 r.2)) = some (true, .ok, some 10) := by decide +kernel
example : ((runS 64 c0.dev Faults.none (addObject c0 s2.1.2 md5 data7) (cutAt 7 fun _ => true) s2.2).map
    fun r => (r.1.isNone, has 5 r.2)) = some (true, .ok, some 1) := by decide +kernel

end Demo

open Demo

/-! ## Findings -/

/-- Finding: `DestroyObjects` with the reserved id 0 after a valid id reports `WH_ERROR_BADARGS`
although the running device has already removed the valid one, and a restart brings it back: a
refused call changes what the device shows. -/
theorem F_log_destroy_zero :
    ∃ (s s' : Ctx) (m : Mem), c0.WF ∧ Reach c0 1 (.on s m) ∧
      run c0.dev (destroyObjects c0 s [5, 0]) m = ((.badargs, s'), m) ∧
      (getMetadata s 5).1 = .ok ∧ (getMetadata s' 5).1 = .notfound ∧
      (getMetadata (run c0.dev (init c0) m).1.2 5).1 = .ok := by
  have h : (destroyLoop s2.1.2 [5, 0]).1 = .badargs := by decide +kernel
  have hu : s2.1.2.up = true := by decide +kernel
  refine ⟨s2.1.2, (destroyLoop s2.1.2 [5, 0]).2, s2.2, wf0, reach2, ?_, by decide +kernel, by decide +kernel,
    by decide +kernel⟩
  unfold destroyObjects
  rw [if_neg (by simp [hu]), if_neg (by simp)]
  dsimp only
  rw [if_pos (by rw [h]; decide)]
  show (destroyLoop s2.1.2 [5, 0], s2.2) = _
  rw [← h]

/-- Finding: the first add to an empty store whose erase fails reports the error but leaves the
object visible (the fallback re-reads the partition only if it is not empty).  Adding the object
again is then refused for lack of space although the store is empty, and destroying it moves
memory outside the RAM image. -/
theorem F_log_failed_add_visible :
    ∃ (s s' : Ctx) (m m' : Mem) (rc : Rc), c0.WF ∧ Reach c0 0 (.on s m) ∧
      (getMetadata s 5).1 = .notfound ∧
      FlashG.Exec 64 c0.dev ⟨true, false⟩ (addObject c0 s md5 data5) m (some (rc, s')) m' ∧ rc ≠ .ok ∧
      (getMetadata s' 5).1 = .ok ∧ (has 5 m').2 = none ∧
      (run c0.dev (addObject c0 s' md5 data5) m').1.1 = .nospace ∧
      (run c0.dev (destroyObjects c0 s' [5]) m').1.2.wild = true := by
  have h : ((runS 64 c0.dev ⟨true, false⟩ (addObject c0 s1.1.2 md5 data5) [.fault .aborted fun _ => false]
      s1.2).bind fun r => r.1.map fun q => (q.1, (getMetadata q.2 5).1, (has 5 r.2).2,
        (run c0.dev (addObject c0 q.2 md5 data5) r.2).1.1,
        (run c0.dev (destroyObjects c0 q.2 [5]) r.2).1.2.wild)) =
      some (.aborted, .ok, none, .nospace, true) := by decide +kernel
  obtain ⟨⟨o, m'⟩, h1, h2⟩ := Option.bind_eq_some_iff.1 h
  obtain ⟨⟨rc, s'⟩, h3, h4⟩ := Option.map_eq_some_iff.1 h2
  dsimp only at h3
  subst h3
  simp only [Prod.mk.injEq] at h4
  obtain ⟨rfl, h5, h6, h7, h8⟩ := h4
  exact ⟨_, s', _, m', _, wf0, reach1, by decide +kernel, runS_exec _ h1, by decide, h5, h6, h7, h8⟩

/-- Finding: an object with id 0 can be added; it cannot be read back, and it hides every object
added after it. -/
theorem F_log_id_zero :
    ∃ (s s' s'' : Ctx) (m m' m'' : Mem), c1.WF ∧ Reach c1 0 (.on s m) ∧
      run c1.dev (addObject c1 s md0 data7) m = ((.ok, s'), m') ∧
      run c1.dev (addObject c1 s' md7 data7) m' = ((.ok, s''), m'') ∧
      (getMetadata s'' 7).1 = .notfound := by
  have h : ((run c1.dev (addObject c1 t1.1.2 md0 data7) t1.2).1.1,
      (run c1.dev (addObject c1 (run c1.dev (addObject c1 t1.1.2 md0 data7) t1.2).1.2 md7 data7)
        (run c1.dev (addObject c1 t1.1.2 md0 data7) t1.2).2).1.1,
      (getMetadata (run c1.dev (addObject c1 (run c1.dev (addObject c1 t1.1.2 md0 data7) t1.2).1.2 md7 data7)
        (run c1.dev (addObject c1 t1.1.2 md0 data7) t1.2).2).1.2 7).1) = (.ok, .ok, .notfound) := by
    decide +kernel
  generalize hr : run c1.dev (addObject c1 t1.1.2 md0 data7) t1.2 = r at h
  obtain ⟨⟨rc, s'⟩, m'⟩ := r
  dsimp only at h
  generalize hr2 : run c1.dev (addObject c1 s' md7 data7) m' = r2 at h
  obtain ⟨⟨rc2, s''⟩, m''⟩ := r2
  simp only [Prod.mk.injEq] at h
  obtain ⟨rfl, rfl, h3⟩ := h
  exact ⟨_, s', s'', _, m', m'', wf1, reacht1, hr, hr2, h3⟩

/-- Finding: on a device that writes 8-byte units, a power loss in the middle of the header write
can leave a header whose first unit is still blank; `Init` then takes it for the newest partition
and refuses to start, though the old partition is intact. -/
theorem F_log_small_granule :
    ∃ (s : Ctx) (m m' : Mem), c0.WF ∧ Reach c0 1 (.on s m) ∧
      FlashG.Exec 8 c0.dev Faults.none (addObject c0 s md5 data7) m none m' ∧
      (run c0.dev (init c0) m').1.1 = .aborted := by
  have h : ((runS 8 c0.dev Faults.none (addObject c0 s2.1.2 md5 data7) (cutAt 7 fun u => u % 2 == 1) s2.2).map
    fun r => (r.1.isNone, (run c0.dev (init c0) r.2).1.1)) = some (true, .aborted) := by decide +kernel
  obtain ⟨⟨o, m'⟩, h1, h2⟩ := Option.map_eq_some_iff.1 h
  simp only [Prod.mk.injEq, Option.isNone_iff_eq_none] at h2
  obtain ⟨rfl, h3⟩ := h2
  exact ⟨_, _, m', wf0, reach2, runS_exec _ h1, h3⟩

/-- Finding: if the header write of an update is reported as failed although it took effect, and
power is lost while the fallback erases that partition, the next `Init` succeeds on the
half-erased partition: the object stored before is gone. -/
theorem F_log_failed_commit_then_cut :
    ∃ (s : Ctx) (m m' : Mem), c0.WF ∧ Reach c0 1 (.on s m) ∧ (getMetadata s 5).1 = .ok ∧
      FlashG.Exec 64 c0.dev ⟨true, false⟩ (addObject c0 s md5 data7) m none m' ∧
      (run c0.dev (init c0) m').1.1 = .ok ∧ (getMetadata (run c0.dev (init c0) m').1.2 5).1 = .notfound := by
  have h : ((runS 64 c0.dev ⟨true, false⟩ (addObject c0 s2.1.2 md5 data7)
      (List.replicate 8 .ok ++ [.fault .aborted fun _ => true, .ok, .ok, .cut fun u => u != 0]) s2.2).map
    fun r => (r.1.isNone, (run c0.dev (init c0) r.2).1.1,
      (getMetadata (run c0.dev (init c0) r.2).1.2 5).1)) = some (true, .ok, .notfound) := by decide +kernel
  obtain ⟨⟨o, m'⟩, h1, h2⟩ := Option.map_eq_some_iff.1 h
  simp only [Prod.mk.injEq, Option.isNone_iff_eq_none] at h2
  obtain ⟨rfl, h3, h4⟩ := h2
  exact ⟨_, _, m', wf0, reach2, by decide +kernel, runS_exec _ h1, h3, h4⟩

/-- The flash of `s2` (object 5 in partition 1), as it would be had it been written as update
2^32 - 1. -/
@[irreducible] def wrapMem : Mem := Flash.wr s2.2 192 [0xFF, 0xFF, 0xFF, 0xFF]

/-- Finding: the update after number 2^32 - 1 restarts the epoch at 0, so while it erases the old
partition, `Init` still prefers the old one: a power loss then leaves neither the old nor the new
contents. -/
theorem F_log_epoch_wrap :
    ∃ (s : Ctx) (m m' : Mem), c0.WF ∧ run c0.dev (init c0) wrapMem = ((.ok, s), m) ∧
      (getMetadata s 5).1 = .ok ∧
      FlashG.Exec 64 c0.dev Faults.none (addObject c0 s md5 data7) m none m' ∧
      (run c0.dev (init c0) m').1.1 = .ok ∧ (getMetadata (run c0.dev (init c0) m').1.2 5).1 = .notfound := by
  have h : ((run c0.dev (init c0) wrapMem).1.1, (getMetadata (run c0.dev (init c0) wrapMem).1.2 5).1,
      (runS 64 c0.dev Faults.none (addObject c0 (run c0.dev (init c0) wrapMem).1.2 md5 data7)
        (cutAt 9 fun u => u != 3) (run c0.dev (init c0) wrapMem).2).map
    fun r => (r.1.isNone, (run c0.dev (init c0) r.2).1.1,
      (getMetadata (run c0.dev (init c0) r.2).1.2 5).1)) = (.ok, .ok, some (true, .ok, .notfound)) := by
    decide +kernel
  generalize hr : run c0.dev (init c0) wrapMem = r at h
  obtain ⟨⟨rc, s⟩, m⟩ := r
  simp only [Prod.mk.injEq] at h
  obtain ⟨rfl, h0, h⟩ := h
  obtain ⟨⟨o, m'⟩, h1, h2⟩ := Option.map_eq_some_iff.1 h
  simp only [Prod.mk.injEq, Option.isNone_iff_eq_none] at h2
  obtain ⟨rfl, h3, h4⟩ := h2
  exact ⟨s, m, m', wf0, rfl, h0, runS_exec _ h1, h3, h4⟩

end WolfHsm.Props.FlashLog

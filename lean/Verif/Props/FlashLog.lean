import Verif.Proofs.FlashLogOps
import Verif.Proofs.FlashGScript

/-!
# C08: the log-structured flash NVM

Vocabulary in `Verif/Spec/FlashLog.lean` and `Verif/Spec/NvmStore.lean`.  The device writes and
erases its 64-byte granules atomically (`FlashG.Exec 64`; `F_log_small_granule` shows what happens
otherwise), and fewer than 2^32 updates are made (`F_log_epoch_wrap`).
-/

namespace WolfHsm.Props.FlashLog

open WolfHsm.FlashLog
open Flash (Mem Faults run)
open NvmFlash (Meta Store)

variable {c : Cfg}

/-- `Shows` pins the store down. -/
theorem C08_shows_unique {s : Ctx} {f g : Store} (hf : Shows s f) (hg : Shows s g) : f = g := hf.unique hg

/-- Erased flash boots into the empty store. -/
theorem C08_fresh (w : c.WF) {m : Mem} (h : Erased c m) : Boots c m Store.empty := by
  have hd : Disk c 0 m Store.empty := by
    refine Or.inr ⟨?_, ?_, rfl⟩ <;>
    · unfold HB
      rw [Flash.isBlank_iff]
      intro x _ hx
      have := w.pos
      exact h x (by show x < 2 * c.P; omega)
  exact hd.boots w

/-- Whatever the history and wherever power was lost, the next `Init` succeeds and shows a store. -/
theorem C08_always_boots (w : c.WF) {n : Nat} (hn : n < 2 ^ 32) {m : Mem} (h : Reach c n (.off m)) :
    ∃ f, Boots c m f := by
  obtain ⟨f, hf⟩ := reach_inv w h hn
  exact ⟨f, hf.boots w⟩

/-- After every history the running device shows a store, and a restart shows the same store. -/
theorem C08_running (w : c.WF) {n : Nat} (hn : n < 2 ^ 32) {s : Ctx} {m : Mem} (h : Reach c n (.on s m)) :
    ∃ f, Shows s f ∧ Boots c m f := by
  obtain ⟨_, os, ho⟩ := reach_inv w h hn
  exact ⟨storeOf os, ho.rep.shows ho.up, ho.disk.boots w⟩

/-- A restart changes nothing. -/
theorem C08_restart (w : c.WF) {n : Nat} (hn : n < 2 ^ 32) {s : Ctx} {m : Mem} (h : Reach c n (.on s m))
    {f : Store} (hf : Shows s f) : Boots c m f := by
  obtain ⟨g, h1, h2⟩ := C08_running w hn h
  rw [hf.unique h1]; exact h2

/-- `AddObject` binds exactly its id to exactly the given metadata and bytes, durably, or reports
`WH_ERROR_NOSPACE` and changes nothing. -/
theorem C08_add (w : c.WF) {n : Nat} (hn : n + 1 < 2 ^ 32) {s : Ctx} {m : Mem} (h : Reach c n (.on s m))
    {f : Store} (hf : Shows s f) (md : Meta) (data : List UInt8) (hid : md.id ≠ 0) (hlen : data.length < 2 ^ 16)
    {rc : Rc} {s' : Ctx} {m' : Mem} (hx : run c.dev (addObject c s md data) m = ((rc, s'), m')) :
    (rc = .ok ∧ Shows s' (f.set md data) ∧ Boots c m' (f.set md data)) ∨
    (rc = .nospace ∧ s' = s ∧ m' = m) := by
  obtain ⟨_, os, ho⟩ := reach_inv w h (by omega)
  have hfo := hf.unique (ho.rep.shows ho.up)
  subst hfo
  have hp := FlashG.wp_run (addObject_wp w hn ho hid hlen)
  rw [hx] at hp
  rcases hp with ⟨_, h1, _, os', h2, h3⟩ | ⟨_, h1, h2⟩
  · refine Or.inl ⟨h1, ?_, ?_⟩
    · rw [← h2]; exact h3.rep.shows h3.up
    · rw [← h2]; exact h3.disk.boots w
  · cases h1
    exact Or.inr ⟨rfl, rfl, h2⟩

/-- Exactly when `AddObject` succeeds: there must be room for the object's bytes in steps of 64
plus 64 bytes of metadata, counting the space of the version it replaces, and a new id needs a free
object.  (`GetAvailable` counts objects modulo 256.) -/
theorem C08_add_fits_iff (w : c.WF) (hN : c.N < 256) {n : Nat} (hn : n + 1 < 2 ^ 32) {s : Ctx} {m : Mem}
    (h : Reach c n (.on s m)) {f : Store} (hf : Shows s f) (md : Meta) (data : List UInt8) (hid : md.id ≠ 0)
    (hlen : data.length < 2 ^ 16) {bytes objects : Nat} (hav : getAvailable c s = (.ok, bytes, objects)) :
    (run c.dev (addObject c s md data) m).1.1 = .ok ↔
      64 + pad64 data.length ≤ bytes + space f md.id ∧ ((f md.id).isSome ∨ 0 < objects) := by
  obtain ⟨_, os, ho⟩ := reach_inv w h (by omega)
  have hfo := hf.unique (ho.rep.shows ho.up)
  subst hfo
  have hcnt := ho.rep.count
  unfold getAvailable at hav
  rw [if_neg (by simp [ho.up]), countFrom_zero ho.rep, ho.rep.size] at hav
  simp only [Prod.mk.injEq, true_and] at hav
  obtain ⟨h1, h2⟩ := hav
  have hob : objects = c.N - os.length := by omega
  have hroom : Room c os md.id data.length ↔
      (64 + pad64 data.length ≤ bytes + space (storeOf os) md.id ∧ ((storeOf os md.id).isSome ∨ 0 < objects)) := by
    unfold Room
    rw [← h1, hob, Option.isSome_iff_ne_none, Nat.sub_pos_iff_lt, Nat.add_comm 64]
  rw [← hroom]
  rcases FlashG.wp_run (addObject_wp w hn ho hid hlen) with ⟨h3, h4, _⟩ | ⟨h3, h4, _⟩
  · exact ⟨fun _ => h3, fun _ => h4⟩
  · refine ⟨fun h5 => ?_, fun h5 => absurd h5 h3⟩
    rw [h4] at h5
    cases h5

/-- Power lost at any point of `AddObject`: the next `Init` shows the old store or the old store
with exactly the new object. -/
theorem C08_add_atomic (w : c.WF) {n : Nat} (hn : n + 1 < 2 ^ 32) {s : Ctx} {m : Mem} (h : Reach c n (.on s m))
    {f : Store} (hf : Shows s f) (md : Meta) (data : List UInt8) (hid : md.id ≠ 0) (hlen : data.length < 2 ^ 16)
    {m' : Mem} (hcut : FlashG.Exec 64 c.dev Faults.none (addObject c s md data) m none m') :
    Boots c m' f ∨ Boots c m' (f.set md data) := by
  obtain ⟨_, os, ho⟩ := reach_inv w h (by omega)
  have hfo := hf.unique (ho.rep.shows ho.up)
  subst hfo
  rcases FlashG.wp_adequate hcut (addObject_wp w hn ho hid hlen) with h1 | h1
  · exact Or.inl (h1.boots w)
  · exact Or.inr (h1.boots w)

/-- `DestroyObjects` succeeds and unbinds exactly the listed ids, durably. -/
theorem C08_destroy (w : c.WF) {n : Nat} (hn : n + 1 < 2 ^ 32) {s : Ctx} {m : Mem} (h : Reach c n (.on s m))
    {f : Store} (hf : Shows s f) (ids : List UInt16) (hid : (0 : UInt16) ∉ ids)
    {rc : Rc} {s' : Ctx} {m' : Mem} (hx : run c.dev (destroyObjects c s ids) m = ((rc, s'), m')) :
    rc = .ok ∧ Shows s' (f.drop ids) ∧ Boots c m' (f.drop ids) := by
  obtain ⟨_, os, ho⟩ := reach_inv w h (by omega)
  have hfo := hf.unique (ho.rep.shows ho.up)
  subst hfo
  have hp := FlashG.wp_run (destroyObjects_wp w hn ho hid)
  rw [hx] at hp
  obtain ⟨h1, _, os', h2, h3⟩ := hp
  refine ⟨h1, ?_, ?_⟩
  · rw [← h2]; exact h3.rep.shows h3.up
  · rw [← h2]; exact h3.disk.boots w

/-- Power lost at any point of `DestroyObjects`: the next `Init` shows the old store or the old
store without exactly the listed ids. -/
theorem C08_destroy_atomic (w : c.WF) {n : Nat} (hn : n + 1 < 2 ^ 32) {s : Ctx} {m : Mem}
    (h : Reach c n (.on s m)) {f : Store} (hf : Shows s f) (ids : List UInt16) (hid : (0 : UInt16) ∉ ids)
    {m' : Mem} (hcut : FlashG.Exec 64 c.dev Faults.none (destroyObjects c s ids) m none m') :
    Boots c m' f ∨ Boots c m' (f.drop ids) := by
  obtain ⟨_, os, ho⟩ := reach_inv w h (by omega)
  have hfo := hf.unique (ho.rep.shows ho.up)
  subst hfo
  rcases FlashG.wp_adequate hcut (destroyObjects_wp w hn ho hid) with h1 | h1
  · exact Or.inl (h1.boots w)
  · exact Or.inr (h1.boots w)

/-- Power lost during `Init` itself does not change what the next `Init` shows. -/
theorem C08_boot_interrupted (w : c.WF) {n : Nat} (hn : n < 2 ^ 32) {m : Mem} (h : Reach c n (.off m))
    {f : Store} (hf : Boots c m f) {m' : Mem}
    (hcut : FlashG.Exec 64 c.dev Faults.none (init c) m none m') : Boots c m' f := by
  obtain ⟨g, hg⟩ := reach_inv w h hn
  rw [hf.unique (hg.boots w)]
  exact (show Disk c n m' g from FlashG.wp_adequate hcut (init_wp w hg)).boots w

/-- Listing from the start visits each object exactly once, counting down. -/
theorem C08_listing (w : c.WF) {n : Nat} (hn : n < 2 ^ 32) {s : Ctx} {m : Mem} (h : Reach c n (.on s m))
    {f : Store} (hf : Shows s f) :
    ∃ L : List UInt16, L.Nodup ∧ (∀ id, id ∈ L ↔ (f id).isSome) ∧
      ∀ fuel, L.length ≤ fuel → listing s fuel 0 = L.zipIdx.map fun p => (L.length - p.2, p.1) := by
  obtain ⟨_, os, ho⟩ := reach_inv w h hn
  have hfo := hf.unique (ho.rep.shows ho.up)
  subst hfo
  refine ⟨os.map (·.md.id), ho.rep.nodup, mem_ids ho.rep.nodup, ?_⟩
  intro fuel hfu
  rw [List.length_map] at hfu
  rw [listing_all ho.rep ho.up hfu, expected_eq os 0, List.length_map]
  rfl

/-- What `GetAvailable` reports adds up: the objects' space and the free bytes are the capacity,
and the objects and the free objects are the object count (below 256). -/
theorem C08_accounting (w : c.WF) (hN : c.N < 256) {n : Nat} (hn : n < 2 ^ 32) {s : Ctx} {m : Mem}
    (h : Reach c n (.on s m)) {f : Store} (hf : Shows s f) :
    ∃ (L : List UInt16) (bytes objects : Nat), getAvailable c s = (.ok, bytes, objects) ∧
      L.Nodup ∧ (∀ id, id ∈ L ↔ (f id).isSome) ∧ (L.map (space f)).sum + bytes = c.P - 64 ∧
      L.length + objects = c.N := by
  obtain ⟨_, os, ho⟩ := reach_inv w h hn
  have hfo := hf.unique (ho.rep.shows ho.up)
  subst hfo
  have hcnt := ho.rep.count
  have hfit := ho.rep.fits
  refine ⟨os.map (·.md.id), c.P - 64 - s.size, c.N - os.length, ?_, ho.rep.nodup, mem_ids ho.rep.nodup, ?_, ?_⟩
  · unfold getAvailable
    rw [if_neg (by simp [ho.up]), countFrom_zero ho.rep]
    simp only [Prod.mk.injEq, true_and]
    omega
  · rw [sum_space ho.rep.ok ho.rep.nodup, ← ho.rep.size]; omega
  · rw [List.length_map]; omega

/-- Removing an object never moves memory outside the RAM image. -/
theorem C08_in_bounds (w : c.WF) {n : Nat} (hn : n < 2 ^ 32) {s : Ctx} {m : Mem} (h : Reach c n (.on s m)) :
    s.wild = false := (reach_inv w h hn).1

/-! ## Whole call sequences -/

/-- One step of a user. -/
inductive Op
  | add (md : Meta) (data : List UInt8)
  | destroy (ids : List UInt16)
  | reinit

/-- The device executes a step. -/
def Op.exec (c : Cfg) : Op → Ctx × Mem → Rc × Ctx × Mem
  | .add md data, s => let r := run c.dev (addObject c s.1 md data) s.2; (r.1.1, r.1.2, r.2)
  | .destroy ids, s => let r := run c.dev (destroyObjects c s.1 ids) s.2; (r.1.1, r.1.2, r.2)
  | .reinit, s => let r := run c.dev (init c) s.2; (r.1.1, r.1.2, r.2)

/-- What the step does to a map; an add may be refused (`C08_add_fits_iff`). -/
def Op.spec : Op → Rc → Store → Store
  | .add md data, .ok, f => f.set md data
  | .add _ _, _, f => f
  | .destroy ids, _, f => f.drop ids
  | .reinit, _, f => f

def Op.Valid : Op → Prop
  | .add md data => md.id ≠ 0 ∧ data.length < 2 ^ 16
  | .destroy ids => (0 : UInt16) ∉ ids
  | .reinit => True

/-- Run a list of steps on the device and on the map, side by side. -/
def runBoth (c : Cfg) : List Op → Ctx × Mem → Store → Ctx × Mem × Store
  | [], s, f => (s.1, s.2, f)
  | op :: ops, s, f =>
    let r := op.exec c s
    runBoth c ops (r.2.1, r.2.2) (op.spec r.1 f)

/-- C08 for whole call sequences: after any sequence of adds, destroys and restarts, device and
map agree on every read and every metadata query. -/
theorem C08_sequence (w : c.WF) (ops : List Op) : ∀ {n : Nat} {s : Ctx} {m : Mem}
    {f : Store}, Reach c n (.on s m) → Shows s f → (∀ op ∈ ops, op.Valid) → n + ops.length < 2 ^ 32 →
    Shows (runBoth c ops (s, m) f).1 (runBoth c ops (s, m) f).2.2 := by
  induction ops with
  | nil => intro n s m f _ hf _ _; exact hf
  | cons op ops ih =>
    intro n s m f h hf hv hn
    simp only [List.length_cons] at hn
    have hvs : ∀ op ∈ ops, op.Valid := fun o ho => hv o (List.mem_cons_of_mem _ ho)
    have hvo := hv op List.mem_cons_self
    cases op with
    | add md data =>
      have hre := Reach.add h hvo.1 hvo.2 (FlashG.run_exec 64 c.dev Faults.none (addObject c s md data) m)
      simp only [runBoth, Op.exec]
      rcases C08_add w (by omega) h hf md data hvo.1 hvo.2 rfl with ⟨h1, h2, _⟩ | ⟨h1, h2, h3⟩
      · refine ih hre ?_ hvs (by omega)
        rw [h1]; exact h2
      · refine ih hre ?_ hvs (by omega)
        rw [h1, h2]; exact hf
    | destroy ids =>
      obtain ⟨h1, h2, _⟩ := C08_destroy w (by omega) h hf ids hvo rfl
      have hre := Reach.destroy h hvo (FlashG.run_exec 64 c.dev Faults.none (destroyObjects c s ids) m)
      simp only [runBoth, Op.exec]
      exact ih hre h2 hvs (by omega)
    | reinit =>
      obtain ⟨h1, h2⟩ := C08_restart w (by omega) h hf
      have hre := Reach.boot (Reach.powerOff h) (FlashG.run_exec 64 c.dev Faults.none (init c) m)
      simp only [runBoth, Op.exec]
      exact ih hre h2 hvs (by omega)

end WolfHsm.Props.FlashLog

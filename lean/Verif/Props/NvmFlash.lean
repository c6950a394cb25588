import Verif.Model.NvmReclaim
import Verif.Proofs.NvmList

/-!
# C01–C06: the flash NVM

See `Verif/Spec/NvmStore.lean` for the vocabulary: `Store` (what is stored), `Shows`
(what the API answers), `Boots` (what the API answers after `Init`), `Reach` (all
histories of a device, with power losses anywhere).  `c.WF` says the partitions are
big enough for the directory and the device is smaller than 4 GiB.
-/

namespace WolfHsm.Props

open NvmFlash Flash

variable {c : Cfg}

/-! ## The API determines what is stored -/

/-- `Shows` pins the store down: there is at most one store that a running device
shows. -/
theorem C03_shows_unique {ctx : Ctx} {m : Mem} {f g : Store} (hf : Shows c ctx m f)
    (hg : Shows c ctx m g) : f = g := hf.unique hg

/-! ## C03: the store is a map -/

/-- After any history (even one with flash faults), a running device shows some store,
and would boot; without faults it would boot into the store it shows. -/
theorem C03_always_a_store (hwf : c.WF) {faulty : Bool} {n : Nat} {ctx : Ctx} {m : Mem}
    (h : Reach c faulty n (.on ctx m)) :
    ∃ f fD, Shows c ctx m f ∧ Boots c m fD ∧ (faulty = false → fD = f) := by
  obtain ⟨f, fD, h1, h2, -, h3⟩ := OnInv.shows hwf (reach_inv hwf h)
  exact ⟨f, fD, h1, h2, h3⟩

/-- Erased flash boots into the empty store. -/
theorem C03_fresh (hwf : c.WF) {m : Mem} (h : Erased c m) : Boots c m Store.empty :=
  boots_blank hwf (noUsed_erased hwf h)

/-- Restarting at any time changes nothing. -/
theorem C03_reinit (hwf : c.WF) {n : Nat} {ctx : Ctx} {m : Mem}
    (h : Reach c false n (.on ctx m)) {f : Store} (hf : Shows c ctx m f) : Boots c m f := by
  obtain ⟨f', fD, h1, h2, -, h3⟩ := OnInv.shows hwf (reach_inv hwf h)
  rw [h3 rfl, h1.unique hf] at h2
  exact h2

/-- `AddObject` binds exactly its id to exactly the given metadata and bytes, or reports
`WH_ERROR_NOSPACE` and changes nothing. -/
theorem C03_add (hwf : c.WF) {n : Nat} {ctx : Ctx} {m : Mem}
    (h : Reach c false n (.on ctx m)) {f : Store} (hf : Shows c ctx m f)
    (md : Meta) (data : List UInt8) (hlen : data.length < 2 ^ 16) {rc : Rc} {ctx' : Ctx}
    {m' : Mem} (hrun : run c.dev (addObject c ctx md data) m = ((rc, ctx'), m')) :
    (rc = .ok ∧ Shows c ctx' m' (f.set md data)) ∨ (rc = .nospace ∧ ctx' = ctx ∧ m' = m) := by
  have hD := C03_reinit hwf h hf
  have := wp_run (add_wp hwf (reach_inv hwf h) hlen hf hD (md := md) (data := data)
    Shows.unique Boots.unique)
  rw [hrun] at this
  obtain ⟨-, h1, -, h3⟩ := this
  rcases h3 rfl with h4 | h4
  · exact .inl ⟨h4, (h1 h4).2.1⟩
  · exact .inr h4

/-- `DestroyObjects` succeeds and unbinds exactly the listed ids. -/
theorem C03_destroy (hwf : c.WF) {n : Nat} {ctx : Ctx} {m : Mem}
    (h : Reach c false n (.on ctx m)) (hn : n + 1 < 2 ^ 32) {f : Store} (hf : Shows c ctx m f)
    (ids : List UInt16) {rc : Rc} {ctx' : Ctx}
    {m' : Mem} (hrun : run c.dev (destroyObjects c ctx ids) m = ((rc, ctx'), m')) :
    rc = .ok ∧ Shows c ctx' m' (f.drop ids) := by
  have hD := C03_reinit hwf h hf
  have := wp_run (destroy_wp hwf (reach_inv hwf h) hn hf hD (ids := ids)
    Shows.unique Boots.unique)
  rw [hrun] at this
  obtain ⟨h1, h2⟩ := this
  by_cases hrc : rc = .ok
  · exact ⟨hrc, (h1 hrc).2.1⟩
  · cases (h2 hrc).1

/-- One step of a user: add, destroy, or restart and initialise again. -/
inductive Op
  | add (md : Meta) (data : List UInt8)
  | destroy (ids : List UInt16)
  | reinit

/-- The device executes a step. -/
def Op.exec (c : Cfg) : Op → Ctx × Mem → Rc × Ctx × Mem
  | .add md data, s =>
    let r := run c.dev (addObject c s.1 md data) s.2
    (r.1.1, r.1.2, r.2)
  | .destroy ids, s =>
    let r := run c.dev (destroyObjects c s.1 ids) s.2
    (r.1.1, r.1.2, r.2)
  | .reinit, s =>
    let r := run c.dev (init c) s.2
    (r.1.1, r.1.2, r.2)

/-- The plain map executes a step: an add binds its id if the device reported success
(`C06_add_fits_iff` says exactly when it does); everything else is unconditional. -/
def Op.spec : Op → Rc → Store → Store
  | .add md data, .ok, f => f.set md data
  | .add _ _, _, f => f
  | .destroy ids, _, f => f.drop ids
  | .reinit, _, f => f

/-- The arguments are C values (`whNvmSize` is 16 bits). -/
def Op.Valid : Op → Prop
  | .add _ data => data.length < 2 ^ 16
  | .destroy _ => True
  | .reinit => True

/-- Run a list of steps on the device and on the map, side by side. -/
def runBoth (c : Cfg) : List Op → Ctx × Mem → Store → Ctx × Mem × Store
  | [], s, f => (s.1, s.2, f)
  | op :: ops, s, f =>
    let r := op.exec c s
    runBoth c ops (r.2.1, r.2.2) (op.spec r.1 f)

/-- C03 for whole call sequences: after any sequence of adds, destroys and restarts,
device and map agree on every read and every metadata query. -/
theorem C03_sequence (hwf : c.WF) (ops : List Op) : ∀ {n : Nat} {ctx : Ctx} {m : Mem}
    {f : Store}, Reach c false n (.on ctx m) → Shows c ctx m f → (∀ op ∈ ops, op.Valid) →
    n + ops.length < 2 ^ 32 →
    Shows c (runBoth c ops (ctx, m) f).1 (runBoth c ops (ctx, m) f).2.1
      (runBoth c ops (ctx, m) f).2.2 := by
  induction ops with
  | nil => intro n ctx m f _ hf _ _; exact hf
  | cons op ops ih =>
    intro n ctx m f h hf hv hn
    simp only [List.length_cons] at hn
    have hvs : ∀ op ∈ ops, op.Valid := fun o ho => hv o (List.mem_cons_of_mem _ ho)
    cases op with
    | add md data =>
      have hl : data.length < 2 ^ 16 := hv (.add md data) (by simp)
      have hr := run_exec c.dev (addFaults false) (addObject c ctx md data) m
      have hre := Reach.add h hl hr
      simp only [runBoth, Op.exec]
      rcases C03_add hwf h hf md data hl rfl with ⟨h1, h2⟩ | ⟨h1, h2, h3⟩
      · refine ih hre ?_ hvs (by omega)
        rw [h1]; exact h2
      · refine ih hre ?_ hvs (by omega)
        rw [h1, h2, h3]; exact hf
    | destroy ids =>
      obtain ⟨h1, h2⟩ := C03_destroy hwf h (by omega) hf ids rfl
      have hr := run_exec c.dev (wrFaults false) (destroyObjects c ctx ids) m
      have hp : (run c.dev (destroyObjects c ctx ids) m).1 =
          (.ok, (run c.dev (destroyObjects c ctx ids) m).1.2) := Prod.ext h1 rfl
      rw [hp] at hr
      have hre := Reach.destroy h (by omega) hr
      simp only [runBoth, Op.exec]
      exact ih hre h2 hvs (by omega)
    | reinit =>
      obtain ⟨h1, h2⟩ := C03_reinit hwf h hf
      have hr := run_exec c.dev (wrFaults false) (init c) m
      have hp : (run c.dev (init c) m).1 = (.ok, (run c.dev (init c) m).1.2) :=
        Prod.ext h1 rfl
      rw [hp] at hr
      have hre := Reach.boot (Reach.powerOff h) hr
      simp only [runBoth, Op.exec]
      exact ih hre h2 hvs (by omega)

/-! ## C01: add is atomic under power loss -/

/-- Whatever the history and wherever power was lost, the next `Init` succeeds. -/
theorem C01_always_boots (hwf : c.WF) {faulty : Bool} {n : Nat} {m : Mem}
    (h : Reach c faulty n (.off m)) : ∃ f, Boots c m f :=
  OffInv.boots hwf (reach_inv hwf h)

/-- Power lost at any point of `AddObject`: the next `Init` shows the old store or the
old store with exactly the new object. -/
theorem C01_add_atomic (hwf : c.WF) {n : Nat} {ctx : Ctx} {m : Mem}
    (h : Reach c false n (.on ctx m)) {f : Store} (hf : Shows c ctx m f)
    (md : Meta) (data : List UInt8) (hlen : data.length < 2 ^ 16) {m' : Mem}
    (hcut : Exec c.dev Faults.none (addObject c ctx md data) m none m') :
    Boots c m' f ∨ Boots c m' (f.set md data) :=
  (wp_adequate hcut (add_wp hwf (reach_inv hwf h) hlen hf (C03_reinit hwf h hf)
    Shows.unique Boots.unique)).2.imp id And.right

/-- An add that returned success survives any later power loss outside another update. -/
theorem C01_add_durable (hwf : c.WF) {n : Nat} {ctx : Ctx} {m : Mem}
    (h : Reach c false n (.on ctx m)) {f : Store} (hf : Shows c ctx m f)
    (md : Meta) (data : List UInt8) (hlen : data.length < 2 ^ 16) {ctx' : Ctx} {m' : Mem}
    (hrun : run c.dev (addObject c ctx md data) m = ((.ok, ctx'), m')) :
    Boots c m' (f.set md data) := by
  have := wp_run (add_wp hwf (reach_inv hwf h) hlen hf (C03_reinit hwf h hf) (md := md)
    (data := data) Shows.unique Boots.unique)
  rw [hrun] at this
  exact (this.2.1 rfl).2.2

/-- Power lost during the recovery itself (any number of times, by iterating this) does
not change what the next `Init` shows. -/
theorem C01_boot_interrupted (hwf : c.WF) {faulty : Bool} {n : Nat} {m : Mem}
    (h : Reach c faulty n (.off m)) {f : Store} (hf : Boots c m f) {m' : Mem}
    (hcut : Exec c.dev Faults.none (init c) m none m') : Boots c m' f := by
  have hinv : OffInv c n m := reach_inv hwf h
  rcases hinv with hn | ⟨b, e, slots, -, hg⟩
  · have he := (boots_blank hwf hn).unique hf
    subst he
    refine wp_adequate hcut (Q := fun _ _ => True) (C := fun m' => Boots c m' Store.empty) ?_
    apply wp_init_blank hwf rfl hn
    · rintro m' (h | h)
      · exact boots_blank hwf h
      · exact boots_good hwf h
    · intros; trivial
    · intro h; cases h
  · refine wp_adequate hcut (Q := fun _ _ => True) (C := fun m' => Boots c m' f) ?_
    exact wp_init_good hwf rfl hg hf (fun _ _ _ => trivial)

/-! ## C02: destroy is atomic under power loss -/

/-- Power lost at any point of `DestroyObjects` (which copies every survivor to the other
partition): the next `Init` shows the old store or the old store without exactly the
listed ids. -/
theorem C02_destroy_atomic (hwf : c.WF) {n : Nat} {ctx : Ctx} {m : Mem}
    (h : Reach c false n (.on ctx m)) (hn : n + 1 < 2 ^ 32) {f : Store} (hf : Shows c ctx m f)
    (ids : List UInt16) {m' : Mem}
    (hcut : Exec c.dev Faults.none (destroyObjects c ctx ids) m none m') :
    Boots c m' f ∨ Boots c m' (f.drop ids) :=
  (wp_adequate hcut (destroy_wp hwf (reach_inv hwf h) hn hf (C03_reinit hwf h hf)
    Shows.unique Boots.unique)).2

/-- A destroy that returned success is durable. -/
theorem C02_destroy_durable (hwf : c.WF) {n : Nat} {ctx : Ctx} {m : Mem}
    (h : Reach c false n (.on ctx m)) (hn : n + 1 < 2 ^ 32) {f : Store} (hf : Shows c ctx m f)
    (ids : List UInt16) {ctx' : Ctx} {m' : Mem}
    (hrun : run c.dev (destroyObjects c ctx ids) m = ((.ok, ctx'), m')) :
    Boots c m' (f.drop ids) := by
  have h1 := (C03_destroy hwf h hn hf ids hrun).2
  have hr := run_exec c.dev (wrFaults false) (destroyObjects c ctx ids) m
  rw [hrun] at hr
  exact C03_reinit hwf (Reach.destroy h hn hr) h1

/-- Reclaiming space (`DestroyObjects` of nothing) never changes the store, wherever power
is lost. -/
theorem C02_reclaim_atomic (hwf : c.WF) {n : Nat} {ctx : Ctx} {m : Mem}
    (h : Reach c false n (.on ctx m)) (hn : n + 1 < 2 ^ 32) {f : Store} (hf : Shows c ctx m f)
    {m' : Mem} (hcut : Exec c.dev Faults.none (destroyObjects c ctx []) m none m') :
    Boots c m' f := by
  rcases C02_destroy_atomic hwf h hn hf [] hcut with h1 | h1
  · exact h1
  · rwa [drop_nil] at h1

/-! ## C04: flash faults -/

/-- `AddObject` with any driver call reporting an error (a failing program command may
have written any subset of its units): if it returns an error, the running device still
shows exactly the old store, and the next `Init` shows what it would have shown before the
call, or the old store with exactly the new object, but the latter only if the old store is
what it would have shown before. -/
theorem C04_add_error (hwf : c.WF) {n : Nat} {ctx : Ctx} {m : Mem}
    (h : Reach c true n (.on ctx m)) {f fD : Store} (hf : Shows c ctx m f) (hD : Boots c m fD)
    (md : Meta) (data : List UInt8) (hlen : data.length < 2 ^ 16) {rc : Rc} {ctx' : Ctx}
    {m' : Mem} (hx : Exec c.dev ⟨true, true⟩ (addObject c ctx md data) m (some (rc, ctx')) m')
    (hrc : rc ≠ .ok) :
    Shows c ctx' m' f ∧ (Boots c m' fD ∨ (fD = f ∧ Boots c m' (fD.set md data))) :=
  (wp_adequate hx (add_wp hwf (reach_inv hwf h) hlen hf hD Shows.unique Boots.unique)).2.2.1 hrc

/-- If it returns success in spite of earlier faults, everything is as without faults. -/
theorem C04_add_ok (hwf : c.WF) {n : Nat} {ctx : Ctx} {m : Mem}
    (h : Reach c true n (.on ctx m)) {f : Store} (hf : Shows c ctx m f)
    (md : Meta) (data : List UInt8) (hlen : data.length < 2 ^ 16) {ctx' : Ctx}
    {m' : Mem} (hx : Exec c.dev ⟨true, true⟩ (addObject c ctx md data) m (some (.ok, ctx')) m') :
    Shows c ctx' m' (f.set md data) ∧ Boots c m' (f.set md data) := by
  obtain ⟨f', fD, -, h2, -⟩ := C03_always_a_store hwf h
  exact ((wp_adequate hx (add_wp hwf (reach_inv hwf h) hlen hf h2 Shows.unique
    Boots.unique)).2.1 rfl).2

/-- What the next `Init` shows differs from what the running device shows at most by one
object whose add reported an error. -/
theorem C04_boot_close (hwf : c.WF) {n : Nat} {ctx : Ctx} {m : Mem}
    (h : Reach c true n (.on ctx m)) {f fD : Store} (hf : Shows c ctx m f) (hD : Boots c m fD) :
    fD = f ∨ ∃ md data, fD = f.set md data := by
  obtain ⟨f', fD', h1, h2, h3, -⟩ := OnInv.shows hwf (reach_inv hwf h)
  rw [h1.unique hf, h2.unique hD] at h3
  exact h3

/-- `DestroyObjects` with any program, verify or erase command reporting an error: the
running device shows the old store or the store without the listed ids, and so does the
next `Init`. -/
theorem C04_destroy_error (hwf : c.WF) {n : Nat} {ctx : Ctx} {m : Mem}
    (h : Reach c true n (.on ctx m)) (hn : n + 1 < 2 ^ 32) {f fD : Store} (hf : Shows c ctx m f)
    (hD : Boots c m fD) (ids : List UInt16) {rc : Rc} {ctx' : Ctx} {m' : Mem}
    (hx : Exec c.dev ⟨true, false⟩ (destroyObjects c ctx ids) m (some (rc, ctx')) m')
    (hrc : rc ≠ .ok) :
    (Shows c ctx' m' f ∨ Shows c ctx' m' (f.drop ids)) ∧
    (Boots c m' fD ∨ Boots c m' (f.drop ids)) :=
  ((wp_adequate hx (destroy_wp hwf (reach_inv hwf h) hn hf hD Shows.unique
    Boots.unique)).2 hrc).2.2

/-- `DestroyObjects` with every kind of driver call (also reads and blank checks) possibly
reporting an error, and power possibly lost: whatever it returns, the next `Init` shows
what it would have shown before the call, or the store without the listed ids. -/
theorem C04_destroy_boot (hwf : c.WF) {n : Nat} {ctx : Ctx} {m : Mem}
    (h : Reach c true n (.on ctx m)) (hn : n + 1 < 2 ^ 32) {f fD : Store} (hf : Shows c ctx m f)
    (hD : Boots c m fD) (ids : List UInt16) {o : Option (Rc × Ctx)} {m' : Mem}
    (hx : Exec c.dev ⟨true, true⟩ (destroyObjects c ctx ids) m o m') :
    Boots c m' fD ∨ Boots c m' (f.drop ids) := by
  obtain ⟨b, e, slots, tail, he, hg, hctx, -, -⟩ := reach_inv hwf h
  have hfv : f = view slots := hf.unique (shows_of hwf hg.rep hctx)
  have hDv : fD = view (slots ++ tail) := hD.unique (boots_good hwf hg)
  subst hfv hDv
  have hb : ∀ m', Good c m' b e (slots ++ tail) ∨ Good c m' (!b) (e + 1) (keep ids slots) →
      Boots c m' (view (slots ++ tail)) ∨ Boots c m' (Store.drop (view slots) ids) := by
    rintro m' (h | h)
    · exact .inl (boots_good hwf h)
    · right; rw [← view_drop]; exact boots_good hwf h
  have := wp_adequate hx (wp_destroy_any hwf hg hctx (by omega) (C := fun m' => _)
    (Q := fun _ m' => _) hb (fun _ => hb))
  cases o <;> exact this

/-- A successful destroy shows the store without the listed ids. -/
theorem C04_destroy_ok (hwf : c.WF) {n : Nat} {ctx : Ctx} {m : Mem}
    (h : Reach c true n (.on ctx m)) (hn : n + 1 < 2 ^ 32) {f : Store} (hf : Shows c ctx m f)
    (ids : List UInt16) {ctx' : Ctx} {m' : Mem}
    (hx : Exec c.dev ⟨true, false⟩ (destroyObjects c ctx ids) m (some (.ok, ctx')) m') :
    Shows c ctx' m' (f.drop ids) := by
  obtain ⟨f', fD, -, h2, -⟩ := C03_always_a_store hwf h
  exact ((wp_adequate hx (destroy_wp hwf (reach_inv hwf h) hn hf h2 Shows.unique
    Boots.unique)).1 rfl).2.1

/-! ## C05: listing -/

/-- Listing from the start visits each live object exactly once, counting down, and
terminates after as many steps as there are objects.  (Objects with the reserved id 0 are
excluded, see `C05_id_zero`.) -/
theorem C05_listing (hwf : c.WF) {faulty : Bool} {n : Nat} {ctx : Ctx} {m : Mem}
    (h : Reach c faulty n (.on ctx m)) {f : Store} (hf : Shows c ctx m f) (h0 : f 0 = none) :
    ∃ L : List UInt16, L.Nodup ∧ (∀ id, id ∈ L ↔ (f id).isSome) ∧
      ∀ fuel, L.length ≤ fuel →
        listing ctx fuel 0 = L.zipIdx.map fun p => (L.length - p.2, p.1) := by
  obtain ⟨b, e, slots, tail, he, hg, hctx, -, -⟩ := reach_inv hwf h
  have hfv : f = view slots := hf.unique (shows_of hwf hg.rep hctx)
  subst hfv
  refine ⟨usedIds (objsOf c 0 slots), usedIds_nodup _ _, fun id => mem_usedIds id _ _, ?_⟩
  intro fuel hfu
  have hz : ∀ x ∈ usedIds (objsOf c 0 slots), x ≠ 0 := by
    rintro x hx rfl
    rw [mem_usedIds, h0] at hx
    cases hx
  have hl := list_zero hctx.dir hctx.bad (fun h => hz 0 h rfl)
  cases hu : usedIds (objsOf c 0 slots) with
  | nil =>
    cases fuel with
    | zero => rfl
    | succ k => rw [hu] at hl; simp [listing, hl]
  | cons t B =>
    rw [hu] at hl hfu hz
    have hnd := usedIds_nodup (c := c) slots 0
    rw [hu] at hnd
    cases fuel with
    | zero => simp at hfu
    | succ k =>
      simp only [listing, hl]
      rw [if_neg (by simp)]
      rw [listing_from hctx.dir hctx.bad B [] t k (by simpa using hu) (by simpa using hnd)
        (by simpa using hz) (by simpa using hfu)]
      simp only [List.zipIdx_cons, List.map_cons, List.length_cons, Nat.zero_add]
      rw [List.zipIdx_succ]
      simp [Nat.add_comm]

/-! ## C06: space accounting -/

/-- What `GetAvailable` reports adds up exactly: the live objects (each rounded up to
whole 8-byte units), the available and the reclaimable bytes together are the capacity,
and likewise for the number of objects. -/
theorem C06_accounting (hwf : c.WF) {n : Nat} {ctx : Ctx} {m : Mem}
    (h : Reach c false n (.on ctx m)) {f : Store} (hf : Shows c ctx m f) :
    ∃ (L : List UInt16) (aB aO rB rO : Nat), getAvailable c ctx = (.ok, aB, aO, rB, rO) ∧
      L.Nodup ∧ (∀ id, id ∈ L ↔ (f id).isSome) ∧
      (L.map (padded f)).sum + aB + rB = (c.pu - c.dataOff) * 8 ∧
      L.length + aO + rO = c.N := by
  obtain ⟨b, e, slots, tail, he, hg, hctx, ht, -⟩ := reach_inv hwf h
  have := ht rfl
  subst this
  rw [List.append_nil] at hg
  have hfv : f = view slots := hf.unique
    (shows_of (slots' := []) hwf (by simpa using hg.rep) hctx)
  subst hfv
  have hs := sum_live slots _ _ hg.rep.ents
  have h1 := hg.rep.fits
  have h2 := hg.rep.len
  refine ⟨usedIds (objsOf c 0 slots), _, _, _, _, getAvailable_spec hctx.dir hctx.bad,
    usedIds_nodup _ _, fun id => mem_usedIds id _ _, ?_, ?_⟩
  · omega
  · omega

/-- An add that fits into the reported space and objects succeeds; one that does not is
refused and has no effect at all. -/
theorem C06_add_fits_iff (hwf : c.WF) {n : Nat} {ctx : Ctx} {m : Mem}
    (h : Reach c false n (.on ctx m)) {aB aO rB rO : Nat}
    (hav : getAvailable c ctx = (.ok, aB, aO, rB, rO)) (md : Meta) (data : List UInt8)
    (hlen : data.length < 2 ^ 16) :
    (data.length ≤ aB ∧ 0 < aO → (run c.dev (addObject c ctx md data) m).1.1 = .ok) ∧
    (¬ (data.length ≤ aB ∧ 0 < aO) →
      run c.dev (addObject c ctx md data) m = ((.nospace, ctx), m)) := by
  obtain ⟨b, e, slots, tail, he, hg, hctx, ht, -⟩ := reach_inv hwf h
  have := ht rfl
  subst this
  rw [List.append_nil] at hg
  rw [getAvailable_spec hctx.dir hctx.bad] at hav
  simp only [Prod.mk.injEq, true_and] at hav
  obtain ⟨h1, h2, h3, h4⟩ := hav
  have h5 := hg.rep.fits
  have h6 := hg.rep.len
  have hw : wp c.dev Faults.none (addObject c ctx md data) (fun r m' =>
      (r.1 = .ok) ∨ (¬ (data.length ≤ aB ∧ 0 < aO) ∧ (r, m') = ((.nospace, ctx), m)))
      (fun _ => True) m := by
    apply wp_add hwf hg hctx hlen
    · intros; trivial
    · intros; exact .inl rfl
    · intro h; right; refine ⟨?_, rfl⟩; omega
    · intro h; cases h <;> rename_i h <;> cases h
  have hr := wp_run hw
  constructor
  · intro hfit
    rcases hr with h | h
    · exact h
    · exact absurd hfit h.1
  · intro hfit
    have : addObject c ctx md data = pure (.nospace, ctx) := by
      unfold addObject
      rw [hctx.bad, hctx.dir]
      have hc : (mkDir c slots).nextFreeObject = c.N ∨
          (mkDir c slots).nextFreeData * 8 + data.length > (mkDir c slots).maxData * 8 := by
        simp only [mkDir]; omega
      simp only [Bool.false_eq_true, if_false, hc, if_true]
    rw [this]; rfl

/-- A reclaim makes exactly the reported reclaimable bytes and objects available. -/
theorem C06_reclaim (hwf : c.WF) {n : Nat} {ctx : Ctx} {m : Mem}
    (h : Reach c false n (.on ctx m)) (hn : n + 1 < 2 ^ 32) {aB aO rB rO : Nat}
    (hav : getAvailable c ctx = (.ok, aB, aO, rB, rO)) {rc : Rc} {ctx' : Ctx} {m' : Mem}
    (hrun : run c.dev (destroyObjects c ctx []) m = ((rc, ctx'), m')) :
    rc = .ok ∧ getAvailable c ctx' = (.ok, aB + rB, aO + rO, 0, 0) := by
  obtain ⟨b, e, slots, tail, he, hg, hctx, ht, -⟩ := reach_inv hwf h
  have := ht rfl
  subst this
  rw [getAvailable_spec hctx.dir hctx.bad] at hav
  simp only [Prod.mk.injEq, true_and] at hav
  obtain ⟨h1, h2, h3, h4⟩ := hav
  have h5 := hg.rep.fits
  have h6 := hg.rep.len
  rw [List.append_nil] at h5 h6
  have hk := keep_nil slots
  have hrk := rec_keep [] slots
  have hw : wp c.dev Faults.none (destroyObjects c ctx []) (fun r _ =>
      r.1 = .ok ∧ getAvailable c r.2 = (.ok, aB + rB, aO + rO, 0, 0)) (fun _ => True) m := by
    apply wp_destroy hwf rfl hg hctx (by omega)
    · intros; trivial
    · intro h; exact absurd rfl h
    · intro ctx' m' hg' hctx'
      refine ⟨rfl, ?_⟩
      rw [getAvailable_spec hctx'.dir hctx'.bad, hrk.1, hrk.2]
      simp only [Prod.mk.injEq, true_and, Nat.zero_mul, and_true]
      constructor <;> omega
    · intro h; cases h
  have := wp_run hw
  rw [hrun] at this
  exact this

/-- `AddObjectWithReclaim` succeeds and binds the object exactly if it fits into the
available plus the reclaimable space; otherwise it reports `WH_ERROR_NOSPACE` and has no
effect. -/
theorem C06_add_with_reclaim (hwf : c.WF) {n : Nat} {ctx : Ctx} {m : Mem}
    (h : Reach c false n (.on ctx m)) (hn : n + 1 < 2 ^ 32) {f : Store} (hf : Shows c ctx m f)
    {aB aO rB rO : Nat}
    (hav : getAvailable c ctx = (.ok, aB, aO, rB, rO)) (md : Meta) (data : List UInt8)
    (hlen : data.length < 2 ^ 16) {rc : Rc} {ctx' : Ctx} {m' : Mem}
    (hrun : run c.dev (addObjectWithReclaim c ctx md data) m = ((rc, ctx'), m')) :
    (data.length ≤ aB + rB ∧ 0 < aO + rO → rc = .ok ∧ Shows c ctx' m' (f.set md data)) ∧
    (¬ (data.length ≤ aB + rB ∧ 0 < aO + rO) → rc = .nospace ∧ ctx' = ctx ∧ m' = m) := by
  unfold addObjectWithReclaim at hrun
  rw [hav] at hrun
  dsimp only at hrun
  rw [if_neg (by simp)] at hrun
  have hadd := C06_add_fits_iff hwf h hav md data hlen
  by_cases hfit : aB < data.length ∨ aO = 0
  · rw [if_pos hfit] at hrun
    by_cases hrec : aB + rB ≥ data.length ∧ aO + rO > 0
    · rw [if_pos hrec] at hrun
      refine ⟨fun _ => ?_, fun h => absurd hrec h⟩
      -- the reclaim
      obtain ⟨hd1, hd2⟩ := C03_destroy hwf h hn hf [] rfl
      rw [drop_nil] at hd2
      obtain ⟨-, hav'⟩ := C06_reclaim hwf h hn hav rfl
      have hr := run_exec c.dev (wrFaults false) (destroyObjects c ctx []) m
      have hp : (run c.dev (destroyObjects c ctx []) m).1 =
          (.ok, (run c.dev (destroyObjects c ctx []) m).1.2) := Prod.ext hd1 rfl
      rw [hp] at hr
      have hre := Reach.destroy h hn hr
      have hrb : ∀ {α β : Type} (p : FP α) (k : α → FP β) (m : Mem),
          run c.dev (p >>= k) m = run c.dev (k (run c.dev p m).1) (run c.dev p m).2 := by
        intro α β p k
        induction p with
        | ret a => intro m; rfl
        | read a n k ih => intro m; exact ih _ _ _
        | blank a n k ih => intro m; exact ih _ _
        | prog a bs k ih =>
          intro m
          show run c.dev (FP.bind (.prog a bs _) _) m = _
          simp only [FP.bind, run]
          split
          · exact ih _ _
          · exact ih _ _
        | verify a bs k ih => intro m; exact ih _ _
        | erase a n k ih =>
          intro m
          show run c.dev (FP.bind (.erase a n _) _) m = _
          simp only [FP.bind, run]
          split
          · exact ih _ _
          · exact ih _ _
      rw [hrb, hp] at hrun
      dsimp only at hrun
      rw [if_pos rfl] at hrun
      have hadd' := (C06_add_fits_iff hwf hre hav' md data hlen).1 ⟨by omega, by omega⟩
      rcases C03_add hwf hre hd2 md data hlen hrun with h1 | h1
      · exact h1
      · rw [hrun] at hadd'
        have := h1.1
        rw [show rc = .ok from hadd'] at this
        cases this
    · rw [if_neg hrec] at hrun
      refine ⟨fun h => absurd h hrec, fun _ => ?_⟩
      cases hrun
      exact ⟨rfl, rfl, rfl⟩
  · rw [if_neg hfit] at hrun
    have h1 := hadd.1 ⟨by omega, by omega⟩
    refine ⟨fun _ => ?_, fun h => absurd ⟨by omega, by omega⟩ h⟩
    rcases C03_add hwf h hf md data hlen hrun with h2 | h2
    · exact h2
    · rw [hrun] at h1
      have := h2.1
      rw [show rc = .ok from h1] at this
      cases this

end WolfHsm.Props

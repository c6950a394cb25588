import Verif.Model.NvmServices
import Verif.Proofs.NvmRefine
import Verif.Proofs.Counter

/-! # The handlers and their programs agree -/

namespace WolfHsm

open NvmFlash Flash

theorem NP.onMap_bind {α β : Type} (p : NP α) (f : α → NP β) : ∀ n,
    (p.bind f).onMap n = (f (p.onMap n).1).onMap (p.onMap n).2 := by
  induction p with
  | ret a => intro n; rfl
  | add md d k ih => intro n; exact ih _ _
  | addReclaim md d k ih => intro n; exact ih _ _
  | destroy ids k ih => intro n; exact ih _ _
  | read id off len k ih => intro n; exact ih _ _ _
  | info id k ih => intro n; exact ih _ _ _

theorem Counter.prog_eq (n : Nvm) (client : UInt16) (lock : Rc) (r : Counter.Req) :
    Counter.handle n client lock r = (Counter.prog client lock r).onMap n := by
  cases r with
  | init cid v =>
    by_cases hl : lock = .ok
    · subst hl
      simp only [handle, prog, initCounter, NP.onMap]
      rcases n.addWithReclaim (put (blankMeta (keyOf client cid)) v) [] with ⟨rc, n'⟩
      cases rc <;> rfl
    · cases lock <;> first | exact absurd rfl hl | rfl
  | increment cid =>
    by_cases hl : lock = .ok
    · subst hl
      simp only [handle, prog, increment, NP.onMap]
      rcases n.metadata (keyOf client cid) with ⟨rc, _ | md⟩
      · cases rc <;> rfl
      · cases rc <;> try rfl
        simp only [bump]
        split
        · rfl
        · simp only [NP.onMap]
          rcases n.addWithReclaim (put md (Counter.get md + 1)) [] with ⟨rc, n'⟩
          cases rc <;> rfl
    · cases lock <;> first | exact absurd rfl hl | rfl
  | read cid =>
    by_cases hl : lock = .ok
    · subst hl
      simp only [handle, prog, readCounter, NP.onMap]
      rcases n.metadata (keyOf client cid) with ⟨rc, _ | md⟩ <;> cases rc <;> rfl
    · cases lock <;> first | exact absurd rfl hl | rfl
  | destroy cid =>
    by_cases hl : lock = .ok
    · subst hl; rfl
    · cases lock <;> first | exact absurd rfl hl | rfl
  | malformed => rfl
  | unknown => rfl

namespace NvmServer

theorem policyP_eq {α : Type} (op : Nvm.Op) (id : UInt16) (k : Rc → NP α) (n : Nvm) :
    (policyP op id k).onMap n = (k (n.checkPolicy op id)).onMap n := by
  simp only [policyP, NP.onMap, Nvm.checkPolicy]
  rcases n.metadata id with ⟨rc, _ | md⟩ <;> cases rc <;> rfl

theorem addP_eq (first second : Meta) (data : List UInt8) (n : Nvm) :
    (addP first second data).onMap n = n.addChecked first second data := by
  simp only [addP, policyP_eq, Nvm.addChecked]
  split <;> rfl

theorem destroyP_eq (all ids : List UInt16) (n : Nvm) :
    (destroyP all ids).onMap n =
      if n.checkAll ids = .ok then n.destroy all else (n.checkAll ids, n) := by
  induction ids with
  | nil => simp only [destroyP, Nvm.checkAll, if_true]; rfl
  | cons id ids ih =>
    simp only [destroyP, policyP_eq, Nvm.checkAll]
    split
    · exact ih
    · rename_i h
      rw [if_neg]
      · rfl
      · intro e; rw [e] at h; exact h rfl

theorem readP_eq (id : UInt16) (off len : Nat) (n : Nvm) :
    (readP id off len).onMap n = n.readChecked id off len := by
  simp only [readP, policyP_eq, Nvm.readChecked]
  cases n.checkPolicy .read id <;> rfl

theorem destroyChecked_eq (n : Nvm) (ids : List UInt16) : n.destroyChecked ids =
    if n.checkAll ids = .ok then n.destroy ids else (n.checkAll ids, n) := by
  unfold Nvm.destroyChecked
  cases n.checkAll ids <;> rfl

theorem readAtP_eq (id off len : UInt16) (n : Nvm) (pre : Rc) :
    (readAtP id off len pre).onMap n = handleReadDma n id off len pre := by
  simp only [readAtP, NP.onMap, handleReadDma]
  rcases n.metadata id with ⟨rc, _ | md⟩
  · cases rc <;> rfl
  · cases rc <;> try rfl
    dsimp only
    split
    · rfl
    · cases pre <;> first | exact readP_eq _ _ _ _ | rfl

theorem handleRead_eq (cfg : Cfg) (n : Nvm) (id off len : UInt16) :
    handleRead cfg n id off len =
      if len.toNat > cfg.maxRead then ((.aborted, []), n) else handleReadDma n id off len .ok := by
  unfold handleRead handleReadDma
  rfl

theorem prog_eq (cfg : Cfg) (n : Nvm) (lock : Rc) (r : Req) (hr : r.Plain = true) :
    handle cfg n lock r = (prog cfg lock r).onMap n := by
  cases r with
  | init c => rfl
  | cleanup => rfl
  | list _ _ _ => cases hr
  | getAvailable => cases hr
  | getMetadata id => cases lock <;> rfl
  | add md payload =>
    simp only [handle, prog, handleAdd]
    split
    · split
      · rfl
      · by_cases hl : lock = .ok
        · subst hl
          simp only [NP.onMap_bind, addP_eq]
          rfl
        · cases lock <;> first | exact absurd rfl hl | rfl
    · rfl
  | destroy count ids =>
    simp only [handle, prog, handleDestroy]
    split
    · by_cases hl : lock = .ok
      · subst hl
        simp only [NP.onMap_bind, destroyP_eq, destroyChecked_eq]
        rfl
      · cases lock <;> first | exact absurd rfl hl | rfl
    · rfl
  | read id off len =>
    by_cases hl : lock = .ok
    · subst hl
      simp only [handle, prog, handleRead_eq]
      split
      · rfl
      · simp only [NP.onMap_bind, readAtP_eq]
        rfl
    · cases lock <;> first | exact absurd rfl hl | rfl
  | addDma pm pd z m1 m2 peek data =>
    simp only [handle, prog, handleAddDma]
    cases pm <;> try rfl
    cases pd <;> try rfl
    dsimp only
    split
    · rfl
    · split
      · rfl
      · by_cases hl : lock = .ok
        · subst hl
          simp only [NP.onMap_bind, addP_eq]
          rfl
        · cases lock <;> first | exact absurd rfl hl | rfl
  | readDma id off len pre =>
    by_cases hl : lock = .ok
    · subst hl
      simp only [handle, prog, NP.onMap_bind, readAtP_eq]
      rfl
    · cases lock <;> first | exact absurd rfl hl | rfl
  | malformed => rfl
  | unknown => rfl

end NvmServer

namespace NvmRefine

/-! ## Ids -/

theorem idsOk_add {n : Nvm} (h : Counter.IdsOk n.store) (md : Meta) (d : List UInt8) :
    Counter.IdsOk (n.add md d).2.store := by
  unfold Nvm.add
  (repeat' split) <;> first | exact h | exact h.set _ _

theorem idsOk_destroy {n : Nvm} (h : Counter.IdsOk n.store) (ids : List UInt16) :
    Counter.IdsOk (n.destroy ids).2.store := by
  unfold Nvm.destroy
  (repeat' split) <;> first | exact h | exact h.drop _

theorem idsOk_read {n : Nvm} (h : Counter.IdsOk n.store) (id : UInt16) (off len : Nat) :
    Counter.IdsOk (n.read id off len).2.store := by
  unfold Nvm.read
  (repeat' split) <;> exact h

theorem idsOk_reclaim {n : Nvm} (h : Counter.IdsOk n.store) (md : Meta) (d : List UInt8) :
    Counter.IdsOk (n.addWithReclaim md d).2.store := by
  have h1 := idsOk_destroy h []
  unfold Nvm.addWithReclaim
  split
  · rename_i heq; rw [heq] at h1; exact idsOk_add h1 md d
  · rename_i heq; rw [heq] at h1; exact h1

theorem idsOk_restart {n : Nvm} (h : Counter.IdsOk n.store) (b : Bool) :
    Counter.IdsOk (n.restart b).store := by
  unfold Nvm.restart
  split
  · exact h.set _ _
  · exact h

/-- Programs keep objects under their ids. -/
theorem idsOk_onMap {α : Type} (p : NP α) : ∀ {n : Nvm}, Counter.IdsOk n.store →
    Counter.IdsOk (p.onMap n).2.store := by
  induction p with
  | ret a => exact fun h => h
  | add md d k ih => exact fun h => ih _ (idsOk_add h md d)
  | addReclaim md d k ih => exact fun h => ih _ (idsOk_reclaim h md d)
  | destroy ids k ih => exact fun h => ih _ (idsOk_destroy h ids)
  | read id off len k ih => exact fun h => ih _ _ (idsOk_read h id off len)
  | info id k ih => exact fun h => ih _ _ h

theorem idsOk_mrun {Q A S : Type} (V : Service Q A S) (es : List (MEv Q)) :
    ∀ {s : S} {n : Nvm}, Counter.IdsOk n.store → Counter.IdsOk (mrun V (s, n) es).2.2.store := by
  induction es with
  | nil => exact fun h => h
  | cons e es ih =>
    intro s n h
    cases e with
    | req q =>
      simp only [mrun, mstep]
      split
      · exact ih (idsOk_onMap _ h)
      · exact ih h
    | restart b => exact ih (idsOk_restart h b)

/-! ## Executions without faults -/

theorem run_bind {α β : Type} (d : Dev) (p : FP α) (f : α → FP β) : ∀ m,
    run d (p >>= f) m = run d (f (run d p m).1) (run d p m).2 := by
  induction p with
  | ret a => intro m; rfl
  | read a n k ih => intro m; exact ih _ _ _
  | blank a n k ih => intro m; exact ih _ _
  | prog a bs k ih =>
    intro m
    show run d (.prog a bs fun r => (k r) >>= f) m = _
    simp only [run]
    split <;> exact ih _ _
  | verify a bs k ih => intro m; exact ih _ _
  | erase a n k ih =>
    intro m
    show run d (.erase a n fun r => (k r) >>= f) m = _
    simp only [run]
    split <;> exact ih _ _

/-- A fault-free execution on the flash; `none` if a destroy fails. -/
def runFlash (c : Cfg) {α : Type} : NP α → Nat → Ctx → Mem → Option (α × Nat × Ctx × Mem)
  | .ret a, k, ctx, m => some (a, k, ctx, m)
  | .add md d f, k, ctx, m =>
    let r := run c.dev (addObject c ctx md d) m
    if d.length < 2 ^ 16 then runFlash c (f r.1.1) k r.1.2 r.2 else none
  | .addReclaim md d f, k, ctx, m =>
    match NvmFlash.getAvailable c ctx with
    | (rc, a, b, x, y) =>
      if rc ≠ .ok then runFlash c (f rc) k ctx m
      else if a < d.length ∨ b = 0 then
        if a + x ≥ d.length ∧ b + y > 0 then
          let r := run c.dev (destroyObjects c ctx []) m
          let r' := run c.dev (addObject c r.1.2 md d) r.2
          if r.1.1 = .ok ∧ k + 1 < 2 ^ 32 ∧ d.length < 2 ^ 16 then
            runFlash c (f r'.1.1) (k + 1) r'.1.2 r'.2
          else none
        else runFlash c (f .nospace) k ctx m
      else
        let r := run c.dev (addObject c ctx md d) m
        if d.length < 2 ^ 16 then runFlash c (f r.1.1) k r.1.2 r.2 else none
  | .destroy ids f, k, ctx, m =>
    let r := run c.dev (destroyObjects c ctx ids) m
    if r.1.1 = .ok ∧ k + 1 < 2 ^ 32 then runFlash c (f .ok) (k + 1) r.1.2 r.2 else none
  | .read id off len f, k, ctx, m =>
    let r := run c.dev (readObject c ctx id off len) m
    runFlash c (f r.1.1 (if r.1.1 = .ok then r.1.2 else [])) k ctx r.2
  | .info id f, k, ctx, m =>
    runFlash c (f (getMetadata ctx id).1 (getMetadata ctx id).2) k ctx m

theorem runFlash_sound {c : Cfg} {α : Type} (p : NP α) : ∀ {k : Nat} {ctx : Ctx} {m : Mem} {a : α}
    {k' : Nat} {ctx' : Ctx} {m' : Mem}, runFlash c p k ctx m = some (a, k', ctx', m') →
    p.OnFlash c k ctx m (some a) k' (.on ctx' m') := by
  induction p with
  | ret a => intro k ctx m a' k' ctx' m' h; cases h; exact .ret
  | add md d f ih =>
    intro k ctx m a k' ctx' m' h
    simp only [runFlash] at h
    split at h
    · rename_i hl
      exact .add hl (run_exec c.dev (addFaults true) _ _) (ih _ h)
    · cases h
  | addReclaim md d f ih =>
    intro k ctx m a k' ctx' m' h
    apply NP.OnFlash.addReclaim
    unfold NP.reclaiming
    rcases heq : NvmFlash.getAvailable c ctx with ⟨rc, av, ob, x, y⟩
    simp only [runFlash, heq] at h
    dsimp only
    split at h
    · rw [if_pos ‹_›]; exact ih _ h
    · rw [if_neg ‹_›]
      split at h
      · rw [if_pos ‹_›]
        split at h
        · rw [if_pos ‹_›]
          split at h
          · rename_i hc
            have hx := run_exec c.dev (wrFaults true) (destroyObjects c ctx []) m
            rcases hr : run c.dev (destroyObjects c ctx []) m with ⟨⟨rc1, ctx1⟩, m1⟩
            rw [hr] at hx hc h
            obtain ⟨h1, h2, h3⟩ := hc
            dsimp only at h1
            subst h1
            refine .destroy h2 hx ?_
            rw [if_pos rfl]
            exact .add h3 (run_exec c.dev (addFaults true) _ _) (ih _ h)
          · cases h
        · rw [if_neg ‹_›]; exact ih _ h
      · rw [if_neg ‹_›]
        split at h
        · rename_i hl
          exact .add hl (run_exec c.dev (addFaults true) _ _) (ih _ h)
        · cases h
  | destroy ids f ih =>
    intro k ctx m a k' ctx' m' h
    simp only [runFlash] at h
    split at h
    · rename_i hc
      have hx := run_exec c.dev (wrFaults true) (destroyObjects c ctx ids) m
      rcases hr : run c.dev (destroyObjects c ctx ids) m with ⟨⟨rc1, ctx1⟩, m1⟩
      rw [hr] at hx hc h
      obtain ⟨h1, h2⟩ := hc
      dsimp only at h1
      subst h1
      exact .destroy h2 hx (ih _ h)
    · cases h
  | read id off len f ih =>
    intro k ctx m a k' ctx' m' h
    simp only [runFlash] at h
    exact .read (run_exec c.dev ⟨true, true⟩ _ _) (ih _ _ h)
  | info id f ih =>
    intro k ctx m a k' ctx' m' h
    exact .info (ih _ _ h)

/-- A history without faults, with the observations. -/
def runHist {Q A S : Type} (V : Service Q A S) (c : Cfg) :
    Device S → List (Ev Q) → Option (List (Option A) × Device S)
  | d, [] => some ([], d)
  | d, .restart :: evs =>
    let r := run c.dev (init c) (memOf d.dev)
    if r.1.1 = .ok then
      (runHist V c ⟨V.fresh, d.count, .on r.1.2 r.2⟩ evs).map fun x => (none :: x.1, x.2)
    else none
  | ⟨_, _, .off _⟩, .req _ :: _ => none
  | ⟨ram, k, .on ctx m⟩, .req q :: evs =>
    (runFlash c (V.serve q ram) k ctx m).bind fun r =>
      (runHist V c ⟨r.1.2, r.2.1, .on r.2.2.1 r.2.2.2⟩ evs).map fun x => (some r.1.1 :: x.1, x.2)

theorem runHist_sound {Q A S : Type} (V : Service Q A S) {c : Cfg} (evs : List (Ev Q)) :
    ∀ {d : Device S} {as : List (Option A)} {d' : Device S},
      runHist V c d evs = some (as, d') → FRun V c d evs as d' := by
  induction evs with
  | nil => intro d as d' h; cases h; exact .nil
  | cons e evs ih =>
    intro d as d' h
    cases e with
    | restart =>
      simp only [runHist] at h
      split at h
      · rename_i hr
        have hx := run_exec c.dev (wrFaults true) (init c) (memOf d.dev)
        rcases he : run c.dev (init c) (memOf d.dev) with ⟨⟨rc1, ctx1⟩, m1⟩
        rw [he] at hx hr h
        dsimp only at hr
        subst hr
        rcases hh : runHist V c ⟨V.fresh, d.count, .on ctx1 m1⟩ evs with _ | ⟨as', d1⟩
        · dsimp only at h; rw [hh] at h; cases h
        · dsimp only at h; rw [hh] at h; cases h
          exact .restart hx (ih hh)
      · cases h
    | req q =>
      obtain ⟨ram, k, dev⟩ := d
      cases dev with
      | off m => cases h
      | on ctx m =>
        simp only [runHist] at h
        rcases hf : runFlash c (V.serve q ram) k ctx m with _ | ⟨⟨a, ram'⟩, k', ctx', m'⟩
        · rw [hf] at h; cases h
        · rw [hf] at h
          simp only [Option.bind_some] at h
          rcases hh : runHist V c ⟨ram', k', .on ctx' m'⟩ evs with _ | ⟨as', d1⟩
          · rw [hh] at h; cases h
          · rw [hh] at h; cases h
            exact .req (runFlash_sound _ hf) (ih hh)

end NvmRefine

end WolfHsm

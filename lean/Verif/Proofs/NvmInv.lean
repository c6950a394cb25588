import Verif.Spec.NvmStore
import Verif.Proofs.NvmDestroy

/-! # The invariant of every flash NVM history -/

namespace WolfHsm.NvmFlash

open Flash FlashUnit

variable {c : Cfg}

theorem shows_of {ctx : Ctx} {m : Mem} {b : Bool} {e : Nat} {slots slots' : List Slot}
    (hwf : c.WF) (hr : Rep c m b (slots ++ slots')) (hctx : CtxOK c ctx b e slots) :
    Shows c ctx m (view slots) := by
  have hs := ((slotsAt_append slots slots' 0 0).1 hr.ents).1
  refine ⟨?_, ?_, ?_⟩
  · intro id
    rw [getMetadata_spec hctx.dir hctx.bad hs id]
    unfold Store.info
    cases view slots id with
    | none => rfl
    | some x => rfl
  · intro id off n
    have h : wp c.dev Faults.none (readObject c ctx id off n)
        (fun r m' => (r, m') = (Store.slice (view slots) id off n, m)) (fun _ => True) m := by
      apply wp_readObject hwf hr hctx trivial
      · intro h; simp [Store.slice, h]
      · intro md data h hl
        constructor
        · intro h1 h2; simp [Store.slice, h, h1, h2]
        · intro h1; simp [Store.slice, h, h1]
      · intro h; cases h
    exact wp_run h
  · intro id md bs h
    rcases find_objsOf id hs with ⟨hv, -⟩ | ⟨e', md', data, i', st', hv, hid, hf, hslot, -, hb⟩
    · rw [hv] at h; cases h
    · rw [hv] at h; cases h
      exact hslot.2.1

theorem run_of_wp {α : Type} {p : FP α} {m : Mem} {F : Faults} {Q : α → Mem → Prop}
    (h : wp c.dev F p Q (fun _ => True) m) : Q (run c.dev p m).1 (run c.dev p m).2 := wp_run h

theorem boots_good {m : Mem} {b : Bool} {e : Nat} {slots : List Slot}
    (hwf : c.WF) (hg : Good c m b e slots) : Boots c m (view slots) := by
  have h : wp c.dev Faults.none (init c)
      (fun r m' => r.1 = .ok ∧ Shows c r.2 m' (view slots)) (fun _ => True) m := by
    apply wp_init_good hwf rfl hg trivial
    intro ctx hctx _
    exact ⟨rfl, shows_of (slots' := []) hwf (by simpa using hg.rep) hctx⟩
  exact run_of_wp h

theorem boots_blank {m : Mem} (hwf : c.WF) (hn : NoUsed c m) : Boots c m Store.empty := by
  have h : wp c.dev Faults.none (init c)
      (fun r m' => r.1 = .ok ∧ Shows c r.2 m' (view [])) (fun _ => True) m := by
    apply wp_init_blank hwf rfl hn (fun _ _ => trivial)
    · intro ctx m' hg hctx _
      exact ⟨rfl, shows_of (slots' := []) hwf (by simpa using hg.rep) hctx⟩
    · intro h; cases h
  exact run_of_wp h

theorem noUsed_erased (hwf : c.WF) {m : Mem} (h : Erased c m) : NoUsed c m := by
  intro b hu
  rw [stateAt_used_iff] at hu
  have hp := wf_pos hwf
  have hb := pOff_bound (c := c) b
  have : ublank c m (pOff c b) = true := by
    unfold ublank
    rw [isBlank_iff]
    intro x h1 h2
    exact h x (by simp only [Cfg.dev]; omega)
  rw [this] at hu
  cases hu.1

/-- A store that differs from another by at most one added object. -/
def OneMore (f g : Store) : Prop := g = f ∨ ∃ md data, g = f.set md data

theorem view_add (slots : List Slot) (ep : Nat) (md : Meta) (data : List UInt8) :
    view (slots ++ [.used ep (stored md data) data]) = Store.set (view slots) md data := by
  funext id
  rw [view_append]
  simp only [view, Slot.get, Option.none_or, Store.set, withLen, stored]
  by_cases h : md.id = id
  · simp [h]
  · have : ¬ id = md.id := fun h' => h h'.symm
    simp [h, this]

theorem view_tail {md : Meta} {data : List UInt8} {tail : List Slot} (h : AddTail md data tail)
    (slots : List Slot) : (view (slots ++ tail) = view slots) ∨
      (view (slots ++ tail) = Store.set (view slots) md data) := by
  rcases h with rfl | rfl | ⟨ep, rfl | rfl⟩
  · left; simp
  · left; funext id; rw [view_append]; simp [view, Slot.get]
  · left; funext id; rw [view_append]; simp [view, Slot.get]
  · right; exact view_add _ _ _ _

theorem view_drop (slots : List Slot) (ids : List UInt16) :
    view (keep ids slots) = Store.drop (view slots) ids := by
  funext id
  rw [view_keep]
  simp [Store.drop]

/-- What holds of a powered-off device. -/
def OffInv (c : Cfg) (n : Nat) (m : Mem) : Prop :=
  NoUsed c m ∨ ∃ b e slots, e ≤ n ∧ Good c m b e slots

/-- What holds of a running device. -/
def OnInv (c : Cfg) (faulty : Bool) (n : Nat) (ctx : Ctx) (m : Mem) : Prop :=
  ∃ b e slots tail, e ≤ n ∧ Good c m b e (slots ++ tail) ∧ CtxOK c ctx b e slots ∧
    (faulty = false → tail = []) ∧ (tail = [] ∨ ∃ md data, AddTail md data tail)

def PInv (c : Cfg) (faulty : Bool) (n : Nat) : PState → Prop
  | .off m => OffInv c n m
  | .on ctx m => OnInv c faulty n ctx m

theorem init_wp (hwf : c.WF) {faulty : Bool} {n : Nat} {m : Mem} (h : OffInv c n m) :
    wp c.dev (wrFaults faulty) (init c)
      (fun r m' => (r.1 = .ok → OnInv c faulty n r.2 m') ∧ (r.1 ≠ .ok → OffInv c n m'))
      (OffInv c n) m := by
  rcases h with h | ⟨b, e, slots, he, hg⟩
  · apply wp_init_blank hwf rfl h
    · rintro m' (h | h)
      · exact .inl h
      · exact .inr ⟨_, _, _, Nat.zero_le _, h⟩
    · intro ctx m' hg hctx _
      exact ⟨fun _ => ⟨_, _, [], [], Nat.zero_le _, hg, hctx, fun _ => rfl, .inl rfl⟩,
        fun h => absurd rfl h⟩
    · rintro - rc ctx m' hrc (h | h)
      · exact ⟨fun h' => absurd h' hrc, fun _ => .inl h⟩
      · exact ⟨fun h' => absurd h' hrc, fun _ => .inr ⟨_, _, _, Nat.zero_le _, h⟩⟩
  · apply wp_init_good hwf rfl hg
    · exact .inr ⟨b, e, slots, he, hg⟩
    · intro ctx hctx _
      exact ⟨fun _ => ⟨b, e, slots, [], he, by simpa using hg, hctx, fun _ => rfl, .inl rfl⟩,
        fun h => absurd rfl h⟩

/-- Everything known about `AddObject` on a running device. -/
theorem add_wp (hwf : c.WF) {faulty : Bool} {n : Nat} {ctx : Ctx} {m : Mem} {md : Meta}
    {data : List UInt8} (h : OnInv c faulty n ctx m) (hlen : data.length < 2 ^ 16) {f fD : Store}
    (hf : Shows c ctx m f) (hD : Boots c m fD)
    (hu : ∀ {ctx m f g}, Shows c ctx m f → Shows c ctx m g → f = g)
    (hub : ∀ {m f g}, Boots c m f → Boots c m g → f = g) :
    wp c.dev (addFaults faulty) (addObject c ctx md data)
      (fun r m' => OnInv c faulty n r.2 m' ∧
        (r.1 = .ok → fD = f ∧ Shows c r.2 m' (f.set md data) ∧ Boots c m' (f.set md data)) ∧
        (r.1 ≠ .ok → Shows c r.2 m' f ∧ (Boots c m' fD ∨ (fD = f ∧ Boots c m' (fD.set md data)))) ∧
        (faulty = false → r.1 = .ok ∨ (r.1 = .nospace ∧ r.2 = ctx ∧ m' = m)))
      (fun m' => OffInv c n m' ∧ (Boots c m' fD ∨ (fD = f ∧ Boots c m' (fD.set md data)))) m := by
  obtain ⟨b, e, slots, tail, he, hg, hctx, hnf, htail⟩ := h
  have hfv : f = view slots := hu hf (shows_of hwf hg.rep hctx)
  have hDv : fD = view (slots ++ tail) := hub hD (boots_good hwf hg)
  subst hfv hDv
  cases tail with
  | nil =>
    rw [List.append_nil] at hg hD ⊢
    have hbt : ∀ m' tl, Good c m' b e (slots ++ tl) → AddTail md data tl →
        (Boots c m' (view slots) ∨
          (view slots = view slots ∧ Boots c m' (Store.set (view slots) md data))) := by
      intro m' tl hg' ht
      have := boots_good hwf hg'
      rcases view_tail ht slots with h | h
      · left; rwa [h] at this
      · right; rw [h] at this; exact ⟨rfl, this⟩
    apply wp_add hwf hg hctx hlen
    · intro m' tl hg' ht
      exact ⟨.inr ⟨b, e, _, he, hg'⟩, hbt m' tl hg' ht⟩
    · intro ctx' m' ep hg' hctx'
      refine ⟨⟨b, e, _, [], he, by simpa using hg', hctx', fun _ => rfl, .inl rfl⟩,
        fun _ => ⟨rfl, ?_, ?_⟩, fun h => absurd rfl h, fun _ => .inl rfl⟩
      · rw [← view_add slots ep]
        exact shows_of (slots' := []) hwf (by simpa using hg'.rep) hctx'
      · rw [← view_add slots ep]
        exact boots_good hwf hg'
    · intro _
      exact ⟨⟨b, e, slots, [], he, by simpa using hg, hctx, fun _ => rfl, .inl rfl⟩,
        fun h => by simp at h, fun _ => ⟨hf, .inl hD⟩, fun _ => .inr ⟨rfl, rfl, rfl⟩⟩
    · intro hfa rc m' tl hrc hg' ht
      have hfau : faulty = true := by simpa [addFaults] using hfa
      refine ⟨⟨b, e, slots, tl, he, hg', hctx, ?_, .inr ⟨md, data, ht⟩⟩, fun h => absurd h hrc,
        fun _ => ⟨shows_of hwf hg'.rep hctx, hbt m' tl hg' ht⟩, ?_⟩
      · intro h; rw [hfau] at h; cases h
      · intro h; rw [hfau] at h; cases h
  | cons t rest =>
    have hfau : faulty = true := by
      cases faulty
      · have := hnf rfl; cases this
      · rfl
    apply wp_add_refused hg.rep hctx
    · exact ⟨.inr ⟨b, e, _, he, hg⟩, .inl hD⟩
    · intro rc hrc
      exact ⟨⟨b, e, slots, _, he, hg, hctx, hnf, htail⟩, fun h => absurd h hrc,
        fun _ => ⟨hf, .inl hD⟩, fun h => by rw [hfau] at h; cases h⟩

/-- Everything known about `DestroyObjects` on a running device. -/
theorem destroy_wp (hwf : c.WF) {faulty : Bool} {n : Nat} {ctx : Ctx} {m : Mem}
    {ids : List UInt16} (h : OnInv c faulty n ctx m) (hn : n + 1 < 2 ^ 32) {f fD : Store}
    (hf : Shows c ctx m f) (hD : Boots c m fD)
    (hu : ∀ {ctx m f g}, Shows c ctx m f → Shows c ctx m g → f = g)
    (hub : ∀ {m f g}, Boots c m f → Boots c m g → f = g) :
    wp c.dev (wrFaults faulty) (destroyObjects c ctx ids)
      (fun r m' => (r.1 = .ok → OnInv c faulty (n + 1) r.2 m' ∧ Shows c r.2 m' (f.drop ids) ∧
          (Boots c m' (f.drop ids) ∨ (Boots c m' fD ∧ m' = m ∧ ∀ id ∈ ids, f id = none))) ∧
        (r.1 ≠ .ok → faulty = true ∧ OffInv c (n + 1) m' ∧
          (Shows c r.2 m' f ∨ Shows c r.2 m' (f.drop ids)) ∧
          (Boots c m' fD ∨ Boots c m' (f.drop ids))))
      (fun m' => OffInv c (n + 1) m' ∧ (Boots c m' fD ∨ Boots c m' (f.drop ids))) m := by
  obtain ⟨b, e, slots, tail, he, hg, hctx, hnf, htail⟩ := h
  have hfv : f = view slots := hu hf (shows_of hwf hg.rep hctx)
  have hDv : fD = view (slots ++ tail) := hub hD (boots_good hwf hg)
  subst hfv hDv
  have hnew : ∀ {m'}, Good c m' (!b) (e + 1) (keep ids slots) →
      Boots c m' (Store.drop (view slots) ids) := by
    intro m' h; rw [← view_drop]; exact boots_good hwf h
  have hold : ∀ {m'}, Good c m' b e (slots ++ tail) → Boots c m' (view (slots ++ tail)) :=
    fun h => boots_good hwf h
  have hshow : ∀ {m' ctx'}, Good c m' (!b) (e + 1) (keep ids slots) →
      CtxOK c ctx' (!b) (e + 1) (keep ids slots) →
      Shows c ctx' m' (Store.drop (view slots) ids) := by
    intro m' ctx' h h'
    rw [← view_drop]
    exact shows_of (slots' := []) hwf (by simpa using h.rep) h'
  have hoff : ∀ {m'}, Good c m' b e (slots ++ tail) ∨ Good c m' (!b) (e + 1) (keep ids slots) →
      OffInv c (n + 1) m' := by
    rintro m' (h | h)
    · exact .inr ⟨_, _, _, Nat.le_succ_of_le he, h⟩
    · exact .inr ⟨_, _, _, Nat.succ_le_succ he, h⟩
  have hbt : ∀ {m'}, Good c m' b e (slots ++ tail) ∨ Good c m' (!b) (e + 1) (keep ids slots) →
      (Boots c m' (view (slots ++ tail)) ∨ Boots c m' (Store.drop (view slots) ids)) := by
    rintro m' (h | h)
    · exact .inl (hold h)
    · exact .inr (hnew h)
  apply wp_destroy hwf rfl hg hctx (by omega)
  · intro m' h; exact ⟨hoff h, hbt h⟩
  · intro hne hnone
    refine ⟨fun _ => ⟨⟨b, e, slots, tail, Nat.le_succ_of_le he, hg, hctx, hnf, htail⟩, ?_,
      .inr ⟨hD, rfl, fun id hi => hnone id (by simpa using hi)⟩⟩, fun h => absurd rfl h⟩
    have : Store.drop (view slots) ids = view slots := by
      funext id
      unfold Store.drop
      split
      · rename_i hm; exact (hnone id (by simpa using hm)).symm
      · rfl
    rw [this]; exact hf
  · intro ctx' m' hg' hctx'
    exact ⟨fun _ => ⟨⟨!b, e + 1, _, [], Nat.succ_le_succ he, by simpa using hg', hctx',
      fun _ => rfl, .inl rfl⟩, hshow hg' hctx', .inl (hnew hg')⟩, fun h => absurd rfl h⟩
  · intro hfw rc m' hrc
    have hfau : faulty = true := by simpa [wrFaults] using hfw
    refine ⟨fun hr hm => ⟨fun h => absurd h hrc, fun _ => ⟨hfau, hoff hm,
      .inl (shows_of hwf hr hctx), hbt hm⟩⟩, fun ctx' hg' hctx' => ⟨fun h => absurd h hrc,
      fun _ => ⟨hfau, hoff (.inr hg'), .inr (hshow hg' hctx'), .inr (hnew hg')⟩⟩⟩

/-- A running NVM shows at most one store. -/
theorem Shows.unique {ctx : Ctx} {m : Mem} {f g : Store} (hf : Shows c ctx m f)
    (hg : Shows c ctx m g) : f = g := by
  funext id
  have h1 := (hf.info id).symm.trans (hg.info id)
  unfold Store.info at h1
  cases hfi : f id with
  | none =>
    cases hgi : g id with
    | none => rfl
    | some y => rw [hfi, hgi] at h1; cases h1
  | some x =>
    cases hgi : g id with
    | none => rw [hfi, hgi] at h1; cases h1
    | some y =>
      obtain ⟨md, bs⟩ := x
      obtain ⟨md', bs'⟩ := y
      rw [hfi, hgi] at h1
      simp only [Prod.mk.injEq, Option.some.injEq, true_and] at h1
      subst h1
      have l1 := hf.len id _ _ hfi
      have l2 := hg.len id _ _ hgi
      have h2 := (hf.slice id 0 bs.length).symm.trans (hg.slice id 0 bs.length)
      unfold Store.slice at h2
      rw [hfi, hgi] at h2
      have hl : bs'.length = bs.length := by omega
      by_cases h0 : bs.length = 0
      · have e1 : bs = [] := List.length_eq_zero_iff.1 h0
        have e2 : bs' = [] := List.length_eq_zero_iff.1 (by omega)
        rw [e1, e2]
      · have hp : 0 < bs.length := by omega
        simp only [hl, hp, Nat.zero_add, Nat.le_refl, and_self, if_true, List.drop_zero,
          Prod.mk.injEq, true_and, and_true, List.take_length] at h2
        rw [← hl, List.take_length] at h2
        rw [h2]

theorem Boots.unique {m : Mem} {f g : Store} (hf : Boots c m f) (hg : Boots c m g) : f = g :=
  hf.2.unique hg.2

theorem OnInv.shows (hwf : c.WF) {faulty : Bool} {n : Nat} {ctx : Ctx} {m : Mem}
    (h : OnInv c faulty n ctx m) : ∃ f fD, Shows c ctx m f ∧ Boots c m fD ∧
      (fD = f ∨ ∃ md data, fD = f.set md data) ∧ (faulty = false → fD = f) := by
  obtain ⟨b, e, slots, tail, he, hg, hctx, hnf, htail⟩ := h
  refine ⟨_, _, shows_of hwf hg.rep hctx, boots_good hwf hg, ?_, ?_⟩
  · rcases htail with rfl | ⟨md, data, ht⟩
    · left; simp
    · rcases view_tail ht slots with h | h
      · exact .inl h
      · exact .inr ⟨md, data, h⟩
  · intro h; rw [hnf h]; simp

theorem OffInv.boots (hwf : c.WF) {n : Nat} {m : Mem} (h : OffInv c n m) : ∃ f, Boots c m f := by
  rcases h with h | ⟨b, e, slots, -, hg⟩
  · exact ⟨_, boots_blank hwf h⟩
  · exact ⟨_, boots_good hwf hg⟩

/-- The invariant holds in every history. -/
theorem reach_inv (hwf : c.WF) {faulty : Bool} {n : Nat} {s : PState} (h : Reach c faulty n s) :
    PInv c faulty n s := by
  induction h with
  | blank h => exact .inl (noUsed_erased hwf h)
  | boot _ hx ih => exact (wp_adequate hx (init_wp hwf ih)).1 rfl
  | bootFailed _ hx hrc ih => exact (wp_adequate hx (init_wp hwf ih)).2 hrc
  | bootCut _ hx ih => exact wp_adequate hx (init_wp hwf ih)
  | add _ hl hx ih =>
    obtain ⟨f, fD, hf, hD, -, -⟩ := OnInv.shows hwf ih
    exact (wp_adequate hx (add_wp hwf ih hl hf hD Shows.unique Boots.unique)).1
  | addCut _ hl hx ih =>
    obtain ⟨f, fD, hf, hD, -, -⟩ := OnInv.shows hwf ih
    exact (wp_adequate hx (add_wp hwf ih hl hf hD Shows.unique Boots.unique)).1
  | destroy _ hn hx ih =>
    obtain ⟨f, fD, hf, hD, -, -⟩ := OnInv.shows hwf ih
    exact ((wp_adequate hx (destroy_wp hwf ih hn hf hD Shows.unique Boots.unique)).1 rfl).1
  | destroyFailed _ hn hx hrc ih =>
    obtain ⟨f, fD, hf, hD, -, -⟩ := OnInv.shows hwf ih
    exact ((wp_adequate hx (destroy_wp hwf ih hn hf hD Shows.unique Boots.unique)).2 hrc).2.1
  | destroyCut _ hn hx ih =>
    obtain ⟨f, fD, hf, hD, -, -⟩ := OnInv.shows hwf ih
    exact (wp_adequate hx (destroy_wp hwf ih hn hf hD Shows.unique Boots.unique)).1
  | powerOff _ ih =>
    obtain ⟨b, e, slots, tail, he, hg, -⟩ := ih
    exact .inr ⟨b, e, _, he, hg⟩

end WolfHsm.NvmFlash

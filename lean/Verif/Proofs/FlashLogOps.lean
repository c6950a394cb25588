import Verif.Proofs.FlashLogDisk

/-! # The callbacks of the flash-log NVM, and all histories -/

namespace WolfHsm.FlashLog

open Flash (FP Mem Dev Faults run)
open NvmFlash (Meta Store withLen)
open FlashG (wp wp_bind' wp_mono wp_run wp_adequate wp_crash)

theorem Disk.mono {c : Cfg} {n n' : Nat} (h : n ≤ n') {m : Mem} {f : Store} (hd : Disk c n m f) :
    Disk c n' m f := by
  rcases hd with ⟨p, e, os, h1, h2, h3, h4, h5⟩ | h1
  · exact Or.inl ⟨p, e, os, h1, h2, h3, by omega, h5⟩
  · exact Or.inr h1

theorem On.mono {c : Cfg} {n n' : Nat} (h : n ≤ n') {s : Ctx} {m : Mem} {os : List Obj} (ho : On c n s m os) :
    On c n' s m os :=
  ⟨ho.rep, ho.up, ho.active, Nat.le_trans ho.le h, ho.hpad, ho.img, ho.hb⟩

theorem space_some {os : List Obj} (hok : ∀ o ∈ os, o.OK) (hn : (os.map (·.md.id)).Nodup) {l1 l2 : List Obj} {o : Obj}
    (h : os = l1 ++ o :: l2) : space (storeOf os) o.md.id = objLen o.md := by
  unfold space
  rw [storeOf_some hn h]
  dsimp only
  unfold objLen
  rw [(hok o (by rw [h]; simp)).len]

theorem space_none {os : List Obj} {id : UInt16} (h : ∀ o ∈ os, o.md.id ≠ id) : space (storeOf os) id = 0 := by
  unfold space; rw [storeOf_none h]

theorem countFrom_zero {c : Cfg} {s : Ctx} {os : List Obj} (h : Rep c s os) : countFrom s 0 = os.length :=
  countFrom_at (l1 := []) (l2 := os) h

/-- When the new object fits. -/
def Room (c : Cfg) (os : List Obj) (id : UInt16) (n : Nat) : Prop :=
  pad64 n + 64 ≤ c.P - 64 - (imgs os).length + space (storeOf os) id ∧
  (storeOf os id ≠ none ∨ os.length < c.N)

theorem storeOf_set {os os' : List Obj} {md : Meta} {data : List UInt8} {f : Store}
    (h1 : storeOf os' = fun id => if id = md.id then some (withLen md data, data) else storeOf os id)
    (h2 : storeOf os = f.drop [md.id]) : storeOf os' = f.set md data := by
  rw [h1, h2]
  funext id
  unfold Store.set Store.drop
  by_cases e : id = md.id
  · rw [if_pos e, if_pos e]
  · rw [if_neg e, if_neg e, if_neg (by simp [e])]

theorem addObject_wp {c : Cfg} (w : c.WF) {n : Nat} (hn : n + 1 < 2 ^ 32) {s : Ctx} {m : Mem} {os : List Obj}
    (h : On c n s m os) {md : Meta} {data : List UInt8} (hid : md.id ≠ 0) (hlen : data.length < 2 ^ 16) :
    wp 64 c.dev Faults.none (addObject c s md data)
      (fun r m' =>
        (Room c os md.id data.length ∧ r.1 = .ok ∧ r.2.wild = s.wild ∧
          ∃ os', storeOf os' = (storeOf os).set md data ∧ On c (n + 1) r.2 m' os') ∨
        (¬ Room c os md.id data.length ∧ r = (.nospace, s) ∧ m' = m))
      (fun m' => Disk c (n + 1) m' (storeOf os) ∨ Disk c (n + 1) m' ((storeOf os).set md data)) m := by
  have hrep := h.rep
  have hpos := w.pos
  have hdisk : Disk c (n + 1) m (storeOf os) := h.disk.mono (by omega)
  have hfits := hrep.fits
  unfold addObject
  rw [if_neg (by simp [h.up])]
  dsimp only
  rcases split_id os md.id with ⟨l1, o, l2, he, hoi⟩ | hno
  · -- an old version exists
    subst he
    have hfi := findById_some hrep
    rw [hoi] at hfi
    simp only [hfi, hrep.meta_at, countFrom_zero hrep, Option.isSome_some, if_true]
    have hsp := space_some hrep.ok hrep.nodup (o := o) (l1 := l1) (l2 := l2) rfl
    rw [hoi] at hsp
    have hst : storeOf (l1 ++ o :: l2) md.id ≠ none := by rw [← hoi, storeOf_some hrep.nodup rfl]; simp
    have hcnt := hrep.count
    simp only [List.length_append, List.length_cons] at hcnt
    have hN := w.count
    have hc1 : pred32 (l1 ++ o :: l2).length = l1.length + l2.length := by
      unfold pred32
      simp only [List.length_append, List.length_cons]; omega
    simp only [hc1]
    by_cases h1 : pad64 data.length + 64 > c.P - 64 - s.size + objLen o.md
    · rw [if_pos h1]
      refine ⟨Or.inl hdisk, Or.inr ⟨?_, rfl, rfl⟩⟩
      rintro ⟨hr, _⟩
      rw [hsp, ← hrep.size] at hr
      omega
    · rw [if_neg h1, if_neg (by omega)]
      obtain ⟨os1, a1, a2, a3, a4, a5, a6, a7, a8, _, a9⟩ := objDestroy_spec hrep (id := md.id) hid
      have hos1 := a9 l1 o l2 rfl hoi
      subst hos1
      generalize objDestroy s md.id = r at *
      obtain ⟨rc, t⟩ := r
      dsimp only at *
      subst a1
      rw [if_neg (by simp)]
      have hno1 : ∀ q ∈ l1 ++ l2, q.md.id ≠ md.id := by
        intro q hq e
        have hs := congrFun a3 md.id
        have : storeOf (l1 ++ l2) md.id = none := by rw [hs]; unfold Store.drop; rw [if_pos (by simp)]
        obtain ⟨b1, b2, hb⟩ := List.append_of_mem hq
        have h2 := storeOf_some (o := q) a2.nodup hb
        rw [e, this] at h2
        cases h2
      have hsz : t.size + objLen o.md = s.size := by
        rw [a2.size, hrep.size, imgs_append, imgs_append, imgs_cons]
        simp only [List.length_append]
        rw [(hrep.ok o (by simp)).img_length]
        omega
      obtain ⟨os2, b1, b2⟩ := append_spec hpos a2 (md := md) (data := data) hid hlen hno1 (by omega)
        (by simp only [List.length_append]; omega)
      have hset := storeOf_set b2 a3
      refine wp_mono (newEpoch_wp w hn h b1 (a4.trans h.up) a5 a6 (a7.trans h.hpad)) ?_ ?_
      · rintro r m' ⟨c1, c2, c3⟩
        refine Or.inl ⟨⟨?_, Or.inl hst⟩, c1, c2.trans a8, os2, hset, c3⟩
        rw [hsp, ← hrep.size]; omega
      · intro m' hm
        rw [hset] at hm
        exact hm
  · simp only [findById_none hrep hno, countFrom_zero hrep, Option.isSome_none, Bool.false_eq_true, if_false]
    have hsp := space_none hno
    have hst := storeOf_none hno
    by_cases h1 : pad64 data.length + 64 > c.P - 64 - s.size + 0
    · rw [if_pos h1]
      refine ⟨Or.inl hdisk, Or.inr ⟨?_, rfl, rfl⟩⟩
      rintro ⟨hr, _⟩
      rw [hsp, ← hrep.size] at hr
      omega
    · rw [if_neg h1]
      by_cases h2 : os.length ≥ c.N
      · rw [if_pos h2]
        refine ⟨Or.inl hdisk, Or.inr ⟨?_, rfl, rfl⟩⟩
        rintro ⟨_, hr⟩
        rcases hr with hr | hr
        · exact hr hst
        · omega
      · rw [if_neg h2, if_neg (by simp)]
        obtain ⟨os2, b1, b2⟩ := append_spec hpos hrep (md := md) (data := data) hid hlen hno (by omega) (by omega)
        have hset : storeOf os2 = (storeOf os).set md data := by rw [b2]; rfl
        refine wp_mono (newEpoch_wp w hn h b1 h.up rfl rfl h.hpad) ?_ ?_
        · rintro r m' ⟨c1, c2, c3⟩
          refine Or.inl ⟨⟨?_, Or.inr (by omega)⟩, c1, c2, os2, hset, c3⟩
          rw [hsp, ← hrep.size]; omega
        · intro m' hm
          rw [hset] at hm
          exact hm

theorem destroyObjects_wp {c : Cfg} (w : c.WF) {n : Nat} (hn : n + 1 < 2 ^ 32) {s : Ctx} {m : Mem} {os : List Obj}
    (h : On c n s m os) {ids : List UInt16} (hid : (0 : UInt16) ∉ ids) :
    wp 64 c.dev Faults.none (destroyObjects c s ids)
      (fun r m' => r.1 = .ok ∧ r.2.wild = s.wild ∧
          ∃ os', storeOf os' = (storeOf os).drop ids ∧ On c (n + 1) r.2 m' os')
      (fun m' => Disk c (n + 1) m' (storeOf os) ∨ Disk c (n + 1) m' ((storeOf os).drop ids)) m := by
  unfold destroyObjects
  rw [if_neg (by simp [h.up])]
  by_cases he : ids = []
  · rw [if_pos he]
    subst he
    exact ⟨Or.inl (h.disk.mono (by omega)), rfl, rfl, os, (drop_nil _).symm, h.mono (by omega)⟩
  · rw [if_neg he]
    dsimp only
    obtain ⟨os', a1, a2, a3, a4, a5, a6, a7, a8⟩ := destroyLoop_spec ids h.rep hid
    generalize destroyLoop s ids = r at *
    obtain ⟨rc, t⟩ := r
    dsimp only at *
    subst a1
    rw [if_neg (by simp)]
    refine wp_mono (newEpoch_wp w hn h a2 (a4.trans h.up) a5 a6 (a7.trans h.hpad)) ?_ ?_
    · rintro r m' ⟨c1, c2, c3⟩
      exact ⟨c1, c2.trans a8, os', a3, c3⟩
    · intro m' hm
      rw [a3] at hm
      exact hm

/-! ## Booting -/

theorem Disk.boots {c : Cfg} (w : c.WF) {n : Nat} {m : Mem} {f : Store} (h : Disk c n m f) : Boots c m f := by
  obtain ⟨h1, _, os, h2, h3⟩ := wp_run (init_wp w h)
  refine ⟨h1, ?_⟩
  rw [← h2]
  exact h3.rep.shows h3.up

theorem Boots.unique {c : Cfg} {m : Mem} {f g : Store} (hf : Boots c m f) (hg : Boots c m g) : f = g :=
  hf.2.unique hg.2

/-! ## Histories -/

/-- What holds in every reachable state. -/
def Inv (c : Cfg) (n : Nat) : PState → Prop
  | .off m => ∃ f, Disk c n m f
  | .on s m => s.wild = false ∧ ∃ os, On c n s m os

theorem reach_inv {c : Cfg} (w : c.WF) {n : Nat} {st : PState} (h : Reach c n st) :
    n < 2 ^ 32 → Inv c n st := by
  induction h with
  | blank he =>
    intro _
    refine ⟨Store.empty, Or.inr ⟨?_, ?_, rfl⟩⟩ <;>
    · unfold HB
      rw [Flash.isBlank_iff]
      intro x _ hx
      have := w.pos
      exact he x (by show x < 2 * c.P; omega)
  | boot h hx ih =>
    intro hn
    obtain ⟨f, hf⟩ := ih hn
    obtain ⟨_, h2, os, _, h3⟩ := wp_adequate hx (init_wp w hf)
    exact ⟨h2, os, h3⟩
  | bootCut h hx ih =>
    intro hn
    obtain ⟨f, hf⟩ := ih hn
    exact ⟨f, wp_adequate hx (init_wp w hf)⟩
  | add h hid hl hx ih =>
    intro hn
    obtain ⟨hw, os, ho⟩ := ih (by omega)
    rcases wp_adequate hx (addObject_wp w hn ho hid hl) with ⟨_, _, h1, os', _, h2⟩ | ⟨_, h1, h2⟩
    · exact ⟨h1.trans hw, os', h2⟩
    · cases h1; subst h2
      exact ⟨hw, os, ho.mono (by omega)⟩
  | addCut h hid hl hx ih =>
    intro hn
    obtain ⟨hw, os, ho⟩ := ih (by omega)
    rcases wp_adequate hx (addObject_wp w hn ho hid hl) with h1 | h1
    · exact ⟨_, h1⟩
    · exact ⟨_, h1⟩
  | destroy h hid hx ih =>
    intro hn
    obtain ⟨hw, os, ho⟩ := ih (by omega)
    obtain ⟨_, h1, os', _, h2⟩ := wp_adequate hx (destroyObjects_wp w hn ho hid)
    exact ⟨h1.trans hw, os', h2⟩
  | destroyCut h hid hx ih =>
    intro hn
    obtain ⟨hw, os, ho⟩ := ih (by omega)
    rcases wp_adequate hx (destroyObjects_wp w hn ho hid) with h1 | h1
    · exact ⟨_, h1⟩
    · exact ⟨_, h1⟩
  | powerOff h ih =>
    intro hn
    obtain ⟨hw, os, ho⟩ := ih hn
    exact ⟨_, ho.disk⟩

/-! ## Listing -/

theorem objNext_at {c : Cfg} {s : Ctx} {l1 l2 : List Obj} {o : Obj} (h : Rep c s (l1 ++ o :: l2)) :
    objNext s (imgs l1).length = if l2 = [] then none else some (imgs (l1 ++ [o])).length := by
  unfold objNext
  dsimp only
  rw [h.meta_at]
  have ho := h.ok o (by simp)
  have hs := h.size
  rw [imgs_append, imgs_cons] at hs
  simp only [List.length_append, ho.img_length] at hs
  have hl : (imgs (l1 ++ [o])).length = (imgs l1).length + objLen o.md := by
    rw [imgs_append, imgs_cons, imgs_nil, List.append_nil, List.length_append, ho.img_length]
  by_cases he : l2 = []
  · rw [if_pos he, if_pos]
    rw [he] at hs
    simp only [imgs_nil, List.length_nil] at hs
    omega
  · have := imgs_ge (os := l2) fun q hq => h.ok q (by simp [hq])
    have h2 : 0 < l2.length := List.length_pos_iff.mpr he
    rw [if_neg he, if_neg (by omega), hl]

theorem list_at {c : Cfg} {s : Ctx} {l1 l2 : List Obj} {o : Obj} (h : Rep c s (l1 ++ o :: l2)) :
    (objMeta s.data (imgs l1).length).id = o.md.id ∧ countFrom s (imgs l1).length = (o :: l2).length :=
  ⟨by rw [h.meta_at], countFrom_at h⟩

theorem list_zero {c : Cfg} {s : Ctx} {os : List Obj} (h : Rep c s os) (hu : s.up = true) :
    list s 0 = match os with | [] => (.ok, 0, 0) | o :: os => (.ok, os.length + 1, o.md.id) := by
  unfold list
  rw [if_neg (by simp [hu])]
  dsimp only
  rw [if_pos rfl]
  cases os with
  | nil => dsimp only; rw [if_pos (h.empty rfl)]
  | cons o os =>
    have := list_at (l1 := []) h
    simp only [imgs_nil, List.length_nil] at this
    dsimp only
    rw [this.1, this.2, if_neg (h.ok o (by simp)).id]
    rfl

theorem list_next {c : Cfg} {s : Ctx} {l1 l2 : List Obj} {o : Obj} (h : Rep c s (l1 ++ o :: l2)) (hu : s.up = true) :
    list s o.md.id = match l2 with | [] => (.ok, 0, 0) | q :: l3 => (.ok, l3.length + 1, q.md.id) := by
  unfold list
  rw [if_neg (by simp [hu])]
  dsimp only
  rw [if_neg (h.ok o (by simp)).id, findById_some h]
  dsimp only [Option.bind]
  rw [objNext_at h]
  cases l2 with
  | nil => rw [if_pos rfl]
  | cons q l3 =>
    rw [if_neg (by simp)]
    dsimp only
    have h' : Rep c s ((l1 ++ [o]) ++ q :: l3) := by
      rw [List.append_assoc, List.singleton_append]; exact h
    have := list_at h'
    rw [this.1, this.2, if_neg (h.ok q (by simp)).id]
    rfl

/-- The answers: remaining count and id. -/
def expected : List Obj → List (Nat × UInt16)
  | [] => []
  | o :: os => (os.length + 1, o.md.id) :: expected os

theorem listing_from {c : Cfg} {s : Ctx} (hu : s.up = true) (l2 : List Obj) : ∀ (l1 : List Obj) (o : Obj) (fuel : Nat),
    Rep c s (l1 ++ o :: l2) → l2.length ≤ fuel → listing s fuel o.md.id = expected l2 := by
  induction l2 with
  | nil =>
    intro l1 o fuel h _
    cases fuel with
    | zero => rfl
    | succ k => unfold listing; rw [list_next h hu]; rfl
  | cons q l3 ih =>
    intro l1 o fuel h hf
    cases fuel with
    | zero => simp at hf
    | succ k =>
      unfold listing
      rw [list_next h hu]
      dsimp only
      rw [if_neg (by simp), expected]
      congr 1
      exact ih (l1 ++ [o]) q k (by rw [List.append_assoc, List.singleton_append]; exact h)
        (by simp only [List.length_cons] at hf; omega)

theorem listing_all {c : Cfg} {s : Ctx} {os : List Obj} (h : Rep c s os) (hu : s.up = true) {fuel : Nat}
    (hf : os.length ≤ fuel) : listing s fuel 0 = expected os := by
  cases os with
  | nil =>
    cases fuel with
    | zero => rfl
    | succ k => unfold listing; rw [list_zero h hu]; rfl
  | cons o os =>
    cases fuel with
    | zero => simp at hf
    | succ k =>
      unfold listing
      rw [list_zero h hu]
      dsimp only
      rw [if_neg (by simp), expected]
      congr 1
      exact listing_from hu os [] o k h (by simp only [List.length_cons] at hf; omega)

theorem expected_eq (os : List Obj) : ∀ k, expected os =
    ((os.map (·.md.id)).zipIdx k).map fun p => (os.length + k - p.2, p.1) := by
  induction os with
  | nil => intro k; rfl
  | cons o os ih =>
    intro k
    rw [expected, List.map_cons, List.zipIdx_cons, List.map_cons, ih (k + 1)]
    simp only [List.length_cons, List.cons.injEq, Prod.mk.injEq, and_true]
    refine ⟨by omega, ?_⟩
    apply List.map_congr_left
    intro p _
    simp only [Prod.mk.injEq, and_true]
    omega

theorem mem_ids {os : List Obj} (hn : (os.map (·.md.id)).Nodup) (id : UInt16) :
    id ∈ os.map (·.md.id) ↔ (storeOf os id).isSome := by
  constructor
  · intro h
    obtain ⟨o, ho, rfl⟩ := List.mem_map.mp h
    obtain ⟨l1, l2, he⟩ := List.append_of_mem ho
    rw [storeOf_some hn he]; rfl
  · intro h
    rcases split_id os id with ⟨l1, o, l2, he, hi⟩ | hno
    · rw [he, ← hi]; simp
    · rw [storeOf_none hno] at h; cases h

/-! ## Space -/

theorem sum_space {os : List Obj} (hok : ∀ o ∈ os, o.OK) (hn : (os.map (·.md.id)).Nodup) :
    ((os.map (·.md.id)).map (space (storeOf os))).sum = (imgs os).length := by
  rw [List.map_map]
  have : os.map (space (storeOf os) ∘ fun o => o.md.id) = os.map fun o => o.img.length := by
    apply List.map_congr_left
    intro o ho
    obtain ⟨l1, l2, he⟩ := List.append_of_mem ho
    show space (storeOf os) o.md.id = _
    rw [space_some hok hn he, (hok o ho).img_length]
  rw [this, imgs, List.length_flatMap]

end WolfHsm.FlashLog

import Verif.Spec.Locks
import Verif.Spec.Lock

/-!
# Proofs about several locks
-/

namespace WolfHsm.Locks

variable {S A R : Type} {prog : Nat → R → Work S A}

/-- The order of the locks. -/
def Kind.rank : Kind → Nat
  | .auth => 0
  | .nvm => 1
  | .hw => 2
  | .cache => 2

def Lk.rank (l : Lk) : Nat := l.kind.rank

theorem rank_lt (l : Lk) : l.rank < 3 := by
  unfold Lk.rank
  cases l.kind <;> decide

/-- A program that holds `held`, the lock taken last in front. -/
def Ordered : List Lk → Prog S A → Prop
  | h, .ret _ => h = []
  | h, .access _ k => ∀ s, Ordered h (k s)
  | h, .lock l k => (∀ x ∈ h, x.rank < l.rank) ∧ Ordered (l :: h) (k .ok) ∧ ∀ rc, rc ≠ .ok → Ordered h (k rc)
  | h, .unlock l p => ∃ h', h = l :: h' ∧ Ordered h' p

/-- The locks held are in order, the one taken last has kind `c`. -/
def Top (c : Option Kind) (h : List Lk) : Prop :=
  match c with
  | none => h = []
  | some k => ∀ x ∈ h, x.rank ≤ k.rank

theorem site_rank {c : Option Kind} {l : Lk} {h : List Lk} (hs : site c l.kind = true) (ht : Top c h) :
    ∀ x ∈ h, x.rank < l.rank := by
  obtain ⟨k, n⟩ := l
  intro x hx
  cases c with
  | none => rw [show h = [] from ht] at hx; cases hx
  | some c =>
    have := ht x hx
    cases c <;> cases k <;> simp [site] at hs <;> simp [Lk.rank, Kind.rank] at this ⊢ <;> omega

theorem steps_ordered : ∀ (w : Work S A) (c : Option Kind) (h : List Lk) (k : A → Prog S A), w.Conforms c → Top c h →
    (∀ a, Ordered h (k a)) → Ordered h (w.steps k) := by
  intro w
  induction w with
  | done a => intro c h k _ _ hk; exact hk a
  | access f w ih => intro c h k hw ht hk s; exact ih s c h k (hw s) ht hk
  | locked l w n ih ihn =>
    intro c h k hw ht hk
    obtain ⟨h1, h2, h3⟩ := hw
    have hr := site_rank h1 ht
    rw [Work.steps, Ordered]
    refine ⟨hr, ?_, ?_⟩
    · refine ih (some l.kind) (l :: h) _ h2 ?_ ?_
      · intro x hx
        rcases List.mem_cons.mp hx with rfl | hx
        · exact Nat.le_refl _
        · exact Nat.le_of_lt (hr x hx)
      · intro a
        exact ⟨h, rfl, ihn _ c h k (h3 _) ht hk⟩
    · intro rc hrc
      cases rc <;> first
        | exact absurd rfl hrc
        | exact ihn _ c h k (h3 _) ht hk

/-- What is known about one thread. -/
def ThreadInv (w : World R S A) (t : Nat) : Prop :=
  match (w.threads t).cur with
  | none => ∀ l, w.owner l ≠ some t
  | some p => ∃ h, Ordered h p ∧ h.Pairwise (fun a b => b.rank < a.rank) ∧ ∀ l, w.owner l = some t ↔ l ∈ h

def Inv (w : World R S A) : Prop := ∀ t, ThreadInv w t

theorem inv_start (s : S) (todo : Nat → List R) : Inv (start s todo : World R S A) := by
  intro t l
  simp [start]

@[simp] theorem set_same (w : World R S A) (t : Nat) (th : Thread R S A) : (w.set t th).threads t = th := by simp [World.set]

theorem set_other (w : World R S A) {t u : Nat} (th : Thread R S A) (h : u ≠ t) : (w.set t th).threads u = w.threads u := by
  simp [World.set, h]

theorem other {w w' : World R S A} {u : Nat} (h : ThreadInv w u) (hth : w'.threads u = w.threads u)
    (ho : ∀ l, w'.owner l = some u ↔ w.owner l = some u) : ThreadInv w' u := by
  unfold ThreadInv at h ⊢
  rw [hth]
  split
  · next hc => rw [hc] at h; intro l hl; exact h l ((ho l).mp hl)
  · next p hc =>
    rw [hc] at h
    obtain ⟨x, h1, h2, h3⟩ := h
    exact ⟨x, h1, h2, fun l => (ho l).trans (h3 l)⟩

theorem inv_step (hp : ∀ t r, (prog t r).Conforms none) {w : World R S A} (h : Inv w) (e : Nat × Option Rc) :
    Inv (step prog w e) := by
  obtain ⟨t, fault⟩ := e
  have ht := h t
  unfold ThreadInv at ht
  unfold step
  dsimp only
  cases hc : (w.threads t).cur with
  | none =>
    rw [hc] at ht
    dsimp only at ht ⊢
    cases htodo : (w.threads t).todo with
    | nil => exact h
    | cons r rs =>
      intro u
      by_cases hu : u = t
      · subst hu
        unfold ThreadInv
        rw [set_same]
        refine ⟨[], steps_ordered _ none [] _ (hp u r) rfl (fun _ => rfl), List.Pairwise.nil, fun l => ?_⟩
        constructor
        · intro hl; exact absurd hl (ht l)
        · intro hl; cases hl
      · exact other (h u) (set_other _ _ hu) (fun l => Iff.rfl)
  | some p =>
    rw [hc] at ht
    obtain ⟨hh, ho, hn, hl⟩ := ht
    cases p with
    | ret a =>
      intro u
      by_cases hu : u = t
      · subst hu
        unfold ThreadInv
        simp only [set_same]
        intro l hx
        have := (hl l).mp hx
        rw [show hh = [] from ho] at this
        cases this
      · exact other (h u) (set_other _ _ hu) (fun l => Iff.rfl)
    | access f k =>
      intro u
      by_cases hu : u = t
      · subst hu
        unfold ThreadInv
        simp only [set_same]
        exact ⟨hh, ho _, hn, hl⟩
      · exact other (h u) (set_other _ _ hu) (fun l => Iff.rfl)
    | lock l k =>
      obtain ⟨h1, h2, h3⟩ := ho
      cases fault with
      | some rc =>
        intro u
        by_cases hu : u = t
        · subst hu
          unfold ThreadInv
          simp only [set_same]
          refine ⟨hh, h3 _ ?_, hn, hl⟩
          split
          · simp
          · assumption
        · exact other (h u) (set_other _ _ hu) (fun l => Iff.rfl)
      | none =>
        dsimp only
        cases how : w.owner l with
        | some v => exact h
        | none =>
          intro u
          by_cases hu : u = t
          · subst hu
            unfold ThreadInv
            simp only [set_same]
            have hnot : l ∉ hh := by
              intro hx
              have := h1 l hx
              omega
            refine ⟨l :: hh, h2, List.pairwise_cons.mpr ⟨fun x hx => h1 x hx, hn⟩, fun x => ?_⟩
            by_cases hx : x = l
            · subst hx; simp
            · simp only [hx, if_false, List.mem_cons, false_or]
              exact hl x
          · refine other (h u) (set_other _ _ hu) (fun x => ?_)
            dsimp only
            by_cases hx : x = l
            · subst hx
              rw [if_pos rfl, how]
              simp [Ne.symm hu]
            · rw [if_neg hx]
    | unlock l p =>
      obtain ⟨h', rfl, h2⟩ := ho
      have hown : w.owner l = some t := (hl l).mpr (List.mem_cons_self ..)
      intro u
      by_cases hu : u = t
      · subst hu
        unfold ThreadInv
        simp only [set_same]
        obtain ⟨hlow, hn'⟩ := List.pairwise_cons.mp hn
        have hnot : l ∉ h' := fun hx => absurd (hlow l hx) (Nat.lt_irrefl _)
        refine ⟨h', h2, hn', fun x => ?_⟩
        by_cases hx : x = l
        · subst hx; simp [hnot]
        · simp only [hx, if_false]
          rw [hl x]
          simp [hx]
      · refine other (h u) (set_other _ _ hu) (fun x => ?_)
        dsimp only
        by_cases hx : x = l
        · subst hx
          rw [if_pos rfl, hown]
          simp [Ne.symm hu]
        · rw [if_neg hx]

theorem inv_run (hp : ∀ t r, (prog t r).Conforms none) : ∀ (es : List (Nat × Option Rc)) {w : World R S A}, Inv w →
    Inv (run prog w es) := by
  intro es
  induction es with
  | nil => intro w h; exact h
  | cons e es ih => intro w h; exact ih (inv_step hp h e)

theorem run_append (w : World R S A) (es fs : List (Nat × Option Rc)) : run prog w (es ++ fs) = run prog (run prog w es) fs :=
  List.foldl_append ..

/-- From `w` to `w'` a thread that holds no lock of this rank or above has not moved, and locks below it have not changed. -/
structure Quiet (n : Nat) (w w' : World R S A) : Prop where
  still : ∀ v, (∀ x, w.owner x = some v → x.rank < n) →
    w'.threads v = w.threads v ∧ ∀ x, w'.owner x = some v ↔ w.owner x = some v
  below : ∀ x, x.rank < n → w'.owner x = w.owner x

theorem Quiet.refl (n : Nat) (w : World R S A) : Quiet n w w := ⟨fun _ _ => ⟨rfl, fun _ => Iff.rfl⟩, fun _ _ => rfl⟩

theorem Quiet.trans {n m : Nat} {w w1 w2 : World R S A} (h1 : Quiet m w w1) (h2 : Quiet n w1 w2) (hm : n ≤ m) : Quiet n w w2 where
  still v hv := by
    obtain ⟨a, b⟩ := h1.still v (fun x hx => Nat.lt_of_lt_of_le (hv x hx) hm)
    obtain ⟨c, d⟩ := h2.still v (fun x hx => hv x ((b x).mp hx))
    exact ⟨c.trans a, fun x => (d x).trans (b x)⟩
  below x hx := (h2.below x hx).trans (h1.below x (Nat.lt_of_lt_of_le hx hm))

/-- The holder of a lock does a step that is not about lower locks. -/
theorem quiet_step {w w' : World R S A} {u : Nat} {l : Lk} (hl : w.owner l = some u) (hth : ∀ v, v ≠ u → w'.threads v = w.threads v)
    (ho : ∀ x v, v ≠ u → (w'.owner x = some v ↔ w.owner x = some v)) (hb : ∀ x, x.rank < l.rank → w'.owner x = w.owner x) :
    Quiet l.rank w w' where
  still v hv := by
    have hne : v ≠ u := by
      rintro rfl
      have := hv l hl
      omega
    exact ⟨hth v hne, fun x => ho x v hne⟩
  below := hb

/-- What the induction over the order of the locks gives: any lock can be made free. -/
def Frees (prog : Nat → R → Work S A) (l : Lk) : Prop :=
  ∀ w : World R S A, Inv w → ∃ fs : List (Nat × Option Rc), (∀ e ∈ fs, e.2 = none) ∧ (run prog w fs).owner l = none ∧
    Quiet l.rank w (run prog w fs)

/-- A thread about to take a lock that can be made free gets it. -/
theorem takes {l : Lk} (hf : Frees prog l) {w : World R S A} (hi : Inv w) {u : Nat} {k : Rc → Prog S A}
    (hc : (w.threads u).cur = some (.lock l k)) :
    ∃ fs : List (Nat × Option Rc), (∀ e ∈ fs, e.2 = none) ∧
      (run prog w fs).threads u = { w.threads u with cur := some (k .ok) } ∧
      (∀ x, w.owner x = some u → (run prog w fs).owner x = some u) ∧
      ∀ n, n ≤ l.rank → (∃ y, w.owner y = some u ∧ n ≤ y.rank) → Quiet n w (run prog w fs) := by
  have hu := hi u
  unfold ThreadInv at hu
  rw [hc] at hu
  obtain ⟨h, ⟨hlow, -, -⟩, -, hown⟩ := hu
  obtain ⟨fs, h1, h2, h3⟩ := hf w hi
  obtain ⟨hst, hso⟩ := h3.still u (fun x hx => hlow x ((hown x).mp hx))
  refine ⟨fs ++ [(u, none)], ?_, ?_⟩
  · intro e he
    rcases List.mem_append.mp he with he | he
    · exact h1 e he
    · rw [List.mem_singleton.mp he]
  rw [run_append]
  revert h2 h3 hst hso
  generalize run prog w fs = w1
  intro h2 h3 hst hso
  have hs : run prog w1 [(u, none)] = { w1.set u { w.threads u with cur := some (k .ok) } with
      owner := fun x => if x = l then some u else w1.owner x } := by
    show step prog w1 (u, none) = _
    unfold step
    simp only [hst, hc, h2]
  rw [hs]
  refine ⟨by simp, ?_, ?_⟩
  · intro x hx
    dsimp only
    split
    · rfl
    · exact (hso x).mpr hx
  · rintro n hn ⟨y, hy, hny⟩
    refine Quiet.trans h3 ⟨?_, ?_⟩ hn
    · intro v hv
      have hne : v ≠ u := by
        rintro rfl
        have := hv y ((hso y).mpr hy)
        omega
      refine ⟨set_other _ _ hne, fun x => ?_⟩
      dsimp only
      by_cases hx : x = l
      · subst hx
        rw [if_pos rfl, h2]
        simp [Ne.symm hne]
      · rw [if_neg hx]
    · intro x hx
      dsimp only
      rw [if_neg]
      rintro rfl
      omega

theorem holder_releases (hp : ∀ t r, (prog t r).Conforms none) (l : Lk) (ih : ∀ l' : Lk, l.rank < l'.rank → Frees prog l') (u : Nat) :
    ∀ (p : Prog S A) (w : World R S A), Inv w → (w.threads u).cur = some p → w.owner l = some u →
      ∃ fs : List (Nat × Option Rc), (∀ e ∈ fs, e.2 = none) ∧ (run prog w fs).owner l = none ∧ Quiet l.rank w (run prog w fs) := by
  intro p
  induction p with
  | ret a =>
    intro w hi hc hl
    have := hi u
    unfold ThreadInv at this
    rw [hc] at this
    obtain ⟨h, h1, -, h3⟩ := this
    have := (h3 l).mp hl
    rw [show h = [] from h1] at this
    cases this
  | access f k ihk =>
    intro w hi hc hl
    have hs : step prog w (u, none) = { w.set u { w.threads u with cur := some (k w.shared) } with shared := f w.shared } := by
      unfold step
      simp only [hc]
    obtain ⟨fs, h1, h2, h3⟩ := ihk w.shared (step prog w (u, none)) (inv_step hp hi _) (by rw [hs]; simp) (by rw [hs]; exact hl)
    refine ⟨(u, none) :: fs, ?_, h2, Quiet.trans ?_ h3 (Nat.le_refl _)⟩
    · intro e he
      rcases List.mem_cons.mp he with rfl | he
      · rfl
      · exact h1 e he
    · rw [hs]
      exact quiet_step hl (fun v hv => set_other _ _ hv) (fun _ _ _ => Iff.rfl) (fun _ _ => rfl)
  | unlock l' p ihp =>
    intro w hi hc hl
    have hu := hi u
    unfold ThreadInv at hu
    rw [hc] at hu
    obtain ⟨h, ⟨h', rfl, -⟩, hn, h3⟩ := hu
    have hs : step prog w (u, none) =
        { w.set u { w.threads u with cur := some p } with owner := fun x => if x = l' then none else w.owner x } := by
      unfold step
      simp only [hc]
    have how : w.owner l' = some u := (h3 l').mpr (List.mem_cons_self ..)
    have hq : l.rank ≤ l'.rank → Quiet l.rank w (step prog w (u, none)) := by
      intro hle
      rw [hs]
      refine quiet_step hl (fun v hv => set_other _ _ hv) (fun x v hv => ?_) (fun x hx => ?_)
      · dsimp only
        by_cases hx : x = l'
        · subst hx
          rw [if_pos rfl, how]
          simp [Ne.symm hv]
        · rw [if_neg hx]
      · dsimp only
        rw [if_neg]
        rintro rfl
        omega
    by_cases he : l' = l
    · subst he
      refine ⟨[(u, none)], by simp, ?_, hq (Nat.le_refl _)⟩
      show (step prog w (u, none)).owner l' = none
      rw [hs]
      simp
    · have hle : l.rank ≤ l'.rank := by
        have hm := (h3 l).mp hl
        rcases List.mem_cons.mp hm with hm | hm
        · exact absurd hm.symm he
        · exact Nat.le_of_lt ((List.pairwise_cons.mp hn).1 l hm)
      obtain ⟨fs, k1, k2, k3⟩ := ihp (step prog w (u, none)) (inv_step hp hi _) (by rw [hs]; simp)
        (by rw [hs]; simp [Ne.symm he, hl])
      refine ⟨(u, none) :: fs, ?_, k2, Quiet.trans (hq hle) k3 (Nat.le_refl _)⟩
      intro e he'
      rcases List.mem_cons.mp he' with rfl | he'
      · rfl
      · exact k1 e he'
  | lock l2 k ihk =>
    intro w hi hc hl
    have hu := hi u
    unfold ThreadInv at hu
    rw [hc] at hu
    obtain ⟨h, ⟨hlow, -, -⟩, -, hown⟩ := hu
    have hlt := hlow l ((hown l).mp hl)
    obtain ⟨fs, h1, h2, h3, h4⟩ := takes (ih l2 hlt) hi hc
    obtain ⟨gs, k1, k2, k3⟩ := ihk .ok (run prog w fs) (inv_run hp fs hi) (by rw [h2]) (h3 l hl)
    refine ⟨fs ++ gs, ?_, by rw [run_append]; exact k2, ?_⟩
    · intro e he
      rcases List.mem_append.mp he with he | he
      · exact h1 e he
      · exact k1 e he
    · rw [run_append]
      exact Quiet.trans (h4 l.rank (Nat.le_of_lt hlt) ⟨l, hl, Nat.le_refl _⟩) k3 (Nat.le_refl _)

/-- Any lock can be made free. -/
theorem frees (hp : ∀ t r, (prog t r).Conforms none) : ∀ (n : Nat) (l : Lk), 3 - l.rank ≤ n → Frees prog l := by
  intro n
  induction n with
  | zero => intro l hl; have := rank_lt l; omega
  | succ n ih =>
    intro l hl w hi
    cases ho : w.owner l with
    | none => exact ⟨[], by simp, ho, Quiet.refl _ _⟩
    | some u =>
      have hu := hi u
      unfold ThreadInv at hu
      cases hc : (w.threads u).cur with
      | none => rw [hc] at hu; exact absurd ho (hu l)
      | some p =>
        exact holder_releases hp l (fun l' hlt => ih l' (by have := rank_lt l; omega)) u p w hi hc ho

theorem finish (hp : ∀ t r, (prog t r).Conforms none) (t : Nat) : ∀ (p : Prog S A) (w : World R S A), Inv w →
    (w.threads t).cur = some p → ∃ fs : List (Nat × Option Rc), (∀ e ∈ fs, e.2 = none) ∧
      ∃ a, (run prog w fs).threads t = { w.threads t with cur := none, answers := (w.threads t).answers ++ [a] } := by
  intro p
  induction p with
  | ret a =>
    intro w hi hc
    refine ⟨[(t, none)], by simp, a, ?_⟩
    show (step prog w (t, none)).threads t = _
    unfold step
    simp only [hc, set_same]
  | access f k ih =>
    intro w hi hc
    have hs : (step prog w (t, none)).threads t = { w.threads t with cur := some (k w.shared) } := by
      unfold step
      simp only [hc, set_same]
    obtain ⟨fs, h1, a, h2⟩ := ih w.shared (step prog w (t, none)) (inv_step hp hi _) (by rw [hs])
    refine ⟨(t, none) :: fs, ?_, a, ?_⟩
    · intro e he
      rcases List.mem_cons.mp he with rfl | he
      · rfl
      · exact h1 e he
    · refine Eq.trans h2 ?_
      rw [hs]
  | unlock l p ih =>
    intro w hi hc
    have hs : (step prog w (t, none)).threads t = { w.threads t with cur := some p } := by
      unfold step
      simp only [hc, set_same]
    obtain ⟨fs, h1, a, h2⟩ := ih (step prog w (t, none)) (inv_step hp hi _) (by rw [hs])
    refine ⟨(t, none) :: fs, ?_, a, ?_⟩
    · intro e he
      rcases List.mem_cons.mp he with rfl | he
      · rfl
      · exact h1 e he
    · refine Eq.trans h2 ?_
      rw [hs]
  | lock l k ih =>
    intro w hi hc
    obtain ⟨fs, h1, h2, -, -⟩ := takes (frees hp 3 l (by omega)) hi hc
    obtain ⟨gs, k1, a, k2⟩ := ih .ok (run prog w fs) (inv_run hp fs hi) (by rw [h2])
    refine ⟨fs ++ gs, ?_, a, ?_⟩
    · intro e he
      rcases List.mem_append.mp he with he | he
      · exact h1 e he
      · exact k1 e he
    · rw [run_append, k2, h2]

/-- A thread's requests: what it works on and what it has yet to receive. -/
def open_ (th : Thread R S A) : Nat := th.todo.length + (if th.cur.isSome then 1 else 0)

theorem finish_all (hp : ∀ t r, (prog t r).Conforms none) (t : Nat) : ∀ (n : Nat) (w : World R S A), Inv w →
    open_ (w.threads t) = n → ∃ fs : List (Nat × Option Rc), (∀ e ∈ fs, e.2 = none) ∧
      ∃ as : List A, as.length = n ∧
        (run prog w fs).threads t = ⟨[], none, (w.threads t).answers ++ as⟩ := by
  intro n
  induction n with
  | zero =>
    intro w hi ho
    refine ⟨[], by simp, [], rfl, ?_⟩
    show w.threads t = _
    revert ho
    generalize w.threads t = th
    obtain ⟨td, cu, an⟩ := th
    cases td <;> cases cu <;> simp [open_]
  | succ n ih =>
    intro w hi ho
    have key : ∀ (w : World R S A), Inv w → ∀ p, (w.threads t).cur = some p → (w.threads t).todo.length = n →
        ∃ fs : List (Nat × Option Rc), (∀ e ∈ fs, e.2 = none) ∧ ∃ as : List A, as.length = n + 1 ∧
          (run prog w fs).threads t = ⟨[], none, (w.threads t).answers ++ as⟩ := by
      intro w hi p hc hl
      obtain ⟨fs, h1, a, h2⟩ := finish hp t p w hi hc
      obtain ⟨gs, k1, as, k2, k3⟩ := ih (run prog w fs) (inv_run hp fs hi) (by rw [h2]; simpa [open_] using hl)
      refine ⟨fs ++ gs, ?_, a :: as, by simp [k2], ?_⟩
      · intro e he
        rcases List.mem_append.mp he with he | he
        · exact h1 e he
        · exact k1 e he
      · rw [run_append, k3, h2]
        simp
    cases hc : (w.threads t).cur with
    | some p => exact key w hi p hc (by simpa [open_, hc] using ho)
    | none =>
      cases ht : (w.threads t).todo with
      | nil => simp [open_, hc, ht] at ho
      | cons r rs =>
        have hs : (step prog w (t, none)).threads t = { w.threads t with todo := rs, cur := some ((prog t r).steps .ret) } := by
          unfold step
          simp only [hc, ht, set_same]
        obtain ⟨fs, h1, as, h2, h3⟩ := key (step prog w (t, none)) (inv_step hp hi _) _ (by rw [hs])
          (by rw [hs]; simpa [open_, hc, ht] using ho)
        refine ⟨(t, none) :: fs, ?_, as, h2, ?_⟩
        · intro e he
          rcases List.mem_cons.mp he with rfl | he
          · rfl
          · exact h1 e he
        · refine Eq.trans h3 ?_
          rw [hs]

/-- The lock the thread is about to take. -/
def World.next (w : World R S A) (t : Nat) : Option Lk :=
  match (w.threads t).cur with
  | some (.lock l _) => some l
  | _ => none

theorem waits_of {w : World R S A} {t : Nat} {l : Lk} (h : w.next t = some l) (ho : (w.owner l).isSome = true) : w.Waits t := by
  unfold World.next at h
  split at h
  · next l' k hc =>
    obtain rfl : l' = l := Option.some.inj h
    exact ⟨_, k, hc, fun hx => by rw [hx] at ho; cases ho⟩
  · cases h

theorem count_step (prog : Nat → R → Work S A) (w : World R S A) (e : Nat × Option Rc) (t : Nat) :
    ((step prog w e).threads t).answers.length + open_ ((step prog w e).threads t) =
      (w.threads t).answers.length + open_ (w.threads t) := by
  obtain ⟨u, fault⟩ := e
  by_cases ht : t = u
  · subst ht
    unfold step
    dsimp only
    cases hc : (w.threads t).cur with
    | none =>
      cases htd : (w.threads t).todo with
      | nil => rfl
      | cons r rs => simp [open_, hc, htd]
    | some p =>
      cases p with
      | ret a => simp [open_, hc]; omega
      | access f k => simp [open_, hc]
      | unlock l p => simp [open_, hc]
      | lock l k =>
        cases fault with
        | some rc => simp [open_, hc]
        | none => cases ho : w.owner l <;> simp [open_, hc, ho]
  · have : (step prog w (u, fault)).threads t = w.threads t := by
      unfold step
      dsimp only
      repeat' split
      all_goals first
        | rfl
        | exact set_other _ _ ht
    rw [this]

/-- No request is lost and none is answered twice. -/
theorem counts (prog : Nat → R → Work S A) : ∀ (es : List (Nat × Option Rc)) (w : World R S A) (t : Nat),
    ((run prog w es).threads t).answers.length + open_ ((run prog w es).threads t) =
      (w.threads t).answers.length + open_ (w.threads t) := by
  intro es
  induction es with
  | nil => intro w t; rfl
  | cons e es ih => intro w t; exact (ih (step prog w e) t).trans (count_step prog w e t)

theorem stuck_step (w : World R S A) (u : Nat) (h : ¬ w.Busy u ∨ w.Waits u) : step prog w (u, none) = w := by
  unfold step
  rcases h with h | ⟨l, k, hc, ho⟩
  · unfold World.Busy at h
    have h1 : (w.threads u).cur = none := Classical.byContradiction fun hx => h (.inl hx)
    have h2 : (w.threads u).todo = [] := Classical.byContradiction fun hx => h (.inr hx)
    simp only [h1, h2]
  · simp only [hc]
    cases hw : w.owner l with
    | none => exact absurd hw ho
    | some v => rfl

theorem stuck_run (w : World R S A) (h : ∀ u, ¬ w.Busy u ∨ w.Waits u) :
    ∀ fs : List (Nat × Option Rc), (∀ e ∈ fs, e.2 = none) → run prog w fs = w := by
  intro fs
  induction fs with
  | nil => intro _; rfl
  | cons e fs ih =>
    intro hf
    obtain ⟨u, x⟩ := e
    have : x = none := hf _ (List.mem_cons_self ..)
    subst this
    show run prog (step prog w (u, none)) fs = w
    rw [stuck_step w u (h u)]
    exact ih fun e he => hf e (List.mem_cons_of_mem _ he)

theorem body_steps (l : Lk) : ∀ p : Lock.Prog S A, Lock.Inside p →
    (bodyOf p).steps (fun a => .unlock l (.ret a)) = ofProg l p := by
  intro p
  induction p with
  | ret a => intro h; exact h.elim
  | lock k _ => intro h; exact h.elim
  | unlock p _ =>
    rintro ⟨a, rfl⟩
    simp [bodyOf, Work.steps, ofProg]
  | access f k ih =>
    intro h
    simp only [bodyOf, Work.steps, ofProg]
    congr 1
    funext s
    exact ih s (h s)

theorem work_steps (l : Lk) (p : Lock.Prog S A) (h : Lock.Disciplined p) : (workOf l p).steps .ret = ofProg l p := by
  cases p with
  | ret a => simp [workOf, bodyOf, Work.steps, ofProg]
  | unlock p => exact h.elim
  | access f k => exact h.elim
  | lock k =>
    obtain ⟨h1, h2⟩ := h
    simp only [workOf, Work.steps, ofProg]
    congr 1
    funext rc
    by_cases hrc : rc = .ok
    · subst hrc
      exact body_steps l _ h1
    · obtain ⟨a, ha⟩ := h2 rc hrc
      cases rc <;> first
        | exact absurd rfl hrc
        | simp only [ha, bodyOf, Work.steps, ofProg]

theorem body_conforms (c : Option Kind) : ∀ p : Lock.Prog S A, (bodyOf p).Conforms c := by
  intro p
  induction p with
  | ret a => trivial
  | lock k ih => exact ih .aborted
  | unlock p ih => exact ih
  | access f k ih => exact fun s => ih s

theorem work_conforms (n : Nat) (p : Lock.Prog S A) : (workOf ⟨.nvm, n⟩ p).Conforms none := by
  cases p with
  | lock k =>
    refine ⟨rfl, body_conforms _ _, fun x => ?_⟩
    cases x with
    | ok a => trivial
    | error rc => exact body_conforms _ _
  | ret a => exact body_conforms _ (.ret a)
  | unlock p => exact body_conforms _ (.unlock p)
  | access f k => exact body_conforms _ (.access f k)

theorem request_conforms (a n : Nat) (check : Work S (Option A)) (refuse : Rc → A) (p : Lock.Prog S (Option A))
    (h : check.Conforms (some .auth)) : (request a n check refuse p).Conforms none := by
  refine ⟨rfl, h, fun x => ?_⟩
  match x with
  | .ok none => exact work_conforms n p
  | .ok (some _) => trivial
  | .error _ => trivial

end WolfHsm.Locks

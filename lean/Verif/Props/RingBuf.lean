import Verif.Model.RingBuf

/-!
# C41: the log ring buffer keeps the newest entries in order
-/

namespace WolfHsm.RingBuf

variable {E : Type}

/-! ### Specification -/

/-- Entries logged since the last clear, oldest first. -/
def logged : List (Op E) → List E :=
  List.foldl (fun h op => match op with | .add e => h ++ [e] | .clear => []) []

/-- The last `n` elements of a list. -/
def lastN (n : Nat) (l : List E) : List E := l.drop (l.length - n)

/-- Feed a list to a callback in order, stopping at the first non-zero return. -/
def feed {σ : Type} (cb : σ → E → σ × Int) : List E → σ → σ × Int
  | [], s => (s, 0)
  | e :: l, s =>
    let (s', r) := cb s e
    if r ≠ 0 then (s', r) else feed cb l s'

/-! ### Proof -/

/-- The buffer represents the log `h`. -/
structure Repr (W : Nat) (c : Ctx E) (h : List E) : Prop where
  isInit : c.initialized = true
  cap_pos : 0 < c.capacity
  len : c.entries.length = c.capacity
  count : c.count = h.length % W
  get : ∀ i, i < h.length → h.length ≤ i + c.capacity → c.entries[i % c.capacity]? = h[i]?

theorem mod_ne_of_lt {a b n : Nat} (h1 : a < b) (h2 : b < a + n) : a % n ≠ b % n := by
  intro h
  have : (b - a) % n = 0 := Nat.sub_mod_eq_zero_of_mod_eq h.symm
  rw [Nat.mod_eq_of_lt (by omega)] at this
  omega

theorem Repr.add {W : Nat} {c : Ctx E} {h : List E} (r : Repr W c h) (hW : h.length < W) (e : E) :
    Repr W (addEntry W c e).1 (h ++ [e]) := by
  have hc : c.count = h.length := by rw [r.count, Nat.mod_eq_of_lt hW]
  simp only [addEntry, r.isInit, Bool.not_true, Bool.false_eq_true, if_false]
  refine ⟨rfl, r.cap_pos, by simp [r.len], by simp [hc], ?_⟩
  intro i hi hcap
  simp only [List.length_append, List.length_singleton] at hi hcap
  by_cases hl : i = h.length
  · subst hl
    have : h.length % c.capacity < c.entries.length := by
      rw [r.len]; exact Nat.mod_lt _ r.cap_pos
    simp [hc, this]
  · have hlt : i < h.length := by omega
    have hne : h.length % c.capacity ≠ i % c.capacity :=
      fun hh => mod_ne_of_lt hlt (by omega) hh.symm
    simp only [hc]
    rw [List.getElem?_set_ne hne, List.getElem?_append_left hlt]
    exact r.get i hlt (by omega)

theorem Repr.clear {W : Nat} {c : Ctx E} {h : List E} (r : Repr W c h) (zero : E) :
    Repr W (clear zero c).1 [] :=
  ⟨r.isInit, r.cap_pos, by simp [RingBuf.clear], by simp [RingBuf.clear], by simp⟩

theorem Repr.init {W bufferSize entrySize : Nat} {initial : Nat → E} {c : Ctx E}
    (h : init bufferSize entrySize initial = .ok c) :
    Repr W c [] ∧ c.capacity = bufferSize / entrySize := by
  unfold RingBuf.init at h
  split at h
  · cases h
  · split at h
    · cases h
    · cases h
      exact ⟨⟨rfl, Nat.pos_of_ne_zero ‹¬_ = 0›, by simp, by simp, by simp⟩, rfl⟩

theorem iterLoop_feed {σ : Type} (cb : σ → E → σ × Int) (c : Ctx E) (start : Nat) (l : List E) :
    ∀ (i : Nat) (s : σ),
      (∀ j, j < l.length → c.entries[(start + (i + j)) % c.capacity]? = l[j]?) →
      iterLoop cb c start l.length i s = some (feed cb l s) := by
  induction l with
  | nil => intro i s _; rfl
  | cons e l ih =>
    intro i s h
    have h0 := h 0 (by simp)
    simp only [Nat.add_zero, List.getElem?_cons_zero] at h0
    simp only [List.length_cons, iterLoop, h0, feed]
    split
    · rfl
    · apply ih
      intro j hj
      have := h (j + 1) (by simp [hj])
      simpa [Nat.add_assoc, Nat.add_comm 1] using this

/-- Invariant over histories. -/
theorem Repr.run (W : Nat) (zero : E) (ops : List (Op E)) (c : Ctx E) (h : List E)
    (r : Repr W c h) (hW : h.length + ops.length < W) :
    Repr W (run W zero c ops)
      (ops.foldl (fun h op => match op with | .add e => h ++ [e] | .clear => []) h) := by
  induction ops generalizing c h with
  | nil => exact r
  | cons op ops ih =>
    simp only [List.length_cons] at hW
    cases op with
    | add e =>
      exact ih _ _ (r.add (by omega) e) (by simp only [List.length_append, List.length_singleton]; omega)
    | clear => exact ih _ _ (r.clear zero) (by simp only [List.length_nil]; omega)

theorem run_capacity (W : Nat) (zero : E) (ops : List (Op E)) (c : Ctx E) :
    (RingBuf.run W zero c ops).capacity = c.capacity := by
  induction ops generalizing c with
  | nil => rfl
  | cons op ops ih =>
    have hs : (step W zero c op).capacity = c.capacity := by
      cases op with
      | add e => simp only [step, addEntry]; split <;> rfl
      | clear => rfl
    exact (ih _).trans hs

/-! ### Theorems -/

/-- **C41.** After any history of fewer than `SIZE_MAX` calls on a log
initialised with any buffer, iterating with any callback does exactly what
feeding it the last `capacity` entries logged since the last clear would do, in
order, stopping when it asks, and never reads outside the buffer. -/
theorem C41_ringbuf {σ : Type} (W bufferSize entrySize : Nat) (initial : Nat → E) (zero : E)
    (c : Ctx E) (hinit : init bufferSize entrySize initial = .ok c)
    (ops : List (Op E)) (hW : ops.length < W) (cb : σ → E → σ × Int) (s : σ) :
    iterate cb (run W zero c ops) s =
      some ((feed cb (lastN (bufferSize / entrySize) (logged ops)) s).1,
            (feed cb (lastN (bufferSize / entrySize) (logged ops)) s).2, .ok) := by
  obtain ⟨r0, hcap⟩ := Repr.init (W := W) hinit
  have r := Repr.run W zero ops c [] r0 (by simpa using hW)
  have hcap' := run_capacity W zero ops c
  have hlen : (logged ops).length < W := by
    have : ∀ (l : List (Op E)) (h : List E),
        (l.foldl (fun h op => match op with | .add e => h ++ [e] | .clear => []) h).length
          ≤ h.length + l.length := by
      intro l
      induction l with
      | nil => simp
      | cons op l ih =>
        intro h
        cases op with
        | add e => have := ih (h ++ [e]); simp at this ⊢; omega
        | clear => have := ih []; simp at this ⊢; omega
    have := this ops []
    simp only [List.length_nil, Nat.zero_add] at this
    exact Nat.lt_of_le_of_lt this hW
  change Repr W _ (logged ops) at r
  rw [← hcap, ← hcap']
  generalize run W zero c ops = d at r
  generalize logged ops = h at r hlen
  have hc : d.count = h.length := by rw [r.count, Nat.mod_eq_of_lt hlen]
  unfold iterate
  simp only [r.isInit, Bool.not_true, Bool.false_eq_true, if_false, hc]
  by_cases h0 : h.length = 0
  · have : h = [] := List.length_eq_zero_iff.mp h0
    subst this; simp [lastN, feed]
  · simp only [h0, if_false]
    by_cases hlt : h.length < d.capacity
    · simp only [hlt, if_true]
      have hl : lastN d.capacity h = h := by
        unfold lastN; rw [Nat.sub_eq_zero_of_le (by omega)]; rfl
      rw [hl, iterLoop_feed cb d 0 h 0 s]
      · rfl
      · intro j hj
        have := r.get j hj (by omega)
        simpa using this
    · simp only [hlt, if_false]
      have hll : (lastN d.capacity h).length = d.capacity := by
        simp [lastN]; omega
      have key := iterLoop_feed cb d (h.length % d.capacity) (lastN d.capacity h) 0 s
      rw [hll] at key
      rw [key]
      · rfl
      · intro j hj
        have hg := r.get (h.length - d.capacity + j) (by omega) (by omega)
        have e1 : (h.length % d.capacity + (0 + j)) % d.capacity
            = (h.length - d.capacity + j) % d.capacity := by
          have : h.length = (h.length - d.capacity) + d.capacity := by omega
          conv => lhs; rw [this]
          simp
        rw [e1, hg]
        simp [lastN]

/-- The hypotheses are met by a log of two entries that wrapped and was cleared
once; iterating with a recording callback returns the two newest entries. -/
example : ∃ c : Ctx Nat, init 17 8 (fun _ => 0) = .ok c ∧
    iterate (fun l e => (l ++ [e], 0))
      (run 100 0 c [.add 9, .clear, .add 1, .add 2, .add 3]) ([] : List Nat)
      = some ([2, 3], 0, .ok) ∧
    lastN 2 (logged [.add 9, .clear, .add 1, .add 2, (.add 3 : Op Nat)]) = [2, 3] :=
  ⟨_, rfl, by decide, by decide⟩

/-- **C41, limit of the claim.** After exactly `W = SIZE_MAX + 1` adds the
free-running counter wraps to zero and iterating visits nothing although the
buffer is full. -/
theorem C41_wrap_loses_everything {σ : Type} (W bufferSize entrySize : Nat) (initial : Nat → E)
    (zero : E) (c : Ctx E) (hinit : init bufferSize entrySize initial = .ok c)
    (es : List E) (hlen : es.length = W) (hpos : 0 < W) (cb : σ → E → σ × Int) (s : σ) :
    iterate cb (run W zero c (es.map .add)) s = some (s, 0, .ok) ∧
    (logged (es.map .add)).length = W := by
  have hlog : logged (es.map .add) = es := by
    have : ∀ (l h : List E), (l.map Op.add).foldl
        (fun h op => match op with | .add e => h ++ [e] | .clear => []) h = h ++ l := by
      intro l
      induction l with
      | nil => simp
      | cons e l ih => intro h; simp [ih]
    simpa [logged] using this es []
  refine ⟨?_, by rw [hlog, hlen]⟩
  obtain ⟨r0, -⟩ := Repr.init (W := W) hinit
  obtain ⟨es', e, rfl⟩ : ∃ l e, es = l ++ [e] := by
    have : es ≠ [] := by intro h; subst h; simp at hlen; omega
    exact ⟨es.dropLast, es.getLast this, (List.dropLast_concat_getLast this).symm⟩
  have hl' : es'.length + 1 = W := by simpa using hlen
  have r := Repr.run W zero (es'.map .add) c [] r0 (by simp; omega)
  have hlog' : (es'.map Op.add).foldl
        (fun h op => match op with | .add e => h ++ [e] | .clear => []) [] = es' := by
    have : ∀ (l h : List E), (l.map Op.add).foldl
        (fun h op => match op with | .add e => h ++ [e] | .clear => []) h = h ++ l := by
      intro l
      induction l with
      | nil => simp
      | cons e l ih => intro h; simp [ih]
    simpa using this es' []
  rw [hlog'] at r
  have r' := r.add (by omega) e
  have hrun : run W zero c ((es' ++ [e]).map .add) =
      (addEntry W (run W zero c (es'.map .add)) e).1 := by
    simp [run, step]
  rw [hrun]
  have hcount := r'.count
  simp only [List.length_append, List.length_singleton, hl', Nat.mod_self] at hcount
  simp [iterate, r'.isInit, hcount]

end WolfHsm.RingBuf

import Verif.Spec.ClientHash
import Verif.Proofs.WireSimp

/-!
# Proofs for hashing through the server
-/

namespace WolfHsm.ClientHash

open Wire

variable {σ : Type}

/-! ## Cutting into blocks -/

theorem blocks_spec {block max : Nat} (hb : 0 < block) : ∀ (n pos : Nat) (rest : List UInt8),
    pos % block = 0 → pos ≤ max → max % block = 0 → rest.length ≤ n → pos + rest.length < max + block →
    (blocks block max n pos rest).1 ++ (blocks block max n pos rest).2 = rest ∧
    (blocks block max n pos rest).1.length % block = 0 ∧
    pos + (blocks block max n pos rest).1.length ≤ max ∧
    (blocks block max n pos rest).2.length < block := by
  intro n
  induction n with
  | zero =>
    intro pos rest h1 h2 h3 h4 h5
    have : rest.length = 0 := by omega
    unfold blocks
    refine ⟨rfl, Nat.zero_mod _, h2, ?_⟩
    show rest.length < block
    omega
  | succ n ih =>
    intro pos rest h1 h2 h3 h4 h5
    unfold blocks
    by_cases hc : block ≤ rest.length ∧ pos + block ≤ max
    · rw [if_pos hc]
      dsimp only
      obtain ⟨i1, i2, i3, i4⟩ := ih (pos + block) (rest.drop block) (by rw [Nat.add_mod_right]; exact h1) hc.2 h3
        (by rw [List.length_drop]; omega) (by rw [List.length_drop]; omega)
      refine ⟨?_, ?_, ?_, i4⟩
      · rw [List.append_assoc, i1, List.take_append_drop]
      · rw [List.length_append, List.length_take, Nat.min_eq_left hc.1, Nat.add_mod_left]; exact i2
      · rw [List.length_append, List.length_take, Nat.min_eq_left hc.1]; omega
    · rw [if_neg hc]
      refine ⟨rfl, Nat.zero_mod _, h2, ?_⟩
      show rest.length < block
      by_cases hl : block ≤ rest.length
      · exfalso
        have h6 : max < pos + block := Nat.lt_of_not_le fun h => hc ⟨hl, h⟩
        -- pos and max are multiples of block
        obtain ⟨a, rfl⟩ := Nat.dvd_of_mod_eq_zero h1
        obtain ⟨c, rfl⟩ := Nat.dvd_of_mod_eq_zero h3
        have : c < a + 1 := by
          apply Nat.lt_of_mul_lt_mul_left (a := block)
          rw [Nat.mul_add, Nat.mul_one]; exact h6
        have : block * c ≤ block * a := Nat.mul_le_mul_left _ (by omega)
        omega
      · omega

/-- A protocol with blocks and room for at least one. -/
structure Sane (p : Proto σ) : Prop where
  block : 0 < p.block
  whole : p.maxInline % p.block = 0
  room : p.block ≤ p.maxInline

theorem pack_spec {p : Proto σ} (hp : Sane p) {st : St σ} {inp : List UInt8} (hb : st.buf.length < p.block)
    (hc : inp.length ≤ capacity p st) :
    (pack p st.buf inp).1 ++ (pack p st.buf inp).2 = st.buf ++ inp ∧
    (pack p st.buf inp).1.length % p.block = 0 ∧
    (pack p st.buf inp).1.length ≤ p.maxInline ∧
    (pack p st.buf inp).2.length < p.block := by
  have h0 := hp.block
  have hr := hp.room
  unfold capacity at hc
  unfold pack
  dsimp only
  by_cases hz : st.buf.length > 0
  · rw [if_pos hz]
    by_cases hf : p.block - st.buf.length ≤ inp.length
    · have htop : (st.buf ++ inp.take (min (p.block - st.buf.length) inp.length)).length = p.block := by
        rw [List.length_append, List.length_take]; omega
      rw [if_pos ⟨hz, htop⟩, if_pos ⟨hz, htop⟩, htop, List.nil_append]
      obtain ⟨i1, i2, i3, i4⟩ := blocks_spec (max := p.maxInline) h0 inp.length p.block
        (inp.drop (min (p.block - st.buf.length) inp.length)) (Nat.mod_self _) hr hp.whole
        (by rw [List.length_drop]; omega) (by rw [List.length_drop]; omega)
      refine ⟨?_, ?_, ?_, i4⟩
      · rw [List.append_assoc, i1, List.append_assoc, List.take_append_drop]
      · rw [List.length_append, htop, Nat.add_mod_left]; exact i2
      · rw [List.length_append, htop]; exact i3
    · have hn : ¬ (st.buf.length > 0 ∧ (st.buf ++ inp.take (min (p.block - st.buf.length) inp.length)).length = p.block) := by
        rw [List.length_append, List.length_take]; omega
      rw [if_neg hn, if_neg hn]
      have hm : min (p.block - st.buf.length) inp.length = inp.length := by omega
      rw [hm, List.take_length, List.drop_length, List.length_nil]
      obtain ⟨i1, i2, i3, i4⟩ := blocks_spec (max := p.maxInline) h0 inp.length 0
        [] (Nat.zero_mod _) (Nat.zero_le _) hp.whole (Nat.zero_le _) (by rw [List.length_nil]; omega)
      have e := List.append_eq_nil_iff.1 i1
      rw [e.1, e.2]
      refine ⟨by simp, Nat.zero_mod _, Nat.zero_le _, ?_⟩
      rw [List.append_nil, List.length_append]; omega
  · rw [if_neg hz]
    have hn : ∀ x, ¬ (st.buf.length > 0 ∧ (st.buf ++ inp.take 0).length = x) := fun x h => hz h.1
    rw [if_neg (hn _), if_neg (hn _)]
    have he : st.buf = [] := List.eq_nil_of_length_eq_zero (by omega)
    rw [he] at hc ⊢
    rw [List.take_zero, List.drop_zero]
    simp only [List.nil_append, List.length_nil]
    obtain ⟨i1, i2, i3, i4⟩ := blocks_spec (max := p.maxInline) h0 inp.length 0
        inp (Nat.zero_mod _) (Nat.zero_le _) hp.whole (Nat.le_refl _) (by rw [List.length_nil] at hc; omega)
    exact ⟨i1, i2, by omega, i4⟩

/-! ## Streaming -/

/-- A peer that keeps the chaining state `S` and gives the digest `D`, or fails. -/
structure Keeps (p : Proto σ) (peer : Nat → List UInt8 → Reply) (S : List UInt8 → σ) (D : List UInt8 → List UInt8) : Prop where
  init : p.init = S []
  update : ∀ k m b, m.length % p.block = 0 → b.length % p.block = 0 → b.length ≤ p.maxInline →
    match peer k (p.request false (S m) b) with
    | .unsent rc => rc ≠ 0
    | .lost rc => rc ≠ 0
    | .got r => p.chain r = (0, some (S (m ++ b))) ∨ (p.chain r).1 ≠ 0
  final : ∀ k m t, m.length % p.block = 0 → t.length < p.block →
    match peer k (p.request true (S m) t) with
    | .unsent rc => rc ≠ 0
    | .lost rc => rc ≠ 0
    | .got r => p.digest r = (0, some (D (m ++ t))) ∨ (p.digest r).1 ≠ 0

variable {p : Proto σ} {peer : Nat → List UInt8 → Reply} {S : List UInt8 → σ} {D : List UInt8 → List UInt8}

theorem badargs_ne : Rc.badargs.code ≠ 0 := by decide

theorem update_holds (hp : Sane p) (hk : Keeps p peer S D) {k : Nat} {m : List UInt8} {st : St σ} (h : Holds p S m st)
    {inp : List UInt8} (hok : (update p peer k st inp).1 = 0) : Holds p S (m ++ inp) (update p peer k st inp).2.1 := by
  obtain ⟨m0, h1, h2, h3, h4⟩ := h
  unfold update at hok ⊢
  by_cases hc : p.block ≤ st.buf.length ∨ capacity p st < inp.length
  · rw [if_pos hc] at hok; exact absurd hok badargs_ne
  rw [if_neg hc] at hok ⊢
  by_cases hi : inp.length = 0
  · rw [if_pos hi] at hok ⊢
    rw [List.eq_nil_of_length_eq_zero hi, List.append_nil]
    exact ⟨m0, h1, h2, h3, h4⟩
  rw [if_neg hi] at hok ⊢
  obtain ⟨q1, q2, q3, q4⟩ := pack_spec (inp := inp) hp h4 (by omega)
  dsimp only at hok ⊢
  by_cases hw : (pack p st.buf inp).1.length = 0
  · rw [if_pos hw] at hok ⊢
    refine ⟨m0, h1, h2, ?_, q4⟩
    rw [List.eq_nil_of_length_eq_zero hw, List.nil_append] at q1
    show m0 ++ (pack p st.buf inp).2 = _
    rw [q1, ← List.append_assoc, h3]
  · rw [if_neg hw] at hok ⊢
    have hu := hk.update k m0 (pack p st.buf inp).1 h1 q2 q3
    rw [← h2] at hu
    generalize peer k (p.request false st.chain (pack p st.buf inp).1) = a at hok hu ⊢
    rcases a with rc | rc | r
    · exact absurd hok hu
    · exact absurd hok hu
    · dsimp only at hok hu ⊢
      rcases hu with hu | hu
      · rw [hu] at hok ⊢
        refine ⟨m0 ++ (pack p st.buf inp).1, ?_, rfl, ?_, q4⟩
        · rw [List.length_append, Nat.add_mod, h1, q2]; simp
        · show (m0 ++ (pack p st.buf inp).1) ++ (pack p st.buf inp).2 = _
          rw [List.append_assoc, q1, ← List.append_assoc, h3]
      · exfalso
        generalize p.chain r = c at hok hu
        rcases c with ⟨rc, _ | c⟩ <;> exact hu hok

theorem final_holds (hk : Keeps p peer S D) (hp : Sane p) {k : Nat} {m : List UInt8} {st : St σ} (h : Holds p S m st)
    (hok : (final p peer k st).1.1 = 0) :
    (final p peer k st).1.2 = some (D m) ∧ Holds p S [] (final p peer k st).2.1 := by
  obtain ⟨m0, h1, h2, h3, h4⟩ := h
  unfold final at hok ⊢
  by_cases hc : p.block ≤ st.buf.length
  · rw [if_pos hc] at hok; exact absurd hok badargs_ne
  rw [if_neg hc] at hok ⊢
  have hu := hk.final k m0 st.buf h1 h4
  rw [← h2, h3] at hu
  generalize peer k (p.request true st.chain st.buf) = a at hok hu ⊢
  rcases a with rc | rc | r
  · exact absurd hok hu
  · exact absurd hok hu
  · dsimp only at hok hu ⊢
    rcases hu with hu | hu
    · rw [hu]
      refine ⟨rfl, [], Nat.zero_mod _, hk.init, rfl, ?_⟩
      exact hp.block
    · exfalso
      generalize p.digest r = c at hok hu
      rcases c with ⟨rc, _ | c⟩ <;> exact hu hok

theorem capacity_pos (hp : Sane p) (st : St σ) : 0 < capacity p st := by
  have := hp.block; have := hp.room
  unfold capacity; omega

theorem absorb_holds (hp : Sane p) (hk : Keeps p peer S D) : ∀ (n k : Nat) (m : List UInt8) (st : St σ) (inp : List UInt8),
    Holds p S m st → inp.length ≤ n → (absorb p peer n k st inp).1 = 0 →
    Holds p S (m ++ inp) (absorb p peer n k st inp).2.1 := by
  intro n
  induction n with
  | zero =>
    intro k m st inp h hl _
    rw [List.eq_nil_of_length_eq_zero (Nat.le_zero.1 hl), List.append_nil]
    exact h
  | succ n ih =>
    intro k m st inp h hl hok
    unfold absorb at hok ⊢
    by_cases hi : inp.length = 0
    · rw [if_pos hi]
      rw [List.eq_nil_of_length_eq_zero hi, List.append_nil]
      exact h
    rw [if_neg hi] at hok ⊢
    dsimp only at hok ⊢
    by_cases hz : (update p peer k st (inp.take (capacity p st))).1 = 0
    · rw [if_pos hz] at hok ⊢
      have hu := update_holds hp hk h hz
      have hc := capacity_pos hp st
      have := ih _ _ _ _ hu (by rw [List.length_drop]; omega) hok
      rwa [List.append_assoc, List.take_append_drop] at this
    · rw [if_neg hz] at hok
      exact absurd hok hz

theorem hash_holds (hp : Sane p) (hk : Keeps p peer S D) {k : Nat} {m : List UInt8} {st : St σ} (h : Holds p S m st)
    (inp : List UInt8) (out : Bool) (hok : (hash p peer k st inp out).1.1 = 0) :
    (hash p peer k st inp out).1.2 = (if out then some (D (m ++ inp)) else none) ∧
    Holds p S (if out then [] else m ++ inp) (hash p peer k st inp out).2.1 := by
  unfold hash at hok ⊢
  dsimp only at hok ⊢
  by_cases hz : (absorb p peer inp.length k st inp).1 = 0
  · have ha := absorb_holds hp hk inp.length k m st inp h (Nat.le_refl _) hz
    cases out with
    | true =>
      rw [if_pos ⟨hz, rfl⟩] at hok ⊢
      exact final_holds hk hp ha hok
    | false =>
      rw [if_neg (fun hc => Bool.noConfusion hc.2)]
      exact ⟨rfl, ha⟩
  · rw [if_neg (fun hc => hz hc.1)] at hok
    exact absurd hok hz

theorem hash3_eq {k : Nat} {st : St σ} {inp : List UInt8} {out : Bool} (hok : (hash3 p peer k st inp out).1.1 = 0) :
    hash3 p peer k st inp out = hash p peer k st inp out := by
  unfold hash3 at hok ⊢
  dsimp only at hok ⊢
  by_cases hz : (hash p peer k st inp out).1.1 = 0
  · rw [if_pos hz]
  · rw [if_neg hz] at hok; exact absurd hok hz

theorem results_spec (hp : Sane p) (hk : Keeps p peer S D) (three : Bool) : ∀ (cs : List Call) (k : Nat) (m : List UInt8) (st : St σ),
    Holds p S m st → (∀ q ∈ results p three peer k st cs, q.1 = 0) →
    (results p three peer k st cs).map (·.2) = digests D m cs := by
  intro cs
  induction cs with
  | nil => intro k m st _ _; rfl
  | cons c cs ih =>
    intro k m st h hok
    unfold results at hok ⊢
    dsimp only at hok ⊢
    have h0 : (call p three peer k st c).1.1 = 0 := hok _ (List.mem_cons_self ..)
    have hr := fun m' hm => ih (call p three peer k st c).2.2 m' (call p three peer k st c).2.1 hm
      (fun q hq => hok q (List.mem_cons_of_mem _ hq))
    rw [List.map_cons]
    cases c with
    | chunk a =>
      have := update_holds hp hk h (inp := a) (k := k) h0
      rw [hr _ this]
      rfl
    | hash a out =>
      have hh : (call p three peer k st (.hash a out)).1.2 = (if out then some (D (m ++ a)) else none) ∧
          Holds p S (if out then [] else m ++ a) (call p three peer k st (.hash a out)).2.1 := by
        cases three with
        | true =>
          have e : call p true peer k st (.hash a out) = hash p peer k st a out := hash3_eq h0
          rw [e] at h0 ⊢
          exact hash_holds hp hk h a out h0
        | false => exact hash_holds hp hk h a out h0
      rw [hr _ hh.2, hh.1]
      cases out <;> rfl

/-! ## Progress -/

/-- The peer answers what the protocol sends, and the answers are good. -/
def Lively (p : Proto σ) (peer : Nat → List UInt8 → Reply) (S : List UInt8 → σ) : Prop :=
  (∀ k m b, m.length % p.block = 0 → b.length % p.block = 0 → b.length ≤ p.maxInline →
    ∃ r, peer k (p.request false (S m) b) = .got r ∧ (p.chain r).1 = 0) ∧
  ∀ k m t, m.length % p.block = 0 → t.length < p.block →
    ∃ r, peer k (p.request true (S m) t) = .got r ∧ (p.digest r).1 = 0

theorem update_ok (hp : Sane p) (hl : Lively p peer S) {k : Nat} {m : List UInt8} {st : St σ} (h : Holds p S m st)
    {inp : List UInt8} (hc : inp.length ≤ capacity p st) : (update p peer k st inp).1 = 0 := by
  obtain ⟨m0, h1, h2, h3, h4⟩ := h
  unfold update
  rw [if_neg (by omega)]
  by_cases hi : inp.length = 0
  · rw [if_pos hi]
  rw [if_neg hi]
  obtain ⟨q1, q2, q3, q4⟩ := pack_spec (inp := inp) hp h4 hc
  dsimp only
  by_cases hw : (pack p st.buf inp).1.length = 0
  · rw [if_pos hw]
  · rw [if_neg hw]
    obtain ⟨r, e1, e2⟩ := hl.1 k m0 (pack p st.buf inp).1 h1 q2 q3
    rw [h2, e1]
    dsimp only
    generalize p.chain r = c at e2 ⊢
    rcases c with ⟨rc, _ | c⟩ <;> exact e2

theorem final_ok (hl : Lively p peer S) {k : Nat} {m : List UInt8} {st : St σ} (h : Holds p S m st) :
    (final p peer k st).1.1 = 0 := by
  obtain ⟨m0, h1, h2, h3, h4⟩ := h
  unfold final
  rw [if_neg (by omega)]
  obtain ⟨r, e1, e2⟩ := hl.2 k m0 st.buf h1 h4
  rw [h2, e1]
  dsimp only
  generalize p.digest r = c at e2 ⊢
  rcases c with ⟨rc, _ | c⟩ <;> exact e2

theorem absorb_ok (hp : Sane p) (hk : Keeps p peer S D) (hl : Lively p peer S) : ∀ (n k : Nat) (m : List UInt8) (st : St σ) (inp : List UInt8),
    Holds p S m st → (absorb p peer n k st inp).1 = 0 := by
  intro n
  induction n with
  | zero => intros; rfl
  | succ n ih =>
    intro k m st inp h
    unfold absorb
    by_cases hi : inp.length = 0
    · rw [if_pos hi]
    rw [if_neg hi]
    dsimp only
    have hu := update_ok (k := k) hp hl h (inp := inp.take (capacity p st)) (by rw [List.length_take]; omega)
    rw [if_pos hu]
    exact ih _ _ _ _ (update_holds hp hk h hu)

theorem hash_ok (hp : Sane p) (hk : Keeps p peer S D) (hl : Lively p peer S) {k : Nat} {m : List UInt8} {st : St σ} (h : Holds p S m st)
    (inp : List UInt8) (out : Bool) : (hash p peer k st inp out).1.1 = 0 := by
  unfold hash
  dsimp only
  have ha := absorb_ok hp hk hl inp.length k m st inp h
  cases out with
  | true =>
    rw [if_pos ⟨ha, rfl⟩]
    exact final_ok hl (absorb_holds hp hk inp.length k m st inp h (Nat.le_refl _) ha)
  | false =>
    rw [if_neg (fun hc => Bool.noConfusion hc.2)]
    exact ha

theorem call_holds (hp : Sane p) (hk : Keeps p peer S D) (three : Bool) {c : Call} {k : Nat} {m : List UInt8} {st : St σ}
    (h : Holds p S m st) (h0 : (call p three peer k st c).1.1 = 0) :
    ∃ m', Holds p S m' (call p three peer k st c).2.1 := by
  cases c with
  | chunk a => exact ⟨_, update_holds hp hk h (inp := a) (k := k) h0⟩
  | hash a out =>
    cases three with
    | true =>
      have e : call p true peer k st (.hash a out) = hash p peer k st a out := hash3_eq h0
      rw [e] at h0 ⊢
      exact ⟨_, (hash_holds hp hk h a out h0).2⟩
    | false => exact ⟨_, (hash_holds hp hk h a out h0).2⟩

theorem call_ok (hp : Sane p) (hk : Keeps p peer S D) (hl : Lively p peer S) (three : Bool) {c : Call} (hc : c.Fits p) {k : Nat}
    {m : List UInt8} {st : St σ} (h : Holds p S m st) : (call p three peer k st c).1.1 = 0 := by
  cases c with
  | chunk a =>
    refine update_ok hp hl h ?_
    have : a.length ≤ p.maxInline := hc
    unfold capacity; omega
  | hash a out =>
    have hh := hash_ok hp hk hl (k := k) h a out
    cases three with
    | true =>
      show (hash3 p peer k st a out).1.1 = 0
      unfold hash3
      dsimp only
      rw [if_pos hh]; exact hh
    | false => exact hh

theorem results_ok (hp : Sane p) (hk : Keeps p peer S D) (hl : Lively p peer S) (three : Bool) : ∀ (cs : List Call) (k : Nat) (m : List UInt8)
    (st : St σ), Holds p S m st → (∀ c ∈ cs, c.Fits p) → ∀ q ∈ results p three peer k st cs, q.1 = 0 := by
  intro cs
  induction cs with
  | nil => intro k m st _ _ q hq; cases hq
  | cons c cs ih =>
    intro k m st h hc q hq
    unfold results at hq
    dsimp only at hq
    have h0 := call_ok (k := k) hp hk hl three (hc c (List.mem_cons_self ..)) h
    rcases List.mem_cons.1 hq with rfl | hq
    · exact h0
    · obtain ⟨m', hm⟩ := call_holds hp hk three h h0
      exact ih _ _ _ hm (fun c hc' => hc c (List.mem_cons_of_mem _ hc')) q hq

/-- Codes and digests of calls that all return 0. -/
theorem results_eq (hp : Sane p) (hk : Keeps p peer S D) (three : Bool) {cs : List Call} {k : Nat} {m : List UInt8} {st : St σ}
    (h : Holds p S m st) (h0 : ∀ q ∈ results p three peer k st cs, q.1 = 0) :
    results p three peer k st cs = (digests D m cs).map fun d => (0, d) := by
  rw [← results_spec hp hk three cs k m st h h0, List.map_map]
  conv => lhs; rw [← List.map_id (results p three peer k st cs)]
  exact List.map_congr_left fun q hq => Prod.ext (h0 q hq) rfl

theorem kept3 (hp : Sane p) (hk : Keeps p peer S D) : ∀ (cs : List Call) (k : Nat) (m : List UInt8) (st : St σ), Holds p S m st →
    (∀ c ∈ cs, c.Whole) → Kept D m (cs.zip (results p true peer k st cs)) := by
  intro cs
  induction cs with
  | nil => intro k m st _ _; trivial
  | cons c cs ih =>
    intro k m st h hc
    cases c with
    | chunk a => exact False.elim (hc _ (List.mem_cons_self ..))
    | hash a out =>
      unfold results
      dsimp only
      rw [List.zip_cons_cons]
      have ih' := fun m' hm => ih (call p true peer k st (.hash a out)).2.2 m' (call p true peer k st (.hash a out)).2.1 hm
        (fun c hc' => hc c (List.mem_cons_of_mem _ hc'))
      by_cases h0 : (call p true peer k st (.hash a out)).1.1 = 0
      · have hh : (call p true peer k st (.hash a out)).1.2 = (if out then some (D (m ++ a)) else none) ∧
            Holds p S (if out then [] else m ++ a) (call p true peer k st (.hash a out)).2.1 := by
          have e : call p true peer k st (.hash a out) = hash p peer k st a out := hash3_eq h0
          rw [e] at h0 ⊢
          exact hash_holds hp hk h a out h0
        cases out with
        | true => exact (if_pos h0).mpr ⟨hh.1, ih' _ hh.2⟩
        | false => exact (if_pos h0).mpr ⟨hh.1, ih' _ hh.2⟩
      · have hst : (call p true peer k st (.hash a out)).2.1 = st := by
          change (hash3 p peer k st a out).1.1 ≠ 0 at h0
          show (hash3 p peer k st a out).2.1 = st
          unfold hash3 at h0 ⊢
          dsimp only at h0 ⊢
          by_cases hz : (hash p peer k st a out).1.1 = 0
          · rw [if_pos hz] at h0; exact absurd hz h0
          · rw [if_neg hz]
        have := ih' m (by rw [hst]; exact h)
        cases out with
        | true => exact (if_neg h0).mpr this
        | false => exact (if_neg h0).mpr this

end WolfHsm.ClientHash

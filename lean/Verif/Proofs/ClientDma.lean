import Verif.Spec.ClientDma
import Mathlib.Tactic.Common

/-! # Lemmas on mapped and released buffers -/

namespace WolfHsm.ClientDma

/-- `m` is where the server finds `b`. -/
def Cov (m : Map) (b : Buf) : Prop := m.taddr = b.addr ∧ m.len = b.len ∧ m.dir = b.dir

/-- The trace is fine so far, `L` and a remainder are mapped (no remainder if `g`), and `V` is in use
(if `h`). -/
def T (g h : Prop) (tr : List Ev) (L : List Map) (V : List Buf) : Prop :=
  NoStrayRelease tr ∧ ∃ leak : List Map, (g → leak = []) ∧
    (∀ m, maps m tr = releases m tr + (L ++ leak).count m) ∧
    (h → Covered tr ∧ live tr = V ∧ ∀ b ∈ V, ∃ m ∈ L, Cov m b)

variable {g h : Prop}

theorem T.nil : T g h [] [] [] := by
  refine ⟨?_, [], fun _ => rfl, ?_, fun _ => ⟨?_, rfl, by simp⟩⟩
  · intro p hp m; rw [List.prefix_nil.mp hp]; simp [releases]
  · intro m; simp [maps, releases]
  · intro p hp b hb; rw [List.prefix_nil.mp hp] at hb; simp [live] at hb

theorem T.perm {tr L L' V} (t : T g h tr L V) (hp : L.Perm L') : T g h tr L' V := by
  obtain ⟨a, leak, hl, hc, hv⟩ := t
  refine ⟨a, leak, hl, fun m => ?_, fun hh => ?_⟩
  · rw [hc m, (hp.append_right leak).count_eq m]
  · obtain ⟨x, y, z⟩ := hv hh
    refine ⟨x, y, fun b hb => ?_⟩
    obtain ⟨m, hm, c⟩ := z b hb
    exact ⟨m, hp.mem_iff.mp hm, c⟩

theorem T.leak {tr L m} (t : T g h tr (m :: L) []) (hg : ¬ g) : T g h tr L [] := by
  obtain ⟨a, leak, hl, hc, hv⟩ := t
  have hp : ((m :: L) ++ leak).Perm (L ++ (m :: leak)) := by
    simpa using (List.perm_middle (a := m) (l₁ := L) (l₂ := leak)).symm
  refine ⟨a, m :: leak, fun x => absurd x hg, fun x => ?_, fun hh => ?_⟩
  · rw [hc x, hp.count_eq x]
  · obtain ⟨x, y, z⟩ := hv hh
    exact ⟨x, y, by simp⟩

theorem T.change {tr L V V'} (t : T g h tr L V) (hh : ¬ h) : T g h tr L V' := by
  obtain ⟨a, leak, hl, hc, _⟩ := t
  exact ⟨a, leak, hl, hc, fun x => absurd x hh⟩

theorem prefix_concat {p tr : List Ev} {e} (hp : p <+: tr ++ [e]) : p <+: tr ∨ p = tr ++ [e] := by
  rcases List.prefix_concat_iff.mp (by simpa using hp) with h | h
  · exact .inr (by simpa using h)
  · exact .inl h

theorem maps_append (m tr e) : maps m (tr ++ [e]) = maps m tr + maps m [e] := by
  simp [maps, List.countP_append]

theorem releases_append (m tr e) : releases m (tr ++ [e]) = releases m tr + releases m [e] := by
  simp [releases, List.countP_append]

theorem live_append (tr e) : live (tr ++ [e]) = (match e with
  | .sent bs => bs ++ live tr
  | .ended _ true => []
  | _ => live tr) := by
  unfold live; rw [List.foldl_append]; rfl

/-- One more event. -/
theorem T.event {tr L L' V V'} {e : Ev} (t : T g h tr L V)
    (hc : ∀ m, maps m [e] + L.count m = releases m [e] + L'.count m)
    (hv : h → live tr = V → live (tr ++ [e]) = V')
    (hv' : h → (∀ b ∈ V, ∃ m ∈ L, Cov m b) → ∀ b ∈ V', ∃ m ∈ L', Cov m b) :
    T g h (tr ++ [e]) L' V' := by
  obtain ⟨a, leak, hl, c, v⟩ := t
  have c' : ∀ m, maps m (tr ++ [e]) = releases m (tr ++ [e]) + (L' ++ leak).count m := by
    intro m
    have := c m
    have := hc m
    rw [maps_append, releases_append, List.count_append]
    rw [List.count_append] at *
    omega
  refine ⟨?_, leak, hl, c', ?_⟩
  · intro p hp m
    rcases prefix_concat hp with hp | rfl
    · exact a p hp m
    · rw [c' m]; omega
  · intro hh
    obtain ⟨x, y, z⟩ := v hh
    have hl' := hv hh y
    have z' := hv' hh z
    refine ⟨?_, hl', z'⟩
    intro p hp b hb
    rcases prefix_concat hp with hp | rfl
    · exact x p hp b hb
    · rw [hl'] at hb
      obtain ⟨m, hm, q⟩ := z' b hb
      refine ⟨m, ?_, q⟩
      have := List.count_pos_iff.mpr hm
      rw [c' m, List.count_append]; omega

theorem T.mapped {tr L V} (t : T g h tr L V) (m : Map) : T g h (tr ++ [.mapped m]) (m :: L) V := by
  refine t.event (fun x => ?_) (fun _ e => by rw [live_append]; exact e) (fun _ z b hb => ?_)
  · simp only [maps, releases, List.countP_cons, List.countP_nil, List.count_cons]
    by_cases e : m = x <;> simp [e, Nat.add_comm]
  · obtain ⟨x, hx, c⟩ := z b hb
    exact ⟨x, List.mem_cons_of_mem _ hx, c⟩

theorem T.released' {tr L m V} (t : T g h tr (m :: L) V) (rc : Ret) (hv : h → ∀ b ∈ V, ∃ m ∈ L, Cov m b) :
    T g h (tr ++ [.released m rc]) L V := by
  refine t.event (fun x => ?_) (fun _ e => by rw [live_append]; exact e) (fun hh _ => hv hh)
  simp only [maps, releases, List.countP_cons, List.countP_nil, List.count_cons]
  by_cases e : m = x <;> simp [e, Nat.add_comm]

theorem T.released {tr L m} (t : T g h tr (m :: L) []) (rc : Ret) : T g h (tr ++ [.released m rc]) L [] :=
  t.released' rc fun _ => by simp

theorem T.covers {tr L V} (t : T g h tr L V) (hh : h) : ∀ b ∈ V, ∃ m ∈ L, Cov m b := by
  obtain ⟨_, _, _, _, v⟩ := t
  exact (v hh).2.2

theorem T.refused {tr L V} (t : T g h tr L V) (b : Buf) : T g h (tr ++ [.refused b]) L V :=
  t.event (fun x => by simp [maps, releases]) (fun _ e => by rw [live_append]; exact e) (fun _ z => z)

theorem T.sent {tr L} (t : T g h tr L []) (bs : List Buf) (hb : h → ∀ b ∈ bs, ∃ m ∈ L, Cov m b) :
    T g h (tr ++ [.sent bs]) L bs := by
  refine t.event (fun x => by simp [maps, releases])
    (fun _ e => by rw [live_append]; simp only [e, List.append_nil]) (fun hh _ b hb' => hb hh b hb')

theorem T.ended {tr L V} (t : T g h tr L V) (rc : Ret) (a : Bool) (ha : h → a = true) :
    T g h (tr ++ [.ended rc a]) L [] := by
  refine t.event (fun x => by simp [maps, releases]) (fun hh _ => ?_) (fun _ _ => by simp)
  rw [live_append, ha hh]

/-! ## Steps of the program -/

/-- Same flags. -/
def Same (s s' : S) : Prop := s'.pending = s.pending ∧ s'.last = s.last

theorem Same.refl (s : S) : Same s s := ⟨rfl, rfl⟩

theorem Same.trans {a b c : S} (x : Same a b) (y : Same b c) : Same a c :=
  ⟨y.1.trans x.1, y.2.trans x.2⟩

theorem put_same (s : S) (o v) : Same s (s.put o v) := ⟨rfl, rfl⟩

theorem put_trace (s : S) (o v) : (s.put o v).trace = s.trace := rfl

/-- What was mapped. -/
def mk (o : Nat) (d : Dir) (sl : Nat → UInt64) : List Map :=
  if sl (o + 2) = 0 then [] else [⟨sl (o + 1), sl o, sl (o + 2), d⟩]

theorem process_slots (w s ph b t) : (process w s ph b t).2.2.slots = s.slots := by
  unfold process; dsimp only; split <;> rfl

theorem process_same (w s ph b t) : Same s (process w s ph b t).2.2 := by
  unfold process; dsimp only; split <;> exact ⟨rfl, rfl⟩

theorem process_pre_ok {w s b t L V} (hT : T g h s.trace L V) (hr : (process w s .pre b t).1 = 0) :
    T g h (process w s .pre b t).2.2.trace (⟨b.addr, (process w s .pre b t).2.1, b.len, b.dir⟩ :: L) V := by
  unfold process at hr ⊢
  dsimp only at hr ⊢
  by_cases e : (w.cb s.k .pre b t).1 = 0
  · simp only [e, if_true] at hr ⊢
    exact hT.mapped _
  · simp only [e, if_false] at hr

theorem process_pre_err {w s b t L} (hg : g → Grants w) (hT : T g h s.trace L [])
    (hr : (process w s .pre b t).1 ≠ 0) : T g h (process w s .pre b t).2.2.trace L [] := by
  unfold process at hr ⊢
  dsimp only at hr ⊢
  by_cases e : (w.cb s.k .pre b t).1 = 0
  · simp only [e, if_true] at hr ⊢
    refine (hT.mapped _).leak fun gg => hr ?_
    rw [hg gg]; simp
  · simp only [e, if_false] at hr ⊢
    exact hT.refused b

theorem process_pre_willing {w s b t} (hg : Grants w) (hw : Willing w) : (process w s .pre b t).1 = 0 := by
  unfold process
  dsimp only
  rw [if_pos (hw s.k b t), hg]; simp

theorem process_post' {w s b t L V} (hT : T g h s.trace (⟨b.addr, t, b.len, b.dir⟩ :: L) V)
    (hv : h → ∀ b ∈ V, ∃ m ∈ L, Cov m b) : T g h (process w s .post b t).2.2.trace L V := by
  unfold process
  dsimp only
  split <;> exact hT.released' _ hv

theorem process_post {w s b t L} (hT : T g h s.trace (⟨b.addr, t, b.len, b.dir⟩ :: L) []) :
    T g h (process w s .post b t).2.2.trace L [] := by
  unfold process
  dsimp only
  split <;> exact hT.released _

theorem send_spec {w s kd bs L} (hT : T g h s.trace L []) (hh : h → Reliable w) (hp : s.pending = false)
    (hb : h → ∀ b ∈ named bs, ∃ m ∈ L, Cov m b) :
    (send w s kd bs).2.slots = s.slots ∧
    ((send w s kd bs).1 = 0 → (send w s kd bs).2.pending = true ∧ (send w s kd bs).2.last = kd ∧
      T g h (send w s kd bs).2.trace L (named bs)) ∧
    ((send w s kd bs).1 ≠ 0 → ((send w s kd bs).2.pending = true → (send w s kd bs).2.last = kd) ∧
      T g h (send w s kd bs).2.trace L []) := by
  unfold send
  rw [if_neg (by rw [hp]; decide)]
  dsimp only
  have hT' := hT.sent (named bs) hb
  split
  · rename_i c
    refine ⟨rfl, fun _ => ⟨rfl, rfl, hT'⟩, fun e => ⟨fun _ => rfl, hT'.change fun x => ?_⟩⟩
    rcases c with c | c
    · exact e c
    · exact e ((hh x).1 _ c)
  · rename_i c
    exact ⟨rfl, fun e => absurd (.inl e) c, fun _ => ⟨fun e => absurd e (by rw [hp]; decide), hT⟩⟩

theorem send_pending {w s kd bs} (hp : s.pending = true) : send w s kd bs = (Rc.requestPending.code, s) := by
  unfold send; rw [if_pos hp]

/-- An attempt to receive. -/
theorem recv_spec {w s L V} (hT : T g h s.trace L V) (hh : h → Reliable w) :
    (recv w s).2.slots = s.slots ∧ (recv w s).2.last = s.last ∧
    ((recv w s).1 = Rc.notready.code → (recv w s).2.pending = s.pending ∧ T g h (recv w s).2.trace L V) ∧
    ((recv w s).1 ≠ Rc.notready.code → s.pending = true ∧ T g h (recv w s).2.trace L []) := by
  unfold recv
  split
  · exact ⟨rfl, rfl, fun _ => ⟨rfl, hT⟩, fun e => absurd rfl e⟩
  · rename_i c
    dsimp only
    split
    · rename_i e
      exact ⟨rfl, rfl, fun _ => ⟨rfl, hT⟩, fun e' => absurd e e'⟩
    · rename_i e
      exact ⟨rfl, rfl, fun e' => absurd e' e, fun _ => ⟨by simpa using c, hT.ended _ _ fun x => (hh x).2.1 _ e⟩⟩

theorem wait_spec {w s L V} (hT : T g h s.trace L V) (hh : h → Reliable w) :
    (wait w s).2.slots = s.slots ∧ (wait w s).2.last = s.last ∧ T g h (wait w s).2.trace L [] :=
  ⟨rfl, rfl, hT.ended _ _ fun x => (hh x).2.2 _⟩

theorem asyncPost_spec {w s o L}
    (hT : T g h s.trace (mk o (dirOf (s.slots (o + 3))) s.slots ++ L) []) :
    Same s (asyncPost w s o).2 ∧ T g h (asyncPost w s o).2.trace L [] ∧
    (asyncPost w s o).2.slots (o + 2) = 0 ∧
    (∀ i, (i < o ∨ o + 4 ≤ i) → (asyncPost w s o).2.slots i = s.slots i) := by
  unfold asyncPost
  unfold mk at hT
  split
  · rename_i c
    rw [if_pos c] at hT
    exact ⟨Same.refl _, hT, c, fun _ _ => rfl⟩
  · rename_i c
    rw [if_neg c] at hT
    dsimp only
    refine ⟨(process_same ..).trans (put_same ..), ?_, ?_, ?_⟩
    · rw [put_trace]
      exact process_post (by simpa using hT)
    · simp [S.put]
    · intro i hi
      simp only [S.put, process_slots, List.length_cons, List.length_nil]
      rw [if_neg (by omega)]

theorem postWords_spec {w s o d L} (hT : T g h s.trace (mk o d s.slots ++ L) []) :
    Same s (postWords w s o d) ∧ T g h (postWords w s o d).trace L [] ∧
    (postWords w s o d).slots (o + 2) = 0 ∧
    (∀ i, i ≠ o + 2 → (postWords w s o d).slots i = s.slots i) := by
  unfold postWords
  unfold mk at hT
  split
  · rename_i c
    rw [if_pos c] at hT
    exact ⟨Same.refl _, hT, c, fun _ _ => rfl⟩
  · rename_i c
    rw [if_neg c] at hT
    refine ⟨(process_same ..).trans (put_same ..), ?_, ?_, ?_⟩
    · rw [put_trace]
      exact process_post (by simpa using hT)
    · simp [S.put]
    · intro i hi
      simp only [S.put, process_slots, List.length_cons, List.length_nil]
      rw [if_neg (by omega)]

theorem dirOf_postOper (d : Dir) : dirOf (postOper d) = d := by cases d <;> decide

theorem mk_of {o d sl} (a t n : UInt64) (h0 : sl o = t) (h1 : sl (o + 1) = a) (h2 : sl (o + 2) = n) :
    mk o d sl = if n = 0 then [] else [⟨a, t, n, d⟩] := by
  unfold mk; rw [h0, h1, h2]

theorem asyncPre_spec {w s o b L} (hg : g → Grants w) (hT : T g h s.trace L []) :
    Same s (asyncPre w s o b).2.2 ∧
    (∀ i, (i < o ∨ o + 4 ≤ i) → (asyncPre w s o b).2.2.slots i = s.slots i) ∧
    ((asyncPre w s o b).1 ≠ 0 → (asyncPre w s o b).2.2.slots (o + 2) = 0) ∧
    (b.len ≠ 0 → (asyncPre w s o b).1 = 0 → mk o (dirOf ((asyncPre w s o b).2.2.slots (o + 3))) (asyncPre w s o b).2.2.slots
      = [⟨b.addr, (asyncPre w s o b).2.1, b.len, b.dir⟩]) ∧
    (b.len = 0 → (asyncPre w s o b).1 = 0 ∧ (asyncPre w s o b).2.2.slots (o + 2) = 0) ∧
    T g h (asyncPre w s o b).2.2.trace
      (mk o (dirOf ((asyncPre w s o b).2.2.slots (o + 3))) (asyncPre w s o b).2.2.slots ++ L) [] := by
  unfold asyncPre
  dsimp only
  split
  · rename_i c
    refine ⟨put_same .., ?_, fun e => absurd rfl e, fun e => absurd c e, fun _ => ⟨rfl, by simp [S.put]⟩, ?_⟩
    · intro i hi
      simp only [S.put, List.length_cons, List.length_nil]
      rw [if_neg (by omega)]
    · rw [mk_of 0 0 0 (by simp [S.put]) (by simp [S.put]) (by simp [S.put])]
      exact hT
  · rename_i c
    split
    · rename_i e
      have hm : mk o (dirOf (((process w (s.put o [0, 0, 0, 0]) .pre b 0).2.2.put o
          [(process w (s.put o [0, 0, 0, 0]) .pre b 0).2.1, b.addr, b.len, postOper b.dir]).slots (o + 3)))
          ((process w (s.put o [0, 0, 0, 0]) .pre b 0).2.2.put o
          [(process w (s.put o [0, 0, 0, 0]) .pre b 0).2.1, b.addr, b.len, postOper b.dir]).slots
          = [⟨b.addr, (process w (s.put o [0, 0, 0, 0]) .pre b 0).2.1, b.len, b.dir⟩] := by
        rw [mk_of b.addr (process w (s.put o [0, 0, 0, 0]) .pre b 0).2.1 b.len (by simp [S.put]) (by simp [S.put])
          (by simp [S.put]), if_neg c]
        simp [S.put, dirOf_postOper]
      refine ⟨((put_same ..).trans (process_same ..)).trans (put_same ..), ?_, fun e' => absurd rfl e', fun _ _ => hm,
        fun e' => absurd e' c, ?_⟩
      · intro i hi
        simp only [S.put, process_slots, List.length_cons, List.length_nil]
        rw [if_neg (by omega), if_neg (by omega)]
      · rw [hm]
        exact process_pre_ok hT e
    · rename_i e
      have hz : (process w (s.put o [0, 0, 0, 0]) .pre b 0).2.2.slots (o + 2) = 0 := by
        rw [process_slots]; simp [S.put]
      refine ⟨(put_same ..).trans (process_same ..), ?_, fun _ => hz, fun _ e' => absurd e' e, fun e' => absurd e' c, ?_⟩
      · intro i hi
        simp only [S.put, process_slots, List.length_cons, List.length_nil]
        rw [if_neg (by omega)]
      · unfold mk
        rw [if_pos hz]
        exact process_pre_err (s := s.put o [0, 0, 0, 0]) hg hT e

/-! ## The invariant -/

/-- What the words hold. -/
def slotMap (sl : Nat → UInt64) : Kind → List Map
  | .buf => mk 0 (dirOf (sl 3)) sl
  | .nvmAdd => mk 4 (dirOf (sl 7)) sl ++ mk 0 (dirOf (sl 3)) sl
  | .rng => mk 0 .write sl
  | .sha => mk 0 .read sl
  | .cmac => mk 0 .read sl
  | .aes => mk 0 .read sl ++ (mk 3 .write sl ++ mk 6 .read sl)
  | .quiet => []

/-- The invariant. -/
def Inv (g h : Prop) (s : S) : Prop :=
  if s.pending then (∃ V, T g h s.trace (slotMap s.slots s.last) V) ∧ (slotMap s.slots s.last = [] → s.slots 2 = 0)
  else T g h s.trace [] [] ∧ s.slots 2 = 0

theorem Inv.idle {s : S} (i : Inv g h s) (hp : s.pending = false) : T g h s.trace [] [] ∧ s.slots 2 = 0 := by
  unfold Inv at i; rwa [if_neg (by rw [hp]; decide)] at i

theorem Inv.busy {s : S} (i : Inv g h s) (hp : s.pending = true) :
    (∃ V, T g h s.trace (slotMap s.slots s.last) V) ∧ (slotMap s.slots s.last = [] → s.slots 2 = 0) := by
  unfold Inv at i; rwa [if_pos hp] at i

/-- Everything released. -/
theorem Inv.done {s : S} (hT : T g h s.trace [] []) (h2 : s.slots 2 = 0)
    (hs : s.pending = true → slotMap s.slots s.last = []) : Inv g h s := by
  unfold Inv
  split
  · rename_i c
    rw [hs c]; exact ⟨⟨[], hT⟩, fun _ => h2⟩
  · exact ⟨hT, h2⟩

theorem Inv.sent {s : S} {V} (hp : s.pending = true) (hT : T g h s.trace (slotMap s.slots s.last) V)
    (h2 : slotMap s.slots s.last = [] → s.slots 2 = 0) : Inv g h s := by
  unfold Inv; rw [if_pos hp]; exact ⟨⟨V, hT⟩, h2⟩

theorem Inv.start : Inv g h S.start := by
  unfold Inv; exact ⟨T.nil, rfl⟩

end WolfHsm.ClientDma

import Verif.Spec.ClientHashDma
import Verif.Proofs.ClientHashServer
import Verif.Proofs.CryptoDma

/-!
# Proofs for hashing with input by DMA
-/

namespace WolfHsm.ClientHash

open Wire
open CryptoDma (Buf)

variable {σ : Type}

/-! ## Dividing the input -/

theorem bytesOf_length (mem : UInt64 → UInt8) (a : UInt64) (n : Nat) : (bytesOf mem a n).length = n := by
  unfold bytesOf; rw [List.length_map, List.length_range]

/-- A part of an area of memory. -/
theorem bytesOf_part (mem : UInt64 → UInt8) (a : UInt64) {n off sz : Nat} (h : off + sz ≤ n) :
    ((bytesOf mem a n).drop off).take sz = bytesOf mem (a + UInt64.ofNat off) sz := by
  apply List.ext_getElem
  · rw [List.length_take, List.length_drop, bytesOf_length, bytesOf_length]; omega
  · intro i h1 h2
    rw [List.getElem_take, List.getElem_drop]
    simp only [bytesOf, List.getElem_map, List.getElem_range]
    rw [UInt64.ofNat_add, UInt64.add_assoc]

theorem whole_spec {block n : Nat} (h0 : 0 < block) :
    whole block n % block = 0 ∧ whole block n ≤ n ∧ n < whole block n + block := by
  unfold whole
  by_cases hr : block ≤ n
  · rw [if_pos hr]
    refine ⟨Nat.mul_mod_left .., Nat.div_mul_le_self .., ?_⟩
    have := Nat.div_add_mod n block
    have := Nat.mod_lt n h0
    rw [Nat.mul_comm]; omega
  · rw [if_neg hr]; exact ⟨Nat.zero_mod _, Nat.zero_le _, by omega⟩

theorem cut_spec {block : Nat} (h0 : 0 < block) {buf inp : List UInt8} (hb : buf.length < block) :
    (cut block buf inp).inline ++ (inp.drop (cut block buf inp).off).take (cut block buf inp).sz ++ (cut block buf inp).tail = buf ++ inp ∧
    (cut block buf inp).inline.length % block = 0 ∧ (cut block buf inp).inline.length ≤ block ∧
    (cut block buf inp).sz % block = 0 ∧ (cut block buf inp).off + (cut block buf inp).sz ≤ inp.length ∧
    (cut block buf inp).tail.length < block := by
  unfold cut
  dsimp only
  have hsz := fun rest : List UInt8 => whole_spec (n := rest.length) h0
  by_cases hz : buf.length > 0
  · rw [if_pos hz]
    by_cases hf : block - buf.length ≤ inp.length
    · have htop : (buf ++ inp.take (min (block - buf.length) inp.length)).length = block := by
        rw [List.length_append, List.length_take]; omega
      rw [if_pos ⟨hz, htop⟩, if_pos ⟨hz, htop⟩, List.nil_append, htop]
      obtain ⟨s1, s2, s3⟩ := hsz (inp.drop (min (block - buf.length) inp.length))
      refine ⟨?_, Nat.mod_self _, Nat.le_refl _, s1, ?_, ?_⟩
      · rw [List.append_assoc, List.take_append_drop, List.append_assoc, List.take_append_drop]
      · rw [List.length_drop] at s2 ⊢; omega
      · rw [List.length_drop]; omega
    · have hn : ¬ (buf.length > 0 ∧ (buf ++ inp.take (min (block - buf.length) inp.length)).length = block) := by
        rw [List.length_append, List.length_take]; omega
      rw [if_neg hn, if_neg hn]
      have hm : min (block - buf.length) inp.length = inp.length := by omega
      rw [hm, List.take_length, List.drop_length, List.length_nil, show whole block 0 = 0 from if_neg (by omega)]
      refine ⟨by simp, Nat.zero_mod _, Nat.zero_le _, Nat.zero_mod _, Nat.le_refl _, ?_⟩
      rw [List.drop_nil, List.append_nil, List.length_append]; omega
  · rw [if_neg hz]
    have hn : ∀ x, ¬ (buf.length > 0 ∧ (buf ++ inp.take 0).length = x) := fun x h => hz h.1
    rw [if_neg (hn _), if_neg (hn _)]
    have he : buf = [] := List.eq_nil_of_length_eq_zero (by omega)
    rw [he, List.take_zero, List.drop_zero]
    obtain ⟨s1, s2, s3⟩ := hsz inp
    simp only [List.nil_append, List.take_append_drop]
    refine ⟨trivial, Nat.zero_mod _, Nat.zero_le _, s1, by omega, ?_⟩
    rw [List.length_drop]; omega

/-! ## Streaming -/

/-- Surroundings that keep the chaining state `S` and give the digest `D`, or fail. -/
structure KeepsDma (p : Proto σ) (d : Lane σ) (h : Host) (S : List UInt8 → σ) (D : List UInt8 → List UInt8) : Prop where
  init : p.init = S []
  pre : ∀ k a n rc, h.pre k a n = .error rc → rc ≠ 0
  update : ∀ k mem src m b (u : Buf), m.length % p.block = 0 → b.length % p.block = 0 → b.length ≤ p.block →
    u.sz.toNat % p.block = 0 → u.sz.toNat < 4294967296 →
    match h.send k mem src u (d.request false (S m) b u) with
    | .unsent rc => rc ≠ 0
    | .lost rc => rc ≠ 0
    | .got r => d.chain r = (0, some (S (m ++ b ++ bytesOf mem src u.sz.toNat))) ∨ (d.chain r).1 ≠ 0
  final : ∀ k mem m t, m.length % p.block = 0 → t.length < p.block →
    match h.send k mem 0 ⟨0, 0⟩ (d.request true (S m) t ⟨0, 0⟩) with
    | .unsent rc => rc ≠ 0
    | .lost rc => rc ≠ 0
    | .got r => d.digest r = (0, some (D (m ++ t))) ∨ (d.digest r).1 ≠ 0

variable {p : Proto σ} {d : Lane σ} {h : Host} {S : List UInt8 → σ} {D : List UInt8 → List UInt8}

theorem ofNat64 {n : Nat} (h : n < 4294967296) : (UInt64.ofNat n).toNat = n := by
  simp only [UInt64.toNat_ofNat']; omega

theorem updateDma_holds (h0 : 0 < p.block) (hk : KeepsDma p d h S D) {k : Nat} {m : List UInt8} {st : St σ} (hh : Holds p S m st)
    {mem : UInt64 → UInt8} {a : UInt64} {n : Nat} (h32 : n < 4294967296) (hok : (updateDma p d h k st mem a n).1 = 0) :
    Holds p S (m ++ bytesOf mem a n) (updateDma p d h k st mem a n).2.1 := by
  obtain ⟨m0, h1, h2, h3, h4⟩ := hh
  unfold updateDma at hok ⊢
  rw [if_neg (by omega)] at hok ⊢
  by_cases hi : n = 0
  · rw [if_pos hi] at hok ⊢
    rw [List.eq_nil_of_length_eq_zero (by rw [bytesOf_length]; exact hi : (bytesOf mem a n).length = 0), List.append_nil]
    exact ⟨m0, h1, h2, h3, h4⟩
  rw [if_neg hi] at hok ⊢
  obtain ⟨q1, q2, q3, q4, q5, q6⟩ := cut_spec (inp := bytesOf mem a n) h0 h4
  dsimp only at hok ⊢
  generalize cut p.block st.buf (bytesOf mem a n) = q at *
  rw [bytesOf_length] at q5
  rw [bytesOf_part mem a q5] at q1
  by_cases hw : q.inline.length = 0 ∧ q.sz = 0
  · rw [if_pos hw] at hok ⊢
    refine ⟨m0, h1, h2, ?_, q6⟩
    rw [List.eq_nil_of_length_eq_zero hw.1, hw.2] at q1
    show m0 ++ q.tail = _
    rw [show q.tail = st.buf ++ bytesOf mem a n from q1, ← List.append_assoc, h3]
  · rw [if_neg hw] at hok ⊢
    have hsz : q.sz < 4294967296 := by omega
    have hdata : bytesOf mem (if q.sz = 0 then 0 else a + UInt64.ofNat q.off) q.sz = bytesOf mem (a + UInt64.ofNat q.off) q.sz := by
      by_cases hz : q.sz = 0
      · rw [hz]; rfl
      · rw [if_neg hz]
    generalize hsrc : (if q.sz = 0 then 0 else a + UInt64.ofNat q.off) = src at hok hdata ⊢
    have hpre : ∀ rc, (if q.sz = 0 then Except.ok 0 else h.pre k src q.sz) = .error rc → rc ≠ 0 := by
      intro rc hx
      by_cases hz : q.sz = 0
      · rw [if_pos hz] at hx; cases hx
      · rw [if_neg hz] at hx; exact hk.pre _ _ _ _ hx
    generalize (if q.sz = 0 then (Except.ok 0 : Except Ret UInt64) else h.pre k src q.sz) = x at hok hpre ⊢
    rcases x with rc | addr
    · exact absurd hok (hpre rc rfl)
    · dsimp only at hok ⊢
      have hu := hk.update k mem src m0 q.inline ⟨addr, UInt64.ofNat q.sz⟩ h1 q2 q3 (by rw [ofNat64 hsz]; exact q4) (by rw [ofNat64 hsz]; exact hsz)
      rw [← h2] at hu
      generalize h.send k mem src ⟨addr, UInt64.ofNat q.sz⟩ (d.request false st.chain q.inline ⟨addr, UInt64.ofNat q.sz⟩) = y at hok hu ⊢
      rcases y with rc | rc | r
      · exact absurd hok hu
      · exact absurd hok hu
      · dsimp only at hok hu ⊢
        rw [ofNat64 hsz, hdata] at hu
        rcases hu with hu | hu
        · rw [hu] at hok ⊢
          refine ⟨m0 ++ q.inline ++ bytesOf mem (a + UInt64.ofNat q.off) q.sz, ?_, rfl, ?_, q6⟩
          · rw [List.length_append, List.length_append, bytesOf_length, Nat.add_mod, Nat.add_mod m0.length, h1, q2, q4]; simp
          · show (m0 ++ q.inline ++ bytesOf mem (a + UInt64.ofNat q.off) q.sz) ++ q.tail = _
            rw [List.append_assoc, List.append_assoc, ← List.append_assoc q.inline, q1, ← List.append_assoc, h3]
        · exfalso
          generalize d.chain r = c at hok hu
          rcases c with ⟨rc, _ | c⟩ <;> exact hu hok

theorem finalDma_holds (h0 : 0 < p.block) (hk : KeepsDma p d h S D) {k : Nat} {m : List UInt8} {st : St σ} (hh : Holds p S m st)
    {mem : UInt64 → UInt8} (hok : (finalDma p d h k st mem).1.1 = 0) :
    (finalDma p d h k st mem).1.2 = some (D m) ∧ Holds p S [] (finalDma p d h k st mem).2.1 := by
  obtain ⟨m0, h1, h2, h3, h4⟩ := hh
  unfold finalDma at hok ⊢
  rw [if_neg (by omega)] at hok ⊢
  have hu := hk.final k mem m0 st.buf h1 h4
  rw [← h2, h3] at hu
  generalize h.send k mem 0 ⟨0, 0⟩ (d.request true st.chain st.buf ⟨0, 0⟩) = y at hok hu ⊢
  rcases y with rc | rc | r
  · exact absurd hok hu
  · exact absurd hok hu
  · dsimp only at hok hu ⊢
    rcases hu with hu | hu
    · rw [hu]
      exact ⟨rfl, [], Nat.zero_mod _, hk.init, rfl, h0⟩
    · exfalso
      generalize d.digest r = c at hok hu
      rcases c with ⟨rc, _ | c⟩ <;> exact hu hok

theorem hashDma_holds (h0 : 0 < p.block) (hk : KeepsDma p d h S D) {k : Nat} {m : List UInt8} {st : St σ} (hh : Holds p S m st)
    (mem : UInt64 → UInt8) (a : UInt64) {n : Nat} (h32 : n < 4294967296) (out : Bool) (hok : (hashDma p d h k st mem a n out).1.1 = 0) :
    (hashDma p d h k st mem a n out).1.2 = (if out then some (D (m ++ bytesOf mem a n)) else none) ∧
    Holds p S (if out then [] else m ++ bytesOf mem a n) (hashDma p d h k st mem a n out).2.1 := by
  unfold hashDma at hok ⊢
  have hx : (if n = 0 then ((0 : Ret), st, k) else updateDma p d h k st mem a n).1 = 0 →
      Holds p S (m ++ bytesOf mem a n) (if n = 0 then ((0 : Ret), st, k) else updateDma p d h k st mem a n).2.1 := by
    by_cases hn : n = 0
    · rw [if_pos hn]
      intro _
      rw [List.eq_nil_of_length_eq_zero (by rw [bytesOf_length]; exact hn : (bytesOf mem a n).length = 0), List.append_nil]
      exact hh
    · rw [if_neg hn]; exact updateDma_holds h0 hk hh h32
  generalize (if n = 0 then ((0 : Ret), st, k) else updateDma p d h k st mem a n) = x at hok hx ⊢
  dsimp only at hok ⊢
  by_cases hz : x.1 = 0
  · cases out with
    | true =>
      rw [if_pos ⟨hz, rfl⟩] at hok ⊢
      exact finalDma_holds h0 hk (hx hz) hok
    | false =>
      rw [if_neg (fun hc => Bool.noConfusion hc.2)]
      exact ⟨rfl, hx hz⟩
  · rw [if_neg (fun hc => hz hc.1)] at hok
    exact absurd hok hz

theorem hashDma3_eq {k : Nat} {st : St σ} {mem : UInt64 → UInt8} {a : UInt64} {n : Nat} {out : Bool}
    (hok : (hashDma3 p d h k st mem a n out).1.1 = 0) : hashDma3 p d h k st mem a n out = hashDma p d h k st mem a n out := by
  unfold hashDma3 at hok ⊢
  dsimp only at hok ⊢
  by_cases hz : (hashDma p d h k st mem a n out).1.1 = 0
  · rw [if_pos hz]
  · rw [if_neg hz] at hok; exact absurd hok hz

/-- What the context holds after a call. -/
def Call.next (m : List UInt8) : Call → List UInt8
  | .chunk a => m ++ a
  | .hash a out => if out then [] else m ++ a

/-- What the call gives. -/
def Call.gives (D : List UInt8 → List UInt8) (m : List UInt8) : Call → Option (List UInt8)
  | .chunk _ => none
  | .hash a out => if out then some (D (m ++ a)) else none

theorem call_gives {peer : Nat → List UInt8 → Reply} (hp : Sane p) (hk : Keeps p peer S D) (three : Bool) {c : Call} {k : Nat} {m : List UInt8} {st : St σ}
    (hh : Holds p S m st) (h0 : (call p three peer k st c).1.1 = 0) :
    (call p three peer k st c).1.2 = c.gives D m ∧ Holds p S (c.next m) (call p three peer k st c).2.1 := by
  cases c with
  | chunk a => exact ⟨rfl, update_holds hp hk hh (inp := a) (k := k) h0⟩
  | hash a out =>
    cases three with
    | true =>
      have e : call p true peer k st (.hash a out) = hash p peer k st a out := hash3_eq h0
      rw [e] at h0 ⊢
      exact hash_holds hp hk hh a out h0
    | false => exact hash_holds hp hk hh a out h0

theorem mixed_gives {peer : Nat → List UInt8 → Reply} (hp : Sane p) (hk : Keeps p peer S D) (hd : KeepsDma p d h S D) (three : Bool) {c : Mixed}
    (hs : c.Sized) {k : Nat} {m : List UInt8} {st : St σ} (hh : Holds p S m st) (h0 : (mixed p d three peer h k st c).1.1 = 0) :
    (mixed p d three peer h k st c).1.2 = c.call.gives D m ∧ Holds p S (c.call.next m) (mixed p d three peer h k st c).2.1 := by
  cases c with
  | plain c => exact call_gives hp hk three hh h0
  | chunk mem a n => exact ⟨rfl, updateDma_holds hp.block hd hh hs h0⟩
  | hash mem a n out =>
    cases three with
    | true =>
      have e : mixed p d true peer h k st (.hash mem a n out) = hashDma p d h k st mem a n out := hashDma3_eq h0
      rw [e] at h0 ⊢
      exact hashDma_holds hp.block hd hh mem a hs out h0
    | false => exact hashDma_holds hp.block hd hh mem a hs out h0

theorem digests_cons (D : List UInt8 → List UInt8) (m : List UInt8) (c : Call) (cs : List Call) :
    digests D m (c :: cs) = c.gives D m :: digests D (c.next m) cs := by
  cases c with
  | chunk a => rfl
  | hash a out => cases out <;> rfl

theorem outcomes_spec {peer : Nat → List UInt8 → Reply} (hp : Sane p) (hk : Keeps p peer S D) (hd : KeepsDma p d h S D) (three : Bool) :
    ∀ (cs : List Mixed) (k : Nat) (m : List UInt8) (st : St σ), (∀ c ∈ cs, c.Sized) →
    Holds p S m st → (∀ q ∈ outcomes p d three peer h k st cs, q.1 = 0) →
    (outcomes p d three peer h k st cs).map (·.2) = digests D m (cs.map Mixed.call) := by
  intro cs
  induction cs with
  | nil => intro k m st _ _ _; rfl
  | cons c cs ih =>
    intro k m st hs hh hok
    unfold outcomes at hok ⊢
    dsimp only at hok ⊢
    obtain ⟨g1, g2⟩ := mixed_gives hp hk hd three (hs c (List.mem_cons_self ..)) hh (hok _ (List.mem_cons_self ..))
    rw [List.map_cons, List.map_cons, digests_cons, g1,
      ih _ _ _ (fun c hc => hs c (List.mem_cons_of_mem _ hc)) g2 (fun q hq => hok q (List.mem_cons_of_mem _ hq))]

/-! ## Failures -/

theorem mixed3_fails {peer : Nat → List UInt8 → Reply} {c : Mixed} (hc : c.Whole) {k : Nat} {st : St σ}
    (h0 : (mixed p d true peer h k st c).1.1 ≠ 0) : (mixed p d true peer h k st c).2.1 = st := by
  cases c with
  | plain c =>
    cases c with
    | chunk a => exact False.elim hc
    | hash a out =>
      change (hash3 p peer k st a out).1.1 ≠ 0 at h0
      show (hash3 p peer k st a out).2.1 = st
      unfold hash3 at h0 ⊢
      dsimp only at h0 ⊢
      by_cases hz : (hash p peer k st a out).1.1 = 0
      · rw [if_pos hz] at h0; exact absurd hz h0
      · rw [if_neg hz]
  | chunk mem a n => exact False.elim hc
  | hash mem a n out =>
    change (hashDma3 p d h k st mem a n out).1.1 ≠ 0 at h0
    show (hashDma3 p d h k st mem a n out).2.1 = st
    unfold hashDma3 at h0 ⊢
    dsimp only at h0 ⊢
    by_cases hz : (hashDma p d h k st mem a n out).1.1 = 0
    · rw [if_pos hz] at h0; exact absurd hz h0
    · rw [if_neg hz]

theorem kept_cons {D : List UInt8 → List UInt8} {m : List UInt8} {c : Call} {q : Ret × Option (List UInt8)} {l : List (Call × Ret × Option (List UInt8))} :
    Kept D m ((c, q) :: l) ↔ (if q.1 = 0 then q.2 = c.gives D m ∧ Kept D (c.next m) l else Kept D m l) := by
  obtain ⟨rc, g⟩ := q
  cases c with
  | chunk a => exact Iff.rfl
  | hash a out => cases out <;> exact Iff.rfl

theorem kept_mixed {peer : Nat → List UInt8 → Reply} (hp : Sane p) (hk : Keeps p peer S D) (hd : KeepsDma p d h S D) :
    ∀ (cs : List Mixed) (k : Nat) (m : List UInt8) (st : St σ), (∀ c ∈ cs, c.Sized) → Holds p S m st →
    (∀ c ∈ cs, c.Whole) → Kept D m ((cs.map Mixed.call).zip (outcomes p d true peer h k st cs)) := by
  intro cs
  induction cs with
  | nil => intro k m st _ _ _; trivial
  | cons c cs ih =>
    intro k m st hs hh hc
    unfold outcomes
    dsimp only
    rw [List.map_cons, List.zip_cons_cons, kept_cons]
    by_cases h0 : (mixed p d true peer h k st c).1.1 = 0
    · rw [if_pos h0]
      obtain ⟨g1, g2⟩ := mixed_gives hp hk hd true (hs c (List.mem_cons_self ..)) hh h0
      exact ⟨g1, ih _ _ _ (fun c hc => hs c (List.mem_cons_of_mem _ hc)) g2 (fun c hx => hc c (List.mem_cons_of_mem _ hx))⟩
    · rw [if_neg h0]
      refine ih _ _ _ (fun c hc => hs c (List.mem_cons_of_mem _ hc)) ?_ (fun c hx => hc c (List.mem_cons_of_mem _ hx))
      rw [mixed3_fails (hc c (List.mem_cons_self ..)) h0]
      exact hh

/-! ## Progress -/

/-- The surroundings answer what is sent, and the answers are good. -/
structure LivelyDma (p : Proto σ) (d : Lane σ) (h : Host) (S : List UInt8 → σ) : Prop where
  pre : ∀ k a n, ∃ b, h.pre k a n = .ok b
  update : ∀ k mem src m b (u : Buf), m.length % p.block = 0 → b.length % p.block = 0 → b.length ≤ p.block →
    u.sz.toNat % p.block = 0 → u.sz.toNat < 4294967296 →
    ∃ r, h.send k mem src u (d.request false (S m) b u) = .got r ∧ (d.chain r).1 = 0
  final : ∀ k mem m t, m.length % p.block = 0 → t.length < p.block →
    ∃ r, h.send k mem 0 ⟨0, 0⟩ (d.request true (S m) t ⟨0, 0⟩) = .got r ∧ (d.digest r).1 = 0

theorem updateDma_ok (h0 : 0 < p.block) (hl : LivelyDma p d h S) {k : Nat} {m : List UInt8} {st : St σ} (hh : Holds p S m st)
    {mem : UInt64 → UInt8} {a : UInt64} {n : Nat} (h32 : n < 4294967296) : (updateDma p d h k st mem a n).1 = 0 := by
  obtain ⟨m0, h1, h2, h3, h4⟩ := hh
  unfold updateDma
  rw [if_neg (by omega)]
  by_cases hi : n = 0
  · rw [if_pos hi]
  rw [if_neg hi]
  obtain ⟨-, q2, q3, q4, q5, -⟩ := cut_spec (inp := bytesOf mem a n) h0 h4
  dsimp only
  generalize cut p.block st.buf (bytesOf mem a n) = q at *
  rw [bytesOf_length] at q5
  by_cases hw : q.inline.length = 0 ∧ q.sz = 0
  · rw [if_pos hw]
  · rw [if_neg hw]
    have hsz : q.sz < 4294967296 := by omega
    generalize (if q.sz = 0 then 0 else a + UInt64.ofNat q.off) = src
    have hpre : ∃ b, (if q.sz = 0 then Except.ok 0 else h.pre k src q.sz) = .ok b := by
      by_cases hz : q.sz = 0
      · rw [if_pos hz]; exact ⟨_, rfl⟩
      · rw [if_neg hz]; exact hl.pre _ _ _
    obtain ⟨addr, hpre⟩ := hpre
    rw [hpre]
    dsimp only
    obtain ⟨r, e1, e2⟩ := hl.update k mem src m0 q.inline ⟨addr, UInt64.ofNat q.sz⟩ h1 q2 q3 (by rw [ofNat64 hsz]; exact q4) (by rw [ofNat64 hsz]; exact hsz)
    rw [h2, e1]
    dsimp only
    generalize d.chain r = c at e2 ⊢
    rcases c with ⟨rc, _ | c⟩ <;> exact e2

theorem finalDma_ok (hl : LivelyDma p d h S) {k : Nat} {m : List UInt8} {st : St σ} (hh : Holds p S m st) {mem : UInt64 → UInt8} :
    (finalDma p d h k st mem).1.1 = 0 := by
  obtain ⟨m0, h1, h2, h3, h4⟩ := hh
  unfold finalDma
  rw [if_neg (by omega)]
  obtain ⟨r, e1, e2⟩ := hl.final k mem m0 st.buf h1 h4
  rw [h2, e1]
  dsimp only
  generalize d.digest r = c at e2 ⊢
  rcases c with ⟨rc, _ | c⟩ <;> exact e2

theorem hashDma_ok (h0 : 0 < p.block) (hk : KeepsDma p d h S D) (hl : LivelyDma p d h S) {k : Nat} {m : List UInt8} {st : St σ} (hh : Holds p S m st)
    (mem : UInt64 → UInt8) (a : UInt64) {n : Nat} (h32 : n < 4294967296) (out : Bool) : (hashDma p d h k st mem a n out).1.1 = 0 := by
  unfold hashDma
  have hx : (if n = 0 then ((0 : Ret), st, k) else updateDma p d h k st mem a n).1 = 0 ∧ ∃ m',
      Holds p S m' (if n = 0 then ((0 : Ret), st, k) else updateDma p d h k st mem a n).2.1 := by
    by_cases hn : n = 0
    · rw [if_pos hn]; exact ⟨rfl, m, hh⟩
    · rw [if_neg hn]
      have := updateDma_ok (k := k) h0 hl hh (mem := mem) (a := a) h32
      exact ⟨this, _, updateDma_holds h0 hk hh h32 this⟩
  generalize (if n = 0 then ((0 : Ret), st, k) else updateDma p d h k st mem a n) = x at hx ⊢
  obtain ⟨hz, m', hm⟩ := hx
  dsimp only
  cases out with
  | true => rw [if_pos ⟨hz, rfl⟩]; exact finalDma_ok hl hm
  | false => rw [if_neg (fun hc => Bool.noConfusion hc.2)]; exact hz

theorem mixed_ok {peer : Nat → List UInt8 → Reply} (hp : Sane p) (hk : Keeps p peer S D) (hd : KeepsDma p d h S D) (hl : Lively p peer S)
    (hl' : LivelyDma p d h S) (three : Bool) {c : Mixed} (hs : c.Sized) (hc : c.Fits p) {k : Nat} {m : List UInt8} {st : St σ}
    (hh : Holds p S m st) : (mixed p d three peer h k st c).1.1 = 0 := by
  cases c with
  | plain c => exact call_ok hp hk hl three hc hh
  | chunk mem a n => exact updateDma_ok hp.block hl' hh hs
  | hash mem a n out =>
    have hx := hashDma_ok hp.block hd hl' (k := k) hh mem a hs out
    cases three with
    | true =>
      show (hashDma3 p d h k st mem a n out).1.1 = 0
      unfold hashDma3
      dsimp only
      rw [if_pos hx]; exact hx
    | false => exact hx

theorem outcomes_ok {peer : Nat → List UInt8 → Reply} (hp : Sane p) (hk : Keeps p peer S D) (hd : KeepsDma p d h S D) (hl : Lively p peer S)
    (hl' : LivelyDma p d h S) (three : Bool) : ∀ (cs : List Mixed) (k : Nat) (m : List UInt8) (st : St σ), (∀ c ∈ cs, c.Sized) →
    (∀ c ∈ cs, c.Fits p) → Holds p S m st →
    outcomes p d three peer h k st cs = (digests D m (cs.map Mixed.call)).map fun g => (0, g) := by
  intro cs
  induction cs with
  | nil => intro k m st _ _ _; rfl
  | cons c cs ih =>
    intro k m st hs hc hh
    unfold outcomes
    dsimp only
    have h0 := mixed_ok (k := k) hp hk hd hl hl' three (hs c (List.mem_cons_self ..)) (hc c (List.mem_cons_self ..)) hh
    obtain ⟨g1, g2⟩ := mixed_gives hp hk hd three (hs c (List.mem_cons_self ..)) hh h0
    rw [List.map_cons, digests_cons, List.map_cons, ih _ _ _ (fun c hx => hs c (List.mem_cons_of_mem _ hx))
      (fun c hx => hc c (List.mem_cons_of_mem _ hx)) g2, ← g1, ← h0]

end WolfHsm.ClientHash

import Verif.Proofs.ClientDmaOps

/-! # Each call keeps the invariant: several buffers, blocking functions, sequences -/

namespace WolfHsm.ClientDma

variable {g h : Prop}

/-- What an optional buffer adds. -/
def acq (rc : Ret) (b : Buf) (t : UInt64) : List Map :=
  if rc = 0 ∧ b.len ≠ 0 then [⟨b.addr, t, b.len, b.dir⟩] else []

theorem optPre_spec {w s rc b L} (hg : g → Grants w) (hT : T g h s.trace L []) :
    Same s (optPre w s rc b).2.2 ∧ (optPre w s rc b).2.2.slots = s.slots ∧
    ((optPre w s rc b).1 = 0 → rc = 0) ∧
    T g h (optPre w s rc b).2.2.trace (acq (optPre w s rc b).1 b (optPre w s rc b).2.1 ++ L) [] := by
  unfold optPre
  split
  · rename_i c
    refine ⟨process_same .., process_slots .., fun _ => c.1, ?_⟩
    unfold acq
    by_cases e : (process w s .pre b 0).1 = 0
    · rw [if_pos ⟨e, c.2⟩]
      exact process_pre_ok hT e
    · rw [if_neg fun x => e x.1]
      exact process_pre_err hg hT e
  · rename_i c
    refine ⟨Same.refl _, rfl, id, ?_⟩
    unfold acq
    rw [if_neg c]
    exact hT

theorem optPost_spec {w s rc b t L} (hT : T g h s.trace (acq rc b t ++ L) []) :
    Same s (optPost w s (decide (rc = 0 ∧ b.len ≠ 0)) b t) ∧
    T g h (optPost w s (decide (rc = 0 ∧ b.len ≠ 0)) b t).trace L [] := by
  unfold optPost
  unfold acq at hT
  by_cases c : rc = 0 ∧ b.len ≠ 0
  · rw [if_pos (by simpa using c)]
    rw [if_pos c] at hT
    exact ⟨process_same .., process_post hT⟩
  · rw [if_neg (by simpa using c)]
    rw [if_neg c] at hT
    exact ⟨Same.refl _, hT⟩

theorem acq_perm (A B C : List Map) : (C ++ (B ++ (A ++ []))).Perm (A ++ (B ++ (C ++ []))) := by
  simp only [List.append_nil]
  have h1 : (C ++ (B ++ A)).Perm (C ++ (A ++ B)) := List.Perm.append_left C List.perm_append_comm
  have h2 : (C ++ (A ++ B)).Perm ((A ++ B) ++ C) := List.perm_append_comm
  rw [List.append_assoc] at h2
  exact h1.trans h2

theorem aesRequest_inv {w s} {inp out aad : Buf} (di : inp.dir = .read) (dO : out.dir = .write) (da : aad.dir = .read)
    (hg : g → Grants w) (hh : h → Reliable w) (i : Inv g h s) : Inv g h (aesRequest w s inp out aad).2 := by
  unfold aesRequest
  cases hp : s.pending
  swap
  · exact i
  rw [if_neg (by decide)]
  dsimp only
  obtain ⟨hT, h2⟩ := i.idle hp
  obtain ⟨a1, b1, _, d1⟩ := optPre_spec (w := w) (rc := 0) (b := inp) hg hT
  generalize optPre w s 0 inp = r1 at *
  obtain ⟨a2, b2, c2, d2⟩ := optPre_spec (w := w) (rc := r1.1) (b := out) hg d1
  generalize optPre w r1.2.2 r1.1 out = r2 at *
  obtain ⟨a3, b3, c3, d3⟩ := optPre_spec (w := w) (rc := r2.1) (b := aad) hg d2
  generalize optPre w r2.2.2 r2.1 aad = r3 at *
  have hsame := (a1.trans a2).trans a3
  have hp' : r3.2.2.pending = false := hsame.1.trans hp
  have d := d3.perm (acq_perm _ _ _)
  -- the end of a failure
  have fail : ∀ q : Ret × S, T g h q.2.trace (acq r1.1 inp r1.2.1 ++ (acq r2.1 out r2.2.1 ++ (acq r3.1 aad r3.2.1 ++ []))) [] →
      (q.2.pending = true → q.2.last = .aes) →
      Inv g h ((optPost w (optPost w (optPost w q.2 (decide (r1.1 = 0 ∧ inp.len ≠ 0)) inp r1.2.1)
        (decide (r2.1 = 0 ∧ out.len ≠ 0)) out r2.2.1) (decide (r3.1 = 0 ∧ aad.len ≠ 0)) aad r3.2.1).put 0
        [0, 0, 0, 0, 0, 0, 0, 0, 0]) := by
    intro q t1 t2
    obtain ⟨x1, y1⟩ := optPost_spec (w := w) (s := q.2) t1
    generalize optPost w q.2 (decide (r1.1 = 0 ∧ inp.len ≠ 0)) inp r1.2.1 = z1 at *
    obtain ⟨x2, y2⟩ := optPost_spec (w := w) (s := z1) y1
    generalize optPost w z1 (decide (r2.1 = 0 ∧ out.len ≠ 0)) out r2.2.1 = z2 at *
    obtain ⟨x3, y3⟩ := optPost_spec (w := w) (s := z2) y2
    generalize optPost w z2 (decide (r3.1 = 0 ∧ aad.len ≠ 0)) aad r3.2.1 = z3 at *
    have hs := (x1.trans x2).trans x3
    refine Inv.done y3 (by simp [S.put]) fun c => ?_
    change z3.pending = true at c
    change slotMap _ z3.last = []
    rw [hs.2, t2 (hs.1 ▸ c)]
    unfold slotMap
    dsimp only
    rw [mk_zero (by simp [S.put]), mk_zero (by simp [S.put]), mk_zero (by simp [S.put])]
    rfl
  by_cases e : r3.1 = 0
  · have e2 := c3 e
    have e1 := c2 e2
    simp only [e, if_true]
    simp only [e, e1, e2] at d fail
    have hm : ∀ (b : Buf) (t : UInt64), b.len ≠ 0 → (⟨b.addr, t, b.len, b.dir⟩ : Map) ∈ acq 0 b t := by
      intro b t hn
      unfold acq; rw [if_pos ⟨rfl, hn⟩]; simp
    have hs := send_spec (w := w) (s := r3.2.2.put 0 [r1.2.1, inp.addr, inp.len, r2.2.1, out.addr, out.len, r3.2.1, aad.addr, aad.len])
      (kd := .aes) (bs := [{ inp with addr := r1.2.1 }, { out with addr := r2.2.1 }, { aad with addr := r3.2.1 }]) d hh hp' (by
        intro _ b hb
        unfold named at hb
        simp only [List.mem_filter, List.mem_cons, List.not_mem_nil, or_false, decide_eq_true_eq] at hb
        obtain ⟨rfl | rfl | rfl, hn⟩ := hb
        · exact ⟨_, List.mem_append_left _ (hm inp r1.2.1 hn), rfl, rfl, rfl⟩
        · exact ⟨_, List.mem_append_right _ (List.mem_append_left _ (hm out r2.2.1 hn)), rfl, rfl, rfl⟩
        · exact ⟨_, List.mem_append_right _ (List.mem_append_right _ (List.mem_append_left _ (hm aad r3.2.1 hn))), rfl, rfl, rfl⟩)
    generalize send w (r3.2.2.put 0 [r1.2.1, inp.addr, inp.len, r2.2.1, out.addr, out.len, r3.2.1, aad.addr, aad.len]) .aes
      [{ inp with addr := r1.2.1 }, { out with addr := r2.2.1 }, { aad with addr := r3.2.1 }] = q at *
    obtain ⟨s1, s2, s3⟩ := hs
    split
    · rename_i e'
      obtain ⟨t1, t2, t3⟩ := s2 e'
      have mk' : ∀ (b : Buf) (t : UInt64), (if b.len = 0 then [] else [(⟨b.addr, t, b.len, b.dir⟩ : Map)]) = acq 0 b t := by
        intro b t
        unfold acq
        by_cases c : b.len = 0 <;> simp [c]
      have hsl : slotMap q.2.slots .aes = acq 0 inp r1.2.1 ++ (acq 0 out r2.2.1 ++ (acq 0 aad r3.2.1 ++ [])) := by
        unfold slotMap
        dsimp only
        rw [s1, mk_of (o := 0) inp.addr r1.2.1 inp.len (by simp [S.put]) (by simp [S.put]) (by simp [S.put]),
          mk_of (o := 3) out.addr r2.2.1 out.len (by simp [S.put]) (by simp [S.put]) (by simp [S.put]),
          mk_of (o := 6) aad.addr r3.2.1 aad.len (by simp [S.put]) (by simp [S.put]) (by simp [S.put])]
        rw [← di, ← dO, mk', mk']
        rw [di, ← da, mk', List.append_nil]
      refine Inv.sent t1 (V := named [{ inp with addr := r1.2.1 }, { out with addr := r2.2.1 }, { aad with addr := r3.2.1 }]) ?_ ?_
      · rw [t2, hsl]; exact t3
      · rw [t2]
        intro x
        unfold slotMap mk at x
        dsimp only at x
        by_contra c
        rw [if_neg c] at x
        exact absurd x (by simp)
    · rename_i e'
      obtain ⟨t1, t2⟩ := s3 e'
      simp only [e1, e2]
      exact fail q t2 t1
  · have fl := fail (r3.1, r3.2.2) d fun c => by
      dsimp only at c; rw [hp'] at c; exact absurd c (by decide)
    simpa only [e, if_false] using fl

theorem aesResponse_inv {w s} (hh : h → Reliable w) (i : Inv g h s) (hf : s.pending = true → s.last = .aes) :
    Inv g h (aesResponse w s).2 := by
  unfold aesResponse
  dsimp only
  split
  · rename_i e; exact recv_notready i hh e
  · rename_i e
    obtain ⟨hp, a, b, c⟩ := recv_ready i hh e
    rw [hf hp] at b c
    generalize (recv w s).2 = z at *
    unfold slotMap at c
    dsimp only at c
    obtain ⟨p1, p2, p3, p4⟩ := postWords_spec (w := w) (s := z) (o := 0) (d := .read)
      (L := mk 3 .write s.slots ++ mk 6 .read s.slots) (by rw [a]; exact c)
    generalize postWords w z 0 .read = z1 at *
    obtain ⟨q1, q2, q3, q4⟩ := postWords_spec (w := w) (s := z1) (o := 3) (d := .write) (L := mk 6 .read s.slots) (by
      have : mk 3 .write z1.slots = mk 3 .write s.slots := by
        unfold mk; rw [p4 _ (by omega), p4 _ (by omega), p4 _ (by omega), a]
      rw [this]; exact p2)
    generalize postWords w z1 3 .write = z2 at *
    obtain ⟨r1, r2, r3, r4⟩ := postWords_spec (w := w) (s := z2) (o := 6) (d := .read) (L := []) (by
      have : mk 6 .read z2.slots = mk 6 .read s.slots := by
        unfold mk
        rw [q4 _ (by omega), q4 _ (by omega), q4 _ (by omega), p4 _ (by omega), p4 _ (by omega), p4 _ (by omega), a]
      rw [this, List.append_nil]; exact q2)
    generalize postWords w z2 6 .read = z3 at *
    have h2 : z3.slots 2 = 0 := by rw [r4 _ (by omega), q4 _ (by omega)]; exact p3
    refine Inv.done r2 h2 fun _ => ?_
    rw [((p1.trans q1).trans r1).2, b]
    unfold slotMap
    dsimp only
    rw [mk_zero (o := 0) h2, mk_zero (o := 3) (by rw [r4 _ (by omega)]; exact q3), mk_zero (o := 6) r3]
    rfl

theorem nvmPosts {w} {z : S} (hT : T g h z.trace (mk 4 (dirOf (z.slots 7)) z.slots ++ mk 0 (dirOf (z.slots 3)) z.slots) [])
    (hl : z.pending = true → z.last = .nvmAdd) : Inv g h (asyncPost w (asyncPost w z 4).2 0).2 := by
  obtain ⟨p1, p2, p3, p4⟩ := asyncPost_spec (w := w) (s := z) (o := 4) (L := mk 0 (dirOf (z.slots 3)) z.slots) hT
  generalize (asyncPost w z 4).2 = z1 at *
  obtain ⟨q1, q2, q3, q4⟩ := asyncPost_spec (w := w) (s := z1) (o := 0) (L := []) (by
    have : mk 0 (dirOf (z1.slots (0 + 3))) z1.slots = mk 0 (dirOf (z.slots 3)) z.slots := by
      unfold mk
      rw [p4 _ (by omega), p4 _ (by omega), p4 _ (by omega), p4 _ (by omega)]
    rw [this, List.append_nil]; exact p2)
  generalize (asyncPost w z1 0).2 = z2 at *
  have hs := p1.trans q1
  refine Inv.done q2 q3 fun c => ?_
  rw [hs.2, hl (hs.1 ▸ c)]
  unfold slotMap
  dsimp only
  rw [mk_zero (o := 4) (by rw [q4 _ (by omega)]; exact p3), mk_zero (o := 0) q3]
  rfl

theorem nvmAddRequest_inv {w s} {md b : Buf} (hg : g → Grants w) (hh : h → Reliable w) (i : Inv g h s)
    (hn : h → b.addr = 0 → b.len = 0) : Inv g h (nvmAddRequest w s md b).2 := by
  unfold nvmAddRequest
  cases hp : s.pending
  swap
  · exact i
  rw [if_neg (by decide)]
  dsimp only
  obtain ⟨hT, h2⟩ := i.idle hp
  obtain ⟨a1, a2, a3, a4, a5, a6⟩ := asyncPre_spec (w := w) (s := s.put 0 [0, 0, 0, 0, 0, 0, 0, 0]) (o := 0) (b := md) hg hT
  generalize asyncPre w (s.put 0 [0, 0, 0, 0, 0, 0, 0, 0]) 0 md = r at *
  have ps : r.2.2.pending = false := a1.1.trans hp
  rw [List.append_nil] at a6
  by_cases e : r.1 = 0
  · simp only [e, if_true]
    obtain ⟨b1, b2, b3, b4, b5, b6⟩ := asyncPre_spec (w := w) (s := r.2.2) (o := 4)
      (b := { b with len := if b.addr = 0 then 0 else b.len }) hg a6
    generalize asyncPre w r.2.2 4 { b with len := if b.addr = 0 then 0 else b.len } = q at *
    have pq : q.2.2.pending = false := b1.1.trans ps
    have hmd : mk 0 (dirOf (q.2.2.slots 3)) q.2.2.slots = mk 0 (dirOf (r.2.2.slots (0 + 3))) r.2.2.slots := by
      unfold mk
      rw [b2 _ (by omega), b2 _ (by omega), b2 _ (by omega), b2 _ (by omega)]
    rw [← hmd] at b6
    by_cases e2 : q.1 = 0
    · simp only [e2, if_true]
      have hs := send_spec (w := w) (kd := .nvmAdd) (bs := [{ md with addr := r.2.1 }, { b with addr := q.2.1 }]) b6 hh pq (by
        intro x c hc
        unfold named at hc
        simp only [List.mem_filter, List.mem_cons, List.not_mem_nil, or_false, decide_eq_true_eq] at hc
        obtain ⟨rfl | rfl, hl⟩ := hc
        · refine ⟨⟨md.addr, r.2.1, md.len, md.dir⟩, List.mem_append_right _ ?_, rfl, rfl, rfl⟩
          rw [hmd, a4 hl e]; simp
        · have hb : b.addr ≠ 0 := fun c => hl (hn x c)
          refine ⟨⟨b.addr, q.2.1, b.len, b.dir⟩, List.mem_append_left _ ?_, rfl, rfl, rfl⟩
          rw [if_neg hb] at b4
          rw [b4 hl e2]; simp)
      generalize send w q.2.2 .nvmAdd [{ md with addr := r.2.1 }, { b with addr := q.2.1 }] = z at *
      obtain ⟨s1, s2, s3⟩ := hs
      split
      · rename_i e'
        obtain ⟨t1, t2, t3⟩ := s2 e'
        refine Inv.sent t1 (V := named [{ md with addr := r.2.1 }, { b with addr := q.2.1 }]) ?_ ?_
        · rw [t2, s1]; exact t3
        · rw [t2]
          intro x
          unfold slotMap at x
          dsimp only at x
          have x' := (List.append_eq_nil_iff.mp x).2
          unfold mk at x'
          by_contra c
          rw [if_neg c] at x'
          exact absurd x' (by simp)
      · rename_i e'
        obtain ⟨t1, t2⟩ := s3 e'
        refine nvmPosts ?_ t1
        rw [s1]; exact t2
    · simp only [e2, if_false]
      refine nvmPosts b6 fun c => ?_
      rw [pq] at c; exact absurd c (by decide)
  · simp only [e, if_false]
    refine nvmPosts ?_ fun c => ?_
    · rw [mk_zero (o := 4) (by rw [a2 _ (by omega)]; simp [S.put])]
      exact a6
    · rw [ps] at c; exact absurd c (by decide)

theorem nvmAddResponse_inv {w s} (hh : h → Reliable w) (i : Inv g h s) (hf : s.pending = true → s.last = .nvmAdd) :
    Inv g h (nvmAddResponse w s).2 := by
  unfold nvmAddResponse
  dsimp only
  split
  · rename_i e; exact recv_notready i hh e
  · rename_i e
    obtain ⟨hp, a, b, c⟩ := recv_ready i hh e
    rw [hf hp] at b c
    refine nvmPosts ?_ fun _ => b
    rw [a]; exact c

/-! ## Blocking functions -/

/-- Sending and waiting, with `L` mapped for the purpose. -/
theorem sendWait {w s kd bs L} (hh : h → Reliable w) (hp : s.pending = false) (hT : T g h s.trace L [])
    (hb : h → ∀ b ∈ named bs, ∃ m ∈ L, Cov m b) :
    let q := send w s kd bs
    let z := if q.1 = 0 then wait w q.2 else q
    z.2.slots = s.slots ∧ (z.2.pending = true → z.2.last = kd) ∧ T g h z.2.trace L [] := by
  have hs := send_spec (w := w) (kd := kd) hT hh hp hb
  dsimp only
  generalize send w s kd bs = q at *
  obtain ⟨s1, s2, s3⟩ := hs
  split
  · rename_i e
    obtain ⟨t1, t2, t3⟩ := s2 e
    obtain ⟨w1, w2, w3⟩ := wait_spec (w := w) t3 hh
    exact ⟨w1.trans s1, fun _ => w2.trans t2, w3⟩
  · rename_i e
    obtain ⟨t1, t2⟩ := s3 e
    exact ⟨s1, t1, t2⟩

theorem code_ne : Rc.requestPending.code ≠ 0 := by decide

theorem Inv.same {s s' : S} {V} (hp : s.pending = true) (hs : Same s s') (hl : s'.slots = s.slots) (i : Inv g h s)
    (hT : T g h s'.trace (slotMap s.slots s.last) V) : Inv g h s' := by
  refine Inv.sent (V := V) (hs.1.trans hp) ?_ ?_ <;> rw [hl, hs.2]
  · exact hT
  · exact (i.busy hp).2

theorem direct1_inv {w s b t} (hG : Grants w) (hW : Willing w) (hh : h → Reliable w) (i : Inv g h s) :
    Inv g h (direct1 w s b t).2 := by
  unfold direct1
  dsimp only
  have e := process_pre_willing (s := s) (b := b) (t := 0) hG hW
  have a0 := process_slots w s .pre b 0
  have a1 := process_same w s .pre b 0
  have a2 := fun L V => process_pre_ok (g := g) (h := h) (w := w) (s := s) (b := b) (t := 0) (L := L) (V := V) (hr := e)
  generalize process w s .pre b 0 = r at *
  simp only [e, if_true]
  cases hp : s.pending
  · obtain ⟨hT, h2⟩ := i.idle hp
    have hs := sendWait (w := w) (kd := .quiet) (bs := [{ b with addr := r.2.1 }]) hh (a1.1.trans hp) (a2 _ [] hT)
      (fun _ => cov_single (a := b.addr) fun _ => by simp)
    dsimp only at hs
    generalize (if (send w r.2.2 .quiet [{ b with addr := r.2.1 }]).1 = 0 then
      wait w (send w r.2.2 .quiet [{ b with addr := r.2.1 }]).2 else send w r.2.2 .quiet [{ b with addr := r.2.1 }]) = z at *
    obtain ⟨z1, z2, z3⟩ := hs
    refine Inv.done (process_post z3) (by rw [process_slots, z1, a0]; exact h2) fun c => ?_
    have hs := process_same w z.2 .post b r.2.1
    rw [hs.2, z2 (hs.1 ▸ c)]; rfl
  · rw [send_pending (a1.1.trans hp)]
    simp only [code_ne, if_false]
    obtain ⟨⟨V, hT⟩, _⟩ := i.busy hp
    refine Inv.same (V := V) hp (a1.trans (process_same ..)) (by rw [process_slots, a0]) i ?_
    exact process_post' (a2 _ V hT) hT.covers

theorem direct2_inv {w s a b f t} (hG : Grants w) (hW : Willing w) (hh : h → Reliable w) (i : Inv g h s) :
    Inv g h (direct2 w s a b f t).2 := by
  unfold direct2
  dsimp only
  have e := process_pre_willing (s := s) (b := a) (t := 0) hG hW
  have a0 := process_slots w s .pre a 0
  have a1 := process_same w s .pre a 0
  have a2 := fun L V => process_pre_ok (g := g) (h := h) (w := w) (s := s) (b := a) (t := 0) (L := L) (V := V) (hr := e)
  generalize process w s .pre a 0 = r at *
  simp only [e, if_true]
  have e2 := process_pre_willing (s := r.2.2) (b := b) (t := 0) hG hW
  have b0 := process_slots w r.2.2 .pre b 0
  have b1 := process_same w r.2.2 .pre b 0
  have b2 := fun L V => process_pre_ok (g := g) (h := h) (w := w) (s := r.2.2) (b := b) (t := 0) (L := L) (V := V) (hr := e2)
  generalize process w r.2.2 .pre b 0 = x at *
  simp only [e2, if_true]
  cases hp : s.pending
  · obtain ⟨hT, h2⟩ := i.idle hp
    have hs := sendWait (w := w) (kd := .quiet) (bs := [{ a with addr := r.2.1 }, { b with addr := x.2.1 }]) hh
      ((a1.trans b1).1.trans hp) (b2 _ [] (a2 _ [] hT)) (by
        intro _ c hc
        unfold named at hc
        simp only [List.mem_filter, List.mem_cons, List.not_mem_nil, or_false, decide_eq_true_eq] at hc
        obtain ⟨rfl | rfl, hl⟩ := hc
        · exact ⟨⟨a.addr, r.2.1, a.len, a.dir⟩, by simp, rfl, rfl, rfl⟩
        · exact ⟨⟨b.addr, x.2.1, b.len, b.dir⟩, by simp, rfl, rfl, rfl⟩)
    dsimp only at hs
    generalize (if (send w x.2.2 .quiet [{ a with addr := r.2.1 }, { b with addr := x.2.1 }]).1 = 0 then
      wait w (send w x.2.2 .quiet [{ a with addr := r.2.1 }, { b with addr := x.2.1 }]).2
      else send w x.2.2 .quiet [{ a with addr := r.2.1 }, { b with addr := x.2.1 }]) = z at *
    obtain ⟨z1, z2, z3⟩ := hs
    split
    · have hs1 := process_same w z.2 .post a r.2.1
      have hs2 := process_same w (process w z.2 .post a r.2.1).2.2 .post b x.2.1
      refine Inv.done (process_post (process_post (z3.perm (List.Perm.swap ..))))
        (by rw [process_slots, process_slots, z1, b0, a0]; exact h2) fun c => ?_
      have hs := hs1.trans hs2
      dsimp only at c ⊢
      rw [hs.2, z2 (hs.1 ▸ c)]; rfl
    · have hs1 := process_same w z.2 .post b x.2.1
      have hs2 := process_same w (process w z.2 .post b x.2.1).2.2 .post a r.2.1
      refine Inv.done (process_post (process_post z3))
        (by rw [process_slots, process_slots, z1, b0, a0]; exact h2) fun c => ?_
      have hs := hs1.trans hs2
      dsimp only at c ⊢
      rw [hs.2, z2 (hs.1 ▸ c)]; rfl
  · rw [send_pending ((a1.trans b1).1.trans hp)]
    simp only [code_ne, if_false]
    obtain ⟨⟨V, hT⟩, _⟩ := i.busy hp
    have hc := b2 _ V (a2 _ V hT)
    have cov : ∀ m : Map, h → ∀ c ∈ V, ∃ y ∈ m :: slotMap s.slots s.last, Cov y c := by
      intro m hx c hv
      obtain ⟨y, hy, k⟩ := hT.covers hx c hv
      exact ⟨y, List.mem_cons_of_mem _ hy, k⟩
    split
    · exact Inv.same (V := V) hp (((a1.trans b1).trans (process_same ..)).trans (process_same ..))
        (by rw [process_slots, process_slots, b0, a0]) i
        (process_post' (process_post' (hc.perm (List.Perm.swap ..)) (cov _)) hT.covers)
    · exact Inv.same (V := V) hp (((a1.trans b1).trans (process_same ..)).trans (process_same ..))
        (by rw [process_slots, process_slots, b0, a0]) i
        (process_post' (process_post' hc (cov _)) hT.covers)

/-! ## Sequences of calls -/

theorem step_inv {w s} {c : Call} (hg : g → Grants w) (hh : h → Reliable w) (hd : c.blocking = true → Grants w ∧ Willing w)
    (hn : h → c.null = false) (hf : Follows s c) (i : Inv g h s) : Inv g h (step w s c).2 := by
  cases c with
  | buf b => exact bufRequest_inv hg hh i
  | nvmRead b =>
    refine nvmReadRequest_inv hg hh i fun x e => ?_
    have := hn x
    simp only [Call.null, decide_eq_false_iff_not, not_and, ne_eq, Decidable.not_not] at this
    exact this e
  | bufResp t => exact bufResponse_inv hh i hf
  | nvmAdd md b =>
    refine nvmAddRequest_inv hg hh i fun x e => ?_
    have := hn x
    simp only [Call.null, decide_eq_false_iff_not, not_and, ne_eq, Decidable.not_not] at this
    exact this e
  | nvmAddResp => exact nvmAddResponse_inv hh i hf
  | rng b => exact rngRequest_inv rfl hg hh i
  | rngResp => exact wordsResponse_inv (kd := .rng) (d := .write) (fun _ => rfl) hh i hf
  | sha b => exact shaRequest_inv rfl hg hh i
  | shaResp => exact wordsResponse_inv (kd := .sha) (d := .read) (fun _ => rfl) hh i hf
  | cmac b => exact cmacRequest_inv rfl hg hh i
  | cmacResp => exact wordsResponse_inv (kd := .cmac) (d := .read) (fun _ => rfl) hh i hf
  | aes x y z => exact aesRequest_inv rfl rfl rfl hg hh i
  | aesResp => exact aesResponse_inv hh i hf
  | quiet => exact quietRequest_inv hh i
  | quietResp => exact quietResponse_inv hh i hf
  | direct1 b t => exact direct1_inv (hd rfl).1 (hd rfl).2 hh i
  | direct2 a b f t => exact direct2_inv (hd rfl).1 (hd rfl).2 hh i
  | abort =>
    have : (step w s .abort).2 = s := by
      unfold step abort
      have hp : s.pending = false := hf
      cases s; simp only at hp; rw [hp]
    rw [this]; exact i

theorem run_inv {w} (hg : g → Grants w) (hh : h → Reliable w) : ∀ (cs : List Call) (s : S),
    (∀ c ∈ cs, c.blocking = true → Grants w ∧ Willing w) → (h → ∀ c ∈ cs, c.null = false) → Orderly w s cs → Inv g h s →
    Inv g h (run w s cs)
  | [], _, _, _, _, i => i
  | c :: cs, s, hd, hn, ho, i => by
    unfold run
    exact run_inv hg hh cs _ (fun x hx => hd x (by simp [hx])) (fun y x hx => hn y x (by simp [hx])) ho.2
      (step_inv hg hh (hd c (by simp)) (fun y => hn y c (by simp)) ho.1 i)

/-- Every state reached. -/
theorem Inv.trace {s : S} (i : Inv g h s) : ∃ L V, T g h s.trace L V := by
  cases hp : s.pending
  · exact ⟨_, _, (i.idle hp).1⟩
  · obtain ⟨⟨V, hT⟩, _⟩ := i.busy hp
    exact ⟨_, _, hT⟩

end WolfHsm.ClientDma

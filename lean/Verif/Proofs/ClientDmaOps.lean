import Verif.Proofs.ClientDma

/-! # Each call keeps the invariant -/

namespace WolfHsm.ClientDma

variable {g h : Prop}

theorem cov_single {a t n : UInt64} {d : Dir} {L : List Map} (hm : n ≠ 0 → (⟨a, t, n, d⟩ : Map) ∈ L) :
    ∀ b ∈ named [⟨t, n, d⟩], ∃ m ∈ L, Cov m b := by
  intro b hb
  unfold named at hb
  simp only [List.mem_filter, List.mem_singleton, decide_eq_true_eq] at hb
  obtain ⟨rfl, hn⟩ := hb
  exact ⟨_, hm hn, rfl, rfl, rfl⟩

theorem recv_idle {w s} (hp : s.pending = false) : recv w s = (Rc.notready.code, s) := by
  unfold recv; rw [if_pos hp]

/-- Receiving nothing keeps the invariant. -/
theorem recv_notready {w s} (i : Inv g h s) (hh : h → Reliable w) (e : (recv w s).1 = Rc.notready.code) :
    Inv g h (recv w s).2 := by
  cases hp : s.pending
  · rw [recv_idle hp]; exact i
  · obtain ⟨⟨V, hT⟩, h2⟩ := i.busy hp
    obtain ⟨a, b, c, _⟩ := recv_spec (w := w) hT hh
    obtain ⟨c1, c2⟩ := c e
    refine Inv.sent (V := V) (c1.trans hp) ?_ ?_ <;> rw [a, b]
    · exact c2
    · exact h2

/-- Receiving something. -/
theorem recv_ready {w s} (i : Inv g h s) (hh : h → Reliable w) (e : (recv w s).1 ≠ Rc.notready.code) :
    s.pending = true ∧ (recv w s).2.slots = s.slots ∧ (recv w s).2.last = s.last ∧
    T g h (recv w s).2.trace (slotMap s.slots s.last) [] := by
  cases hp : s.pending
  · rw [recv_idle hp] at e; exact absurd rfl e
  · obtain ⟨⟨V, hT⟩, _⟩ := i.busy hp
    obtain ⟨a, b, _, d⟩ := recv_spec (w := w) hT hh
    exact ⟨rfl, a, b, (d e).2⟩

theorem mk_zero {o d sl} (h : sl (o + 2) = 0) : mk o d sl = [] := by unfold mk; rw [if_pos h]

theorem bufLike {w s} {b : Buf} {len : UInt64} (hg : g → Grants w) (hh : h → Reliable w) (i : Inv g h s)
    (hl : h → b.len ≠ 0 → len = b.len) :
    Inv g h (if s.pending then (Rc.requestPending.code, s)
      else
        let r := asyncPre w s 0 { b with len := len }
        let q := if r.1 = 0 then send w r.2.2 .buf [{ b with addr := r.2.1 }] else (r.1, r.2.2)
        if q.1 = 0 then q else (q.1, (asyncPost w q.2 0).2)).2 := by
  cases hp : s.pending
  swap
  · exact i
  rw [if_neg (by decide)]
  dsimp only
  obtain ⟨hT, h2⟩ := i.idle hp
  obtain ⟨a1, _, a3, a4, a5, a6⟩ := asyncPre_spec (w := w) (o := 0) (b := { b with len := len }) hg hT
  generalize asyncPre w s 0 { b with len := len } = r at *
  rw [List.append_nil] at a6
  have hp' : r.2.2.pending = false := a1.1.trans hp
  by_cases e : r.1 = 0
  · simp only [e, if_true]
    have hs := send_spec (w := w) (kd := .buf) (bs := [{ b with addr := r.2.1 }]) a6 hh hp' (fun x => by
      refine cov_single (a := b.addr) fun hn => ?_
      have hl' := hl x hn
      rw [a4 (by rw [← hl'] at hn; exact hn) e]
      simp [hl'])
    generalize send w r.2.2 .buf [{ b with addr := r.2.1 }] = q at *
    obtain ⟨s1, s2, s3⟩ := hs
    split
    · rename_i e'
      obtain ⟨t1, t2, t3⟩ := s2 e'
      refine Inv.sent (V := named [{ b with addr := r.2.1 }]) t1 ?_ ?_ <;> rw [s1, t2]
      · exact t3
      · intro x
        unfold slotMap mk at x
        dsimp only at x
        by_contra c
        rw [if_neg c] at x
        exact absurd x (by simp)
    · rename_i e'
      obtain ⟨t1, t2⟩ := s3 e'
      obtain ⟨p1, p2, p3, _⟩ := asyncPost_spec (w := w) (s := q.2) (o := 0) (L := []) (by
        rw [s1, List.append_nil]; exact t2)
      refine Inv.done p2 p3 fun c => ?_
      rw [p1.2, t1 (p1.1 ▸ c)]
      exact mk_zero p3
  · simp only [e, if_false]
    obtain ⟨p1, p2, p3, _⟩ := asyncPost_spec (w := w) (s := r.2.2) (o := 0) (L := []) (by
      rw [List.append_nil]; exact a6)
    refine Inv.done p2 p3 fun c => ?_
    rw [p1.1, hp'] at c; exact absurd c (by decide)

theorem bufRequest_inv {w s b} (hg : g → Grants w) (hh : h → Reliable w) (i : Inv g h s) :
    Inv g h (bufRequest w s b).2 := bufLike (len := b.len) hg hh i fun _ _ => rfl

theorem nvmReadRequest_inv {w s b} (hg : g → Grants w) (hh : h → Reliable w) (i : Inv g h s)
    (hn : h → b.addr = 0 → b.len = 0) : Inv g h (nvmReadRequest w s b).2 :=
  bufLike (len := if b.addr = 0 then 0 else b.len) hg hh i fun x hl => by
    rw [if_neg fun c => hl (hn x c)]

theorem bufResponse_inv {w s t} (hh : h → Reliable w) (i : Inv g h s) (hf : s.pending = true → s.last = .buf) :
    Inv g h (bufResponse w s t).2 := by
  unfold bufResponse
  dsimp only
  split
  · rename_i e; exact recv_notready i hh e
  · rename_i e
    obtain ⟨hp, a, b, c⟩ := recv_ready i hh e
    rw [hf hp] at b c
    obtain ⟨p1, p2, p3, _⟩ := asyncPost_spec (w := w) (s := (recv w s).2) (o := 0) (L := []) (by
      rw [a, List.append_nil]; exact c)
    refine Inv.done p2 p3 fun _ => ?_
    rw [p1.2, b]
    exact mk_zero p3

theorem quietRequest_inv {w s} (hh : h → Reliable w) (i : Inv g h s) : Inv g h (quietRequest w s).2 := by
  unfold quietRequest
  cases hp : s.pending
  · obtain ⟨hT, h2⟩ := i.idle hp
    obtain ⟨a, b, c⟩ := send_spec (w := w) (kd := .quiet) (bs := []) hT hh hp (fun _ => by simp [named])
    by_cases e : (send w s .quiet []).1 = 0
    · obtain ⟨b1, b2, b3⟩ := b e
      refine Inv.sent (V := []) b1 ?_ (fun _ => by rw [a]; exact h2)
      rw [b2]; exact b3
    · obtain ⟨c1, c2⟩ := c e
      refine Inv.done c2 (by rw [a]; exact h2) fun x => ?_
      rw [c1 x]; rfl
  · rw [send_pending hp]; exact i

theorem quietResponse_inv {w s} (hh : h → Reliable w) (i : Inv g h s) (hf : s.pending = true → s.last = .quiet) :
    Inv g h (quietResponse w s).2 := by
  unfold quietResponse
  by_cases e : (recv w s).1 = Rc.notready.code
  · exact recv_notready i hh e
  · obtain ⟨hp, a, b, c⟩ := recv_ready i hh e
    rw [hf hp] at b c
    refine Inv.done c ?_ fun _ => by rw [b]; rfl
    rw [a]
    exact (i.busy hp).2 (by rw [hf hp]; rfl)

theorem rngRequest_inv {w s b} (hd : b.dir = .write) (hg : g → Grants w) (hh : h → Reliable w) (i : Inv g h s) :
    Inv g h (rngRequest w s b).2 := by
  unfold rngRequest
  split
  · exact i
  rename_i hn
  cases hp : s.pending
  swap
  · exact i
  rw [if_neg (by decide)]
  dsimp only
  obtain ⟨hT, h2⟩ := i.idle hp
  have a0 := process_slots w s .pre b 0
  have a1 := process_same w s .pre b 0
  have a2 := process_pre_ok (w := w) (b := b) (t := 0) hT
  have a3 := process_pre_err (w := w) (b := b) (t := 0) hg hT
  generalize process w s .pre b 0 = r at *
  have hp' : r.2.2.pending = false := a1.1.trans hp
  split
  · rename_i e
    have hs := send_spec (w := w) (s := r.2.2.put 0 [r.2.1, b.addr, b.len]) (kd := .rng)
      (bs := [{ b with addr := r.2.1 }]) (a2 e) hh hp' (fun _ => cov_single (a := b.addr) fun _ => by simp)
    generalize send w (r.2.2.put 0 [r.2.1, b.addr, b.len]) .rng [{ b with addr := r.2.1 }] = q at *
    obtain ⟨s1, s2, s3⟩ := hs
    have hm : slotMap q.2.slots .rng = [⟨b.addr, r.2.1, b.len, b.dir⟩] := by
      unfold slotMap
      dsimp only
      rw [s1, mk_of b.addr r.2.1 b.len (by simp [S.put]) (by simp [S.put]) (by simp [S.put]), if_neg hn, hd]
    split
    · rename_i e'
      obtain ⟨t1, t2, t3⟩ := s2 e'
      refine Inv.sent (V := named [{ b with addr := r.2.1 }]) t1 ?_ ?_ <;> rw [t2, hm]
      · exact t3
      · intro x; exact absurd x (by simp)
    · rename_i e'
      obtain ⟨t1, t2⟩ := s3 e'
      refine Inv.done ?_ (by simp [S.put]) fun c => ?_
      · rw [put_trace]; exact process_post t2
      · have c1 := (process_same w q.2 .post b r.2.1).1
        have c2 := (process_same w q.2 .post b r.2.1).2
        change (process w q.2 .post b r.2.1).2.2.pending = true at c
        change slotMap _ (process w q.2 .post b r.2.1).2.2.last = []
        rw [c2, t1 (c1 ▸ c)]
        exact mk_zero (by simp [S.put])
  · rename_i e
    refine Inv.done (a3 e) (by rw [a0]; exact h2) fun c => ?_
    rw [hp'] at c; exact absurd c (by decide)

theorem wordsResponse_inv {w s d} {kd : Kind} (hk : ∀ sl, slotMap sl kd = mk 0 d sl) (hh : h → Reliable w) (i : Inv g h s)
    (hf : s.pending = true → s.last = kd) :
    Inv g h (if (recv w s).1 = Rc.notready.code then recv w s else ((recv w s).1, postWords w (recv w s).2 0 d)).2 := by
  split
  · rename_i e; exact recv_notready i hh e
  · rename_i e
    obtain ⟨hp, a, b, c⟩ := recv_ready i hh e
    rw [hf hp] at b c
    obtain ⟨p1, p2, p3, _⟩ := postWords_spec (w := w) (s := (recv w s).2) (o := 0) (d := d) (L := []) (by
      rw [a, List.append_nil, ← hk]; exact c)
    refine Inv.done p2 p3 fun _ => ?_
    dsimp only
    rw [p1.2, b, hk]
    exact mk_zero p3

theorem shaRequest_inv {w s b} (hd : b.dir = .read) (hg : g → Grants w) (hh : h → Reliable w) (i : Inv g h s) :
    Inv g h (shaRequest w s b).2 := by
  unfold shaRequest
  cases hp : s.pending
  swap
  · exact i
  rw [if_neg (by decide)]
  dsimp only
  obtain ⟨hT, h2⟩ := i.idle hp
  by_cases hn : b.len = 0
  · simp only [hn, if_true]
    have hs := send_spec (w := w) (s := s.put 0 [0, b.addr, 0]) (kd := .sha) (bs := [{ b with addr := 0, len := 0 }])
      hT hh hp (fun _ => by simp [named])
    generalize send w (s.put 0 [0, b.addr, 0]) .sha [{ b with addr := 0, len := 0 }] = q at *
    obtain ⟨s1, s2, s3⟩ := hs
    have hz : q.2.slots 2 = 0 := by rw [s1]; simp [S.put]
    split
    · rename_i e
      obtain ⟨t1, t2, t3⟩ := s2 e
      refine Inv.sent (V := []) t1 ?_ (fun _ => hz)
      rw [t2]
      unfold slotMap
      dsimp only
      rw [mk_zero hz]
      simpa [named] using t3
    · rename_i e
      obtain ⟨t1, t2⟩ := s3 e
      refine Inv.done ?_ (by simp [S.put]) fun c => ?_
      · rw [put_trace]; simpa using t2
      · simp only [ne_eq, not_true_eq_false, and_false, if_false] at c ⊢
        change slotMap _ q.2.last = []
        rw [t1 c]
        exact mk_zero (by simp [S.put])
  · simp only [hn, if_false, ne_eq, not_false_eq_true, and_true]
    have a0 := process_slots w s .pre b 0
    have a1 := process_same w s .pre b 0
    have a2 := process_pre_ok (w := w) (b := b) (t := 0) hT
    have a3 := process_pre_err (w := w) (b := b) (t := 0) hg hT
    generalize process w s .pre b 0 = r at *
    have hp' : r.2.2.pending = false := a1.1.trans hp
    by_cases e : r.1 = 0
    · simp only [e, if_true]
      have hs := send_spec (w := w) (s := r.2.2.put 0 [r.2.1, b.addr, b.len]) (kd := .sha)
        (bs := [{ b with addr := r.2.1 }]) (a2 e) hh hp' (fun _ => cov_single (a := b.addr) fun _ => by simp)
      generalize send w (r.2.2.put 0 [r.2.1, b.addr, b.len]) .sha [{ b with addr := r.2.1 }] = q at *
      obtain ⟨s1, s2, s3⟩ := hs
      have hm : slotMap q.2.slots .sha = [⟨b.addr, r.2.1, b.len, b.dir⟩] := by
        unfold slotMap
        dsimp only
        rw [s1, mk_of b.addr r.2.1 b.len (by simp [S.put]) (by simp [S.put]) (by simp [S.put]), if_neg hn, hd]
      split
      · rename_i e'
        obtain ⟨t1, t2, t3⟩ := s2 e'
        refine Inv.sent (V := named [{ b with addr := r.2.1 }]) t1 ?_ ?_ <;> rw [t2, hm]
        · exact t3
        · intro x; exact absurd x (by simp)
      · rename_i e'
        obtain ⟨t1, t2⟩ := s3 e'
        refine Inv.done ?_ (by simp [S.put]) fun c => ?_
        · rw [put_trace]; exact process_post t2
        · have c1 := (process_same w q.2 .post b r.2.1).1
          have c2 := (process_same w q.2 .post b r.2.1).2
          change (process w q.2 .post b r.2.1).2.2.pending = true at c
          change slotMap _ (process w q.2 .post b r.2.1).2.2.last = []
          rw [c2, t1 (c1 ▸ c)]
          exact mk_zero (by simp [S.put])
    · simp only [e, if_false]
      refine Inv.done (a3 e) (by simp [S.put]) fun c => ?_
      change r.2.2.pending = true at c
      rw [hp'] at c; exact absurd c (by decide)

theorem cmacRequest_inv {w s b} (hd : b.dir = .read) (hg : g → Grants w) (hh : h → Reliable w) (i : Inv g h s) :
    Inv g h (cmacRequest w s b).2 := by
  unfold cmacRequest
  cases hp : s.pending
  swap
  · exact i
  rw [if_neg (by decide)]
  dsimp only
  obtain ⟨hT, h2⟩ := i.idle hp
  by_cases hn : b.len = 0
  · simp only [hn, if_true, ne_eq, not_true_eq_false, and_false, if_false]
    have hs := send_spec (w := w) (s := s) (kd := .cmac) (bs := [{ b with addr := 0, len := 0 }])
      hT hh hp (fun _ => by simp [named])
    generalize send w s .cmac [{ b with addr := 0, len := 0 }] = q at *
    obtain ⟨s1, s2, s3⟩ := hs
    have hz : q.2.slots 2 = 0 := by rw [s1]; exact h2
    split
    · rename_i e
      obtain ⟨t1, t2, t3⟩ := s2 e
      refine Inv.sent (V := []) t1 ?_ (fun _ => hz)
      rw [t2]
      unfold slotMap
      dsimp only
      rw [mk_zero hz]
      simpa [named] using t3
    · rename_i e
      obtain ⟨t1, t2⟩ := s3 e
      refine Inv.done t2 hz fun c => ?_
      dsimp only at c ⊢
      rw [t1 c]
      exact mk_zero hz
  · simp only [hn, if_false, ne_eq, not_false_eq_true, and_true]
    have a0 := process_slots w s .pre b 0
    have a1 := process_same w s .pre b 0
    have a2 := process_pre_ok (w := w) (b := b) (t := 0) hT
    have a3 := process_pre_err (w := w) (b := b) (t := 0) hg hT
    generalize process w s .pre b 0 = r at *
    have hp' : r.2.2.pending = false := a1.1.trans hp
    by_cases e : r.1 = 0
    · simp only [e, if_true]
      have hs := send_spec (w := w) (s := r.2.2.put 0 [r.2.1, b.addr, b.len]) (kd := .cmac)
        (bs := [{ b with addr := r.2.1 }]) (a2 e) hh hp' (fun _ => cov_single (a := b.addr) fun _ => by simp)
      generalize send w (r.2.2.put 0 [r.2.1, b.addr, b.len]) .cmac [{ b with addr := r.2.1 }] = q at *
      obtain ⟨s1, s2, s3⟩ := hs
      have hm : slotMap q.2.slots .cmac = [⟨b.addr, r.2.1, b.len, b.dir⟩] := by
        unfold slotMap
        dsimp only
        rw [s1, mk_of b.addr r.2.1 b.len (by simp [S.put]) (by simp [S.put]) (by simp [S.put]), if_neg hn, hd]
      split
      · rename_i e'
        obtain ⟨t1, t2, t3⟩ := s2 e'
        refine Inv.sent (V := named [{ b with addr := r.2.1 }]) t1 ?_ ?_ <;> rw [t2, hm]
        · exact t3
        · intro x; exact absurd x (by simp)
      · rename_i e'
        obtain ⟨t1, t2⟩ := s3 e'
        obtain ⟨p1, p2, p3, _⟩ := postWords_spec (w := w) (s := q.2) (o := 0) (d := .read) (L := []) (by
          have hm' : mk 0 .read q.2.slots = [⟨b.addr, r.2.1, b.len, b.dir⟩] := hm
          rw [hm']; exact t2)
        refine Inv.done p2 p3 fun c => ?_
        dsimp only at c ⊢
        rw [p1.2, t1 (p1.1 ▸ c)]
        exact mk_zero p3
    · simp only [e, if_false]
      refine Inv.done (a3 e) (by rw [a0]; exact h2) fun c => ?_
      rw [hp'] at c; exact absurd c (by decide)

end WolfHsm.ClientDma

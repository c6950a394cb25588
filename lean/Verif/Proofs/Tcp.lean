import Verif.Spec.Tcp
import Verif.Proofs.Utils

namespace WolfHsm.Tcp

theorem frame_length (m : List UInt8) : (frame m).length = 4 + m.length := by
  simp [frame, Utils.bytes32]; omega

theorem patch_length (buf b : List UInt8) (off : Nat) (h : off + b.length ≤ buf.length) :
    (patch buf off b).length = buf.length := by
  simp only [patch, List.length_append, List.length_take, List.length_drop]
  omega

theorem patch_take (buf b : List UInt8) (off : Nat) (h : off ≤ buf.length) :
    (patch buf off b).take (off + b.length) = buf.take off ++ b := by
  have : (buf.take off ++ b).length = off + b.length := by
    simp only [List.length_append, List.length_take]; omega
  rw [patch, ← this, List.take_left]

/-- `send`: what it does with a side that has sent `k` bytes of the frame of `d`. -/
theorem send_spec {max : Nat} {s : Side} {io : Out} {d : List UInt8} {k : Nat} (hoff : s.off = k)
    (hbuf : 0 < k → s.buf.take (4 + d.length) = frame d) (hk : k < 4 + d.length)
    (hd : ¬ (d.length = 0 ∨ d.length > max)) (hl : s.buf.length = max + 4) (hu : s.ub = false) :
    (send max s io d).2.1.buf.length = max + 4 ∧ (send max s io d).2.1.ub = false ∧
    (((send max s io d).1 = .ok ∧ (send max s io d).2.1.off = 0 ∧
        (send max s io d).2.2 = (frame d).drop k) ∨
     ((send max s io d).1 = .notready ∧ (send max s io d).2.1.buf.take (4 + d.length) = frame d ∧
        k ≤ (send max s io d).2.1.off ∧ (send max s io d).2.1.off < 4 + d.length ∧
        (send max s io d).2.2 = ((frame d).drop k).take ((send max s io d).2.1.off - k)) ∨
     ((send max s io d).1 = .aborted ∧ io = .fatal ∧ (send max s io d).2.1.off = 0 ∧
        (send max s io d).2.2 = [])) := by
  have hfl := frame_length d
  obtain ⟨buf, hbe⟩ : ∃ buf, buf = (if s.off = 0 then patch s.buf 0 (frame d) else s.buf) := ⟨_, rfl⟩
  have hb : buf.take (4 + d.length) = frame d := by
    rw [hbe]
    split
    · have := patch_take s.buf (frame d) 0 (Nat.zero_le _)
      rw [hfl] at this
      simpa using this
    · exact hbuf (by omega)
  have hbl : buf.length = max + 4 := by
    rw [hbe]
    split
    · rw [patch_length _ _ _ (by omega), hl]
    · exact hl
  have hub : (s.ub || decide (4 + d.length < s.off)) = false := by
    rw [hu, hoff]; simp; omega
  have hcut : ∀ n, n ≤ 4 + d.length - k → (buf.drop k).take n = ((frame d).drop k).take n := by
    intro n hn
    rw [← hb, List.drop_take, List.take_take]
    congr 1
    omega
  unfold send
  rw [if_neg hd]
  dsimp only
  rw [← hbe, hub, hoff]
  cases io with
  | again => exact ⟨hbl, rfl, .inr (.inl ⟨rfl, hb, Nat.le_refl _, hk, by simp⟩)⟩
  | fatal => exact ⟨hbl, rfl, .inr (.inr ⟨rfl, rfl, rfl, rfl⟩)⟩
  | wrote n =>
    dsimp only
    by_cases hn : min n (4 + d.length - k) ≠ 4 + d.length - k
    · rw [if_pos hn]
      refine ⟨hbl, rfl, .inr (.inl ⟨rfl, hb, Nat.le_add_right _ _, ?_, ?_⟩)⟩
      · dsimp only; omega
      · dsimp only
        rw [hcut _ (by omega)]
        congr 1
        omega
    · rw [if_neg hn]
      refine ⟨hbl, rfl, .inl ⟨rfl, rfl, ?_⟩⟩
      dsimp only
      rw [hcut _ (by omega)]
      exact List.take_of_length_le (by rw [List.length_drop, hfl]; omega)

/-- What a receiver holds and what is under way to it make up the first `k` bytes of the frame of `m`. -/
def Has (b : Side) (w : List UInt8) (m : List UInt8) (k : Nat) : Prop :=
  b.buf.take b.off ++ w = (frame m).take k ∧ b.off < 4 + m.length

/-- What `recv` returns. -/
def Recvd (max : Nat) (r : Rc × Side × List UInt8 × Option (List UInt8)) (io io2 : In) (m : List UInt8) (k : Nat) : Prop :=
  r.2.1.buf.length = max + 4 ∧ r.2.1.ub = false ∧
  ((r.1 = .ok ∧ r.2.1.off = 0 ∧ r.2.2.1 = [] ∧ r.2.2.2 = some m ∧ k = 4 + m.length) ∨
   (r.1 = .notready ∧ Has r.2.1 r.2.2.1 m k) ∨
   (r.1 = .aborted ∧ (io = .fatal ∨ io2 = .fatal) ∧ r.2.2.1.length ≤ k))

theorem has_length {max : Nat} {b : Side} {w m : List UInt8} {k : Nat} (h : Has b w m k) (hk : k ≤ 4 + m.length)
    (hl : b.buf.length = max + 4) (hm : m.length ≤ max) : b.off + w.length = k := by
  have := congrArg List.length h.1
  simp only [List.length_append, List.length_take, frame_length] at this
  have := h.2
  omega

theorem has_read {max : Nat} {b : Side} {w m : List UInt8} {k : Nat} {n : Nat} (h : Has b w m k) (hk : k ≤ 4 + m.length)
    (hl : b.buf.length = max + 4) (hm : m.length ≤ max) :
    (patch b.buf b.off (w.take n)).length = max + 4 ∧
    (patch b.buf b.off (w.take n)).take (b.off + (w.take n).length) ++ w.drop (w.take n).length = (frame m).take k := by
  have hlen := has_length h hk hl hm
  have h2 := h.2
  have htl : (w.take n).length ≤ w.length := by rw [List.length_take]; omega
  refine ⟨by rw [patch_length _ _ _ (by omega), hl], ?_⟩
  rw [patch_take _ _ _ (by omega), ← h.1, List.append_assoc]
  congr 1
  rw [List.length_take]
  by_cases hn : n ≤ w.length
  · rw [Nat.min_eq_left hn, List.take_append_drop]
  · rw [Nat.min_eq_right (by omega), List.take_of_length_le (by omega), List.drop_length, List.append_nil]

theorem body_spec {max : Nat} {s : Side} {io1 io : In} {w m : List UInt8} {k : Nat} (h : Has s w m k)
    (h4 : 4 ≤ s.off) (hk : k ≤ 4 + m.length) (hm : ¬ (m.length = 0 ∨ m.length > max)) (hmax : max < 4294967296)
    (hl : s.buf.length = max + 4) (hu : s.ub = false) :
    Recvd max (body max s io w) io1 io m k := by
  have hlen := has_length h hk hl (by omega)
  have h2 := h.2
  have hhead : s.buf.take 4 = Utils.bytes32 false (UInt32.ofNat m.length) := by
    have := congrArg (List.take 4) h.1
    rw [List.take_append_of_le_length (by rw [List.length_take]; omega), List.take_take, List.take_take,
      Nat.min_eq_left h4, Nat.min_eq_left (by omega)] at this
    rw [this, frame]
    exact List.take_left' (by simp [Utils.bytes32])
  unfold body
  rw [hhead, Utils.read32_bytes32]
  have hn : (UInt32.ofNat m.length).toNat = m.length := by
    rw [UInt32.toNat_ofNat']; exact Nat.mod_eq_of_lt (by omega)
  dsimp only
  rw [hn, if_neg hm]
  cases io with
  | again => exact ⟨hl, hu, .inr (.inl ⟨rfl, h⟩)⟩
  | fatal => exact ⟨hl, hu, .inr (.inr ⟨rfl, .inr rfl, by dsimp only; omega⟩)⟩
  | got n =>
    dsimp only
    obtain ⟨hbl, hbt⟩ := has_read (n := min n (m.length - (s.off - 4))) h hk hl (by omega)
    have htl : (w.take (min n (m.length - (s.off - 4)))).length ≤ m.length - (s.off - 4) := by
      rw [List.length_take]; omega
    have htl' : (w.take (min n (m.length - (s.off - 4)))).length ≤ w.length := by
      rw [List.length_take]; omega
    generalize w.take (min n (m.length - (s.off - 4))) = b at *
    by_cases hr : m.length - (s.off - 4) - b.length > 0
    · rw [if_pos hr]
      refine ⟨hbl, hu, .inr (.inl ⟨rfl, hbt, ?_⟩)⟩
      dsimp only; omega
    · rw [if_neg hr]
      have hke : k = 4 + m.length := by omega
      have hd : w.drop b.length = [] := List.drop_eq_nil_of_le (by omega)
      refine ⟨hbl, hu, .inl ⟨rfl, rfl, hd, ?_, hke⟩⟩
      dsimp only
      rw [hd, List.append_nil, hke, List.take_of_length_le (l := frame m) (by rw [frame_length]),
        show s.off + b.length = 4 + m.length by omega] at hbt
      have : ((patch s.buf s.off b).drop 4).take m.length = ((patch s.buf s.off b).take (4 + m.length)).drop 4 := by
        rw [List.drop_take]; simp
      rw [this, hbt, frame]
      exact congrArg some (List.drop_left' (by simp [Utils.bytes32]))

theorem recv_spec {max : Nat} {s : Side} {io io2 : In} {w m : List UInt8} {k : Nat} (h : Has s w m k)
    (hk : k ≤ 4 + m.length) (hm : ¬ (m.length = 0 ∨ m.length > max)) (hmax : max < 4294967296)
    (hl : s.buf.length = max + 4) (hu : s.ub = false) :
    Recvd max (recv max s io io2 w) io io2 m k := by
  have hlen := has_length h hk hl (by omega)
  unfold recv
  by_cases h4 : s.off < 4
  · rw [if_pos h4]
    cases io with
    | again => exact ⟨hl, hu, .inr (.inl ⟨rfl, h⟩)⟩
    | fatal => exact ⟨hl, hu, .inr (.inr ⟨rfl, .inl rfl, by dsimp only; omega⟩)⟩
    | got n =>
      dsimp only
      obtain ⟨hbl, hbt⟩ := has_read (n := min n (4 - s.off)) h hk hl (by omega)
      have htl : (w.take (min n (4 - s.off))).length ≤ 4 - s.off := by rw [List.length_take]; omega
      generalize w.take (min n (4 - s.off)) = b at *
      have hh : Has { s with off := s.off + b.length, buf := patch s.buf s.off b } (w.drop b.length) m k :=
        ⟨hbt, by dsimp only; omega⟩
      by_cases h5 : s.off + b.length < 4
      · rw [if_pos h5]
        exact ⟨hbl, hu, .inr (.inl ⟨rfl, hh⟩)⟩
      · rw [if_neg h5]
        exact body_spec hh (by dsimp only; omega) hk hm hmax hbl hu
  · rw [if_neg h4]
    exact body_spec h (by omega) hk hm hmax hl hu

/-- Nothing comes off a dead socket. -/
theorem recv_dead {max : Nat} {s : Side} {io io2 : In} {w : List UInt8} (h0 : s.off = 0) :
    recv max s (inOf true io) (inOf true io2) w = (.notready, s, w, none) ∨
    recv max s (inOf true io) (inOf true io2) w = (.aborted, s, w, none) := by
  have hs : ({ s with off := 0 } : Side) = s := by cases s; simp_all
  unfold recv
  rw [if_pos (by omega)]
  by_cases h : io = .fatal
  · subst h; right; simp [inOf, hs]
  · left; simp [inOf, h]

/-- Nothing goes onto a dead socket. -/
theorem send_dead {max : Nat} {s : Side} {io : Out} {d : List UInt8} (hd : ¬ (d.length = 0 ∨ d.length > max))
    (h0 : s.off = 0) (hl : s.buf.length = max + 4) (hu : s.ub = false) :
    ((send max s (outOf true io) d).1 = .notready ∨ (send max s (outOf true io) d).1 = .aborted) ∧
    (send max s (outOf true io) d).2.1.off = 0 ∧ (send max s (outOf true io) d).2.1.buf.length = max + 4 ∧
    (send max s (outOf true io) d).2.1.ub = false ∧ (send max s (outOf true io) d).2.2 = [] := by
  obtain ⟨h1, h2, -⟩ := send_spec (io := outOf true io) (k := 0) h0 (fun h => absurd h (by omega)) (by omega) hd hl hu
  refine ⟨?_, ?_, h1, h2, ?_⟩ <;>
  · unfold send
    rw [if_neg hd]
    by_cases h : io = .fatal
    · subst h; simp [outOf]
    · simp [outOf, h, h0]

/-- A side whose buffer is in order. -/
structure Sound (max : Nat) (s : Side) (dead : Bool) : Prop where
  len : s.buf.length = max + 4
  ub : s.ub = false
  off : dead = true → s.off = 0

/-- The sender has sent `k` bytes of the frame of `m`. -/
def Sending (s : Side) (dead : Bool) (m : List UInt8) (k : Nat) (try' : Option (List UInt8)) : Prop :=
  dead = true ∨ (s.off = k ∧ (0 < k → try' = some m ∧ s.buf.take (4 + m.length) = frame m))

/-- The receiver gets `k` bytes of the frame of `m`. -/
def Receiving (s : Side) (dead : Bool) (w m : List UInt8) (k : Nat) : Prop := dead = true ∨ Has s w m k

/-- A packet that can be sent. -/
def Fits (max : Nat) (m : List UInt8) : Prop := ¬ (m.length = 0 ∨ m.length > max)

/-- The phase of the exchange. -/
def Phase (max : Nat) (y : Sys) (v : View) : Prop :=
  match v.ch with
  | .ready => y.down = [] ∧ y.s.busy = false ∧ (y.c.dead = true ∨ y.c.sent = false) ∧
      ∃ m k, Fits max m ∧ k < 4 + m.length ∧ Sending y.c.side y.c.dead m k v.request ∧
        Receiving y.s.side y.s.dead y.up m k
  | .requested m => y.down = [] ∧ y.s.busy = false ∧ (y.c.dead = true ∨ y.c.sent = true) ∧ y.c.side.off = 0 ∧
      Fits max m ∧ Receiving y.s.side y.s.dead y.up m (4 + m.length)
  | .serving => y.up = [] ∧ y.s.busy = true ∧ (y.c.dead = true ∨ y.c.sent = true) ∧
      ∃ m k, Fits max m ∧ k < 4 + m.length ∧ Sending y.s.side y.s.dead m k v.response ∧
        Receiving y.c.side y.c.dead y.down m k
  | .answered m => y.up = [] ∧ y.s.busy = false ∧ (y.c.dead = true ∨ y.c.sent = true) ∧ y.s.side.off = 0 ∧
      Fits max m ∧ Receiving y.c.side y.c.dead y.down m (4 + m.length)

/-- The invariant. -/
structure Inv (max : Nat) (y : Sys) (v : View) : Prop where
  c : Sound max y.c.side y.c.dead
  s : Sound max y.s.side y.s.dead
  phase : Phase max y v

theorem has_append {b : Side} {w d : List UInt8} {k n : Nat} (h : Has b w d k) :
    Has b (w ++ ((frame d).drop k).take n) d (k + n) := by
  refine ⟨?_, h.2⟩
  rw [← List.append_assoc, h.1, List.take_add]

theorem Receiving.append {b : Side} {dead : Bool} {w d : List UInt8} {k : Nat} (n : Nat)
    (h : Receiving b dead w d k) : Receiving b dead (w ++ ((frame d).drop k).take n) d (k + n) :=
  h.imp id has_append

theorem Receiving.all {b : Side} {dead : Bool} {w d : List UInt8} {k : Nat} (hk : k ≤ 4 + d.length)
    (h : Receiving b dead w d k) : Receiving b dead (w ++ (frame d).drop k) d (4 + d.length) := by
  have := h.append (4 + d.length - k)
  rw [List.take_of_length_le (by rw [List.length_drop, frame_length]), Nat.add_sub_of_le hk] at this
  exact this

/-- The sender may take another packet only when nothing of the old one has been sent. -/
theorem Sending.same {max : Nat} {a b : Side} {bd : Bool} {w m d : List UInt8} {k : Nat} {t : Option (List UInt8)}
    (h : Sending a false m k t) (hr : Receiving b bd w m k) (hb : Sound max b bd) (hk : k < 4 + m.length)
    (hm : Fits max m) (hp : t = some m → d = m) :
    a.off = k ∧ (0 < k → a.buf.take (4 + d.length) = frame d) ∧ k < 4 + d.length ∧ Receiving b bd w d k := by
  rcases h with h | ⟨h1, h2⟩
  · cases h
  · by_cases hk0 : 0 < k
    · obtain ⟨ht, hbuf⟩ := h2 hk0
      have := hp ht
      subst this
      exact ⟨h1, fun _ => hbuf, hk, hr⟩
    · have hk0 : k = 0 := by omega
      subst hk0
      refine ⟨h1, fun h => absurd h (by omega), by omega, hr.imp id fun h => ?_⟩
      have hl := has_length h (by omega) hb.len (by simp only [Fits] at hm; omega)
      exact ⟨by simpa using h.1, by omega⟩

theorem Sending.retry {s : Side} {dead : Bool} {m d : List UInt8} {k : Nat} {t : Option (List UInt8)}
    (h : Sending s dead m k t) (hp : t = some m → d = m) : Sending s dead m k (some d) :=
  h.imp id fun h => ⟨h.1, fun hk => ⟨by rw [hp (h.2 hk).1], (h.2 hk).2⟩⟩

/-- What follows from a result of `send` on a live socket. -/
theorem send_live {max : Nat} {a b : Side} {bd : Bool} {io : Out} {w m d : List UInt8} {k : Nat} {t : Option (List UInt8)}
    (ha : Sound max a false) (h : Sending a false m k t) (hr : Receiving b bd w m k) (hb : Sound max b bd)
    (hk : k < 4 + m.length) (hm : Fits max m) (hd : Fits max d) (hp : t = some m → d = m) :
    ((send max a io d).1 = .ok ∧ Sound max (send max a io d).2.1 false ∧ (send max a io d).2.1.off = 0 ∧
      Receiving b bd (w ++ (send max a io d).2.2) d (4 + d.length)) ∨
    ((send max a io d).1 = .notready ∧ Sound max (send max a io d).2.1 false ∧ ∃ k', k' < 4 + d.length ∧
      Sending (send max a io d).2.1 false d k' (some d) ∧ Receiving b bd (w ++ (send max a io d).2.2) d k') ∨
    ((send max a io d).1 = .aborted ∧ Sound max (send max a io d).2.1 true ∧ (send max a io d).2.1.off = 0 ∧
      (send max a io d).2.2 = []) := by
  obtain ⟨h1, h2, h3, h4⟩ := h.same hr hb hk hm hp
  obtain ⟨e1, e2, e3⟩ := send_spec (io := io) h1 h2 h3 hd ha.len ha.ub
  rcases e3 with ⟨r1, r2, r3⟩ | ⟨r1, r2, r3, r4, r5⟩ | ⟨r1, r2, r3, r4⟩
  · refine .inl ⟨r1, ⟨e1, e2, fun h => by cases h⟩, r2, ?_⟩
    rw [r3]
    exact h4.all (by omega)
  · refine .inr (.inl ⟨r1, ⟨e1, e2, fun h => by cases h⟩, _, r4, .inr ⟨rfl, fun _ => ⟨rfl, r2⟩⟩, ?_⟩)
    rw [r5]
    have := h4.append ((send max a io d).2.1.off - k)
    rw [Nat.add_sub_of_le r3] at this
    exact this
  · exact .inr (.inr ⟨r1, ⟨e1, e2, fun _ => r3⟩, r3, r4⟩)

theorem connect_rc (l : Link) (e : Conn) : (connect l e).1 = .ok ∨ (connect l e).1 = .notready ∨
    (connect l e).1 = .notfound ∨ (connect l e).1 = .aborted := by
  cases l <;> cases e <;> simp [connect]

theorem next_send_again (v : View) (e : Conn) (io : Out) (d : List UInt8) (x : Option (List UInt8)) :
    v.next (.cSend e io d) (.notready, x) = some (if v.ch = .ready then { v with request := some d } else v) := by
  simp only [View.next]; split <;> rfl

theorem next_respond_again (v : View) (io : Out) (d : List UInt8) (x : Option (List UInt8)) :
    v.next (.sSend io d) (.notready, x) = some (if v.ch = .serving then { v with response := some d } else v) := by
  simp only [View.next]; split <;> rfl

/-- A request that must be sent again. -/
theorem Phase.retry {max : Nat} {y : Sys} {v : View} {d : List UInt8} (h : Phase max y v)
    (hp : ∀ m, v.ch = .ready → v.request = some m → d = m) :
    Phase max y (if v.ch = .ready then { v with request := some d } else v) := by
  by_cases hr : v.ch = .ready
  · rw [if_pos hr]
    obtain ⟨ch, rq, rs⟩ := v
    dsimp only at hr
    subst hr
    obtain ⟨h1, h2, h3, m, k, h4, h5, h6, h7⟩ := h
    exact ⟨h1, h2, h3, m, k, h4, h5, h6.retry (hp m rfl), h7⟩
  · rwa [if_neg hr]

/-- A response that must be sent again. -/
theorem Phase.retry' {max : Nat} {y : Sys} {v : View} {d : List UInt8} (h : Phase max y v)
    (hp : ∀ m, v.ch = .serving → v.response = some m → d = m) :
    Phase max y (if v.ch = .serving then { v with response := some d } else v) := by
  by_cases hr : v.ch = .serving
  · rw [if_pos hr]
    obtain ⟨ch, rq, rs⟩ := v
    dsimp only at hr
    subst hr
    obtain ⟨h1, h2, h3, m, k, h4, h5, h6, h7⟩ := h
    exact ⟨h1, h2, h3, m, k, h4, h5, h6.retry (hp m rfl), h7⟩
  · rwa [if_neg hr]

/-- The invariant does not depend on the connection. -/
theorem Phase.link {max : Nat} {c : Client} {s : Server} {up down : List UInt8} {v : View} {l : Link}
    (h : Phase max ⟨c, s, up, down⟩ v) : Phase max ⟨{ c with link := l }, s, up, down⟩ v := h

theorem next_aborted (v : View) (o : Op) (x : Option (List UInt8)) : v.next o (.aborted, x) = some v := by
  cases o <;> rfl

theorem next_badargs (v : View) (o : Op) (x : Option (List UInt8)) : v.next o (.badargs, x) = some v := by
  cases o <;> rfl

/-- When the client's socket is dead, its context does not matter. -/
theorem Phase.cdead {max : Nat} {c c' : Client} {s : Server} {up down : List UInt8} {v : View}
    (h : Phase max ⟨c, s, up, down⟩ v) (hd' : c'.dead = true) (ho : c'.side.off = 0) :
    Phase max ⟨c', s, up, down⟩ v := by
  obtain ⟨ch, rq, rs⟩ := v
  cases ch with
  | ready =>
    obtain ⟨h1, h2, h3, m, k, h4, h5, h6, h7⟩ := h
    exact ⟨h1, h2, .inl hd', m, k, h4, h5, .inl hd', h7⟩
  | requested m =>
    obtain ⟨h1, h2, h3, h4, h5, h6⟩ := h
    exact ⟨h1, h2, .inl hd', ho, h5, h6⟩
  | serving =>
    obtain ⟨h1, h2, h3, m, k, h4, h5, h6, h7⟩ := h
    exact ⟨h1, h2, .inl hd', m, k, h4, h5, h6, .inl hd'⟩
  | answered m =>
    obtain ⟨h1, h2, h3, h4, h5, h6⟩ := h
    exact ⟨h1, h2, .inl hd', h4, h5, .inl hd'⟩

/-- When the server's socket is dead, its context does not matter. -/
theorem Phase.sdead {max : Nat} {c : Client} {s s' : Server} {up down : List UInt8} {v : View}
    (h : Phase max ⟨c, s, up, down⟩ v) (hd' : s'.dead = true) (ho : s'.side.off = 0) (hb : s'.busy = s.busy) :
    Phase max ⟨c, s', up, down⟩ v := by
  obtain ⟨ch, rq, rs⟩ := v
  cases ch with
  | ready =>
    obtain ⟨h1, h2, h3, m, k, h4, h5, h6, h7⟩ := h
    exact ⟨h1, hb.trans h2, h3, m, k, h4, h5, h6, .inl hd'⟩
  | requested m =>
    obtain ⟨h1, h2, h3, h4, h5, h6⟩ := h
    exact ⟨h1, hb.trans h2, h3, h4, h5, .inl hd'⟩
  | serving =>
    obtain ⟨h1, h2, h3, m, k, h4, h5, h6, h7⟩ := h
    exact ⟨h1, hb.trans h2, h3, m, k, h4, h5, .inl hd', h7⟩
  | answered m =>
    obtain ⟨h1, h2, h3, h4, h5, h6⟩ := h
    exact ⟨h1, hb.trans h2, h3, ho, h5, h6⟩

theorem step_cSend {max : Nat} {y : Sys} {v : View} {e : Conn} {io : Out} {d : List UInt8} (hi : Inv max y v)
    (hp : ∀ m, v.ch = .ready → v.request = some m → d = m) :
    ∃ v', v.next (.cSend e io d) (step max y (.cSend e io d)).2 = some v' ∧
      Inv max (step max y (.cSend e io d)).1 v' := by
  obtain ⟨⟨side, link, sent, dead⟩, s, up, down⟩ := y
  obtain ⟨hc, hs, hph⟩ := hi
  dsimp only at hc hs
  simp only [step]
  unfold sendRequest
  by_cases hd : d.length = 0 ∨ d.length > max
  · rw [if_pos hd]
    refine ⟨v, next_badargs _ _ _, hc, hs, ?_⟩
    simpa using hph
  rw [if_neg hd]
  dsimp only
  by_cases hsent : sent = true
  · rw [if_pos hsent]
    refine ⟨_, next_send_again _ _ _ _ _, hc, hs, ?_⟩
    simpa using hph.retry hp
  rw [if_neg hsent]
  by_cases hok : (connect link e).1 = .ok
  swap
  · rw [if_neg hok]
    by_cases hnf : (connect link e).1 = .notfound
    · rw [if_pos hnf]
      refine ⟨_, next_send_again _ _ _ _ _, hc, hs, ?_⟩
      simpa using (hph.retry hp).link
    · rw [if_neg hnf]
      rcases connect_rc link e with h | h | h | h
      · exact absurd h hok
      · rw [h]
        refine ⟨_, next_send_again _ _ _ _ _, hc, hs, ?_⟩
        simpa using (hph.retry hp).link
      · exact absurd h hnf
      · rw [h]
        refine ⟨v, next_aborted _ _ _, hc, hs, ?_⟩
        simpa using hph.link
  rw [if_pos hok]
  by_cases hdead : dead = true
  · subst hdead
    obtain ⟨h1, h2, h3, h4, h5⟩ := send_dead (io := io) hd (hc.off rfl) hc.len hc.ub
    rw [h5]
    rcases h1 with h1 | h1
    · rw [h1, if_pos rfl]
      refine ⟨_, next_send_again _ _ _ _ _, ⟨h3, h4, fun _ => h2⟩, hs, ?_⟩
      rw [List.append_nil]
      exact (hph.retry hp).cdead rfl h2
    · rw [h1, if_neg (by decide)]
      refine ⟨v, next_aborted _ _ _, ⟨h3, h4, fun _ => rfl⟩, hs, ?_⟩
      rw [List.append_nil]
      exact hph.cdead rfl rfl
  · simp only [Bool.not_eq_true] at hdead hsent
    subst hdead hsent
    obtain ⟨ch, rq, rs⟩ := v
    cases ch with
    | requested m => exact absurd hph.2.2.1 (by simp)
    | serving => exact absurd hph.2.2.1 (by simp)
    | answered m => exact absurd hph.2.2.1 (by simp)
    | ready =>
      obtain ⟨h1, h2, h3, m, k, h4, h5, h6, h7⟩ := hph
      have hlive := send_live (io := io) hc h6 h7 hs h5 h4 hd (hp m rfl)
      rw [show outOf false io = io from rfl]
      rcases hlive with ⟨r1, r2, r3, r4⟩ | ⟨r1, r2, k', r3, r4, r5⟩ | ⟨r1, r2, r3, r4⟩
      · rw [r1, if_neg (by decide)]
        refine ⟨_, rfl, ⟨r2.len, r2.ub, fun _ => rfl⟩, hs, ?_⟩
        exact ⟨h1, h2, .inr rfl, rfl, hd, r4⟩
      · rw [r1, if_pos rfl]
        refine ⟨_, rfl, r2, hs, ?_⟩
        exact ⟨h1, h2, .inr rfl, d, k', hd, r3, r4, r5⟩
      · rw [r1, if_neg (by decide), r4]
        refine ⟨_, next_aborted _ _ _, ⟨r2.len, r2.ub, fun _ => rfl⟩, hs, ?_⟩
        rw [List.append_nil]
        exact ⟨h1, h2, .inl rfl, m, k, h4, h5, .inl rfl, h7⟩

theorem step_sSend {max : Nat} {y : Sys} {v : View} {io : Out} {d : List UInt8} (hi : Inv max y v)
    (hp : ∀ m, v.ch = .serving → v.response = some m → d = m) :
    ∃ v', v.next (.sSend io d) (step max y (.sSend io d)).2 = some v' ∧
      Inv max (step max y (.sSend io d)).1 v' := by
  obtain ⟨c, ⟨side, lis, acc, busy, dead⟩, up, down⟩ := y
  obtain ⟨hc, hs, hph⟩ := hi
  dsimp only at hc hs
  simp only [step]
  unfold sendResponse
  dsimp only
  by_cases hd : d.length = 0 ∨ d.length > max
  · rw [if_pos (by rw [decide_eq_true hd, Bool.or_true])]
    refine ⟨v, next_badargs _ _ _, hc, hs, ?_⟩
    simpa using hph
  by_cases hbad : (!lis || !acc || decide (d.length = 0 ∨ d.length > max)) = true
  · rw [if_pos hbad]
    refine ⟨v, next_badargs _ _ _, hc, hs, ?_⟩
    simpa using hph
  rw [if_neg hbad]
  by_cases hb : busy = true
  swap
  · rw [if_pos (by simpa using hb)]
    refine ⟨_, next_respond_again _ _ _ _, hc, hs, ?_⟩
    simpa using hph.retry' hp
  subst hb
  rw [if_neg (by decide)]
  by_cases hdead : dead = true
  · subst hdead
    obtain ⟨h1, h2, h3, h4, h5⟩ := send_dead (io := io) hd (hs.off rfl) hs.len hs.ub
    rw [h5]
    rcases h1 with h1 | h1
    · rw [h1, if_pos rfl]
      refine ⟨_, next_respond_again _ _ _ _, hc, ⟨h3, h4, fun _ => h2⟩, ?_⟩
      rw [List.append_nil]
      exact (hph.retry' hp).sdead rfl h2 rfl
    · rw [h1, if_neg (by decide)]
      refine ⟨v, next_aborted _ _ _, hc, ⟨h3, h4, fun _ => rfl⟩, ?_⟩
      rw [List.append_nil]
      exact hph.sdead rfl rfl rfl
  · simp only [Bool.not_eq_true] at hdead
    subst hdead
    obtain ⟨ch, rq, rs⟩ := v
    cases ch with
    | ready => exact absurd hph.2.1 (by simp)
    | requested m => exact absurd hph.2.1 (by simp)
    | answered m => exact absurd hph.2.1 (by simp)
    | serving =>
      obtain ⟨h1, h2, h3, m, k, h4, h5, h6, h7⟩ := hph
      have hlive := send_live (io := io) hs h6 h7 hc h5 h4 hd (hp m rfl)
      rw [show outOf false io = io from rfl]
      rcases hlive with ⟨r1, r2, r3, r4⟩ | ⟨r1, r2, k', r3, r4, r5⟩ | ⟨r1, r2, r3, r4⟩
      · rw [r1, if_neg (by decide)]
        refine ⟨_, rfl, hc, ⟨r2.len, r2.ub, fun _ => rfl⟩, ?_⟩
        exact ⟨h1, rfl, h3, rfl, hd, r4⟩
      · rw [r1, if_pos rfl]
        refine ⟨_, rfl, hc, r2, ?_⟩
        exact ⟨h1, rfl, h3, d, k', hd, r3, r4, r5⟩
      · rw [r1, if_neg (by decide), r4]
        refine ⟨_, next_aborted _ _ _, hc, ⟨r2.len, r2.ub, fun _ => rfl⟩, ?_⟩
        rw [List.append_nil]
        exact ⟨h1, rfl, h3, m, k, h4, h5, .inl rfl, h7⟩

theorem next_cRecv_again (v : View) (io io2 : In) (x : Option (List UInt8)) :
    v.next (.cRecv io io2) (.notready, x) = some v := rfl

theorem next_sRecv_again (v : View) (a : Acc) (io io2 : In) (x : Option (List UInt8)) :
    v.next (.sRecv a io io2) (.notready, x) = some v := rfl

theorem fits_one {max : Nat} (h : 0 < max) : Fits max [0] := by simp [Fits]; omega

/-- Nothing to receive. -/
theorem has_nil {s : Side} (m : List UInt8) (h : s.off = 0) : Has s [] m 0 := ⟨by simp [h], by omega⟩

theorem step_cRecv {max : Nat} {y : Sys} {v : View} {io io2 : In} (hmax : 0 < max) (hmax' : max < 4294967296)
    (hi : Inv max y v) :
    ∃ v', v.next (.cRecv io io2) (step max y (.cRecv io io2)).2 = some v' ∧
      Inv max (step max y (.cRecv io io2)).1 v' := by
  obtain ⟨⟨side, link, sent, dead⟩, s, up, down⟩ := y
  obtain ⟨hc, hs, hph⟩ := hi
  dsimp only at hc hs
  simp only [step]
  unfold recvResponse
  dsimp only
  by_cases hl : link = .unconnected ∨ link = .done
  · rw [if_pos hl]
    exact ⟨v, next_badargs _ _ _, hc, hs, hph⟩
  rw [if_neg hl]
  by_cases hsent : sent = true
  swap
  · rw [if_pos (by simpa using hsent)]
    exact ⟨v, next_cRecv_again _ _ _ _, hc, hs, hph⟩
  subst hsent
  rw [if_neg (by decide)]
  by_cases hdead : dead = true
  · subst hdead
    rcases recv_dead (max := max) (io := io) (io2 := io2) (w := down) (hc.off rfl) with h | h
    · rw [h]
      dsimp only
      rw [if_pos rfl]
      exact ⟨v, next_cRecv_again _ _ _ _, hc, hs, hph⟩
    · rw [h]
      dsimp only
      rw [if_neg (by decide)]
      exact ⟨v, next_aborted _ _ _, ⟨hc.len, hc.ub, fun _ => rfl⟩, hs, hph.cdead rfl rfl⟩
  simp only [Bool.not_eq_true] at hdead
  subst hdead
  rw [show inOf false io = io from rfl, show inOf false io2 = io2 from rfl]
  have key : ∀ m k, Has side down m k → k ≤ 4 + m.length → Fits max m →
      Recvd max (recv max side io io2 down) io io2 m k := fun m k h hk hm => recv_spec h hk hm hmax' hc.len hc.ub
  have hab : ∀ {r : Rc}, r = .aborted → (io = .fatal ∨ io2 = .fatal) → failed r io io2 = true := by
    intro r h1 h2
    simp only [failed, h1]
    rcases h2 with h2 | h2 <;> simp [h2]
  generalize recv max side io io2 down = r at key
  obtain ⟨rc, side', down', pk⟩ := r
  dsimp only
  obtain ⟨ch, rq, rs⟩ := v
  cases ch with
  | ready => exact absurd hph.2.2.1 (by simp)
  | requested m =>
    obtain ⟨h1, h2, h3, h4, h5, h6⟩ := hph
    dsimp only at h1 h4
    obtain ⟨e1, e2, e3⟩ := key m 0 (by rw [h1]; exact has_nil m h4) (by omega) h5
    dsimp only at e1 e2 e3
    rcases e3 with ⟨-, -, -, -, e⟩ | ⟨r1, r2⟩ | ⟨r1, r2, r3⟩
    · omega
    · subst r1
      rw [if_pos rfl]
      have hlen := has_length r2 (by omega) e1 (by simp only [Fits] at h5; omega)
      have hd0 : down' = [] := List.eq_nil_of_length_eq_zero (by omega)
      exact ⟨_, rfl, ⟨e1, e2, fun _ => by dsimp only; omega⟩, hs, hd0, h2, .inr rfl, by dsimp only; omega, h5, h6⟩
    · subst r1
      rw [if_neg (by decide)]
      refine ⟨_, next_aborted _ _ _, ⟨e1, e2, fun _ => rfl⟩, hs, List.eq_nil_of_length_eq_zero (by dsimp only; omega), h2, .inl ?_,
        rfl, h5, h6⟩
      simp only [hab rfl r2, Bool.or_true]
  | serving =>
    obtain ⟨h1, h2, h3, m, k, h4, h5, h6, h7⟩ := hph
    have h7' : Has side down m k := by simpa [Receiving] using h7
    obtain ⟨e1, e2, e3⟩ := key m k h7' (by omega) h4
    dsimp only at e1 e2 e3
    rcases e3 with ⟨-, -, -, -, e⟩ | ⟨r1, r2⟩ | ⟨r1, r2, r3⟩
    · omega
    · subst r1
      rw [if_pos rfl]
      exact ⟨_, rfl, ⟨e1, e2, fun h => by cases h⟩, hs, h1, h2, .inr rfl, m, k, h4, h5, h6, .inr r2⟩
    · subst r1
      rw [if_neg (by decide)]
      refine ⟨_, next_aborted _ _ _, ⟨e1, e2, fun _ => rfl⟩, hs, h1, h2, .inl ?_, m, k, h4, h5, h6, .inl ?_⟩ <;>
        simp only [hab rfl r2, Bool.or_true]
  | answered m =>
    obtain ⟨h1, h2, h3, h4, h5, h6⟩ := hph
    have h6' : Has side down m (4 + m.length) := by simpa [Receiving] using h6
    obtain ⟨e1, e2, e3⟩ := key m _ h6' (by omega) h5
    dsimp only at e1 e2 e3
    rcases e3 with ⟨r1, r2, r3, r4, -⟩ | ⟨r1, r2⟩ | ⟨r1, r2, r3⟩
    · subst r1 r3 r4
      rw [if_neg (by decide)]
      refine ⟨_, if_pos rfl, ⟨e1, e2, fun _ => rfl⟩, hs, rfl, h2, .inr rfl, [0], 0, fits_one hmax, by omega,
        .inr ⟨rfl, fun h => absurd h (by omega)⟩, .inr ?_⟩
      dsimp only at h1
      dsimp only
      rw [h1]
      exact has_nil _ h4
    · subst r1
      rw [if_pos rfl]
      exact ⟨_, rfl, ⟨e1, e2, fun h => by cases h⟩, hs, h1, h2, .inr rfl, h4, h5, .inr r2⟩
    · subst r1
      rw [if_neg (by decide)]
      refine ⟨_, next_aborted _ _ _, ⟨e1, e2, fun _ => rfl⟩, hs, h1, h2, .inl ?_, h4, h5, .inl ?_⟩ <;>
        simp only [hab rfl r2, Bool.or_true]

/-- `recvRequest` without `accept`. -/
theorem recvAccepted_inv {max : Nat} {y : Sys} {v : View} {a : Acc} {io io2 : In} (hmax : 0 < max)
    (hmax' : max < 4294967296) (hi : Inv max y v) :
    ∃ v', v.next (.sRecv a io io2) ((recvAccepted max y.s io io2 y.up).1, (recvAccepted max y.s io io2 y.up).2.2.2) = some v' ∧
      Inv max { y with s := (recvAccepted max y.s io io2 y.up).2.1, up := (recvAccepted max y.s io io2 y.up).2.2.1 } v' := by
  obtain ⟨c, ⟨side, lis, acc, busy, dead⟩, up, down⟩ := y
  obtain ⟨hc, hs, hph⟩ := hi
  dsimp only at hc hs
  unfold recvAccepted
  dsimp only
  by_cases hb : busy = true
  · rw [if_pos hb]
    exact ⟨v, next_sRecv_again _ _ _ _ _, hc, hs, hph⟩
  rw [if_neg hb]
  simp only [Bool.not_eq_true] at hb
  subst hb
  by_cases hdead : dead = true
  · subst hdead
    rcases recv_dead (max := max) (io := io) (io2 := io2) (w := up) (hs.off rfl) with h | h
    · rw [h]
      dsimp only
      rw [if_pos rfl]
      exact ⟨v, next_sRecv_again _ _ _ _ _, hc, hs, hph⟩
    · rw [h]
      dsimp only
      rw [if_neg (by decide)]
      exact ⟨v, next_aborted _ _ _, hc, ⟨hs.len, hs.ub, fun _ => rfl⟩, hph.sdead rfl rfl rfl⟩
  simp only [Bool.not_eq_true] at hdead
  subst hdead
  rw [show inOf false io = io from rfl, show inOf false io2 = io2 from rfl]
  have key : ∀ m k, Has side up m k → k ≤ 4 + m.length → Fits max m →
      Recvd max (recv max side io io2 up) io io2 m k := fun m k h hk hm => recv_spec h hk hm hmax' hs.len hs.ub
  have hab : ∀ {r : Rc}, r = .aborted → (io = .fatal ∨ io2 = .fatal) → failed r io io2 = true := by
    intro r h1 h2
    simp only [failed, h1]
    rcases h2 with h2 | h2 <;> simp [h2]
  generalize recv max side io io2 up = r at key
  obtain ⟨rc, side', up', pk⟩ := r
  dsimp only
  obtain ⟨ch, rq, rs⟩ := v
  cases ch with
  | serving => exact absurd hph.2.1 (by simp)
  | answered m =>
    obtain ⟨h1, h2, h3, h4, h5, h6⟩ := hph
    dsimp only at h1 h4
    obtain ⟨e1, e2, e3⟩ := key m 0 (by rw [h1]; exact has_nil m h4) (by omega) h5
    dsimp only at e1 e2 e3
    rcases e3 with ⟨-, -, -, -, e⟩ | ⟨r1, r2⟩ | ⟨r1, r2, r3⟩
    · omega
    · subst r1
      rw [if_pos rfl]
      have hlen := has_length r2 (by omega) e1 (by simp only [Fits] at h5; omega)
      have hd0 : up' = [] := List.eq_nil_of_length_eq_zero (by omega)
      exact ⟨_, rfl, hc, ⟨e1, e2, fun _ => by dsimp only; omega⟩, hd0, rfl, h3, by dsimp only; omega, h5, h6⟩
    · subst r1
      rw [if_neg (by decide)]
      exact ⟨_, next_aborted _ _ _, hc, ⟨e1, e2, fun _ => rfl⟩, List.eq_nil_of_length_eq_zero (by dsimp only; omega), rfl,
        h3, rfl, h5, h6⟩
  | ready =>
    obtain ⟨h1, h2, h3, m, k, h4, h5, h6, h7⟩ := hph
    have h7' : Has side up m k := by simpa [Receiving] using h7
    obtain ⟨e1, e2, e3⟩ := key m k h7' (by omega) h4
    dsimp only at e1 e2 e3
    rcases e3 with ⟨-, -, -, -, e⟩ | ⟨r1, r2⟩ | ⟨r1, r2, r3⟩
    · omega
    · subst r1
      rw [if_pos rfl]
      exact ⟨_, rfl, hc, ⟨e1, e2, fun h => by cases h⟩, h1, rfl, h3, m, k, h4, h5, h6, .inr r2⟩
    · subst r1
      rw [if_neg (by decide)]
      refine ⟨_, next_aborted _ _ _, hc, ⟨e1, e2, fun _ => rfl⟩, h1, rfl, h3, m, k, h4, h5, h6, .inl ?_⟩
      simp only [hab rfl r2, Bool.or_true]
  | requested m =>
    obtain ⟨h1, h2, h3, h4, h5, h6⟩ := hph
    have h6' : Has side up m (4 + m.length) := by simpa [Receiving] using h6
    obtain ⟨e1, e2, e3⟩ := key m _ h6' (by omega) h5
    dsimp only at e1 e2 e3
    rcases e3 with ⟨r1, r2, r3, r4, -⟩ | ⟨r1, r2⟩ | ⟨r1, r2, r3⟩
    · subst r1 r3 r4
      rw [if_neg (by decide)]
      refine ⟨_, if_pos rfl, hc, ⟨e1, e2, fun _ => rfl⟩, rfl, rfl, h3, [0], 0, fits_one hmax, by omega,
        .inr ⟨rfl, fun h => absurd h (by omega)⟩, .inr ?_⟩
      dsimp only at h1
      dsimp only
      rw [h1]
      exact has_nil _ h4
    · subst r1
      rw [if_pos rfl]
      exact ⟨_, rfl, hc, ⟨e1, e2, fun h => by cases h⟩, h1, rfl, h3, h4, h5, .inr r2⟩
    · subst r1
      rw [if_neg (by decide)]
      refine ⟨_, next_aborted _ _ _, hc, ⟨e1, e2, fun _ => rfl⟩, h1, rfl, h3, h4, h5, .inl ?_⟩
      simp only [hab rfl r2, Bool.or_true]

theorem step_sRecv {max : Nat} {y : Sys} {v : View} {a : Acc} {io io2 : In} (hmax : 0 < max) (hmax' : max < 4294967296)
    (hi : Inv max y v) :
    ∃ v', v.next (.sRecv a io io2) (step max y (.sRecv a io io2)).2 = some v' ∧
      Inv max (step max y (.sRecv a io io2)).1 v' := by
  simp only [step]
  unfold recvRequest
  by_cases hl : (!y.s.listening) = true
  · rw [if_pos hl]
    exact ⟨v, next_badargs _ _ _, hi⟩
  rw [if_neg hl]
  by_cases ha : y.s.accepted = true
  · rw [if_pos ha]
    exact recvAccepted_inv hmax hmax' hi
  rw [if_neg ha]
  cases a with
  | again => exact ⟨v, next_sRecv_again _ _ _ _ _, hi⟩
  | fatal => exact ⟨v, next_aborted _ _ _, hi.c, hi.s, hi.phase⟩
  | client =>
    exact recvAccepted_inv (y := { y with s := { y.s with accepted := true } }) hmax hmax' ⟨hi.c, hi.s, hi.phase⟩

theorem step_inv {max : Nat} {y : Sys} {v : View} {o : Op} (hmax : 0 < max) (hmax' : max < 4294967296)
    (hi : Inv max y v) (hp : v.Polite o) :
    ∃ v', v.next o (step max y o).2 = some v' ∧ Inv max (step max y o).1 v' := by
  cases o with
  | cSend e io d => 
    refine step_cSend hi fun m h1 h2 => ?_
    rcases hp h1 with h | h
    · rw [h] at h2; cases h2
    · rw [h] at h2; cases h2; rfl
  | cRecv io io2 => exact step_cRecv hmax hmax' hi
  | sRecv a io io2 => exact step_sRecv hmax hmax' hi
  | sSend io d => 
    refine step_sSend hi fun m h1 h2 => ?_
    rcases hp h1 with h | h
    · rw [h] at h2; cases h2
    · rw [h] at h2; cases h2; rfl

theorem run_inv {max : Nat} (hmax : 0 < max) (hmax' : max < 4294967296) (os : List Op) :
    ∀ {y : Sys} {v : View}, Inv max y v → v.AllPolite (run max y os).2 →
      ∃ v', v.after (run max y os).2 = some v' ∧ Inv max (run max y os).1 v' := by
  induction os with
  | nil => intro y v hi _; exact ⟨v, rfl, hi⟩
  | cons o os ih =>
    intro y v hi hp
    simp only [run, View.AllPolite] at hp
    obtain ⟨v1, h1, h2⟩ := step_inv hmax hmax' hi hp.1
    have hp2 := hp.2
    rw [h1] at hp2
    obtain ⟨v2, h3, h4⟩ := ih h2 hp2
    refine ⟨v2, ?_, h4⟩
    simp only [run, View.after]
    rw [h1]
    exact h3

theorem start_inv {max : Nat} (hmax : 0 < max) : Inv max (Sys.start max) View.start :=
  ⟨⟨by simp [Sys.start], rfl, fun h => by cases h⟩, ⟨by simp [Sys.start], rfl, fun h => by cases h⟩,
   rfl, rfl, .inr rfl, [0], 0, fits_one hmax, by omega, .inr ⟨rfl, fun h => absurd h (by omega)⟩,
   .inr (has_nil _ rfl)⟩

end WolfHsm.Tcp

/-! ### Progress -/

namespace WolfHsm.Tcp

theorem send_progress {max : Nat} {s : Side} {n : Nat} {d : List UInt8} (hd : Fits max d) (ho : s.off < 4 + d.length) :
    (send max s (.wrote (n + 1)) d).1 = .ok ∨
    ((send max s (.wrote (n + 1)) d).1 = .notready ∧ s.off < (send max s (.wrote (n + 1)) d).2.1.off ∧
     (send max s (.wrote (n + 1)) d).2.1.off < 4 + d.length) := by
  unfold send
  rw [if_neg hd]
  dsimp only
  by_cases h : min (n + 1) (4 + d.length - s.off) ≠ 4 + d.length - s.off
  · right
    rw [if_pos h]
    refine ⟨rfl, ?_, ?_⟩ <;> dsimp only <;> omega
  · left
    rw [if_neg h]

/-- A call that writes at least a byte finishes, or gets further. -/
theorem sendRequest_progress {max : Nat} {c : Client} {e : Conn} {n : Nat} {d : List UInt8} (hd : Fits max d)
    (hs : c.sent = false) (hl : c.link = .connected) (hdead : c.dead = false) (ho : c.side.off < 4 + d.length) :
    (sendRequest max c e (.wrote (n + 1)) d).1 = .ok ∨
    ((sendRequest max c e (.wrote (n + 1)) d).1 = .notready ∧ (sendRequest max c e (.wrote (n + 1)) d).2.1.sent = false ∧
     (sendRequest max c e (.wrote (n + 1)) d).2.1.link = .connected ∧
     (sendRequest max c e (.wrote (n + 1)) d).2.1.dead = false ∧
     c.side.off < (sendRequest max c e (.wrote (n + 1)) d).2.1.side.off ∧
     (sendRequest max c e (.wrote (n + 1)) d).2.1.side.off < 4 + d.length) := by
  obtain ⟨side, link, sent, dead⟩ := c
  dsimp only at hs hl hdead ho
  subst hs hl hdead
  unfold sendRequest
  rw [if_neg hd]
  dsimp only
  rw [if_neg (by decide), show connect .connected e = (.ok, .connected) from rfl]
  dsimp only
  rw [if_pos (show Rc.ok = Rc.ok from rfl), show outOf false (.wrote (n + 1)) = .wrote (n + 1) from rfl]
  rcases send_progress (n := n) hd ho with h | ⟨h1, h2, h3⟩
  · left
    rw [h, if_neg (by decide)]
  · right
    rw [h1, if_pos rfl]
    exact ⟨rfl, rfl, rfl, rfl, h2, h3⟩

/-- Likewise for a response. -/
theorem sendResponse_progress {max : Nat} {c : Server} {n : Nat} {d : List UInt8} (hd : Fits max d)
    (hs : c.busy = true) (hl : c.listening = true) (ha : c.accepted = true) (hdead : c.dead = false)
    (ho : c.side.off < 4 + d.length) :
    (sendResponse max c (.wrote (n + 1)) d).1 = .ok ∨
    ((sendResponse max c (.wrote (n + 1)) d).1 = .notready ∧ (sendResponse max c (.wrote (n + 1)) d).2.1.busy = true ∧
     (sendResponse max c (.wrote (n + 1)) d).2.1.listening = true ∧
     (sendResponse max c (.wrote (n + 1)) d).2.1.accepted = true ∧
     (sendResponse max c (.wrote (n + 1)) d).2.1.dead = false ∧
     c.side.off < (sendResponse max c (.wrote (n + 1)) d).2.1.side.off ∧
     (sendResponse max c (.wrote (n + 1)) d).2.1.side.off < 4 + d.length) := by
  obtain ⟨side, lis, acc, busy, dead⟩ := c
  dsimp only at hs hl ha hdead ho
  subst hs hl ha hdead
  unfold sendResponse
  dsimp only
  rw [if_neg (by rw [decide_eq_false hd]; decide), if_neg (by decide),
    show outOf false (.wrote (n + 1)) = .wrote (n + 1) from rfl]
  rcases send_progress (n := n) hd ho with h | ⟨h1, h2, h3⟩
  · left
    rw [h, if_neg (by decide)]
  · right
    rw [h1, if_pos rfl]
    exact ⟨rfl, rfl, rfl, rfl, rfl, h2, h3⟩

theorem body_off {max : Nat} {s : Side} {n : Nat} {w : List UInt8} :
    (body max s (.got n) w).1 = .notready → s.off ≤ (body max s (.got n) w).2.1.off ∧
      (0 < n → 0 < w.length → s.off < (body max s (.got n) w).2.1.off) := by
  unfold body
  cases Utils.read32 false (s.buf.take 4) with
  | none => intro h; cases h
  | some z =>
    dsimp only
    by_cases hz : z.toNat = 0 ∨ z.toNat > max
    · rw [if_pos hz]; intro h; cases h
    · rw [if_neg hz]
      have hl : (w.take (min n (z.toNat - (s.off - 4)))).length = min (min n (z.toNat - (s.off - 4))) w.length :=
        List.length_take
      generalize w.take (min n (z.toNat - (s.off - 4))) = b at *
      by_cases hr : z.toNat - (s.off - 4) - b.length > 0
      · rw [if_pos hr]
        dsimp only
        intro _
        exact ⟨by omega, fun _ _ => by omega⟩
      · rw [if_neg hr]; intro h; cases h

/-- A call that may read at least a byte finishes, or gets further, while bytes are there. -/
theorem recv_off {max : Nat} {s : Side} {n n2 : Nat} {w : List UInt8} (hw : 0 < w.length)
    (h : (recv max s (.got (n + 1)) (.got (n2 + 1)) w).1 = .notready) :
    s.off < (recv max s (.got (n + 1)) (.got (n2 + 1)) w).2.1.off := by
  unfold recv at h ⊢
  by_cases h4 : s.off < 4
  · rw [if_pos h4] at h ⊢
    dsimp only at h ⊢
    have hl : (w.take (min (n + 1) (4 - s.off))).length = min (min (n + 1) (4 - s.off)) w.length := List.length_take
    generalize w.take (min (n + 1) (4 - s.off)) = b at *
    by_cases h5 : s.off + b.length < 4
    · rw [if_pos h5]
      dsimp only
      omega
    · rw [if_neg h5] at h ⊢
      have := (body_off h).1
      dsimp only at this
      omega
  · rw [if_neg h4] at h ⊢
    exact (body_off h).2 (by omega) hw

end WolfHsm.Tcp

namespace WolfHsm.Tcp

theorem got_not_fatal {n n2 : Nat} : ¬ ((In.got n = .fatal) ∨ (In.got n2 = .fatal)) := by
  rintro (h | h) <;> cases h

/-- `recv` when the whole packet is under way. -/
theorem recv_progress {max : Nat} {s : Side} {n n2 : Nat} {w m : List UInt8} (h : Has s w m (4 + m.length))
    (hm : Fits max m) (hmax : max < 4294967296) (hl : s.buf.length = max + 4) (hu : s.ub = false) :
    ((recv max s (.got (n + 1)) (.got (n2 + 1)) w).1 = .ok ∧ (recv max s (.got (n + 1)) (.got (n2 + 1)) w).2.2.2 = some m) ∨
    ((recv max s (.got (n + 1)) (.got (n2 + 1)) w).1 = .notready ∧
     Has (recv max s (.got (n + 1)) (.got (n2 + 1)) w).2.1 (recv max s (.got (n + 1)) (.got (n2 + 1)) w).2.2.1 m (4 + m.length) ∧
     (recv max s (.got (n + 1)) (.got (n2 + 1)) w).2.1.buf.length = max + 4 ∧
     (recv max s (.got (n + 1)) (.got (n2 + 1)) w).2.1.ub = false ∧
     s.off < (recv max s (.got (n + 1)) (.got (n2 + 1)) w).2.1.off) := by
  have hlen := has_length h (Nat.le_refl _) hl (by simp only [Fits] at hm; omega)
  have h2 := h.2
  obtain ⟨e1, e2, e3⟩ := recv_spec (io := .got (n + 1)) (io2 := .got (n2 + 1)) h (Nat.le_refl _) hm hmax hl hu
  rcases e3 with ⟨r1, -, -, r2, -⟩ | ⟨r1, r2⟩ | ⟨-, r2, -⟩
  · exact .inl ⟨r1, r2⟩
  · exact .inr ⟨r1, r2, e1, e2, recv_off (by omega) r1⟩
  · exact absurd r2 got_not_fatal

theorem requests_sent {max : Nat} {d : List UInt8} (hd : Fits max d) (ns : List (Conn × Nat)) :
    ∀ {y : Sys}, y.c.sent = false → y.c.link = .connected → y.c.dead = false → y.c.side.off < 4 + d.length →
      4 + d.length - y.c.side.off ≤ ns.length →
      ∃ r ∈ (run max y (ns.map fun n => .cSend n.1 (.wrote (n.2 + 1)) d)).2, r.2.1 = .ok := by
  induction ns with
  | nil => intro y _ _ _ h1 h2; simp at h2; omega
  | cons n ns ih =>
    intro y hs hl hdead ho hn
    simp only [List.map_cons, run, List.length_cons] at hn ⊢
    rcases sendRequest_progress (e := n.1) (n := n.2) hd hs hl hdead ho with h | ⟨h1, h2, h3, h4, h5, h6⟩
    · exact ⟨_, List.mem_cons_self, h⟩
    · obtain ⟨r, hr, hok⟩ := ih (y := (step max y (.cSend n.1 (.wrote (n.2 + 1)) d)).1) h2 h3 h4 h6
        (by simp only [step]; omega)
      exact ⟨r, List.mem_cons_of_mem _ hr, hok⟩

theorem responses_sent {max : Nat} {d : List UInt8} (hd : Fits max d) (ns : List Nat) :
    ∀ {y : Sys}, y.s.busy = true → y.s.listening = true → y.s.accepted = true → y.s.dead = false →
      y.s.side.off < 4 + d.length → 4 + d.length - y.s.side.off ≤ ns.length →
      ∃ r ∈ (run max y (ns.map fun n => .sSend (.wrote (n + 1)) d)).2, r.2.1 = .ok := by
  induction ns with
  | nil => intro y _ _ _ _ h1 h2; simp at h2; omega
  | cons n ns ih =>
    intro y hs hl ha hdead ho hn
    simp only [List.map_cons, run, List.length_cons] at hn ⊢
    rcases sendResponse_progress (n := n) hd hs hl ha hdead ho with h | ⟨h1, h2, h3, h3', h4, h5, h6⟩
    · exact ⟨_, List.mem_cons_self, h⟩
    · obtain ⟨r, hr, hok⟩ := ih (y := (step max y (.sSend (.wrote (n + 1)) d)).1) h2 h3 h3' h4 h6
        (by simp only [step]; omega)
      exact ⟨r, List.mem_cons_of_mem _ hr, hok⟩

theorem requests_received {max : Nat} {m : List UInt8} (hm : Fits max m) (hmax : max < 4294967296)
    (ns : List (Acc × Nat × Nat)) :
    ∀ {y : Sys}, y.s.busy = false → y.s.listening = true → y.s.accepted = true → y.s.dead = false →
      Has y.s.side y.up m (4 + m.length) → y.s.side.buf.length = max + 4 → y.s.side.ub = false →
      4 + m.length - y.s.side.off ≤ ns.length →
      ∃ r ∈ (run max y (ns.map fun n => .sRecv n.1 (.got (n.2.1 + 1)) (.got (n.2.2 + 1)))).2, r.2 = (.ok, some m) := by
  induction ns with
  | nil => intro y _ _ _ _ h1 _ _ h2; have := h1.2; simp at h2; omega
  | cons n ns ih =>
    obtain ⟨a, n, n2⟩ := n
    intro y hb hl ha hdead hhas hlen hub hn
    have ho := hhas.2
    simp only [List.map_cons, run, List.length_cons] at hn ⊢
    obtain ⟨c, ⟨side, lis, acc, busy, dead⟩, up, down⟩ := y
    dsimp only at hb hl ha hdead hhas hlen hub hn ho
    subst hb hl ha hdead
    have hstep : step max ⟨c, ⟨side, true, true, false, false⟩, up, down⟩ (.sRecv a (.got (n + 1)) (.got (n2 + 1))) =
        (let r := recvAccepted max ⟨side, true, true, false, false⟩ (.got (n + 1)) (.got (n2 + 1)) up
         (⟨c, r.2.1, r.2.2.1, down⟩, r.1, r.2.2.2)) := rfl
    have hacc : recvAccepted max ⟨side, true, true, false, false⟩ (.got (n + 1)) (.got (n2 + 1)) up =
        (let r := recv max side (.got (n + 1)) (.got (n2 + 1)) up
         if r.1 = .notready then (r.1, ⟨r.2.1, true, true, false, false⟩, r.2.2)
         else (r.1, ⟨{ r.2.1 with off := 0 }, true, true, decide (r.1 = .ok),
           false || failed r.1 (.got (n + 1)) (.got (n2 + 1))⟩, r.2.2)) := rfl
    rw [hstep, hacc]
    rcases recv_progress (n := n) (n2 := n2) hhas hm hmax hlen hub with ⟨h1, h2⟩ | ⟨h1, h2, h3, h4, h5⟩
    · refine ⟨_, List.mem_cons_self, ?_⟩
      dsimp only
      rw [h1, if_neg (by decide), h2]
    · dsimp only
      rw [h1, if_pos rfl]
      obtain ⟨r, hr, hok⟩ := ih (y := ⟨c, ⟨(recv max side (.got (n + 1)) (.got (n2 + 1)) up).2.1, true, true, false, false⟩,
        (recv max side (.got (n + 1)) (.got (n2 + 1)) up).2.2.1, down⟩) rfl rfl rfl rfl h2 h3 h4 (by dsimp only; omega)
      exact ⟨r, List.mem_cons_of_mem _ hr, hok⟩

theorem responses_received {max : Nat} {m : List UInt8} (hm : Fits max m) (hmax : max < 4294967296)
    (ns : List (Nat × Nat)) :
    ∀ {y : Sys}, y.c.sent = true → y.c.link = .connected → y.c.dead = false →
      Has y.c.side y.down m (4 + m.length) → y.c.side.buf.length = max + 4 → y.c.side.ub = false →
      4 + m.length - y.c.side.off ≤ ns.length →
      ∃ r ∈ (run max y (ns.map fun n => .cRecv (.got (n.1 + 1)) (.got (n.2 + 1)))).2, r.2 = (.ok, some m) := by
  induction ns with
  | nil => intro y _ _ _ h1 _ _ h2; have := h1.2; simp at h2; omega
  | cons n ns ih =>
    obtain ⟨n, n2⟩ := n
    intro y hb hl hdead hhas hlen hub hn
    have ho := hhas.2
    simp only [List.map_cons, run, List.length_cons] at hn ⊢
    obtain ⟨⟨side, link, sent, dead⟩, s, up, down⟩ := y
    dsimp only at hb hl hdead hhas hlen hub hn ho
    subst hb hl hdead
    have hstep : step max ⟨⟨side, .connected, true, false⟩, s, up, down⟩ (.cRecv (.got (n + 1)) (.got (n2 + 1))) =
        (let r := recvResponse max ⟨side, .connected, true, false⟩ (.got (n + 1)) (.got (n2 + 1)) down
         (⟨r.2.1, s, up, r.2.2.1⟩, r.1, r.2.2.2)) := rfl
    have hacc : recvResponse max ⟨side, .connected, true, false⟩ (.got (n + 1)) (.got (n2 + 1)) down =
        (let r := recv max side (.got (n + 1)) (.got (n2 + 1)) down
         if r.1 = .notready then (r.1, ⟨r.2.1, .connected, true, false⟩, r.2.2)
         else (r.1, ⟨{ r.2.1 with off := 0 }, .connected, false,
           false || failed r.1 (.got (n + 1)) (.got (n2 + 1))⟩, r.2.2)) := rfl
    rw [hstep, hacc]
    rcases recv_progress (n := n) (n2 := n2) hhas hm hmax hlen hub with ⟨h1, h2⟩ | ⟨h1, h2, h3, h4, h5⟩
    · refine ⟨_, List.mem_cons_self, ?_⟩
      dsimp only
      rw [h1, if_neg (by decide), h2]
    · dsimp only
      rw [h1, if_pos rfl]
      obtain ⟨r, hr, hok⟩ := ih (y := ⟨⟨(recv max side (.got (n + 1)) (.got (n2 + 1)) down).2.1, .connected, true, false⟩, s, up,
        (recv max side (.got (n + 1)) (.got (n2 + 1)) down).2.2.1⟩) rfl rfl rfl h2 h3 h4 (by dsimp only; omega)
      exact ⟨r, List.mem_cons_of_mem _ hr, hok⟩

end WolfHsm.Tcp

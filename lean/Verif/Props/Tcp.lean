import Verif.Proofs.Tcp
import Verif.Model.TcpComm

/-!
# C61: packets over TCP arrive whole, once, in turn

Whatever the sockets take and give in each call, the two ends of the TCP transport behave as a channel for
one request and its response at a time (`View.next`), if a sender who is told to come back does so with the
same packet.  `F_C61_*`: what goes wrong otherwise.
-/

namespace WolfHsm.Props
open WolfHsm.Tcp

/-- C61. In every history of calls on both ends, with sockets that take and give any number of bytes in each
call, fail at any time, connect late or never: what is received is what was sent, once, in turn; and the code
stays within its buffers.  Provided that senders who are told to come back do so with the same packet. -/
theorem C61_packets_partial {max : Nat} (hmax : 0 < max) (hmax' : max < 4294967296) (os : List Op)
    (hp : View.start.AllPolite (run max (Sys.start max) os).2) :
    ((View.start.after (run max (Sys.start max) os).2).isSome = true) ∧
    (run max (Sys.start max) os).1.c.side.ub = false ∧ (run max (Sys.start max) os).1.s.side.ub = false := by
  obtain ⟨v, h1, h2⟩ := run_inv hmax hmax' os (start_inv hmax) hp
  exact ⟨by rw [h1]; rfl, h2.c.ub, h2.s.ub⟩

/-- C61. A request is sent after at most as many calls as it has bytes (and four), when each call writes a
byte or more. -/
theorem C61_request_sent {max : Nat} (hmax : 0 < max) (hmax' : max < 4294967296) (os : List Op)
    (hp : View.start.AllPolite (run max (Sys.start max) os).2) (v : View)
    (hv : View.start.after (run max (Sys.start max) os).2 = some v) (hr : v.ch = .ready)
    (d : List UInt8) (hd : 0 < d.length) (hd' : d.length ≤ max) (hreq : v.request = none ∨ v.request = some d)
    (hl : (run max (Sys.start max) os).1.c.link = .connected) (hdead : (run max (Sys.start max) os).1.c.dead = false)
    (ns : List (Conn × Nat)) (hn : 4 + d.length ≤ ns.length) :
    ∃ r ∈ (run max (run max (Sys.start max) os).1 (ns.map fun n => .cSend n.1 (.wrote (n.2 + 1)) d)).2, r.2.1 = .ok := by
  obtain ⟨v', h1, h2⟩ := run_inv hmax hmax' os (start_inv hmax) hp
  rw [h1] at hv; cases hv
  have hph := h2.phase
  unfold Phase at hph
  rw [hr] at hph
  obtain ⟨-, -, hs, m, k, hm, hk, hsnd, -⟩ := hph
  have hs : (run max (Sys.start max) os).1.c.sent = false := by
    rcases hs with h | h
    · rw [hdead] at h; cases h
    · exact h
  have ho : (run max (Sys.start max) os).1.c.side.off < 4 + d.length := by
    rcases hsnd with h | ⟨h, h'⟩
    · rw [hdead] at h; cases h
    · rw [h]
      by_cases hk0 : 0 < k
      · have := (h' hk0).1
        rcases hreq with e | e
        · rw [e] at this; cases this
        · rw [e] at this; cases this; exact hk
      · omega
  exact requests_sent (by simp only [Fits]; omega) ns hs hl hdead ho (by omega)

/-- C61. A request that was sent is received after at most as many calls as it has bytes (and four), when
each call may read a byte or more. -/
theorem C61_request_received {max : Nat} (hmax : 0 < max) (hmax' : max < 4294967296) (os : List Op)
    (hp : View.start.AllPolite (run max (Sys.start max) os).2) (v : View) (m : List UInt8)
    (hv : View.start.after (run max (Sys.start max) os).2 = some v) (hr : v.ch = .requested m)
    (hl : (run max (Sys.start max) os).1.s.listening = true) (ha : (run max (Sys.start max) os).1.s.accepted = true)
    (hdead : (run max (Sys.start max) os).1.s.dead = false)
    (ns : List (Acc × Nat × Nat)) (hn : 4 + m.length ≤ ns.length) :
    ∃ r ∈ (run max (run max (Sys.start max) os).1
      (ns.map fun n => .sRecv n.1 (.got (n.2.1 + 1)) (.got (n.2.2 + 1)))).2, r.2 = (.ok, some m) := by
  obtain ⟨v', h1, h2⟩ := run_inv hmax hmax' os (start_inv hmax) hp
  rw [h1] at hv; cases hv
  have hph := h2.phase
  unfold Phase at hph
  rw [hr] at hph
  obtain ⟨-, hb, -, -, hm, hrc⟩ := hph
  have hhas := hrc.resolve_left (by rw [hdead]; decide)
  exact requests_received hm hmax' ns hb hl ha hdead hhas h2.s.len h2.s.ub (by omega)

/-- C61. Likewise, a response is sent. -/
theorem C61_response_sent {max : Nat} (hmax : 0 < max) (hmax' : max < 4294967296) (os : List Op)
    (hp : View.start.AllPolite (run max (Sys.start max) os).2) (v : View)
    (hv : View.start.after (run max (Sys.start max) os).2 = some v) (hr : v.ch = .serving)
    (d : List UInt8) (hd : 0 < d.length) (hd' : d.length ≤ max) (hreq : v.response = none ∨ v.response = some d)
    (hl : (run max (Sys.start max) os).1.s.listening = true) (ha : (run max (Sys.start max) os).1.s.accepted = true)
    (hdead : (run max (Sys.start max) os).1.s.dead = false)
    (ns : List Nat) (hn : 4 + d.length ≤ ns.length) :
    ∃ r ∈ (run max (run max (Sys.start max) os).1 (ns.map fun n => .sSend (.wrote (n + 1)) d)).2, r.2.1 = .ok := by
  obtain ⟨v', h1, h2⟩ := run_inv hmax hmax' os (start_inv hmax) hp
  rw [h1] at hv; cases hv
  have hph := h2.phase
  unfold Phase at hph
  rw [hr] at hph
  obtain ⟨-, hb, -, m, k, hm, hk, hsnd, -⟩ := hph
  have ho : (run max (Sys.start max) os).1.s.side.off < 4 + d.length := by
    rcases hsnd with h | ⟨h, h'⟩
    · rw [hdead] at h; cases h
    · rw [h]
      by_cases hk0 : 0 < k
      · have := (h' hk0).1
        rcases hreq with e | e
        · rw [e] at this; cases this
        · rw [e] at this; cases this; exact hk
      · omega
  exact responses_sent (by simp only [Fits]; omega) ns hb hl ha hdead ho (by omega)

/-- C61. Likewise, a response that was sent is received. -/
theorem C61_response_received {max : Nat} (hmax : 0 < max) (hmax' : max < 4294967296) (os : List Op)
    (hp : View.start.AllPolite (run max (Sys.start max) os).2) (v : View) (m : List UInt8)
    (hv : View.start.after (run max (Sys.start max) os).2 = some v) (hr : v.ch = .answered m)
    (hl : (run max (Sys.start max) os).1.c.link = .connected) (hdead : (run max (Sys.start max) os).1.c.dead = false)
    (ns : List (Nat × Nat)) (hn : 4 + m.length ≤ ns.length) :
    ∃ r ∈ (run max (run max (Sys.start max) os).1 (ns.map fun n => .cRecv (.got (n.1 + 1)) (.got (n.2 + 1)))).2,
      r.2 = (.ok, some m) := by
  obtain ⟨v', h1, h2⟩ := run_inv hmax hmax' os (start_inv hmax) hp
  rw [h1] at hv; cases hv
  have hph := h2.phase
  unfold Phase at hph
  rw [hr] at hph
  obtain ⟨-, -, hs, -, hm, hrc⟩ := hph
  have hhas := hrc.resolve_left (by rw [hdead]; decide)
  exact responses_received hm hmax' ns (hs.resolve_left (by rw [hdead]; decide)) hl hdead hhas h2.c.len h2.c.ub (by omega)

/-- C61. The comm client of the library is a polite sender: a request that the transport did not take, made
again, is the same packet. -/
theorem C61_comm_polite (cfg : Comm.Cfg) (n : TcpComm.Node) (magic kind aux magic' kind' aux' : UInt16)
    (data data' : List UInt8) (e : Conn) (io : Out) (now : UInt64)
    (h : (TcpComm.send cfg n magic kind aux data e io now).1 = .notready) :
    TcpComm.packet (TcpComm.send cfg n magic kind aux data e io now).2.comm magic' kind' aux' data' =
      TcpComm.packet n.comm magic' kind' aux' data' := by
  unfold TcpComm.send at h ⊢
  split
  · rename_i hc
    rw [if_pos hc] at h
    dsimp only at h ⊢
    simp only [Bool.and_eq_true, Bool.not_eq_true', decide_eq_true_eq] at hc
    unfold Comm.Client.sendRequest at h ⊢
    simp only [hc.1.1, hc.1.2, Bool.not_true, Bool.false_eq_true, ↓reduceIte, Nat.not_lt.mpr hc.2] at h ⊢
    generalize (step cfg.mtu n.sys (.cSend e io (TcpComm.packet n.comm magic kind aux data))).2.1 = rc at h ⊢
    cases rc <;> first | rfl | skip
    by_cases ht : cfg.timeout = true
    · simp only [ht, ↓reduceIte] at h
      exfalso
      revert h
      unfold Timeout.start PosixTimer.start
      (repeat' split) <;> simp_all
    · simp only [ht, Bool.false_eq_true, ↓reduceIte] at h
      cases h
  · rename_i hc
    dsimp only
    unfold Comm.Client.sendRequest
    split
    · rfl
    · split
      · rfl
      · split <;> rfl

namespace TcpDemo

/-- A request and its response, in pieces. -/
def ops : List Op :=
  [.cSend .later .again [1, 2, 3], .cSend .up (.wrote 2) [1, 2, 3], .sRecv .client (.got 9) (.got 9),
   .cSend .up (.wrote 3) [1, 2, 3], .sRecv .again (.got 9) (.got 9), .cRecv .again .again,
   .cSend .up (.wrote 99) [1, 2, 3], .sRecv .again .again (.got 1), .sRecv .again .again (.got 7),
   .sSend (.wrote 5) [7, 8], .cRecv (.got 9) (.got 9), .sSend (.wrote 5) [7, 8], .cRecv (.got 9) (.got 9)]

/-- The senders are polite, and the exchange goes all the way. -/
example : View.start.after (run 16 (Sys.start 16) ops).2 = some View.start ∧
    (run 16 (Sys.start 16) ops).2.map (fun r => (r.2.1, r.2.2)) =
      [(.notready, none), (.notready, none), (.notready, none), (.notready, none), (.notready, none),
       (.notready, none), (.ok, none), (.notready, none), (.ok, some [1, 2, 3]), (.notready, none),
       (.notready, none), (.ok, none), (.ok, some [7, 8])] := by
  decide +kernel

example : View.start.AllPolite (run 16 (Sys.start 16) ops).2 := by decide +kernel

/-- The four points of progress are reached on the way, with both sockets alive. -/
example : (View.start.after (run 16 (Sys.start 16) (ops.take 5)).2 = some ⟨.ready, some [1, 2, 3], none⟩ ∧
      (run 16 (Sys.start 16) (ops.take 5)).1.c.link = .connected ∧ (run 16 (Sys.start 16) (ops.take 5)).1.c.dead = false) ∧
    ((View.start.after (run 16 (Sys.start 16) (ops.take 7)).2).map (·.ch) = some (.requested [1, 2, 3]) ∧
      (run 16 (Sys.start 16) (ops.take 7)).1.s.listening = true ∧ (run 16 (Sys.start 16) (ops.take 7)).1.s.accepted = true ∧
      (run 16 (Sys.start 16) (ops.take 7)).1.s.dead = false) ∧
    (View.start.after (run 16 (Sys.start 16) (ops.take 10)).2 = some ⟨.serving, none, some [7, 8]⟩ ∧
      (run 16 (Sys.start 16) (ops.take 10)).1.s.accepted = true ∧ (run 16 (Sys.start 16) (ops.take 10)).1.s.dead = false) ∧
    ((View.start.after (run 16 (Sys.start 16) (ops.take 12)).2).map (·.ch) = some (.answered [7, 8]) ∧
      (run 16 (Sys.start 16) (ops.take 12)).1.c.link = .connected) := by
  decide +kernel

/-- A client that, told to come back, comes back with another packet. -/
def rude (d : List UInt8) : List Op :=
  [.cSend .up (.wrote 6) [1, 2, 3, 4], .cSend .up (.wrote 99) d, .sRecv .client (.got 9) (.got 9)]

end TcpDemo

/-- F (C61). A sender that comes back with another packet is told that this one was sent, while the peer
receives the old one. -/
theorem F_C61_other_packet :
    (run 16 (Sys.start 16) (TcpDemo.rude [9, 9, 9, 9])).2.map (fun r => (r.2.1, r.2.2)) =
      [(.notready, none), (.ok, none), (.ok, some [1, 2, 3, 4])] := by
  decide +kernel

/-- F (C61). If the other packet is shorter, the code sends what lies behind its buffer. -/
theorem F_C61_short_packet : (run 16 (Sys.start 16) (TcpDemo.rude [9])).1.c.side.ub = true := by
  decide +kernel

/-- F (C61). A client that has hung up (nothing more comes from it) keeps the server: it is told to come
back, for ever, and takes no other client. -/
theorem F_C61_hangup (max : Nat) (y : Sys) (hl : y.s.listening = true) (ha : y.s.accepted = true) (hb : y.s.busy = false)
    (hd : y.s.dead = false) (ho : y.s.side.off = 0) (hu : y.up = []) (ns : List (Acc × Nat × Nat)) :
    (∀ r ∈ (run max y (ns.map fun n => .sRecv n.1 (.got n.2.1) (.got n.2.2))).2, r.2 = (.notready, none)) ∧
    (run max y (ns.map fun n => .sRecv n.1 (.got n.2.1) (.got n.2.2))).1 = y := by
  have hstep : ∀ n : Acc × Nat × Nat, step max y (.sRecv n.1 (.got n.2.1) (.got n.2.2)) = (y, .notready, none) := by
    rintro ⟨a, n, n2⟩
    obtain ⟨c, ⟨⟨off, buf, ub⟩, lis, acc, busy, dead⟩, up, down⟩ := y
    dsimp only at *
    subst hl ha hb hd ho hu
    simp [step, recvRequest, recvAccepted, recv, inOf, patch]
  induction ns with
  | nil => exact ⟨fun r h => by simp [run] at h, rfl⟩
  | cons n ns ih =>
    simp only [List.map_cons, run]
    rw [hstep n]
    refine ⟨fun r h => ?_, ih.2⟩
    rcases List.mem_cons.mp h with h | h
    · rw [h]
    · exact ih.1 r h

/-- Such a server: it has served a request, and the client is gone. -/
example : let y := (run 16 (Sys.start 16) TcpDemo.ops).1
    y.s.listening = true ∧ y.s.accepted = true ∧ y.s.busy = false ∧ y.s.dead = false ∧ y.s.side.off = 0 ∧ y.up = [] := by
  decide +kernel

/-- F (C61, C26). Once a comm client has given up waiting for a response (timeout, or
`wh_CommClient_AbortPending`), the transport is still waiting for it: the client's requests are refused and
its receives answered with NOTREADY, whatever anybody does, though the socket is in order. -/
theorem F_C61_stuck (cfg : Comm.Cfg) (os : List TcpComm.Op) (n : TcpComm.Node)
    (hp : n.comm.pending = false) (hs : n.sys.c.sent = true) :
    (TcpComm.run cfg n os).1.comm.pending = false ∧ (TcpComm.run cfg n os).1.sys.c = n.sys.c ∧
    ∀ r ∈ (TcpComm.run cfg n os).2,
      (∀ magic kind aux data e io now, r.1 = .send magic kind aux data e io now → r.2 = .notready ∨ r.2 = .badargs) ∧
      (∀ cap io io2 now, r.1 = .recv cap io io2 now → r.2 = .notready ∨ r.2 = .badargs) := by
  have hstep : ∀ (o : TcpComm.Op) (n : TcpComm.Node), n.comm.pending = false → n.sys.c.sent = true →
      (TcpComm.step cfg n o).1.comm.pending = false ∧ (TcpComm.step cfg n o).1.sys.c = n.sys.c ∧
      ((∀ magic kind aux data e io now, o = .send magic kind aux data e io now →
          (TcpComm.step cfg n o).2 = .notready ∨ (TcpComm.step cfg n o).2 = .badargs) ∧
       (∀ cap io io2 now, o = .recv cap io io2 now →
          (TcpComm.step cfg n o).2 = .notready ∨ (TcpComm.step cfg n o).2 = .badargs)) := by
    intro o n hp hs
    cases o with
    | abort =>
      refine ⟨?_, rfl, by simp, by simp⟩
      simp only [TcpComm.step, Comm.Client.abortPending]
      split
      · exact hp
      · rfl
    | sRecv a io io2 => exact ⟨hp, rfl, by simp, by simp⟩
    | sSend io d => exact ⟨hp, rfl, by simp, by simp⟩
    | recv cap io io2 now =>
      have h : TcpComm.step cfg n (.recv cap io io2 now) =
          (n, if n.comm.initialized then .notready else .badargs) := by
        simp only [TcpComm.step, TcpComm.recv, hp, Bool.and_false, Bool.false_eq_true, ↓reduceIte,
          Comm.Client.recvResponse]
        cases n.comm.initialized <;> simp [Comm.Got.err]
      rw [h]
      refine ⟨hp, rfl, by simp, fun _ _ _ _ _ => ?_⟩
      dsimp only
      split
      · exact .inl rfl
      · exact .inr rfl
    | send magic kind aux data e io now =>
      have ht : ∀ pkt, step cfg.mtu n.sys (.cSend e io pkt) = (n.sys, .notready, none) ∨
          step cfg.mtu n.sys (.cSend e io pkt) = (n.sys, .badargs, none) := by
        intro pkt
        by_cases hb : pkt.length = 0 ∨ pkt.length > cfg.mtu
        · right
          simp only [step, sendRequest]
          rw [if_pos hb]
          simp
        · left
          simp only [step, sendRequest]
          rw [if_neg hb, if_pos hs]
          simp
      have hq : ∀ rc, rc ≠ .ok → (n.comm.sendRequest cfg magic kind aux data rc now).2 = n.comm ∧
          ((n.comm.sendRequest cfg magic kind aux data rc now).1.rc = rc ∨
           (n.comm.sendRequest cfg magic kind aux data rc now).1.rc = .badargs) := by
        intro rc hrc
        unfold Comm.Client.sendRequest
        rw [hp]
        cases n.comm.initialized
        · exact ⟨rfl, .inr rfl⟩
        · simp only [Bool.not_true, Bool.false_eq_true, ↓reduceIte]
          split
          · exact ⟨rfl, .inr rfl⟩
          · cases rc <;> first | exact absurd rfl hrc | exact ⟨rfl, .inl rfl⟩
      have h : (TcpComm.step cfg n (.send magic kind aux data e io now)).1 = n ∧
          ((TcpComm.step cfg n (.send magic kind aux data e io now)).2 = .notready ∨
           (TcpComm.step cfg n (.send magic kind aux data e io now)).2 = .badargs) := by
        simp only [TcpComm.step, TcpComm.send]
        split
        · rcases ht (TcpComm.packet n.comm magic kind aux data) with h | h
          · rw [h]
            obtain ⟨q1, q2⟩ := hq .notready (by decide)
            exact ⟨by dsimp only; rw [q1], q2⟩
          · rw [h]
            obtain ⟨q1, q2⟩ := hq .badargs (by decide)
            exact ⟨by dsimp only; rw [q1], .inr (q2.elim id id)⟩
        · obtain ⟨q1, q2⟩ := hq .badargs (by decide)
          exact ⟨by dsimp only; rw [q1], .inr (q2.elim id id)⟩
      rw [h.1]
      exact ⟨hp, rfl, fun _ _ _ _ _ _ _ _ => h.2, by simp⟩
  induction os generalizing n with
  | nil => exact ⟨hp, rfl, fun r h => by simp [TcpComm.run] at h⟩
  | cons o os ih =>
    obtain ⟨h1, h2, h3⟩ := hstep o n hp hs
    obtain ⟨i1, i2, i3⟩ := ih (TcpComm.step cfg n o).1 h1 (by rw [h2]; exact hs)
    simp only [TcpComm.run]
    refine ⟨i1, i2.trans h2, fun r h => ?_⟩
    rcases List.mem_cons.mp h with h | h
    · subst h; exact h3
    · exact i3 r h

namespace TcpDemo

/-- A client whose responses must come within 1000 microseconds. -/
def node : TcpComm.Node := ⟨.init true (.init (some 1000) none), Sys.start 72⟩

/-- It sends, waits too long, and gives up; then the server takes the request and answers. -/
def late : List TcpComm.Op :=
  [.send 1 0x10 0 [5] .up (.wrote 99) 1, .recv none .again .again 5000, .sRecv .client (.got 9) (.got 99),
   .sSend (.wrote 99) [1, 0, 0x10, 0, 1, 0, 0, 0, 6], .send 1 0x10 0 [5] .up (.wrote 99) 6000,
   .recv none (.got 9) (.got 99) 6000]

/-- The response is there, but the client is refused. -/
example : (TcpComm.run ⟨64, true⟩ node late).2.map (·.2) = [.ok, .timeout, .ok, .ok, .notready, .notready] ∧
    (TcpComm.run ⟨64, true⟩ node (late.take 2)).1.comm.pending = false ∧
    (TcpComm.run ⟨64, true⟩ node (late.take 2)).1.sys.c.sent = true ∧
    (TcpComm.run ⟨64, true⟩ node late).1.sys.down.length = 13 := by
  decide +kernel

end TcpDemo

end WolfHsm.Props

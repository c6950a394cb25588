import Verif.Proofs.Tls

/-! # C66: packets over TLS -/

namespace WolfHsm.Props

open Tls

/-- **C66.** Whatever the network does, packets are received only as they were sent, once and in order.  Partial: if records
take a whole packet (see `F_C66_cut`), no packet is longer than `WH_COMM_MTU` (see `F_C66_long`), and a sender who is told
to come back comes back with the same packet (see `F_C66_other_packet`). -/
theorem C66_packets_partial (k : Cfg) (hf : k.max ≤ k.frag) (os : List Op)
    (hp : View.start.AllPolite k.max (run k .start os).2) : (View.start.after (run k .start os).2).isSome = true := by
  obtain ⟨v, h, -⟩ := inv_run hf os (inv_start k) hp
  rw [h]; rfl

/-- **C66.** A client that verifies its peer sends nothing to a server whose certificate its CA does not vouch for, and a
server receives nothing from it. -/
theorem C66_server_verified (k : Cfg) (hon : k.clientOff = false) (hc : k.serverCert ≠ .good) (os : List Op) :
    ∀ r ∈ (run k .start os).2, (∀ e h io d, r.1 = .cSend e h io d → r.2.1 ≠ .ok) ∧ (∀ a h io, r.1 = .sRecv a h io → r.2.1 ≠ .ok) := by
  have hk : k.clientAdmits = false := by
    unfold Cfg.clientAdmits verifyMode
    rw [hon]
    cases h : k.serverCert <;> first | rfl | exact absurd h hc
  obtain ⟨-, h⟩ := run_mem (P := Shaken k) (fun y o hy => shaken_step hy o) os
    (y := .start) ⟨fun _ => ⟨rfl, rfl, rfl⟩, fun _ => ⟨rfl, rfl⟩⟩
  intro r hr
  obtain ⟨y, hy, e⟩ := h r hr
  obtain ⟨h1, h2⟩ := (shaken_quiet hy).2 hk
  refine ⟨fun e' h' io d he => ?_, fun a h' io he => ?_⟩
  · have := h1 e' h' io d
    rw [← he, e] at this
    exact this
  · have := h2 a h' io
    rw [← he, e] at this
    exact this

/-- **C66.** A server that verifies its peer receives nothing from a client that shows no certificate or one that the
server's CA does not vouch for. -/
theorem C66_client_verified (k : Cfg) (hon : k.serverOff = false) (hc : k.clientCert ≠ .good) (os : List Op) :
    ∀ r ∈ (run k .start os).2, ∀ a h io, r.1 = .sRecv a h io → r.2.1 ≠ .ok := by
  have hk : k.serverAdmits = false := by
    unfold Cfg.serverAdmits verifyMode
    rw [hon]
    cases h : k.clientCert <;> first | rfl | exact absurd h hc
  obtain ⟨-, h⟩ := run_mem (P := Shaken k) (fun y o hy => shaken_step hy o) os
    (y := .start) ⟨fun _ => ⟨rfl, rfl, rfl⟩, fun _ => ⟨rfl, rfl⟩⟩
  intro r hr a h' io he
  obtain ⟨y, hy, e⟩ := h r hr
  have := (shaken_quiet hy).1 hk a h' io
  rw [← he, e] at this
  exact this

/-! ## Progress -/

/-- **C66.** Once a client is connected and nothing has failed, a call whose socket takes a record sends the packet. -/
theorem C66_request_sent (k : Cfg) (hf : k.max ≤ k.frag) (os : List Op) (hp : View.start.AllPolite k.max (run k .start os).2)
    (v : View) (hv : View.start.after (run k .start os).2 = some v) (d : List UInt8) (h0 : 0 < d.length) (hd : d.length ≤ k.max)
    (hreq : v.request = none ∨ v.request = some d) (hc : (run k .start os).1.c.connected = true)
    (ha : (run k .start os).1.c.tls.dead = false) (hu : (run k .start os).1.c.tls.up = true) (e : Tcp.Conn) (h : Hs) (n : Nat) :
    (step k (run k .start os).1 (.cSend e h (.takes (n + 1)) d)).2.1 = .ok := by
  obtain ⟨v', h1, hi⟩ := inv_run hf os (inv_start k) hp
  rw [hv] at h1; cases h1
  simp only [step]
  unfold sendRequest
  rw [if_neg (by omega), if_pos hc]
  exact write_goes hi.c hreq h0 (by omega) ha hu

/-- **C66.** A request under way is received by the next call that finds data. -/
theorem C66_request_received (k : Cfg) (hf : k.max ≤ k.frag) (os : List Op)
    (hp : View.start.AllPolite k.max (run k .start os).2) (v : View) (hv : View.start.after (run k .start os).2 = some v)
    (d : List UInt8) (ds : List (List UInt8)) (hreq : v.requests = d :: ds) (hc : (run k .start os).1.s.accepted = true)
    (ha : (run k .start os).1.s.tls.dead = false) (hu : (run k .start os).1.s.tls.up = true) (a : Tcp.Acc) (h : Hs) :
    (step k (run k .start os).1 (.sRecv a h .data)).2 = (.ok, some d) := by
  obtain ⟨v', h1, hi⟩ := inv_run hf os (inv_start k) hp
  rw [hv] at h1; cases h1
  have hl := hi.fitU d (by rw [hreq]; exact List.mem_cons_self ..)
  simp only [step, hi.up, hreq]
  unfold recvRequest
  rw [if_pos hc]
  unfold readRequest End.read
  simp [ha, hu, handshake, List.take_of_length_le hl]

/-- **C66.** The same for responses. -/
theorem C66_response_sent (k : Cfg) (hf : k.max ≤ k.frag) (os : List Op) (hp : View.start.AllPolite k.max (run k .start os).2)
    (v : View) (hv : View.start.after (run k .start os).2 = some v) (d : List UInt8) (h0 : 0 < d.length) (hd : d.length ≤ k.max)
    (hreq : v.response = none ∨ v.response = some d) (hc : (run k .start os).1.s.accepted = true)
    (ha : (run k .start os).1.s.tls.dead = false) (hu : (run k .start os).1.s.tls.up = true) (h : Hs) (n : Nat) :
    (step k (run k .start os).1 (.sSend h (.takes (n + 1)) d)).2.1 = .ok := by
  obtain ⟨v', h1, hi⟩ := inv_run hf os (inv_start k) hp
  rw [hv] at h1; cases h1
  simp only [step]
  unfold sendResponse
  rw [if_neg (by omega), if_neg (by simp [hc])]
  exact write_goes hi.s hreq h0 (by omega) ha hu

theorem C66_response_received (k : Cfg) (hf : k.max ≤ k.frag) (os : List Op)
    (hp : View.start.AllPolite k.max (run k .start os).2) (v : View) (hv : View.start.after (run k .start os).2 = some v)
    (d : List UInt8) (ds : List (List UInt8)) (hreq : v.responses = d :: ds) (hc : (run k .start os).1.c.ssl = true)
    (ha : (run k .start os).1.c.tls.dead = false) (hu : (run k .start os).1.c.tls.up = true) (h : Hs) :
    (step k (run k .start os).1 (.cRecv h .data)).2 = (.ok, some d) := by
  obtain ⟨v', h1, hi⟩ := inv_run hf os (inv_start k) hp
  rw [hv] at h1; cases h1
  have hl := hi.fitD d (by rw [hreq]; exact List.mem_cons_self ..)
  simp only [step, hi.down, hreq]
  unfold recvResponse
  rw [if_neg (by simp [hc])]
  unfold End.read
  simp [ha, hu, handshake, List.take_of_length_le hl]

/-! ## A concrete history -/

namespace TlsDemo

/-- Both sides verify, both certificates are good. -/
def k : Cfg := ⟨8, 16, false, false, .good, .good⟩

/-- The client connects and is told to come back twice, once in the handshake, once with its packet; the server accepts in
two calls; the request is answered. -/
def hist : List Op :=
  [.cSend .up .again (.takes 1) [1, 2, 3], .sRecv .client .again .data, .cSend .up .done (.takes 0) [1, 2, 3],
   .sRecv .again .done .data, .cSend .up .done (.takes 1) [1, 2, 3], .sRecv .again .done .data,
   .sSend .done (.takes 1) [4, 5], .cRecv .done .again, .cRecv .done .data]

example : (run k .start hist).2.map (·.2) = [(.notready, none), (.notready, none), (.notready, none), (.notready, none),
    (.ok, none), (.ok, some [1, 2, 3]), (.ok, none), (.notready, none), (.ok, some [4, 5])] := by decide +kernel

/-- The hypotheses of `C66_packets_partial`, `C66_request_sent` and `C66_response_sent`. -/
example : k.max ≤ k.frag ∧ View.start.AllPolite k.max (run k .start hist).2 ∧
    View.start.after (run k .start hist).2 = some .start ∧ (run k .start hist).1.c.connected = true ∧
    (run k .start hist).1.c.tls.dead = false ∧ (run k .start hist).1.c.tls.up = true ∧
    (run k .start hist).1.s.accepted = true ∧ (run k .start hist).1.s.tls.dead = false ∧
    (run k .start hist).1.s.tls.up = true := by decide +kernel

/-- Those of `C66_request_received`: two requests are under way. -/
example : View.start.AllPolite k.max (run k .start (hist ++ [.cSend .up .done (.takes 1) [6], .cSend .up .done (.takes 1) [7]])).2 ∧
    View.start.after (run k .start (hist ++ [.cSend .up .done (.takes 1) [6], .cSend .up .done (.takes 1) [7]])).2 =
      some ⟨[[6], [7]], [], none, none⟩ := by decide +kernel

/-- Those of `C66_response_received`. -/
example : View.start.AllPolite k.max (run k .start (hist ++ [.sSend .done (.takes 1) [6]])).2 ∧
    View.start.after (run k .start (hist ++ [.sSend .done (.takes 1) [6]])).2 = some ⟨[], [[6]], none, none⟩ ∧
    (run k .start (hist ++ [.sSend .done (.takes 1) [6]])).1.c.ssl = true := by decide +kernel

/-- Without verification a client without certificate is served. -/
example : ((run { k with clientCert := .none, serverOff := true } .start hist).2.map (·.2))[5]? = some (.ok, some [1, 2, 3]) := by
  decide +kernel

/-- With it, it is not: the same calls fail. -/
example : (run { k with clientCert := .none } .start hist).2.map (·.2.1) = [.notready, .notready, .notready, .aborted, .ok,
    .aborted, .aborted, .notready, .notready] := by decide +kernel

end TlsDemo

/-! ## Findings -/

/-- F (C66). A client that has been told to come back and comes with another packet of the same length is told that it was
sent, and the server receives the first one. -/
theorem F_C66_other_packet :
    (run TlsDemo.k .start [.cSend .up .done (.takes 0) [1, 2, 3], .cSend .up .done (.takes 1) [9, 9, 9],
      .sRecv .client .done .data]).2.map (·.2) = [(.notready, none), (.ok, none), (.ok, some [1, 2, 3])] := by decide +kernel

/-- F (C66). A longer packet loses its first bytes, and arrives as a packet of its own. -/
theorem F_C66_other_longer :
    (run TlsDemo.k .start [.cSend .up .done (.takes 0) [1, 2, 3], .cSend .up .done (.takes 2) [9, 9, 9, 8, 8],
      .sRecv .client .done .data, .sRecv .client .done .data]).2.map (·.2) =
      [(.notready, none), (.ok, none), (.ok, some [1, 2, 3]), (.ok, some [8, 8])] := by decide +kernel

/-- F (C66). A packet longer than a record arrives as two packets: there is nothing that says where a packet ends. -/
theorem F_C66_cut :
    (run { TlsDemo.k with frag := 4 } .start [.cSend .up .done (.takes 2) [1, 2, 3, 4, 5, 6], .sRecv .client .done .data,
      .sRecv .client .done .data]).2.map (·.2) = [(.ok, none), (.ok, some [1, 2, 3, 4]), (.ok, some [5, 6])] := by
  decide +kernel

/-- F (C66). The size of a packet is not checked: what is longer than `WH_COMM_MTU` is sent, and received in pieces. -/
theorem F_C66_long :
    (run TlsDemo.k .start [.cSend .up .done (.takes 2) [1, 2, 3, 4, 5, 6, 7, 8, 9], .sRecv .client .done .data,
      .sRecv .client .done .data]).2.map (·.2) = [(.ok, none), (.ok, some [1, 2, 3, 4, 5, 6, 7, 8]), (.ok, some [9])] := by
  decide +kernel

/-- F (C66). When the session with a client has failed (it has closed the connection, say), the server takes no other
client, whoever tries to connect: all its calls fail. -/
theorem F_C66_no_next_client (k : Cfg) (y : Sys) (ha : y.s.accepted = true) (hd : y.s.tls.dead = true)
    (os : List (Tcp.Acc × Hs × In)) :
    (∀ r ∈ (run k y (os.map fun o => .sRecv o.1 o.2.1 o.2.2)).2, r.2 = (.aborted, none)) ∧
    (run k y (os.map fun o => .sRecv o.1 o.2.1 o.2.2)).1 = y := by
  have hstep : ∀ o : Tcp.Acc × Hs × In, step k y (.sRecv o.1 o.2.1 o.2.2) = (y, .aborted, none) := by
    rintro ⟨a, h, io⟩
    obtain ⟨c, ⟨acc, ⟨up, dead, held, prev⟩, told⟩, u, d⟩ := y
    dsimp only at ha hd
    subst ha hd
    simp [step, recvRequest, readRequest, End.read]
  induction os with
  | nil => exact ⟨fun r h => by simp [run] at h, rfl⟩
  | cons o os ih =>
    simp only [List.map_cons, run]
    rw [hstep o]
    refine ⟨?_, ih.2⟩
    intro r hr
    rcases List.mem_cons.mp hr with rfl | hr
    · rfl
    · exact ih.1 r hr

/-- Such a state is reached when a client that was served goes away. -/
example : (run TlsDemo.k .start (TlsDemo.hist ++ [.sRecv .again .done .fatal])).1.s.accepted = true ∧
    (run TlsDemo.k .start (TlsDemo.hist ++ [.sRecv .again .done .fatal])).1.s.tls.dead = true := by decide +kernel

/-- F (C66). The server's callback is never told that the client is gone, whatever happens; so the user who was logged in
stays logged in (compare `C30`, for the TCP transport). -/
theorem F_C66_never_told (k : Cfg) (os : List Op) : ∀ b ∈ (run k .start os).1.s.told, b = true := by
  refine (run_mem (k := k) (P := fun y => ∀ b ∈ y.s.told, b = true) ?_ os (y := .start) ?_).1
  · intro y o hy
    cases o with
    | cSend e h io d =>
      simp only [step]; unfold Server.lost
      split <;> exact hy
    | cRecv h io => exact hy
    | sRecv a h io =>
      simp only [step]; unfold recvRequest
      split
      · exact hy
      · cases a
        · exact hy
        · exact hy
        · dsimp only
          split
          · exact hy
          · exact hy
          · exact hy
          · intro b hb
            rcases List.mem_append.mp hb with hb | hb
            · exact hy b hb
            · exact List.mem_singleton.mp hb
    | sSend h io d =>
      simp only [step]; unfold sendResponse
      split
      · exact hy
      · split <;> exact hy
  · intro b hb
    simp only [Sys.start, List.mem_cons, List.not_mem_nil, or_false] at hb
    rcases hb with rfl | rfl <;> rfl

/-- F (C66). A client that connects while a server is not yet ready and then gives its connection up, as the code does after
a socket error in the handshake, makes the server useless: it holds the connection that is gone. -/
theorem F_C66_reset :
    (run TlsDemo.k .start ([.cSend .up .again (.takes 1) [1], .sRecv .client .again .data, .cSend .up .reset (.takes 1) [1]] ++
      [.cSend .up .again (.takes 1) [1], .sRecv .client .done .data])).2.map (·.2) =
      [(.notready, none), (.notready, none), (.notready, none), (.notready, none), (.aborted, none)] := by decide +kernel

end WolfHsm.Props

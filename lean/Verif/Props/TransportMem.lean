import Verif.Proofs.TransportMemLive

/-!
# C24: the shared-memory transport
-/

namespace WolfHsm.Props

open Mem

/-- **C24.** Under every interleaving of the single memory accesses of a client and a server,
over any number of messages (the 16-bit notification counters wrap), what both sides see is
what a lossless channel shows: requests and responses alternate, each reception delivers the
outstanding message unchanged, nothing is lost, duplicated or mixed; and no access is outside
the buffers.  Both buffers must be at least as large as their control word. -/
theorem C24_channel (k : Cfg) (h1 : 8 ≤ k.reqSize.toNat) (h2 : 8 ≤ k.respSize.toNat)
    (es : List Ev) :
    (∃ ch, (Chan.answered []).accepts (run k (init k) es).2 = some ch) ∧
    (run k (init k) es).1.shm.ub = false := by
  obtain ⟨ch, ha, hs⟩ := sim_run h1 h2 es (sim_init k)
  exact ⟨⟨ch, ha⟩, hs.ub⟩

/-- **C24, no request is lost.** Once a request has been published and not yet answered, a
`RecvRequest` of the server is never told that there is nothing, whatever the client does
meanwhile, and it returns a request after at most `length + 3` accesses of the server (which
one, `C24_channel` says: the outstanding one). -/
theorem C24_request_arrives (k : Cfg) (h1 : 8 ≤ k.reqSize.toNat) (h2 : 8 ≤ k.respSize.toNat)
    (hist : List Ev) (msg : List UInt8) (seen : Bool) (y : Sys)
    (hy : y = (run k (init k) hist).1)
    (hch : (Chan.answered []).accepts (run k (init k) hist).2 = some (.requested msg seen))
    (hidle : y.s = .idle) (cap : UInt16) (es : List Ev)
    (hes : ∀ e ∈ es, e.ofClient = true ∨ e = .sStep) :
    .serverBusy ∉ (run k y (.sRecv cap :: es)).2 ∧
    (msg.length + 3 ≤ sSteps es →
      ∃ cap' len bytes, .received cap' len bytes ∈ (run k y (.sRecv cap :: es)).2) := by
  obtain ⟨ch, ha, hs⟩ := sim_run h1 h2 hist (sim_init k)
  rw [hch] at ha
  cases ha
  rw [← hy] at hs
  obtain ⟨ch', hf, hs'⟩ := sim_step h1 h2 hs (.sRecv cap)
  have hst : step k y (.sRecv cap) = ({ y with s := .recv1 cap }, none) := by
    simp [step, hidle]
  rw [hst] at hf hs'
  simp only [Follows] at hf
  subst hf
  have := (recv_progress h1 h2 msg es hes _ seen hs' (by intro _ _ h; cases h)).1 _ rfl
  simp only [run, hst, Option.toList, List.nil_append]
  exact this

/-- **C24, no response is lost.** Once the outstanding request has been answered, a
`RecvResponse` of the client is never told that there is nothing, whatever the server does
meanwhile, and it returns a response after at most `length + 3` accesses of the client. -/
theorem C24_response_arrives (k : Cfg) (h1 : 8 ≤ k.reqSize.toNat) (h2 : 8 ≤ k.respSize.toNat)
    (hist : List Ev) (r : List UInt8) (y : Sys) (hy : y = (run k (init k) hist).1)
    (hch : (Chan.answered []).accepts (run k (init k) hist).2 = some (.answered r))
    (hidle : y.c = .idle) (cap : UInt16) (es : List Ev)
    (hes : ∀ e ∈ es, e.ofClient = false ∨ e = .cStep) :
    .clientBusy ∉ (run k y (.cRecv cap :: es)).2 ∧
    (r.length + 3 ≤ cSteps es →
      ∃ cap' len bytes, .got cap' len bytes ∈ (run k y (.cRecv cap :: es)).2) := by
  obtain ⟨ch, ha, hs⟩ := sim_run h1 h2 hist (sim_init k)
  rw [hch] at ha
  cases ha
  rw [← hy] at hs
  obtain ⟨ch', hf, hs'⟩ := sim_step h1 h2 hs (.cRecv cap)
  have hst : step k y (.cRecv cap) = ({ y with c := .recv1 cap }, none) := by
    simp [step, hidle]
  rw [hst] at hf hs'
  simp only [Follows] at hf
  subst hf
  have := (response_progress h1 h2 r es hes _ hs').1 _ rfl
  simp only [run, hst, Option.toList, List.nil_append]
  exact this

/-- **C24, sending.** When the last request has been answered, a request that fits is
published after at most `length + 3` accesses of the client, whatever the server does. -/
theorem C24_send_succeeds (k : Cfg) (h1 : 8 ≤ k.reqSize.toNat) (h2 : 8 ≤ k.respSize.toNat)
    (hist : List Ev) (r : List UInt8) (y : Sys) (hy : y = (run k (init k) hist).1)
    (hch : (Chan.answered []).accepts (run k (init k) hist).2 = some (.answered r))
    (hidle : y.c = .idle) (msg : List UInt8) (hfit : msg.length + 8 ≤ k.reqSize.toNat)
    (es : List Ev) (hes : ∀ e ∈ es, e.ofClient = false ∨ e = .cStep)
    (hn : msg.length + 3 ≤ cSteps es) :
    .sent msg ∈ (run k y (.cSend msg :: es)).2 := by
  obtain ⟨ch, ha, hs⟩ := sim_run h1 h2 hist (sim_init k)
  rw [hch] at ha
  cases ha
  rw [← hy] at hs
  obtain ⟨ch', hf, hs'⟩ := sim_step h1 h2 hs (.cSend msg)
  have hlt := k.reqSize.toNat_lt
  have hst : step k y (.cSend msg) = ({ y with c := .send1 msg }, none) := by
    have h0 : y.c = .idle ∧ msg.length < 65536 := ⟨hidle, by omega⟩
    have h3 : ¬ msg.length > room k.reqSize := by rw [room_eq h1]; unfold dataSize; omega
    simp only [step]
    rw [if_pos h0, if_neg h3]
  rw [hst] at hf hs'
  simp only [Follows] at hf
  subst hf
  have := send_progress h1 h2 msg es hes _ r hs' (by intro _ _ h; cases h) _ (by simp [pubLeft]) hn
  simp only [run, hst, Option.toList, List.nil_append]
  exact this

namespace MemDemo

/-- Four bytes of data each way. -/
def k : Cfg := ⟨12, 12⟩

def many (n : Nat) (e : Ev) : List Ev := List.replicate n e

/-- The client sends two bytes while the server keeps polling; then the server starts
receiving. -/
def hist : List Ev :=
  [.sRecv 4, .cSend [7, 9], .cStep, .sStep, .cStep, .sStep, .sRecv 4, .sStep, .cStep, .cStep, .cStep, .sStep]

/-- The whole exchange. -/
def exchange : List Ev :=
  hist ++ .sRecv 4 :: many 5 .sStep ++ .cRecv 4 :: many 2 .cStep ++
    .sSend [1, 2, 3] :: many 6 .sStep ++ .cRecv 2 :: many 6 .cStep

example : (run k (init k) hist).2 = [.serverBusy, .sent [7, 9], .serverBusy] := by decide +kernel

example : (run k (init k) exchange).2 =
    [.serverBusy, .sent [7, 9], .serverBusy, .received 4 2 [7, 9], .clientBusy, .answered [1, 2, 3],
     .got 2 3 [1, 2]] := by decide +kernel

/-- The hypotheses of `C24_request_arrives` are met after `hist`. -/
example : (Chan.answered []).accepts (run k (init k) hist).2 = some (.requested [7, 9] false) ∧
    (run k (init k) hist).1.s = .idle := by decide +kernel

/-- Those of `C24_response_arrives` and `C24_send_succeeds` after `exchange`. -/
example : (Chan.answered []).accepts (run k (init k) exchange).2 = some (.answered [1, 2, 3]) ∧
    (run k (init k) exchange).1.c = .idle := by decide +kernel

/-- With an interleaved schedule a request is received while the client polls. -/
example : Obs.received 4 2 [7, 9] ∈ (run k (run k (init k) hist).1
    (.sRecv 4 :: [.cRecv 4, .sStep, .cStep, .sStep, .cStep, .sStep, .sStep, .cStep, .sStep])).2 := by
  decide +kernel

end MemDemo

/-- **Finding.** A request buffer smaller than its control word passes initialisation; the
size check of `SendRequest` then underflows (`size - sizeof(csr)` in `size_t`), and a
one-byte request is written outside the buffer. -/
theorem F_mem_small_buffer_overflow :
    ∃ k : Cfg, k.reqSize.toNat < 8 ∧
      (run k (init k) [.cSend [1], .cStep, .cStep, .cStep]).1.shm.ub = true :=
  ⟨⟨4, 12⟩, by decide, by decide +kernel⟩

/-- **Finding.** A request whose answer does not fit the response buffer stays outstanding:
`SendResponse` is refused, the next `RecvRequest` delivers the same request again (so a
server handles it again), and the client can neither receive nor send. -/
theorem F_mem_refused_answer_redelivers :
    ∃ k : Cfg, 8 ≤ k.reqSize.toNat ∧ 8 ≤ k.respSize.toNat ∧
      (run k (init k) (.cSend [1] :: MemDemo.many 4 .cStep ++ .sRecv 9 :: MemDemo.many 4 .sStep ++
        .sSend [1, 2, 3, 4, 5] :: .sRecv 9 :: MemDemo.many 4 .sStep ++
        .cRecv 9 :: MemDemo.many 2 .cStep ++ .cSend [2] :: MemDemo.many 2 .cStep)).2 =
      [.sent [1], .received 9 1 [1], .refused, .received 9 1 [1], .clientBusy, .clientBusy] :=
  ⟨⟨12, 12⟩, by decide, by decide, by decide +kernel⟩

end WolfHsm.Props

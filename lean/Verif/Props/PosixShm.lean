import Verif.Proofs.PosixShmLive
import Verif.Props.TransportMem
import Verif.Model.ShmDma

/-!
# C63: processes that meet in POSIX shared memory

`port/posix/posix_transport_shm.c`.  Any number of servers and clients start, connect, talk and die in any
order; every step is one system call or one access to shared memory.
-/

namespace WolfHsm.Props

open PosixShm

/-- **C63**, the full property would hold for every order; here clients connect one after the other (servers may
do anything at any time).  On each object what is seen is what a lossless request/response channel
shows (`Spec/TransportMem.lean`), and no access is outside the buffers. -/
theorem C63_channel_partial {w : World} {tr : List Seen} (h : Reach OneByOne w tr) {o : Nat} {b : Obj}
    (hb : w.objs[o]? = some b) (h1 : 8 ≤ b.k.reqSize.toNat) (h2 : 8 ≤ b.k.respSize.toNat) :
    (∃ ch, (Mem.Chan.answered []).accepts (on o tr) = some ch) ∧ b.shm.ub = false := by
  obtain ⟨es, y, h3, h4, _⟩ := ((reach_inv h).ok o b hb).sim
  have := C24_channel b.k h1 h2 es
  rw [h3] at this
  rw [← h4]
  exact this

/-- **C63**, who sees it: on each object all that is seen by clients is seen by one client, and all that is seen by
servers by one server; two clients are never connected to one object, nor two servers. -/
theorem C63_pair_partial {w : World} {tr : List Seen} (h : Reach OneByOne w tr) :
    (∀ s ∈ tr, ∀ s' ∈ tr, s.obj = s'.obj →
      (byClient s.obs = true → byClient s'.obs = true → s.who = s'.who) ∧
      (byServer s.obs = true → byServer s'.obs = true → s.who = s'.who)) ∧
    (∀ i j o pc pc', w.cli i = .up o pc → w.cli j = .up o pc' → i = j) ∧
    (∀ i j o c c' pc pc' t t', w.srv i = .up o c pc t → w.srv j = .up o c' pc' t' → i = j) := by
  have hi := reach_inv h
  refine ⟨?_, ?_, ?_⟩
  · intro s hs s' hs' ho
    have hok := hi.ok s.obj _ (List.getElem?_eq_getElem (hi.tIn s hs))
    exact ⟨fun h1 h2 => (hok.whoC s' hs' ho.symm h2).2.2.2 s hs rfl h1,
      fun h1 h2 => (hok.whoS s' hs' ho.symm h2).2 s hs rfl h1⟩
  · intro i j o pc pc' h1 h2
    have ho := hi.cIn i o (by rw [h1]; rfl)
    exact (hi.ok o _ (List.getElem?_eq_getElem ho)).oneC i j pc pc' (by rw [h1]; rfl) (by rw [h2]; rfl)
  · intro i j o c c' pc pc' t t' h1 h2
    have ho := hi.sIn i o (by rw [h1]; rfl)
    exact (hi.ok o _ (List.getElem?_eq_getElem ho)).oneS i j (by rw [h1]; rfl) (by rw [h2]; rfl)

/-- **C63**, connecting: if the name stands for an object that a server has made ready, a client left alone for as
many steps as the buffers have bytes, plus five, is connected to it. -/
theorem C63_connects {w : World} {i o : Nat} {b : Obj} (hi : w.cli i = .ready) (hn : w.name = some o)
    (hb : w.objs[o]? = some b) (hs : b.sized = true) (hm : b.mark = .creator) (h1 : b.k.reqSize ≠ 0)
    (h2 : b.k.respSize ≠ 0) :
    let es := .cOpen i none :: List.replicate (4 + (2 + b.shm.reqData.length + b.shm.respData.length + 1)) (.cStep i)
    (run w es).1.cli i = .up o .idle ∧ ∃ b', (run w es).1.objs[o]? = some b' ∧ b'.mark = .user := by
  intro es
  have e1 : step w (.cOpen i none) = (w.setCli i (.opened o none), []) := by
    simp only [step]
    rw [hi, hn]
  let w1 := w.setCli i (.opened o none)
  have e2 : step w1 (.cStep i) = (w1.setCli i (.statted o none), []) := by
    simp only [step, cStep]
    rw [show w1.cli i = .opened o none from if_pos rfl]
    dsimp only
    rw [show w1.objs[o]? = some b from hb]
    dsimp only
    rw [if_pos hs]
  let w2 := w1.setCli i (.statted o none)
  have e3 : step w2 (.cStep i) = (w2.setCli i (.checked o none), []) := by
    simp only [step, cStep]
    rw [show w2.cli i = .statted o none from if_pos rfl]
    dsimp only
    rw [show w2.objs[o]? = some b from hb]
    dsimp only
    rw [if_pos hm]
  let w3 := w2.setCli i (.checked o none)
  have e4 : step w3 (.cStep i) = (w3.unlink.setCli i (.removed o none), []) := by
    simp only [step, cStep]
    rw [show w3.cli i = .checked o none from if_pos rfl]
  let w4 := w3.unlink.setCli i (.removed o none)
  have e5 : step w4 (.cStep i) = ((w4.upd o fun b => { b with mark := .user }).setCli i (.clearing o 0 none), []) := by
    simp only [step, cStep]
    rw [show w4.cli i = .removed o none from if_pos rfl]
  let w5 := (w4.upd o fun b => { b with mark := .user }).setCli i (.clearing o 0 none)
  have hb5 : w5.objs[o]? = some { b with mark := .user } := get_upd (w := w4) hb _
  obtain ⟨b', h3, h4, h5, _, _⟩ := clearing_run (i := i) (2 + b.shm.reqData.length + b.shm.respData.length) w5 0 _ hb5 rfl
    h1 h2 (if_pos rfl) (by simp)
  have hrun : (run w es).1 =
      (run w5 (List.replicate (2 + b.shm.reqData.length + b.shm.respData.length + 1) (.cStep i))).1 := by
    show (run w (.cOpen i none :: List.replicate _ _)).1 = _
    rw [show 4 + (2 + b.shm.reqData.length + b.shm.respData.length + 1) =
      (2 + b.shm.reqData.length + b.shm.respData.length + 1) + 1 + 1 + 1 + 1 by omega]
    generalize 2 + b.shm.reqData.length + b.shm.respData.length + 1 = n
    simp only [List.replicate_succ, run]
    rw [e1]
    show (run (step (step (step (step w1 (.cStep i)).1 (.cStep i)).1 (.cStep i)).1 (.cStep i)).1 _).1 = _
    rw [e2]
    show (run (step (step (step w2 (.cStep i)).1 (.cStep i)).1 (.cStep i)).1 _).1 = _
    rw [e3]
    show (run (step (step w3 (.cStep i)).1 (.cStep i)).1 _).1 = _
    rw [e4]
    show (run (step w4 (.cStep i)).1 _).1 = _
    rw [e5]
  rw [hrun]
  exact ⟨h5, b', h3, h4⟩

namespace PosixShmDemo

/-- One byte each way. -/
def k : Mem.Cfg := ⟨9, 9⟩

def many (n : Nat) (e : Ev) : List Ev := List.replicate n e

/-- Server `i` starts. -/
def serve (i : Nat) : List Ev := .sInit i k :: many 5 (.sStep i)

/-- The server polls, the client connects in between, one request and its response. -/
def talk : List Ev :=
  serve 0 ++ [.sRecv 0 1, .sStep 0] ++ [.cInit 0, .cOpen 0 none] ++ many 6 (.cStep 0) ++ many 2 (.sStep 0) ++
    many 3 (.cStep 0) ++ .cSend 0 [7] :: many 4 (.cStep 0) ++ .sRecv 0 1 :: many 5 (.sStep 0) ++
    .sSend 0 [9] :: many 4 (.sStep 0) ++ .cRecv 0 1 :: many 4 (.cStep 0)

/-- All these events are allowed. -/
theorem talk_ok : Reach OneByOne (run .start talk).1 (run .start talk).2 := by
  have := reach_one talk .start [] .start (fun _ _ => rfl) ?_
  · simpa using this
  · intro e he j hj h1
    have hz : talk.all (fun e => decide (e.client = none ∨ e.client = some 0)) = true := by decide +kernel
    have := List.all_eq_true.1 hz e he
    rcases of_decide_eq_true this with h2 | h2
    · rw [h2] at h1; cases h1
    · rw [h2] at h1; exact hj (Option.some.inj h1).symm

example : (run .start talk).2 = [⟨0, 0, .serverBusy⟩, ⟨0, 0, .sent [7]⟩, ⟨0, 0, .received 1 1 [7]⟩,
    ⟨0, 0, .answered [9]⟩, ⟨0, 0, .got 1 1 [9]⟩] := by decide +kernel

/-- The hypotheses of `C63_connects` are met once the server has started. -/
example : ((run .start (serve 0 ++ [.cInit 3])).1.objs.map fun b => (b.sized, b.mark, b.k.reqSize)) =
    [(true, .creator, 9)] ∧ (run .start (serve 0 ++ [.cInit 3])).1.name = some 0 := by decide +kernel

example : (run .start (serve 0 ++ [.cInit 3])).1.cli 3 = .ready := rfl

/-- Two clients check the mark before either of them sets it. -/
def both : List Ev :=
  serve 0 ++ [.cInit 0, .cInit 1, .cOpen 0 none, .cOpen 1 none] ++ many 2 (.cStep 0) ++ many 2 (.cStep 1)

/-- Both connect; client 0 asks and client 1 gets the answer. -/
def stolen : List Ev :=
  both ++ many 7 (.cStep 0) ++ many 7 (.cStep 1) ++ .cSend 0 [7] :: many 4 (.cStep 0) ++
    .sRecv 0 1 :: many 5 (.sStep 0) ++ .sSend 0 [9] :: many 4 (.sStep 0) ++ .cRecv 1 1 :: many 4 (.cStep 1)

/-- Client 0 connects and asks; then client 1 clears the buffers. -/
def wiped : List Ev :=
  both ++ many 7 (.cStep 0) ++ .cSend 0 [7] :: many 4 (.cStep 0) ++ many 7 (.cStep 1) ++
    .cSend 0 [8] :: many 4 (.cStep 0)

/-- Client 0 has opened the object of a server that dies; another server starts; the client goes on. -/
def late : List Ev :=
  serve 0 ++ [.cInit 0, .cOpen 0 none] ++ many 2 (.cStep 0) ++ [.sKill 0] ++ serve 1 ++ many 7 (.cStep 0)

/-- A client connects and dies. -/
def gone : List Ev := serve 0 ++ [.cInit 0, .cOpen 0 none] ++ many 9 (.cStep 0) ++ [.sRecv 0 1] ++ many 3 (.sStep 0) ++ [.cKill 0]

end PosixShmDemo

open PosixShmDemo in
/-- **Finding**: the check of the mark and the setting of the mark are separate steps (lines 141 and 163).  Two
clients that connect at the same time both succeed, on one object; then a client gets the response
to the request of the other one, and it sees no error. -/
theorem F_C63_two_clients : ∃ w tr, Reach Anyhow w tr ∧ (∃ pc, w.cli 0 = .up 0 pc) ∧ (∃ pc, w.cli 1 = .up 0 pc) ∧
    tr = [⟨0, 0, .sent [7]⟩, ⟨0, 0, .received 1 1 [7]⟩, ⟨0, 0, .answered [9]⟩, ⟨0, 1, .got 1 1 [9]⟩] := by
  refine ⟨_, _, reach_run .start stolen, ?_, ?_, ?_⟩
  · exact ⟨.idle, rfl⟩
  · exact ⟨.idle, rfl⟩
  · decide +kernel

open PosixShmDemo in
/-- **Finding**, the same race: the second client clears the buffers when the first one has sent a request; the
request is lost and no channel shows what is then seen. -/
theorem F_C63_wiped : ∃ w tr, Reach Anyhow w tr ∧ tr = [⟨0, 0, .sent [7]⟩, ⟨0, 0, .sent [8]⟩] ∧
    (Mem.Chan.answered []).accepts (on 0 tr) = none := by
  refine ⟨_, _, reach_run .start wiped, ?_, ?_⟩ <;> decide +kernel

open PosixShmDemo in
/-- **Finding**: the client removes the name (line 159), whatever it stands for by then.  If a server was restarted
after the client opened the old object, the client ends up on the dead server's object, and
no client ever reaches the new server, which waits for one. -/
theorem F_C63_unlinks_other : ∃ w tr, Reach Anyhow w tr ∧ (∃ pc, w.cli 0 = .up 0 pc) ∧
    w.srv 0 = .off ∧ w.srv 1 = .up 1 false .idle false ∧ (w.objs[1]?.map Obj.mark) = some .creator ∧
    ∀ es j pc, (run w es).1.cli j ≠ .up 1 pc := by
  have hd : Deserted 1 (run .start late).1 := by
    refine ⟨by decide +kernel, by decide +kernel, ?_⟩
    intro j
    by_cases hj : j = 0
    · subst hj
      decide +kernel
    · rw [run_other late .start ?_]
      · simp [World.start, CAt.obj]
      · intro e he h1
        have hz : late.all (fun e => decide (e.client = none ∨ e.client = some 0)) = true := by decide +kernel
        rcases of_decide_eq_true (List.all_eq_true.1 hz e he) with h2 | h2
        · rw [h2] at h1; cases h1
        · rw [h2] at h1; exact hj (Option.some.inj h1).symm
  refine ⟨_, _, reach_run .start late, ⟨.idle, rfl⟩, rfl, rfl, by decide +kernel, ?_⟩
  intro es j pc h
  exact (deserted_run es hd).cli j (by rw [h]; rfl)

open PosixShmDemo in
/-- **Finding**: once a client has connected, the object has no name.  When that client dies no other one ever
reaches the server, which goes on polling and is not told. -/
theorem F_C63_no_reconnect : ∃ w tr, Reach OneByOne w tr ∧ w.srv 0 = .up 0 true .idle false ∧ w.cli 0 = .off ∧
    ∀ es j pc, (run w es).1.cli j ≠ .up 0 pc := by
  have hz : ∀ j, j ≠ 0 → ∀ e ∈ gone, e.client ≠ some j := by
    intro j hj e he h1
    have hz : gone.all (fun e => decide (e.client = none ∨ e.client = some 0)) = true := by decide +kernel
    rcases of_decide_eq_true (List.all_eq_true.1 hz e he) with h2 | h2
    · rw [h2] at h1; cases h1
    · rw [h2] at h1; exact hj (Option.some.inj h1).symm
  have hd : Deserted 0 (run .start gone).1 := by
    refine ⟨by decide +kernel, by decide +kernel, ?_⟩
    intro j
    by_cases hj : j = 0
    · subst hj
      decide +kernel
    · rw [run_other gone .start (hz j hj)]
      simp [World.start, CAt.obj]
  refine ⟨_, _, reach_one gone .start [] .start (fun _ _ => rfl) (fun e he j hj => hz j hj e he), rfl, rfl, ?_⟩
  intro es j pc h
  exact (deserted_run es hd).cli j (by rw [h]; rfl)

/-! ## DMA through the shared area -/

section dma

open ShmDma

/-- **C63**, DMA: the server never leaves the area, whatever address and length the client sends. -/
theorem C63_dma_inside {sbase size off len p : Nat} (h : serverCb sbase size off len = (.ok, p)) :
    sbase ≤ p ∧ p + len ≤ sbase + size := by
  unfold serverCb at h
  split at h
  · cases h
  · split at h
    · cases h
    · cases h; omega

/-- `XMALLOC` on the heap in the DMA area: a block inside it that the caller's buffer does not touch. -/
def Block (a : Area) (addr len : Nat) (p : Nat) : Prop :=
  a.base ≤ p ∧ p + len ≤ a.base + a.size ∧ (addr + len ≤ p ∨ p + len ≤ addr)

/-- **C63**, DMA, what the server reads: if PRE succeeds for a buffer, the address it gives is accepted by the server,
and there are the bytes of the buffer; nothing but the block allocated has changed. -/
theorem C63_dma_read {a : Area} {sbase : Nat} {heap : Bool} {alloc : Option Nat} {m : Memory} {op : Dma.Oper}
    {addr len x0 : Nat} {d : Did} (hop : op = .readPre ∨ op = .writePre) (ha : addr ≠ 0) (hl : len ≠ 0)
    (hs : sbase ≠ 0) (hsz : a.base + a.size ≤ 2 ^ 64) (hp : ∀ p, alloc = some p → Block a addr len p)
    (h : clientCb a heap alloc m op addr len x0 = d) (hd : d.rc = .ok) :
    ∃ p, serverCb sbase a.size d.x len = (.ok, p) ∧
      serverReads a sbase d.mem p len = (List.range len).map (fun i => m (addr + i)) ∧
      ∀ z, (∀ q, alloc = some q → z < q ∨ q + len ≤ z) → d.mem z = m z := by
  unfold clientCb at h
  rw [if_neg (by simp [ha, hl])] at h
  split at h
  · subst h; cases hd
  have key : (if a.has addr len then (⟨.ok, addr - a.base, m, none, none⟩ : Did)
      else match (generalizing := false) alloc with
        | none => ⟨.nospace, x0, m, none, none⟩
        | some p => ⟨.ok, (p + 2 ^ 64 - a.base) % 2 ^ 64, copy m p addr len, some p, none⟩) = d := by
    rcases hop with rfl | rfl <;> (rw [← h]; cases alloc <;> rfl)
  split at key
  · rename_i hh
    unfold Area.has at hh
    obtain ⟨h1, h2, h3, h4, h5⟩ := of_decide_eq_true hh
    subst key
    refine ⟨sbase + (addr - a.base), ?_, ?_, fun z _ => rfl⟩
    · unfold serverCb
      dsimp only
      rw [if_neg (by omega), if_neg (by omega)]
    · unfold serverReads
      dsimp only
      refine List.map_congr_left fun i _ => ?_
      congr 1
      omega
  · cases alloc with
    | none => dsimp only at key; subst key; cases hd
    | some p =>
      dsimp only at key
      subst key
      obtain ⟨h1, h2, h3⟩ := hp p rfl
      have hx : (p + 2 ^ 64 - a.base) % 2 ^ 64 = p - a.base := by
        rw [show p + 2 ^ 64 - a.base = (p - a.base) + 2 ^ 64 by omega, Nat.add_mod_right, Nat.mod_eq_of_lt (by omega)]
      dsimp only
      rw [hx]
      refine ⟨sbase + (p - a.base), ?_, ?_, ?_⟩
      · unfold serverCb
        rw [if_neg (by omega), if_neg (by omega)]
      · unfold serverReads copy
        refine List.map_congr_left fun i hi => ?_
        have := List.mem_range.1 hi
        rw [if_pos (by omega)]
        congr 1
        omega
      · intro z hz
        have := hz p rfl
        unfold copy
        rw [if_neg (by omega)]

/-- **C63**, DMA, what the server writes: after PRE, the server writes `bs` at the address it was given, then POST:
the caller's buffer holds `bs`, and outside it and the block nothing has changed. -/
theorem C63_dma_write {a : Area} {sbase : Nat} {heap : Bool} {alloc : Option Nat} {m : Memory} {addr len x0 p : Nat}
    {d e : Did} {bs : List UInt8} (ha : addr ≠ 0) (hl : len ≠ 0) (hsz : a.base + a.size ≤ 2 ^ 64)
    (hp : ∀ p, alloc = some p → Block a addr len p)
    (h : clientCb a heap alloc m .writePre addr len x0 = d) (hd : d.rc = .ok) (hb : bs.length = len)
    (hsv : serverCb sbase a.size d.x len = (.ok, p))
    (he : clientCb a heap alloc (serverWrites a sbase d.mem p bs) .writePost addr len d.x = e) :
    e.rc = .ok ∧ (List.range len).map (fun i => e.mem (addr + i)) = bs ∧
      (∀ z, (z < addr ∨ addr + len ≤ z) → (∀ q, alloc = some q → z < q ∨ q + len ≤ z) → e.mem z = m z) := by
  have hpx : p = sbase + d.x := by
    unfold serverCb at hsv
    split at hsv
    · cases hsv
    · split at hsv
      · cases hsv
      · cases hsv; rfl
  unfold clientCb at h he
  rw [if_neg (by simp [ha, hl])] at h he
  split at h
  · subst h; cases hd
  rename_i hh
  rw [if_neg hh] at he
  dsimp only at h he
  have hbs : ∀ f : Nat → UInt8, (∀ i, i < len → f i = bs.getD i 0) → (List.range len).map f = bs := by
    intro f hf
    apply List.ext_getElem?
    intro j
    rw [List.getElem?_map]
    by_cases hj : j < len
    · rw [List.getElem?_range hj]
      rw [List.getElem?_eq_getElem (by omega)]
      simp [hf j hj, List.getElem?_eq_getElem (show j < bs.length by omega)]
    · rw [List.getElem?_eq_none (by simp; omega), List.getElem?_eq_none (by omega)]
      rfl
  split at h
  · rename_i hin
    rw [if_pos hin] at he
    unfold Area.has at hin
    obtain ⟨h1, h2, h3, h4, h5⟩ := of_decide_eq_true hin
    subst h
    subst he
    dsimp only at hpx ⊢
    subst hpx
    refine ⟨rfl, ?_, ?_⟩
    · apply hbs
      intro i hi
      unfold serverWrites
      rw [if_pos (by omega)]
      congr 1
      omega
    · intro z hz _
      unfold serverWrites
      rw [if_neg (by omega)]
  · rename_i hin
    rw [if_neg hin] at he
    cases alloc with
    | none => dsimp only at h; subst h; cases hd
    | some q =>
      dsimp only at h
      subst h
      obtain ⟨h1, h2, h3⟩ := hp q rfl
      have hx : (q + 2 ^ 64 - a.base) % 2 ^ 64 = q - a.base := by
        rw [show q + 2 ^ 64 - a.base = (q - a.base) + 2 ^ 64 by omega, Nat.add_mod_right, Nat.mod_eq_of_lt (by omega)]
      dsimp only at hpx he
      rw [hx] at hpx he
      subst he
      subst hpx
      dsimp only
      refine ⟨rfl, ?_, ?_⟩
      · apply hbs
        intro i hi
        unfold copy serverWrites
        rw [if_pos (by omega), if_pos (by omega)]
        congr 1
        omega
      · intro z hz hz2
        have := hz2 q rfl
        unfold copy serverWrites
        rw [if_neg (by omega), if_neg (by omega)]
        dsimp only
        rw [if_neg (by omega)]

/-- **C63**, DMA, the block: what PRE allocates POST frees, and nothing else, in either direction; PRE frees nothing,
and it allocates only what it then uses; a PRE that fails keeps nothing. -/
theorem C63_dma_block {a : Area} {heap : Bool} {alloc alloc' : Option Nat} {m m' : Memory} {op op' : Dma.Oper}
    {addr len x0 : Nat} {d e : Did} (hop : (op = .readPre ∧ op' = .readPost) ∨ (op = .writePre ∧ op' = .writePost))
    (hsz : a.base + a.size ≤ 2 ^ 64) (hp : ∀ p, alloc = some p → Block a addr len p)
    (h : clientCb a heap alloc m op addr len x0 = d) (he : clientCb a heap alloc' m' op' addr len d.x = e) :
    (d.rc = .ok → e.rc = .ok ∧ e.freed = d.taken) ∧ d.freed = none ∧ e.taken = none ∧
      (d.rc ≠ .ok → d.taken = none ∧ d.mem = m) ∧
      ∀ p, d.taken = some p → alloc = some p ∧ a.base + d.x = p := by
  unfold clientCb at h he
  by_cases h0 : addr = 0 ∨ len = 0
  · rw [if_pos h0] at h he
    subst h; subst he
    simp
  rw [if_neg h0] at h he
  by_cases hh : (!a.has addr len && !heap) = true
  · rw [if_pos hh] at h he
    subst h; subst he
    simp
  rw [if_neg hh] at h he
  have hx : ∀ q, alloc = some q → (q + 2 ^ 64 - a.base) % 2 ^ 64 = q - a.base ∧ a.base ≤ q := by
    intro q hq
    obtain ⟨h1, h2, _⟩ := hp q hq
    refine ⟨?_, h1⟩
    rw [show q + 2 ^ 64 - a.base = (q - a.base) + 2 ^ 64 by omega, Nat.add_mod_right, Nat.mod_eq_of_lt (by omega)]
  by_cases hin : a.has addr len = true
  · rcases hop with ⟨rfl, rfl⟩ | ⟨rfl, rfl⟩ <;> dsimp only at h he <;> rw [if_pos hin] at h he <;> subst h <;> subst he <;>
      simp
  · cases alloc with
    | none =>
      rcases hop with ⟨rfl, rfl⟩ | ⟨rfl, rfl⟩ <;> dsimp only at h he <;> rw [if_neg hin] at h he <;> subst h <;>
        subst he <;> simp
    | some q =>
      obtain ⟨h1, h2⟩ := hx q rfl
      have h3 : a.base + (q - a.base) = q := by omega
      rcases hop with ⟨rfl, rfl⟩ | ⟨rfl, rfl⟩ <;> dsimp only at h he <;> rw [if_neg hin] at h he <;> subst h <;>
        subst he <;> simp [h1, h3]

/-- The hypotheses are met by a buffer outside the area and a block inside it. -/
example : Block ⟨1000, 64⟩ 5000 8 1016 ∧
    (clientCb ⟨1000, 64⟩ true (some 1016) (fun a => UInt8.ofNat a) .writePre 5000 8 0).x = 16 ∧
    (clientCb ⟨1000, 64⟩ true (some 1016) (fun a => UInt8.ofNat a) .writePre 5000 8 0).rc = .ok := by
  unfold Block; decide +kernel

/-- And by a buffer inside it, without heap. -/
example : (clientCb ⟨1000, 64⟩ false none (fun a => UInt8.ofNat a) .readPre 1004 8 0).x = 4 ∧
    (clientCb ⟨1000, 64⟩ false none (fun a => UInt8.ofNat a) .readPre 1004 8 0).rc = .ok := by decide +kernel

/-- **Finding** (lines 561-565): a NULL pointer with a length becomes offset 0, which the server's callback
accepts: the server reads or writes the first bytes of the area, whoever they belong to. -/
theorem F_C63_dma_null (a : Area) (heap : Bool) (m : Memory) (op : Dma.Oper) (sbase len : Nat) (hs : sbase ≠ 0)
    (hl : 0 < len) (hsz : len ≤ a.size) :
    (clientCb a heap none m op 0 len 7).rc = .ok ∧
    serverCb sbase a.size (clientCb a heap none m op 0 len 7).x len = (.ok, sbase) := by
  unfold clientCb
  rw [if_pos (.inl rfl)]
  refine ⟨rfl, ?_⟩
  unfold serverCb
  rw [if_neg (by omega), if_neg (by dsimp only; omega)]
  rfl

/-- **Finding** (lines 574-577): a buffer that ends where the area ends is not taken to be in it. -/
theorem F_C63_dma_last : ∃ a : Area, ∃ addr len, a.base ≤ addr ∧ addr + len = a.base + a.size ∧ 0 < len ∧
    (clientCb a false none (fun _ => 0) .readPre addr len 0).rc = .notready :=
  ⟨⟨1000, 64⟩, 1056, 8, by decide +kernel⟩

end dma

end WolfHsm.Props

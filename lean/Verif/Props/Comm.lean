import Verif.Proofs.Comm

/-!
# C23, C26 and the packet part of C25: responses, timeouts, byte order
-/

namespace WolfHsm.Props

open Comm Utils

/-! ### C23 -/

/-- **C23.** Over any history of a client and a server of any byte orders, with a network
that delivers any response at any time and any number of times (but not one that is
65536 or more requests old): when a poll returns a response, it is a response to the last
request the client sent, which the server had received unchanged, and kind and data are
those the server sent. -/
theorem C23_response_matches (cfg scfg : Cfg) (hc : cfg.mtu < 65536)
    (hsc : scfg.mtu < 65536) (le sle : Bool) (t : Timeout)
    (es : List Ev) (i : Nat) (cap : Option Nat) (junk : List UInt8) (now : UInt64) (g : Got)
    (l : Link) (hl : l = ((Link.init le t).run cfg scfg sle es).2)
    (hw : Ev.InWindow l (.poll (.deliver i) cap junk now))
    (hg : (l.step cfg scfg sle (.poll (.deliver i) cap junk now)).1 = .got g) (hok : g.rc = .ok) :
    ∃ a q, l.answers[i]? = some a ∧ a.request + 1 = l.requests.length ∧
      l.requests[a.request]? = some q ∧ a.sawKind = q.kind ∧ a.sawData = q.data ∧
      g.kind = q.kind ∧ g.payload = a.data := by
  have hinv : Inv cfg scfg le sle l := hl ▸ inv_run hc es (inv_init cfg scfg le sle t)
  simp only [Link.step] at hg
  cases ha : l.answers[i]? with
  | none => rw [ha] at hg; cases hg
  | some a =>
    rw [ha] at hg
    dsimp only at hg
    obtain ⟨q, aux, hq, hk, hd, hlen, hp⟩ := hinv.anss a (List.mem_of_getElem? ha)
    have hrlt : a.request < l.requests.length := (List.getElem?_eq_some_iff.mp hq).1
    have hwin := hw a ha
    have hcl := client_reads le sle (if sle = le then magicNative else magicSwap) q.kind
      (UInt16.ofNat (a.request + 1)) aux (a.data ++ junk) rfl
    rw [← List.append_assoc, ← hp] at hcl
    refine ⟨a, q, rfl, ?_⟩
    revert hg
    refine recvResponse_cases (P := fun r => Obs.got r.1 = .got g → _) cfg l.client cap
      (Rx.of a.packet junk) now ?_ ?_
    · intro g' c' hne _ _ _ _ hgg
      cases hgg; exact absurd hok hne
    · intro c' _ _ _ h8 hmtu _ hs _ _ _ _ hgg
      simp only [Obs.got.injEq] at hgg
      subst hgg
      simp only [Rx.of] at hs h8 hmtu ⊢
      rw [hinv.le_eq] at hs ⊢
      rw [hcl.2.2, hinv.seq_eq] at hs
      have hnum : a.request + 1 = l.requests.length := by
        have := congrArg UInt16.toNat hs
        simp only [UInt16.toNat_ofNat'] at this
        omega
      refine ⟨hnum, hq, hk, hd, hcl.2.1, ?_⟩
      have hpl : a.packet.length = 8 + a.data.length := by
        rw [hp, List.length_append, header_length]
      have hfit : (UInt16.ofNat a.packet.length).toNat = a.packet.length :=
        ofNat_toNat_len _ (by unfold Cfg.mtu at hsc; omega)
      rw [hfit, hpl, Nat.add_sub_cancel_left, hp, List.append_assoc,
        List.drop_left' (header_length ..), List.take_left]

/-- The last request in `trace` is still open. -/
def Open (trace : List Obs) : Prop :=
  ∃ a b rc, trace = a ++ .sent true rc :: b ∧ ∀ o ∈ b, o.isRequest = false ∧ o.closes = false

theorem open_snoc {T : List Obs} {o : Obs} (h : Open T) (h1 : o.isRequest = false)
    (h2 : o.closes = false) : Open (T ++ [o]) := by
  obtain ⟨a, b, rc, e, hb⟩ := h
  refine ⟨a, b ++ [o], rc, by rw [e]; simp, ?_⟩
  intro x hx
  rcases List.mem_append.mp hx with hx | hx
  · exact hb x hx
  · rw [List.mem_singleton] at hx; subst hx; exact ⟨h1, h2⟩

/-- One step keeps "a pending request is open in the trace". -/
theorem open_step (cfg scfg : Cfg) (sle : Bool) (l : Link) (T : List Obs)
    (hi : l.client.initialized = true) (h : l.client.pending = true → Open T) (e : Ev) :
    (l.step cfg scfg sle e).2.client.pending = true →
      Open (T ++ [(l.step cfg scfg sle e).1]) := by
  have hpoll : ∀ cap rx now, (l.client.recvResponse cfg cap rx now).2.pending = true →
      Open (T ++ [.got (l.client.recvResponse cfg cap rx now).1]) := by
    intro cap rx now hp
    by_cases hcl : (Obs.got (l.client.recvResponse cfg cap rx now).1).closes = true
    · exfalso
      revert hp hcl
      exact closes_not_pending cfg l.client cap rx now
    · have hpre : l.client.pending = true := by
        revert hp
        refine recvResponse_cases (P := fun r => r.2.pending = true → _) cfg l.client cap rx now ?_ ?_
        · intro g c' _ _ _ _ h4 h5; exact h4 h5
        · intro c' _ hp _ _ _ _ _ _ _ _ _ _; exact hp
      exact open_snoc (h hpre) rfl (by simpa using hcl)
  cases e with
  | send kind aux data tx now =>
    simp only [Link.step]
    refine sendRequest_cases (P := fun r =>
      ((match r.1.packet with
        | some p => (Obs.sent true r.1.rc,
            ({ l with client := r.2, requests := l.requests ++ [Request.mk kind data p] } : Link))
        | none => (Obs.sent false r.1.rc, { l with client := r.2 })).2.client.pending = true →
      Open (T ++ [(match r.1.packet with
        | some p => (Obs.sent true r.1.rc,
            ({ l with client := r.2, requests := l.requests ++ [Request.mk kind data p] } : Link))
        | none => (Obs.sent false r.1.rc, { l with client := r.2 })).1]))) cfg l.client _ _ _ _ _ _ ?_ ?_
    · intro rc _ hp; exact open_snoc (h hp) rfl rfl
    · intro _ _ _ _ rc t _
      exact ⟨T, [], rc, rfl, by simp⟩
  | serve i aux junk answer =>
    simp only [Link.step]
    split
    · intro hp; exact open_snoc (h hp) rfl rfl
    · split
      · intro hp; exact open_snoc (h hp) rfl rfl
      · intro hp; exact open_snoc (h hp) rfl rfl
  | poll p cap junk now =>
    cases p with
    | deliver i =>
      simp only [Link.step]
      split
      · intro hp; exact open_snoc (h hp) rfl rfl
      · exact hpoll _ _ _
    | fail rc => exact hpoll _ _ _
  | abort =>
    simp only [Link.step]
    intro hp
    exfalso
    rw [abort_not_pending cfg l.client hi] at hp
    cases hp

theorem open_run (cfg scfg : Cfg) (hc : cfg.mtu < 65536) (le sle : Bool) (es : List Ev) :
    ∀ (l : Link) (T : List Obs), Inv cfg scfg le sle l → (l.client.pending = true → Open T) →
    ∀ pre g post, (l.run cfg scfg sle es).1 = pre ++ .got g :: post → g.rc = .ok →
      Open (T ++ pre) := by
  induction es with
  | nil => intro l T _ _ pre g post h; simp [Link.run] at h
  | cons e es ih =>
    intro l T hinv hT pre g post h hok
    simp only [Link.run] at h
    cases pre with
    | nil =>
      simp only [List.nil_append, List.cons.injEq] at h
      rw [List.append_nil]
      refine hT ?_
      have hstep := h.1
      have hpoll : ∀ cap rx now, Obs.got (l.client.recvResponse cfg cap rx now).1 = .got g →
          l.client.pending = true := by
        intro cap rx now
        refine recvResponse_cases (P := fun r => Obs.got r.1 = .got g → _) cfg l.client cap rx now ?_ ?_
        · intro g' c' hne _ _ _ _ he; cases he; exact absurd hok hne
        · intro c' _ hp _ _ _ _ _ _ _ _ _ _; exact hp
      cases e with
      | send kind aux data tx now => simp only [Link.step] at hstep; split at hstep <;> cases hstep
      | serve i aux junk answer =>
        simp only [Link.step] at hstep
        split at hstep
        · cases hstep
        · split at hstep <;> cases hstep
      | poll p cap junk now =>
        cases p with
        | deliver i =>
          simp only [Link.step] at hstep
          split at hstep
          · cases hstep
          · exact hpoll _ _ _ hstep
        | fail rc => exact hpoll _ _ _ hstep
      | abort => simp only [Link.step] at hstep; cases hstep
    | cons o pre =>
      simp only [List.cons_append, List.cons.injEq] at h
      have := ih (l.step cfg scfg sle e).2 (T ++ [(l.step cfg scfg sle e).1])
        (inv_step hc hinv e) (open_step cfg scfg sle l T hinv.init_eq hT e) pre g post h.2 hok
      rw [h.1] at this
      simpa using this

/-- **C23.** At most one response per request, and none without a request: in any history,
before every delivered response there is a request the transport took, with no other
request, delivered response or abort in between. -/
theorem C23_at_most_once (cfg scfg : Cfg) (hc : cfg.mtu < 65536) (le sle : Bool) (t : Timeout)
    (es : List Ev) (pre post : List Obs) (g : Got)
    (h : ((Link.init le t).run cfg scfg sle es).1 = pre ++ .got g :: post) (hok : g.rc = .ok) :
    ∃ a b rc, pre = a ++ .sent true rc :: b ∧ ∀ o ∈ b, o.isRequest = false ∧ o.closes = false := by
  have := open_run cfg scfg hc le sle es (Link.init le t) [] (inv_init cfg scfg le sle t)
    (by simp [Link.init, Client.init]) pre g post h hok
  rwa [List.nil_append] at this

/-- **C23.** Only one request is outstanding at a time: while one is, a further send is
refused and the transport is not used. -/
theorem C23_one_outstanding (cfg : Cfg) (c : Client) (magic kind aux : UInt16) (data : List UInt8)
    (tx : Rc) (now : UInt64) (h : c.isRequestPending = .ok true) :
    c.sendRequest cfg magic kind aux data tx now = (⟨.requestPending, none⟩, c) := by
  unfold Client.isRequestPending at h
  cases hi : c.initialized
  · rw [hi] at h; cases h
  · rw [hi] at h
    simp only [if_true, Except.ok.injEq] at h
    simp [Client.sendRequest, hi, h]

/-- The window is needed: a response that is exactly 65536 requests old carries the same
sequence number and is delivered in place of the answer to the outstanding request. -/
theorem F_old_response_after_wrap (cfg scfg : Cfg) (hc : cfg.mtu < 65536) (hs : scfg.dataLen ≤ cfg.dataLen)
    (le sle : Bool) (t : Timeout) (es : List Ev) (i : Nat) (junk : List UInt8) (now : UInt64)
    (l : Link) (hl : l = ((Link.init le t).run cfg scfg sle es).2) (a : Answer)
    (ha : l.answers[i]? = some a) (hold : a.request + 1 + 65536 = l.requests.length)
    (hp : l.client.pending = true) :
    ∃ g, (l.step cfg scfg sle (.poll (.deliver i) none junk now)).1 = .got g ∧ g.rc = .ok ∧
      g.payload = a.data := by
  have hinv : Inv cfg scfg le sle l := hl ▸ inv_run hc es (inv_init cfg scfg le sle t)
  obtain ⟨q, aux, hq, hk, hd, hlen, hpk⟩ := hinv.anss a (List.mem_of_getElem? ha)
  have hcl := client_reads le sle (if sle = le then magicNative else magicSwap) q.kind
    (UInt16.ofNat (a.request + 1)) aux (a.data ++ junk) rfl
  rw [← List.append_assoc, ← hpk] at hcl
  have hpl : a.packet.length = 8 + a.data.length := by
    rw [hpk, List.length_append, header_length]
  have hfit : (UInt16.ofNat a.packet.length).toNat = 8 + a.data.length := by
    rw [ofNat_toNat_len _ (by unfold Cfg.mtu at hc; omega), hpl]
  have hseq : UInt16.ofNat (a.request + 1) = l.client.seq := by
    rw [hinv.seq_eq, ← hold]
    apply UInt16.toNat_inj.mp
    simp [UInt16.toNat_ofNat']
  have hbad : badSize cfg (UInt16.ofNat a.packet.length) = false := by
    unfold badSize
    rw [hfit]
    simp [Cfg.mtu]; omega
  have hst : ∀ c0 : Client, (c0.stopTimer cfg).le = c0.le ∧ (c0.stopTimer cfg).seq = c0.seq := by
    intro c0; unfold Client.stopTimer; split <;> simp
  simp only [Link.step, ha]
  refine ⟨_, rfl, ?_⟩
  simp only [Client.recvResponse, hinv.init_eq, hp, Bool.not_true, Bool.false_eq_true, if_false,
    Rx.of, hbad, Client.accept, (hst l.client).1, (hst l.client).2, hinv.le_eq, hcl.1, hcl.2.2,
    hseq, ne_eq, not_true_eq_false]
  refine ⟨trivial, ?_⟩
  rw [hfit, Nat.add_sub_cancel_left, hpk, List.append_assoc,
    List.drop_left' (header_length ..), List.take_left]

/-! Concrete cases: a little-endian client, a big-endian server, 16 data bytes, no timeout. -/
namespace CommDemo

def cfg : Cfg := ⟨16, false⟩
def off : Timeout := Timeout.init none none
/-- Two requests; the first is given up after the server has answered it.  The old answer
is offered first, then the right one. -/
def es : List Ev :=
  [.send 0x0101 0 [1, 2] .ok 0, .serve 0 0 [] [7], .abort, .send 0x0202 0 [3] .ok 0,
   .poll (.deliver 0) (some 16) [] 0, .serve 1 0 [0xEE] [8, 9]]
def l : Link := ((Link.init true off).run cfg cfg false es).2

/-- The hypotheses of `C23_response_matches` are met, the old answer is not delivered, the
right one is. -/
example :
    Ev.InWindow l (.poll (.deliver 1) (some 16) [5] 0) ∧
    (l.step cfg cfg false (.poll (.deliver 1) (some 16) [5] 0)).1 =
      .got ⟨.ok, 0xA501, 0x0202, 2, [8, 9]⟩ ∧
    (l.step cfg cfg false (.poll (.deliver 0) (some 16) [5] 0)).1 = .got (.err .notready) := by
  refine ⟨?_, by decide +kernel, by decide +kernel⟩
  intro a _
  have : l.requests.length = 2 := by decide +kernel
  omega

/-- The trace of that history with two deliveries of the right answer: the second is not
delivered again (`C23_at_most_once`). -/
example :
    ((Link.init true off).run cfg cfg false (es ++ [.poll (.deliver 1) none [] 0,
      .poll (.deliver 1) none [] 0])).1 =
    [.sent true .ok, .other, .aborted, .sent true .ok, .got (.err .notready), .other] ++
      .got ⟨.ok, 0xA501, 0x0202, 2, [8, 9]⟩ :: [.got (.err .notready)] := by decide +kernel

end CommDemo

/-- `n` requests sent and given up. -/
def burn : Nat → List Ev
  | 0 => []
  | n + 1 => .send 1 0 [] .ok 0 :: .abort :: burn n

theorem burn_run (n : Nat) : ∀ l : Link, l.client.initialized = true → l.client.pending = false →
    (l.run CommDemo.cfg CommDemo.cfg false (burn n)).2.requests.length = l.requests.length + n ∧
    (l.run CommDemo.cfg CommDemo.cfg false (burn n)).2.answers = l.answers ∧
    (l.run CommDemo.cfg CommDemo.cfg false (burn n)).2.client.initialized = true ∧
    (l.run CommDemo.cfg CommDemo.cfg false (burn n)).2.client.pending = false := by
  induction n with
  | zero => intro l hi hp; exact ⟨rfl, rfl, hi, hp⟩
  | succ n ih =>
    intro l hi hp
    simp only [burn, Link.run]
    have := ih ((l.step CommDemo.cfg CommDemo.cfg false (.send 1 0 [] .ok 0)).2.step CommDemo.cfg
      CommDemo.cfg false .abort).2
      (by simp [Link.step, Client.sendRequest, Client.abortPending, Client.stopTimer, hi, hp,
            CommDemo.cfg])
      (by simp [Link.step, Client.sendRequest, Client.abortPending, Client.stopTimer, hi, hp,
            CommDemo.cfg])
    simp only [Link.step, Client.sendRequest, Client.abortPending, Client.stopTimer, hi, hp,
      CommDemo.cfg] at this ⊢
    simp only [Bool.not_true, Bool.false_eq_true, if_false, List.length_nil, gt_iff_lt,
      Nat.not_lt_zero, List.length_append, List.length_cons] at this ⊢
    refine ⟨by rw [this.1]; omega, this.2⟩

/-- An answer may be any number of requests old. -/
theorem old_answer_reachable (n : Nat) : ∃ es : List Ev, ∃ a : Answer,
    ((Link.init true CommDemo.off).run CommDemo.cfg CommDemo.cfg false es).2.answers[0]? = some a ∧
    a.request + 1 + (n + 1) =
      ((Link.init true CommDemo.off).run CommDemo.cfg CommDemo.cfg false es).2.requests.length ∧
    ((Link.init true CommDemo.off).run CommDemo.cfg CommDemo.cfg false es).2.client.pending = true := by
  have h0 := burn_run n ((Link.init true CommDemo.off).run CommDemo.cfg CommDemo.cfg false
    [.send 1 0 [] .ok 0, .serve 0 0 [] [7], .abort]).2 (by decide +kernel) (by decide +kernel)
  have hl : ((Link.init true CommDemo.off).run CommDemo.cfg CommDemo.cfg false
    [.send 1 0 [] .ok 0, .serve 0 0 [] [7], .abort]).2.requests.length = 1 := by decide +kernel
  have ha : ((Link.init true CommDemo.off).run CommDemo.cfg CommDemo.cfg false
    [.send 1 0 [] .ok 0, .serve 0 0 [] [7], .abort]).2.answers[0]?.map (·.request) = some 0 := by
    decide +kernel
  revert h0 hl ha
  generalize hs : ((Link.init true CommDemo.off).run CommDemo.cfg CommDemo.cfg false
    [.send 1 0 [] .ok 0, .serve 0 0 [] [7], .abort]).2 = s
  intro h0 hl ha
  refine ⟨[.send 1 0 [] .ok 0, .serve 0 0 [] [7], .abort] ++ (burn n ++ [.send 1 0 [] .ok 0]), ?_⟩
  rw [run_append, run_append]
  dsimp only
  rw [hs]
  obtain ⟨h1, h2, h3, h4⟩ := h0
  generalize (s.run CommDemo.cfg CommDemo.cfg false (burn n)).2 = s' at h1 h2 h3 h4
  simp only [Link.run, Link.step, Client.sendRequest, h3, h4, CommDemo.cfg, Bool.not_true,
    Bool.false_eq_true, if_false, List.length_nil, gt_iff_lt, Nat.not_lt_zero, List.length_append,
    List.length_cons, h2]
  cases hx : s.answers[0]? with
  | none => rw [hx] at ha; cases ha
  | some a =>
    rw [hx] at ha
    simp only [Option.map_some, Option.some.injEq] at ha
    exact ⟨a, rfl, by omega, trivial⟩

/-- The hypotheses of `F_old_response_after_wrap` are reachable. -/
example : ∃ es : List Ev, ∃ a : Answer,
    ((Link.init true CommDemo.off).run CommDemo.cfg CommDemo.cfg false es).2.answers[0]? = some a ∧
    a.request + 1 + 65536 =
      ((Link.init true CommDemo.off).run CommDemo.cfg CommDemo.cfg false es).2.requests.length ∧
    ((Link.init true CommDemo.off).run CommDemo.cfg CommDemo.cfg false es).2.client.pending = true :=
  old_answer_reachable 65535

/-- The sequence numbers start again when a client is re-initialised: the response to the
first request of the previous session is delivered as the answer to the first request of
the new one. -/
theorem F_restarted_client_gets_old_response :
    ∃ es : List Ev, ∃ l : Link, l = ((Link.init true CommDemo.off).run CommDemo.cfg CommDemo.cfg true es).2 ∧
      ∃ l' : Link, l' = { l with client := Client.init true CommDemo.off } ∧
      (l'.run CommDemo.cfg CommDemo.cfg true
        [.send 0x0202 0 [3] .ok 0, .poll (.deliver 0) none [] 0]).1 =
        [.sent true .ok, .got ⟨.ok, 0xA501, 0x0101, 1, [7]⟩] :=
  ⟨[.send 0x0101 0 [1, 2] .ok 0, .serve 0 0 [] [7]], _, rfl, _, rfl, by decide +kernel⟩

/-! ### C25: a request and its response between hosts of any byte orders -/

/-- **C25.** Whatever the byte orders of the two hosts, the server finds the kind, sequence
number and data the client sent, and the client finds, in the packet the server builds with
the magic it received, the kind, sequence number and data the server answered with, whenever
the answer fits the buffer the client's caller provides (`cap`; none: the packet buffer). -/
theorem C25_exchange (cfg : Cfg) (hc : cfg.mtu < 65536) (le sle : Bool) (kind seq aux aux' : UInt16)
    (data junk answer junk' : List UInt8) (hd : data.length ≤ cfg.dataLen)
    (ha : answer.length ≤ cfg.dataLen) :
    ∃ magic packet,
      serverRecv cfg sle cfg.dataLen (Rx.of (header le magicNative kind seq aux ++ data) junk) =
        ⟨.ok, magic, kind, seq, data⟩ ∧
      serverPacket cfg sle magic kind seq aux' answer = some packet ∧
      ∀ c : Client, c.le = le → c.initialized = true → c.pending = true → c.seq = seq → ∀ now,
        ∀ cap : Option Nat, (∀ n, cap = some n → answer.length ≤ n) →
        (c.recvResponse cfg cap (Rx.of packet junk') now).1 = ⟨.ok, magicNative, kind, seq, answer⟩ := by
  have hr := server_reads le sle kind seq aux (data ++ junk)
  dsimp only at hr
  rw [← List.append_assoc] at hr
  obtain ⟨h1, h2, h3⟩ := hr
  have hfit : ∀ d : List UInt8, d.length ≤ cfg.dataLen → ∀ h m k s a,
      (UInt16.ofNat (header h m k s a ++ d).length).toNat = 8 + d.length := by
    intro d hd h m k s a
    rw [ofNat_toNat_len _ (by rw [List.length_append, header_length]; unfold Cfg.mtu at hc; omega),
      List.length_append, header_length]
  have hbad : ∀ d : List UInt8, d.length ≤ cfg.dataLen → ∀ h m k s a,
      badSize cfg (UInt16.ofNat (header h m k s a ++ d).length) = false := by
    intro d hd h m k s a
    unfold badSize
    rw [hfit d hd]
    simp [Cfg.mtu]; omega
  have hst : ∀ c0 : Client, (c0.stopTimer cfg).le = c0.le ∧ (c0.stopTimer cfg).seq = c0.seq := by
    intro c0; unfold Client.stopTimer; split <;> simp
  refine ⟨field sle (header le magicNative kind seq aux ++ data ++ junk) 0, _, ?_,
    by unfold serverPacket; rw [if_neg (by omega)], ?_⟩
  · unfold serverRecv Rx.of
    dsimp only
    rw [if_neg (by rw [hbad data hd]; simp), if_neg (by rw [hfit data hd]; omega), h2, h3,
      hfit data hd, Nat.add_sub_cancel_left, List.append_assoc, List.drop_left' (header_length ..),
      List.take_left]
  · intro c hle hi hp hs now cap hcap
    have hcl := client_reads le sle (field sle (header le magicNative kind seq aux ++ data ++ junk) 0)
      kind seq aux' (answer ++ junk') h1
    rw [← List.append_assoc] at hcl
    simp only [Client.recvResponse, hi, hp, Bool.not_true, Bool.false_eq_true, if_false,
      Rx.of, hbad answer ha, Client.accept, (hst c).1, (hst c).2, hle, hcl.1, hcl.2.1, hcl.2.2,
      hs, ne_eq, not_true_eq_false]
    rw [hfit answer ha, Nat.add_sub_cancel_left, List.append_assoc,
      List.drop_left' (header_length ..), List.take_left]
    cases cap with
    | none => rfl
    | some n =>
      dsimp only
      rw [if_neg (by have := hcap n rfl; omega)]

example : serverRecv CommDemo.cfg false 16
    (Rx.of (header true magicNative 0x0102 3 0 ++ [9, 8]) []) = ⟨.ok, 0x01A5, 0x0102, 3, [9, 8]⟩ := by
  decide +kernel

/-! ### C26 -/

/-- A client with the POSIX timer set to `us` microseconds and no application callback. -/
def timed (le : Bool) (us : UInt64) : Client := Client.init le (Timeout.init (some us) none)

/-- The timer of `timed` in a client after any history: running or not. -/
def HasTimer (us : UInt64) (c : Client) : Prop :=
  c.initialized = true ∧ ∃ r s, c.timer = ⟨true, some ⟨true, r, s, us⟩, none⟩

theorem hasTimer_stop {us : UInt64} {t : Timeout} (h : ∃ r s, t = ⟨true, some ⟨true, r, s, us⟩, none⟩) :
    t.stop = ⟨true, some ⟨true, false, 0, us⟩, none⟩ := by
  obtain ⟨r, s, rfl⟩ := h; rfl

theorem hasTimer_call {us : UInt64} (cfg : Cfg) {c : Client} (h : HasTimer us c) (e : Call) :
    HasTimer us (c.call cfg e) := by
  obtain ⟨hi, ht⟩ := h
  have hst : ∀ c0 : Client, HasTimer us c0 → HasTimer us (c0.stopTimer cfg) := by
    intro c0 h0
    unfold Client.stopTimer
    split
    · exact ⟨h0.1, false, 0, hasTimer_stop h0.2⟩
    · exact h0
  cases e with
  | send kind aux data tx now =>
    obtain ⟨r, s, ht⟩ := ht
    simp only [Client.call, Client.sendRequest]
    rw [if_neg (by simp [hi])]
    split
    · exact ⟨hi, r, s, ht⟩
    split
    · exact ⟨hi, r, s, ht⟩
    split
    · split
      · refine ⟨hi, ?_⟩
        simp only [ht, Timeout.start, PosixTimer.start]
        by_cases hn : now = 0
        · exact ⟨r, 0, by simp [hn]⟩
        · exact ⟨true, now, by simp [hn]⟩
      · exact ⟨hi, r, s, ht⟩
    · exact ⟨hi, r, s, ht⟩
  | poll cap rx now =>
    simp only [Client.call, Client.recvResponse]
    rw [if_neg (by simp [hi])]
    split
    · exact ⟨hi, ht⟩
    have hs := hst c ⟨hi, ht⟩
    split
    · split
      · exact ⟨hs.1, hs.2⟩
      · unfold Client.accept
        dsimp only
        split
        · exact hs
        · split
          · exact hs
          · split
            · exact ⟨hs.1, hs.2⟩
            · split <;> exact ⟨hs.1, hs.2⟩
    · exact ⟨hi, ht⟩
    · unfold Client.notReady
      have hex : (c.timer.expired now).2.2 = c.timer := by
        obtain ⟨r, s, ht⟩ := ht
        rw [ht]
        simp only [Timeout.expired]
        split <;> rfl
      split
      · split
        · rename_i t he
          rw [he] at hex; dsimp only at hex; subst hex
          exact ⟨hi, false, 0, hasTimer_stop ht⟩
        · rename_i t he
          rw [he] at hex; dsimp only at hex; subst hex
          exact ⟨hi, ht⟩
        · rename_i t _ _ he
          rw [he] at hex; dsimp only at hex; subst hex
          exact ⟨hi, ht⟩
      · exact ⟨hi, ht⟩
    · exact ⟨hi, ht⟩
  | abort =>
    simp only [Client.call, Client.abortPending]
    rw [if_neg (by simp [hi])]
    have hs := hst c ⟨hi, ht⟩
    exact ⟨hs.1, hs.2⟩

theorem hasTimer_calls (cfg : Cfg) (le : Bool) (us : UInt64) (hist : List Call) :
    HasTimer us (hist.foldl (Client.call cfg) (timed le us)) := by
  have : ∀ c, HasTimer us c → HasTimer us (hist.foldl (Client.call cfg) c) := by
    induction hist with
    | nil => intro c h; exact h
    | cons e es ih => intro c h; exact ih _ (hasTimer_call cfg h e)
  exact this _ ⟨rfl, false, 0, rfl⟩

/-- The state right after a successful send. -/
def Armed (us start : UInt64) (c : Client) : Prop :=
  c.initialized = true ∧ c.pending = true ∧ c.timer = ⟨true, some ⟨true, true, start, us⟩, none⟩

theorem armed_of_send {cfg : Cfg} (hcfg : cfg.timeout = true) {us : UInt64} {c : Client}
    (h : HasTimer us c) {kind aux : UInt16} {data : List UInt8} {tx : Rc} {now : UInt64}
    (hok : (c.sendRequest cfg magicNative kind aux data tx now).1.rc = .ok) :
    Armed us now (c.sendRequest cfg magicNative kind aux data tx now).2 := by
  obtain ⟨hi, r, s, ht⟩ := h
  unfold Client.sendRequest at hok ⊢
  rw [if_neg (by simp [hi])] at hok ⊢
  by_cases hp : c.pending = true
  · rw [if_pos hp] at hok; cases hok
  rw [if_neg hp] at hok ⊢
  by_cases hd : data.length > cfg.dataLen
  · rw [if_pos hd] at hok; cases hok
  rw [if_neg hd] at hok ⊢
  cases tx
  case ok =>
    simp only [hcfg, if_true, ht, Timeout.start, PosixTimer.start, Bool.not_true,
      Bool.false_eq_true, if_false] at hok ⊢
    by_cases hn : now = 0
    · rw [if_pos hn] at hok; cases hok
    · rw [if_neg hn] at hok ⊢
      exact ⟨hi, rfl, rfl⟩
  all_goals cases hok

/-- A quiet poll of an armed client. -/
theorem armed_poll {cfg : Cfg} (hcfg : cfg.timeout = true) {us start : UInt64} (hus : us ≠ 0)
    {c : Client} (h : Armed us start c) (q : Quiet) (hn : q.now ≠ 0) :
    if q.now - start ≥ us then
      (c.recvResponse cfg q.cap ⟨.notready, 0, q.buf⟩ q.now).1 = .err .timeout ∧
      (c.recvResponse cfg q.cap ⟨.notready, 0, q.buf⟩ q.now).2.pending = false ∧
      HasTimer us (c.recvResponse cfg q.cap ⟨.notready, 0, q.buf⟩ q.now).2
    else c.recvResponse cfg q.cap ⟨.notready, 0, q.buf⟩ q.now = (.err .notready, c) := by
  obtain ⟨hi, hp, ht⟩ := h
  have hex : c.timer.expired q.now = (.ok, decide (q.now - start ≥ us), c.timer) := by
    rw [ht]
    simp only [Timeout.expired, PosixTimer.expired, Bool.not_true, Bool.false_eq_true, if_false,
      Bool.false_or, beq_iff_eq, hus, hn]
    by_cases hd : q.now - start ≥ us
    · simp [hd]
    · simp [hd]
  have hr : c.recvResponse cfg q.cap ⟨.notready, 0, q.buf⟩ q.now =
      match (Rc.ok, decide (q.now - start ≥ us), c.timer) with
      | (.ok, true, t) => (Got.err .timeout, { c with pending := false, timer := t.stop })
      | (.ok, false, t) => (.err .notready, { c with timer := t })
      | (rc, _, t) => (.err rc, { c with timer := t }) := by
    unfold Client.recvResponse
    rw [if_neg (by simp [hi]), if_neg (by simp [hp])]
    dsimp only
    unfold Client.notReady
    rw [if_pos hcfg, hex]
    generalize decide (q.now - start ≥ us) = b
    cases b <;> rfl
  rw [hr]
  by_cases hd : q.now - start ≥ us
  · rw [if_pos hd]
    simp only [hd, decide_true]
    exact ⟨trivial, trivial, hi, false, 0, hasTimer_stop ⟨_, _, ht⟩⟩
  · rw [if_neg hd]
    simp only [hd, decide_false]

/-- **C26, for requests during which no packet arrives.**  A client whose response timeout is
`us` microseconds, after any history, sends a request at clock reading `start`.  Whenever
it then polls, with nothing arriving, the poll returns `TIMEOUT` if `us` microseconds have
passed and `NOTREADY` otherwise; after the timeout nothing is pending and the next request
is passed to the transport.

Missing for the full C26: packets that arrive meanwhile but are not the answer (stale ones,
or with a foreign magic) stop the timer, see `F_stale_packet_disables_timeout`. -/
theorem C26_timeout_partial (cfg : Cfg) (hcfg : cfg.timeout = true) (le : Bool) (us : UInt64)
    (hus : us ≠ 0) (hist : List Call) (kind aux : UInt16) (data : List UInt8) (tx : Rc)
    (start : UInt64) (c c1 c2 c3 : Client) (s : Sent) (qs : List Quiet) (gs : List Got) (q : Quiet)
    (g : Got) (hc : c = hist.foldl (Client.call cfg) (timed le us))
    (hsend : c.sendRequest cfg magicNative kind aux data tx start = (s, c1)) (hs : s.rc = .ok)
    (hclock : ∀ p ∈ q :: qs, p.now ≠ 0)
    (hearly : ∀ p ∈ qs, p.now - start < us)
    (hpolls : c1.pollQuiet cfg qs = (gs, c2))
    (hlast : c2.recvResponse cfg q.cap ⟨.notready, 0, q.buf⟩ q.now = (g, c3)) :
    (∀ g' ∈ gs, g'.rc = .notready) ∧
    (q.now - start < us → g.rc = .notready) ∧
    (us ≤ q.now - start → g.rc = .timeout ∧ c3.isRequestPending = .ok false ∧
      ∀ kind' aux' data' now', data'.length ≤ cfg.dataLen → now' ≠ 0 →
        (c3.sendRequest cfg magicNative kind' aux' data' .ok now').1.rc = .ok) := by
  have hT : HasTimer us c := hc ▸ hasTimer_calls cfg le us hist
  have hA : Armed us start c1 := by
    have := armed_of_send hcfg hT (kind := kind) (aux := aux) (data := data) (tx := tx) (now := start)
      (by rw [hsend]; exact hs)
    rwa [hsend] at this
  have hloop : ∀ (qs : List Quiet) (c1 : Client) (gs : List Got), Armed us start c1 →
      (∀ p ∈ qs, p.now ≠ 0) → (∀ p ∈ qs, p.now - start < us) → c1.pollQuiet cfg qs = (gs, c2) →
      c2 = c1 ∧ ∀ g' ∈ gs, g'.rc = .notready := by
    intro qs
    induction qs with
    | nil => intro c1 gs _ _ _ h; cases h; exact ⟨rfl, by simp⟩
    | cons p ps ih =>
      intro c1 gs hA hn he h
      have h1 := armed_poll hcfg hus hA p (hn p (List.mem_cons_self ..))
      rw [if_neg (by have := he p (List.mem_cons_self ..); simpa using this)] at h1
      unfold Client.pollQuiet at h
      rw [h1] at h
      simp only [Prod.mk.injEq] at h
      obtain ⟨hgs, hc2⟩ := h
      have := ih c1 _ hA (fun p hp => hn p (List.mem_cons_of_mem _ hp))
        (fun p hp => he p (List.mem_cons_of_mem _ hp)) (Prod.ext rfl hc2)
      refine ⟨this.1, ?_⟩
      subst hgs
      intro g' hg'
      rcases List.mem_cons.mp hg' with hg' | hg'
      · subst hg'; rfl
      · exact this.2 g' hg'
  obtain ⟨rfl, hgs⟩ := hloop qs c1 gs hA (fun p hp => hclock p (List.mem_cons_of_mem _ hp)) hearly hpolls
  have hl := armed_poll hcfg hus hA q (hclock q (List.mem_cons_self ..))
  rw [hlast] at hl
  refine ⟨hgs, ?_, ?_⟩
  · intro hlt
    rw [if_neg (by simpa using hlt)] at hl
    simp only [Prod.mk.injEq] at hl
    rw [hl.1]; rfl
  · intro hge
    rw [if_pos hge] at hl
    obtain ⟨h1, h2, h3, r, st, h4⟩ := hl
    dsimp only at h1 h2 h3 h4
    subst h1
    refine ⟨rfl, by simp [Client.isRequestPending, h3, h2], ?_⟩
    intro kind' aux' data' now' hd hn
    simp [Client.sendRequest, h3, h2, hcfg, h4, Timeout.start, PosixTimer.start, hn,
      Nat.not_lt.mpr hd]

/-- **C26.** No early timeout, whatever arrives: with nothing but the POSIX timer behind it, a
poll reports a timeout (unless the transport itself reports one) only if the period has
passed since the timer was started. -/
theorem C26_not_early (cfg : Cfg) (c : Client) (us start : UInt64) (r : Bool)
    (ht : c.timer = ⟨true, some ⟨true, r, start, us⟩, none⟩) (cap : Option Nat) (rx : Rx)
    (now : UInt64) (hrx : rx.rc ≠ .timeout)
    (h : (c.recvResponse cfg cap rx now).1.rc = .timeout) : us ≤ now - start := by
  unfold Client.recvResponse at h
  split at h
  · cases h
  split at h
  · cases h
  split at h
  · split at h
    · cases h
    · unfold Client.accept at h
      dsimp only at h
      split at h
      · cases h
      · split at h
        · cases h
        · split at h
          · cases h
          · split at h <;> cases h
  · cases h
  · unfold Client.notReady at h
    split at h
    · rw [ht] at h
      simp only [Timeout.expired, PosixTimer.expired, Bool.not_true, Bool.false_eq_true,
        if_false] at h
      by_cases h1 : (!r || us == 0) = true
      · rw [if_pos h1] at h; cases h
      · rw [if_neg h1] at h
        by_cases h2 : now = 0
        · rw [if_pos h2] at h; cases h
        · rw [if_neg h2] at h
          by_cases h3 : now - start ≥ us
          · exact h3
          · simp [h3, Got.err] at h
    · cases h
  · exact absurd h hrx

/-- **Finding (C26).** A stale packet (right magic, another sequence number) or one with a
foreign magic stops the response timer but leaves the request outstanding.  From then on,
however long the client polls, it is never told `TIMEOUT`, and it can send nothing until
it aborts the request itself. -/
theorem F_stale_packet_disables_timeout (cfg : Cfg) (hcfg : cfg.timeout = true) (us start : UInt64)
    (c : Client) (h : Armed us start c) (cap : Option Nat) (rx : Rx) (now : UInt64)
    (hrx : rx.rc = .ok) (hsize : 8 ≤ rx.size.toNat ∧ rx.size.toNat ≤ cfg.mtu)
    (hstale : field c.le rx.buf 0 ≠ magicNative ∨ translate16 magicNative (field c.le rx.buf 4) ≠ c.seq)
    (c1 : Client) (hc1 : c1 = (c.recvResponse cfg cap rx now).2) (qs : List Quiet) :
    (∀ g ∈ (c1.pollQuiet cfg qs).1, g.rc = .notready) ∧
    (c1.pollQuiet cfg qs).2.isRequestPending = .ok true ∧
    ∀ kind aux data tx now',
      ((c1.pollQuiet cfg qs).2.sendRequest cfg magicNative kind aux data tx now').1.rc =
        .requestPending := by
  obtain ⟨hi, hp, ht⟩ := h
  have hbad : badSize cfg rx.size = false := by
    unfold badSize; simp; omega
  have hc1' : c1 = c.stopTimer cfg := by
    rw [hc1]
    unfold Client.recvResponse
    rw [if_neg (by simp [hi]), if_neg (by simp [hp]), hrx]
    dsimp only
    rw [if_neg (by simp [hbad])]
    unfold Client.accept
    have hle : (c.stopTimer cfg).le = c.le ∧ (c.stopTimer cfg).seq = c.seq := by
      unfold Client.stopTimer; split <;> simp
    dsimp only
    rw [hle.1, hle.2]
    by_cases hm : field c.le rx.buf 0 = magicNative
    · rw [if_neg (by simpa using hm), hm, if_pos (hstale.resolve_left (by simpa using hm))]
    · rw [if_pos hm]
  have hst : c1.initialized = true ∧ c1.pending = true ∧
      c1.timer = ⟨true, some ⟨true, false, 0, us⟩, none⟩ := by
    rw [hc1']
    unfold Client.stopTimer
    rw [if_pos hcfg]
    exact ⟨hi, hp, by rw [ht]; rfl⟩
  have hloop : ∀ qs : List Quiet, (c1.pollQuiet cfg qs).2 = c1 ∧
      ∀ g ∈ (c1.pollQuiet cfg qs).1, g.rc = .notready := by
    intro qs
    induction qs with
    | nil => exact ⟨rfl, by simp [Client.pollQuiet]⟩
    | cons q qs ih =>
      have h1 : c1.recvResponse cfg q.cap ⟨.notready, 0, q.buf⟩ q.now = (.err .notready, c1) := by
        unfold Client.recvResponse
        rw [if_neg (by simp [hst.1]), if_neg (by simp [hst.2.1])]
        dsimp only
        unfold Client.notReady
        rw [if_pos hcfg, hst.2.2]
        simp only [Timeout.expired, PosixTimer.expired, Bool.not_true, Bool.not_false,
          Bool.false_eq_true, if_false, Bool.true_or, if_true]
        rw [← hst.2.2]
      unfold Client.pollQuiet
      rw [h1]
      refine ⟨ih.1, ?_⟩
      intro g hg
      rcases List.mem_cons.mp hg with hg | hg
      · subst hg; rfl
      · exact ih.2 g hg
  refine ⟨(hloop qs).2, ?_, ?_⟩
  · rw [(hloop qs).1]; simp [Client.isRequestPending, hst.1, hst.2.1]
  · intro kind aux data tx now'
    rw [(hloop qs).1]; simp [Client.sendRequest, hst.1, hst.2.1]

/-! The hypotheses are met: a timeout of 1000 µs; request at 5, polls at 500 and 1005. -/
namespace CommDemo

def tcfg : Cfg := ⟨16, true⟩
def c1 : Client := ((timed true 1000).sendRequest tcfg magicNative 0x0101 0 [1] .ok 5).2

example : ((timed true 1000).sendRequest tcfg magicNative 0x0101 0 [1] .ok 5).1.rc = .ok ∧
    (c1.pollQuiet tcfg [⟨none, [], 500⟩]).1.map (·.rc) = [.notready] ∧
    ((c1.pollQuiet tcfg [⟨none, [], 500⟩]).2.recvResponse tcfg none ⟨.notready, 0, []⟩ 1005).1.rc =
      .timeout := by decide +kernel

/-- A stale packet at 500 µs: nothing at 1005 µs, nor ever after. -/
example : Armed 1000 5 c1 ∧
    (c1.recvResponse tcfg none (Rx.of (header true magicNative 0x0101 0 0) []) 500).1.rc = .notready ∧
    field true (header true magicNative 0x0101 0 0) 4 ≠ c1.seq ∧
    ((c1.recvResponse tcfg none (Rx.of (header true magicNative 0x0101 0 0) []) 500).2.recvResponse
      tcfg none ⟨.notready, 0, []⟩ 4000000).1.rc = .notready :=
  ⟨⟨rfl, rfl, rfl⟩, by decide +kernel, by decide +kernel, by decide +kernel⟩

end CommDemo

end WolfHsm.Props

import Verif.Proofs.TransportMem

/-! Progress of the shared-memory transport. -/

namespace WolfHsm.Mem

theorem client_keeps_requested {k : Cfg} (h1 : 8 ≤ k.reqSize.toNat) (h2 : 8 ≤ k.respSize.toNat)
    {y : Sys} {m : List UInt8} {seen : Bool} (h : Sim k y (.requested m seen)) {e : Ev}
    (he : e.ofClient = true) :
    Sim k (step k y e).1 (.requested m seen) ∧ (step k y e).1.s = y.s ∧
    ∀ o ∈ (step k y e).2, o ≠ .serverBusy := by
  obtain ⟨ch', hf, hs⟩ := sim_step h1 h2 h e
  have hobs : ∀ o, (step k y e).2 = some o → o = .clientBusy ∨ o = .refused ∨ (∃ x, o = .sent x) ∨
      ∃ a b c, o = .got a b c := by
    intro o ho
    cases e with
    | cStep =>
      simp only [step] at ho
      unfold cStep at ho
      cases hc : y.c <;> rw [hc] at ho <;> dsimp only at ho
      · cases ho
      · cases ho
      · split at ho
        · cases ho; exact Or.inl rfl
        · cases ho
      · split at ho
        · split at ho <;> cases ho
        · cases ho; exact Or.inr (Or.inr (Or.inl ⟨_, rfl⟩))
      · cases ho
      · split at ho
        · cases ho; exact Or.inl rfl
        · cases ho
      · split at ho
        · split at ho <;> cases ho
        · cases ho; exact Or.inr (Or.inr (Or.inr ⟨_, _, _, rfl⟩))
    | cSend msg =>
      simp only [step] at ho
      split at ho
      · split at ho
        · cases ho; exact Or.inr (Or.inl rfl)
        · cases ho
      · cases ho
    | cRecv cap => simp only [step] at ho; split at ho <;> cases ho
    | _ => cases he
  have hsame : (step k y e).1.s = y.s := by
    cases e with
    | cStep => rfl
    | cSend msg => simp only [step]; (repeat' split) <;> rfl
    | cRecv cap => simp only [step]; split <;> rfl
    | _ => cases he
  refine ⟨?_, hsame, ?_⟩
  · have : ch' = .requested m seen := by
      unfold Follows at hf
      split at hf
      · exact hf
      · rename_i o ho
        rcases hobs o ho with rfl | rfl | ⟨x, rfl⟩ | ⟨a, b, c, rfl⟩
        · simpa [Chan.next] using hf.symm
        · simpa [Chan.next] using hf.symm
        · simp [Chan.next] at hf
        · simp [Chan.next] at hf
    subst this; exact hs
  · intro o ho
    rcases hobs o ho with rfl | rfl | ⟨x, rfl⟩ | ⟨a, b, c, rfl⟩ <;> simp

/-- Accesses the server still needs to finish its `RecvRequest`. -/
def sLeft (msg : List UInt8) : SPc → Option Nat
  | .recv1 _ => some (msg.length + 3)
  | .recv2 _ _ => some (msg.length + 2)
  | .recvCopy _ _ n acc => some (n - acc.length + 1)
  | _ => none

/-- A reception that started while a request was outstanding: it is never told that there is
nothing, and it ends with the request. -/
theorem recv_progress {k : Cfg} (h1 : 8 ≤ k.reqSize.toNat) (h2 : 8 ≤ k.respSize.toNat)
    (msg : List UInt8) (es : List Ev) (hes : ∀ e ∈ es, e.ofClient = true ∨ e = .sStep) :
    ∀ (y : Sys) (seen : Bool), Sim k y (.requested msg seen) →
    (∀ cap q, y.s = .recv2 cap q → q = y.shm.req) →
    (∀ n, sLeft msg y.s = some n → .serverBusy ∉ (run k y es).2 ∧
      (n ≤ sSteps es → ∃ cap len bytes, .received cap len bytes ∈ (run k y es).2)) ∧
    (y.s = .idle → .serverBusy ∉ (run k y es).2) := by
  induction es with
  | nil =>
    intro y seen _ _
    refine ⟨fun n hn => ⟨by simp [run], fun hle => ?_⟩, fun _ => by simp [run]⟩
    exfalso
    simp only [sSteps, List.countP_nil, Nat.le_zero] at hle
    subst hle
    cases hy : y.s <;> rw [hy] at hn <;> simp [sLeft] at hn
  | cons e es ih =>
    intro y seen hsim hq
    have hes' : ∀ e ∈ es, e.ofClient = true ∨ e = .sStep := fun e he => hes e (List.mem_cons_of_mem _ he)
    rcases hes e (List.mem_cons_self ..) with he | rfl
    · obtain ⟨hs', hsame, hnb⟩ := client_keeps_requested h1 h2 hsim he
      have hreq : ∀ cap q, (step k y e).1.s = .recv2 cap q → q = (step k y e).1.shm.req := by
        intro cap q hx
        have hsi := hs'.srv
        rw [hx] at hsi
        rcases hsi with h | h
        · exact h
        · exfalso
          rw [hsame] at hx
          have := hq cap q hx
          subst this
          have hneq := hsim.mem.1
          have hresp : (step k y e).1.shm.resp = y.shm.resp := by
            cases e with
            | cStep =>
              simp only [step]
              unfold cStep
              cases y.c <;> dsimp only
              · split <;> rfl
              · split
                · split <;> rfl
                · rfl
              · split <;> rfl
              · split
                · split <;> rfl
                · rfl
            | cSend m => simp only [step]; (repeat' split) <;> rfl
            | cRecv c => simp only [step]; split <;> rfl
            | _ => cases he
          rw [hresp] at h
          exact hneq h
      obtain ⟨ih1, ih2⟩ := ih hes' (step k y e).1 seen hs' hreq
      have hnc : Obs.serverBusy ∉ (step k y e).2.toList := by
        intro hx
        cases ho : (step k y e).2 with
        | none => rw [ho] at hx; cases hx
        | some o =>
          rw [ho] at hx
          simp only [Option.toList, List.mem_singleton] at hx
          exact hnb o ho hx.symm
      have hcnt : sSteps (e :: es) = sSteps es := by
        unfold sSteps
        rw [List.countP_cons_of_neg]
        cases e <;> simp_all [Ev.ofClient]
      refine ⟨fun n hn => ?_, fun hi => ?_⟩
      · have := ih1 n (by rw [hsame]; exact hn)
        simp only [run, List.mem_append, not_or]
        refine ⟨⟨hnc, this.1⟩, fun hle => ?_⟩
        obtain ⟨cap, len, bytes, hm⟩ := this.2 (by rw [← hcnt]; exact hle)
        exact ⟨cap, len, bytes, Or.inr hm⟩
      · have := ih2 (by rw [hsame]; exact hi)
        simp only [run, List.mem_append, not_or]
        exact ⟨hnc, this⟩
    · -- a step of the server
      have hcnt : sSteps (.sStep :: es) = sSteps es + 1 := by
        unfold sSteps; rw [List.countP_cons_of_pos]; simp
      obtain ⟨ch', hf, hs'⟩ := sim_step h1 h2 hsim .sStep
      obtain ⟨m, c, s, todo⟩ := y
      cases s with
      | idle =>
        refine ⟨fun n hn => by simp [sLeft] at hn, fun _ => ?_⟩
        have := ih hes' ⟨m, c, .idle, todo⟩ seen hsim (by intro _ _ h; cases h)
        simp only [run, step, sStep, Option.toList, List.nil_append]
        exact this.2 rfl
      | recv1 cap =>
        refine ⟨fun n hn => ?_, fun h => by cases h⟩
        simp only [Follows, step, sStep] at hf hs'
        subst hf
        have := ih hes' ⟨m, c, .recv2 cap m.req, todo⟩ seen hs'
          (by intro _ _ h; cases h; rfl)
        have := this.1 _ rfl
        simp only [sLeft, Option.some.injEq] at hn
        simp only [run, step, sStep, Option.toList, List.nil_append]
        exact ⟨this.1, fun hle => this.2 (by omega)⟩
      | recv2 cap q =>
        refine ⟨fun n hn => ?_, fun h => by cases h⟩
        have hqq : q = m.req := hq cap q rfl
        have hne : q.notify ≠ m.resp.notify := by rw [hqq]; exact hsim.mem.1
        simp only [Follows, step, sStep, if_neg hne] at hf hs'
        subst hf
        have := ih hes' _ seen hs' (by intro _ _ h; cases h)
        have := this.1 _ rfl
        simp only [sLeft, Option.some.injEq] at hn
        simp only [run, step, sStep, if_neg hne, Option.toList, List.nil_append]
        refine ⟨this.1, fun hle => this.2 ?_⟩
        have hlen : q.len.toNat = msg.length := by rw [hqq]; exact hsim.mem.2.1
        have : copyLen q.len cap k.reqSize ≤ msg.length := by unfold copyLen; omega
        simp only [List.length_nil]
        omega
      | recvCopy cap len n acc =>
        refine ⟨fun n' hn => ?_, fun h => by cases h⟩
        simp only [sLeft, Option.some.injEq] at hn
        have hsrv := hsim.srv
        obtain ⟨hlen, hn0, hacc, htake⟩ := hsrv
        by_cases hlt : acc.length < n
        · have hin : acc.length < m.reqData.length := by
            have := hsim.reqLen
            dsimp only at this
            rw [this]; rw [hn0] at hlt; unfold copyLen at hlt; omega
          obtain ⟨b, hb⟩ : ∃ b, m.reqData[acc.length]? = some b := ⟨_, List.getElem?_eq_getElem hin⟩
          simp only [Follows, step, sStep, if_pos hlt, hb] at hf hs'
          subst hf
          have := ih hes' _ seen hs' (by intro _ _ h; cases h)
          have := this.1 _ rfl
          simp only [run, step, sStep, if_pos hlt, hb, Option.toList, List.nil_append]
          refine ⟨this.1, fun hle => this.2 ?_⟩
          simp only [List.length_append, List.length_cons, List.length_nil]
          omega
        · simp only [Follows, step, sStep, if_neg hlt] at hf hs'
          have hch : ch' = .requested msg true := by
            simp only [Chan.next] at hf
            split at hf
            · exact (Option.some.inj hf).symm
            · cases hf
          subst hch
          have := ih hes' _ true hs' (by intro _ _ h; cases h)
          have := this.2 rfl
          simp only [run, step, sStep, if_neg hlt, Option.toList, List.mem_append, not_or,
            List.mem_singleton]
          exact ⟨⟨by simp, this⟩, fun _ => ⟨cap, len, acc, Or.inl rfl⟩⟩
      | send1 r => exact ⟨fun n hn => by simp [sLeft] at hn, fun h => by cases h⟩
      | send2 r qn => exact ⟨fun n hn => by simp [sLeft] at hn, fun h => by cases h⟩
      | sendCopy r qn i => exact ⟨fun n hn => by simp [sLeft] at hn, fun h => by cases h⟩

/-- An event of the server keeps an answered channel as it is, and the client where it is. -/
theorem server_keeps_answered {k : Cfg} (h1 : 8 ≤ k.reqSize.toNat) (h2 : 8 ≤ k.respSize.toNat)
    {y : Sys} {r : List UInt8} (h : Sim k y (.answered r)) {e : Ev} (he : e.ofClient = false) :
    Sim k (step k y e).1 (.answered r) ∧ (step k y e).1.c = y.c ∧
    (step k y e).1.shm.req = y.shm.req ∧ (step k y e).1.shm.resp = y.shm.resp ∧
    ∀ o ∈ (step k y e).2, o ≠ .clientBusy := by
  obtain ⟨ch', hf, hs⟩ := sim_step h1 h2 h e
  obtain ⟨m, c, s, todo⟩ := y
  have hsrv := h.srv
  have htodo : todo = false := h.mem.2.2.2
  cases e with
  | cStep => cases he
  | cSend _ => cases he
  | cRecv _ => cases he
  | sRecv cap =>
    simp only [step] at hf hs ⊢
    split at hf
    · rename_i hi
      rw [if_pos hi] at hs ⊢
      simp only [Follows] at hf; subst hf
      exact ⟨hs, rfl, rfl, rfl, by simp⟩
    · rename_i hi
      rw [if_neg hi] at hs ⊢
      exact ⟨h, rfl, rfl, rfl, by simp⟩
  | sSend msg =>
    have hi : ¬ (s = .idle ∧ todo = true ∧ msg.length < 65536) := by rw [htodo]; simp
    simp only [step]
    rw [if_neg hi]
    exact ⟨h, rfl, rfl, rfl, by simp⟩
  | sStep =>
    cases s with
    | idle => exact ⟨h, rfl, rfl, rfl, by simp [step, sStep]⟩
    | recv1 cap =>
      simp only [step, sStep, Follows] at hf hs ⊢
      subst hf
      exact ⟨hs, trivial, trivial, trivial, by simp⟩
    | recv2 cap q =>
      have hq : q.notify = m.resp.notify := hsrv
      simp only [step, sStep, if_pos hq, Follows] at hf hs ⊢
      simp only [Chan.next, Option.some.injEq] at hf
      subst hf
      exact ⟨hs, trivial, trivial, trivial, by simp⟩
    | recvCopy cap len n acc => exact hsrv.elim
    | send1 r => exact hsrv.elim
    | send2 r qn => exact hsrv.elim
    | sendCopy r qn i => exact hsrv.elim

/-- Accesses the client still needs to finish its `RecvResponse`. -/
def cLeft (r : List UInt8) : CPc → Option Nat
  | .recv1 _ => some (r.length + 3)
  | .recv2 _ _ => some (r.length + 2)
  | .recvCopy _ _ n acc => some (n - acc.length + 1)
  | _ => none

theorem response_progress {k : Cfg} (h1 : 8 ≤ k.reqSize.toNat) (h2 : 8 ≤ k.respSize.toNat)
    (r : List UInt8) (es : List Ev) (hes : ∀ e ∈ es, e.ofClient = false ∨ e = .cStep) :
    ∀ (y : Sys), Sim k y (.answered r) →
    (∀ n, cLeft r y.c = some n → .clientBusy ∉ (run k y es).2 ∧
      (n ≤ cSteps es → ∃ cap len bytes, .got cap len bytes ∈ (run k y es).2)) ∧
    (y.c = .idle → .clientBusy ∉ (run k y es).2) := by
  induction es with
  | nil =>
    intro y _
    refine ⟨fun n hn => ⟨by simp [run], fun hle => ?_⟩, fun _ => by simp [run]⟩
    exfalso
    simp only [cSteps, List.countP_nil, Nat.le_zero] at hle
    subst hle
    cases hy : y.c <;> rw [hy] at hn <;> simp [cLeft] at hn
  | cons e es ih =>
    intro y hsim
    have hes' : ∀ e ∈ es, e.ofClient = false ∨ e = .cStep := fun e he => hes e (List.mem_cons_of_mem _ he)
    rcases hes e (List.mem_cons_self ..) with he | rfl
    · obtain ⟨hs', hsame, _, _, hnb⟩ := server_keeps_answered h1 h2 hsim he
      obtain ⟨ih1, ih2⟩ := ih hes' (step k y e).1 hs'
      have hnc : Obs.clientBusy ∉ (step k y e).2.toList := by
        intro hx
        cases ho : (step k y e).2 with
        | none => rw [ho] at hx; cases hx
        | some o =>
          rw [ho] at hx
          simp only [Option.toList, List.mem_singleton] at hx
          exact hnb o ho hx.symm
      have hcnt : cSteps (e :: es) = cSteps es := by
        unfold cSteps
        rw [List.countP_cons_of_neg]
        cases e <;> simp_all [Ev.ofClient]
      refine ⟨fun n hn => ?_, fun hi => ?_⟩
      · have := ih1 n (by rw [hsame]; exact hn)
        simp only [run, List.mem_append, not_or]
        refine ⟨⟨hnc, this.1⟩, fun hle => ?_⟩
        obtain ⟨cap, len, bytes, hm⟩ := this.2 (by rw [← hcnt]; exact hle)
        exact ⟨cap, len, bytes, Or.inr hm⟩
      · have := ih2 (by rw [hsame]; exact hi)
        simp only [run, List.mem_append, not_or]
        exact ⟨hnc, this⟩
    · have hcnt : cSteps (.cStep :: es) = cSteps es + 1 := by
        unfold cSteps; rw [List.countP_cons_of_pos]; simp
      obtain ⟨ch', hf, hs'⟩ := sim_step h1 h2 hsim .cStep
      obtain ⟨m, c, s, todo⟩ := y
      cases c with
      | idle =>
        refine ⟨fun n hn => by simp [cLeft] at hn, fun _ => ?_⟩
        have := ih hes' ⟨m, .idle, s, todo⟩ hsim
        simp only [run, step, cStep, Option.toList, List.nil_append]
        exact this.2 rfl
      | recv1 cap =>
        refine ⟨fun n hn => ?_, fun h => by cases h⟩
        simp only [Follows, step, cStep] at hf hs'
        subst hf
        have := (ih hes' _ hs').1 _ rfl
        simp only [cLeft, Option.some.injEq] at hn
        simp only [run, step, cStep, Option.toList, List.nil_append]
        exact ⟨this.1, fun hle => this.2 (by omega)⟩
      | recv2 cap qn =>
        refine ⟨fun n hn => ?_, fun h => by cases h⟩
        have hqn : qn = m.req.notify := hsim.cli
        have hne : ¬ m.resp.notify ≠ qn := by
          rw [hqn]; intro h; exact h hsim.mem.1.symm
        simp only [Follows, step, cStep, if_neg hne] at hf hs'
        subst hf
        have := (ih hes' _ hs').1 _ rfl
        simp only [cLeft, Option.some.injEq] at hn
        simp only [run, step, cStep, if_neg hne, Option.toList, List.nil_append]
        refine ⟨this.1, fun hle => this.2 ?_⟩
        have hlen : m.resp.len.toNat = r.length := hsim.mem.2.1
        have : copyLen m.resp.len cap k.respSize ≤ r.length := by unfold copyLen; omega
        simp only [List.length_nil]
        omega
      | recvCopy cap len n acc =>
        refine ⟨fun n' hn => ?_, fun h => by cases h⟩
        simp only [cLeft, Option.some.injEq] at hn
        obtain ⟨hlen, hn0, hacc, htake⟩ := hsim.cli
        by_cases hlt : acc.length < n
        · have hin : acc.length < m.respData.length := by
            have := hsim.respLen
            dsimp only at this
            rw [this]; rw [hn0] at hlt; unfold copyLen at hlt; omega
          obtain ⟨b, hb⟩ : ∃ b, m.respData[acc.length]? = some b := ⟨_, List.getElem?_eq_getElem hin⟩
          simp only [Follows, step, cStep, if_pos hlt, hb] at hf hs'
          subst hf
          have := (ih hes' _ hs').1 _ rfl
          simp only [run, step, cStep, if_pos hlt, hb, Option.toList, List.nil_append]
          refine ⟨this.1, fun hle => this.2 ?_⟩
          simp only [List.length_append, List.length_cons, List.length_nil]
          omega
        · simp only [Follows, step, cStep, if_neg hlt] at hf hs'
          have hch : ch' = .answered r := by
            simp only [Chan.next] at hf
            split at hf
            · exact (Option.some.inj hf).symm
            · cases hf
          subst hch
          have := (ih hes' _ hs').2 rfl
          simp only [run, step, cStep, if_neg hlt, Option.toList, List.mem_append, not_or,
            List.mem_singleton]
          exact ⟨⟨by simp, this⟩, fun _ => ⟨cap, len, acc, Or.inl rfl⟩⟩
      | send1 r => exact ⟨fun n hn => by simp [cLeft] at hn, fun h => by cases h⟩
      | send2 r qn => exact ⟨fun n hn => by simp [cLeft] at hn, fun h => by cases h⟩
      | sendCopy r qn i => exact ⟨fun n hn => by simp [cLeft] at hn, fun h => by cases h⟩

/-- Accesses the client still needs to publish its request. -/
def pubLeft (msg : List UInt8) : CPc → Option Nat
  | .send1 m => if m = msg then some (msg.length + 3) else none
  | .send2 m _ => if m = msg then some (msg.length + 2) else none
  | .sendCopy m _ i => if m = msg then some (msg.length - i + 1) else none
  | _ => none

theorem send_progress {k : Cfg} (h1 : 8 ≤ k.reqSize.toNat) (h2 : 8 ≤ k.respSize.toNat)
    (msg : List UInt8) (es : List Ev) (hes : ∀ e ∈ es, e.ofClient = false ∨ e = .cStep) :
    ∀ (y : Sys) (r : List UInt8), Sim k y (.answered r) →
    (∀ m rn, y.c = .send2 m rn → rn = y.shm.resp.notify) →
    ∀ n, pubLeft msg y.c = some n → n ≤ cSteps es → .sent msg ∈ (run k y es).2 := by
  induction es with
  | nil =>
    intro y r _ _ n hn hle
    exfalso
    simp only [cSteps, List.countP_nil, Nat.le_zero] at hle
    subst hle
    cases hy : y.c <;> rw [hy] at hn <;> simp [pubLeft] at hn
  | cons e es ih =>
    intro y r hsim hrn n hn hle
    have hes' : ∀ e ∈ es, e.ofClient = false ∨ e = .cStep := fun e he => hes e (List.mem_cons_of_mem _ he)
    rcases hes e (List.mem_cons_self ..) with he | rfl
    · obtain ⟨hs', hsame, _, hresp, _⟩ := server_keeps_answered h1 h2 hsim he
      have hcnt : cSteps (e :: es) = cSteps es := by
        unfold cSteps
        rw [List.countP_cons_of_neg]
        cases e <;> simp_all [Ev.ofClient]
      have := ih hes' _ r hs' (by rw [hsame, hresp]; exact hrn) n (by rw [hsame]; exact hn)
        (by rw [← hcnt]; exact hle)
      simp only [run, List.mem_append]
      exact Or.inr this
    · have hcnt : cSteps (.cStep :: es) = cSteps es + 1 := by
        unfold cSteps; rw [List.countP_cons_of_pos]; simp
      rw [hcnt] at hle
      obtain ⟨ch', hf, hs'⟩ := sim_step h1 h2 hsim .cStep
      obtain ⟨m, c, s, todo⟩ := y
      cases c with
      | idle => simp [pubLeft] at hn
      | recv1 cap => simp [pubLeft] at hn
      | recv2 cap qn => simp [pubLeft] at hn
      | recvCopy cap len n acc => simp [pubLeft] at hn
      | send1 q =>
        have hq : q = msg := by
          simp only [pubLeft] at hn; by_cases h : q = msg
          · exact h
          · rw [if_neg h] at hn; cases hn
        subst hq
        simp only [pubLeft, if_true, Option.some.injEq] at hn
        simp only [Follows, step, cStep] at hf hs'
        subst hf
        have := ih hes' _ r hs' (by intro _ _ h; cases h; rfl) (q.length + 2) (by simp [pubLeft]) (by omega)
        simp only [run, step, cStep, Option.toList, List.nil_append]
        exact this
      | send2 q rn =>
        have hq : q = msg := by
          simp only [pubLeft] at hn; by_cases h : q = msg
          · exact h
          · rw [if_neg h] at hn; cases hn
        subst hq
        simp only [pubLeft, if_true, Option.some.injEq] at hn
        have he : ¬ m.req.notify ≠ rn := by
          have := hrn q rn rfl
          rw [this]; intro h; exact h hsim.mem.1
        simp only [Follows, step, cStep, if_neg he] at hf hs'
        subst hf
        have := ih hes' _ r hs' (by intro _ _ h; cases h) (q.length + 1) (by simp [pubLeft]) (by omega)
        simp only [run, step, cStep, if_neg he, Option.toList, List.nil_append]
        exact this
      | sendCopy q w i =>
        have hq : q = msg := by
          simp only [pubLeft] at hn; by_cases h : q = msg
          · exact h
          · rw [if_neg h] at hn; cases hn
        subst hq
        simp only [pubLeft, if_true, Option.some.injEq] at hn
        obtain ⟨hl, hw, hi, htake⟩ := hsim.cli
        cases hb : q[i]? with
        | none =>
          simp only [run, step, cStep, hb, Option.toList, List.mem_append, List.mem_singleton]
          exact Or.inl trivial
        | some b =>
          have hil : i < q.length := by
            rw [List.getElem?_eq_some_iff] at hb; exact hb.1
          have hin : i < m.reqData.length := by
            have := hsim.reqLen; dsimp only at this; rw [this]; omega
          simp only [Follows, step, cStep, hb, poke, if_pos hin] at hf hs'
          subst hf
          have := ih hes' _ r hs' (by intro _ _ h; cases h) (q.length - (i + 1) + 1) (by simp [pubLeft])
            (by omega)
          simp only [run, step, cStep, hb, poke, if_pos hin, Option.toList, List.nil_append]
          exact this

end WolfHsm.Mem

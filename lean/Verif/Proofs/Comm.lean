import Verif.Spec.Comm
import Verif.Props.Utils

/-! # Lemmas about the comm layer -/

namespace WolfHsm.Comm

open Utils

theorem bytes16_length (le : Bool) (v : UInt16) : (bytes16 le v).length = 2 := by
  cases le <;> rfl

theorem header_length (le : Bool) (m k s a : UInt16) : (header le m k s a).length = 8 := by
  simp [header, bytes16_length]

theorem bytes16_cons (le : Bool) (v : UInt16) : ∃ a b, bytes16 le v = [a, b] := by
  cases le
  · exact ⟨_, _, rfl⟩
  · exact ⟨_, _, rfl⟩

theorem field0 (le h : Bool) (m k s a : UInt16) (rest : List UInt8) :
    field h (header le m k s a ++ rest) 0 = (read16 h (bytes16 le m)).getD 0 := by
  obtain ⟨a0, a1, e⟩ := bytes16_cons le m
  simp [field, header, e]

theorem field2 (le h : Bool) (m k s a : UInt16) (rest : List UInt8) :
    field h (header le m k s a ++ rest) 2 =
      (read16 h (bytes16 le (translate16 m k))).getD 0 := by
  obtain ⟨a0, a1, e⟩ := bytes16_cons le m
  obtain ⟨b0, b1, e'⟩ := bytes16_cons le (translate16 m k)
  simp [field, header, e, e']

theorem field4 (le h : Bool) (m k s a : UInt16) (rest : List UInt8) :
    field h (header le m k s a ++ rest) 4 =
      (read16 h (bytes16 le (translate16 m s))).getD 0 := by
  obtain ⟨a0, a1, e⟩ := bytes16_cons le m
  obtain ⟨b0, b1, e'⟩ := bytes16_cons le (translate16 m k)
  obtain ⟨c0, c1, e''⟩ := bytes16_cons le (translate16 m s)
  simp [field, header, e, e', e'']

/-- Reading a field on the host that wrote it. -/
theorem read_same (le : Bool) (v : UInt16) : (read16 le (bytes16 le v)).getD 0 = v := by
  rw [read16_bytes16]; rfl

theorem not_swapTest_swap : swapTest magicSwap = false := by decide

theorem translate16_native (v : UInt16) : translate16 magicNative v = v := by
  simp [translate16, swapTest_native]

theorem translate16_swap (v : UInt16) : translate16 magicSwap v = swap16 v := by
  simp [translate16, not_swapTest_swap]

theorem translate16_invol (m v : UInt16) : translate16 m (translate16 m v) = v :=
  (C25_translate_involution m v 0 0).1

/-- Reading on the other kind of host. -/
theorem read_other (le : Bool) (v : UInt16) : (read16 (!le) (bytes16 le v)).getD 0 = swap16 v := by
  rw [bytes16_not, read16_bytes16]; rfl

theorem eq_or_not (a b : Bool) : b = a ∨ b = !a := by cases a <;> cases b <;> simp

theorem swap_native : swap16 magicNative = magicSwap := by decide

/-- What the server finds in a client's header. -/
theorem server_reads (le sle : Bool) (k s a : UInt16) (rest : List UInt8) :
    let m := field sle (header le magicNative k s a ++ rest) 0
    (m = if sle = le then magicNative else magicSwap) ∧
    translate16 m (field sle (header le magicNative k s a ++ rest) 2) = k ∧
    translate16 m (field sle (header le magicNative k s a ++ rest) 4) = s := by
  intro m
  rcases eq_or_not le sle with h | h
  · subst h
    have hm : m = magicNative := by simp only [m, field0, read_same]
    rw [hm, field2, field4, read_same, read_same]
    simp [translate16_native]
  · subst h
    have hm : m = magicSwap := by simp only [m, field0, read_other, swap_native]
    have hne : (!le) ≠ le := by cases le <;> simp
    rw [hm, field2, field4, read_other, read_other]
    simp [translate16_native, translate16_swap, swap16_swap16, hne]

/-- What the client finds in the header of the answer. -/
theorem client_reads (le sle : Bool) (m k s a : UInt16) (rest : List UInt8)
    (hm : m = if sle = le then magicNative else magicSwap) :
    field le (header sle m k s a ++ rest) 0 = magicNative ∧
    translate16 magicNative (field le (header sle m k s a ++ rest) 2) = k ∧
    translate16 magicNative (field le (header sle m k s a ++ rest) 4) = s := by
  rw [field0, field2, field4]
  rcases eq_or_not le sle with h | h
  · subst h
    simp only [if_true] at hm
    subst hm
    rw [read_same, read_same, read_same]
    simp [translate16_native]
  · have hne : sle ≠ le := by subst h; cases le <;> simp
    rw [if_neg hne] at hm
    subst hm
    have hle : le = !sle := by subst h; cases le <;> rfl
    subst hle
    rw [read_other, read_other, read_other]
    refine ⟨by decide, ?_, ?_⟩ <;> simp [translate16_native, translate16_swap, swap16_swap16]

/-! ## One call -/

theorem sendRequest_cases {P : Sent × Client → Prop} (cfg : Cfg) (c : Client)
    (magic kind aux : UInt16) (data : List UInt8) (tx : Rc) (now : UInt64)
    (hrefused : ∀ rc, rc ≠ .ok → P (⟨rc, none⟩, c))
    (hsent : c.initialized = true → c.pending = false → data.length ≤ cfg.dataLen → tx = .ok →
      ∀ rc t, P (⟨rc, some (header c.le magic kind (c.seq + 1) aux ++ data)⟩,
        { c with seq := c.seq + 1, pending := true, timer := t })) :
    P (c.sendRequest cfg magic kind aux data tx now) := by
  unfold Client.sendRequest
  cases hi : c.initialized
  · exact hrefused _ (by simp)
  cases hp : c.pending
  · dsimp only [Bool.not_true, Bool.false_eq_true, if_false]
    rw [if_neg (by simp), if_neg (by simp)]
    by_cases hd : data.length > cfg.dataLen
    · rw [if_pos hd]; exact hrefused _ (by simp)
    · rw [if_neg hd]
      cases tx
      case ok =>
        have := hsent hi hp (by omega) rfl
        dsimp only
        split
        · simpa only [hi, hp] using this _ _
        · simpa only [hi, hp] using this .ok c.timer
      all_goals exact hrefused _ (by simp)
  · rw [if_neg (by simp), if_pos rfl]; exact hrefused _ (by simp)

/-- Every result of a poll: nothing accepted and the outstanding request unchanged or
given up, or a packet with the right magic and sequence number was accepted. -/
theorem recvResponse_cases {P : Got × Client → Prop} (cfg : Cfg) (c : Client) (cap : Option Nat)
    (rx : Rx) (now : UInt64)
    (hno : ∀ g c', g.rc ≠ .ok → c'.le = c.le → c'.initialized = c.initialized → c'.seq = c.seq →
      (c'.pending = true → c.pending = true) → P (g, c'))
    (hyes : ∀ c', c.initialized = true → c.pending = true → rx.rc = .ok →
      8 ≤ rx.size.toNat → rx.size.toNat ≤ cfg.mtu → field c.le rx.buf 0 = magicNative →
      translate16 magicNative (field c.le rx.buf 4) = c.seq →
      c'.le = c.le → c'.initialized = true → c'.seq = c.seq → c'.pending = false →
      P (⟨.ok, magicNative, translate16 magicNative (field c.le rx.buf 2), c.seq,
        (rx.buf.drop 8).take (rx.size.toNat - 8)⟩, c')) :
    P (c.recvResponse cfg cap rx now) := by
  unfold Client.recvResponse
  cases hi : c.initialized
  · exact hno _ _ (by simp [Got.err]) rfl rfl rfl id
  cases hp : c.pending
  · rw [if_neg (by simp), if_pos (by simp)]
    exact hno _ _ (by simp [Got.err]) rfl rfl rfl id
  rw [if_neg (by simp), if_neg (by simp)]
  have hst : ∀ c0 : Client, (c0.stopTimer cfg).le = c0.le ∧
      (c0.stopTimer cfg).initialized = c0.initialized ∧ (c0.stopTimer cfg).seq = c0.seq ∧
      (c0.stopTimer cfg).pending = c0.pending := by
    intro c0; unfold Client.stopTimer; split <;> simp
  obtain ⟨h1, h2, h3, h4⟩ := hst c
  cases hrc : rx.rc
  case ok =>
    dsimp only
    by_cases hb : badSize cfg rx.size = true
    · rw [if_pos hb]
      exact hno _ _ (by simp [Got.err]) h1 h2 h3 (by simp)
    · rw [if_neg hb]
      simp only [badSize, Bool.or_eq_true, decide_eq_true_eq, not_or, Nat.not_lt] at hb
      have hle : rx.size.toNat ≤ cfg.mtu := by omega
      unfold Client.accept
      dsimp only
      rw [h1, h3]
      have h2' : (c.stopTimer cfg).initialized = true := h2.trans hi
      by_cases hm : field c.le rx.buf 0 = magicNative
      · rw [if_neg (by simpa using hm), hm]
        by_cases hs : translate16 magicNative (field c.le rx.buf 4) = c.seq
        · rw [if_neg (by simpa using hs), hs]
          cases cap with
          | none =>
            exact hyes _ hi hp hrc hb.1 hle hm hs rfl h2' rfl rfl
          | some n =>
            dsimp only
            split
            · exact hno _ _ (by simp) rfl (h2'.trans hi.symm) rfl (by simp)
            · exact hyes _ hi hp hrc hb.1 hle hm hs rfl h2' rfl rfl
        · rw [if_pos (by simpa using hs)]
          exact hno _ _ (by simp [Got.err]) h1 h2 h3 (by rw [h4]; exact id)
      · rw [if_pos (by simpa using hm)]
        exact hno _ _ (by simp) h1 h2 h3 (by rw [h4]; exact id)
  case aborted => exact hno _ _ (by simp [Got.err]) rfl hi.symm rfl (by simp)
  case notready =>
    dsimp only
    unfold Client.notReady
    split
    · split
      · exact hno _ _ (by simp [Got.err]) rfl rfl rfl (by simp)
      · exact hno _ _ (by simp [Got.err]) rfl rfl rfl (by simp [hp])
      · rename_i rc b t hne1 hne2 he
        have hx : rc ≠ .ok := by
          intro hx; subst hx
          cases b
          · exact hne2 rfl rfl
          · exact hne1 rfl rfl
        exact hno _ _ (by simpa [Got.err] using hx) rfl rfl rfl (by simp [hp])
    · exact hno _ _ (by simp [Got.err]) rfl rfl rfl (by simp [hp])
  all_goals exact hno _ _ (by simp [Got.err]) rfl rfl rfl (by simp [hp])

/-- A poll that delivers a response leaves nothing pending. -/
theorem closes_not_pending (cfg : Cfg) (c : Client) (cap : Option Nat) (rx : Rx) (now : UInt64) :
    (c.recvResponse cfg cap rx now).2.pending = true →
    (Obs.got (c.recvResponse cfg cap rx now).1).closes = true → False := by
  refine recvResponse_cases (P := fun r => r.2.pending = true → (Obs.got r.1).closes = true → False)
    cfg c cap rx now ?_ ?_
  · intro g c' hne _ _ _ _ _ h
    simp only [Obs.closes, beq_iff_eq] at h
    exact hne h
  · intro c' _ _ _ _ _ _ _ _ _ _ hp h
    rw [hp] at h; cases h

theorem abort_not_pending (cfg : Cfg) (c : Client) (h : c.initialized = true) :
    (c.abortPending cfg).2.pending = false := by
  simp [Client.abortPending, h]

theorem abortPending_frame (cfg : Cfg) (c : Client) :
    (c.abortPending cfg).2.le = c.le ∧ (c.abortPending cfg).2.initialized = c.initialized ∧
    (c.abortPending cfg).2.seq = c.seq ∧
    ((c.abortPending cfg).2.pending = true → c.pending = true) := by
  unfold Client.abortPending
  split
  · exact ⟨rfl, rfl, rfl, id⟩
  · unfold Client.stopTimer
    split <;> simp

/-! ## Invariant of the link -/

/-- Every request packet has its number as sequence number, and every answer is the
server's packet for the request it names. -/
structure Inv (cfg scfg : Cfg) (le sle : Bool) (l : Link) : Prop where
  le_eq : l.client.le = le
  init_eq : l.client.initialized = true
  seq_eq : l.client.seq = UInt16.ofNat l.requests.length
  pend : l.client.pending = true → l.requests ≠ []
  reqs : ∀ (i : Nat) q, l.requests[i]? = some q → q.data.length ≤ cfg.dataLen ∧
    ∃ aux, q.packet = header le magicNative q.kind (UInt16.ofNat (i + 1)) aux ++ q.data
  anss : ∀ a ∈ l.answers, ∃ q aux, l.requests[a.request]? = some q ∧
    a.sawKind = q.kind ∧ a.sawData = q.data ∧ a.data.length ≤ scfg.dataLen ∧
    a.packet = header sle (if sle = le then magicNative else magicSwap) q.kind
      (UInt16.ofNat (a.request + 1)) aux ++ a.data

theorem ofNat_toNat_len (l : List UInt8) (h : l.length < 65536) :
    (UInt16.ofNat l.length).toNat = l.length := by
  rw [UInt16.toNat_ofNat']; exact Nat.mod_eq_of_lt h

theorem inv_init (cfg scfg : Cfg) (le sle : Bool) (t : Timeout) :
    Inv cfg scfg le sle (Link.init le t) :=
  ⟨rfl, rfl, rfl, by simp [Link.init, Client.init], by simp [Link.init], by simp [Link.init]⟩

theorem getElem?_snoc {α} {l : List α} {x : α} {i : Nat} {q : α} (h : (l ++ [x])[i]? = some q) :
    l[i]? = some q ∨ (i = l.length ∧ q = x) := by
  rcases Nat.lt_trichotomy i l.length with hi | hi | hi
  · rw [List.getElem?_append_left hi] at h; exact Or.inl h
  · subst hi; simp at h; exact Or.inr ⟨rfl, h.symm⟩
  · rw [List.getElem?_eq_none (by simp; omega)] at h; cases h

theorem getElem?_snoc_of {α} {l : List α} {x : α} {i : Nat} {q : α} (h : l[i]? = some q) :
    (l ++ [x])[i]? = some q := by
  rw [List.getElem?_append_left (List.getElem?_eq_some_iff.mp h).1]; exact h

/-- The server answers a request packet with the kind and number it carries. -/
theorem serve_some {scfg : Cfg} {le sle : Bool} {k s aux' aux : UInt16} {d junk ans p : List UInt8} {g : Got}
    (h : serve scfg sle (header le magicNative k s aux' ++ d) junk aux ans = some (g, p))
    (hd : d.length + 8 < 65536) :
    g.kind = k ∧ g.payload = d ∧ ans.length ≤ scfg.dataLen ∧
    p = header sle (if sle = le then magicNative else magicSwap) k s aux ++ ans := by
  unfold serve serverRecv Rx.of at h
  dsimp only at h
  have hr := server_reads le sle k s aux' (d ++ junk)
  dsimp only at hr
  rw [← List.append_assoc] at hr
  obtain ⟨h1, h2, h3⟩ := hr
  split at h
  · rename_i hok
    split at hok
    · simp [Got.err] at hok
    · rename_i hb
      split at hok
      · simp at hok
      · rename_i hsz
        rw [if_neg hb, if_neg hsz] at h
        dsimp only at h
        rw [h2, h3, h1] at h
        unfold serverPacket at h
        by_cases hl : ans.length > scfg.dataLen
        · rw [if_pos hl] at h; cases h
        · rw [if_neg hl] at h
          simp only [Option.map_some, Option.some.injEq, Prod.mk.injEq] at h
          obtain ⟨hg, hp⟩ := h
          subst hg
          refine ⟨rfl, ?_, by omega, hp.symm⟩
          dsimp only
          have hlen : (header le magicNative k s aux' ++ d).length = 8 + d.length := by
            rw [List.length_append, header_length]
          rw [ofNat_toNat_len _ (by omega), hlen, List.append_assoc,
            List.drop_left' (header_length ..), Nat.add_sub_cancel_left, List.take_left]
  · cases h

theorem inv_step {cfg scfg : Cfg} {le sle : Bool} {l : Link} (hc : cfg.mtu < 65536)
    (h : Inv cfg scfg le sle l) (e : Ev) : Inv cfg scfg le sle (l.step cfg scfg sle e).2 := by
  have hupd : ∀ c' : Client, c'.le = l.client.le → c'.initialized = l.client.initialized →
      c'.seq = l.client.seq →
      (c'.pending = true → l.client.pending = true) →
      Inv cfg scfg le sle { l with client := c' } := fun c' a a' b c =>
    ⟨a.trans h.le_eq, a'.trans h.init_eq, b.trans h.seq_eq, fun hp => h.pend (c hp), h.reqs, h.anss⟩
  cases e with
  | send kind aux data tx now =>
    simp only [Link.step]
    refine sendRequest_cases (P := fun r => Inv cfg scfg le sle
      (match r.1.packet with
        | some p => (Obs.sent true r.1.rc,
            ({ l with client := r.2, requests := l.requests ++ [Request.mk kind data p] } : Link))
        | none => (Obs.sent false r.1.rc, { l with client := r.2 })).2) cfg l.client _ _ _ _ _ _ ?_ ?_
    · intro rc _; exact hupd _ rfl rfl rfl id
    · intro hi hp hd htx rc t
      refine ⟨h.le_eq, hi, ?_, ?_, ?_, ?_⟩
      · simp only [List.length_append, List.length_cons, List.length_nil]
        rw [h.seq_eq]
        apply UInt16.toNat_inj.mp
        simp [UInt16.toNat_add, UInt16.toNat_ofNat']
      · intro _; simp
      · intro i q hq
        rcases getElem?_snoc hq with hq | ⟨hi', hq⟩
        · exact h.reqs i q hq
        · subst hq; subst hi'
          refine ⟨hd, aux, ?_⟩
          dsimp only
          rw [h.le_eq, h.seq_eq]
          have : UInt16.ofNat l.requests.length + 1 = UInt16.ofNat (l.requests.length + 1) := by
            apply UInt16.toNat_inj.mp
            simp [UInt16.toNat_add, UInt16.toNat_ofNat']
          rw [this]
      · intro a ha
        obtain ⟨q, aux', hq, rest⟩ := h.anss a ha
        exact ⟨q, aux', getElem?_snoc_of hq, rest⟩
  | serve i aux junk answer =>
    simp only [Link.step]
    cases hq : l.requests[i]? with
    | none => exact h
    | some q =>
      dsimp only
      cases hs : serve scfg sle q.packet junk aux answer with
      | none => exact h
      | some gp =>
        obtain ⟨g, p⟩ := gp
        refine ⟨h.le_eq, h.init_eq, h.seq_eq, h.pend, h.reqs, ?_⟩
        intro a ha
        rcases List.mem_append.mp ha with ha | ha
        · exact h.anss a ha
        · rw [List.mem_singleton] at ha
          subst ha
          obtain ⟨hd, aux', hpk⟩ := h.reqs i q hq
          rw [hpk] at hs
          have := serve_some hs (by unfold Cfg.mtu at hc; omega)
          exact ⟨q, aux, hq, this.1, this.2.1, this.2.2.1, this.2.2.2⟩
  | poll p cap junk now =>
    cases p with
    | deliver i =>
      simp only [Link.step]
      cases ha : l.answers[i]? with
      | none => exact h
      | some a =>
        dsimp only
        refine recvResponse_cases (P := fun r => Inv cfg scfg le sle { l with client := r.2 })
          cfg l.client cap _ now ?_ ?_
        · intro g c' _ a1 a2 a3 a4; exact hupd _ a1 a2 a3 a4
        · intro c' hi hp _ _ _ _ _ a1 a2 a3 _; exact hupd _ a1 (a2.trans hi.symm) a3 (fun _ => hp)
    | fail rc =>
      simp only [Link.step]
      refine recvResponse_cases (P := fun r => Inv cfg scfg le sle { l with client := r.2 })
        cfg l.client cap _ now ?_ ?_
      · intro g c' _ a1 a2 a3 a4; exact hupd _ a1 a2 a3 a4
      · intro c' hi hp _ _ _ _ _ a1 a2 a3 _; exact hupd _ a1 (a2.trans hi.symm) a3 (fun _ => hp)
  | abort =>
    obtain ⟨a1, a2, a3, a4⟩ := abortPending_frame cfg l.client
    exact hupd _ a1 a2 a3 a4

theorem run_append (cfg scfg : Cfg) (sle : Bool) (es fs : List Ev) : ∀ l : Link,
    l.run cfg scfg sle (es ++ fs) =
      ((l.run cfg scfg sle es).1 ++ ((l.run cfg scfg sle es).2.run cfg scfg sle fs).1,
       ((l.run cfg scfg sle es).2.run cfg scfg sle fs).2) := by
  induction es with
  | nil => intro l; rfl
  | cons e es ih => intro l; simp only [List.cons_append, Link.run, ih]

theorem inv_run {cfg scfg : Cfg} {le sle : Bool} (hc : cfg.mtu < 65536) (es : List Ev) :
    ∀ {l : Link}, Inv cfg scfg le sle l → Inv cfg scfg le sle (l.run cfg scfg sle es).2 := by
  induction es with
  | nil => intro l h; exact h
  | cons e es ih => intro l h; exact ih (inv_step hc h e)

end WolfHsm.Comm

import Verif.Proofs.StackLive

/-! # The stack: completion under fair schedules -/

namespace WolfHsm.Mem

/-- Accesses (and one call) the server still needs to take a request of `n` bytes. -/
def takeRank (n : Nat) (y : Sys) : Nat :=
  match y.s with
  | .idle => n + 4
  | .recv1 _ => n + 3
  | .recv2 _ q => if q.notify = y.shm.resp.notify then n + 5 else n + 2
  | .recvCopy _ _ l acc => l - acc.length + 1
  | _ => 0

/-- Accesses the server still needs to publish a response. -/
def putRank : SPc → Nat
  | .send1 m => m.length + 3
  | .send2 m _ => m.length + 2
  | .sendCopy m _ i => m.length - i + 1
  | _ => 0

/-- Accesses (and one call) the client still needs to take a response of `n` bytes. -/
def getRank (n : Nat) : CPc → Nat
  | .idle => n + 4
  | .recv1 _ => n + 3
  | .recv2 _ _ => n + 2
  | .recvCopy _ _ l acc => l - acc.length + 1
  | _ => 0

variable {k : Cfg} (h1 : 8 ≤ k.reqSize.toNat) (h2 : 8 ≤ k.respSize.toNat)

theorem client_frame (y : Sys) {e : Ev} (he : e.ofClient = true) :
    (step k y e).1.s = y.s ∧ (step k y e).1.shm.resp = y.shm.resp ∧ (step k y e).1.todo = y.todo := by
  cases e with
  | cStep =>
    have : (cStep k y.shm y.c).1.resp = y.shm.resp := by
      unfold cStep
      cases y.c <;> dsimp only <;> (repeat' split) <;> rfl
    exact ⟨rfl, this, rfl⟩
  | cSend m => simp only [step]; (repeat' split) <;> exact ⟨rfl, rfl, rfl⟩
  | cRecv c => simp only [step]; split <;> exact ⟨rfl, rfl, rfl⟩
  | _ => cases he

theorem sSend_c (y : Sys) (msg : List UInt8) : (step k y (.sSend msg)).1.c = y.c := by
  simp only [step]
  split
  · split <;> rfl
  · rfl

theorem sStep_none (y : Sys) (h : Stack.sMsg y.s = none) : Stack.sMsg (step k y .sStep).1.s = none := by
  change Stack.sMsg (sStep k y.shm y.todo y.s).2.1 = none
  revert h
  unfold sStep
  cases y.s <;> dsimp only <;> intro h
  · rfl
  · rfl
  · split <;> rfl
  · split
    · split <;> rfl
    · rfl
  · cases h
  · cases h
  · cases h

include h1 h2

theorem take_step {y : Sys} {msg : List UInt8} {seen : Bool} (hsim : Sim k y (.requested msg seen)) (hm : Stack.sMsg y.s = none)
    (hi : y.s ≠ .idle) :
    (∃ cap len bytes, Stack.sCap y.s = some cap ∧ (step k y .sStep).2 = some (.received cap len bytes) ∧
      (step k y .sStep).1.s = .idle ∧ (step k y .sStep).1.todo = true ∧ Shows msg cap len bytes ∧
      Sim k (step k y .sStep).1 (.requested msg true)) ∨
    (((step k y .sStep).2 = none ∨ (step k y .sStep).2 = some .serverBusy) ∧
      takeRank msg.length (step k y .sStep).1 < takeRank msg.length y) := by
  obtain ⟨ch', hf, hs'⟩ := sim_step h1 h2 hsim .sStep
  obtain ⟨m, c, s, todo⟩ := y
  cases s with
  | idle => exact absurd rfl hi
  | send1 => cases hm
  | send2 => cases hm
  | sendCopy => cases hm
  | recv1 cap =>
    refine .inr ⟨.inl rfl, ?_⟩
    have : ¬ m.req.notify = m.resp.notify := hsim.mem.1
    change (if m.req.notify = m.resp.notify then msg.length + 5 else msg.length + 2) < msg.length + 3
    rw [if_neg this]
    omega
  | recv2 cap q =>
    by_cases hq : q.notify = m.resp.notify
    · refine .inr ?_
      simp only [step, sStep, if_pos hq, takeRank]
      exact ⟨.inr trivial, by omega⟩
    · have hqq : q = m.req := hsim.srv.resolve_right hq
      have hlen : q.len.toNat = msg.length := by rw [hqq]; exact hsim.mem.2.1
      have hcl : copyLen q.len cap k.reqSize ≤ msg.length := by unfold copyLen; omega
      refine .inr ?_
      simp only [step, sStep, if_neg hq, takeRank, List.length_nil]
      exact ⟨.inl trivial, by omega⟩
  | recvCopy cap len n acc =>
    obtain ⟨hlen, hn0, hacc, htake⟩ := hsim.srv
    by_cases hlt : acc.length < n
    · have hin : acc.length < m.reqData.length := by
        have := hsim.reqLen
        dsimp only at this
        rw [this]; rw [hn0] at hlt; unfold copyLen at hlt; omega
      obtain ⟨b, hb⟩ : ∃ b, m.reqData[acc.length]? = some b := ⟨_, List.getElem?_eq_getElem hin⟩
      refine .inr ?_
      simp only [step, sStep, if_pos hlt, hb, takeRank, List.length_append, List.length_cons, List.length_nil]
      exact ⟨.inl trivial, by omega⟩
    · simp only [Follows, step, sStep, if_neg hlt] at hf hs'
      have hsh : Shows msg cap len acc ∧ ch' = .requested msg true := by
        simp only [Chan.next] at hf
        split at hf
        · exact ⟨by assumption, (Option.some.inj hf).symm⟩
        · cases hf
      obtain ⟨hsh, rfl⟩ := hsh
      refine .inl ⟨cap, len, acc, rfl, ?_⟩
      simp only [step, sStep, if_neg hlt]
      exact ⟨trivial, trivial, trivial, hsh, hs'⟩

theorem put_step {y : Sys} {q msg : List UInt8} {seen : Bool} (hsim : Sim k y (.requested q seen)) (hm : Stack.sMsg y.s = some msg) :
    ((step k y .sStep).2 = some (.answered msg) ∧ (step k y .sStep).1.s = .idle) ∨
    ((step k y .sStep).2 = none ∧ Stack.sMsg (step k y .sStep).1.s = some msg ∧
      putRank (step k y .sStep).1.s < putRank y.s) := by
  obtain ⟨m, c, s, todo⟩ := y
  cases s with
  | idle => cases hm
  | recv1 => cases hm
  | recv2 => cases hm
  | recvCopy => cases hm
  | send1 p =>
    cases hm
    exact .inr ⟨rfl, rfl, by simp only [step, sStep, putRank]; omega⟩
  | send2 p w =>
    cases hm
    exact .inr ⟨rfl, rfl, by simp only [step, sStep, putRank]; omega⟩
  | sendCopy p w i =>
    cases hm
    obtain ⟨-, hl, hw, hi, htake⟩ := hsim.srv
    cases hb : msg[i]? with
    | none =>
      refine .inl ?_
      simp only [step, sStep, hb]
      exact ⟨trivial, trivial⟩
    | some b =>
      have hil : i < msg.length := by
        rw [List.getElem?_eq_some_iff] at hb; exact hb.1
      have hin : i < m.respData.length := by
        have := hsim.respLen; dsimp only at this; rw [this]; omega
      refine .inr ?_
      simp only [step, sStep, hb, poke, if_pos hin, putRank]
      exact ⟨trivial, rfl, by omega⟩

theorem get_step {y : Sys} {r : List UInt8} (hsim : Sim k y (.answered r)) (hm : Stack.cMsg y.c = none) (hi : y.c ≠ .idle) :
    (∃ cap len bytes, Stack.cCap y.c = some cap ∧ (step k y .cStep).2 = some (.got cap len bytes) ∧ Shows r cap len bytes) ∨
    ((step k y .cStep).2 = none ∧ getRank r.length (step k y .cStep).1.c < getRank r.length y.c) := by
  obtain ⟨ch', hf, hs'⟩ := sim_step h1 h2 hsim .cStep
  obtain ⟨m, c, s, todo⟩ := y
  cases c with
  | idle => exact absurd rfl hi
  | send1 => cases hm
  | send2 => cases hm
  | sendCopy => cases hm
  | recv1 cap =>
    refine .inr ⟨rfl, ?_⟩
    simp only [step, cStep, getRank]
    omega
  | recv2 cap qn =>
    have hqn : qn = m.req.notify := hsim.cli
    have hne : ¬ m.resp.notify ≠ qn := by
      rw [hqn]; intro h; exact h hsim.mem.1.symm
    have hlen : m.resp.len.toNat = r.length := hsim.mem.2.1
    have hcl : copyLen m.resp.len cap k.respSize ≤ r.length := by unfold copyLen; omega
    refine .inr ?_
    simp only [step, cStep, if_neg hne, getRank, List.length_nil]
    exact ⟨trivial, by omega⟩
  | recvCopy cap len n acc =>
    obtain ⟨hlen, hn0, hacc, htake⟩ := hsim.cli
    by_cases hlt : acc.length < n
    · have hin : acc.length < m.respData.length := by
        have := hsim.respLen
        dsimp only at this
        rw [this]; rw [hn0] at hlt; unfold copyLen at hlt; omega
      obtain ⟨b, hb⟩ : ∃ b, m.respData[acc.length]? = some b := ⟨_, List.getElem?_eq_getElem hin⟩
      refine .inr ?_
      simp only [step, cStep, if_pos hlt, hb, getRank, List.length_append, List.length_cons, List.length_nil]
      exact ⟨trivial, by omega⟩
    · simp only [Follows, step, cStep, if_neg hlt] at hf hs'
      have hsh : Shows r cap len acc := by
        simp only [Chan.next] at hf
        split at hf
        · assumption
        · cases hf
      refine .inl ⟨cap, len, acc, rfl, ?_, hsh⟩
      simp only [step, cStep, if_neg hlt]

end WolfHsm.Mem

namespace WolfHsm.Stack

open Utils (magicNative magicSwap)
open Comm (header)

variable {R : Type} {c : Cfg R} {le : Bool}

/-- What happens again and again brings a rank down: `need n` tells what lowers the rank at `n`, and stays as it is until it
happens. -/
theorem descend {P G : Nat → Prop} {rank need : Nat → Nat} {gives : Nat → Nat → Prop} (hfair : ∀ b n, ∃ m, n ≤ m ∧ gives m b)
    (hstep : ∀ n, P n → G n ∨ (P (n + 1) ∧ (rank (n + 1) < rank n ∨
      (rank (n + 1) = rank n ∧ need (n + 1) = need n ∧ ¬ gives n (need n))))) :
    ∀ n, P n → ∃ m, n ≤ m ∧ G m := by
  have main : ∀ r d n m, rank n ≤ r → n + d = m → gives m (need n) → P n → ∃ m, n ≤ m ∧ G m := by
    intro r
    induction r using Nat.strongRecOn with
    | _ r ihr =>
      intro d
      induction d with
      | zero =>
        intro n m hr hm hg hp
        have : m = n := by omega
        subst this
        rcases hstep m hp with h | ⟨hp', hlt | ⟨-, -, hn⟩⟩
        · exact ⟨m, Nat.le_refl _, h⟩
        · obtain ⟨m', hm', hg'⟩ := hfair (need (m + 1)) (m + 1)
          obtain ⟨x, hx, hgx⟩ := ihr (rank (m + 1)) (by omega) (m' - (m + 1)) (m + 1) m' (Nat.le_refl _) (by omega) hg' hp'
          exact ⟨x, by omega, hgx⟩
        · exact absurd hg hn
      | succ d ihd =>
        intro n m hr hm hg hp
        rcases hstep n hp with h | ⟨hp', hlt | ⟨he, hn, -⟩⟩
        · exact ⟨n, Nat.le_refl _, h⟩
        · obtain ⟨m', hm', hg'⟩ := hfair (need (n + 1)) (n + 1)
          obtain ⟨x, hx, hgx⟩ := ihr (rank (n + 1)) (by omega) (m' - (n + 1)) (n + 1) m' (Nat.le_refl _) (by omega) hg' hp'
          exact ⟨x, by omega, hgx⟩
        · obtain ⟨x, hx, hgx⟩ := ihd (n + 1) m (by omega) (by omega) (by rw [hn]; exact hg) hp'
          exact ⟨x, by omega, hgx⟩
  intro n hp
  obtain ⟨m, hm, hg⟩ := hfair (need n) n
  exact main (rank n) (m - n) n m (Nat.le_refl _) (by omega) hg hp

/-- The client has a request out, and whatever polls it makes give room for any response. -/
structure Waits (w : World R) : Prop where
  pend : w.client.pending = true
  polls : ∀ cap junk now, w.busy = .polling cap junk now → cap = none

/-- Nothing of interest. -/
def Dull : Obs R → Prop
  | .refused _ => True
  | .got g => g.rc ≠ .ok
  | .changed _ => True
  | _ => False

theorem dull_turn {os : List (Obs R)} (hd : ∀ o ∈ os, Dull o) : ∀ {t t' : Turn} {d d' : Server.Dev R},
    Accepts c le (t, d) os (t', d') → t' = t := by
  induction os with
  | nil => intro t t' d d' h; cases h; rfl
  | cons o os ih =>
    rintro t t' d d' ⟨⟨t1, d1⟩, hn, h⟩
    have e := ih (fun o ho => hd o (List.mem_cons_of_mem _ ho)) h
    subst e
    have := hd o (List.mem_cons_self ..)
    cases hn with
    | ask => exact this.elim
    | run => exact this.elim
    | again => exact this.elim
    | reply g hg => exact absurd hg this
    | nothing => rfl
    | refused => rfl
    | giveUp => exact this.elim
    | change => rfl

/-- An event of the server. -/
def Ev.ofServer : Ev R → Bool
  | .serve => true
  | .sStep _ _ => true
  | _ => false

theorem client_mem (w : World R) {e : Ev R} (he : e.ofServer = false) :
    (step c w e).1.mem.s = w.mem.s ∧ (step c w e).1.mem.shm.resp = w.mem.shm.resp ∧ (step c w e).1.mem.todo = w.mem.todo := by
  cases e with
  | send kind aux data now =>
    simp only [step]
    cases w.busy with
    | free =>
      dsimp only
      split
      · exact ⟨rfl, rfl, rfl⟩
      · rename_i p _
        have := Mem.client_frame (k := c.mem) w.mem (e := .cSend p) rfl
        split
        · exact ⟨rfl, rfl, rfl⟩
        · exact this
    | sending => exact ⟨rfl, rfl, rfl⟩
    | polling => exact ⟨rfl, rfl, rfl⟩
  | poll cap junk now =>
    simp only [step]
    cases w.busy with
    | free =>
      dsimp only
      split
      · exact Mem.client_frame (k := c.mem) w.mem (e := .cRecv (mtu16 c.cli)) rfl
      · exact ⟨rfl, rfl, rfl⟩
    | sending => exact ⟨rfl, rfl, rfl⟩
    | polling => exact ⟨rfl, rfl, rfl⟩
  | abort =>
    simp only [step]
    cases w.busy <;> exact ⟨rfl, rfl, rfl⟩
  | cStep =>
    simp only [step]
    have := Mem.client_frame (k := c.mem) w.mem (e := .cStep) rfl
    split
    · rw [returned_mem]; exact this
    · exact this
  | serve => cases he
  | sStep => cases he
  | other d => exact ⟨rfl, rfl, rfl⟩

theorem server_frame (w : World R) {e : Ev R} (he : e.ofServer = true) :
    (step c w e).1.client = w.client ∧ (step c w e).1.busy = w.busy ∧ (step c w e).1.mem.c = w.mem.c := by
  cases e with
  | serve =>
    simp only [step]
    split
    · refine ⟨rfl, rfl, ?_⟩
      simp only [Mem.step]
      split <;> rfl
    · exact ⟨rfl, rfl, rfl⟩
  | sStep junk aux =>
    simp only [step]
    split
    · unfold handled
      dsimp only
      generalize Comm.serverRecv _ _ _ _ = g
      split
      · refine ⟨rfl, rfl, ?_⟩
        dsimp only
        cases Comm.serverPacket c.srv.comm c.srv.le g.magic g.kind g.seq aux _ with
        | none => rfl
        | some p => exact Mem.sSend_c _ p
      · exact ⟨rfl, rfl, rfl⟩
    · exact ⟨rfl, rfl, rfl⟩
  | _ => cases he

/-- An event of a waiting client: it gets its response, or nothing of interest happens and it goes on waiting. -/
theorem client_waits (h1 : 8 ≤ c.mem.reqSize.toNat) (h3 : 16 ≤ c.mem.respSize.toNat) (hm : c.cli.mtu < 65536)
    {w : World R} {t : Turn} {ch : Mem.Chan} (h : Inv c le w t ch) (hw : Waits w)
    (hfit : ∀ kind resp wt, t = .done kind resp wt → resp.length ≤ c.cli.dataLen) {e : Ev R} (he : e.ofServer = false)
    (hp : e.Patient) (hto : ∀ g, .got g ∈ (step c w e).2 → g.rc ≠ .timeout) :
    (∃ g kind resp, (step c w e).2 = [.got g] ∧ t = .done kind resp true ∧ g.rc = .ok ∧ g.kind = kind ∧ g.payload = resp) ∨
    ((∀ o ∈ (step c w e).2, Dull o) ∧ Waits (step c w e).1) := by
  have h2 : 8 ≤ c.mem.respSize.toNat := by omega
  have hnr : ∀ cap buf now, (w.client.recvResponse c.cli cap ⟨.notready, 0, buf⟩ now).1.rc ≠ .timeout →
      (w.client.recvResponse c.cli cap ⟨.notready, 0, buf⟩ now).1.rc ≠ .ok ∧
      (w.client.recvResponse c.cli cap ⟨.notready, 0, buf⟩ now).2.pending = true := by
    intro cap buf now hx
    refine ⟨poll_none _, ?_⟩
    revert hx
    unfold Comm.Client.recvResponse Comm.Client.notReady
    rw [h.ini, hw.pend]
    simp only [Bool.not_true, Bool.false_eq_true, if_false]
    split
    · split
      · intro hx; exact absurd rfl hx
      · intro _; rfl
      · intro _; rfl
    · intro _; exact hw.pend
  have hd := h.doing
  cases e with
  | serve => cases he
  | sStep => cases he
  | abort => exact hp.elim
  | other d => exact .inr ⟨by simp [step, Dull], hw.pend, hw.polls⟩
  | send kind aux data now =>
    refine .inr ?_
    simp only [step]
    cases hb : w.busy with
    | free =>
      dsimp only
      have hpk : (w.client.sendRequest c.cli magicNative kind aux data .ok now).1.packet = none := by
        unfold Comm.Client.sendRequest
        rw [h.ini, hw.pend]
        rfl
      rw [hpk]
      exact ⟨by simp [Dull], hw⟩
    | sending => exact ⟨by simp, hw⟩
    | polling => exact ⟨by simp, hw⟩
  | poll cap junk now =>
    refine .inr ?_
    simp only [step]
    cases hb : w.busy with
    | free =>
      dsimp only
      rw [h.ini, hw.pend]
      refine ⟨by simp, hw.pend, ?_⟩
      intro cap' junk' now' hx
      cases hx
      exact hp
    | sending => exact ⟨by simp, hw⟩
    | polling => exact ⟨by simp, hw⟩
  | cStep =>
    revert hto
    simp only [step]
    have hst : Mem.step c.mem w.mem .cStep =
        ({ w.mem with shm := (Mem.cStep c.mem w.mem.shm w.mem.c).1, c := (Mem.cStep c.mem w.mem.shm w.mem.c).2.1 },
          (Mem.cStep c.mem w.mem.shm w.mem.c).2.2) := rfl
    obtain ⟨ch', hf, hs⟩ := Mem.sim_step h1 h2 h.sim .cStep
    have hub' : ¬ (Mem.cStep c.mem w.mem.shm w.mem.c).1.ub = true := by
      have := hs.ub
      rw [hst] at this; dsimp only at this; rw [this]; simp
    rw [hst] at hf ⊢
    dsimp only at hf ⊢
    cases hb : w.busy with
    | free =>
      rw [hb] at hd
      have hc : w.mem.c = .idle := hd
      rw [hc]
      dsimp only [Mem.cStep]
      intro _
      exact .inr ⟨by simp, hw.pend, by intro _ _ _ hx; cases hx⟩
    | sending =>
      rw [hb] at hd
      have := hd.1
      rw [hw.pend] at this; cases this
    | polling cap junk now =>
      rw [hb] at hd
      obtain ⟨d1, d2⟩ := hd
      have hcap := hw.polls cap junk now hb
      subst hcap
      rcases cStep_cap (k := c.mem) (m := w.mem.shm) d2 with ⟨e1, e2⟩ | ⟨e1, ⟨len, bytes, e2⟩ | e2⟩ | e
      · rw [e1]
        intro _
        refine .inr ⟨by simp, hw.pend, ?_⟩
        intro cap' junk' now' hx
        dsimp only at hx
        cases hx
        rfl
      · rw [e2] at hf ⊢
        dsimp only
        unfold returned
        dsimp only
        intro _
        cases ch with
        | requested q seen => cases hf
        | answered r =>
          have hshow : Mem.Shows r (mtu16 c.cli) len bytes := by
            change (if Mem.Shows r (mtu16 c.cli) len bytes then some (Mem.Chan.answered r) else none) = some ch' at hf
            split at hf <;> rename_i hx
            · exact hx
            · cases hf
          have hwt := h.wait d1
          have hlk := h.link
          cases t with
          | none => cases hwt
          | asked => exact hlk.elim
          | done k rsp wt =>
            obtain ⟨aux, rfl⟩ := hlk
            have hwt' : wt = true := hwt
            subst hwt'
            have hgo := got_ok (junk := junk) (now := now) h.le h.ini d1 hm (hfit k rsp true rfl) hshow
            rcases got_resp (junk := junk) (cap := none) (now := now) h.le hm hshow with hn | ⟨g1, g2, g3, g4⟩
            · exact absurd hgo.1 hn
            · exact .inl ⟨_, k, rsp, rfl, rfl, hgo.1, g1, g2⟩
      · rw [e2]
        dsimp only
        unfold returned
        dsimp only
        intro hto
        obtain ⟨n1, n2⟩ := hnr none junk now (hto _ (List.mem_singleton.mpr rfl))
        refine .inr ⟨?_, n2, by intro _ _ _ hx; cases hx⟩
        intro o ho
        rw [List.mem_singleton.mp ho]
        exact n1
      · exact absurd e hub'

/-! ## The request is asked -/

theorem asked_waits {w : World R} {t : Turn} {ch : Mem.Chan}
    (h : Inv c le w t ch) {e : Ev R} {kind : UInt16} {data : List UInt8} (ha : .asked kind data ∈ (step c w e).2) :
    (step c w e).2 = [.asked kind data] ∧ Waits (step c w e).1 := by
  revert ha
  cases e with
  | send kind aux data now =>
    simp only [step]
    cases w.busy with
    | free => dsimp only; split <;> [skip; split] <;> simp
    | sending => simp
    | polling => simp
  | poll cap junk now =>
    simp only [step]
    cases w.busy with
    | free => dsimp only; split <;> simp
    | sending => simp
    | polling => simp
  | abort =>
    simp only [step]
    cases w.busy <;> simp
  | serve =>
    simp only [step]
    split <;> simp
  | other d => simp [step]
  | sStep junk aux =>
    simp only [step]
    split
    · unfold handled
      dsimp only
      split <;> simp
    · simp
  | cStep =>
    simp only [step]
    have hd := h.doing
    split
    · unfold returned
      dsimp only
      cases hb : w.busy with
      | free => simp
      | polling => dsimp only; split <;> simp
      | sending kind' aux data' now =>
        rw [hb] at hd
        obtain ⟨d1, d2, -⟩ := hd
        dsimp only
        split
        · simp only [List.mem_singleton, Obs.asked.injEq]
          rintro ⟨rfl, rfl⟩
          refine ⟨rfl, ?_, by intro _ _ _ hx; cases hx⟩
          unfold Comm.Client.sendRequest
          rw [h.ini, d1, if_neg (by simp), if_neg (by simp), if_neg (by omega)]
          dsimp only
          split <;> rfl
        · simp
    · simp

/-! ## The request is handled -/

theorem asked_step (h1 : 8 ≤ c.mem.reqSize.toNat) (h3 : 16 ≤ c.mem.respSize.toNat) (hm : c.cli.mtu < 65536)
    (hsv : c.srv.comm.mtu < 65536) {w : World R} {kind : UInt16} {data : List UInt8} {ch : Mem.Chan}
    (h : Inv c le w (.asked kind data true) ch) (hw : Waits w) (hdl : data.length ≤ c.srv.comm.dataLen)
    (hconn : (w.dev.ctx c.x).connected = true)
    (hfit : ∀ r, Carries c le kind data r → (Server.answer c.srv w.dev c.x kind r).1.length ≤ c.limit) {e : Ev R}
    (hp : e.Patient) (hto : ∀ g, .got g ∈ (step c w e).2 → g.rc ≠ .timeout) :
    (∃ r resp d' ch', Carries c le kind data r ∧ Server.answer c.srv w.dev c.x kind r = (resp, d') ∧
      (step c w e).2 = [.ran w.dev kind r resp d'] ∧ Waits (step c w e).1 ∧ Inv c le (step c w e).1 (.done kind resp true) ch') ∨
    ((∀ o ∈ (step c w e).2, Dull o) ∧ Waits (step c w e).1 ∧ (∃ ch', Inv c le (step c w e).1 (.asked kind data true) ch') ∧
      (Mem.takeRank (8 + data.length) (step c w e).1.mem < Mem.takeRank (8 + data.length) w.mem ∨
        (Mem.takeRank (8 + data.length) (step c w e).1.mem = Mem.takeRank (8 + data.length) w.mem ∧
          ((step c w e).1.mem.s = .idle ↔ w.mem.s = .idle) ∧
          (w.mem.s = .idle → e ≠ .serve) ∧ (w.mem.s ≠ .idle → ∀ j a, e ≠ .sStep j a)))) := by
  have h2 : 8 ≤ c.mem.respSize.toNat := by omega
  have hsame : ∀ {d : Server.Dev R} {r : World R × List (Obs R)}, Goes c le d (.asked kind data true) r → (∀ o ∈ r.2, Dull o) →
      ∃ ch', Inv c le r.1 (.asked kind data true) ch' := by
    rintro d r ⟨t', ch', ha, hi⟩ hd
    rw [dull_turn hd ha] at hi
    exact ⟨ch', hi⟩
  have hgo := go_step h1 h3 hm hsv h e
  cases hes : e.ofServer with
  | false =>
    rcases client_waits h1 h3 hm h hw (by intro _ _ _ hx; cases hx) hes hp hto with ⟨_, _, _, _, hx, _⟩ | ⟨hd, hw'⟩
    · cases hx
    · obtain ⟨m1, m2, m3⟩ := client_mem (c := c) w hes
      refine .inr ⟨hd, hw', hsame hgo hd, .inr ⟨?_, by rw [m1], ?_, ?_⟩⟩
      · unfold Mem.takeRank
        rw [m1, m2]
      · rintro - rfl; cases hes
      · rintro - j a rfl; cases hes
  | true =>
    obtain ⟨f1, f2, f3⟩ := server_frame (c := c) w hes
    have hw' : Waits (step c w e).1 := ⟨by rw [f1]; exact hw.pend, by rw [f2]; exact hw.polls⟩
    cases e with
    | serve =>
      have hst : step c w .serve = ({ w with mem := (Mem.step c.mem w.mem (.sRecv (mtu16 c.srv.comm))).1 }, []) := by
        simp only [step, hconn, if_true]
      rw [hst] at hgo hw' ⊢
      have hd : ∀ o ∈ ([] : List (Obs R)), Dull o := by simp
      refine .inr ⟨hd, hw', hsame hgo hd, ?_⟩
      by_cases hi : w.mem.s = .idle
      · have hms : Mem.step c.mem w.mem (.sRecv (mtu16 c.srv.comm)) = ({ w.mem with s := .recv1 (mtu16 c.srv.comm) }, none) := by
          simp only [Mem.step, if_pos hi]
        refine .inl ?_
        rw [hms]
        simp only [Mem.takeRank, hi]
        omega
      · have hms : Mem.step c.mem w.mem (.sRecv (mtu16 c.srv.comm)) = (w.mem, none) := by
          simp only [Mem.step, if_neg hi]
        refine .inr ?_
        rw [hms]
        exact ⟨rfl, Iff.rfl, fun hx => absurd hx hi, fun _ j a hx => by cases hx⟩
    | sStep junk aux =>
      cases ch with
      | answered r => exact h.link.elim
      | requested q seen =>
        obtain ⟨⟨aux', hq⟩, hdc, hsn⟩ := h.link
        have hql : q.length = 8 + data.length := by rw [hq, List.length_append, Comm.header_length]
        by_cases hi : w.mem.s = .idle
        · have hms : Mem.step c.mem w.mem .sStep = (w.mem, none) := by
            simp only [Mem.step, hi, Mem.sStep]
            rw [← hi]
          have hst : step c w (.sStep junk aux) = (w, []) := by
            simp only [step, hms]
          rw [hst]
          exact .inr ⟨by simp, hw, ⟨_, h⟩, .inr ⟨rfl, Iff.rfl, by simp, fun hx => absurd hi hx⟩⟩
        · rcases Mem.take_step h1 h2 h.sim hsn hi with ⟨cap, len, bytes, k1, k2, k3, k4, k5, k6⟩ | ⟨k1, k2⟩
          · have := h.cap _ k1
            subst this
            have hst : step c w (.sStep junk aux) =
                handled c { w with mem := (Mem.step c.mem w.mem .sStep).1 } ⟨.ok, len, bytes ++ junk⟩ aux := by
              simp only [step, k2]
            obtain ⟨r, hr, e⟩ := handled_ok (le := le) (w := { w with mem := (Mem.step c.mem w.mem .sStep).1 }) h3 hsv k3 k4 hq k5
              hdl junk aux hfit
            rw [hst] at hgo hw' ⊢
            rw [e] at hgo hw' ⊢
            obtain ⟨t', ch', ⟨s1, hn, hx⟩, hi'⟩ := hgo
            cases hx
            refine .inl ⟨r, _, _, ch', hr, rfl, rfl, hw', ?_⟩
            cases hn with
            | run => exact hi'
            | again r' _ _ hlt =>
              have := hfit r hr
              dsimp only at hlt
              omega
          · have hst : step c w (.sStep junk aux) = ({ w with mem := (Mem.step c.mem w.mem .sStep).1 }, []) := by
              simp only [step]
              rcases k1 with e | e <;> rw [e]
            rw [hst] at hgo hw' ⊢
            have hd : ∀ o ∈ ([] : List (Obs R)), Dull o := by simp
            refine .inr ⟨hd, hw', hsame hgo hd, .inl ?_⟩
            rw [hql] at k2
            exact k2
    | _ => cases hes

/-! ## The response is given -/

theorem getRank_le {y : Mem.Sys} {r : List UInt8} (hsim : Mem.Sim c.mem y (.answered r)) :
    Mem.getRank r.length y.c ≤ r.length + 4 := by
  obtain ⟨m, pc, s, todo⟩ := y
  cases pc with
  | recvCopy cap len n acc =>
    obtain ⟨hlen, hn0, hacc, htake⟩ := hsim.cli
    have hl : m.resp.len.toNat = r.length := hsim.mem.2.1
    have hcl : n ≤ r.length := by
      rw [hn0]; unfold Mem.copyLen; rw [hlen]; omega
    simp only [Mem.getRank]
    omega
  | _ => simp only [Mem.getRank]; omega

/-- What is left until the client has its response of `n` bytes. -/
def doneRank (n : Nat) (w : World R) : Nat :=
  if sMsg w.mem.s = none then Mem.getRank (8 + n) w.mem.c else 20 + n + Mem.putRank w.mem.s

/-- What brings it on. -/
def Helps (w : World R) (e : Ev R) : Prop :=
  if sMsg w.mem.s = none then (if w.mem.c = .idle then ∃ j now, e = .poll none j now else e = .cStep) else ∃ j a, e = .sStep j a

def doneNeed (w : World R) : Nat :=
  if sMsg w.mem.s = none then (if w.mem.c = .idle then 2 else 3) else 1

theorem done_step (h1 : 8 ≤ c.mem.reqSize.toNat) (h3 : 16 ≤ c.mem.respSize.toNat) (hm : c.cli.mtu < 65536)
    (hsv : c.srv.comm.mtu < 65536) {w : World R} {kind : UInt16} {resp : List UInt8} {ch : Mem.Chan}
    (h : Inv c le w (.done kind resp true) ch) (hw : Waits w) (hrl : resp.length ≤ c.cli.dataLen) {e : Ev R}
    (hp : e.Patient) (hto : ∀ g, .got g ∈ (step c w e).2 → g.rc ≠ .timeout) :
    (∃ g, .got g ∈ (step c w e).2 ∧ g.rc = .ok ∧ g.kind = kind ∧ g.payload = resp) ∨
    (Waits (step c w e).1 ∧ (∃ ch', Inv c le (step c w e).1 (.done kind resp true) ch') ∧
      (doneRank resp.length (step c w e).1 < doneRank resp.length w ∨
        (doneRank resp.length (step c w e).1 = doneRank resp.length w ∧ doneNeed (step c w e).1 = doneNeed w ∧ ¬ Helps w e))) := by
  have h2 : 8 ≤ c.mem.respSize.toNat := by omega
  have hsame : ∀ {d : Server.Dev R} {r : World R × List (Obs R)}, Goes c le d (.done kind resp true) r → (∀ o ∈ r.2, Dull o) →
      ∃ ch', Inv c le r.1 (.done kind resp true) ch' := by
    rintro d r ⟨t', ch', ha, hi⟩ hd
    rw [dull_turn hd ha] at hi
    exact ⟨ch', hi⟩
  have hgo := go_step h1 h3 hm hsv h e
  have hd0 : ∀ o ∈ ([] : List (Obs R)), Dull o := by simp
  cases hes : e.ofServer with
  | true =>
    obtain ⟨f1, f2, f3⟩ := server_frame (c := c) w hes
    have hw' : Waits (step c w e).1 := ⟨by rw [f1]; exact hw.pend, by rw [f2]; exact hw.polls⟩
    by_cases hsn : sMsg w.mem.s = none
    · have key : (step c w e).2 = [] ∧ sMsg (step c w e).1.mem.s = none := by
        cases e with
        | serve =>
          simp only [step]
          split
          · refine ⟨rfl, ?_⟩
            simp only [Mem.step]
            split
            · rfl
            · exact hsn
          · exact ⟨rfl, hsn⟩
        | sStep junk aux =>
          have hms := Mem.sStep_none (k := c.mem) w.mem hsn
          revert hgo
          simp only [step]
          split
          · unfold handled
            dsimp only
            split
            · rintro ⟨t', ch', ⟨s1, hn, -⟩, -⟩
              cases hn
            · intro _; exact ⟨rfl, hms⟩
          · intro _; exact ⟨rfl, hms⟩
        | _ => cases hes
      obtain ⟨k1, k2⟩ := key
      refine .inr ⟨hw', hsame hgo (by rw [k1]; exact hd0), .inr ⟨?_, ?_, ?_⟩⟩
      · unfold doneRank
        rw [if_pos k2, if_pos hsn, f3]
      · unfold doneNeed
        rw [if_pos k2, if_pos hsn, f3]
      · unfold Helps
        rw [if_pos hsn]
        split
        · rintro ⟨_, _, rfl⟩; cases hes
        · rintro rfl; cases hes
    · obtain ⟨p, hpm⟩ := Option.ne_none_iff_exists'.mp hsn
      cases e with
      | serve =>
        have hms : Mem.step c.mem w.mem (.sRecv (mtu16 c.srv.comm)) = (w.mem, none) := by
          simp only [Mem.step]
          rw [if_neg (by intro hx; rw [hx] at hpm; cases hpm)]
        have hst : step c w .serve = (w, []) := by
          simp only [step, hms]
          split <;> rfl
        rw [hst]
        refine .inr ⟨hw, ⟨_, h⟩, .inr ⟨rfl, rfl, ?_⟩⟩
        unfold Helps
        rw [if_neg hsn]
        rintro ⟨_, _, hx⟩; cases hx
      | sStep junk aux =>
        cases ch with
        | answered r =>
          exfalso
          have := h.sim.srv
          revert this hpm
          cases w.mem.s <;> simp [sMsg, Mem.SInv]
        | requested q seen =>
          obtain ⟨aux', hx⟩ := h.link
          rw [hpm] at hx
          cases hx
          rcases Mem.put_step h1 h2 h.sim hpm with ⟨k1, k2⟩ | ⟨k1, k2, k3⟩
          · have hst : step c w (.sStep junk aux) = ({ w with mem := (Mem.step c.mem w.mem .sStep).1 }, []) := by
              simp only [step, k1]
            rw [hst] at hgo hw' ⊢
            obtain ⟨ch', hi'⟩ := hsame hgo hd0
            refine .inr ⟨hw', ⟨ch', hi'⟩, .inl ?_⟩
            have hk : sMsg (Mem.step c.mem w.mem .sStep).1.s = none := by rw [k2]; rfl
            unfold doneRank
            rw [if_pos hk, if_neg hsn]
            cases ch' with
            | requested => obtain ⟨_, hx⟩ := hi'.link; rw [hk] at hx; cases hx
            | answered p' =>
              obtain ⟨aux'', hx⟩ := hi'.link
              have hpl : p'.length = 8 + resp.length := by
                rw [hx]; unfold respPkt; rw [List.length_append, Comm.header_length]
              have := getRank_le hi'.sim
              rw [hpl] at this
              dsimp only at this ⊢
              omega
          · have hst : step c w (.sStep junk aux) = ({ w with mem := (Mem.step c.mem w.mem .sStep).1 }, []) := by
              simp only [step, k1]
            rw [hst] at hgo hw' ⊢
            refine .inr ⟨hw', hsame hgo hd0, .inl ?_⟩
            unfold doneRank
            rw [if_neg (by rw [k2]; simp), if_neg hsn]
            dsimp only
            omega
      | _ => cases hes
  | false =>
    obtain ⟨m1, m2, m3⟩ := client_mem (c := c) w hes
    rcases client_waits h1 h3 hm h hw (by intro _ _ _ hx; cases hx; exact hrl) hes hp hto with
      ⟨g, _, _, hx, ht, g1, g2, g3⟩ | ⟨hd, hw'⟩
    · cases ht
      exact .inl ⟨g, by rw [hx]; exact List.mem_singleton.mpr rfl, g1, g2, g3⟩
    · refine .inr ⟨hw', hsame hgo hd, ?_⟩
      by_cases hsn : sMsg w.mem.s = none
      · cases ch with
        | requested => obtain ⟨_, hx⟩ := h.link; rw [hsn] at hx; cases hx
        | answered p =>
          obtain ⟨aux', hpe⟩ := h.link
          have hpl : p.length = 8 + resp.length := by
            rw [hpe]; unfold respPkt; rw [List.length_append, Comm.header_length]
          have hdo := h.doing
          have heq : (step c w e).1.mem.c = w.mem.c → ¬ Helps w e →
              (doneRank resp.length (step c w e).1 < doneRank resp.length w ∨
              (doneRank resp.length (step c w e).1 = doneRank resp.length w ∧ doneNeed (step c w e).1 = doneNeed w ∧
                ¬ Helps w e)) := by
            intro hx hy
            unfold doneRank doneNeed
            rw [m1, if_pos hsn, if_pos hsn, if_pos hsn, if_pos hsn, hx]
            exact .inr ⟨rfl, rfl, hy⟩
          cases e with
          | serve => cases hes
          | sStep => cases hes
          | abort => exact hp.elim
          | other d => exact heq rfl (by unfold Helps; rw [if_pos hsn]; split <;> simp)
          | send kind' aux data now =>
            refine heq ?_ (by unfold Helps; rw [if_pos hsn]; split <;> simp)
            simp only [step]
            cases hb : w.busy with
            | free =>
              dsimp only
              have hpk : (w.client.sendRequest c.cli magicNative kind' aux data .ok now).1.packet = none := by
                unfold Comm.Client.sendRequest
                rw [h.ini, hw.pend]
                rfl
              rw [hpk]
            | sending => rfl
            | polling => rfl
          | poll cap junk now =>
            cases hb : w.busy with
            | sending => rw [hb] at hdo; have := hdo.1; rw [hw.pend] at this; cases this
            | free =>
              rw [hb] at hdo
              have hc : w.mem.c = .idle := hdo
              refine .inl ?_
              have hx : (step c w (.poll cap junk now)).1.mem.c = .recv1 (mtu16 c.cli) := by
                simp only [step, hb, h.ini, hw.pend, Bool.and_self, if_true, Mem.step, hc]
              unfold doneRank
              rw [m1, if_pos hsn, if_pos hsn, hx, hc]
              simp only [Mem.getRank]
              omega
            | polling cap' junk' now' =>
              rw [hb] at hdo
              have hst : step c w (.poll cap junk now) = (w, []) := by
                simp only [step, hb]
              refine heq (by rw [hst]) ?_
              unfold Helps
              rw [if_pos hsn, if_neg (by intro hx; have := hdo.2; rw [hx] at this; cases this)]
              intro hx; cases hx
          | cStep =>
            by_cases hci : w.mem.c = .idle
            · refine heq ?_ ?_
              · have hms : Mem.step c.mem w.mem .cStep = (w.mem, none) := by
                  simp only [Mem.step, hci, Mem.cStep]
                  rw [← hci]
                simp only [step, hms]
              · unfold Helps
                rw [if_pos hsn, if_pos hci]
                rintro ⟨_, _, hx⟩; cases hx
            · cases hb : w.busy with
              | free => rw [hb] at hdo; exact absurd hdo hci
              | sending => rw [hb] at hdo; have := hdo.1; rw [hw.pend] at this; cases this
              | polling cap junk now =>
                rw [hb] at hdo
                have hcap := hw.polls cap junk now hb
                subst hcap
                have hcm : cMsg w.mem.c = none := by
                  have := hdo.2
                  revert this
                  cases w.mem.c <;> simp [cMsg, cCap]
                rcases Mem.get_step h1 h2 h.sim hcm hci with ⟨cap, len, bytes, k1, k2, k3⟩ | ⟨k1, k2⟩
                · exfalso
                  have hx := hdo.2.symm.trans k1
                  cases hx
                  have hst : (step c w .cStep).2 = [.got (w.client.recvResponse c.cli none ⟨.ok, len, bytes ++ junk⟩ now).1] := by
                    simp only [step, k2, returned, hb]
                  rw [hpe] at k3
                  have hgk := got_ok (junk := junk) (now := now) h.le h.ini hw.pend hm hrl k3
                  have hdd : Dull (.got (w.client.recvResponse c.cli none ⟨.ok, len, bytes ++ junk⟩ now).1 : Obs R) :=
                    hd _ (by rw [hst]; exact List.mem_singleton.mpr rfl)
                  exact hdd hgk.1
                · refine .inl ?_
                  have hx : (step c w .cStep).1.mem = (Mem.step c.mem w.mem .cStep).1 := by
                    simp only [step, k1]
                  unfold doneRank
                  rw [m1, if_pos hsn, if_pos hsn, hx, ← hpl]
                  exact k2
      · refine .inr ⟨?_, ?_, ?_⟩
        · unfold doneRank
          rw [m1, if_neg hsn, if_neg hsn]
        · unfold doneNeed
          rw [m1, if_neg hsn, if_neg hsn]
        · unfold Helps
          rw [if_neg hsn]
          rintro ⟨_, _, rfl⟩; cases hes

/-! ## Schedules -/

theorem asked_turn {t t' : Turn} {d d' : Server.Dev R} {kind : UInt16} {data : List UInt8}
    (h : Next c le (t, d) (.asked kind data) (t', d')) : t' = .asked kind data true := by
  cases h; rfl

theorem fair_completes (h1 : 8 ≤ c.mem.reqSize.toNat) (h3 : 16 ≤ c.mem.respSize.toNat) (hm : c.cli.mtu < 65536)
    (hsv : c.srv.comm.mtu < 65536) {w0 : World R} {t0 : Turn} {ch0 : Mem.Chan} (h0 : Inv c le w0 t0 ch0) {σ : Nat → Ev R} (hf : Fair σ)
    {n : Nat} {kind : UInt16} {data : List UInt8} (hask : .asked kind data ∈ sees c w0 σ n) (hpat : ∀ m, n < m → (σ m).Patient)
    (hto : ∀ m, n < m → ∀ g, .got g ∈ sees c w0 σ m → g.rc ≠ .timeout) (hdl : data.length ≤ c.srv.comm.dataLen)
    (hfit : ∀ m, n < m → (∀ i, n < i → i < m → ∀ o ∈ sees c w0 σ i, o.isRan = false) →
      ((states c w0 σ m).dev.ctx c.x).connected = true ∧ ∀ r, Carries c le kind data r →
        (Server.answer c.srv (states c w0 σ m).dev c.x kind r).1.length ≤ min c.limit c.cli.dataLen) :
    ∃ m r resp d', n < m ∧ (∀ i, n < i → i < m → ∀ o ∈ sees c w0 σ i, o.isRan = false) ∧
      Carries c le kind data r ∧ Server.answer c.srv (states c w0 σ m).dev c.x kind r = (resp, d') ∧
      .ran (states c w0 σ m).dev kind r resp d' ∈ sees c w0 σ m ∧
      ∃ m' g, m < m' ∧ .got g ∈ sees c w0 σ m' ∧ g.rc = .ok ∧ g.kind = kind ∧ g.payload = resp := by
  have inv : ∀ m, ∃ t ch, Inv c le (states c w0 σ m) t ch := by
    intro m
    induction m with
    | zero => exact ⟨t0, ch0, h0⟩
    | succ m ih =>
      obtain ⟨t, ch, hi⟩ := ih
      obtain ⟨t', ch', -, hi'⟩ := go_step h1 h3 hm hsv hi (σ m)
      exact ⟨t', ch', hi'⟩
  have start : ∃ ch, Inv c le (states c w0 σ (n + 1)) (.asked kind data true) ch ∧ Waits (states c w0 σ (n + 1)) := by
    obtain ⟨t, ch, hi⟩ := inv n
    obtain ⟨e, hw⟩ := asked_waits hi hask
    obtain ⟨t', ch', ha, hi'⟩ := go_step h1 h3 hm hsv hi (σ n)
    rw [e] at ha
    obtain ⟨s1, hn, hx⟩ := ha
    cases hx
    rw [asked_turn hn] at hi'
    exact ⟨ch', hi', hw⟩
  have fair : ∀ b k, ∃ m, k ≤ m ∧ (if b = 0 then σ m = .serve else if b = 1 then ∃ j a, σ m = .sStep j a else
      if b = 2 then ∃ j now, σ m = .poll none j now else σ m = .cStep) := by
    intro b k
    obtain ⟨f1, f2, f3, f4⟩ := hf k
    by_cases b0 : b = 0
    · simp only [if_pos b0]; exact f1
    by_cases b1 : b = 1
    · simp only [if_neg b0, if_pos b1]; exact f2
    by_cases b2 : b = 2
    · simp only [if_neg b0, if_neg b1, if_pos b2]; exact f4
    · simp only [if_neg b0, if_neg b1, if_neg b2]; exact f3
  obtain ⟨m, hnm, r, resp, d', ch', k0, k1, k2, k3, k4, k5⟩ := descend
    (P := fun m => (∃ ch, Inv c le (states c w0 σ m) (.asked kind data true) ch) ∧ Waits (states c w0 σ m) ∧ n < m ∧
      ∀ i, n < i → i < m → ∀ o ∈ sees c w0 σ i, o.isRan = false)
    (G := fun m => ∃ r resp d' ch', (∀ i, n < i → i < m → ∀ o ∈ sees c w0 σ i, o.isRan = false) ∧ Carries c le kind data r ∧
      Server.answer c.srv (states c w0 σ m).dev c.x kind r = (resp, d') ∧
      sees c w0 σ m = [.ran (states c w0 σ m).dev kind r resp d'] ∧ Waits (states c w0 σ (m + 1)) ∧
      Inv c le (states c w0 σ (m + 1)) (.done kind resp true) ch')
    (rank := fun m => Mem.takeRank (8 + data.length) (states c w0 σ m).mem)
    (need := fun m => if (states c w0 σ m).mem.s = .idle then 0 else 1) fair
    (by
      rintro m ⟨⟨ch, hi⟩, hw, hnm, hran⟩
      obtain ⟨hconn, hft⟩ := hfit m hnm hran
      rcases asked_step h1 h3 hm hsv hi hw hdl hconn (fun r hr => (Nat.le_min.mp (hft r hr)).1) (hpat m hnm) (hto m hnm) with
        ⟨r, resp, d', ch', k1, k2, k3, k4, k5⟩ | ⟨k1, k2, k3, k4⟩
      · exact .inl ⟨r, resp, d', ch', hran, k1, k2, k3, k4, k5⟩
      · refine .inr ⟨⟨k3, k2, by omega, ?_⟩, ?_⟩
        · intro i hi1 hi2 o ho
          by_cases him : i = m
          · subst him
            have := k1 o ho
            cases o <;> first | rfl | exact this.elim
          · exact hran i hi1 (by omega) o ho
        · rcases k4 with hlt | ⟨e1, e2, e3, e4⟩
          · exact .inl hlt
          · refine .inr ⟨e1, ?_, ?_⟩
            · change (if (step c (states c w0 σ m) (σ m)).1.mem.s = .idle then 0 else 1) = _
              by_cases hs : (states c w0 σ m).mem.s = .idle
              · rw [if_pos (e2.mpr hs), if_pos hs]
              · rw [if_neg (fun hx => hs (e2.mp hx)), if_neg hs]
            · by_cases hs : (states c w0 σ m).mem.s = .idle
              · simp only [if_pos hs]
                exact e3 hs
              · simp only [if_neg hs]
                rintro ⟨j, a, hx⟩
                exact e4 hs j a hx)
    (n + 1) ⟨⟨_, start.choose_spec.1⟩, start.choose_spec.2, by omega, by intro i h1 h2; omega⟩
  have hrl : resp.length ≤ c.cli.dataLen := by
    have := (Nat.le_min.mp ((hfit m (by omega) k0).2 r k1)).2
    rw [k2] at this
    exact this
  obtain ⟨m', hm', g, g0, g1, g2, g3⟩ := descend
    (P := fun i => (∃ ch, Inv c le (states c w0 σ i) (.done kind resp true) ch) ∧ Waits (states c w0 σ i) ∧ m < i)
    (G := fun i => ∃ g, .got g ∈ sees c w0 σ i ∧ g.rc = .ok ∧ g.kind = kind ∧ g.payload = resp)
    (rank := fun i => doneRank resp.length (states c w0 σ i))
    (need := fun i => doneNeed (states c w0 σ i)) fair
    (by
      rintro i ⟨⟨ch, hi⟩, hw, hmi⟩
      rcases done_step h1 h3 hm hsv hi hw hrl (hpat i (by omega)) (hto i (by omega)) with hg | ⟨q1, q2, q3⟩
      · exact .inl hg
      · refine .inr ⟨⟨q2, q1, by omega⟩, ?_⟩
        rcases q3 with hlt | ⟨e1, e2, e3⟩
        · exact .inl hlt
        · refine .inr ⟨e1, e2, ?_⟩
          intro hx
          apply e3
          revert hx
          unfold doneNeed Helps
          by_cases a1 : sMsg (states c w0 σ i).mem.s = none
          · by_cases a2 : (states c w0 σ i).mem.c = .idle
            · simp only [if_pos a1, if_pos a2]; exact id
            · simp only [if_pos a1, if_neg a2]; exact id
          · simp only [if_neg a1]; exact id)
    (m + 1) ⟨⟨_, k5⟩, k4, by omega⟩
  exact ⟨m, r, resp, d', by omega, k0, k1, k2, by rw [k3]; exact List.mem_singleton.mpr rfl, m', g, by omega, g0, g1, g2, g3⟩

/-- Nothing is handled and nothing else is done to the device: it stays as it is. -/
theorem step_dev (w : World R) {e : Ev R} (h : ∀ o ∈ (step c w e).2, o.isRan = false) (he : ∀ d, e ≠ .other d) :
    (step c w e).1.dev = w.dev := by
  revert h
  cases e with
  | other d => exact absurd rfl (he d)
  | send kind aux data now =>
    intro _
    simp only [step]
    cases w.busy with
    | free => dsimp only; split <;> [rfl; (split <;> rfl)]
    | sending => rfl
    | polling => rfl
  | poll cap junk now =>
    intro _
    simp only [step]
    cases w.busy with
    | free => dsimp only; split <;> rfl
    | sending => rfl
    | polling => rfl
  | abort =>
    intro _
    simp only [step]
    cases w.busy <;> rfl
  | serve =>
    intro _
    simp only [step]
    split <;> rfl
  | cStep =>
    intro _
    simp only [step]
    split
    · unfold returned
      dsimp only
      cases w.busy <;> dsimp only <;> split <;> rfl
    · rfl
  | sStep junk aux =>
    simp only [step]
    split
    · unfold handled
      dsimp only
      split
      · intro h; exact absurd (h _ (List.mem_singleton.mpr rfl)) (by simp [Obs.isRan])
      · intro _; rfl
    · intro _; rfl

/-- Without timeouts the client is told of none. -/
theorem no_timeout (ht : c.cli.timeout = false) {w : World R} {e : Ev R} {g : Comm.Got} (h : .got g ∈ (step c w e).2) :
    g.rc ≠ .timeout := by
  have key : ∀ (cl : Comm.Client) cap (rx : Comm.Rx) now, rx.rc ≠ .timeout → (cl.recvResponse c.cli cap rx now).1.rc ≠ .timeout := by
    intro cl cap rx now hrx
    unfold Comm.Client.recvResponse Comm.Client.notReady Comm.Client.accept
    rw [ht]
    dsimp only
    (repeat' split) <;> first | exact hrx | simp_all [Comm.Got.err]
  revert h
  cases e with
  | other d => simp [step]
  | send kind aux data now =>
    simp only [step]
    cases w.busy with
    | free => dsimp only; split <;> [skip; split] <;> simp
    | sending => simp
    | polling => simp
  | poll cap junk now =>
    simp only [step]
    cases w.busy with
    | free =>
      dsimp only
      split
      · simp
      · simp only [List.mem_singleton, Obs.got.injEq]
        rintro rfl
        exact key _ _ _ _ (by simp)
    | sending => simp
    | polling => simp
  | abort =>
    simp only [step]
    cases w.busy <;> simp
  | serve =>
    simp only [step]
    split <;> simp
  | sStep junk aux =>
    simp only [step]
    split
    · unfold handled
      dsimp only
      split <;> simp
    · simp
  | cStep =>
    simp only [step]
    split
    · unfold returned
      dsimp only
      cases w.busy with
      | free => simp
      | sending => dsimp only; split <;> simp
      | polling =>
        dsimp only
        split
        · simp only [List.mem_singleton, Obs.got.injEq]
          rintro rfl
          exact key _ _ _ _ (by simp)
        · simp only [List.mem_singleton, Obs.got.injEq]
          rintro rfl
          exact key _ _ _ _ (by simp)
    · simp

theorem states_run (w : World R) (σ : Nat → Ev R) (n : Nat) :
    (states c w σ n = (run c w ((List.range n).map σ)).1) ∧
    (run c w ((List.range (n + 1)).map σ)).2 = (run c w ((List.range n).map σ)).2 ++ sees c w σ n := by
  have h1 : ∀ n, states c w σ n = (run c w ((List.range n).map σ)).1 := by
    intro n
    induction n with
    | zero => rfl
    | succ n ih =>
      rw [List.range_succ, List.map_append, run_append, ← ih]
      rfl
  refine ⟨h1 n, ?_⟩
  rw [List.range_succ, List.map_append, run_append, ← h1 n]
  simp only [List.map_cons, List.map_nil, run, List.append_nil, sees]

theorem sees_run (w : World R) (σ : Nat → Ev R) {i n : Nat} (h : i < n) {o : Obs R} (ho : o ∈ sees c w σ i) :
    o ∈ (run c w ((List.range n).map σ)).2 := by
  induction n with
  | zero => omega
  | succ n ih =>
    rw [(states_run w σ n).2]
    by_cases hi : i = n
    · subst hi; exact List.mem_append_right _ ho
    · exact List.mem_append_left _ (ih (by omega))

end WolfHsm.Stack

import Verif.Spec.TransportMem

/-! # The shared-memory transport implements the channel -/

namespace WolfHsm.Mem

/-- What holds of the client while the channel is in a state. -/
def CInv (k : Cfg) (m : Shm) : Chan → CPc → Prop
  | _, .idle => True
  | _, .send1 msg => msg.length ≤ dataSize k.reqSize
  | .answered _, .send2 msg rn => msg.length ≤ dataSize k.reqSize ∧ (rn = m.resp.notify ∨ m.req.notify ≠ rn)
  | .requested _ _, .send2 msg rn => msg.length ≤ dataSize k.reqSize ∧ m.req.notify ≠ rn
  | .answered _, .sendCopy msg q i => msg.length ≤ dataSize k.reqSize ∧ q = m.req ∧ i ≤ msg.length ∧
      m.reqData.take i = msg.take i
  | .requested _ _, .sendCopy _ _ _ => False
  | _, .recv1 _ => True
  | _, .recv2 _ qn => qn = m.req.notify
  | .answered r, .recvCopy cap len n acc => len.toNat = r.length ∧ n = copyLen len cap k.respSize ∧
      acc.length ≤ n ∧ acc = r.take acc.length
  | .requested _ _, .recvCopy _ _ _ _ => False

/-- What holds of the server. -/
def SInv (k : Cfg) (m : Shm) : Chan → SPc → Prop
  | _, .idle => True
  | _, .recv1 _ => True
  | .answered _, .recv2 _ q => q.notify = m.resp.notify
  | .requested _ _, .recv2 _ q => q = m.req ∨ q.notify = m.resp.notify
  | .requested msg _, .recvCopy cap len n acc => len.toNat = msg.length ∧
      n = copyLen len cap k.reqSize ∧ acc.length ≤ n ∧ acc = msg.take acc.length
  | .answered _, .recvCopy _ _ _ _ => False
  | .requested _ seen, .send1 r => seen = true ∧ r.length ≤ dataSize k.respSize
  | .requested _ seen, .send2 r qn => seen = true ∧ r.length ≤ dataSize k.respSize ∧ qn = m.req.notify
  | .requested _ seen, .sendCopy r qn i => seen = true ∧ r.length ≤ dataSize k.respSize ∧
      qn = m.req.notify ∧ i ≤ r.length ∧ m.respData.take i = r.take i
  | .answered _, .send1 _ => False
  | .answered _, .send2 _ _ => False
  | .answered _, .sendCopy _ _ _ => False

/-- What the shared memory holds. -/
def MInv (m : Shm) (todo : Bool) : Chan → Prop
  | .answered r => m.req.notify = m.resp.notify ∧ m.resp.len.toNat = r.length ∧
      m.respData.take r.length = r ∧ todo = false
  | .requested q seen => m.req.notify ≠ m.resp.notify ∧ m.req.len.toNat = q.length ∧
      m.reqData.take q.length = q ∧ (todo = true → seen = true)

/-- While answering, the server has no other request to answer. -/
def TInv (todo : Bool) : SPc → Prop
  | .send1 _ => todo = false
  | .send2 _ _ => todo = false
  | .sendCopy _ _ _ => todo = false
  | _ => True

structure Sim (k : Cfg) (y : Sys) (ch : Chan) : Prop where
  ub : y.shm.ub = false
  reqLen : y.shm.reqData.length = dataSize k.reqSize
  respLen : y.shm.respData.length = dataSize k.respSize
  mem : MInv y.shm y.todo ch
  cli : CInv k y.shm ch y.c
  srv : SInv k y.shm ch y.s
  tod : TInv y.todo y.s

theorem sim_init (k : Cfg) : Sim k (init k) (.answered []) :=
  ⟨rfl, by simp [init, initClear], by simp [init, initClear], ⟨rfl, rfl, rfl, rfl⟩, trivial, trivial, trivial⟩

theorem room_eq {size : UInt16} (h : 8 ≤ size.toNat) : room size = dataSize size := by
  unfold room dataSize
  have : size.toNat < 65536 := size.toNat_lt
  omega

theorem take_set_succ (l : List UInt8) (i : Nat) (b : UInt8) (h : i < l.length) :
    (l.set i b).take (i + 1) = l.take i ++ [b] := by
  rw [List.take_succ, List.take_set_of_le (Nat.le_refl i)]
  simp [h]

theorem take_succ_get (l : List UInt8) (i : Nat) (b : UInt8) (h : l[i]? = some b) :
    l.take (i + 1) = l.take i ++ [b] := by
  rw [List.take_succ, h]; rfl

theorem len_ofNat {l : List UInt8} (h : l.length < 65536) : (UInt16.ofNat l.length).toNat = l.length := by
  rw [UInt16.toNat_ofNat']; exact Nat.mod_eq_of_lt h

theorem dataSize_lt (size : UInt16) : dataSize size < 65536 := by
  unfold dataSize; have : size.toNat < 65536 := size.toNat_lt; omega

theorem succ_ne (a : UInt16) : a + 1 ≠ a := by
  intro h
  have := congrArg UInt16.toNat h
  have ha := a.toNat_lt
  simp [UInt16.toNat_add] at this
  omega

/-- Effect of an event on the channel. -/
def Follows (ch : Chan) (o : Option Obs) (ch' : Chan) : Prop :=
  match o with
  | none => ch' = ch
  | some o => ch.next o = some ch'

theorem sim_client {k : Cfg} {y : Sys} {ch : Chan} (h : Sim k y ch) :
    ∃ ch', Follows ch (step k y .cStep).2 ch' ∧ Sim k (step k y .cStep).1 ch' := by
  obtain ⟨m, c, s, todo⟩ := y
  obtain ⟨hub, hrq, hrs, hm, hc, hs, ht⟩ := h
  dsimp only at hub hrq hrs hm hc hs ht
  have keep : ∀ c', CInv k m ch c' → Sim k ⟨m, c', s, todo⟩ ch :=
    fun c' hc' => ⟨hub, hrq, hrs, hm, hc', hs, ht⟩
  cases c with
  | idle => exact ⟨ch, rfl, keep _ trivial⟩
  | send1 msg =>
    refine ⟨ch, rfl, keep _ ?_⟩
    cases ch with
    | answered r => exact ⟨hc, Or.inl rfl⟩
    | requested q seen => exact ⟨hc, hm.1⟩
  | send2 msg rn =>
    simp only [step, cStep]
    by_cases hne : m.req.notify = rn
    · rw [if_neg (by simpa using hne)]
      cases ch with
      | answered r => exact ⟨_, rfl, keep _ ⟨hc.1, rfl, Nat.zero_le _, by simp⟩⟩
      | requested q seen => exact absurd hne hc.2
    · rw [if_pos hne]
      exact ⟨ch, by cases ch <;> rfl, keep _ trivial⟩
  | sendCopy msg q i =>
    cases ch with
    | requested q' seen => exact hc.elim
    | answered r =>
      obtain ⟨hlen, rfl, hi, htake⟩ := hc
      simp only [step, cStep]
      cases hb : msg[i]? with
      | some b =>
        have hil : i < msg.length := (List.getElem?_eq_some_iff.mp hb).1
        have hir : i < m.reqData.length := by omega
        simp only [poke, hir, if_true]
        refine ⟨.answered r, rfl, hub, by simpa using hrq, hrs, ?_, ⟨hlen, rfl, hil, ?_⟩, ?_, ht⟩
        · exact hm
        · rw [take_set_succ _ _ _ hir, take_succ_get _ _ _ hb, htake]
        · cases s <;> first | trivial | exact hs | exact hs.elim
      | none =>
        have hil : msg.length ≤ i := List.getElem?_eq_none_iff.mp hb
        have hieq : i = msg.length := by omega
        subst hieq
        refine ⟨.requested msg false, rfl, hub, hrq, hrs, ?_, trivial, ?_, ht⟩
        · refine ⟨?_, len_ofNat (by have := dataSize_lt k.reqSize; omega), ?_, ?_⟩
          · rw [hm.1]; exact succ_ne _
          · rw [htake, List.take_length]
          · intro ht'; rw [hm.2.2.2] at ht'; cases ht'
        · cases s <;> first | trivial | exact hs.elim | exact Or.inr hs
  | recv1 cap => exact ⟨ch, rfl, keep _ (by cases ch <;> rfl)⟩
  | recv2 cap qn =>
    simp only [step, cStep]
    cases ch with
    | answered r =>
      have hq : qn = m.req.notify := hc
      rw [if_neg (by simp [hq, hm.1])]
      exact ⟨_, rfl, keep _ ⟨hm.2.1, rfl, Nat.zero_le _, by simp⟩⟩
    | requested q seen =>
      have hq : qn = m.req.notify := hc
      rw [if_pos (by rw [hq]; exact fun h => hm.1 h.symm)]
      exact ⟨_, rfl, keep _ trivial⟩
  | recvCopy cap len n acc =>
    cases ch with
    | requested q seen => exact hc.elim
    | answered r =>
      obtain ⟨hlen, hn, hacc, htake⟩ := hc
      simp only [step, cStep]
      by_cases hlt : acc.length < n
      · rw [if_pos hlt]
        have hin : acc.length < m.respData.length := by
          rw [hrs]; rw [hn] at hlt; unfold copyLen at hlt; omega
        have hir : acc.length < r.length := by
          rw [hn] at hlt; unfold copyLen at hlt; omega
        obtain ⟨b, hb⟩ : ∃ b, m.respData[acc.length]? = some b := ⟨_, List.getElem?_eq_getElem hin⟩
        rw [hb]
        refine ⟨_, rfl, keep _ ⟨hlen, hn, by simp; omega, ?_⟩⟩
        have hbr : r[acc.length]? = some b := by
          have := hm.2.2.1
          rw [← this, List.getElem?_take_of_lt hir]
          exact hb
        simp only [List.length_append, List.length_cons, List.length_nil]
        rw [take_succ_get _ _ _ hbr, ← htake]
      · rw [if_neg hlt]
        have hnacc : acc.length = n := by omega
        have hsh : Shows r cap len acc := by
          refine ⟨hlen, ?_⟩
          have hrlen : r.length ≤ dataSize k.respSize := by
            have := congrArg List.length hm.2.2.1
            rw [List.length_take, hrs] at this
            omega
          rw [htake, hnacc, hn]
          unfold copyLen
          rw [hlen]
          have h1 : min (min r.length cap.toNat) (dataSize k.respSize) = min cap.toNat r.length := by omega
          rw [h1, List.take_eq_take_iff]
          omega
        exact ⟨.answered r, by simp [Follows, Chan.next, hsh], keep _ trivial⟩

theorem sim_server {k : Cfg} {y : Sys} {ch : Chan} (h : Sim k y ch) :
    ∃ ch', Follows ch (step k y .sStep).2 ch' ∧ Sim k (step k y .sStep).1 ch' := by
  obtain ⟨m, c, s, todo⟩ := y
  obtain ⟨hub, hrq, hrs, hm, hc, hs, ht⟩ := h
  dsimp only at hub hrq hrs hm hc hs ht
  have keep : ∀ s', SInv k m ch s' → TInv todo s' → Sim k ⟨m, c, s', todo⟩ ch :=
    fun s' hs' ht' => ⟨hub, hrq, hrs, hm, hc, hs', ht'⟩
  cases s with
  | idle => exact ⟨ch, rfl, keep _ trivial trivial⟩
  | recv1 cap =>
    refine ⟨ch, rfl, keep _ ?_ trivial⟩
    cases ch with
    | answered r => exact hm.1
    | requested q seen => exact Or.inl rfl
  | recv2 cap q =>
    simp only [step, sStep]
    cases ch with
    | answered r =>
      have hs' : q.notify = m.resp.notify := hs
      rw [if_pos hs']
      exact ⟨_, rfl, keep _ trivial trivial⟩
    | requested msg seen =>
      by_cases he : q.notify = m.resp.notify
      · rw [if_pos he]
        exact ⟨_, rfl, keep _ trivial trivial⟩
      · rw [if_neg he]
        have hq : q = m.req := hs.resolve_right he
        subst hq
        exact ⟨_, rfl, keep _ ⟨hm.2.1, rfl, Nat.zero_le _, by simp⟩ trivial⟩
  | recvCopy cap len n acc =>
    cases ch with
    | answered r => exact hs.elim
    | requested msg seen =>
      obtain ⟨hlen, hn, hacc, htake⟩ := hs
      simp only [step, sStep]
      by_cases hlt : acc.length < n
      · rw [if_pos hlt]
        have hin : acc.length < m.reqData.length := by
          rw [hrq]; rw [hn] at hlt; unfold copyLen at hlt; omega
        have hir : acc.length < msg.length := by
          rw [hn] at hlt; unfold copyLen at hlt; omega
        obtain ⟨b, hb⟩ : ∃ b, m.reqData[acc.length]? = some b := ⟨_, List.getElem?_eq_getElem hin⟩
        rw [hb]
        refine ⟨_, rfl, keep _ ⟨hlen, hn, by simp; omega, ?_⟩ trivial⟩
        have hbr : msg[acc.length]? = some b := by
          have := hm.2.2.1
          rw [← this, List.getElem?_take_of_lt hir]
          exact hb
        simp only [List.length_append, List.length_cons, List.length_nil]
        rw [take_succ_get _ _ _ hbr, ← htake]
      · rw [if_neg hlt]
        have hnacc : acc.length = n := by omega
        have hsh : Shows msg cap len acc := by
          refine ⟨hlen, ?_⟩
          have hrlen : msg.length ≤ dataSize k.reqSize := by
            have := congrArg List.length hm.2.2.1
            rw [List.length_take, hrq] at this
            omega
          rw [htake, hnacc, hn]
          unfold copyLen
          rw [hlen]
          have h1 : min (min msg.length cap.toNat) (dataSize k.reqSize) = min cap.toNat msg.length := by omega
          rw [h1, List.take_eq_take_iff]
          omega
        refine ⟨.requested msg true, by simp [Follows, Chan.next, hsh], hub, hrq, hrs, ?_, ?_, trivial, trivial⟩
        · exact ⟨hm.1, hm.2.1, hm.2.2.1, fun _ => rfl⟩
        · cases c <;> first | trivial | exact hc
  | send1 r =>
    cases ch with
    | answered _ => exact hs.elim
    | requested msg seen => exact ⟨_, rfl, keep _ ⟨hs.1, hs.2, rfl⟩ ht⟩
  | send2 r qn =>
    cases ch with
    | answered _ => exact hs.elim
    | requested msg seen => exact ⟨_, rfl, keep _ ⟨hs.1, hs.2.1, hs.2.2, Nat.zero_le _, by simp⟩ ht⟩
  | sendCopy r qn i =>
    cases ch with
    | answered _ => exact hs.elim
    | requested msg seen =>
      obtain ⟨rfl, hlen, rfl, hi, htake⟩ := hs
      simp only [step, sStep]
      cases hb : r[i]? with
      | some b =>
        have hil : i < r.length := (List.getElem?_eq_some_iff.mp hb).1
        have hir : i < m.respData.length := by omega
        simp only [poke, hir, if_true]
        refine ⟨.requested msg true, rfl, hub, hrq, by simpa using hrs, hm, ?_, ⟨rfl, hlen, rfl, hil, ?_⟩, ht⟩
        · cases c <;> first | trivial | exact hc | exact hc.elim
        · rw [take_set_succ _ _ _ hir, take_succ_get _ _ _ hb, htake]
      | none =>
        have hil : r.length ≤ i := List.getElem?_eq_none_iff.mp hb
        have hieq : i = r.length := by omega
        subst hieq
        refine ⟨.answered r, rfl, hub, hrq, hrs, ?_, ?_, trivial, trivial⟩
        · refine ⟨rfl, len_ofNat (by have := dataSize_lt k.respSize; omega), ?_, ?_⟩
          · dsimp only; rw [htake, List.take_length]
          · exact ht
        · cases c <;> first | trivial | exact hc | exact hc.elim | exact ⟨hc.1, Or.inr hc.2⟩

theorem sim_step {k : Cfg} (h1 : 8 ≤ k.reqSize.toNat) (h2 : 8 ≤ k.respSize.toNat) {y : Sys}
    {ch : Chan} (h : Sim k y ch) (e : Ev) :
    ∃ ch', Follows ch (step k y e).2 ch' ∧ Sim k (step k y e).1 ch' := by
  cases e with
  | cStep => exact sim_client h
  | sStep => exact sim_server h
  | cSend msg =>
    simp only [step]
    by_cases hx : y.c = .idle ∧ msg.length < 65536
    · rw [if_pos hx]
      split
      · exact ⟨ch, by cases ch <;> rfl, h⟩
      · rename_i hr
        rw [room_eq h1] at hr
        refine ⟨ch, rfl, h.ub, h.reqLen, h.respLen, h.mem, ?_, h.srv, h.tod⟩
        have : msg.length ≤ dataSize k.reqSize := by omega
        cases ch <;> exact this
    · rw [if_neg hx]; exact ⟨ch, rfl, h⟩
  | cRecv cap =>
    simp only [step]
    split
    · exact ⟨ch, rfl, h.ub, h.reqLen, h.respLen, h.mem, by cases ch <;> trivial, h.srv, h.tod⟩
    · exact ⟨ch, rfl, h⟩
  | sRecv cap =>
    simp only [step]
    split
    · exact ⟨ch, rfl, h.ub, h.reqLen, h.respLen, h.mem, h.cli, by cases ch <;> trivial, trivial⟩
    · exact ⟨ch, rfl, h⟩
  | sSend msg =>
    simp only [step]
    by_cases hx : y.s = .idle ∧ y.todo = true ∧ msg.length < 65536
    · rw [if_pos hx]
      have hmem := h.mem
      cases ch with
      | answered r => exact absurd (hmem.2.2.2.symm.trans hx.2.1) (by simp)
      | requested q seen =>
        have hseen : seen = true := hmem.2.2.2 hx.2.1
        split
        · refine ⟨.requested q seen, rfl, h.ub, h.reqLen, h.respLen, ?_, h.cli, h.srv, ?_⟩
          · exact ⟨hmem.1, hmem.2.1, hmem.2.2.1, by simp⟩
          · rw [hx.1]; trivial
        · rename_i hr
          rw [room_eq h2] at hr
          refine ⟨.requested q seen, rfl, h.ub, h.reqLen, h.respLen, ?_, h.cli, ?_, rfl⟩
          · exact ⟨hmem.1, hmem.2.1, hmem.2.2.1, by simp⟩
          · exact ⟨hseen, by omega⟩
    · rw [if_neg hx]; exact ⟨ch, rfl, h⟩

theorem accepts_append (os ps : List Obs) : ∀ ch : Chan,
    ch.accepts (os ++ ps) = (ch.accepts os).bind fun ch' => ch'.accepts ps := by
  induction os with
  | nil => intro ch; rfl
  | cons o os ih =>
    intro ch
    simp only [List.cons_append, Chan.accepts]
    cases ch.next o with
    | none => rfl
    | some ch' => exact ih ch'

theorem sim_run {k : Cfg} (h1 : 8 ≤ k.reqSize.toNat) (h2 : 8 ≤ k.respSize.toNat) (es : List Ev) :
    ∀ {y : Sys} {ch : Chan}, Sim k y ch →
    ∃ ch', ch.accepts (run k y es).2 = some ch' ∧ Sim k (run k y es).1 ch' := by
  induction es with
  | nil => intro y ch h; exact ⟨ch, rfl, h⟩
  | cons e es ih =>
    intro y ch h
    obtain ⟨ch1, hf, hs⟩ := sim_step h1 h2 h e
    obtain ⟨ch2, ha, hs2⟩ := ih hs
    refine ⟨ch2, ?_, hs2⟩
    simp only [run]
    rw [accepts_append]
    unfold Follows at hf
    split at hf
    · rename_i ho
      rw [ho]
      subst hf
      exact ha
    · rename_i o ho
      rw [ho]
      simp only [Option.toList, Chan.accepts, hf, Option.bind_some]
      exact ha

end WolfHsm.Mem

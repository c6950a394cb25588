import Verif.Proofs.Server
import Verif.Proofs.AuthAny
import Verif.Props.Comm

/-! # Requests of clients, and sessions on the request path -/

namespace WolfHsm.Server

open Comm (Rx header header_length)
open Wire
open Utils (magicNative magicSwap)

variable {R : Type}

/-- A client's request: the payload the client gets and the device after it. -/
theorem handle_client (cfg : Cfg R) (hf : Fits cfg) (d : Dev R) (x : Nat) (cle : Bool)
    (kind seq aux aux' : UInt16) (data junk : List UInt8) (hd : data.length ≤ cfg.comm.dataLen)
    (txs : List Rc) (hc : (d.ctx x).connected = true) (ht : Accepts txs) {q : List UInt8 × Dev R}
    (hq : answer cfg d x kind ⟨if cfg.le = cle then magicNative else magicSwap, actionOf kind, seq,
      data ++ junk, data.length⟩ = q) :
    ∃ pkt, handle cfg d x (Rx.of (header cle magicNative kind seq aux ++ data) junk) aux' txs =
        ((some .ok, [pkt]), q.2) ∧ SeenAs cfg cle pkt kind seq q.1 := by
  have hr := received_client cfg hf.2.1 cle kind seq aux data junk hd
  have hh := handle_received cfg d x (Rx.of (header cle magicNative kind seq aux ++ data) junk) aux' txs
    hc (by rw [hr])
  have hq' : answer cfg d x (received cfg (Rx.of (header cle magicNative kind seq aux ++ data) junk)).kind
      (reqOf (received cfg (Rx.of (header cle magicNative kind seq aux ++ data) junk))
        (Rx.of (header cle magicNative kind seq aux ++ data) junk)) = q := by
    rw [hr, ← hq]
    unfold reqOf Rx.of
    dsimp only
    rw [List.append_assoc, List.drop_left' (header_length ..)]
  have hl : q.1.length ≤ cfg.comm.dataLen := by
    rw [← hq]; exact answer_length hf d x kind _ hd
  rw [hq', hr] at hh
  dsimp only at hh
  rw [sendLoop_accepts cfg _ _ _ _ hl ht] at hh
  refine ⟨_, hh, ?_⟩
  intro c h1' h2' h3' h4' now junk'
  obtain ⟨magic', pkt, e1, e2, e3⟩ := Props.C25_exchange cfg.comm hf.2.1 cle cfg.le kind seq aux aux' data junk
    q.1 junk' hd hl
  have hm : magic' = if cfg.le = cle then magicNative else magicSwap := by
    have e := e1.symm.trans hr
    injection e with _ e _
  subst hm
  have hp : pkt = header cfg.le (if cfg.le = cle then magicNative else magicSwap) kind seq aux' ++ q.1 := by
    unfold Comm.serverPacket at e2
    rw [if_neg (by omega)] at e2
    exact (Option.some.inj e2).symm
  rw [← hp]
  exact e3 c h1' h2' h3' h4' now none (by simp)

/-! ## Sessions -/

theorem disconnect_unused {s : Auth.St} (h : Auth.Unused s.users) (x : Nat) :
    Auth.Unused (Auth.disconnect s x).users := Auth.act_unused (cfg := ⟨fun _ => none, true, false,
      fun _ _ => false, true, false, none⟩) h x .disconnect

theorem disconnect_sess (s : Auth.St) (x y : Nat) :
    (Auth.disconnect s x).sess y = s.sess y ∨ (Auth.disconnect s x).sess y = Auth.Session.none := by
  rcases Auth.disconnect_eq s x with ⟨us, ⟨h, _⟩ | ⟨h, _⟩⟩
  · rw [h]
    by_cases e : y = x
    · subst e; exact Or.inr (Auth.upd_self ..)
    · exact Or.inl (Auth.upd_ne e)
  · rw [h]; exact Or.inl rfl

/-- What a step can do to users and sessions of context `y`: nothing, end the session, or an
authentication call on a received request of the authentication group. -/
def Moves (cfg : Cfg R) (d : Dev R) (e : Ev) (s' : Auth.St) : Prop :=
  (Auth.Unused d.auth.users → Auth.Unused s'.users) ∧
  ((∀ y, s'.sess y = d.auth.sess y ∨ s'.sess y = Auth.Session.none) ∨
   ∃ x rx aux txs, e = .request x rx aux txs ∧ (received cfg rx).rc = .ok ∧
     groupOf (received cfg rx).kind = 0x0D00 ∧ ∃ c, s' = (Auth.act cfg.auth d.auth x c).2 ∧
      (∀ m name data, c = .login m name data → actionOf (received cfg rx).kind = 0 ∧
        parseLogin cfg (reqOf (received cfg rx) rx) = .ok (m, name, data)) ∧
      c ≠ .disconnect ∧ ∀ n p m q, c ≠ .provision n p m q)

theorem drop_moves (cfg : Cfg R) (d : Dev R) (x : Nat) (e : Ev) : Moves cfg d e (drop cfg d x).auth := by
  unfold drop
  dsimp only
  split
  · exact ⟨fun h => disconnect_unused h x, Or.inl fun y => disconnect_sess ..⟩
  · exact ⟨fun h => h, Or.inl fun y => Or.inl rfl⟩

theorem same_moves (cfg : Cfg R) (d : Dev R) (e : Ev) {s' : Auth.St} (hu : s'.users = d.auth.users)
    (hs : s'.sess = d.auth.sess) : Moves cfg d e s' :=
  ⟨fun h => by rw [hu]; exact h, Or.inl fun y => Or.inl (by rw [hs])⟩

theorem step_moves (cfg : Cfg R) (d : Dev R) (e : Ev) : Moves cfg d e (step cfg d e).2.auth := by
  cases e with
  | start x b =>
    show Moves cfg d _ (start cfg d x b).auth
    unfold start
    dsimp only
    split
    · refine ⟨fun h => disconnect_unused h x, Or.inl fun y => ?_⟩
      unfold Auth.reset
      dsimp only
      by_cases e : y = x
      · subst e; exact Or.inr (Auth.upd_self ..)
      · rw [Auth.upd_ne e]; exact disconnect_sess ..
    · exact same_moves cfg d _ rfl rfl
  | connect x => exact same_moves cfg d _ rfl rfl
  | drop x => exact drop_moves cfg d x _
  | request x rx aux txs =>
    show Moves cfg d _ (handle cfg d x rx aux txs).2.auth
    by_cases h : (d.ctx x).connected = true ∧ (received cfg rx).rc = .ok
    · rw [handle_received cfg d x rx aux txs h.1 h.2]
      dsimp only
      unfold answer
      dsimp only
      split
      · exact same_moves cfg d _ rfl rfl
      · unfold dispatch
        split
        · unfold handleComm
          dsimp only
          (repeat' split) <;> first
            | exact same_moves cfg d _ rfl rfl
            | exact drop_moves cfg d x _
        · split
          · rename_i hg
            split
            · dsimp only
              rcases handleAuth_act cfg d.auth x (reqOf (received cfg rx) rx) with h' | ⟨c, h1, h2, h3⟩
              · rw [h']; exact same_moves cfg d _ rfl rfl
              · rw [h1]
                exact ⟨fun hu => Auth.act_unused hu x c,
                  Or.inr ⟨x, rx, aux, txs, rfl, h.2, hg, c, rfl, h2, h3⟩⟩
            · exact same_moves cfg d _ rfl rfl
          · split
            · exact same_moves cfg d _ rfl rfl
            · split <;> exact same_moves cfg d _ rfl rfl
    · rw [(handle_nothing cfg d x rx aux txs (by
        by_cases hc : (d.ctx x).connected = true
        · exact Or.inr fun e => h ⟨hc, e⟩
        · exact Or.inl (by simpa using hc))).2]
      exact same_moves cfg d _ rfl rfl

theorem run_unused (cfg : Cfg R) (es : List Ev) : ∀ d : Dev R, Auth.Unused d.auth.users →
    Auth.Unused (run cfg d es).2.auth.users := by
  induction es with
  | nil => exact fun _ h => h
  | cons e es ih => exact fun d h => ih _ ((step_moves cfg d e).1 h)

/-! ## Fields of the received bytes -/

theorem rdBytes_take {buf : List UInt8} {k off n : Nat} (h : off + n ≤ k) :
    rdBytes (buf.take k) off n = rdBytes buf off n := by
  unfold rdBytes
  rw [List.drop_take, List.take_take, Nat.min_eq_left (by omega)]

theorem rd16_take {le : Bool} {m : UInt16} {buf : List UInt8} {k off : Nat} (h : off + 2 ≤ k) :
    rd16 le m (buf.take k) off = rd16 le m buf off := by
  have := rdBytes_take (buf := buf) h
  unfold rdBytes at this
  unfold rd16
  rw [this]

theorem rd32_take {le : Bool} {m : UInt16} {buf : List UInt8} {k off : Nat} (h : off + 4 ≤ k) :
    rd32 le m (buf.take k) off = rd32 le m buf off := by
  have := rdBytes_take (buf := buf) h
  unfold rdBytes at this
  unfold rd32
  rw [this]

/-- The payload is the start of the packet buffer after the header. -/
theorem received_payload {cfg : Cfg R} {rx : Rx} (hr : (received cfg rx).rc = .ok) :
    (received cfg rx).payload = (rx.buf.drop 8).take (received cfg rx).payload.length := by
  have key : ∃ k, (received cfg rx).payload = (rx.buf.drop 8).take k := by
    revert hr
    unfold received Comm.serverRecv
    dsimp only
    (repeat' split) <;> intro h <;> first | exact ⟨_, rfl⟩ | exact ⟨0, rfl⟩
  obtain ⟨k, hk⟩ := key
  have hl : (received cfg rx).payload.length = min k (rx.buf.drop 8).length := by
    rw [hk, List.length_take]
  rw [hl, hk]
  rcases Nat.le_total k (rx.buf.drop 8).length with h | h
  · rw [Nat.min_eq_left h]
  · rw [Nat.min_eq_right h, List.take_length, List.take_of_length_le h]

/-- A login request, in terms of the bytes received. -/
theorem parseLogin_bytes {cfg : Cfg R} (hm : cfg.comm.mtu < 65536) {rx : Rx} (hr : (received cfg rx).rc = .ok)
    {m : UInt16} {name data : List UInt8}
    (h : parseLogin cfg (reqOf (received cfg rx) rx) = .ok (m, name, data)) :
    36 + data.length ≤ (received cfg rx).payload.length ∧
    m = rd16 cfg.le (received cfg rx).magic (received cfg rx).payload 0 ∧
    name = Auth.nameOf (rdBytes (received cfg rx).payload 2 32) ∧
    data = rdBytes (received cfg rx).payload 36
      (rd16 cfg.le (received cfg rx).magic (received cfg rx).payload 34).toNat := by
  have hp := received_payload hr
  have hsz := received_size (cfg := cfg) (rx := rx)
  generalize received cfg rx = g at *
  obtain ⟨rc, magic, kind, seq, payload⟩ := g
  dsimp only at *
  unfold parseLogin reqOf at h
  dsimp only at h
  split at h
  · cases h
  · split at h
    · cases h
    · rename_i h1 h2
      injection h with h
      injection h with ha h
      injection h with hb hc
      generalize hk : payload.length = k at *
      rw [hp]
      rw [rd16_take (by omega), rd16_take (by omega), rdBytes_take (by omega)]
      generalize hn : (rd16 cfg.le magic (rx.buf.drop 8) 34).toNat = n at *
      have hn' : n ≤ cfg.comm.dataLen - 36 ∧ (36 + n) % 65536 ≤ k := by
        constructor
        · have := fun q => h2 (Or.inl q); omega
        · have := fun q => h2 (Or.inr q); omega
      unfold Comm.Cfg.mtu at hm
      have hlt : 36 + n ≤ k := by omega
      rw [rdBytes_take hlt]
      refine ⟨?_, ha.symm, hb.symm, hc.symm⟩
      have : data.length ≤ n := by rw [← hc]; unfold rdBytes; exact List.length_take_le ..
      omega

theorem group_div (k : UInt16) : (groupOf k).toNat / 256 = k.toNat / 256 ∧ (actionOf k).toNat = k.toNat % 256 := by
  unfold groupOf actionOf
  constructor
  · rw [UInt16.toNat_and]
    show (k.toNat &&& 65280) / 256 = _
    have h := Nat.and_div_two_pow (a := k.toNat) (b := 65280) (n := 8)
    have h2 : (65280 : Nat) / 2 ^ 8 = 2 ^ 8 - 1 := by decide
    rw [show (256 : Nat) = 2 ^ 8 by decide, h, h2, Nat.and_two_pow_sub_one_eq_mod]
    have := k.toNat_lt
    omega
  · rw [UInt16.toNat_and]
    show k.toNat &&& 255 = _
    exact Nat.and_two_pow_sub_one_eq_mod k.toNat 8

end WolfHsm.Server

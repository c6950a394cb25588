import Verif.Proofs.ServerClient
import Verif.Proofs.ClientAuth
import Verif.Props.Auth

/-!
# C27, C28, and C25, C30, C32 at the level of request packets
-/

namespace WolfHsm.Props

open Comm (Rx header header_length)
open Server

variable {R : Type}

/-! ## A concrete device -/

namespace SrvDemo

/-- Big-endian server with packets of 1280 bytes; the handlers of the other groups write the
request into object 7, where the NVM group asks for it, and echo it. -/
def cfg : Cfg Unit where
  comm := ⟨1280, true⟩
  le := false
  auth := AuthDemo.cfg
  enableAuth := true
  globalKeys := false
  noCrypto := true
  dma := false
  she := false
  certs := false
  serverId := 5
  info := Vector.replicate 12 1
  version := Vector.replicate 18 65
  handler := fun g _ _ r m =>
    ((.ok, r.data), if g = .nvm ∧ r.action = 4 then
      ({ m.1 with store := m.1.store.set ⟨7, 0, 0, 0, Vector.replicate 24 0⟩ r.data }, ()) else m)

/-- A device with users adm and bob, where adm is logged in on connection 0, bob on
connection 1, and nobody on connection 2. -/
def dev : Dev Unit where
  auth := Auth.run AuthDemo.cfg (AuthDemo.blank AuthDemo.fine) AuthDemo.bobIn
  rest := ()
  ctx := fun _ => ⟨true, 1, true⟩

/-- The same hardware after its first start: no users. -/
def idle : Dev Unit :=
  { dev with auth := Auth.run AuthDemo.cfg (AuthDemo.blank AuthDemo.fine) [.restart false] }

/-- A packet of a little-endian client. -/
def pkt (kind seq : UInt16) (body : List UInt8) : Rx :=
  Rx.of (header true Utils.magicNative kind seq 0 ++ body) [1, 2, 3]

theorem fits : Fits cfg := by
  refine ⟨by decide, by decide, ?_⟩
  intro g y c r m h
  show (r.data).length ≤ 1280
  unfold Req.data
  rw [List.length_take]
  have : r.size ≤ 1280 := h
  omega

theorem authOn : AuthOn cfg := ⟨rfl, rfl⟩

theorem fresh : Fresh cfg dev := ⟨_, _, fun _ => rfl, rfl⟩

/-- The transport is not ready twice, then takes the packet. -/
def txs : List Rc := [.notready, .notready, .ok]
theorem accepts : Accepts txs := ⟨2, [], rfl⟩

end SrvDemo

/-! ## C27: one response per request -/

/-- **C27**, safety half, for every configuration and every behaviour of the handlers and the
transport: a poll sends nothing, or it received a request and sends one packet, whose magic, kind
and sequence number are those of the request. -/
theorem C27_never_more (cfg : Cfg R) (d : Dev R) (x : Nat) (rx : Rx) (aux : UInt16) (txs : List Rc) :
    (handle cfg d x rx aux txs).1.2 = [] ∨
    ((d.ctx x).connected = true ∧ (received cfg rx).rc = .ok ∧
      ∃ payload, (handle cfg d x rx aux txs).1 = (some .ok,
        [header cfg.le (received cfg rx).magic (received cfg rx).kind (received cfg rx).seq aux ++ payload])) := by
  by_cases h : (d.ctx x).connected = true ∧ (received cfg rx).rc = .ok
  · rw [handle_received cfg d x rx aux txs h.1 h.2]
    rcases sendLoop_spec cfg (received cfg rx).magic (received cfg rx).kind (received cfg rx).seq aux
      (answer cfg d x (received cfg rx).kind (reqOf (received cfg rx) rx)).1 txs with h' | h'
    · exact Or.inl h'
    · exact Or.inr ⟨h.1, h.2, _, h'⟩
  · left
    refine (handle_nothing cfg d x rx aux txs ?_).1
    by_cases hc : (d.ctx x).connected = true
    · exact Or.inr fun e => h ⟨hc, e⟩
    · exact Or.inl (by simpa using hc)

/-- **C27** for packets of any kind, well-formed or not, authorised or not: a received request is
answered by exactly one packet with its kind and sequence number, and the answer is produced
whatever the handler's own result.  Partial: the handlers outside `wh_server.c` and
`wh_server_auth.c` are assumed to give responses that fit the packet buffer (`Fits`), and the
transport to take the packet in the end. -/
theorem C27_one_response_partial (cfg : Cfg R) (hf : Fits cfg) (d : Dev R) (x : Nat) (rx : Rx) (aux : UInt16)
    (txs : List Rc) (hc : (d.ctx x).connected = true) (hr : (received cfg rx).rc = .ok) (ht : Accepts txs) :
    ∃ payload, payload.length ≤ cfg.comm.dataLen ∧
      (handle cfg d x rx aux txs).1 = (some .ok,
        [header cfg.le (received cfg rx).magic (received cfg rx).kind (received cfg rx).seq aux ++ payload]) := by
  rw [handle_received cfg d x rx aux txs hc hr]
  have hl := answer_length hf d x (received cfg rx).kind (reqOf (received cfg rx) rx) received_size
  exact ⟨_, hl, sendLoop_accepts cfg _ _ _ _ hl ht⟩

/-- **C27** from the client's side: whatever a client of either byte order puts into a request, the
one packet sent back is for it the response to that request. -/
theorem C27_client_sees_partial (cfg : Cfg R) (hf : Fits cfg) (d : Dev R) (x : Nat) (cle : Bool)
    (kind seq aux aux' : UInt16) (data junk : List UInt8) (hd : data.length ≤ cfg.comm.dataLen)
    (txs : List Rc) (hc : (d.ctx x).connected = true) (ht : Accepts txs) :
    ∃ pkt payload, (handle cfg d x (Rx.of (header cle Utils.magicNative kind seq aux ++ data) junk) aux' txs).1 =
        (some .ok, [pkt]) ∧ SeenAs cfg cle pkt kind seq payload := by
  obtain ⟨magic, _, h1, _, _⟩ := C25_exchange cfg.comm hf.2.1 cle cfg.le kind seq aux aux' data junk [] []
    hd (Nat.zero_le _)
  have hr : received cfg (Rx.of (header cle Utils.magicNative kind seq aux ++ data) junk) =
      ⟨.ok, magic, kind, seq, data⟩ := h1
  obtain ⟨payload, hl, h⟩ := C27_one_response_partial cfg hf d x
    (Rx.of (header cle Utils.magicNative kind seq aux ++ data) junk) aux' txs hc (by rw [hr]) ht
  rw [hr] at h
  refine ⟨_, payload, h, ?_⟩
  intro c h1' h2' h3' h4' now junk'
  obtain ⟨magic', pkt, e1, e2, e3⟩ := C25_exchange cfg.comm hf.2.1 cle cfg.le kind seq aux aux' data junk
    payload junk' hd hl
  have hm : magic' = magic := by
    rw [h1] at e1; injection e1 with _ e _; exact e.symm
  subst hm
  have hp : pkt = header cfg.le magic' kind seq aux' ++ payload := by
    unfold Comm.serverPacket at e2
    rw [if_neg (by omega)] at e2
    exact (Option.some.inj e2).symm
  rw [← hp]
  exact e3 c h1' h2' h3' h4' now none (by simp)

/-- **C27** over histories: the responses of a device are, in order, one for each request it
received, on whichever contexts, with connections coming and going. -/
theorem C27_history_partial (cfg : Cfg R) (hf : Fits cfg) (es : List Ev) : ∀ (d : Dev R),
    (∀ e ∈ es, e.Sendable) →
    List.Forall₂ (fun q p => ∃ payload, p = header cfg.le q.1 q.2.1 q.2.2.1 q.2.2.2 ++ payload)
      (asked cfg d es) (run cfg d es).1 := by
  induction es with
  | nil => intro d _; exact List.Forall₂.nil
  | cons e es ih =>
    intro d hs
    have hrest := ih (step cfg d e).2 fun q hq => hs q (List.mem_cons_of_mem _ hq)
    unfold run asked
    cases e with
    | request x rx aux txs =>
      dsimp only
      by_cases h : (d.ctx x).connected = true ∧ (received cfg rx).rc = .ok
      · rw [if_pos h]
        obtain ⟨payload, _, hp⟩ := C27_one_response_partial cfg hf d x rx aux txs h.1 h.2
          (hs (.request x rx aux txs) List.mem_cons_self)
        have e1 : (step cfg d (.request x rx aux txs)).1 = (handle cfg d x rx aux txs).1.2 := rfl
        rw [e1, hp]
        exact List.Forall₂.cons ⟨payload, rfl⟩ hrest
      · rw [if_neg h]
        have e1 : (step cfg d (.request x rx aux txs)).1 = (handle cfg d x rx aux txs).1.2 := rfl
        rw [e1, (handle_nothing cfg d x rx aux txs ?_).1]
        · exact hrest
        · by_cases hc : (d.ctx x).connected = true
          · exact Or.inr fun e => h ⟨hc, e⟩
          · exact Or.inl (by simpa using hc)
    | start x b => exact hrest
    | connect x => exact hrest
    | drop x => exact hrest

/-- Malformed (unknown group, empty) and well-formed requests are answered once. -/
example : ((handle SrvDemo.cfg SrvDemo.dev 0 (SrvDemo.pkt 0x0204 8 [9, 9]) 0 SrvDemo.txs).1.2.length = 1) ∧
    (handle SrvDemo.cfg SrvDemo.dev 0 (SrvDemo.pkt 0xEE77 8 []) 0 SrvDemo.txs).1.2.length = 1 ∧
    (received SrvDemo.cfg (SrvDemo.pkt 0x0204 8 [9, 9])).rc = .ok ∧
    (run SrvDemo.cfg SrvDemo.dev [.request 0 (SrvDemo.pkt 0x0204 8 [9, 9]) 0 SrvDemo.txs, .drop 0,
      .request 0 (SrvDemo.pkt 0x0204 9 [9, 9]) 0 SrvDemo.txs,
      .request 1 (SrvDemo.pkt 0x0105 1 [4]) 0 SrvDemo.txs]).1.length = 2 := by decide +kernel

/-! ## C28: nothing without a login -/

/-- **C28.** On a connection where no user is logged in, a request that is neither of the
communication group nor a login is refused: the device does not change at all, and every client
byte order reads the permission error as the first word of the answer. -/
theorem C28_refused (cfg : Cfg R) (hf : Fits cfg) (ha : AuthOn cfg) (d : Dev R) (x : Nat)
    (hx : (d.ctx x).hasAuth = true) (hc : (d.ctx x).connected = true) (hs : (d.auth.sess x).id = 0)
    (cle : Bool) (kind seq aux aux' : UInt16) (data junk : List UInt8)
    (hd : data.length ≤ cfg.comm.dataLen) (txs : List Rc) (ht : Accepts txs)
    (hk : kind &&& 0xFF00 ≠ 0x0100) (hl : kind ≠ 0x0D00) :
    (handle cfg d x (Rx.of (header cle Utils.magicNative kind seq aux ++ data) junk) aux' txs).2 = d ∧
    ∃ pkt payload, (handle cfg d x (Rx.of (header cle Utils.magicNative kind seq aux ++ data) junk) aux' txs).1 =
        (some .ok, [pkt]) ∧ SeenAs cfg cle pkt kind seq payload ∧
      Wire.rd32 cle Utils.magicNative payload 0 = Rc.authPermissionError.code := by
  have hr := received_client cfg hf.2.1 cle kind seq aux data junk hd
  have hans := answer_refused ha d x hx hs kind
    (reqOf (received cfg (Rx.of (header cle Utils.magicNative kind seq aux ++ data) junk))
      (Rx.of (header cle Utils.magicNative kind seq aux ++ data) junk)) (by rw [hr]; rfl) hk hl
  have hh := handle_received cfg d x (Rx.of (header cle Utils.magicNative kind seq aux ++ data) junk) aux' txs
    hc (by rw [hr])
  rw [show (received cfg (Rx.of (header cle Utils.magicNative kind seq aux ++ data) junk)).kind = kind by
    rw [hr], hans] at hh
  refine ⟨by rw [hh], ?_⟩
  obtain ⟨pkt, payload, h1, h2⟩ := C27_client_sees_partial cfg hf d x cle kind seq aux aux' data junk hd txs hc ht
  refine ⟨pkt, payload, h1, h2, ?_⟩
  -- the payload is the refusal
  have hlen : (refusal cfg (groupOf kind)
      (reqOf (received cfg (Rx.of (header cle Utils.magicNative kind seq aux ++ data) junk))
      (Rx.of (header cle Utils.magicNative kind seq aux ++ data) junk))).length ≤ cfg.comm.dataLen :=
    Nat.le_trans (refusal_length ..) (by have := hf.1; omega)
  rw [hh] at h1
  dsimp only at h1
  rw [sendLoop_accepts cfg _ _ _ _ hlen ht, hr] at h1
  injection h1 with _ h1
  injection h1 with h1 _
  obtain ⟨magic', pkt', e1, e2, e3⟩ := C25_exchange cfg.comm hf.2.1 cle cfg.le kind seq aux aux' data junk
    _ [] hd hlen
  have hm : magic' = if cfg.le = cle then Utils.magicNative else Utils.magicSwap := by
    have e := e1.symm.trans hr
    injection e with _ e _
  have hp : pkt' = pkt := by
    unfold Comm.serverPacket at e2
    rw [if_neg (by omega)] at e2
    rw [← h1, ← Option.some.inj e2, hm]
    simp only [hr]
  let c : Comm.Client := ⟨cle, true, true, seq, Timeout.init none none⟩
  have q1 := h2 c rfl rfl rfl rfl 0 []
  have q2 := e3 c rfl rfl rfl rfl 0 none (by simp)
  rw [hp, q1] at q2
  injection q2 with _ _ _ _ q2
  rw [q2]
  obtain ⟨rest, hrest⟩ := refusal_prefix cfg (groupOf kind)
    (reqOf (received cfg (Rx.of (header cle Utils.magicNative kind seq aux ++ data) junk))
      (Rx.of (header cle Utils.magicNative kind seq aux ++ data) junk))
  rw [hrest]
  exact Wire.rd32_at (pre := []) (Wire.paired_server cle cfg.le (by rw [hr]; rfl)) _ rfl

/-- **C28**, effects: a poll on a connection where no user is logged in, whatever is received and
whatever the transport does, changes no key, NVM object, counter, certificate or user. -/
theorem C28_no_effect (cfg : Cfg R) (ha : AuthOn cfg) (d : Dev R) (x : Nat)
    (hx : (d.ctx x).hasAuth = true) (hs : (d.auth.sess x).id = 0) (rx : Rx) (aux : UInt16) (txs : List Rc) :
    Same d (handle cfg d x rx aux txs).2 :=
  handle_same ha d x hx hs rx aux txs

/-- **C28** over histories: as long as nobody logs in, a device keeps its keys, NVM objects and
users through any number of requests on any number of connections. -/
theorem C28_history (cfg : Cfg R) (ha : AuthOn cfg) (es : List Ev) : ∀ d : Dev R,
    (∀ x, (d.ctx x).hasAuth = true) → (∀ e ∈ es, e.WithAuth) → Nobody cfg d es →
    Same d (run cfg d es).2 := by
  induction es with
  | nil => intro d _ _ _; exact Same.refl d
  | cons e es ih =>
    intro d hx hw hn
    have hstep : Same d (step cfg d e).2 ∧ ∀ y, ((step cfg d e).2.ctx y).hasAuth = true := by
      cases e with
      | start x b =>
        refine ⟨start_same cfg d x b, fun y => ?_⟩
        have hb : b = true := hw (.start x b) List.mem_cons_self
        show (Auth.upd d.ctx x _ y).hasAuth = true
        unfold Auth.upd; split
        · exact hb
        · exact hx y
      | connect x =>
        refine ⟨⟨rfl, rfl, rfl, rfl, rfl⟩, fun y => ?_⟩
        show (Auth.upd d.ctx x _ y).hasAuth = true
        unfold Auth.upd; split
        · exact hx x
        · exact hx y
      | drop x =>
        refine ⟨drop_same cfg d x, fun y => ?_⟩
        show (Auth.upd d.ctx x _ y).hasAuth = true
        unfold Auth.upd; split
        · exact hx x
        · exact hx y
      | request x rx aux txs =>
        exact ⟨handle_same ha d x (hx x) (hn.1 x) rx aux txs, fun y => by
          show ((handle cfg d x rx aux txs).2.ctx y).hasAuth = true
          rw [handle_hasAuth]; exact hx y⟩
    exact hstep.1.trans (ih _ hstep.2 (fun q hq => hw q (List.mem_cons_of_mem _ hq)) hn.2)

/-- Nobody is logged in on connection 2: a request to write an object is refused, the same request
of the administrator on connection 0 is performed. -/
example : (SrvDemo.dev.auth.sess 2).id = 0 ∧
    (handle SrvDemo.cfg SrvDemo.dev 2 (SrvDemo.pkt 0x0204 8 [9, 9]) 0 SrvDemo.txs).2.auth.nvm.store 7 = none ∧
    ((handle SrvDemo.cfg SrvDemo.dev 0 (SrvDemo.pkt 0x0204 8 [9, 9]) 0 SrvDemo.txs).2.auth.nvm.store 7).map (·.2) =
      some [9, 9] := by decide +kernel

/-- A device on which nobody is logged in, as `C28_history` asks, through requests of three kinds. -/
example : Nobody SrvDemo.cfg
    SrvDemo.idle
    [.request 0 (SrvDemo.pkt 0x0204 8 [9, 9]) 0 SrvDemo.txs, .request 1 (SrvDemo.pkt 0x0D00 8 [9, 9]) 0 SrvDemo.txs,
     .request 0 (SrvDemo.pkt 0x0105 8 [9, 9]) 0 SrvDemo.txs] := by
  have h : ∀ x, (SrvDemo.idle.auth.sess x) =
      Auth.Session.none := fun x => idle_none _ (by simp) rfl
  have hs : ∀ (d : Dev Unit) x rx, (∀ y, d.auth.sess y = Auth.Session.none) →
      ((∀ y, (handle SrvDemo.cfg d x rx 0 SrvDemo.txs).2.auth.sess y = Auth.Session.none) ∨
        ((handle SrvDemo.cfg d x rx 0 SrvDemo.txs).2.auth.sess x) ≠ Auth.Session.none) := by
    intro d x rx hd
    by_cases hx : (handle SrvDemo.cfg d x rx 0 SrvDemo.txs).2.auth.sess x = Auth.Session.none
    · left
      intro y
      obtain ⟨_, hm | ⟨z, rx', a, t, he, _, _, c, hc, _, _⟩⟩ := step_moves SrvDemo.cfg d (.request x rx 0 SrvDemo.txs)
      · rcases hm y with h | h
        · exact h.trans (hd y)
        · exact h
      · cases he
        have hc : (handle SrvDemo.cfg d x rx 0 SrvDemo.txs).2.auth = _ := hc
        by_cases e : y = x
        · subst e; exact hx
        · rw [hc]
          rcases Auth.act_sess SrvDemo.cfg.auth d.auth x c with h1 | h1 | ⟨m, name, data, i, hc, hrc, hi, h1⟩ | ⟨p, hc, hz, hrc, h1⟩
          · rw [h1]; exact hd y
          · rw [h1, Auth.upd_ne e]; exact hd y
          · rw [h1, Auth.upd_ne e]; exact hd y
          · rw [h1, Auth.upd_ne e]; exact hd y
    · exact Or.inr hx
  have z : ∀ {t : Auth.St}, (∀ y, t.sess y = Auth.Session.none) → ∀ y, (t.sess y).id = 0 :=
    fun h y => by rw [h y]; rfl
  have c1 := (hs SrvDemo.idle 0 (SrvDemo.pkt 0x0204 8 [9, 9]) h).resolve_right (by decide +kernel)
  have c2 := (hs _ 1 (SrvDemo.pkt 0x0D00 8 [9, 9]) c1).resolve_right (by decide +kernel)
  have c3 := (hs _ 0 (SrvDemo.pkt 0x0105 8 [9, 9]) c2).resolve_right (by decide +kernel)
  exact ⟨z h, z c1, z c2, z c3⟩

/-- Departure from C28's spirit: CLOSE is subject to the permission check like any other action.
bob has no permission for the communication group, so bob's CLOSE is refused and the session and
the connection stay. -/
theorem F_close_needs_permission :
    ((handle SrvDemo.cfg SrvDemo.dev 1 (SrvDemo.pkt 0x0103 8 []) 0 SrvDemo.txs).2.auth.sess 1).id = 2 ∧
    ((handle SrvDemo.cfg SrvDemo.dev 1 (SrvDemo.pkt 0x0103 8 []) 0 SrvDemo.txs).2.ctx 1).connected = true ∧
    ((handle SrvDemo.cfg SrvDemo.dev 2 (SrvDemo.pkt 0x0103 8 []) 0 SrvDemo.txs).2.ctx 2).connected = false := by
  decide +kernel

/-- C44 does not hold for COMM INIT: a request without payload is accepted, and the client id is
read from what the packet buffer held before. -/
theorem F_init_short_request :
    ((handle SrvDemo.cfg SrvDemo.dev 2 (Rx.of (header true Utils.magicNative 0x0101 8 0) [9, 0, 0, 0]) 0
      SrvDemo.txs).2.ctx 2).client = 9 ∧
    (received SrvDemo.cfg (Rx.of (header true Utils.magicNative 0x0101 8 0) [9, 0, 0, 0])).payload = [] := by
  decide +kernel

/-- When the authentication manager did not start (its stored database is unreadable, C31), every
request is refused, logins and COMM INIT included. -/
theorem F_auth_down_refuses_all :
    Auth.checkRequest SrvDemo.cfg.auth { SrvDemo.dev.auth with up := false } 2 0x0100 1 ≠ .ok ∧
    Auth.checkRequest SrvDemo.cfg.auth { SrvDemo.dev.auth with up := false } 2 0x0D00 0 ≠ .ok := by
  decide +kernel

/-! ## C30, C32: rights and logins at the level of packets -/

/-- **C30.** A poll that changes anything on the device received a request for which the
connection's session has the right: without a login a request of the communication group or a
login; else a logout, or an action granted by the session's permissions. -/
theorem C30_wire (cfg : Cfg R) (ha : AuthOn cfg) (d : Dev R) (x : Nat) (hx : (d.ctx x).hasAuth = true)
    (rx : Rx) (aux : UInt16) (txs : List Rc) (hch : (handle cfg d x rx aux txs).2 ≠ d) :
    (received cfg rx).rc = .ok ∧ (d.ctx x).connected = true ∧ d.auth.up = true ∧
    if (d.auth.sess x).id = 0 then
      (received cfg rx).kind.toNat / 256 = 1 ∨ (received cfg rx).kind = 0x0D00
    else (received cfg rx).kind = 0x0D01 ∨
      (d.auth.sess x).perms.Grants ((received cfg rx).kind.toNat / 256) ((received cfg rx).kind.toNat % 256) := by
  by_cases h : (d.ctx x).connected = true ∧ (received cfg rx).rc = .ok
  · refine ⟨h.2, h.1, ?_⟩
    rw [handle_received cfg d x rx aux txs h.1 h.2] at hch
    unfold answer at hch
    dsimp only at hch
    by_cases hk : Auth.checkRequest cfg.auth d.auth x (groupOf (received cfg rx).kind)
        (reqOf (received cfg rx) rx).action = .ok
    · have hk : Auth.checkRequest cfg.auth d.auth x (groupOf (received cfg rx).kind)
          (actionOf (received cfg rx).kind) = .ok := hk
      have hup : d.auth.up = true := by
        cases hu : d.auth.up with
        | true => rfl
        | false =>
          unfold Auth.checkRequest at hk
          rw [if_pos hu] at hk
          cases hk
      refine ⟨hup, ?_⟩
      have := (C30_authorised_iff cfg.auth d.auth x ha.2 hup _ _).mp hk
      have hd := group_div (received cfg rx).kind
      have hkp := kind_parts (received cfg rx).kind
      rw [hd.1, hd.2] at this
      by_cases h0 : (d.auth.sess x).id = 0
      · rw [if_pos h0] at this ⊢
        rcases this with e | ⟨e, e'⟩
        · left; rw [← hd.1, e]; rfl
        · right; rw [← hkp, e, e']; rfl
      · rw [if_neg h0] at this ⊢
        rcases this with ⟨e, e'⟩ | e
        · left; rw [← hkp, e, e']; rfl
        · exact Or.inr e
    · rw [if_pos ⟨ha.1, hx, hk⟩] at hch
      exact absurd rfl hch
  · refine absurd (handle_nothing cfg d x rx aux txs ?_).2 hch
    by_cases hc : (d.ctx x).connected = true
    · exact Or.inr fun e => h ⟨hc, e⟩
    · exact Or.inl (by simpa using hc)

/-- The hypotheses are met: the administrator's request of the NVM group changes the device. -/
example : (handle SrvDemo.cfg SrvDemo.dev 0 (SrvDemo.pkt 0x0204 8 [9, 9]) 0 SrvDemo.txs).2 ≠ SrvDemo.dev := by
  intro h
  have := congrArg (fun d : Dev Unit => (d.auth.nvm.store 7).map (·.2)) h
  revert this
  decide +kernel

/-- **C32.** Over every history of a device, whatever the handlers of the other groups do: a
connection goes from no user to a user in one way only, by a received LOGIN packet on that
connection, whose bytes are the user's method, name and matching credentials. -/
theorem C32_wire_login (cfg : Cfg R) (hm : cfg.comm.mtu < 65536) (d₀ : Dev R) (hf : Fresh cfg d₀) (es : List Ev)
    {d : Dev R} (hd : (run cfg d₀ es).2 = d) (e : Ev) (x : Nat) (h0 : (d.auth.sess x).id = 0)
    (h1 : ((step cfg d e).2.auth.sess x).id ≠ 0) :
    ∃ rx aux txs payload, e = .request x rx aux txs ∧ (received cfg rx).rc = .ok ∧
      (received cfg rx).kind = 0x0D00 ∧ (received cfg rx).payload = payload ∧
      ∃ m name data i blob,
        36 + data.length ≤ payload.length ∧ m = Wire.rd16 cfg.le (received cfg rx).magic payload 0 ∧
        name = Auth.nameOf (Wire.rdBytes payload 2 32) ∧
        data = Wire.rdBytes payload 36 (Wire.rd16 cfg.le (received cfg rx).magic payload 34).toNat ∧
        i < 5 ∧ (d.auth.users i).id ≠ 0 ∧ (d.auth.users i).name = name ∧ (d.auth.users i).active = false ∧
        (d.auth.users i).method = m ∧ Auth.Stored cfg.auth d.auth i blob ∧
        blob.length = (d.auth.users i).credLen ∧
        ((m = Auth.mPin ∧ Auth.hashPin cfg.auth data = .ok blob) ∨
         (m = Auth.mCert ∧ cfg.auth.certLogin = true ∧ cfg.auth.verify blob data = true)) ∧
        (step cfg d e).2.auth.sess x = ⟨(d.auth.users i).id, (d.auth.users i).perms⟩ := by
  have hu : Auth.Unused d.auth.users := by
    rw [← hd]
    obtain ⟨s₀, evs, hs, he⟩ := hf
    refine run_unused cfg es d₀ ?_
    rw [he]
    exact Auth.run_unused evs fun i _ => by rw [hs i]; rfl
  obtain ⟨_, hmv | ⟨y, rx, aux, txs, he, hr, hg, c, hact, hc, hnd, hnp⟩⟩ := step_moves cfg d e
  · exfalso
    rcases hmv x with h | h
    · rw [h] at h1; exact h1 h0
    · rw [h] at h1; exact h1 rfl
  · subst he
    rw [hact] at h1 ⊢
    have hyx : ∀ v, x ≠ y → Auth.upd d.auth.sess y v x = d.auth.sess x := fun v hne => Auth.upd_ne hne
    rcases Auth.act_sess cfg.auth d.auth y c with h | h | ⟨m, name, data, i, ec, hrc, hi, h⟩ | ⟨p, _, hz, _, h⟩
    · rw [h] at h1; exact absurd h0 h1
    · rw [h] at h1
      by_cases e : x = y
      · subst e; rw [Auth.upd_self] at h1; exact absurd rfl h1
      · rw [hyx _ e] at h1; exact absurd h0 h1
    · have hxy : x = y := by
        by_cases e : x = y
        · exact e
        · rw [h, hyx _ e] at h1; exact absurd h0 h1
      subst hxy
      obtain ⟨ha, hp⟩ := hc m name data ec
      subst ec
      obtain ⟨b1, b2, b3, b4⟩ := parseLogin_bytes hm hr hp
      obtain ⟨i, blob, a1, a2, a3, a4, a5, _, a7, a8, a9, a10, _⟩ := Auth.login_any hu hrc
      refine ⟨rx, aux, txs, _, rfl, hr, ?_, rfl, m, name, data, i, blob, b1, b2, b3, b4, a1, a2, a3, a4, a5, a7, a8, a9, ?_⟩
      · rw [← kind_parts (received cfg rx).kind, hg, ha]; rfl
      · rw [a10, Auth.upd_self]
    · by_cases e : x = y
      · subst e; exact absurd h0 hz
      · rw [h, hyx _ e] at h1; exact absurd h0 h1

/-- After bob's connection is lost, bob logs in on connection 2 with a packet; with a wrong PIN it
does not work. -/
example :
    ((run SrvDemo.cfg SrvDemo.dev [.drop 1]).2.auth.sess 2).id = 0 ∧
    ((run SrvDemo.cfg SrvDemo.dev [.drop 1, .request 2 (SrvDemo.pkt 0x0D00 8 ([1, 0] ++ AuthDemo.bob ++
      List.replicate 29 0 ++ [2, 0, 9, 9])) 0 SrvDemo.txs]).2.auth.sess 2).id = 2 ∧
    ((run SrvDemo.cfg SrvDemo.dev [.drop 1, .request 2 (SrvDemo.pkt 0x0D00 8 ([1, 0] ++ AuthDemo.bob ++
      List.replicate 29 0 ++ [2, 0, 9, 8])) 0 SrvDemo.txs]).2.auth.sess 2).id = 0 := by decide +kernel

/-! ## C25: the authentication API, end to end -/

/-- **C25** for every authentication call of the client library, whatever the byte orders of
client and server: the request packet built from the arguments makes the server, if the session
has the right, perform that call with those arguments on its user database (`sent`: permission
sets with the key id list cut to its count); the one response packet gives the caller the
server's result, user id and permissions; without the right the caller gets the permission error
and nothing changes. -/
theorem C25_auth_rpc (cfg : Cfg R) (hf : Fits cfg) (hon : cfg.enableAuth = true) (d : Dev R) (x : Nat)
    (hx : (d.ctx x).hasAuth = true) (hcon : (d.ctx x).connected = true) (cle : Bool) (c : Auth.Call)
    (hc : ClientAuth.CStr c) (pad : UInt8) (a : UInt16) (body : List UInt8)
    (he : ClientAuth.encode cle cfg.comm.dataLen pad c = .ok (a, body))
    (seq aux aux' : UInt16) (junk : List UInt8) (txs : List Rc) (ht : Accepts txs) :
    ∃ pkt payload d', handle cfg d x (Rx.of (header cle Utils.magicNative (0x0D00 ||| a) seq aux ++ body) junk)
        aux' txs = ((some .ok, [pkt]), d') ∧
      SeenAs cfg cle pkt (0x0D00 ||| a) seq payload ∧
      if Auth.checkRequest cfg.auth d.auth x 0x0D00 a = .ok then
        ClientAuth.decode cle a ⟨.ok, Utils.magicNative, 0x0D00 ||| a, seq, payload⟩ =
          ClientAuth.expected cfg.auth d.auth x c ∧
        d' = { d with auth := (Auth.act cfg.auth d.auth x (ClientAuth.sent c)).2 }
      else
        ClientAuth.decode cle a ⟨.ok, Utils.magicNative, 0x0D00 ||| a, seq, payload⟩ =
          ClientAuth.refusedResult a ∧ d' = d := by
  have hmtu : 8 + cfg.comm.dataLen < 65536 := hf.2.1
  obtain ⟨hl, ha⟩ := ClientAuth.encode_fits hf.1 hc (by omega) he
  have hk : groupOf (0x0D00 ||| a) = 0x0D00 ∧ actionOf (0x0D00 ||| a) = a := by
    rcases ha with h | h | h | h | h | h | h <;> subst h <;> decide
  have hp := Wire.paired_server cle cfg.le (m := if cfg.le = cle then Utils.magicNative else Utils.magicSwap) rfl
  obtain ⟨pkt, h1, h2⟩ := handle_client cfg hf d x cle (0x0D00 ||| a) seq aux aux' body junk hl txs hcon ht rfl
  refine ⟨pkt, _, _, h1, h2, ?_⟩
  unfold answer
  dsimp only
  rw [hk.1, hk.2]
  by_cases hok : Auth.checkRequest cfg.auth d.auth x 0x0D00 a = .ok
  · rw [if_pos hok, if_neg (by rintro ⟨_, _, h⟩; exact h hok)]
    obtain ⟨e1, e2⟩ := ClientAuth.handleAuth_call hp.symm hf.2.1 hf.1 hc he d.auth x seq junk
    unfold dispatch
    rw [if_neg (by decide), if_pos rfl, if_pos ⟨hon, hx⟩]
    dsimp only
    exact ⟨e2, by rw [e1]⟩
  · rw [if_neg hok, if_pos ⟨hon, hx, hok⟩]
    exact ⟨ClientAuth.dec_refusal hp ha seq _ _, rfl⟩

/-- The administrator's calls to add eve and to look bob up can be encoded; both are authorised,
and give user id 3, and bob's id and permissions. -/
example : (ClientAuth.encode true 1280 0 (.add AuthDemo.eve AuthDemo.less Auth.mPin [7])).toBool = true ∧
    Auth.checkRequest AuthDemo.cfg SrvDemo.dev.auth 0 0x0D00 2 = .ok ∧
    (ClientAuth.expected AuthDemo.cfg SrvDemo.dev.auth 0 (.add AuthDemo.eve AuthDemo.less Auth.mPin [7])).id = 3 ∧
    (ClientAuth.expected AuthDemo.cfg SrvDemo.dev.auth 0 (.get AuthDemo.bob)).id = 2 ∧
    (ClientAuth.expected AuthDemo.cfg SrvDemo.dev.auth 0 (.get AuthDemo.bob)).perms =
      some AuthDemo.nvmUser := by decide +kernel

end WolfHsm.Props

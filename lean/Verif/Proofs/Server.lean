import Verif.Spec.Server
import Verif.Proofs.Comm
import Verif.Proofs.AuthAny
import Verif.Proofs.Wire

/-! # Lemmas about the request dispatcher -/

namespace WolfHsm.Server

open Comm (Rx serverRecv serverPacket serverSend header header_length)
open Wire
open Utils (bytes32 bytes16 translate32 translate16)

variable {R : Type}

theorem simpleResp_length (cfg : Cfg R) (r : Req) (rc : Rc) : (simpleResp cfg r rc).length = 4 :=
  w32_length ..
theorem idResp_length (cfg : Cfg R) (r : Req) (rc : Rc) (id : UInt16) :
    (idResp cfg r rc id).length = 8 := by
  unfold idResp; rw [over_length]; simp [w32_length, w16_length]
theorem getResp_length (cfg : Cfg R) (r : Req) (rc : Rc) (id : UInt16) (p : List UInt8)
    (h : p.length = 473) : (getResp cfg r rc id p).length = 480 := by
  unfold getResp; rw [over_length]; simp [w32_length, w16_length, h]

/-! ## Response sizes -/

theorem handleAuth_length (cfg : Cfg R) (s : Auth.St) (x : Nat) (r : Req) :
    (handleAuth cfg s x r).1.2.length ≤ 480 := by
  unfold handleAuth handleLogin
  dsimp only
  (repeat' split) <;> first
    | (simp only [simpleResp_length, idResp_length, List.length_nil]; omega)
    | exact Nat.le_of_eq (getResp_length _ _ _ _ _ List.length_replicate)
    | exact Nat.le_of_eq (getResp_length _ _ _ _ _ (Auth.perms_bytes_length _))

theorem handleComm_length (cfg : Cfg R) (d : Dev R) (x : Nat) (r : Req) (n : Nat) (hn : 72 ≤ n)
    (hr : r.size ≤ n) : (handleComm cfg d x r).1.2.length ≤ n := by
  unfold handleComm
  dsimp only
  (repeat' split) <;> first
    | exact Nat.zero_le _
    | (simp only [List.length_append, w32_length]; omega)
    | (unfold Req.data; rw [List.length_take]; omega)
    | (rw [over_length]
       · exact hn
       · rw [List.length_append, Vector.length_toList]
         have : ∀ l : List UInt32, (l.flatMap (w32 cfg.le r.magic)).length = 4 * l.length := by
           intro l
           induction l with
           | nil => rfl
           | cons a t ih => rw [List.flatMap_cons, List.length_append, ih, w32_length, List.length_cons]; omega
         rw [this, Vector.length_toList]; omega)

theorem refusal_length (cfg : Cfg R) (g : UInt16) (r : Req) : (refusal cfg g r).length ≤ 480 := by
  unfold refusal
  dsimp only
  (repeat' split) <;> first
    | (simp only [simpleResp_length, idResp_length, List.length_append, List.length_replicate]; omega)
    | exact Nat.le_of_eq (getResp_length _ _ _ _ _ List.length_replicate)
    | (rw [over_length (by rw [simpleResp_length]; omega)]; omega)

theorem answer_length {cfg : Cfg R} (h : Fits cfg) (d : Dev R) (x : Nat) (kind : UInt16) (r : Req)
    (hr : r.size ≤ cfg.comm.dataLen) : (answer cfg d x kind r).1.length ≤ cfg.comm.dataLen := by
  obtain ⟨h1, _, h3⟩ := h
  unfold answer
  dsimp only
  split
  · exact Nat.le_trans (refusal_length ..) (by omega)
  · unfold dispatch
    dsimp only
    (repeat' split) <;> first
      | exact Nat.zero_le _
      | exact handleComm_length cfg d x r _ (by omega) hr
      | exact Nat.le_trans (handleAuth_length ..) (by omega)
      | (rw [simpleResp_length]; omega)
      | exact h3 _ _ _ _ _ hr

/-! ## Sending -/

theorem sendLoop_spec (cfg : Cfg R) (magic kind seq aux : UInt16) (data : List UInt8) (txs : List Rc) :
    (sendLoop cfg magic kind seq aux data txs).2 = [] ∨
    (sendLoop cfg magic kind seq aux data txs) =
      (some .ok, [header cfg.le magic kind seq aux ++ data]) := by
  induction txs with
  | nil => exact Or.inl rfl
  | cons tx txs ih =>
    unfold sendLoop
    dsimp only
    split
    · exact ih
    · unfold serverSend serverPacket
      by_cases hl : data.length > cfg.comm.dataLen
      · rw [if_pos hl]; exact Or.inl rfl
      · rw [if_neg hl]
        cases tx <;> first | exact Or.inr rfl | exact Or.inl rfl

theorem sendLoop_accepts (cfg : Cfg R) (magic kind seq aux : UInt16) {data : List UInt8} {txs : List Rc}
    (hd : data.length ≤ cfg.comm.dataLen) (ht : Accepts txs) :
    sendLoop cfg magic kind seq aux data txs = (some .ok, [header cfg.le magic kind seq aux ++ data]) := by
  obtain ⟨n, more, rfl⟩ := ht
  have hp : serverPacket cfg.comm cfg.le magic kind seq aux data =
      some (header cfg.le magic kind seq aux ++ data) := if_neg (by omega)
  induction n with
  | zero =>
    unfold sendLoop serverSend
    rw [hp]; rfl
  | succ n ih =>
    rw [List.replicate_succ, List.cons_append]
    unfold sendLoop serverSend
    rw [hp]
    exact ih

/-- The request handed to the handlers. -/
def reqOf (g : Comm.Got) (rx : Rx) : Req := ⟨g.magic, actionOf g.kind, g.seq, rx.buf.drop 8, g.payload.length⟩

theorem handle_received (cfg : Cfg R) (d : Dev R) (x : Nat) (rx : Rx) (aux : UInt16) (txs : List Rc)
    (hc : (d.ctx x).connected = true) (hr : (received cfg rx).rc = .ok) :
    handle cfg d x rx aux txs =
      (sendLoop cfg (received cfg rx).magic (received cfg rx).kind (received cfg rx).seq aux
        (answer cfg d x (received cfg rx).kind (reqOf (received cfg rx) rx)).1 txs,
       (answer cfg d x (received cfg rx).kind (reqOf (received cfg rx) rx)).2) := by
  unfold handle
  rw [if_neg (by rw [hc]; simp)]
  unfold received at hr
  dsimp only
  split
  · rfl
  · rename_i h; exact absurd hr h

theorem handle_nothing (cfg : Cfg R) (d : Dev R) (x : Nat) (rx : Rx) (aux : UInt16) (txs : List Rc)
    (h : (d.ctx x).connected = false ∨ (received cfg rx).rc ≠ .ok) :
    (handle cfg d x rx aux txs).1.2 = [] ∧ (handle cfg d x rx aux txs).2 = d := by
  unfold handle
  by_cases hc : (d.ctx x).connected = false
  · rw [if_pos hc]; exact ⟨rfl, rfl⟩
  · rw [if_neg hc]
    have hr : (received cfg rx).rc ≠ .ok := h.resolve_left hc
    unfold received at hr
    dsimp only
    split
    · rename_i h'; exact absurd h' hr
    · exact ⟨rfl, rfl⟩

theorem received_size {cfg : Cfg R} {rx : Rx} : (received cfg rx).payload.length ≤ cfg.comm.dataLen := by
  unfold received serverRecv
  dsimp only
  (repeat' split) <;> first
    | exact Nat.zero_le _
    | (rw [List.length_take]; omega)

/-! ## Effects -/

theorem loadCred_keeps (cfg : Auth.Cfg) (s : Auth.St) (i : Nat) :
    (Auth.loadCred cfg s i).2.nvm.store = s.nvm.store ∧
    (Auth.loadCred cfg s i).2.nvm.pending = s.nvm.pending ∧ (Auth.loadCred cfg s i).2.ram = s.ram := by
  unfold Auth.loadCred Nvm.read
  dsimp only
  (repeat' split) <;> exact ⟨rfl, rfl, rfl⟩

theorem check_keeps (cfg : Auth.Cfg) (s : Auth.St) (m : UInt16) (a b : List UInt8) :
    let t := (if m = Auth.mPin then Auth.checkPin cfg s a b
      else if m = Auth.mCert ∧ cfg.certLogin = true then Auth.checkCert cfg s a b
      else ((.badargs, none), s)).2
    t.nvm.store = s.nvm.store ∧ t.nvm.pending = s.nvm.pending ∧ t.ram = s.ram := by
  intro t
  have hl := loadCred_keeps cfg s
  simp only [t]
  split
  · unfold Auth.checkPin
    cases Auth.hashPin cfg b with
    | error rc => exact ⟨rfl, rfl, rfl⟩
    | ok hh =>
      cases Auth.findUser s a with
      | none => exact ⟨rfl, rfl, rfl⟩
      | some i =>
        dsimp only
        have hi := hl i
        generalize Auth.loadCred cfg s i = q at *
        obtain ⟨⟨rc, o⟩, t⟩ := q
        split
        · cases rc <;> exact hi
        · exact ⟨rfl, rfl, rfl⟩
  · split
    · unfold Auth.checkCert
      cases Auth.findUser s a with
      | none => exact ⟨rfl, rfl, rfl⟩
      | some i =>
        dsimp only
        have hi := hl i
        generalize Auth.loadCred cfg s i = q at *
        obtain ⟨⟨rc, o⟩, t⟩ := q
        split
        · cases rc <;> exact hi
        · exact ⟨rfl, rfl, rfl⟩
    · exact ⟨rfl, rfl, rfl⟩

theorem login_keeps (cfg : Auth.Cfg) (s : Auth.St) (x : Nat) (m : UInt16) (a b : List UInt8) :
    (Auth.login cfg s x m a b).2.nvm.store = s.nvm.store ∧
    (Auth.login cfg s x m a b).2.nvm.pending = s.nvm.pending ∧
    (Auth.login cfg s x m a b).2.ram = s.ram := by
  unfold Auth.login Auth.baseLogin
  dsimp only
  have hk := check_keeps cfg s m a b
  dsimp only at hk
  generalize (if m = Auth.mPin then Auth.checkPin cfg s a b
      else if m = Auth.mCert ∧ cfg.certLogin = true then Auth.checkCert cfg s a b
      else ((.badargs, none), s)) = q at *
  obtain ⟨⟨rc, o⟩, t⟩ := q
  split
  · exact ⟨rfl, rfl, rfl⟩
  · split
    · exact ⟨rfl, rfl, rfl⟩
    · cases rc <;> cases o <;> dsimp only <;> first
        | exact hk
        | (cases (t.users _).active <;> exact hk)

/-- The LOGIN handler acts as a login call with the data of the request, or not at all. -/
theorem handleLogin_act (cfg : Cfg R) (s : Auth.St) (x : Nat) (r : Req) :
    (handleLogin cfg s x r).2 = s ∨ ∃ m name data, parseLogin cfg r = .ok (m, name, data) ∧
      (handleLogin cfg s x r).2 = (Auth.act cfg.auth s x (.login m name data)).2 := by
  unfold handleLogin
  cases h : parseLogin cfg r with
  | error rc => exact Or.inl rfl
  | ok p =>
    obtain ⟨m, name, data⟩ := p
    refine Or.inr ⟨m, name, data, rfl, ?_⟩
    unfold Auth.act
    dsimp only
    generalize Auth.login cfg.auth s x m name data = q
    obtain ⟨⟨rc, b⟩, t⟩ := q
    cases rc <;> cases b <;> rfl

theorem act_login_state (cfg : Auth.Cfg) (s : Auth.St) (x : Nat) (m : UInt16) (a b : List UInt8) :
    (Auth.act cfg s x (.login m a b)).2 = (Auth.login cfg s x m a b).2 := by
  unfold Auth.act
  dsimp only
  generalize Auth.login cfg s x m a b = q
  obtain ⟨⟨rc, b⟩, t⟩ := q
  cases rc <;> cases b <;> rfl

end WolfHsm.Server

namespace WolfHsm.Server

open Comm (Rx)

variable {R : Type}

theorem Same.refl (d : Dev R) : Same d d := ⟨rfl, rfl, rfl, rfl, rfl⟩
theorem Same.trans {a b c : Dev R} (h : Same a b) (h' : Same b c) : Same a c :=
  ⟨h'.rest.trans h.rest, h'.store.trans h.store, h'.pending.trans h.pending, h'.users.trans h.users,
    h'.ram.trans h.ram⟩

/-- Activity marks are not part of the database. -/
theorem view_mark (s t : Auth.St) (hs : t.nvm.store = s.nvm.store) (i : Nat) (b : Bool)
    (hu : t.users = Auth.upd s.users i { s.users i with active := b }) : Auth.view t = Auth.view s := by
  unfold Auth.view
  rw [hs, hu]
  funext j
  unfold Auth.viewOf Auth.upd Auth.credOf
  by_cases h : j = i
  · subst h; simp
  · simp [h]

theorem view_same (s t : Auth.St) (hs : t.nvm.store = s.nvm.store) (hu : t.users = s.users) :
    Auth.view t = Auth.view s := by
  unfold Auth.view; rw [hs, hu]

theorem disconnect_keeps (s : Auth.St) (x : Nat) :
    (Auth.disconnect s x).nvm = s.nvm ∧ (Auth.disconnect s x).ram = s.ram ∧
    Auth.view (Auth.disconnect s x) = Auth.view s := by
  obtain ⟨us, h | h⟩ := Auth.disconnect_eq s x
  · obtain ⟨h1, h2⟩ := h
    rw [h1]
    refine ⟨rfl, rfl, ?_⟩
    rcases h2 with h2 | h2
    · exact view_same _ _ rfl h2
    · exact view_mark _ _ rfl _ _ h2
  · rw [h.1]; exact ⟨rfl, rfl, rfl⟩

theorem drop_same (cfg : Cfg R) (d : Dev R) (x : Nat) : Same d (drop cfg d x) := by
  unfold drop
  dsimp only
  split
  · obtain ⟨h1, h2, h3⟩ := disconnect_keeps d.auth x
    exact ⟨rfl, congrArg Nvm.store h1, congrArg Nvm.pending h1, h3, h2⟩
  · exact ⟨rfl, rfl, rfl, rfl, rfl⟩

theorem start_same (cfg : Cfg R) (d : Dev R) (x : Nat) (b : Bool) : Same d (start cfg d x b) := by
  unfold start
  dsimp only
  split
  · obtain ⟨h1, h2, h3⟩ := disconnect_keeps d.auth x
    exact ⟨rfl, congrArg Nvm.store h1, congrArg Nvm.pending h1, h3, h2⟩
  · exact ⟨rfl, rfl, rfl, rfl, rfl⟩

theorem handleComm_same (cfg : Cfg R) (d : Dev R) (x : Nat) (r : Req) :
    Same d (handleComm cfg d x r).2 := by
  unfold handleComm
  dsimp only
  (repeat' split) <;> first | exact Same.refl d | exact ⟨rfl, rfl, rfl, rfl, rfl⟩ | exact drop_same cfg d x

theorem handleLogin_same (cfg : Cfg R) (d : Dev R) (x : Nat) (r : Req) :
    Same d { d with auth := (handleLogin cfg d.auth x r).2 } := by
  rcases handleLogin_act cfg d.auth x r with h | ⟨m, name, data, _, h⟩
  · rw [h]; exact Same.refl d
  · rw [h]
    obtain ⟨h1, h2, h3⟩ := login_keeps cfg.auth d.auth x m name data
    rw [← act_login_state] at h1 h2 h3
    refine ⟨rfl, h1, h2, ?_, h3⟩
    refine Auth.login_frame cfg.auth d.auth x m name data
      (P := fun q => q.2.nvm.store = d.auth.nvm.store → Auth.view q.2 = Auth.view d.auth) ?_ ?_ h1
    · intro rc t _ hf hs; exact view_same _ _ hs hf.1
    · intro i t _ _ _ _ _ _ _ _ hs; exact view_mark _ _ hs i true rfl

/-- The authorisation check without a session. -/
theorem check_nobody {cfg : Auth.Cfg} (ho : cfg.override = none) (s : Auth.St) (x : Nat)
    (hs : (s.sess x).id = 0) (g a : UInt16) (h : Auth.checkRequest cfg s x g a = .ok) :
    g = 0x0100 ∨ (g = 0x0D00 ∧ a = 0) := by
  unfold Auth.checkRequest at h
  rw [ho] at h
  dsimp only at h
  rw [if_pos hs] at h
  split at h
  · cases h
  · split at h
    · assumption
    · cases h

/-- A request on a connection nobody is logged in on. -/
theorem answer_same {cfg : Cfg R} (ha : AuthOn cfg) (d : Dev R) (x : Nat) (hx : (d.ctx x).hasAuth = true)
    (hs : (d.auth.sess x).id = 0) (kind : UInt16) (r : Req) :
    Same d (answer cfg d x kind r).2 := by
  unfold answer
  dsimp only
  split
  · exact Same.refl d
  · rename_i hc
    have hok : Auth.checkRequest cfg.auth d.auth x (groupOf kind) r.action = .ok := by
      apply Decidable.byContradiction
      intro hne; exact hc ⟨ha.1, hx, hne⟩
    rcases check_nobody ha.2 d.auth x hs _ _ hok with h | ⟨h, h'⟩
    · unfold dispatch
      rw [if_pos h]
      exact handleComm_same cfg d x r
    · unfold dispatch
      rw [if_neg (by rw [h]; decide), if_pos h, if_pos ⟨ha.1, hx⟩]
      unfold handleAuth
      rw [if_pos h']
      exact handleLogin_same cfg d x r

theorem handle_same {cfg : Cfg R} (ha : AuthOn cfg) (d : Dev R) (x : Nat) (hx : (d.ctx x).hasAuth = true)
    (hs : (d.auth.sess x).id = 0) (rx : Rx) (aux : UInt16) (txs : List Rc) :
    Same d (handle cfg d x rx aux txs).2 := by
  by_cases h : (d.ctx x).connected = true ∧ (received cfg rx).rc = .ok
  · rw [handle_received cfg d x rx aux txs h.1 h.2]
    exact answer_same ha d x hx hs _ _
  · rw [(handle_nothing cfg d x rx aux txs _).2]
    · exact Same.refl d
    · by_cases hc : (d.ctx x).connected = true
      · exact Or.inr fun e => h ⟨hc, e⟩
      · exact Or.inl (by simpa using hc)

/-- Contexts keep their authentication manager. -/
theorem handle_hasAuth (cfg : Cfg R) (d : Dev R) (x : Nat) (rx : Rx) (aux : UInt16) (txs : List Rc)
    (y : Nat) : ((handle cfg d x rx aux txs).2.ctx y).hasAuth = (d.ctx y).hasAuth := by
  have hsc : ∀ c : Ctx, c.hasAuth = (d.ctx x).hasAuth → (Auth.upd d.ctx x c y).hasAuth = (d.ctx y).hasAuth := by
    intro c hc; unfold Auth.upd; split
    · rename_i h; rw [hc, h]
    · rfl
  by_cases h : (d.ctx x).connected = true ∧ (received cfg rx).rc = .ok
  · rw [handle_received cfg d x rx aux txs h.1 h.2]
    dsimp only
    unfold answer
    dsimp only
    split
    · rfl
    · unfold dispatch handleComm drop Dev.setCtx
      dsimp only
      (repeat' split) <;> first | rfl | exact hsc _ rfl
  · rw [(handle_nothing cfg d x rx aux txs _).2]
    by_cases hc : (d.ctx x).connected = true
    · exact Or.inr fun e => h ⟨hc, e⟩
    · exact Or.inl (by simpa using hc)

/-! ## Sessions -/

/-- What a request of the authentication group is, as a call. -/
theorem handleAuth_act (cfg : Cfg R) (s : Auth.St) (x : Nat) (r : Req) :
    (handleAuth cfg s x r).2 = s ∨ ∃ c, (handleAuth cfg s x r).2 = (Auth.act cfg.auth s x c).2 ∧
      (∀ m name data, c = .login m name data → r.action = 0 ∧ parseLogin cfg r = .ok (m, name, data)) ∧
      c ≠ .disconnect ∧ ∀ n p m q, c ≠ .provision n p m q := by
  unfold handleAuth
  dsimp only
  split
  · rename_i h0
    rcases handleLogin_act cfg s x r with h | ⟨m, name, data, hp, h⟩
    · exact Or.inl h
    · refine Or.inr ⟨_, h, ?_, by simp, by simp⟩
      intro m' n' d' e
      cases e
      exact ⟨h0, hp⟩
  · (repeat' split) <;> first
      | exact Or.inl rfl
      | exact Or.inr ⟨.logout _, rfl, by simp, by simp, by simp⟩
      | exact Or.inr ⟨.delete _, rfl, by simp, by simp, by simp⟩
      | exact Or.inr ⟨.add _ _ _ _, rfl, by simp, by simp, by simp⟩
      | exact Or.inr ⟨.setPerms _ _, rfl, by simp, by simp, by simp⟩
      | exact Or.inr ⟨.setCred _ _ _ _, rfl, by simp, by simp, by simp⟩

end WolfHsm.Server

namespace WolfHsm.Server

open Comm (Rx header header_length)
open Wire

variable {R : Type}

/-- What the server finds in a client's request. -/
theorem received_client (cfg : Cfg R) (hm : cfg.comm.mtu < 65536) (cle : Bool) (kind seq aux : UInt16)
    (data junk : List UInt8) (hd : data.length ≤ cfg.comm.dataLen) :
    received cfg (Rx.of (header cle Utils.magicNative kind seq aux ++ data) junk) =
      ⟨.ok, if cfg.le = cle then Utils.magicNative else Utils.magicSwap, kind, seq, data⟩ := by
  have hr := Comm.server_reads cle cfg.le kind seq aux (data ++ junk)
  dsimp only at hr
  rw [← List.append_assoc] at hr
  obtain ⟨h1, h2, h3⟩ := hr
  have hfit : (UInt16.ofNat (header cle Utils.magicNative kind seq aux ++ data).length).toNat = 8 + data.length := by
    rw [Comm.ofNat_toNat_len _ (by rw [List.length_append, header_length]; unfold Comm.Cfg.mtu at hm; omega),
      List.length_append, header_length]
  have hbad : Comm.badSize cfg.comm (UInt16.ofNat (header cle Utils.magicNative kind seq aux ++ data).length) =
      false := by
    unfold Comm.badSize
    rw [hfit]
    simp [Comm.Cfg.mtu]; omega
  unfold received Comm.serverRecv Rx.of
  dsimp only
  rw [if_neg (by rw [hbad]; simp), if_neg (by rw [hfit]; omega), h2, h3, h1,
    hfit, Nat.add_sub_cancel_left, List.append_assoc, List.drop_left' (header_length ..),
    List.take_left]

theorem kind_parts (k : UInt16) : groupOf k ||| actionOf k = k := by
  unfold groupOf actionOf
  apply UInt16.eq_of_toBitVec_eq
  rw [UInt16.toBitVec_or, UInt16.toBitVec_and, UInt16.toBitVec_and, ← BitVec.and_or_distrib_left]
  exact BitVec.and_allOnes

theorem check_refused {cfg : Auth.Cfg} (ho : cfg.override = none) (s : Auth.St) (x : Nat)
    (hs : (s.sess x).id = 0) (kind : UInt16) (hk : kind &&& 0xFF00 ≠ 0x0100) (hl : kind ≠ 0x0D00) :
    Auth.checkRequest cfg s x (groupOf kind) (actionOf kind) ≠ .ok := by
  intro h
  rcases check_nobody ho s x hs _ _ h with h | ⟨h1, h2⟩
  · exact hk h
  · apply hl
    rw [← kind_parts kind, h1, h2]; decide

/-- Every refusal starts with the permission error. -/
theorem refusal_prefix (cfg : Cfg R) (g : UInt16) (r : Req) :
    ∃ rest, refusal cfg g r = w32 cfg.le r.magic Rc.authPermissionError.code ++ rest := by
  unfold refusal idResp getResp simpleResp over
  dsimp only
  simp only [List.append_assoc]
  (repeat' split) <;> first
    | exact ⟨_, rfl⟩
    | exact ⟨[], (List.append_nil _).symm⟩

/-- A refused request. -/
theorem answer_refused {cfg : Cfg R} (ha : AuthOn cfg) (d : Dev R) (x : Nat)
    (hx : (d.ctx x).hasAuth = true) (hs : (d.auth.sess x).id = 0) (kind : UInt16) (r : Req)
    (hr : r.action = actionOf kind) (hk : kind &&& 0xFF00 ≠ 0x0100) (hl : kind ≠ 0x0D00) :
    answer cfg d x kind r = (refusal cfg (groupOf kind) r, d) := by
  unfold answer
  dsimp only
  rw [if_pos ⟨ha.1, hx, by rw [hr]; exact check_refused ha.2 d.auth x hs kind hk hl⟩]

end WolfHsm.Server

import Verif.Proofs.Device
import Verif.Proofs.ServerClient
import Verif.Proofs.NvmMsg
import Verif.Props.SmallMsg

/-!
# Invariants of the device over histories
-/

namespace WolfHsm.Device

open Keystore (Srv Sys WF Inv3 Trs Other)
open NvmFlash (Meta)
open Server (Req Group groupOf)
open Props (prof47)
open Comm (Rx)

variable {A E : Type} {cfg : Cfg A E}

/-- What always holds of a device. -/
structure DevInv (d : Dev A) : Prop where
  wf : WF (sys d)
  names : Names d.auth.users
  she : ∀ x, (d.rest.she x).uid.length ≤ 15
  ctx : ∀ x, (d.ctx x).client.toNat ≤ 15

theorem DevInv.authOk {d : Dev A} (h : DevInv d) : AuthOk d.auth := ⟨h.names, ⟨h.wf.nvm, h.wf.pend⟩⟩

theorem Booted.inv {d : Dev A} (h : Booted d) : DevInv d := by
  have hc : ∀ a, Keystore.cacheAt (sys d) a = (Keystore.cacheAt (sys d) a).cleared := by
    intro a
    cases a with
    | none => exact h.global
    | some x => exact h.loc x
  refine ⟨⟨fun a => ?_, fun a i k hk => ?_, h.nvm, h.pending⟩, fun i => Nat.le_succ_of_le (h.names i), h.she, h.ctx⟩
  · rw [hc]; exact Keystore.uniq_cleared _
  · rw [hc, Keystore.cleared_find] at hk; cases hk

/-- The device after the event is in order, and has the object if `K`. -/
def Adv (cfg : Cfg A E) (o : Meta × List UInt8) (id : UInt16) (K : Prop) (d d' : Dev A) : Prop :=
  DevInv d → DevInv d' ∧ (K → Inv3 cfg.ks (prof47 o) id (sys d) → Inv3 cfg.ks (prof47 o) id (sys d'))

variable {o : Meta × List UInt8} {id : UInt16} {K : Prop}

theorem Adv.refl (d : Dev A) : Adv cfg o id K d d := fun h => ⟨h, fun _ h => h⟩
theorem Adv.trans {a b c : Dev A} (h : Adv cfg o id K a b) (h' : Adv cfg o id K b c) : Adv cfg o id K a c := fun ha =>
  ⟨(h' (h ha).1).1, fun k i => (h' (h ha).1).2 k ((h ha).2 k i)⟩

/-- The conditions on the object under which requests of a group leave it alone. -/
structure Allowed (cfg : Cfg A E) (o : Meta × List UInt8) (id group : UInt16) : Prop where
  target : Target o id
  steady : Steady cfg
  unsignable : Unsignable cfg o id
  cert : group = 0x0C00 → hasFlag o.1.flags Flag.nonDestroyable = true
  auth : group = 0x0D00 → ¬IsAuth id

/-! ## Handlers -/

theorem client_lt {c : UInt32} (h : c.toNat ≤ 15) : c.toUInt16 < 16 := by
  rw [UInt16.lt_iff_toNat_lt]
  have : c.toUInt16.toNat = c.toNat % 65536 := by simp
  rw [this]
  show _ < 16
  omega

theorem group_num {c : Server.Cfg (Rest A)} {n : UInt16} {g : Group} (h : Server.groupFor c n = some g) (hg : g = .cert) :
    n = 0x0C00 := by
  subst hg
  unfold Server.groupFor at h
  repeat' split at h
  all_goals first
    | (cases h; done)
    | (next hc => exact hc.1)

theorem handler_keeps (hs : Sound cfg) (g : Group) (x : Nat) {client : UInt32} (hc : client.toNat ≤ 15) {r : Req}
    (hr : r.size ≤ cfg.comm.dataLen) (hb : r.size ≤ r.buf.length) (m : Nvm × Rest A) (hp : m.1.powered = true)
    {group : UInt16} (hg : g = .cert → group = 0x0C00) (ha : K → Allowed cfg o id group) :
    Keeps cfg.ks o id K (sysOf m) (sysOf (handler cfg g x client r m).2) ∧
    ((∀ y, (m.2.she y).uid.length ≤ 15) → ∀ y, ((handler cfg g x client r m).2.2.she y).uid.length ≤ 15) := by
  have ht : K → Target o id := fun k => (ha k).target
  cases g with
  | nvm => exact ⟨nvm_keeps hs _ hr ht (fun k => (ha k).steady) (sysOf m) hp, fun h => h⟩
  | counter => exact ⟨counter_keeps cfg.le _ _ r ht (sysOf m), fun h => h⟩
  | key => exact ⟨key_keeps hs ⟨x, client.toUInt16⟩ (client_lt hc) _ r ht (sysOf m), fun h => h⟩
  | crypto => exact ⟨cryptoMsg_keeps hs ⟨x, client.toUInt16⟩ (client_lt hc) _ r ht (sysOf m), fun h => h⟩
  | cryptoDma => exact ⟨cryptoDma_keeps hs ⟨x, client.toUInt16⟩ (client_lt hc) _ r ht (fun k => (ha k).unsignable) (sysOf m), fun h => h⟩
  | she =>
    refine ⟨she_keeps hs ⟨x, client.toUInt16⟩ _ _ hb ht (sysOf m), fun h y => ?_⟩
    show (Auth.upd m.2.she x _ y).uid.length ≤ 15
    by_cases e : y = x
    · subst e; rw [Auth.upd_self]; exact She.handle_uid (h y)
    · rw [Auth.upd_ne e]; exact h y
  | custom => exact ⟨.refl _, fun h => h⟩
  | cert =>
    exact ⟨cert_keeps hs x client.toUInt16 _ r ⟨sysOf m, m.2.vc (slotOf cfg x), m.2.log⟩ ht (fun k => (ha k).cert (hg rfl)), fun h => h⟩

/-- Responses fit the packet. -/
theorem handler_fits (hs : Sound cfg) (hf : CryptoFits cfg) (g : Group) (x : Nat) {client : UInt32} {r : Req}
    (hr : r.size ≤ cfg.comm.dataLen) (m : Nvm × Rest A) (hw : WF (sysOf m)) (hu : (m.2.she x).uid.length ≤ 15) :
    (handler cfg g x client r m).1.2.length ≤ cfg.comm.dataLen := by
  have hd := hs.dataLen
  cases g with
  | nvm => exact NvmMsg.handle_fits (cfg := cfg.nvmMsg) (by omega) hs.read _ r m.1
  | counter => exact Props.C27_counter_fits _ _ _ r m.1 _ (by omega) hr
  | key =>
    have h := KeyMsg.handle_fits (cfg := cfg.keyMsg) ⟨hs.aead.1, hs.aead.2⟩ (by show 52 ≤ cfg.ks.commLen; rw [hs.commLen]; omega) ⟨x, client.toUInt16⟩
      (cfg.world m.2.tick).key r (by show _ ≤ cfg.ks.commLen; rw [hs.commLen]; exact hr) (sysOf m) r.buf
    have e : cfg.keyMsg.ks.commLen = cfg.comm.dataLen := hs.commLen
    rw [e] at h
    exact h
  | crypto =>
    have hm : 8 + cfg.comm.dataLen < 65536 := hs.mtu
    exact CryptoMsg.handle_fits (cfg := cfg.cryptoMsg) ⟨hf.small, hd, by omega, hs.commLen⟩ (hf.fair _) hr (sysOf m)
  | cryptoDma =>
    exact CryptoDma.handle_fits (cfg := cfg.cryptoDma) ⟨hd, hf.encaps, hf.decaps,
      fun _ _ _ _ _ _ _ _ h => (hf.small.aes _ _ _ _ _ _ _ _ h).2, hf.small.tag, hf.small.cmac, hf.small.cmacFinal⟩ _ hr (sysOf m)
  | she =>
    have hz : cfg.she.cr.Sized := ⟨fun k b => (hs.aes k b).1, fun k b => (hs.aes k b).2.1, fun k b => (hs.aes k b).2.2⟩
    have h := She.handle_fits (cfg := cfg.she) (v := ⟨x, client.toUInt16⟩) (env := (cfg.world m.2.tick).she) (t := m.2.she x)
      (r := r) hw hz hu
    have e : cfg.she.ks.commLen = cfg.comm.dataLen := hs.commLen
    rw [e] at h
    have : max 116 cfg.comm.dataLen = cfg.comm.dataLen := by omega
    rw [this] at h
    exact h
  | custom => exact CustomMsg.handle_fits (cfg := cfg.custom) hs.custom.1 hs.custom.2 cfg.table r hr m.2.app
  | cert => exact CertMsg.handle_fits cfg.certMsg (by show 8 ≤ cfg.comm.dataLen; omega) x client.toUInt16 _ r _

/-! ## Requests -/

theorem ctx_upd {d : Dev A} (h : ∀ x, (d.ctx x).client.toNat ≤ 15) (x : Nat) {c : Server.Ctx} (hc : c.client.toNat ≤ 15) :
    ∀ y, (Auth.upd d.ctx x c y).client.toNat ≤ 15 := by
  intro y
  by_cases e : y = x
  · subst e; rw [Auth.upd_self]; exact hc
  · rw [Auth.upd_ne e]; exact h y

/-- Users and sessions change, NVM does not. -/
theorem auth_adv {d : Dev A} {s : Auth.St} {ctx : Nat → Server.Ctx} (h1 : AuthOk d.auth → AuthOk s) (h2 : s.nvm = d.auth.nvm)
    (hc : (∀ x, (d.ctx x).client.toNat ≤ 15) → ∀ x, (ctx x).client.toNat ≤ 15) :
    Adv cfg o id K d { d with auth := s, ctx := ctx } := fun h => by
  have e : sys { d with auth := s, ctx := ctx } = sys d := by unfold sys sysOf; dsimp only; rw [h2]
  rw [e]
  exact ⟨⟨by rw [e]; exact h.wf, (h1 h.authOk).names, h.she, hc h.ctx⟩, fun _ i => i⟩

theorem drop_adv (d : Dev A) (x : Nat) : Adv cfg o id K d (Server.drop cfg.server d x) := by
  refine auth_adv (s := if cfg.server.enableAuth ∧ (d.ctx x).hasAuth = true then Auth.disconnect d.auth x else d.auth) ?_ ?_
    (fun h => ctx_upd h x (h x))
  · intro h
    split
    · exact (disconnect_only d.auth x h).1
    · exact h
  · split
    · exact (Server.disconnect_keeps d.auth x).1
    · rfl

theorem comm_adv (d : Dev A) (x : Nat) (r : Req) : Adv cfg o id K d (Server.handleComm cfg.server d x r).2 := by
  unfold Server.handleComm
  dsimp only
  split
  · split
    · exact .refl d
    · split
      · exact .refl d
      · next h => exact auth_adv (fun h => h) rfl (fun hc => ctx_upd hc x (by dsimp only; omega))
  · split
    · exact .refl d
    · split
      · exact drop_adv d x
      · split <;> exact .refl d

theorem dispatch_adv (hs : Sound cfg) (d : Dev A) (hp : d.auth.nvm.powered = true) (x : Nat) (group : UInt16) {r : Req}
    (hr : r.size ≤ cfg.comm.dataLen) (hb : r.size ≤ r.buf.length) (ha : K → Allowed cfg o id group) :
    Adv cfg o id K d (Server.dispatch cfg.server d x group r).2 := by
  unfold Server.dispatch
  by_cases h1 : group = 0x0100
  · rw [if_pos h1]; exact comm_adv d x r
  rw [if_neg h1]
  by_cases h2 : group = 0x0D00
  · rw [if_pos h2]
    split
    · intro h
      rcases Server.handleAuth_act cfg.server d.auth x r with e | ⟨c, e, -⟩
      · dsimp only; rw [e]; exact ⟨h, fun _ i => i⟩
      · have hst := act_only cfg.auth d.auth x c h.authOk
        have e' : (Server.handleAuth cfg.server d.auth x r).2 = (Auth.act cfg.auth d.auth x c).2 := e
        dsimp only
        rw [e']
        generalize (Auth.act cfg.auth d.auth x c).2 = s' at hst
        have hk : Keeps cfg.ks o id K (sys d) { sys d with nvm := s'.nvm } :=
          Keeps.only (P := IsAuth) (fun k => (ha k).auth h2) fun _ => ⟨hst.1.tidy, hst.2⟩
        exact ⟨⟨(hk h.wf).1, hst.1.names, h.she, h.ctx⟩, fun k i => (hk h.wf).2 k i⟩
    · exact .refl d
  rw [if_neg h2]
  by_cases h3 : group = 0x0600
  · rw [if_pos h3]; exact .refl d
  rw [if_neg h3]
  split
  · next g hg =>
    intro h
    obtain ⟨k1, k2⟩ := handler_keeps hs g x (h.ctx x) hr hb (d.auth.nvm, d.rest) hp (fun e => group_num hg e) ha
    have k1' := k1 h.wf
    exact ⟨⟨k1'.1, h.names, k2 h.she, h.ctx⟩, k1'.2⟩
  · exact .refl d

theorem answer_adv (hs : Sound cfg) (d : Dev A) (hp : d.auth.nvm.powered = true) (x : Nat) (kind : UInt16) {r : Req}
    (hr : r.size ≤ cfg.comm.dataLen) (hb : r.size ≤ r.buf.length) (ha : K → Allowed cfg o id (groupOf kind)) :
    Adv cfg o id K d (Server.answer cfg.server d x kind r).2 := by
  unfold Server.answer
  dsimp only
  split
  · exact .refl d
  · exact dispatch_adv hs d hp x _ hr hb ha

theorem answer_fits (hs : Sound cfg) (hf : CryptoFits cfg) (d : Dev A) (h : DevInv d) (x : Nat) (kind : UInt16) {r : Req}
    (hr : r.size ≤ cfg.comm.dataLen) : (Server.answer cfg.server d x kind r).1.length ≤ cfg.comm.dataLen := by
  have hd := hs.dataLen
  unfold Server.answer
  dsimp only
  split
  · have := Server.refusal_length cfg.server (groupOf kind) r; dsimp only; omega
  · unfold Server.dispatch
    split
    · exact Server.handleComm_length cfg.server d x r _ (by omega) hr
    · split
      · split
        · have := Server.handleAuth_length cfg.server d.auth x r; dsimp only; omega
        · have := Server.simpleResp_length cfg.server r .authNotEnabled; dsimp only; omega
      · split
        · exact Nat.zero_le _
        · split
          · exact handler_fits hs hf _ x hr (d.auth.nvm, d.rest) h.wf (h.she x)
          · exact Nat.zero_le _

theorem req_size (rx : Rx) (hr : (Server.received cfg.server rx).rc = .ok) :
    (Server.reqOf (Server.received cfg.server rx) rx).size ≤ cfg.comm.dataLen ∧
    (Server.reqOf (Server.received cfg.server rx) rx).size ≤ (Server.reqOf (Server.received cfg.server rx) rx).buf.length := by
  have h1 : (Server.received cfg.server rx).payload.length ≤ cfg.server.comm.dataLen := Server.received_size
  refine ⟨h1, ?_⟩
  have h2 := congrArg List.length (Server.received_payload hr)
  rw [List.length_take] at h2
  show (Server.received cfg.server rx).payload.length ≤ (rx.buf.drop 8).length
  omega

/-! ## Events -/

/-- The conditions on the object under which an event leaves it alone. -/
def EvAllowed (cfg : Cfg A E) (o : Meta × List UInt8) (id : UInt16) : Ev → Prop
  | .server (.request _ rx _ _) => Allowed cfg o id (groupOf (Server.received cfg.server rx).kind)
  | _ => Target o id

theorem cleared_inv {s : Sys} {x : Nat} {loc : Nat → Keystore.Cache} (h : ∀ y, loc y = s.loc y ∨ loc y = (s.loc y).cleared) :
    Keeps cfg.ks o id K s { s with loc := loc } := by
  have hc : ∀ a, Keystore.cacheAt { s with loc := loc } a = Keystore.cacheAt s a ∨
      Keystore.cacheAt { s with loc := loc } a = (Keystore.cacheAt s a).cleared := by
    intro a
    cases a with
    | none => exact .inl rfl
    | some y => exact h y
  intro hw
  refine ⟨⟨fun a => ?_, fun a i k hk => ?_, hw.nvm, hw.pend⟩, fun _ i => ⟨fun y k hk => ?_, i.n, i.p⟩⟩
  · rcases hc a with e | e <;> rw [e]
    · exact hw.uniq a
    · exact Keystore.uniq_cleared _
  · rcases hc a with e | e <;> rw [e] at hk
    · exact hw.clen a i k hk
    · rw [Keystore.cleared_find] at hk; cases hk
  · rw [Keystore.cached_eq] at hk
    rcases hc (Keystore.area cfg.ks y id) with e | e <;> rw [e] at hk
    · exact i.c y k (by rw [Keystore.cached_eq]; exact hk)
    · rw [Keystore.cleared_find] at hk; cases hk

theorem start_adv (d : Dev A) (x : Nat) (b : Bool) :
    Adv cfg o id K d { Server.start cfg.server d x b with rest := fresh cfg x (Server.start cfg.server d x b).rest } := by
  have h1 : Adv cfg o id K d (Server.start cfg.server d x b) := by
    refine auth_adv (s := if cfg.server.enableAuth ∧ b = true then Auth.reset (Auth.disconnect d.auth x) x else d.auth) ?_ ?_
      (fun h => ctx_upd h x (by dsimp only; decide))
    · intro h
      split
      · obtain ⟨n, t⟩ := (disconnect_only d.auth x h).1
        exact ⟨n, t⟩
      · exact h
    · split
      · exact (Server.disconnect_keeps d.auth x).1
      · rfl
  refine h1.trans ?_
  generalize Server.start cfg.server d x b = d'
  intro h
  have hk : Keeps cfg.ks o id K (sys d') (sys { d' with rest := fresh cfg x d'.rest }) := by
    refine cleared_inv (x := x) (s := sys d') fun y => ?_
    show Auth.upd d'.rest.loc x _ y = d'.rest.loc y ∨ Auth.upd d'.rest.loc x _ y = (d'.rest.loc y).cleared
    by_cases e : y = x
    · subst e; rw [Auth.upd_self]; exact .inr rfl
    · rw [Auth.upd_ne e]; exact .inl rfl
  exact ⟨⟨(hk h.wf).1, h.names, h.she, h.ctx⟩, (hk h.wf).2⟩

theorem reboot_adv (ht : K → Target o id) (d : Dev A) (b : Bool) : Adv cfg o id K d (reboot cfg d b) := fun h => by
  have hw : WF (Keystore.rebooted (sys d) b) := Keystore.rebooted_wf h.wf b
  have hi : K → Inv3 cfg.ks (prof47 o) id (sys d) → Inv3 cfg.ks (prof47 o) id (Keystore.rebooted (sys d) b) := by
    intro k i
    refine i.restart h.wf b ?_
    intro md data _ _ hP
    have hP' : Props.Same o md data := hP
    refine ⟨_, _, rfl, ?_⟩
    have : md.len.toNat = data.length := by
      rw [hP'.1]
      rcases hP'.2 with rfl | rfl
      · exact (ht k).len
      · exact (ht k).len
    rw [Keystore.withLen_self this]
    exact hP'
  have hd : ∀ s : Auth.St, Names s.users → s.nvm.store = (d.auth.nvm.restart b).store →
      s.nvm.pending = (d.auth.nvm.restart b).pending → ∀ d', d'.auth = s →
      d'.rest = (reboot cfg d b).rest → d'.ctx = (reboot cfg d b).ctx →
      DevInv d' ∧ (K → Inv3 cfg.ks (prof47 o) id (sys d) → Inv3 cfg.ks (prof47 o) id (sys d')) := by
    intro s hn h1 h2 d' ha hr hc
    have hk : Keeps cfg.ks o id K (Keystore.rebooted (sys d) b) (sys d') := by
      have : sys d' = { Keystore.rebooted (sys d) b with nvm := s.nvm } := by
        unfold sys sysOf; rw [ha, hr]; rfl
      rw [this]
      exact Keeps.same h1 h2
    refine ⟨⟨(hk hw).1, by rw [ha]; exact hn, fun x => ?_, fun x => ?_⟩, fun k i => (hk hw).2 k (hi k i)⟩
    · rw [hr]; show She.St.boot.uid.length ≤ 15; decide
    · rw [hc]; show (0 : UInt32).toNat ≤ 15; decide
  by_cases he : cfg.enableAuth = true
  · have ho := init_only cfg.auth { d.auth with nvm := d.auth.nvm.restart b } ⟨hw.nvm, hw.pend⟩
    refine hd (Auth.init cfg.auth { d.auth with nvm := d.auth.nvm.restart b }) ho.1.names ho.2.1 ho.2.2 _ ?_ rfl rfl
    unfold reboot; dsimp only; rw [if_pos he]
  · refine hd { d.auth with nvm := d.auth.nvm.restart b } h.names rfl rfl _ ?_ rfl rfl
    unfold reboot; dsimp only; rw [if_neg he]

theorem request_adv (hs : Sound cfg) (d : Dev A) (hp : d.auth.nvm.powered = true) (x : Nat) (rx : Rx) (aux : UInt16) (txs : List Rc)
    (ha : K → Allowed cfg o id (groupOf (Server.received cfg.server rx).kind)) :
    Adv cfg o id K d (Server.handle cfg.server d x rx aux txs).2 := by
  by_cases h : (d.ctx x).connected = true ∧ (Server.received cfg.server rx).rc = .ok
  · rw [Server.handle_received cfg.server d x rx aux txs h.1 h.2]
    obtain ⟨h1, h2⟩ := req_size (cfg := cfg) rx h.2
    exact answer_adv hs d hp x _ h1 h2 ha
  · rw [(Server.handle_nothing cfg.server d x rx aux txs ?_).2]
    · exact .refl d
    · by_cases hc : (d.ctx x).connected = true
      · exact Or.inr fun e => h ⟨hc, e⟩
      · exact Or.inl (by simpa using hc)

theorem step_adv (hs : Sound cfg) (d : Dev A) (e : Ev) (ha : K → EvAllowed cfg o id e) : Adv cfg o id K d (step cfg d e).2 := by
  cases e with
  | restart b => exact reboot_adv ha d b
  | server e =>
    unfold step
    dsimp only
    split
    · next hp =>
      cases e with
      | start x b => exact start_adv d x b
      | connect x => exact auth_adv (fun h => h) rfl (fun h => ctx_upd h x (h x))
      | drop x => exact drop_adv d x
      | request x rx aux txs => exact request_adv hs d hp x rx aux txs ha
    · exact .refl d

theorem run_adv (hs : Sound cfg) : ∀ (evs : List Ev) (d : Dev A), (∀ e ∈ evs, K → EvAllowed cfg o id e) →
    Adv cfg o id K d (run cfg d evs)
  | [], d, _ => .refl d
  | e :: evs, d, h => by
    show Adv cfg o id K d (run cfg (step cfg d e).2 evs)
    exact (step_adv hs d e (h e (by simp))).trans (run_adv hs evs _ fun e' he => h e' (by simp [he]))

theorem run_inv (hs : Sound cfg) (evs : List Ev) {d : Dev A} (h : DevInv d) : DevInv (run cfg d evs) :=
  (run_adv (o := (⟨0, 0, 0, 0, Vector.replicate 24 0⟩, [])) (id := 0) (K := False) hs evs d (fun _ _ k => k.elim) h).1

theorem run_object (hs : Sound cfg) (evs : List Ev) {d : Dev A} (h : DevInv d) (ha : ∀ e ∈ evs, EvAllowed cfg o id e)
    (hi : Inv3 cfg.ks (prof47 o) id (sys d)) : Inv3 cfg.ks (prof47 o) id (sys (run cfg d evs)) :=
  (run_adv (K := True) hs evs d (fun e he _ => ha e he) h).2 trivial hi

theorem run_append (cfg : Cfg A E) (d : Dev A) (a b : List Ev) : run cfg d (a ++ b) = run cfg (run cfg d a) b := by
  unfold run; rw [List.foldl_append]

theorem settled_inv {d : Dev A} (h : Settled cfg d id o) : Inv3 cfg.ks (prof47 o) id (sys d) := by
  refine ⟨fun y k hk => ?_, ⟨o.1, o.2, h.stored, rfl, .inl rfl⟩, fun md bs hp hid => absurd hid (h.pending md bs hp)⟩
  have := h.cached y k hk
  exact ⟨congrArg Prod.snd this, .inl (congrArg Prod.fst this)⟩

theorem Booted.settled {d : Dev A} (h : Booted d) (hs : d.auth.nvm.store id = some o) (hp : d.auth.nvm.pending = none) :
    Settled cfg d id o := by
  refine ⟨hs, fun x k hk => ?_, fun md bs e => by rw [hp] at e; cases e⟩
  unfold Keystore.cached Keystore.cacheOf at hk
  split at hk
  · have e : (sys d).global = (sys d).global.cleared := h.global
    rw [e, Keystore.cleared_find] at hk; cases hk
  · have e : (sys d).loc x = ((sys d).loc x).cleared := h.loc x
    rw [e, Keystore.cleared_find] at hk; cases hk

theorem inv_kept {d : Dev A} (h : Inv3 cfg.ks (prof47 o) id (sys d)) :
    Kept o (d.auth.nvm.store id) ∧ ∀ x k, Keystore.cached cfg.ks x (sys d) id = some k → Kept o (some (k.md, k.data)) := by
  obtain ⟨md, bs, h1, h2, h3⟩ := h.n
  refine ⟨⟨md, by rw [← h2]; exact h1, h3⟩, fun x k hk => ?_⟩
  obtain ⟨g1, g2⟩ := h.c x k hk
  exact ⟨k.md, by rw [g1], g2⟩

theorem reserved_cases {i : UInt16} (h : Auth.reserved i = true) :
    i = 0xFE00 ∨ i = 0xFE01 ∨ i = 0xFE02 ∨ i = 0xFE03 ∨ i = 0xFE04 ∨ i = 0xFE05 := by
  have h' : 0xFE00 ≤ i.toNat ∧ i.toNat ≤ 0xFE05 := by simpa [Auth.reserved] using h
  · have e : ∀ n : Nat, n < 65536 → i.toNat = n → i = UInt16.ofNat n := by
      intro n hn e
      apply UInt16.toNat_inj.mp
      rw [UInt16.toNat_ofNat_of_lt' hn]; exact e
    have hc : i.toNat = 0xFE00 ∨ i.toNat = 0xFE01 ∨ i.toNat = 0xFE02 ∨ i.toNat = 0xFE03 ∨ i.toNat = 0xFE04 ∨ i.toNat = 0xFE05 := by omega
    rcases hc with h | h | h | h | h | h
    · exact .inl (e _ (by decide) h)
    · exact .inr (.inl (e _ (by decide) h))
    · exact .inr (.inr (.inl (e _ (by decide) h)))
    · exact .inr (.inr (.inr (.inl (e _ (by decide) h))))
    · exact .inr (.inr (.inr (.inr (.inl (e _ (by decide) h)))))
    · exact .inr (.inr (.inr (.inr (.inr (e _ (by decide) h)))))

theorem reserved_type {i : UInt16} (h : Auth.reserved i = true) : KeyId.typeOf i = 15 := by
  rcases reserved_cases h with rfl | rfl | rfl | rfl | rfl | rfl <;> decide

/-! ## Responses -/

theorem step_off {d : Dev A} (hp : ¬ d.auth.nvm.powered = true) (e : Server.Ev) : step cfg d (.server e) = ([], d) := if_neg hp

theorem step_request {d : Dev A} (hp : d.auth.nvm.powered = true) (x : Nat) (rx : Rx) (aux : UInt16) (txs : List Rc) :
    step cfg d (.server (.request x rx aux txs)) =
      (if (Server.handle cfg.server d x rx aux txs).2.auth.nvm.powered then (Server.handle cfg.server d x rx aux txs).1.2 else [],
        (Server.handle cfg.server d x rx aux txs).2) := if_pos hp

theorem step_quiet {d : Dev A} (e : Server.Ev) (hn : ∀ x rx aux txs, e ≠ .request x rx aux txs) :
    (step cfg d (.server e)).1 = [] := by
  by_cases hp : d.auth.nvm.powered = true
  · cases e with
    | request x rx aux txs => exact absurd rfl (hn x rx aux txs)
    | start x b => exact congrArg Prod.fst (if_pos hp)
    | connect x => exact (congrArg Prod.fst (if_pos hp)).trans (by dsimp only; split <;> rfl)
    | drop x => exact (congrArg Prod.fst (if_pos hp)).trans (by dsimp only; split <;> rfl)
  · rw [step_off hp]

theorem request_answered (hs : Sound cfg) (hf : CryptoFits cfg) {d : Dev A} (h : DevInv d) (x : Nat) (rx : Rx) (aux : UInt16)
    (txs : List Rc) (hp : d.auth.nvm.powered = true) (hc : (d.ctx x).connected = true)
    (hr : (Server.received cfg.server rx).rc = .ok) (ht : Server.Accepts txs)
    (hq : (step cfg d (.server (.request x rx aux txs))).2.auth.nvm.powered = true) :
    ∃ payload, payload.length ≤ cfg.comm.dataLen ∧ (step cfg d (.server (.request x rx aux txs))).1 =
      [Comm.header cfg.le (Server.received cfg.server rx).magic (Server.received cfg.server rx).kind
        (Server.received cfg.server rx).seq aux ++ payload] := by
  have hl := answer_fits hs hf d h x (Server.received cfg.server rx).kind (req_size (cfg := cfg) rx hr).1
  have hsend := Server.sendLoop_accepts cfg.server (Server.received cfg.server rx).magic (Server.received cfg.server rx).kind
    (Server.received cfg.server rx).seq aux hl ht
  have e1 := Server.handle_received cfg.server d x rx aux txs hc hr
  rw [hsend] at e1
  refine ⟨_, hl, ?_⟩
  rw [step_request hp] at hq ⊢
  dsimp only at hq ⊢
  rw [if_pos hq, e1]
  rfl

theorem sent_asked (hs : Sound cfg) (hf : CryptoFits cfg) : ∀ (evs : List Ev) (d : Dev A), DevInv d → (∀ e ∈ evs, e.Sendable) →
    List.Forall₂ (fun q p => ∃ payload, p = Comm.header cfg.le q.1 q.2.1 q.2.2.1 q.2.2.2 ++ payload)
      (asked cfg d evs) (sent cfg d evs) := by
  intro evs
  induction evs with
  | nil => intro d _ _; exact List.Forall₂.nil
  | cons e evs ih =>
    intro d h ht
    have hn : DevInv (step cfg d e).2 := run_inv hs [e] h
    have hrest := ih (step cfg d e).2 hn fun q hq => ht q (List.mem_cons_of_mem _ hq)
    unfold asked sent
    cases e with
    | restart b => exact hrest
    | server e =>
      by_cases hp : d.auth.nvm.powered = true
      · cases e with
        | request x rx aux txs =>
          dsimp only
          by_cases hc : (step cfg d (.server (.request x rx aux txs))).2.auth.nvm.powered = true ∧ (d.ctx x).connected = true ∧
              (Server.received cfg.server rx).rc = .ok
          · rw [if_pos ⟨hp, hc⟩]
            obtain ⟨payload, _, e1⟩ := request_answered hs hf h x rx aux txs hp hc.2.1 hc.2.2
              (ht (.server (.request x rx aux txs)) List.mem_cons_self) hc.1
            rw [e1]
            exact List.Forall₂.cons ⟨payload, rfl⟩ hrest
          · rw [if_neg (fun h => hc h.2)]
            have e3 : (step cfg d (.server (.request x rx aux txs))).1 = [] := by
              rw [step_request hp] at hc ⊢
              dsimp only at hc ⊢
              by_cases hq : (Server.handle cfg.server d x rx aux txs).2.auth.nvm.powered = true
              · rw [if_pos hq]
                refine (Server.handle_nothing cfg.server d x rx aux txs ?_).1
                by_cases hx : (d.ctx x).connected = true
                · exact Or.inr fun e => hc ⟨hq, hx, e⟩
                · exact Or.inl (by simpa using hx)
              · rw [if_neg hq]
            rw [e3]
            exact hrest
        | start x b => rw [step_quiet _ (by simp)]; exact hrest
        | connect x => rw [step_quiet _ (by simp)]; exact hrest
        | drop x => rw [step_quiet _ (by simp)]; exact hrest
      · rw [step_off hp] at hrest ⊢
        cases e with
        | request x rx aux txs => dsimp only; rw [if_neg (fun h => hp h.1)]; exact hrest
        | _ => exact hrest

end WolfHsm.Device

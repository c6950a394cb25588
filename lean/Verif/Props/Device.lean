import Verif.Proofs.DeviceInv
import Verif.Props.Auth
import Verif.Props.Cert
import Verif.Props.KeyMsg
import Verif.Props.NvmMsg
import Verif.Props.Server
import Verif.Props.CryptoDma
import Verif.Proofs.StatefulSigDemo
import Verif.Proofs.SheDemo

/-!
# The whole device: C27, C53, C54
-/

namespace WolfHsm.Props

open Device (Booted Sound CryptoFits Steady Unsignable Settled Kept asked sent)
open NvmFlash (Meta)
open Comm (Rx)
open Server (Accepts received)
open Comm (header)

variable {A E : Type}

/-! ## A concrete device -/

namespace DevDemo

/-- Locks are free, client memory is full of nines (for the DMA crypto group, it is that of
`CryptoDmaDemo`), the cipher library works. -/
def env : Device.Env Nat where
  nvm := ⟨.ok, fun _ _ _ => .ok, fun a => a == 0, fun _ n => List.replicate n 9, fun _ n => List.replicate n 9⟩
  key := KeyMsgDemo.env
  lock := .ok
  cert := ⟨.ok, .ok, CertDemo.calm, 10, fun _ _ => .ok, fun _ _ => .ok, fun _ _ _ => 7⟩
  she := ⟨.ok, fun _ => false, fun _ => 0⟩
  crypto := CryptoMsgDemo.env
  cryptoDma := CryptoDmaDemo.env

/-- Big-endian server with all message groups and packets of 1280 bytes. -/
def cfg : Device.Cfg Unit Nat where
  comm := ⟨1280, true⟩
  le := false
  auth := AuthDemo.cfg
  enableAuth := true
  noCrypto := false
  dma := true
  certs := true
  acert := true
  keywrap := true
  gcm := 6
  serverId := 5
  info := Vector.replicate 12 1
  version := Vector.replicate 18 65
  ks := { KeyMsgDemo.ks with statefulBlob := StatefulSig.isPrivBlob false }
  nvm := { NvmMsgDemo.ncfg.nvm with statefulBlob := StatefulSig.isPrivBlob false }
  sheCrypto := She.Demo.cr
  x509 := CertDemo.x509
  caching := true
  globalCache := true
  count := 4
  maxRoots := 4
  maxCert := 64
  cap := fun _ => 32
  kdfMax := 64
  lib := CryptoMsgDemo.lib
  hashes := CryptoMsgDemo.hashes
  codes := CryptoMsgDemo.codes
  sigLib := fun _ => StatefulDemo.lib
  dmaSelect := CryptoDmaDemo.select
  kem _ := (800, 768)
  sigVerify _ _ _ _ := .ok 1
  sigsLeft _ _ := 5
  customCount := 8
  customLen := 32
  table := fun _ => none
  world := fun _ => env

theorem sound : Sound cfg where
  shared := by intro h; cases h
  commLen := rfl
  dataLen := by decide
  mtu := by decide
  big := by decide
  read := by decide
  custom := by decide
  aead := ⟨KeyMsgDemo.lengths.enc, KeyMsgDemo.lengths.dec⟩
  aes := fun k b => ⟨She.Demo.sized.enc k b, She.Demo.sized.dec k b, She.Demo.sized.cmac k b⟩
  sign := fun _ pub priv msg cap sig priv' h => (StatefulDemo.sound pub priv msg cap sig priv' h).2.2.2.2
  mem := fun _ _ n => by simp [cfg, env]

theorem steady : Steady cfg := fun _ _ _ => rfl

theorem cryptoFits : CryptoFits cfg := by
  refine ⟨CryptoMsgDemo.small (by decide), fun _ => CryptoMsgDemo.fair, fun _ _ _ _ _ h => ?_, fun _ _ _ _ h => ?_⟩
  · have := (CryptoMsgDemo.small (Nat.le_refl 64)).encaps _ _ _ _ _ h
    show _ ≤ 1280
    omega
  · have := (CryptoMsgDemo.small (Nat.le_refl 64)).decaps _ _ _ _ h
    show _ ≤ 1280
    omega

/-- A root certificate nobody may change or remove. -/
def root : Meta × List UInt8 :=
  (⟨0x20, 0xFFFF, Flag.nonModifiable ||| Flag.nonDestroyable, 8, Keystore.Demo.label⟩, CertDemo.rootA)
/-- An ordinary object. -/
def note : Meta × List UInt8 := (⟨0x21, 0xFFFF, 0, 2, Keystore.Demo.label⟩, [5, 6])

/-- May use the certificate group (12), all its actions, and nothing else. -/
def certUser : Auth.Perms := ⟨(Vector.replicate 15 0).set 12 1,
  (Vector.replicate 14 (Vector.replicate 8 0)).set 12 (Vector.replicate 8 0xFFFFFFFF), 0, #v[0, 0]⟩
/-- Name: "cat". -/
def cat : List UInt8 := [0x63, 0x61, 0x74]
/-- Two users: the administrator of `AuthDemo` and cat. -/
def users : Auth.St := Auth.run AuthDemo.cfg (AuthDemo.blank AuthDemo.fine)
  [.restart false, .call 9 (.provision AuthDemo.adm AuthDemo.full Auth.mPin [1, 2, 3, 4]),
   .call 0 (.login Auth.mPin AuthDemo.adm [1, 2, 3, 4]), .call 0 (.add cat certUser Auth.mPin [9, 9])]

/-- The users, the certificate and the note. -/
def store : NvmFlash.Store := fun id =>
  if id = 0x20 then some root else if id = 0x21 then some note else if Auth.reserved id then
    users.nvm.store id else none

/-- A device before it is switched on. -/
def dev : Device.Dev Unit where
  auth := { AuthDemo.blank AuthDemo.fine with nvm := ⟨store, none, false, fun _ => .ok, 0⟩ }
  rest := ⟨Keystore.Demo.empty, fun _ => Keystore.Demo.empty, fun _ => Cert.VCache.fresh 4, [], fun _ => She.St.boot, (), 0, []⟩
  ctx := fun _ => ⟨false, 0, true⟩

/-- Polls that find a packet of a little-endian client. -/
def ask (x : Nat) (kind : UInt16) (body : List UInt8) : Device.Ev := .server (.request x (SrvDemo.pkt kind 7 body) 0 SrvDemo.txs)

/-- The data of client calls. -/
def bytes (q : Except Rc (UInt16 × List UInt8)) : List UInt8 := match q with | .ok a => a.2 | .error _ => []

/-- Logins. -/
def admLogin : List UInt8 := bytes (ClientAuth.encode true 1280 0 (.login Auth.mPin AuthDemo.adm [1, 2, 3, 4]))
def catLogin : List UInt8 := bytes (ClientAuth.encode true 1280 0 (.login Auth.mPin cat [9, 9]))

/-- Power-up; two contexts connect; adm logs in on the first and cat on the second. -/
def start : List Device.Ev :=
  [.restart false, .server (.connect 0), .server (.connect 1), ask 0 0x0D00 admLogin, ask 1 0x0D00 catLogin]

/-- Attempts to overwrite and remove the certificate and the note, through the NVM and the certificate
groups and from client memory, garbage, a key request, a crypto request, and a loss of connection. -/
def storm : List Device.Ev :=
  [ask 0 0x0204 (bytes (ClientNvm.encode true 1280 (.add 0x20 0 0 [] [1, 1]))),
   ask 0 0x0204 (bytes (ClientNvm.encode true 1280 (.add 0x21 0 0 [] [1, 1, 1]))),
   ask 0 0x0207 (bytes (ClientNvm.encode true 1280 (.destroy [0x20]))),
   ask 0 0x0C03 (bytes (ClientCert.encode true ⟨1280, 4, 64⟩ (.erase 0x20))),
   ask 1 0x0204 [3], ask 0 0x0C05 (List.replicate 70 0x20), ask 0 0x0B03 CryptoDmaDemo.lmsGen, ask 0 0x0B03 CryptoDmaDemo.lmsSign, ask 0 0x0403 CryptoMsgDemo.gen, .server (.drop 1), .restart true]

end DevDemo

/-! ## C27 -/

/-- **C27** for the whole device.  After every history from power-up, whatever the packets of
it were, a server context that is connected, has power and receives a request answers it with exactly one
packet, which has the magic, kind and sequence number of the request.  The response buffer of no
group overflows.  Partial: the results of the crypto library are assumed to leave room for headers (`CryptoFits`), and the
transport to take the packet in the end. -/
theorem C27_device_partial {cfg : Device.Cfg A E} (hs : Sound cfg) (hf : CryptoFits cfg) {d0 : Device.Dev A} (hb : Booted d0)
    (evs : List Device.Ev) (x : Nat) (rx : Rx) (aux : UInt16) (txs : List Rc)
    (hp : (Device.run cfg d0 evs).auth.nvm.powered = true) (hc : ((Device.run cfg d0 evs).ctx x).connected = true)
    (hr : (received cfg.server rx).rc = .ok) (ht : Accepts txs)
    (hq : (Device.step cfg (Device.run cfg d0 evs) (.server (.request x rx aux txs))).2.auth.nvm.powered = true) :
    ∃ payload, payload.length ≤ cfg.comm.dataLen ∧
      (Device.step cfg (Device.run cfg d0 evs) (.server (.request x rx aux txs))).1 =
        [header cfg.le (received cfg.server rx).magic (received cfg.server rx).kind (received cfg.server rx).seq aux ++ payload] :=
  Device.request_answered hs hf (Device.run_inv hs evs hb.inv) x rx aux txs hp hc hr ht hq

/-- **C27** over histories of the whole device: the packets it sends are, in order, one for each
request received and not cut off by a loss of power. -/
theorem C27_device_history_partial {cfg : Device.Cfg A E} (hs : Sound cfg) (hf : CryptoFits cfg) {d0 : Device.Dev A}
    (hb : Booted d0) (evs : List Device.Ev) (ht : ∀ e ∈ evs, e.Sendable) :
    List.Forall₂ (fun q p => ∃ payload, p = header cfg.le q.1 q.2.1 q.2.2.1 q.2.2.2 ++ payload)
      (asked cfg d0 evs) (sent cfg d0 evs) :=
  Device.sent_asked hs hf evs d0 hb.inv ht

section
open DevDemo

theorem DevDemo.tidy (id : UInt16) (o : Option (Meta × List UInt8)) (md : Meta) (bs : List UInt8)
    (h : (match o with | some q => decide (q.1.id = id ∧ q.1.len.toNat = q.2.length) | none => true) = true)
    (e : o = some (md, bs)) : md.id = id ∧ md.len.toNat = bs.length := by
  subst e; simpa using h

theorem DevDemo.booted : Booted dev where
  global := rfl
  loc := fun _ => rfl
  she := fun _ => by show She.St.boot.uid.length ≤ 15; decide
  ctx := fun _ => by show (0 : UInt8).toNat ≤ 15; decide
  names := fun _ => by show Auth.Slot.empty.name.length ≤ 31; decide
  nvm := by
    intro id md bs h
    change store id = _ at h
    unfold store at h
    split at h
    · rename_i e; cases h; exact ⟨e.symm, rfl⟩
    · split at h
      · rename_i e; cases h; exact ⟨e.symm, rfl⟩
      · split at h
        · rename_i hr
          rcases Device.reserved_cases hr with rfl | rfl | rfl | rfl | rfl | rfl
          · exact tidy _ _ _ _ (by decide +kernel) h
          · exact tidy _ _ _ _ (by decide +kernel) h
          · exact tidy _ _ _ _ (by decide +kernel) h
          · exact tidy _ _ _ _ (by decide +kernel) h
          · exact tidy _ _ _ _ (by decide +kernel) h
          · exact tidy _ _ _ _ (by decide +kernel) h
        · cases h
  pending := by intro md bs h; cases h

theorem DevDemo.sendable : ∀ e ∈ start ++ storm, e.Sendable := by
  intro e he
  simp only [start, storm, ask, List.mem_append, List.mem_cons, List.not_mem_nil, or_false] at he
  rcases he with (rfl | rfl | rfl | rfl | rfl) | (rfl | rfl | rfl | rfl | rfl | rfl | rfl | rfl | rfl | rfl | rfl)
  all_goals first | trivial | exact SrvDemo.accepts

/-- The eleven requests of the history above are answered; an LMS key is made and signs. -/
example : Sound cfg ∧ CryptoFits cfg ∧ Booted dev ∧ (∀ e ∈ start ++ storm, e.Sendable) ∧ (asked cfg dev (start ++ storm)).length = 11 ∧
    (sent cfg dev (start ++ storm)).length = 11 ∧
    (Device.run cfg dev (start ++ storm)).rest.sent = [(0x2000, [42]), (0x2000, [7, 0, 9])] :=
  ⟨sound, cryptoFits, booted, sendable, by decide +kernel, by decide +kernel, by decide +kernel⟩

/-- The request to erase the certificate is answered: magic of the client, kind 0x0C03, sequence number
7, and a refusal. -/
example : (Device.run cfg dev start).auth.nvm.powered = true ∧ ((Device.run cfg dev start).ctx 0).connected = true ∧
    (received cfg.server (SrvDemo.pkt 0x0C03 7 [0x20, 0])).rc = .ok ∧
    (Device.step cfg (Device.run cfg dev start) (ask 0 0x0C03 [0x20, 0])).2.auth.nvm.powered = true ∧
    (Device.step cfg (Device.run cfg dev start) (ask 0 0x0C03 [0x20, 0])).1.map (·.take 12) =
      [[1, 165, 3, 12, 7, 0, 0, 0, 203, 247, 255, 255]] := by decide +kernel
end

/-! ## C53 -/

/-- **C53.** An object stored with the NONMODIFIABLE and NONDESTROYABLE flags, at any time of the life of
the device, is still there with the same bytes, and the same metadata up to revocation of key usages, after every further
sequence of packets of any group and any content on any server contexts, of connects, disconnects, initialisations of
contexts, failures of NVM operations, losses of power and restarts; and every cached copy agrees with it. -/
theorem C53_protected_objects {cfg : Device.Cfg A E} (hs : Sound cfg) (hm : Steady cfg) {d0 : Device.Dev A} (hb : Booted d0)
    (before after : List Device.Ev) {o : Meta × List UInt8} {id : UInt16}
    (hset : Settled cfg (Device.run cfg d0 before) id o)
    (h1 : hasFlag o.1.flags Flag.nonModifiable = true) (h2 : hasFlag o.1.flags Flag.nonDestroyable = true)
    (hw : KeyId.typeOf id ≠ KeyId.typeWrapped) (hshe : KeyId.typeOf id ≠ KeyId.typeShe)
    (hct : KeyId.typeOf id ≠ KeyId.typeCounter) (hau : Auth.reserved id = false) (hu : Unsignable cfg o id) :
    Kept o ((Device.run cfg d0 (before ++ after)).auth.nvm.store id) ∧
    ∀ x k, Keystore.cached cfg.ks x (Device.sys (Device.run cfg d0 (before ++ after))) id = some k →
      Kept o (some (k.md, k.data)) := by
  have hi := Device.run_inv hs before hb.inv
  have ht : Device.Target o id := ⟨h1, (hi.wf.nvm id o.1 o.2 hset.stored).2, hw, hshe, hct⟩
  have := Device.run_object hs after hi (o := o) (id := id) (fun e _ => by
    have ha : ∀ g, Device.Allowed cfg o id g := fun g => ⟨ht, hm, hu, fun _ => h2, fun _ h => by
      unfold Device.IsAuth at h; rw [hau] at h; cases h⟩
    cases e with
    | restart b => exact ht
    | server e =>
      cases e with
      | request x rx aux txs => exact ha _
      | _ => exact ht) (Device.settled_inv hset)
  rw [Device.run_append]
  exact Device.inv_kept this

section
open DevDemo

theorem DevDemo.rootSettled : Settled cfg (Device.run cfg dev []) 0x20 root := booted.settled rfl rfl

theorem DevDemo.rootUnsignable : Unsignable cfg root 0x20 := .inr (by decide)

/-- The certificate meets the hypotheses; the ordinary object beside it does not, and is overwritten. -/
example : Sound cfg ∧ Steady cfg ∧ Booted dev ∧ Settled cfg (Device.run cfg dev []) 0x20 root ∧
    hasFlag root.1.flags Flag.nonModifiable = true ∧ hasFlag root.1.flags Flag.nonDestroyable = true ∧
    KeyId.typeOf 0x20 ≠ KeyId.typeWrapped ∧ KeyId.typeOf 0x20 ≠ KeyId.typeShe ∧ KeyId.typeOf 0x20 ≠ KeyId.typeCounter ∧
    Auth.reserved 0x20 = false ∧ Unsignable cfg root 0x20 ∧
    (Device.run cfg dev ([] ++ (start ++ storm))).auth.nvm.store 0x20 = some root ∧
    ((Device.run cfg dev ([] ++ (start ++ storm))).auth.nvm.store 0x21).map (·.2) = some [1, 1, 1] :=
  ⟨sound, steady, booted, rootSettled, by decide, by decide, by decide, by decide, by decide, by decide, rootUnsignable,
    by decide +kernel, by decide +kernel⟩
end

/-! ## C54 -/

/-- **C54, partial.** What is stored about users — the index and the credentials — stays as it is
through every sequence of packets outside the AUTH and CERT groups, disconnects, initialisations of contexts,
losses of power and restarts.  Missing: the CERT group, see `F_cert_erases_users`. -/
theorem C54_user_database_partial {cfg : Device.Cfg A E} (hs : Sound cfg) (hm : Steady cfg) {d0 : Device.Dev A} (hb : Booted d0)
    (before after : List Device.Ev) {o : Meta × List UInt8} {id : UInt16}
    (hset : Settled cfg (Device.run cfg d0 before) id o)
    (h1 : hasFlag o.1.flags Flag.nonModifiable = true) (hau : Auth.reserved id = true)
    (hg : ∀ x rx aux txs, Device.Ev.server (.request x rx aux txs) ∈ after →
      Device.group cfg rx ≠ 0x0D00 ∧ Device.group cfg rx ≠ 0x0C00) :
    Kept o ((Device.run cfg d0 (before ++ after)).auth.nvm.store id) := by
  have hty : KeyId.typeOf id = 15 := Device.reserved_type hau
  have hi := Device.run_inv hs before hb.inv
  have ht : Device.Target o id := ⟨h1, (hi.wf.nvm id o.1 o.2 hset.stored).2, by rw [hty]; decide, by rw [hty]; decide,
    by rw [hty]; decide⟩
  have hu : Unsignable cfg o id := .inr ⟨by rw [hty]; decide, by rw [hty]; decide⟩
  have := Device.run_object hs after hi (o := o) (id := id) (fun e he => by
    cases e with
    | restart b => exact ht
    | server e =>
      cases e with
      | request x rx aux txs =>
        have := hg x rx aux txs he
        exact ⟨ht, hm, hu, fun e => absurd e this.2, fun e => absurd e this.1⟩
      | _ => exact ht) (Device.settled_inv hset)
  rw [Device.run_append]
  exact (Device.inv_kept this).1

section
open DevDemo

/-- The index of the users. -/
def DevDemo.index : Meta × List UInt8 := (users.nvm.store 0xFE00).getD note

/-- The hypotheses are met by the index; `calm` requests of the NVM, key and crypto groups leave it. -/
example : Booted dev ∧ Settled cfg (Device.run cfg dev []) 0xFE00 index ∧ hasFlag index.1.flags Flag.nonModifiable = true ∧
    Auth.reserved 0xFE00 = true ∧ 4 < index.2.length ∧
    (∀ x rx aux txs, Device.Ev.server (.request x rx aux txs) ∈
        [.restart false, .server (.connect 0), ask 0 0x0204 [9, 9], ask 0 0x0405 [], .server (.drop 0)] →
      Device.group cfg rx ≠ 0x0D00 ∧ Device.group cfg rx ≠ 0x0C00) := by
  refine ⟨booted, booted.settled (by decide +kernel) rfl, by decide +kernel, by decide, by decide +kernel, ?_⟩
  intro x rx aux txs h
  simp only [ask, List.mem_cons, List.not_mem_nil, or_false, reduceCtorEq, false_or, Device.Ev.server.injEq, Server.Ev.request.injEq] at h
  rcases h with ⟨-, rfl, -⟩ | ⟨-, rfl, -⟩ <;> decide +kernel

/-- **Finding.** The certificate group can erase the user database: the user cat, who may use the
certificate group only, sends a request to erase the trusted certificate 0xFE00, an id of the
authentication manager.  The index of the users is NONMODIFIABLE, and is gone; after the next power-up
the administrator, who could log in before, cannot. -/
theorem F_cert_erases_users : Sound cfg ∧ Steady cfg ∧ Booted dev ∧ Settled cfg (Device.run cfg dev []) 0xFE00 index ∧
    hasFlag index.1.flags Flag.nonModifiable = true ∧
    ((Device.run cfg dev start).auth.sess 0).id = 1 ∧
    (Device.run cfg dev (start ++ [ask 1 0x0C03 [0x00, 0xFE]])).auth.nvm.store 0xFE00 = none ∧
    ((Device.run cfg dev (start ++ [ask 1 0x0C03 [0x00, 0xFE], .restart false, .server (.connect 0),
      ask 0 0x0D00 admLogin])).auth.sess 0).id = 0 :=
  ⟨sound, steady, booted, booted.settled (by decide +kernel) rfl, by decide +kernel, by decide +kernel, by decide +kernel,
    by decide +kernel⟩
end

end WolfHsm.Props

import Verif.Model.Device
import Verif.Spec.Server
import Verif.Spec.Keystore
import Verif.Spec.CryptoMsg

/-!
# Specification vocabulary for the whole device (C27, C53, C54)
-/

namespace WolfHsm.Device

open Comm (Rx)
open NvmFlash (Meta)

variable {A E : Type}

/-- What happens to a device: a server context is initialised, connected, loses its connection, or
polls for a request (`Server.Ev`); power comes back (`b`: an object whose add had failed shows up). -/
inductive Ev where
  | server (e : Server.Ev)
  | restart (b : Bool)

/-- One event: the packets sent, and the device after it.  Without power nothing happens until the
restart; a request during which power is lost is not answered. -/
def step (cfg : Cfg A E) (d : Dev A) : Ev → List (List UInt8) × Dev A
  | .server e =>
    if d.auth.nvm.powered then
      let q := Server.step cfg.server d e
      match e with
      | .start x _ => (q.1, { q.2 with rest := fresh cfg x q.2.rest })
      | _ => (if q.2.auth.nvm.powered then q.1 else [], q.2)
    else ([], d)
  | .restart b => ([], reboot cfg d b)

/-- State after a history. -/
def run (cfg : Cfg A E) (d : Dev A) (evs : List Ev) : Dev A := evs.foldl (fun d e => (step cfg d e).2) d

/-- A device that has just been switched on: nothing cached, no connections, SHE contexts as the
application initialised them, user names that fit their fields, and any consistent NVM content. -/
structure Booted (d : Dev A) : Prop where
  global : d.rest.global = d.rest.global.cleared
  loc : ∀ x, d.rest.loc x = (d.rest.loc x).cleared
  she : ∀ x, (d.rest.she x).uid.length ≤ 15
  ctx : ∀ x, (d.ctx x).client.toNat ≤ 15
  names : ∀ i, (d.auth.users i).name.length ≤ 31
  nvm : ∀ id md bs, d.auth.nvm.store id = some (md, bs) → md.id = id ∧ md.len.toNat = bs.length
  pending : ∀ md bs, d.auth.nvm.pending = some (md, bs) → bs.length < 65536

/-- The assumptions on the build: the settings wolfhsm/wh_settings.h accepts, sizes of the buffers, block
and tag sizes of the crypto library; reading `n` bytes of client memory gives no more than `n`. -/
structure Sound (cfg : Cfg A E) : Prop where
  shared : cfg.ks.sheGlobal = true → cfg.ks.ids.globalKeys = true
  commLen : cfg.ks.commLen = cfg.comm.dataLen
  dataLen : 510 ≤ cfg.comm.dataLen
  mtu : cfg.comm.mtu < 65536
  big : cfg.ks.bigBufSize < 65536
  read : cfg.nvm.maxRead + 4 ≤ cfg.comm.dataLen
  custom : 32 ≤ cfg.customLen ∧ 16 + cfg.customLen ≤ cfg.comm.dataLen
  aead : (∀ key dom iv pt ct tag, cfg.ks.aead.enc key dom iv pt = some (ct, tag) → ct.length = pt.length ∧ tag.length = 16) ∧
    ∀ key dom iv ct tag pt, cfg.ks.aead.dec key dom iv ct tag = some pt → pt.length = ct.length
  aes : ∀ k b, (cfg.sheCrypto.enc k b).length = 16 ∧ (cfg.sheCrypto.dec k b).length = 16 ∧ (cfg.sheCrypto.cmac k b).length = 16
  sign : ∀ a pub priv msg cap sig priv', (cfg.sigLib a).sign pub priv msg cap = .ok (sig, priv') → priv'.length = priv.length
  mem : ∀ k a n, ((cfg.world k).nvm.mem2 a n).length ≤ n

/-- The results of the crypto library leave room for the headers in a packet. -/
structure CryptoFits (cfg : Cfg A E) : Prop where
  small : CryptoMsg.Small cfg.lib (cfg.comm.dataLen - 20)
  fair : ∀ k, (cfg.world k).crypto.Fair
  encaps : ∀ p k c ct ss, cfg.lib.encaps p k c = .ok (ct, ss) → ss.length + 36 ≤ cfg.comm.dataLen
  decaps : ∀ p k ct ss, cfg.lib.decaps p k ct = .ok ss → ss.length + 36 ≤ cfg.comm.dataLen

/-- The bytes are not private state of an LMS or XMSS key (which signing advances in place), or not
under the id of a key. -/
def Unsignable (cfg : Cfg A E) (o : Meta × List UInt8) (id : UInt16) : Prop :=
  (∀ a q, StatefulSig.load cfg.sig a o.2 ≠ .ok q) ∨
    KeyId.typeOf id ≠ KeyId.typeCrypto ∧ KeyId.typeOf id ≠ KeyId.typeHw

/-- `o` is stored under `id`; copies in key caches are equal to it, and no failed add of another
object with this id is waiting for the next power-up. -/
structure Settled (cfg : Cfg A E) (d : Dev A) (id : UInt16) (o : Meta × List UInt8) : Prop where
  stored : d.auth.nvm.store id = some o
  cached : ∀ x k, Keystore.cached cfg.ks x (sys d) id = some k → (k.md, k.data) = o
  pending : ∀ md bs, d.auth.nvm.pending = some (md, bs) → md.id ≠ id

/-- The stored object has the bytes of `o`, and its metadata, at most with the key usages revoked. -/
def Kept (o : Meta × List UInt8) (n : Option (Meta × List UInt8)) : Prop :=
  ∃ md, n = some (md, o.2) ∧ (md = o.1 ∨ md = Keystore.revokeMeta o.1)

/-- The message group of a received request. -/
def group (cfg : Cfg A E) (rx : Rx) : UInt16 := (Server.received cfg.server rx).kind &&& 0xFF00

/-- The requests received in a history and not cut off by a loss of power: magic, kind and sequence
number of each, and the unused header field of its response. -/
def asked (cfg : Cfg A E) : Dev A → List Ev → List (UInt16 × UInt16 × UInt16 × UInt16)
  | _, [] => []
  | d, e :: evs =>
    (match e with
      | .server (.request x rx aux _) =>
        if d.auth.nvm.powered = true ∧ (step cfg d e).2.auth.nvm.powered = true ∧ (d.ctx x).connected = true ∧
            (Server.received cfg.server rx).rc = .ok then
          [((Server.received cfg.server rx).magic, (Server.received cfg.server rx).kind, (Server.received cfg.server rx).seq, aux)]
        else []
      | _ => []) ++ asked cfg (step cfg d e).2 evs

/-- The packets sent in a history. -/
def sent (cfg : Cfg A E) : Dev A → List Ev → List (List UInt8)
  | _, [] => []
  | d, e :: evs => (step cfg d e).1 ++ sent cfg (step cfg d e).2 evs

/-- The transport takes the responses of the event. -/
def Ev.Sendable : Ev → Prop
  | .server e => e.Sendable
  | .restart _ => True

/-- Client memory does not change while a DMA request is served. -/
def Steady (cfg : Cfg A E) : Prop := ∀ k a n, (cfg.world k).nvm.mem1 a n = (cfg.world k).nvm.mem2 a n

end WolfHsm.Device

import Verif.Model.Server
import Verif.Model.NvmMsg
import Verif.Model.KeyMsg
import Verif.Model.CounterMsg
import Verif.Model.CustomMsg
import Verif.Model.CertMsg
import Verif.Model.She
import Verif.Model.CryptoDma

/-!
# The whole server: all message groups behind the dispatcher

`Model/Server.lean` has the dispatcher with the handlers of the other groups as parameters.  Here
the models of these handlers take their places, all working on one NVM, one set of key caches, and
the SHE contexts and verify caches.

Custom callbacks of the application work on a state of their own.
-/

namespace WolfHsm.Device

open Keystore (Srv Sys)
open Server (Req Group)

/-- What a request finds around it: locks, client memory, random numbers, the crypto library. -/
structure Env (E : Type) where
  nvm : NvmMsg.Env
  key : KeyMsg.Env
  /-- Result of taking the NVM lock for a counter request. -/
  lock : Rc
  cert : CertMsg.Env E
  she : She.Env
  crypto : CryptoMsg.Env
  cryptoDma : CryptoDma.Env

/-- Build options and parameters of a server.  `A`: state of the application, `E`: environment of the
X.509 library. -/
structure Cfg (A E : Type) where
  comm : Comm.Cfg
  /-- byte order of the server -/
  le : Bool
  auth : Auth.Cfg
  /-- `WOLFHSM_CFG_ENABLE_AUTHENTICATION` -/
  enableAuth : Bool
  /-- `WOLFHSM_CFG_NO_CRYPTO` -/
  noCrypto : Bool
  /-- `WOLFHSM_CFG_DMA` -/
  dma : Bool
  /-- `WOLFHSM_CFG_CERTIFICATE_MANAGER` -/
  certs : Bool
  /-- `WOLFHSM_CFG_CERTIFICATE_MANAGER_ACERT` -/
  acert : Bool
  /-- `WOLFHSM_CFG_KEYWRAP` -/
  keywrap : Bool
  /-- `WC_CIPHER_AES_GCM` -/
  gcm : UInt16
  serverId : UInt32
  info : Vector UInt32 12
  version : Vector UInt8 18
  ks : Keystore.Cfg
  nvm : NvmServer.Cfg
  sheCrypto : She.Crypto
  x509 : Cert.X509 E
  /-- `WOLFHSM_CFG_CERTIFICATE_VERIFY_CACHE`, `…_GLOBAL`, `…_COUNT` -/
  caching : Bool
  globalCache : Bool
  count : Nat
  /-- `WOLFHSM_CFG_CERT_MAX_VERIFY_ROOTS`, `WOLFHSM_CFG_MAX_CERT_SIZE` -/
  maxRoots : Nat
  maxCert : Nat
  /-- Slot sizes and longest derived key of the crypto handlers. -/
  cap : Crypto.Alg → UInt16
  kdfMax : Nat
  lib : Crypto.Lib
  hashes : CryptoMsg.Hashes
  /-- Numbers of the algorithms built in. -/
  codes : CryptoMsg.Codes
  sigLib : StatefulSig.Alg → StatefulSig.Lib
  /-- Parameters of the DMA crypto group, see `CryptoDma.Cfg`. -/
  dmaSelect : (action : UInt16) → (type sub : UInt32) → Except Rc CryptoDma.Op
  kem : UInt32 → UInt64 × UInt64
  sigVerify : StatefulSig.Alg → (slot sig msg : List UInt8) → Except Rc Nat
  sigsLeft : StatefulSig.Alg → (slot : List UInt8) → UInt32
  /-- Number and data length of the custom callbacks, and the callbacks. -/
  customCount : Nat
  customLen : Nat
  table : Nat → Option (CustomMsg.Callback A)
  /-- What the `k`-th request finds around it. -/
  world : Nat → Env E

variable {A E : Type}

/-- The parameters of each group. -/
def Cfg.nvmMsg (c : Cfg A E) : NvmMsg.Cfg := ⟨c.nvm, c.le, c.dma, c.serverId⟩
/-- Key group. -/
def Cfg.keyMsg (c : Cfg A E) : KeyMsg.Cfg := ⟨c.ks, c.le, c.dma, c.keywrap, c.gcm⟩
/-- SHE group. -/
def Cfg.she (c : Cfg A E) : She.Cfg := ⟨c.ks, c.sheCrypto, c.le⟩
/-- Certificate group. -/
def Cfg.cert (c : Cfg A E) : Cert.Cfg E :=
  ⟨c.ks, c.x509, c.caching, c.globalCache, c.count, c.maxRoots, c.maxCert⟩
/-- Certificate messages. -/
def Cfg.certMsg (c : Cfg A E) : CertMsg.Cfg E := ⟨c.cert, c.le, c.comm.dataLen, c.dma, c.acert⟩
/-- Crypto groups. -/
def Cfg.crypto (c : Cfg A E) : Crypto.Cfg := ⟨c.ks, c.cap, c.kdfMax⟩
/-- Crypto messages. -/
def Cfg.cryptoMsg (c : Cfg A E) : CryptoMsg.Cfg := ⟨c.crypto, c.lib, c.hashes, c.codes, c.le⟩
/-- DMA crypto messages. -/
def Cfg.cryptoDma (c : Cfg A E) : CryptoDma.Cfg := ⟨c.cryptoMsg, c.dmaSelect, c.kem, c.sigLib, c.sigVerify, c.sigsLeft⟩
/-- LMS and XMSS. -/
def Cfg.sig (c : Cfg A E) : StatefulSig.Cfg := ⟨c.ks, c.le, c.sigLib⟩
/-- Custom group. -/
def Cfg.custom (c : Cfg A E) : CustomMsg.Cfg := ⟨c.customCount, c.customLen, c.le⟩

/-- A device beside users, sessions, NVM and connections.  `tick`: number of requests handled so far;
`sent`: what they wrote to client memory. -/
structure Rest (A : Type) where
  global : Keystore.Cache
  loc : Nat → Keystore.Cache
  vc : Nat → Cert.VCache
  log : List (List Cert.Der × Cert.Der)
  she : Nat → She.St
  app : A
  tick : Nat
  sent : List (UInt64 × List UInt8)

/-- The key store of the device. -/
def sysOf (m : Nvm × Rest A) : Sys := ⟨m.1, m.2.global, m.2.loc⟩

/-- The device after a request that left the key store in state `s` and wrote `w`. -/
def put (m : Nvm × Rest A) (s : Sys) (w : Option (UInt64 × List UInt8)) : Nvm × Rest A :=
  (s.nvm, { m.2 with global := s.global, loc := s.loc, tick := m.2.tick + 1, sent := m.2.sent ++ w.toList })

/-- The verify cache of a server context. -/
def slotOf (cfg : Cfg A E) (x : Nat) : Nat := if cfg.globalCache then 0 else x

/-- The handlers behind the group switch of `wh_Server_HandleRequestMessage`,
src/wh_server.c:626-710. -/
def handler (cfg : Cfg A E) (g : Group) (x : Nat) (client : UInt32) (r : Req) (m : Nvm × Rest A) :
    (Rc × List UInt8) × (Nvm × Rest A) :=
  let e := cfg.world m.2.tick
  let v : Srv := ⟨x, client.toUInt16⟩
  let s := sysOf m
  match g with
  | .nvm =>
    let q := NvmMsg.handle cfg.nvmMsg e.nvm r m.1
    ((.ok, q.1.1), put m { s with nvm := q.2 } q.1.2)
  | .counter =>
    let q := CounterMsg.handle cfg.le v.client e.lock r m.1
    ((.ok, q.1), put m { s with nvm := q.2 } none)
  | .key =>
    let q := KeyMsg.handle cfg.keyMsg v e.key r s
    ((.ok, q.1.1.bytes r.buf), put m q.2 q.1.2)
  | .crypto =>
    let q := CryptoMsg.handle cfg.cryptoMsg v e.crypto r s
    ((.ok, q.1), put m q.2 none)
  | .cryptoDma =>
    let q := CryptoDma.handle cfg.cryptoDma v e.cryptoDma r s
    ((.ok, q.1.1), put m q.2 q.1.2)
  | .she =>
    let q := She.handle cfg.she v e.she (m.2.she x) s r
    let m' := put m q.2.2 none
    (q.1, (m'.1, { m'.2 with she := Auth.upd m.2.she x q.2.1 }))
  | .custom =>
    let q := CustomMsg.handle cfg.custom cfg.table r m.2.app
    let m' := put m s none
    ((.ok, q.1), (m'.1, { m'.2 with app := q.2 }))
  | .cert =>
    let q := CertMsg.handle cfg.certMsg x v.client e.cert r ⟨s, m.2.vc (slotOf cfg x), m.2.log⟩
    let m' := put m q.2.sys q.1.2
    ((.ok, q.1.1), (m'.1, { m'.2 with vc := Auth.upd m.2.vc (slotOf cfg x) q.2.vc, log := q.2.log }))

/-- The dispatcher with these handlers. -/
def Cfg.server (c : Cfg A E) : Server.Cfg (Rest A) where
  comm := c.comm
  le := c.le
  auth := c.auth
  enableAuth := c.enableAuth
  globalKeys := c.ks.ids.globalKeys
  noCrypto := c.noCrypto
  dma := c.dma
  she := c.ks.she
  certs := c.certs
  serverId := c.serverId
  info := c.info
  version := c.version
  handler := handler c

/-- A device. -/
abbrev Dev (A : Type) := Server.Dev (Rest A)

/-- The key store of the device. -/
def sys (d : Dev A) : Sys := sysOf (d.auth.nvm, d.rest)

/-- `wh_Server_Init` of a context, src/wh_server.c:78-176, beside what `Server.start` does: the
context's key cache and verify cache are cleared.  (A SHE context belongs to the application and
is not touched.) -/
def fresh (cfg : Cfg A E) (x : Nat) (m : Rest A) : Rest A :=
  { m with loc := Auth.upd m.loc x (Keystore.Cache.mk (List.replicate (m.loc x).reg.length none)
                    (List.replicate (m.loc x).big.length none)),
           vc := if cfg.globalCache then m.vc else Auth.upd m.vc x (Cert.VCache.fresh cfg.count) }

/-- Power-up: the NVM recovers (`b`: an object whose add had failed shows up), everything in memory is
initialised, the contexts are without connection.  `wh_Nvm_Init`, `wh_Auth_Init`, `wh_Server_Init`. -/
def reboot (cfg : Cfg A E) (d : Dev A) (b : Bool) : Dev A :=
  let n := d.auth.nvm.restart b
  let empty := fun c : Keystore.Cache =>
    Keystore.Cache.mk (List.replicate c.reg.length none) (List.replicate c.big.length none)
  { auth := if cfg.enableAuth then Auth.init cfg.auth { d.auth with nvm := n } else { d.auth with nvm := n },
    rest := { d.rest with global := empty d.rest.global, loc := fun x => empty (d.rest.loc x),
                          vc := fun _ => Cert.VCache.fresh cfg.count, she := fun _ => She.St.boot },
    ctx := fun x => ⟨false, 0, (d.ctx x).hasAuth⟩ }

end WolfHsm.Device

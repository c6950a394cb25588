import Verif.Model.NvmMsg
import Verif.Model.Cert

/-!
# The certificate request group at byte level: `src/wh_server_cert.c`, `src/wh_message_cert.c`

`Model/Cert.lean` has the operations; here are the packets around them.  The structures are those of
wolfhsm/wh_message_cert.h; fields are given by their offsets.  The POST half of a DMA transfer (the
release of a mapping) is not modelled; its result is ignored by the code.
-/

namespace WolfHsm.CertMsg

open Wire
open NvmFlash (Meta)
open Server (Req)
open Cert (Der State Sched VCache)

/-- Build options and parameters of the handler. -/
structure Cfg (E : Type) where
  cert : Cert.Cfg E
  /-- byte order of the server -/
  le : Bool
  /-- `WOLFHSM_CFG_COMM_DATA_LEN` -/
  commLen : Nat
  /-- `WOLFHSM_CFG_DMA` -/
  dma : Bool
  /-- `WOLFHSM_CFG_CERTIFICATE_MANAGER_ACERT` -/
  acert : Bool

/-- What one request finds around it. -/
structure Env (E : Type) where
  /-- Result of `WH_SERVER_NVM_LOCK`. -/
  nvmLock : Rc
  /-- Result of taking the lock of the verify cache outside of a verification. -/
  cacheLock : Rc
  /-- The critical sections of a verification. -/
  sched : Sched
  /-- Environment of the X.509 library. -/
  x509 : E
  /-- Result of `WH_DMA_OPER_CLIENT_READ_PRE`: address and size. -/
  dmaRead : UInt64 → UInt32 → Rc
  /-- Result of `WH_DMA_OPER_CLIENT_WRITE_PRE`. -/
  dmaWrite : UInt64 → UInt32 → Rc
  /-- Client memory from an address on, when it is read for the `k`-th time. -/
  mem : Nat → UInt64 → Nat → UInt8

/-- `len` bytes of client memory. -/
def Env.bytes {E : Type} (e : Env E) (k : Nat) (addr : UInt64) (len : UInt32) : List UInt8 :=
  (List.range len.toNat).map (e.mem k addr)

/-- An operation of the certificate manager, with arguments in the form it takes. -/
inductive Job (E : Type) where
  | init
  | add (md : Meta) (cert : Der)
  | erase (id : UInt16)
  /-- into the response -/
  | read (id : UInt16)
  /-- into client memory -/
  | readDma (id : UInt16) (addr : UInt64) (len : UInt32)
  | verify (mem : Nat → List UInt8) (len : Nat) (roots : List UInt16) (flags keyFlags keyId : UInt16)
  | clear
  | enable (b : Bool)
  | acert (root : UInt16) (cert : Der)

/-- What the size checks and translations at the start of an action make of a request. -/
inductive Decoded (E : Type) where
  | unknown
  /-- Answered with this code before any lock is taken. -/
  | bad (rc : Rc)
  | job (j : Job E)

variable {E : Type}

/-- A metadata structure of zeros but for the given fields (`wh_Server_CertAddTrusted` sets the
length). -/
def metaOf (id access flags : UInt16) (label : List UInt8) : Meta := ⟨id, access, flags, 0, NvmMsg.label label⟩

/-- ADDTRUSTED, src/wh_server_cert.c:909-939. -/
def decAdd (cfg : Cfg E) (r : Req) : Decoded E :=
  if r.size < 36 then .bad .badargs
  else
    let len := (rd32 cfg.le r.magic r.buf 0).toNat
    if len > r.size - 36 then .bad .badargs
    else .job (.add (metaOf (rd16 cfg.le r.magic r.buf 4) (rd16 cfg.le r.magic r.buf 6) (rd16 cfg.le r.magic r.buf 8)
      (rdBytes r.buf 10 24)) (rdBytes r.buf 36 len))

/-- VERIFY, src/wh_server_cert.c:1049-1080. -/
def decVerify (cfg : Cfg E) (r : Req) : Decoded E :=
  if r.size < 12 then .bad .aborted
  else
    let len := (rd32 cfg.le r.magic r.buf 0).toNat
    if len > r.size - 12 then .bad .badargs
    else .job (.verify (fun _ => rdBytes r.buf 12 len) len [rd16 cfg.le r.magic r.buf 4]
      (rd16 cfg.le r.magic r.buf 6) (rd16 cfg.le r.magic r.buf 8) (rd16 cfg.le r.magic r.buf 10))

/-- VERIFY_MULTI_ROOT, src/wh_server_cert.c:1103-1157. -/
def decMulti (cfg : Cfg E) (r : Req) : Decoded E :=
  if r.size < 16 then .bad .aborted
  else
    let len := (rd32 cfg.le r.magic r.buf 0).toNat
    let n := (rd16 cfg.le r.magic r.buf 4).toNat
    if n = 0 ∨ n > cfg.cert.maxRoots then .bad .badargs
    else if 2 * n > r.size - 16 ∨ len > r.size - 16 - 2 * n then .bad .badargs
    else .job (.verify (fun _ => rdBytes r.buf (16 + 2 * n) len) len
      ((List.range n).map fun i => rd16 cfg.le r.magic r.buf (16 + 2 * i))
      (rd16 cfg.le r.magic r.buf 6) (rd16 cfg.le r.magic r.buf 8) (rd16 cfg.le r.magic r.buf 10))

/-- SET_ENABLED, src/wh_server_cert.c:1199-1220. -/
def decEnable (r : Req) : Decoded E :=
  if r.size ≠ 8 then .bad .aborted else .job (.enable (r.buf.getD 0 0 != 0))

/-- ADDTRUSTED_DMA, src/wh_server_cert.c:1226-1251. -/
def decAddDma (cfg : Cfg E) (e : Env E) (r : Req) : Decoded E :=
  if r.size ≠ 48 then .bad .aborted
  else
    let addr := rd64 cfg.le r.magic r.buf 0
    let len := rd32 cfg.le r.magic r.buf 8
    if e.dmaRead addr len ≠ .ok then .bad (e.dmaRead addr len)
    else .job (.add (metaOf (rd16 cfg.le r.magic r.buf 12) (rd16 cfg.le r.magic r.buf 14) (rd16 cfg.le r.magic r.buf 16)
      (rdBytes r.buf 18 24)) (e.bytes 0 addr len))

/-- READTRUSTED_DMA, src/wh_server_cert.c:1274-1300. -/
def decReadDma (cfg : Cfg E) (e : Env E) (r : Req) : Decoded E :=
  if r.size ≠ 16 then .bad .aborted
  else
    let addr := rd64 cfg.le r.magic r.buf 0
    let len := rd32 cfg.le r.magic r.buf 8
    if e.dmaWrite addr len ≠ .ok then .bad (e.dmaWrite addr len)
    else .job (.readDma (rd16 cfg.le r.magic r.buf 12) addr len)

/-- VERIFY_DMA, src/wh_server_cert.c:1338-1366. -/
def decVerifyDma (cfg : Cfg E) (e : Env E) (r : Req) : Decoded E :=
  if r.size ≠ 24 then .bad .aborted
  else
    let addr := rd64 cfg.le r.magic r.buf 0
    let len := rd32 cfg.le r.magic r.buf 8
    if e.dmaRead addr len ≠ .ok then .bad (e.dmaRead addr len)
    else .job (.verify (fun k => e.bytes k addr len) len.toNat [rd16 cfg.le r.magic r.buf 12]
      (rd16 cfg.le r.magic r.buf 14) (rd16 cfg.le r.magic r.buf 16) (rd16 cfg.le r.magic r.buf 18))

/-- The size of `whMessageCert_VerifyMultiRootDmaRequest`, wolfhsm/wh_message_cert.h: 24 bytes and the
array of root ids, a multiple of eight bytes. -/
def multiDmaSize (maxRoots : Nat) : Nat := 24 + (2 * maxRoots + 7) / 8 * 8

/-- VERIFY_MULTI_ROOT_DMA, src/wh_server_cert.c:1394-1424.  The number of root ids is compared with
the size of their array by `wh_Server_CertVerifyMultiRoot` only. -/
def decMultiDma (cfg : Cfg E) (e : Env E) (r : Req) : Decoded E :=
  if r.size ≠ multiDmaSize cfg.cert.maxRoots then .bad .aborted
  else
    let addr := rd64 cfg.le r.magic r.buf 0
    let len := rd32 cfg.le r.magic r.buf 8
    if e.dmaRead addr len ≠ .ok then .bad (e.dmaRead addr len)
    else .job (.verify (fun k => e.bytes k addr len) len.toNat
      ((List.range (rd16 cfg.le r.magic r.buf 12).toNat).map fun i => rd16 cfg.le r.magic r.buf (24 + 2 * i))
      (rd16 cfg.le r.magic r.buf 14) (rd16 cfg.le r.magic r.buf 16) (rd16 cfg.le r.magic r.buf 18))

/-- VERIFY_ACERT, src/wh_server_cert.c:1452-1485. -/
def decAcert (cfg : Cfg E) (r : Req) : Decoded E :=
  if r.size < 8 then .bad .aborted
  else
    let len := (rd32 cfg.le r.magic r.buf 0).toNat
    if len > r.size - 8 then .bad .badargs
    else .job (.acert (rd16 cfg.le r.magic r.buf 4) (rdBytes r.buf 8 len))

/-- VERIFY_ACERT_DMA, src/wh_server_cert.c:1509-1535. -/
def decAcertDma (cfg : Cfg E) (e : Env E) (r : Req) : Decoded E :=
  if r.size ≠ 24 then .bad .aborted
  else
    let addr := rd64 cfg.le r.magic r.buf 0
    let len := rd32 cfg.le r.magic r.buf 8
    if e.dmaRead addr len ≠ .ok then .bad (e.dmaRead addr len)
    else .job (.acert (rd16 cfg.le r.magic r.buf 12) (e.bytes 0 addr len))

/-- The action switch of `wh_Server_HandleCertRequest`, src/wh_server_cert.c:896-1577, with the checks
at the start of each action.  ERASETRUSTED and READTRUSTED (lines 957-963, 992-994) check no size.
Action numbers: wolfhsm/wh_message_cert.h:35-53. -/
def decode (cfg : Cfg E) (e : Env E) (r : Req) : Decoded E :=
  match r.action.toNat with
  | 1 => .job .init
  | 2 => decAdd cfg r
  | 3 => .job (.erase (rd16 cfg.le r.magic r.buf 0))
  | 4 => .job (.read (rd16 cfg.le r.magic r.buf 0))
  | 5 => decVerify cfg r
  | 6 => decMulti cfg r
  | 7 => if cfg.cert.caching then .job .clear else .unknown
  | 8 => if cfg.cert.caching then decEnable r else .unknown
  | 0x22 => if cfg.dma then decAddDma cfg e r else .unknown
  | 0x24 => if cfg.dma then decReadDma cfg e r else .unknown
  | 0x25 => if cfg.dma then decVerifyDma cfg e r else .unknown
  | 0x26 => if cfg.acert then decAcert cfg r else .unknown
  | 0x27 => if cfg.acert && cfg.dma then decAcertDma cfg e r else .unknown
  | 0x28 => if cfg.dma then decMultiDma cfg e r else .unknown
  | _ => .unknown

/-- The response structure before translation; fields an action does not have are not looked at. -/
structure Answer where
  rc : Rc
  keyId : UInt16 := 0
  len : Nat := 0
  bytes : List UInt8 := []
  /-- What goes to client memory. -/
  write : Option (UInt64 × List UInt8) := none
deriving DecidableEq

/-- The buffer READTRUSTED offers, src/wh_server_cert.c:983-1000. -/
def readRoom (cfg : Cfg E) : Nat := min cfg.cert.maxCert (cfg.commLen - 8)

/-- The operation on server context `x` for the client `client`, between locking and unlocking.
INIT takes no lock of its own; under the global cache the two cache actions take only the lock of
the cache (src/wh_server_cert.c:1171-1187, 1205-1217).  A failing read may leave bytes in client
memory; only successful ones are modelled as writes. -/
def perform (cfg : Cfg E) (x : Nat) (client : UInt16) (e : Env E) (s : State) : Job E → Answer × State
  | .init =>
    let a := Cert.certInit cfg.cert s e.cacheLock
    ({ rc := a.1 }, a.2)
  | .add md cert =>
    if e.nvmLock ≠ .ok then ({ rc := e.nvmLock }, s)
    else
      let a := Cert.addTrusted cfg.cert s e.cacheLock md cert
      ({ rc := a.1 }, a.2)
  | .erase id =>
    if e.nvmLock ≠ .ok then ({ rc := e.nvmLock }, s)
    else
      let a := Cert.eraseTrusted cfg.cert s e.cacheLock id
      ({ rc := a.1 }, a.2)
  | .read id =>
    let a := Cert.readChecked cfg.cert.maxCert s.sys.nvm e.nvmLock id (readRoom cfg)
    ({ rc := a.1.1, len := if a.1.1 = .ok ∨ a.1.1 = .bufferSize then a.1.2.1 else 0,
       bytes := if a.1.1 = .ok then a.1.2.2 else [] }, { s with sys := { s.sys with nvm := a.2 } })
  | .readDma id addr len =>
    let a := Cert.readChecked cfg.cert.maxCert s.sys.nvm e.nvmLock id len.toNat
    ({ rc := a.1.1, write := if a.1.1 = .ok then some (addr, a.1.2.2) else none },
      { s with sys := { s.sys with nvm := a.2 } })
  | .verify mem len roots flags keyFlags keyId =>
    if e.nvmLock ≠ .ok then ({ rc := e.nvmLock }, s)
    else
      let a := Cert.verifyMulti cfg.cert s ⟨x, e.x509, e.sched, mem, roots, flags, keyFlags⟩ len
        (KeyId.fromClient cfg.cert.ks.ids KeyId.typeCrypto client keyId)
      ({ rc := a.1.1, keyId := KeyId.toClient cfg.cert.ks.ids a.1.2 }, a.2)
  | .clear =>
    if cfg.cert.globalCache = false ∧ e.nvmLock ≠ .ok then ({ rc := e.nvmLock }, s)
    else
      let a := s.vc.clear e.cacheLock
      ({ rc := a.1 }, { s with vc := a.2 })
  | .enable b =>
    if cfg.cert.globalCache = false ∧ e.nvmLock ≠ .ok then ({ rc := e.nvmLock }, s)
    else
      let a := s.vc.setEnabled e.cacheLock b
      ({ rc := a.1 }, { s with vc := a.2 })
  | .acert root cert =>
    if e.nvmLock ≠ .ok then ({ rc := e.nvmLock }, s)
    else
      let a := Cert.verifyAcert cfg.cert s.sys.nvm root cert
      ({ rc := a.1 }, { s with sys := { s.sys with nvm := a.2 } })

/-- The outcome of a request: none for an action that is not handled. -/
def serve (cfg : Cfg E) (x : Nat) (client : UInt16) (e : Env E) (r : Req) (s : State) : Option Answer × State :=
  match decode cfg e r with
  | .unknown => (none, s)
  | .bad rc => (some { rc := rc }, s)
  | .job j =>
    let a := perform cfg x client e s j
    (some a.1, a.2)

/-- The response packet, src/wh_message_cert.c:30-246 and the sizes set by the handler: the structures
have eight bytes each; where a translator does not write, the packet keeps what it held.
READTRUSTED has the certificate behind the structure. -/
def reply (cfg : Cfg E) (r : Req) (a : Answer) : List UInt8 :=
  match r.action.toNat with
  | 4 =>
    over (w32 cfg.le r.magic a.rc.code ++ (w32 cfg.le r.magic (UInt32.ofNat a.len) ++ a.bytes)) r.buf
      (8 + (if a.rc = .ok then a.len else 0))
  | 5 | 6 | 0x25 | 0x28 => over (w32 cfg.le r.magic a.rc.code ++ w16 cfg.le r.magic a.keyId) r.buf 8
  | _ => over (w32 cfg.le r.magic a.rc.code) r.buf 8

/-- `wh_Server_HandleCertRequest`, src/wh_server_cert.c:882-1580: the response, the write to client
memory, and the state after it.  An action that is not handled is answered with an empty packet.
Its return value is only logged by the dispatcher (src/wh_server.c:712-735). -/
def handle (cfg : Cfg E) (x : Nat) (client : UInt16) (e : Env E) (r : Req) (s : State) :
    (List UInt8 × Option (UInt64 × List UInt8)) × State :=
  match serve cfg x client e r s with
  | (none, s') => (([], none), s')
  | (some a, s') => ((reply cfg r a, a.write), s')

/-- The part of a device beside its NVM that the certificate group works on, and the rest of it.
Without the global cache every server context has its own verify cache. -/
structure Rest (Q : Type) where
  global : Keystore.Cache
  loc : Nat → Keystore.Cache
  vc : Nat → VCache
  log : List (List Der × Der)
  other : Q

/-- The verify cache of a server context. -/
def slotOf (cfg : Cfg E) (x : Nat) : Nat := if cfg.cert.globalCache then 0 else x

/-- What context `x` works on. -/
def view {Q : Type} (cfg : Cfg E) (x : Nat) (n : Nvm) (m : Rest Q) : State :=
  ⟨⟨n, m.global, m.loc⟩, m.vc (slotOf cfg x), m.log⟩

/-- The rest of the device after a request on context `x`. -/
def put {Q : Type} (cfg : Cfg E) (x : Nat) (m : Rest Q) (s : State) (q : Q) : Rest Q :=
  ⟨s.sys.global, s.sys.loc, fun y => if y = slotOf cfg x then s.vc else m.vc y, s.log, q⟩

/-- The handler in the place the dispatcher has for it. -/
def handler {Q : Type} (cfg : Cfg E) (env : Q → Env E) (next : Q → Option (UInt64 × List UInt8) → Q) (x : Nat)
    (client : UInt32) (r : Req) (m : Nvm × Rest Q) : (Rc × List UInt8) × (Nvm × Rest Q) :=
  let a := handle cfg x client.toUInt16 (env m.2.other) r (view cfg x m.1 m.2)
  ((.ok, a.1.1), (a.2.sys.nvm, put cfg x m.2 a.2 (next m.2.other a.1.2)))

end WolfHsm.CertMsg

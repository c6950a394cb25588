import Verif.Model.NvmMsg
import Verif.Model.Keystore

/-!
# The key request group at byte level: `src/wh_server_keystore.c`, `src/wh_message_keystore.c`

`Model/Keystore.lean` has the handler on decoded requests; here are the packets around it.  The
structures are those of wolfhsm/wh_message_keystore.h:39-512; fields are given by their offsets.
AES-GCM is taken to be compiled in when key wrapping is, and a random generator to be present
(without one CACHE_RANDOM answers NOTIMPL).
-/

namespace WolfHsm.KeyMsg

open Wire
open NvmFlash (Meta)
open Server (Req)
open Keystore (Srv Sys)

/-- Build options and parameters of the handler. -/
structure Cfg where
  ks : Keystore.Cfg
  /-- byte order of the server -/
  le : Bool
  /-- `WOLFHSM_CFG_DMA` -/
  dma : Bool
  /-- `WOLFHSM_CFG_KEYWRAP` -/
  keywrap : Bool
  /-- `WC_CIPHER_AES_GCM`, an enumeration value of the crypto library -/
  gcm : UInt16

/-- What one request finds around it. -/
structure Env where
  /-- Result of `WH_SERVER_NVM_LOCK`. -/
  lock : Rc
  /-- Result of copying from client memory: address and size. -/
  dmaIn : UInt64 → Nat → Rc
  /-- Result of copying to client memory: address and size. -/
  dmaOut : UInt64 → Nat → Rc
  /-- Client memory. -/
  mem : UInt64 → Nat → UInt8
  /-- Output of the random generator for a new key, or its error. -/
  rng : Except Rc (Nat → UInt8)
  /-- Output of the random generator for an initialisation vector, or its error. -/
  iv : Except Rc (Vector UInt8 12)

/-- The initialisation vector as the key store takes it. -/
def Env.ivBytes (e : Env) : Except Rc (List UInt8) := e.iv.map Vector.toList

/-- What the size checks find: an action that is not handled, a request refused before the lock is
taken, one refused with the lock held (`cipher`: the response's cipher field has been set by then),
or a request for the key store. -/
inductive Decoded where
  | unknown
  | early
  | late (rc : Rc) (cipher : Bool)
  | req (q : Keystore.Req)

/-- `req_size < sizeof(req)`, e.g. src/wh_server_keystore.c:2611-2613. -/
def sized (r : Req) (n : Nat) (k : Decoded) : Decoded := if r.size < n then .early else k

/-- The label copied from a request, e.g. src/wh_server_keystore.c:2640-2643: at most `sz` bytes of
the 24 in the label field, into zeroed metadata. -/
def cutLabel (sz : UInt32) (l : List UInt8) : Vector UInt8 24 := NvmMsg.label (l.take sz.toNat)

/-- A metadata structure in the packet, in the client's byte order,
`wh_MessageNvm_TranslateMetadata`, src/wh_message_nvm.c:40-55. -/
def metaAt (cfg : Cfg) (r : Req) (off : Nat) : Meta :=
  ⟨rd16 cfg.le r.magic r.buf off, rd16 cfg.le r.magic r.buf (off + 2), rd16 cfg.le r.magic r.buf (off + 4),
   rd16 cfg.le r.magic r.buf (off + 6), NvmMsg.label (rdBytes r.buf (off + 8) 24)⟩

/-- CACHE, src/wh_server_keystore.c:2606-2644. -/
def decCache (cfg : Cfg) (r : Req) : Decoded :=
  sized r 40 <|
    let sz := rd32 cfg.le r.magic r.buf 4
    if sz.toNat > r.size - 40 then .early
    else .req (.cache (rd16 cfg.le r.magic r.buf 12) (rd32 cfg.le r.magic r.buf 0).toUInt16
      (cutLabel (rd32 cfg.le r.magic r.buf 8) (rdBytes r.buf 16 24)) (rdBytes r.buf 40 sz.toNat))

/-- CACHE_RANDOM, src/wh_server_keystore.c:2676-2706. -/
def decCacheRandom (cfg : Cfg) (e : Env) (r : Req) : Decoded :=
  sized r 40 <| .req (.cacheRandom (rd16 cfg.le r.magic r.buf 10) (rd32 cfg.le r.magic r.buf 0).toUInt16
    (cutLabel (rd32 cfg.le r.magic r.buf 4) (rdBytes r.buf 16 24)) (rd16 cfg.le r.magic r.buf 8) e.rng)

/-- CACHE_DMA, src/wh_server_keystore.c:2742-2769.  The copy is of the truncated length,
src/wh_server_keystore.c:3644. -/
def decCacheDma (cfg : Cfg) (e : Env) (r : Req) : Decoded :=
  sized r 56 <|
    let addr := rd64 cfg.le r.magic r.buf 0
    let sz := rd64 cfg.le r.magic r.buf 8
    .req (.cacheDma (rd16 cfg.le r.magic r.buf 24) (rd32 cfg.le r.magic r.buf 16).toUInt16
      (cutLabel (rd32 cfg.le r.magic r.buf 20) (rdBytes r.buf 26 24)) sz (e.dmaIn addr sz.toUInt16.toNat) (e.mem addr))

/-- EXPORT_DMA, src/wh_server_keystore.c:2808-2821. -/
def decExportDma (cfg : Cfg) (e : Env) (r : Req) : Decoded :=
  sized r 24 <| .req (.exportDma (rd16 cfg.le r.magic r.buf 16) (rd64 cfg.le r.magic r.buf 8)
    (e.dmaOut (rd64 cfg.le r.magic r.buf 0)))

/-- EVICT, COMMIT, ERASE, REVOKE, EXPORT, e.g. src/wh_server_keystore.c:2987-3008. -/
def decId (cfg : Cfg) (r : Req) (f : UInt16 → Keystore.Req) : Decoded :=
  sized r 8 <| .req (f (rd16 cfg.le r.magic r.buf 0))

/-- KEYWRAP, src/wh_server_keystore.c:3292-3342, 1868-1916. -/
def decWrap (cfg : Cfg) (e : Env) (r : Req) : Decoded :=
  sized r 6 <|
    let sz := (rd16 cfg.le r.magic r.buf 0).toNat
    if sz > cfg.ks.maxWrapKey then .late .badargs false
    else if r.size - 6 < 32 + sz then .late .bufferSize true
    else if rd16 cfg.le r.magic r.buf 4 ≠ cfg.gcm then .late .badargs true
    else .req (.wrap (rd16 cfg.le r.magic r.buf 2) (metaAt cfg r 6) (rdBytes r.buf 38 sz) e.ivBytes)

/-- KEYWRAPEXPORT, src/wh_server_keystore.c:3344-3390. -/
def decWrapExport (cfg : Cfg) (e : Env) (r : Req) : Decoded :=
  sized r 8 <| .req (.wrapExport (rd16 cfg.le r.magic r.buf 6 == cfg.gcm) (rd16 cfg.le r.magic r.buf 4)
    (rd16 cfg.le r.magic r.buf 2) (rd16 cfg.le r.magic r.buf 0) e.ivBytes)

/-- KEYUNWRAPEXPORT and KEYUNWRAPCACHE, src/wh_server_keystore.c:3392-3502, 2090-2133,
2236-2275. -/
def decUnwrap (cfg : Cfg) (r : Req) (f : UInt16 → List UInt8 → Keystore.Req) : Decoded :=
  sized r 8 <|
    let sz := (rd16 cfg.le r.magic r.buf 0).toNat
    if r.size - 8 < sz then .late .bufferSize false
    else if rd16 cfg.le r.magic r.buf 4 ≠ cfg.gcm then .late .badargs true
    else .req (f (rd16 cfg.le r.magic r.buf 2) (rdBytes r.buf 8 sz))

/-- DATAWRAP, src/wh_server_keystore.c:3504-3554, 2438-2480. -/
def decDataWrap (cfg : Cfg) (e : Env) (r : Req) : Decoded :=
  sized r 8 <|
    let sz := (rd32 cfg.le r.magic r.buf 0).toNat
    if sz > cfg.ks.maxWrapData then .late .badargs false
    else if r.size - 8 < sz then .late .bufferSize false
    else if rd16 cfg.le r.magic r.buf 6 ≠ cfg.gcm then .late .badargs true
    else .req (.dataWrap (rd16 cfg.le r.magic r.buf 4) (rdBytes r.buf 8 sz) e.ivBytes)

/-- DATAUNWRAP, src/wh_server_keystore.c:3556-3606, 2511-2552. -/
def decDataUnwrap (cfg : Cfg) (r : Req) : Decoded :=
  sized r 8 <|
    let sz := (rd32 cfg.le r.magic r.buf 0).toNat
    if r.size - 8 < sz then .late .bufferSize false
    else if rd16 cfg.le r.magic r.buf 6 ≠ cfg.gcm then .late .badargs true
    else .req (.dataUnwrap (rd16 cfg.le r.magic r.buf 4) (rdBytes r.buf 8 sz))

/-- The action switch of `wh_Server_HandleKeyRequest`, src/wh_server_keystore.c:2605-3613, with the
size checks and translations at the start of each action.  EXPORT_PUBLIC and EXPORT_PUBLIC_DMA
(lines 3069-3087, 2857-2882) check no size.  Action numbers: wolfhsm/wh_message.h:60-77. -/
def decode (cfg : Cfg) (e : Env) (r : Req) : Decoded :=
  match r.action.toNat with
  | 0 => decCache cfg r
  | 1 => decId cfg r .evict
  | 2 => decId cfg r .exportKey
  | 3 => decId cfg r .commit
  | 4 => decId cfg r .erase
  | 5 => decId cfg r .revoke
  | 6 => if cfg.dma then decCacheDma cfg e r else .unknown
  | 7 => if cfg.dma then decExportDma cfg e r else .unknown
  | 8 => if cfg.keywrap then decWrap cfg e r else .unknown
  | 9 => if cfg.keywrap then decUnwrap cfg r .unwrapExport else .unknown
  | 10 => if cfg.keywrap then decUnwrap cfg r .unwrapCache else .unknown
  | 11 => if cfg.keywrap then decDataWrap cfg e r else .unknown
  | 12 => if cfg.keywrap then decDataUnwrap cfg r else .unknown
  | 13 => .req (.exportPublic (rd16 cfg.le r.magic r.buf 0) (rd16 cfg.le r.magic r.buf 2))
  | 14 => if cfg.dma then
      .req (.exportPublic (rd16 cfg.le r.magic r.buf 16) (rd16 cfg.le r.magic r.buf 18)) else .unknown
  | 15 => decCacheRandom cfg e r
  | 16 => if cfg.keywrap then decWrapExport cfg e r else .unknown
  | _ => .unknown

/-- The response structure before translation; fields an action does not have are zero. -/
structure Answer where
  rc : Rc
  id : UInt16 := 0
  label : Vector UInt8 24 := Vector.replicate 24 0
  bytes : List UInt8 := []
  md : Meta := ⟨0, 0, 0, 0, Vector.replicate 24 0⟩
  cipher : UInt16 := 0
  badAddr : UInt64 := 0
  badSz : UInt64 := 0
  /-- What goes to client memory instead of into the response. -/
  write : Option (UInt64 × List UInt8) := none

/-- The response structure for an outcome of the key store.  `label`: the label of the cached key. -/
def Answer.of (label : Vector UInt8 24) : Keystore.Resp → Answer
  | .code rc => { rc := rc }
  | .keyId rc id => { rc := rc, id := id }
  | .key rc l bytes => { rc := rc, label := l.getD (Vector.replicate 24 0), bytes := bytes }
  | .pubKey rc bytes => if rc = .ok then { rc := rc, label := label, bytes := bytes } else { rc := rc }
  | .wrapped rc blob => { rc := rc, bytes := if rc = .ok then blob else [] }
  | .unwrapped rc (some (md, key)) => { rc := rc, md := md, bytes := key }
  | .unwrapped rc none => { rc := rc }
  | .data rc bytes => { rc := rc, bytes := if rc = .ok then bytes else [] }
  | .usable rc _ => { rc := rc }

/-- The cipher field of a request. -/
def cipherOf (cfg : Cfg) (r : Req) : UInt16 :=
  match r.action.toNat with
  | 8 | 9 | 10 => rd16 cfg.le r.magic r.buf 4
  | 11 | 12 | 16 => rd16 cfg.le r.magic r.buf 6
  | _ => 0

/-- What an action does with the outcome `a` of the key store operation on `s` that left `s'`,
with the lock held: the cipher field is copied from the request (e.g.
src/wh_server_keystore.c:1893); exports by DMA copy to client memory, and failures of DMA actions
report the address (src/wh_server_keystore.c:2779-2788, 2834-2844, 2949-2962). -/
def finish (cfg : Cfg) (v : Srv) (e : Env) (r : Req) (s : Sys) (a : Answer) : Answer :=
  let addr := rd64 cfg.le r.magic r.buf 0
  let sz := rd64 cfg.le r.magic r.buf 8
  match r.action.toNat with
  | 6 =>
    let id := KeyId.fromClient cfg.ks.ids KeyId.typeCrypto v.client (rd16 cfg.le r.magic r.buf 24)
    if a.rc ≠ .ok ∧ ¬ (KeyId.isUnassigned id = true ∧ (Keystore.getUniqueId cfg.ks v.ctx s id).1 ≠ .ok) then
      { a with badAddr := addr, badSz := sz } else a
  | 7 => if a.rc = .ok then { a with write := some (addr, a.bytes) } else { a with badAddr := addr, badSz := sz }
  | 14 =>
    if a.rc = .ok then
      if a.bytes.length > sz.toNat then { rc := .nospace }
      else if e.dmaOut addr a.bytes.length = .ok then { a with write := some (addr, a.bytes) }
      else { rc := e.dmaOut addr a.bytes.length, badAddr := addr, badSz := sz }
    else a
  | _ => { a with cipher := cipherOf cfg r }

/-- The label of the key an EXPORT_PUBLIC names, from its cache entry after the request,
src/wh_server_keystore.c:3172-3174. -/
def labelOf (cfg : Cfg) (v : Srv) (q : Keystore.Req) (s : Sys) : Vector UInt8 24 :=
  match q with
  | .exportPublic id _ =>
    ((Keystore.cached cfg.ks v.ctx s (KeyId.fromClient cfg.ks.ids KeyId.typeCrypto v.client id)).map fun k => k.md.label).getD
      (Vector.replicate 24 0)
  | _ => Vector.replicate 24 0

/-- The outcome of a request: none for an action that is not handled. -/
def serve (cfg : Cfg) (v : Srv) (e : Env) (r : Req) (s : Sys) : Option Answer × Sys :=
  match decode cfg e r with
  | .unknown => (none, s)
  | .early => (some { rc := .badargs }, s)
  | .late rc c =>
    if e.lock = .ok then (some { rc := rc, cipher := if c then cipherOf cfg r else 0 }, s)
    else (some { rc := e.lock }, s)
  | .req q =>
    let a := Keystore.handle cfg.ks v s e.lock q
    if e.lock = .ok then (some (finish cfg v e r s (Answer.of (labelOf cfg v q a.2) a.1)), a.2)
    else (some { rc := e.lock }, a.2)

/-- A response: fields written over the packet buffer up to `size`, then bytes behind them. -/
structure Reply where
  fields : List UInt8
  size : Nat
  tail : List UInt8

/-- The response packet.  Trailing padding of the structures is not written: there the packet
keeps what it held. -/
def Reply.bytes (p : Reply) (buf : List UInt8) : List UInt8 := over p.fields buf p.size ++ p.tail

/-- The response translators, src/wh_message_keystore.c:31-527, and the sizes set by the handler.
The exported key is bounded by the space in the packet, as its length was before
(src/wh_server_keystore.c:3041, 3090). -/
def reply (cfg : Cfg) (r : Req) (a : Answer) : Reply :=
  let f16 := w16 cfg.le r.magic
  let f32 := w32 cfg.le r.magic
  let f64 := w64 cfg.le r.magic
  match r.action.toNat with
  | 0 | 15 => ⟨f32 a.rc.code ++ f16 a.id, 12, []⟩
  | 1 | 3 | 4 => ⟨f32 a.rc.code ++ f32 0, 12, []⟩
  | 5 => ⟨f32 a.rc.code, 8, []⟩
  | 2 | 13 =>
    let bs := a.bytes.take (cfg.ks.commLen - 36)
    ⟨f32 a.rc.code ++ (f32 (UInt32.ofNat bs.length) ++ a.label.toList), 36, bs⟩
  | 6 => ⟨f64 a.badAddr ++ (f64 a.badSz ++ (f32 a.rc.code ++ f16 a.id)), 24, []⟩
  | 7 | 14 =>
    ⟨f64 a.badAddr ++ (f64 a.badSz ++ (f32 a.rc.code ++ (f32 (UInt32.ofNat a.bytes.length) ++ a.label.toList))),
      48, []⟩
  | 8 | 16 => ⟨f32 a.rc.code ++ (f16 (UInt16.ofNat a.bytes.length) ++ f16 a.cipher), 8, a.bytes⟩
  | 9 =>
    ⟨f32 a.rc.code ++ (f16 (UInt16.ofNat a.bytes.length) ++ f16 a.cipher), 8,
      f16 a.md.id ++ (f16 a.md.access ++ (f16 a.md.flags ++ (f16 a.md.len ++ (a.md.label.toList ++ a.bytes))))⟩
  | 10 => ⟨f32 a.rc.code ++ (f16 a.id ++ f16 a.cipher), 8, []⟩
  | _ => ⟨f32 a.rc.code ++ (f32 (UInt32.ofNat a.bytes.length) ++ f16 a.cipher), 12, a.bytes⟩

/-- `wh_Server_HandleKeyRequest`, src/wh_server_keystore.c:2588-3617: the response, the write to
client memory, and the key store after it.  For an action that is not handled the response size is
not set; the dispatcher (src/wh_server.c:669-672) passed it in holding the size of the request, so
the request itself goes back. -/
def handle (cfg : Cfg) (v : Srv) (e : Env) (r : Req) (s : Sys) : (Reply × Option (UInt64 × List UInt8)) × Sys :=
  match serve cfg v e r s with
  | (none, s') => ((⟨[], 0, r.data⟩, none), s')
  | (some a, s') => ((reply cfg r a, a.write), s')

/-- The part of a device beside its NVM that the key group works on, and the rest of it. -/
structure Rest (Q : Type) where
  global : Keystore.Cache
  loc : Nat → Keystore.Cache
  other : Q

/-- The handler in the place the dispatcher has for it. -/
def handler {Q : Type} (cfg : Cfg) (env : Q → Env) (next : Q → Option (UInt64 × List UInt8) → Q) (x : Nat)
    (client : UInt32) (r : Req) (m : Nvm × Rest Q) : (Rc × List UInt8) × (Nvm × Rest Q) :=
  let q := handle cfg ⟨x, client.toUInt16⟩ (env m.2.other) r ⟨m.1, m.2.global, m.2.loc⟩
  ((.ok, q.1.1.bytes r.buf), (q.2.nvm, ⟨q.2.global, q.2.loc, next m.2.other q.1.2⟩))

end WolfHsm.KeyMsg

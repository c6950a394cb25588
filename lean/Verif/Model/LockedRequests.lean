import Verif.Model.Lock
import Verif.Model.Counter
import Verif.Model.Cert

/-!
# The request handlers as programs with explicit locking

Each handler below is the sequence of lock operations and API calls on the shared state of the C
code, at the granularity of the calls the handler makes.  What a handler does with the request and
response packets, with client memory and with its local variables is not shared and is not a
step.

The shared state: NVM, the key cache for global keys, the key caches of the contexts (each used by
its own context only) and the certificate verify caches.
-/

namespace WolfHsm.Lock

open Keystore (Sys Srv)
open NvmFlash (Meta)

/-- What server contexts with the same NVM context share, and their own caches. -/
structure Shared where
  sys : Sys
  /-- number 0: the one in the NVM context; number `t + 1`: the one of context `t` -/
  vcs : Nat → Cert.VCache

/-- A call that uses only the NVM. -/
def onNvm {X : Type} (f : Nvm → X × Nvm) (s : Shared) : X × Shared :=
  ((f s.sys.nvm).1, { s with sys := { s.sys with nvm := (f s.sys.nvm).2 } })

/-- A call that uses the NVM and the key caches. -/
def onSys {X : Type} (f : Sys → X × Sys) (s : Shared) : X × Shared :=
  ((f s.sys).1, { s with sys := (f s.sys).2 })

/-- Which verify cache context `t` uses, `_GetVerifyCache`, src/wh_server_cert.c:47-65. -/
def vcIndex (glob : Bool) (t : Nat) : Nat := if glob then 0 else t + 1

/-- A call that may also use the verify cache. -/
def onCert {X : Type} (glob : Bool) (t : Nat) (f : Cert.State → X × Cert.State) (s : Shared) :
    X × Shared :=
  let r := f ⟨s.sys, s.vcs (vcIndex glob t), []⟩
  (r.1, ⟨r.2.sys, fun i => if i = vcIndex glob t then r.2.vc else s.vcs i⟩)

/-- Unlock and answer. -/
def finish {S A : Type} (a : A) : Prog S A := .unlock (.ret a)

/-! ## Counters -/

/-- `wh_Server_HandleCounter`, src/wh_server_counter.c:40-233: INIT 78-86, INCREMENT 112-142,
READ 167-183, DESTROY 213-218. -/
def counterProg (client : UInt16) : Counter.Req → Prog Shared Counter.Resp
  | .init cid v => .guarded (fun rc => ⟨rc, 0⟩) <|
      .call (onNvm fun n => n.addWithReclaim (Counter.put (Counter.blankMeta (Counter.keyOf client cid)) v) [])
        fun rc => match rc with
          | .ok => finish ⟨.ok, v⟩
          | rc => finish ⟨rc, 0⟩
  | .increment cid => .guarded (fun rc => ⟨rc, 0⟩) <|
      .call (onNvm fun n => (n.metadata (Counter.keyOf client cid), n)) fun r => match r with
        | (.ok, some md) =>
          if Counter.get md + 1 = 0 then finish ⟨.ok, 0xFFFFFFFF⟩
          else .call (onNvm fun n => n.addWithReclaim (Counter.put md (Counter.get md + 1)) []) fun rc =>
            match rc with
            | .ok => finish ⟨.ok, Counter.get md + 1⟩
            | rc => finish ⟨rc, 0⟩
        | (rc, _) => finish ⟨rc, 0⟩
  | .read cid => .guarded (fun rc => ⟨rc, 0⟩) <|
      .call (onNvm fun n => (n.metadata (Counter.keyOf client cid), n)) fun r => match r with
        | (.ok, some md) => finish ⟨.ok, Counter.get md⟩
        | (rc, _) => finish ⟨rc, 0⟩
  | .destroy cid => .guarded (fun rc => ⟨rc, 0⟩) <|
      .call (onNvm fun n => n.destroy [Counter.keyOf client cid]) fun rc => finish ⟨rc, 0⟩
  | .malformed => .ret ⟨.badargs, 0⟩
  | .unknown => .ret ⟨.badargs, 0⟩

/-! ## NVM objects -/

/-- `wh_Server_HandleNvmRequest`, src/wh_server_nvm.c:87-523: LIST 161-168, GETAVAILABLE 186-194,
GETMETADATA 217-223, ADDOBJECT 268-279, DESTROYOBJECTS 303-311, READ 342-351 with
`_HandleNvmRead` 52-85, ADDOBJECTDMA 375-423, READDMA 463-507. -/
def nvmProg (cfg : NvmServer.Cfg) : NvmServer.Req → Prog Shared NvmServer.Resp
  | .init c => .ret (.initResp .ok c)
  | .cleanup => .ret (.simple .ok)
  | .list a f st => .guarded (fun rc => .listed rc 0 0) <|
      .call (onNvm fun n => (cfg.list n.store a f st, n)) fun r => finish (.listed r.1 r.2.1 r.2.2)
  | .getAvailable => .guarded (fun rc => .avail rc []) <|
      .call (onNvm fun n => (cfg.avail n.store, n)) fun r => finish (.avail r.1 r.2)
  | .getMetadata id => .guarded (fun rc => .metadata rc none) <|
      .call (onNvm fun n => (n.metadata id, n)) fun r => finish (.metadata r.1 r.2)
  | .add md payload =>
      if payload.length = md.len.toNat then
        if cfg.statefulBlob payload then .ret (.simple .access)
        else .guarded .simple <|
          .call (onNvm fun n => n.addChecked md md payload) fun rc => finish (.simple rc)
      else .ret (.simple .ok)
  | .destroy count ids =>
      if count.toNat ≤ 19 then
        .guarded .simple <|
          .call (onNvm fun n => n.destroyChecked (ids.toList.take count.toNat)) fun rc => finish (.simple rc)
      else .ret (.simple .aborted)
  | .read id off len => .guarded (fun rc => .bytes rc []) <|
      if len.toNat > cfg.maxRead then finish (.bytes .aborted [])
      else .call (onNvm fun n => (n.metadata id, n)) fun r => match r with
        | (.ok, some md) =>
          if off ≥ md.len then finish (.bytes .badargs [])
          else .call (onNvm fun n => n.readChecked id off.toNat
              (if len > md.len - off then md.len - off else len).toNat)
            fun r => finish (.bytes r.1 r.2)
        | (rc, _) => finish (.bytes rc [])
  | .addDma pm pd z m1 m2 peek data =>
      match pm, pd with
      | .ok, .ok =>
        if z then .ret (.simple .badargs)
        else if cfg.statefulBlob peek then .ret (.simple .access)
        else .guarded .simple <|
          .call (onNvm fun n => n.addChecked m1 m2 data) fun rc => finish (.simple rc)
      | .ok, rc => .ret (.simple rc)
      | rc, _ => .ret (.simple rc)
  | .readDma id off len pre => .guarded (fun rc => .bytes rc []) <|
      .call (onNvm fun n => (n.metadata id, n)) fun r => match r with
        | (.ok, some md) =>
          if off ≥ md.len then finish (.bytes .badargs [])
          else match pre with
            | .ok => .call (onNvm fun n => n.readChecked id off.toNat
                (if len > md.len - off then md.len - off else len).toNat)
              fun r => finish (.bytes r.1 r.2)
            | rc => finish (.bytes rc [])
        | (rc, _) => finish (.bytes rc [])
  | .malformed => .ret (.simple .aborted)
  | .unknown => .ret .empty

/-! ## Keys -/

/-- Take a fresh id when none was given, then store the key, with the lock held: e.g.
src/wh_server_keystore.c:2647-2661. -/
def storeProg (cfg : Keystore.Cfg) (v : Srv) (unassigned : Bool) (md : Meta)
    (k : Meta → Sys → Rc × Sys) : Prog Shared Keystore.Resp :=
  let go (md : Meta) : Prog Shared Keystore.Resp :=
    .call (onSys (k md)) fun rc =>
      finish (.keyId rc (if rc = .ok then KeyId.toClient cfg.ids md.id else 0))
  if unassigned then
    .call (onSys fun s => (Keystore.getUniqueId cfg v.ctx s md.id, s)) fun r => match r with
      | (.ok, id) => go { md with id := id }
      | (rc, _) => finish (.keyId rc 0)
  else go md

/-- `wh_Server_HandleKeyRequest`, src/wh_server_keystore.c:2588-3617, with the lock taken at CACHE 2647,
CACHE_RANDOM 2708, CACHE_DMA 2772, EXPORT_DMA 2824, EXPORT_PUBLIC_DMA 2881, EVICT 3001, EXPORT 3042,
EXPORT_PUBLIC 3090, COMMIT 3204, ERASE 3239, REVOKE 3273 and the wrap requests 3327, 3375, 3428, 3486,
3539, 3592; and the key accesses of the crypto requests: reading a key with its usage check
(src/wh_server_keystore.c:1158-1193), importing one (src/wh_server_crypto.c:418-432) and evicting one
when asked to (`_CryptoEvictKeyLocked`, src/wh_server_crypto.c:242-255). -/
def keyProg (cfg : Keystore.Cfg) (v : Srv) (r : Keystore.Req) : Prog Shared Keystore.Resp :=
  let own (id : UInt16) := KeyId.fromClient cfg.ids KeyId.typeCrypto v.client id
  match r with
  | .malformed => .ret (.code .badargs)
  | .cache id flags label key => .guarded .code <|
      if key.length ≥ 65536 then finish (.keyId .badargs 0)
      else
        let md := Keystore.clientMeta cfg v id flags label (UInt16.ofNat key.length)
        storeProg cfg v (KeyId.isUnassigned md.id) md fun md s => Keystore.cacheKey cfg v.ctx s true md key
  | .cacheRandom id flags label sz rng => .guarded .code <|
      let md := Keystore.clientMeta cfg v id flags label sz
      storeProg cfg v (KeyId.isErased md.id) md fun md s => Keystore.cacheRandomKey cfg v.ctx s md rng
  | .cacheDma id flags label sz dma mem => .guarded .code <|
      let md := Keystore.clientMeta cfg v id flags label sz.toUInt16
      storeProg cfg v (KeyId.isUnassigned md.id) md fun md s => Keystore.cacheKeyDma cfg v.ctx s md dma mem
  | .importKey id flags label cap der => .guarded .code <|
      let md := Keystore.clientMeta cfg v id flags label 0
      storeProg cfg v (KeyId.isErased md.id) md fun md s => Keystore.importKey cfg v.ctx s md cap der
  | .exportKey id => .guarded .code <|
      .call (onSys fun s => Keystore.readKeyChecked cfg v.ctx s (own id) (cfg.commLen - 36)) fun r =>
        finish (Keystore.keyResp r)
  | .exportDma id sz dma => .guarded .code <|
      .call (onSys fun s => Keystore.exportKeyDma cfg v.ctx s (own id) sz dma) fun r =>
        finish (Keystore.keyResp r)
  | .exportPublic id algo => .guarded .code <|
      .call (onSys fun s => (Keystore.policy cfg v.ctx s .exportPublic (own id), s)) fun rc => match rc with
        | .ok => .call (onSys fun s =>
              let r := Keystore.freshen cfg v.ctx s (own id)
              ((r.1, r.2.1), r.2.2)) fun r => match r with
            | (.ok, some k) => let p := cfg.publicOf algo k.data; finish (.pubKey p.1 p.2)
            | (rc, _) => finish (.pubKey rc [])
        | rc => finish (.pubKey rc [])
  | .evict id => .guarded .code <|
      .call (onSys fun s => Keystore.evictKeyChecked cfg v.ctx s (own id)) fun rc => finish (.code rc)
  | .commit id => .guarded .code <|
      .call (onSys fun s => Keystore.commitKeyChecked cfg v.ctx s (own id)) fun rc => finish (.code rc)
  | .erase id => .guarded .code <|
      .call (onSys fun s => Keystore.eraseKeyChecked cfg v.ctx s (own id)) fun rc => finish (.code rc)
  | .revoke id => .guarded .code <|
      .call (onSys fun s => Keystore.revokeKey cfg v.ctx s (own id)) fun rc => finish (.code rc)
  | .wrap kekId md key iv => .guarded .code <|
      .call (onSys fun s => Keystore.handleWrap cfg v s kekId md key iv) fun r => finish (.wrapped r.1 r.2)
  | .wrapExport gcm kekId keyType keyId iv => .guarded .code <|
      .call (onSys fun s => Keystore.handleWrapExport cfg v s gcm kekId keyType keyId iv) fun r =>
        finish (.wrapped r.1 r.2)
  | .unwrapExport kekId blob => .guarded .code <|
      .call (onSys fun s => Keystore.handleUnwrapExport cfg v s kekId blob) fun r =>
        finish (.unwrapped r.1 r.2)
  | .unwrapCache kekId blob => .guarded .code <|
      .call (onSys fun s => Keystore.handleUnwrapCache cfg v s kekId blob) fun r => finish (.keyId r.1 r.2)
  | .dataWrap kekId data iv => .guarded .code <|
      .call (onSys fun s => Keystore.handleDataWrap cfg v s kekId data iv) fun r => finish (.wrapped r.1 r.2)
  | .dataUnwrap kekId blob => .guarded .code <|
      .call (onSys fun s => Keystore.handleDataUnwrap cfg v s kekId blob) fun r => finish (.data r.1 r.2)
  | .useKey id required outSz => .guarded .code <|
      .call (onSys fun s => Keystore.readKey cfg v.ctx s (own id) outSz) fun r => match r with
        | (.ok, some (md, bs)) => match Keystore.enforceUsage md.flags required with
          | .ok => finish (.usable .ok (some bs))
          | rc => finish (.usable rc (some (List.replicate bs.length 0)))
        | (rc, _) => finish (.usable rc none)
  | .evictOption id =>
      if KeyId.isErased (own id) then .ret (.code .ok)
      else .guarded .code <| .call (onSys fun s => Keystore.evictKey cfg v.ctx s (own id)) fun rc => finish (.code rc)
  | .loadKey id required => .guarded .code <|
      .call (onSys fun s =>
        let r := Keystore.freshen cfg v.ctx s (own id)
        ((r.1, r.2.1), r.2.2)) fun r => match r with
        | (.ok, some k) => match Keystore.enforceUsage k.md.flags required with
          | .ok => finish (.usable .ok (some k.data))
          | rc => finish (.usable rc none)
        | (rc, _) => finish (.usable rc none)

/-! ## Certificates -/

/-- A certificate request that takes the NVM lock. -/
inductive CertReq (E : Type) where
  | add (cacheLock : Rc) (md : Meta) (cert : Cert.Der)
  | erase (cacheLock : Rc) (id : UInt16)
  | read (id : UInt16) (bufLen : Nat)
  | verify (c : Cert.Call E) (chainLen : Nat) (keyId : UInt16)
  | acert (id : UInt16) (cert : Cert.Der)

/-- Its answer. -/
inductive CertResp where
  | code (rc : Rc)
  | bytes (rc : Rc) (len : Nat) (data : List UInt8)
  | keyId (rc : Rc) (id : UInt16)

/-- `wh_Server_HandleCertRequest`, src/wh_server_cert.c:882-1580, with the lock taken at ADDTRUSTED 941,
ERASETRUSTED 966, READTRUSTED 1004, VERIFY 1072, VERIFY_MULTI_ROOT 1152, their DMA forms 1252, 1304,
1368, 1426, and VERIFY_ACERT 1482, 1534.  Not here: CACHE_CLEAR and SET_ENABLED; with the shared verify
cache they take that cache's own lock and may come in the middle of a verification (`Cert.Sched`). -/
def certProg {E : Type} (cfg : Cert.Cfg E) (t : Nat) : CertReq E → Prog Shared CertResp
  | .add cl md cert => .guarded .code <|
      .call (onCert cfg.globalCache t fun s => Cert.addTrusted cfg s cl md cert) fun rc => finish (.code rc)
  | .erase cl id => .guarded .code <|
      .call (onCert cfg.globalCache t fun s => Cert.eraseTrusted cfg s cl id) fun rc => finish (.code rc)
  | .read id bufLen => .guarded (fun rc => .bytes rc bufLen []) <|
      .call (onNvm fun n => (n.metadata id, n)) fun r => match r with
        | (.ok, some md) =>
          if hasFlag md.flags (Flag.nonExportable ||| Nvm.serverOnly) then finish (.bytes .access bufLen [])
          else .call (onNvm fun n => Cert.readTrusted cfg.maxCert n id bufLen) fun r =>
            finish (.bytes r.1 r.2.1 r.2.2)
        | (rc, _) => finish (.bytes rc bufLen [])
  | .verify c n keyId => .guarded (fun rc => .keyId rc keyId) <|
      .call (onCert cfg.globalCache t fun s => Cert.verifyMulti cfg s { c with ctx := t } n keyId) fun r =>
        finish (.keyId r.1 r.2)
  | .acert id cert => .guarded .code <|
      .call (onNvm fun n => Cert.verifyAcert cfg n id cert) fun rc => finish (.code rc)

/-! ## Two requests that do not lock -/

/-- Position of a key in a cache. -/
def locOf (c : Keystore.Cache) (id : UInt16) : Option Keystore.Loc :=
  match c.reg.findIdx? (Keystore.Slot.holds id) with
  | some i => some ⟨false, i⟩
  | none => (c.big.findIdx? (Keystore.Slot.holds id)).map fun i => ⟨true, i⟩

/-- The bytes a pointer into a cache slot leads to; an evicted slot has length 0. -/
def slotData (c : Keystore.Cache) (loc : Keystore.Loc) : List UInt8 :=
  match (if loc.big then c.big else c.reg).getD loc.idx none with
  | some k => k.data
  | none => []

/-- `_HandleEccMakePub`, src/wh_server_crypto.c:1816-1888, which is called without the lock and
takes none: 1856 `wh_Server_EccKeyCacheExport` (694-713) gets a pointer into the cache from
`wh_Server_KeystoreFreshenKey` (707) and then decodes what it finds there (710); 1877
`wh_Server_KeystoreEvictKey`.  (`_HandleEccCheckPubKey`, 1891-1986, is the same in this respect, at
1938 and 1973.)  `algo`: stands for the ECC decoder and `wc_ecc_make_pub_ex`/`wc_ecc_export_x963`.
Each of the three calls is one step here, although without the lock even they are not atomic. -/
def eccMakePubProg (cfg : Keystore.Cfg) (v : Srv) (id algo : UInt16) (evict : Bool) :
    Prog Shared Keystore.Resp :=
  let own := KeyId.fromClient cfg.ids KeyId.typeCrypto v.client id
  let last (a : Keystore.Resp) : Prog Shared Keystore.Resp :=
    if evict then .call (onSys fun s => Keystore.evictKey cfg v.ctx s own) fun _ => .ret a else .ret a
  .call (onSys fun s =>
      let r := Keystore.freshen cfg v.ctx s own
      ((r.1, locOf (Keystore.cacheOf cfg v.ctx r.2.2 own) own), r.2.2)) fun r => match r with
    | (.ok, some loc) => .call (onSys fun s => (slotData (Keystore.cacheOf cfg v.ctx s own) loc, s)) fun d =>
        let p := cfg.publicOf algo d
        last (.pubKey p.1 p.2)
    | (rc, _) => last (.pubKey rc [])

/-! ## All of them -/

/-- Compile-time options. -/
structure Cfg (E : Type) where
  nvm : NvmServer.Cfg
  cert : Cert.Cfg E
  /-- client id of the connection of each context -/
  client : Nat → UInt16

/-- A request. -/
inductive Req (E : Type) where
  | counter (r : Counter.Req)
  | nvm (r : NvmServer.Req)
  | key (r : Keystore.Req)
  | cert (r : CertReq E)

/-- An answer. -/
inductive Ans where
  | counter (r : Counter.Resp)
  | nvm (r : NvmServer.Resp)
  | key (r : Keystore.Resp)
  | cert (r : CertResp)

/-- Change the answer of a program. -/
def Prog.map {S A B : Type} (g : A → B) : Prog S A → Prog S B
  | .ret a => .ret (g a)
  | .lock k => .lock fun rc => (k rc).map g
  | .unlock p => .unlock (p.map g)
  | .access f k => .access f fun s => (k s).map g

/-- The handler of context `t` for a request. -/
def handler {E : Type} (cfg : Cfg E) (t : Nat) : Req E → Prog Shared Ans
  | .counter r => (counterProg (cfg.client t) r).map .counter
  | .nvm r => (nvmProg cfg.nvm r).map .nvm
  | .key r => (keyProg cfg.cert.ks ⟨t, cfg.client t⟩ r).map .key
  | .cert r => (certProg cfg.cert t r).map .cert

/-- A request of the group above, or "make public key" with its key, algorithm and evict option. -/
abbrev AnyReq (E : Type) := Req E ⊕ (UInt16 × UInt16 × Bool)

/-- The handler of context `t`, with the request that does not lock. -/
def anyHandler {E : Type} (cfg : Cfg E) (t : Nat) : AnyReq E → Prog Shared Ans
  | .inl r => handler cfg t r
  | .inr (id, algo, evict) => (eccMakePubProg cfg.cert.ks ⟨t, cfg.client t⟩ id algo evict).map .key

end WolfHsm.Lock

import Verif.Model.Keystore

/-!
# The certificate manager (`src/wh_server_cert.c`)

The X.509 library (wolfSSL's certificate manager and wolfCrypt's parser and hash) is a
parameter: what it answers may depend on an environment (date, revocation lists, the
verify callback the application has registered).  A certificate manager object is the list of
the CA certificates loaded into it.

The state has one verify-result cache: the global one under
`WOLFHSM_CFG_CERTIFICATE_VERIFY_CACHE_GLOBAL`, otherwise the one of the server context
looked at.  In the second case a history sees the certificate requests of the other
contexts as `other` events.

`log` is a ghost field: the calls of `wolfSSL_CertManagerVerifyBuffer` which succeeded,
with the trust store they were made with.  Nothing reads it.
-/

namespace WolfHsm.Cert

open Keystore (Sys)
open NvmFlash (Meta)

/-- A certificate in DER form, or what is presented as one. -/
abbrev Der := List UInt8

/-- The library.  `E`: environment of a call. -/
structure X509 (E : Type) where
  /-- `DerNextSequence`, src/wh_server_cert.c:345-359: `idx + cert_len - 2` of the first
  element.  A DER tag and length take at least two bytes, so the two are always there. -/
  derLen : Der → Except Rc Nat
  /-- `wolfSSL_CertManagerVerifyBuffer`; `WOLFSSL_SUCCESS` is `.ok`. -/
  verify : E → (store : List Der) → Der → Rc
  /-- `wc_ParseCert` without verification: is it a CA certificate? -/
  parse : Der → Except Rc Bool
  /-- `wolfSSL_CertManagerLoadCABuffer`; `WOLFSSL_SUCCESS` is `.ok`. -/
  loadCA : (store : List Der) → Der → Rc
  /-- `wc_Sha256Hash_ex`: result code and digest. -/
  hashRc : E → Der → Rc
  hash : Der → List UInt8
  /-- `wc_GetSubjectPubKeyInfoDerFromCert` -/
  pubKey : Der → Except Rc (List UInt8)
  /-- `wc_VerifyX509Acert` with the public key of the given root, lines 857-874.
  `.certVerify` stands for `ASN_SIG_CONFIRM_E` and `ASN_SIG_OID_E`. -/
  acert : (root : Der) → Der → Rc

/-- Compile-time options and the library. -/
structure Cfg (E : Type) where
  ks : Keystore.Cfg
  x509 : X509 E
  /-- `WOLFHSM_CFG_CERTIFICATE_VERIFY_CACHE` -/
  caching : Bool
  /-- `WOLFHSM_CFG_CERTIFICATE_VERIFY_CACHE_GLOBAL` -/
  globalCache : Bool
  /-- `WOLFHSM_CFG_CERT_VERIFY_CACHE_COUNT` -/
  count : Nat
  /-- `WOLFHSM_CFG_CERT_MAX_VERIFY_ROOTS` -/
  maxRoots : Nat
  /-- `WOLFHSM_CFG_MAX_CERT_SIZE` -/
  maxCert : Nat

/-- A committed `whCertVerifyCacheSlot`, wolfhsm/wh_server_cert_cache.h:83-92. -/
structure Slot where
  roots : List UInt16
  hash : List UInt8
deriving DecidableEq

/-- `whCertVerifyCacheContext`, wolfhsm/wh_server_cert_cache.h:94-113.  `none`: slot not
committed. -/
structure VCache where
  slots : List (Option Slot)
  writeIdx : Nat
  enabled : Bool
deriving DecidableEq

/-- A fresh cache, src/wh_server.c:158-160 and src/wh_nvm.c:114-119. -/
def VCache.fresh (count : Nat) : VCache := ⟨List.replicate count none, 0, true⟩

/-- `memset(cache->slots, 0, …); cache->writeIdx = 0`. -/
def VCache.wipe (c : VCache) : VCache := { c with slots := c.slots.map fun _ => none, writeIdx := 0 }

/-- `_IsSubsetOf`, src/wh_server_cert.c:94-112. -/
def isSubset (sub sup : List UInt16) : Bool := sub.all fun r => sup.contains r

/-- `_LookupSubsetUnlocked`, src/wh_server_cert.c:117-132. -/
def VCache.hit (c : VCache) (roots : List UInt16) (h : List UInt8) : Bool :=
  c.slots.any fun o => match o with
    | some s => s.hash == h && isSubset s.roots roots
    | none => false

/-- `wh_Server_CertVerifyCache_Lookup`, src/wh_server_cert.c:154-186. -/
def VCache.lookup (c : VCache) (lock : Rc) (roots : List UInt16) (h : List UInt8) : Rc :=
  if roots = [] then .badargs
  else if lock ≠ .ok then lock
  else if !c.enabled then .notfound
  else if c.hit roots h then .ok else .notfound

/-- `_HasExactSlotUnlocked`, src/wh_server_cert.c:137-152. -/
def VCache.hasExact (c : VCache) (roots : List UInt16) (h : List UInt8) : Bool :=
  c.slots.any fun o => match o with
    | some s => s.roots.length == roots.length && s.hash == h && isSubset s.roots roots
    | none => false

/-- `wh_Server_CertVerifyCache_Insert`, src/wh_server_cert.c:188-233. -/
def VCache.insert (maxRoots : Nat) (c : VCache) (lock : Rc) (roots : List UInt16)
    (h : List UInt8) : VCache :=
  if roots = [] ∨ roots.length > maxRoots then c
  else if lock ≠ .ok then c
  else if !c.enabled then c
  else if c.hasExact roots h then c
  else { c with slots := c.slots.set c.writeIdx (some ⟨roots, h⟩),
                writeIdx := (c.writeIdx + 1) % c.slots.length }

/-- `wh_Server_CertVerifyCache_Clear`, src/wh_server_cert.c:235-259. -/
def VCache.clear (c : VCache) (lock : Rc) : Rc × VCache :=
  if lock ≠ .ok then (lock, c) else (.ok, c.wipe)

/-- `wh_Server_CertVerifyCache_SetEnabled`, src/wh_server_cert.c:261-290. -/
def VCache.setEnabled (c : VCache) (lock : Rc) (enable : Bool) : Rc × VCache :=
  if lock ≠ .ok then (lock, c)
  else (.ok, { (if enable then c else c.wipe) with enabled := enable })

/-- `wh_Server_CertVerifyCache_EvictRoot`, src/wh_server_cert.c:292-331. -/
def VCache.evictRoot (c : VCache) (lock : Rc) (root : UInt16) : Rc × VCache :=
  if lock ≠ .ok then (lock, c)
  else (.ok, { c with slots := c.slots.map fun o => match o with
      | some s => if s.roots.contains root then none else some s
      | none => none })

/-- The part of the server's state the certificate requests work on. -/
structure State where
  sys : Sys
  vc : VCache
  /-- ghost: successful library verifications (trust store, certificate) -/
  log : List (List Der × Der)

/-- What another server context can do to the global cache while a chain is being
verified: its CACHE_CLEAR and SET_ENABLED requests take only the cache's own lock
(src/wh_server_cert.c:1171-1222). -/
inductive CacheOp where
  | clear
  | enable (b : Bool)

/-- One such operation. -/
def CacheOp.run (c : VCache) : CacheOp → VCache
  | .clear => (c.clear .ok).2
  | .enable b => (c.setEnabled .ok b).2

/-- What happens at the critical sections of a verification, numbered from 0: the
operations of other contexts just before, and the result of acquiring the lock. -/
structure Sched where
  before : Nat → List CacheOp
  lock : Nat → Rc

/-- The cache when critical section `k` starts. -/
def Sched.enter (sc : Sched) (k : Nat) (c : VCache) : VCache := (sc.before k).foldl CacheOp.run c

/-- `wh_Server_CertInit`, src/wh_server_cert.c:572-594. -/
def certInit {E : Type} (cfg : Cfg E) (s : State) (lock : Rc) : Rc × State :=
  if cfg.caching && !cfg.globalCache then
    let r := s.vc.clear lock
    (r.1, { s with vc := r.2 })
  else (.ok, s)

/-- After a successful change of the root object: `EvictRoot` (lines 629-641, 676-684). -/
def evicting {E : Type} (cfg : Cfg E) (s : State) (rc lock : Rc) (id : UInt16) : Rc × State :=
  if cfg.caching && rc == .ok then
    let r := s.vc.evictRoot lock id
    (r.1, { s with vc := r.2 })
  else (rc, s)

/-- `wh_Server_CertAddTrusted`, src/wh_server_cert.c:597-644.  `md`: id, access, flags and
label of the request; both callers pass a label of full length.  `lock`: result of
taking the cache's lock.  Lengths are `whNvmSize` (16 bits) in `metadata.len` and in the
call of `wh_Nvm_AddObjectChecked`, so a longer certificate (possible with DMA only) is
cut. -/
def addTrusted {E : Type} (cfg : Cfg E) (s : State) (lock : Rc) (md : Meta) (cert : Der) :
    Rc × State :=
  if cert = [] then (.badargs, s)
  else
    let md := { md with len := UInt16.ofNat cert.length }
    let r := s.sys.nvm.addChecked md md (cert.take (cert.length % 65536))
    evicting cfg { s with sys := { s.sys with nvm := r.2 } } r.1 lock md.id

/-- `wh_Server_CertEraseTrusted`, src/wh_server_cert.c:647-687. -/
def eraseTrusted {E : Type} (cfg : Cfg E) (s : State) (lock : Rc) (id : UInt16) : Rc × State :=
  let go : Rc × State :=
    let r := s.sys.nvm.destroy [id]
    evicting cfg { s with sys := { s.sys with nvm := r.2 } } r.1 lock id
  match s.sys.nvm.metadata id with
  | (.ok, some md) =>
    if hasFlag md.flags (Nvm.serverOnly ||| Flag.nonDestroyable) then (.access, s) else go
  | (.notfound, _) => go
  | (rc, _) => (rc, s)

/-- `wh_Server_CertReadTrusted`, src/wh_server_cert.c:690-720.  The result is the code,
the length reported back and the bytes. -/
def readTrusted (maxCert : Nat) (n : Nvm) (id : UInt16) (bufLen : Nat) :
    (Rc × Nat × List UInt8) × Nvm :=
  if bufLen > maxCert then ((.badargs, bufLen, []), n)
  else match n.metadata id with
    | (.ok, some md) =>
      if md.len.toNat > bufLen then ((.bufferSize, md.len.toNat, []), n)
      else
        let r := n.read id 0 md.len.toNat
        ((r.1.1, md.len.toNat, r.1.2), r.2)
    | (rc, _) => ((rc, bufLen, []), n)

/-- READTRUSTED and READTRUSTED_DMA once the request is decoded,
src/wh_server_cert.c:1000-1026 and 1301-1324. -/
def readChecked (maxCert : Nat) (n : Nvm) (nvmLock : Rc) (id : UInt16) (bufLen : Nat) :
    (Rc × Nat × List UInt8) × Nvm :=
  if nvmLock ≠ .ok then ((nvmLock, bufLen, []), n)
  else match n.metadata id with
    | (.ok, some md) =>
      if hasFlag md.flags (Flag.nonExportable ||| Nvm.serverOnly) then ((.access, bufLen, []), n)
      else readTrusted maxCert n id bufLen
    | (rc, _) => ((rc, bufLen, []), n)

/-- The loading loop of `wh_Server_CertVerifyMultiRoot`, src/wh_server_cert.c:772-805: the
certificate manager's store and the ids loaded, in order. -/
def loadRoots {E : Type} (cfg : Cfg E) : List UInt16 → Nvm → List Der → List UInt16 →
    (Rc × List Der × List UInt16) × Nvm
  | [], n, store, loaded => ((.ok, store, loaded), n)
  | r :: rs, n, store, loaded =>
    if loaded.contains r then loadRoots cfg rs n store loaded
    else match readTrusted cfg.maxCert n r cfg.maxCert with
      | ((.notfound, _, _), n') => loadRoots cfg rs n' store loaded
      | ((.ok, _, cert), n') =>
        if cfg.x509.loadCA store cert = .ok then
          loadRoots cfg rs n' (store ++ [cert]) (loaded ++ [r])
        else ((.aborted, store, loaded), n')
      | ((rc, _, _), n') => ((rc, store, loaded), n')

/-- Fixed arguments of one chain verification. -/
structure Call (E : Type) where
  /-- server context -/
  ctx : Nat
  env : E
  sched : Sched
  /-- What the chain buffer holds at the `k`-th time the server reads it.  Constant when
  the chain is in the request; with DMA it is client memory. -/
  mem : Nat → List UInt8
  /-- `loadedRootNvmIds` -/
  roots : List UInt16
  flags : UInt16
  keyFlags : UInt16

/-- The `len` bytes at `off` as read for the `k`-th time. -/
def Call.bytes {E : Type} (c : Call E) (k off len : Nat) : Der := ((c.mem k).drop off).take len

/-- What the chain walk changes. -/
structure Walk where
  st : State
  /-- CA certificates in the certificate manager -/
  store : List Der
  keyId : UInt16

/-- `wolfSSL_CertManagerVerifyBuffer` (and the ghost record of it). -/
def verifyBuffer {E : Type} (cfg : Cfg E) (c : Call E) (w : Walk) (cert : Der) : Rc × Walk :=
  match cfg.x509.verify c.env w.store cert with
  | .ok => (.ok, { w with st := { w.st with log := (w.store, cert) :: w.st.log } })
  | rc => (rc, w)

/-- Lines 406-457: hash and cache lookup, or the library's verification.  `i`: position
in the chain.  Also the digest when the certificate has been hashed. -/
def checkCert {E : Type} (cfg : Cfg E) (c : Call E) (i off len : Nat) (w : Walk) :
    Rc × Option (List UInt8) × Walk :=
  if cfg.caching then
    let vc := c.sched.enter (3 * i) w.st.vc
    let w := { w with st := { w.st with vc := vc } }
    if c.sched.lock (3 * i) = .ok ∧ vc.enabled = true then
      let b := c.bytes (5 * i + 1) off len
      if cfg.x509.hashRc c.env b ≠ .ok then (cfg.x509.hashRc c.env b, none, w)
      else
        let h := cfg.x509.hash b
        let vc := c.sched.enter (3 * i + 1) vc
        let w := { w with st := { w.st with vc := vc } }
        if vc.lookup (c.sched.lock (3 * i + 1)) c.roots h = .ok then (.ok, some h, w)
        else
          let r := verifyBuffer cfg c w (c.bytes (5 * i + 2) off len)
          (r.1, some h, r.2)
    else
      let r := verifyBuffer cfg c w (c.bytes (5 * i + 2) off len)
      (r.1, none, r.2)
  else
    let r := verifyBuffer cfg c w (c.bytes (5 * i + 2) off len)
    (r.1, none, r.2)

/-- `"cert_pubkey"` padded to 24 bytes, lines 513-524. -/
def pubKeyLabel : Vector UInt8 24 :=
  #v[0x63, 0x65, 0x72, 0x74, 0x5f, 0x70, 0x75, 0x62, 0x6b, 0x65, 0x79, 0, 0, 0, 0, 0, 0, 0, 0, 0,
     0, 0, 0, 0]

/-- Lines 496-533: put the leaf's public key into the key cache. -/
def cacheLeaf {E : Type} (cfg : Cfg E) (c : Call E) (cert : Der) (w : Walk) : Rc × Walk :=
  match Keystore.getSlotChecked cfg.ks c.ctx w.st.sys w.keyId cfg.ks.bigBufSize with
  | (.ok, some loc, s') =>
    match cfg.x509.pubKey cert with
    | .ok pk =>
      if pk.length > cfg.ks.bigBufSize then
        (.bufferSize, { w with st := { w.st with sys := s' } })
      else
        let md : Meta := { id := w.keyId, access := 0xFFFF, flags := c.keyFlags &&& ~~~Nvm.serverOnly,
                           len := UInt16.ofNat pk.length, label := pubKeyLabel }
        (.ok, { w with st := { w.st with sys := Keystore.fill cfg.ks c.ctx s' loc md pk } })
    | .error rc => (errRc rc, { w with st := { w.st with sys := s' } })
  | (rc, _, s') => (errRc rc, { w with st := { w.st with sys := s' } })

/-- `WH_CERT_FLAGS_CACHE_LEAF_PUBKEY`, wolfhsm/wh_common.h. -/
def cacheLeafFlag : UInt16 := 1

/-- Lines 484-533: the branch for a certificate that is not a CA. -/
def leaf {E : Type} (cfg : Cfg E) (c : Call E) (cert : Der) (w : Walk) : Rc × Walk :=
  if c.flags &&& cacheLeafFlag = 0 then (.ok, w)
  else if KeyId.isErased w.keyId then
    match Keystore.getUniqueId cfg.ks c.ctx w.st.sys w.keyId with
    | (.ok, id) => cacheLeaf cfg c cert { w with keyId := id }
    | (rc, _) => (errRc rc, w)
  else cacheLeaf cfg c cert w

/-- Lines 462-558: what is done with a certificate that has been accepted. -/
def accepted {E : Type} (cfg : Cfg E) (c : Call E) (i off len : Nat) (h : Option (List UInt8))
    (w : Walk) : Rc × Walk :=
  match cfg.x509.parse (c.bytes (5 * i + 3) off len) with
  | .error rc => (errRc rc, w)
  | .ok true =>
    let cert := c.bytes (5 * i + 4) off len
    if cfg.x509.loadCA w.store cert = .ok then
      let w := { w with store := w.store ++ [cert] }
      match h with
      | some h =>
        let vc := c.sched.enter (3 * i + 2) w.st.vc
        (.ok, { w with st := { w.st with
          vc := vc.insert cfg.maxRoots (c.sched.lock (3 * i + 2)) c.roots h } })
      | none => (.ok, w)
    else (errRc (cfg.x509.loadCA w.store cert), w)
  | .ok false => leaf cfg c (c.bytes (5 * i + 4) off len) w

/-- The loop of `_verifyChainAgainstCmStore`, src/wh_server_cert.c:388-566.  `fuel`: at
least `rem`; every turn consumes at least two bytes. -/
def walk {E : Type} (cfg : Cfg E) (c : Call E) : (fuel i off rem : Nat) → Walk → Rc × Walk
  | 0, _, _, _, w => (.ok, w)
  | fuel + 1, i, off, rem, w =>
    if rem = 0 then (.ok, w)
    else match cfg.x509.derLen (c.bytes (5 * i) off rem) with
      | .error rc => (errRc rc, w)
      | .ok n =>
        if n + 2 > rem then (.aborted, w)
        else match checkCert cfg c i off (n + 2) w with
          | (.ok, h, w1) =>
            match accepted cfg c i off (n + 2) h w1 with
            | (.ok, w2) => walk cfg c fuel (i + 1) (off + (n + 2)) (rem - (n + 2)) w2
            | (rc, w2) => (rc, w2)
          | (rc, _, w1) => (rc, w1)

/-- `_verifyChainAgainstCmStore`, src/wh_server_cert.c:364-569. -/
def verifyChain {E : Type} (cfg : Cfg E) (c : Call E) (chainLen : Nat) (w : Walk) : Rc × Walk :=
  if chainLen = 0 ∨ c.roots = [] then (.badargs, w)
  else walk cfg c chainLen 0 0 chainLen w

/-- `wh_Server_CertVerifyMultiRoot`, src/wh_server_cert.c:723-826; `wh_Server_CertVerify`
(829-837) is the call with one root.  `c.roots` is the array of the caller.  Also the key
id handed back. -/
def verifyMulti {E : Type} (cfg : Cfg E) (s : State) (c : Call E) (chainLen : Nat)
    (keyId : UInt16) : (Rc × UInt16) × State :=
  if chainLen = 0 ∨ c.roots = [] ∨ c.roots.length > cfg.maxRoots then ((.badargs, keyId), s)
  else match loadRoots cfg c.roots s.sys.nvm [] [] with
    | ((.ok, store, loaded), n) =>
      let s := { s with sys := { s.sys with nvm := n } }
      if loaded = [] then ((.notfound, keyId), s)
      else match verifyChain cfg { c with roots := loaded } chainLen ⟨s, store, keyId⟩ with
        | (.ok, w) => ((.ok, w.keyId), w.st)
        | (_, w) => ((.certVerify, w.keyId), w.st)
    | ((rc, _, _), n) => ((rc, keyId), { s with sys := { s.sys with nvm := n } })

/-- `wh_Server_CertVerifyAcert`, src/wh_server_cert.c:840-878. -/
def verifyAcert {E : Type} (cfg : Cfg E) (n : Nvm) (id : UInt16) (cert : Der) : Rc × Nvm :=
  match readTrusted cfg.maxCert n id cfg.maxCert with
  | ((.ok, _, root), n') => (cfg.x509.acert root cert, n')
  | ((rc, _, _), n') => (rc, n')

/-- What happens to the cache and to the objects it depends on.  In the requests
`nvmLock` is the result of the server's NVM lock (under the global cache, CACHE_CLEAR and
SET_ENABLED do not take it: then it is `.ok`), `lock` that of the cache's own lock
(`.ok` when it has none). -/
inductive Ev (E : Type) where
  /-- INIT -/
  | init (lock : Rc)
  /-- ADDTRUSTED and ADDTRUSTED_DMA -/
  | add (nvmLock lock : Rc) (md : Meta) (cert : Der)
  /-- ERASETRUSTED -/
  | erase (nvmLock lock : Rc) (id : UInt16)
  /-- VERIFY, VERIFY_MULTI_ROOT and their DMA forms; image verification by certificate -/
  | verify (nvmLock : Rc) (c : Call E) (chainLen : Nat) (keyId : UInt16)
  /-- CACHE_CLEAR -/
  | clear (nvmLock lock : Rc)
  /-- SET_ENABLED -/
  | enable (nvmLock lock : Rc) (b : Bool)
  /-- Power-up, `wh_Server_Init` or (global cache) `wh_Nvm_Init`: a fresh cache -/
  | restart (sys : Sys)
  /-- Anything else the server (or another context) does: every request of the other
  groups, certificate requests using another cache.  They leave the rest in an arbitrary
  state. -/
  | other (sys : Sys)

/-- One event. -/
def step {E : Type} (cfg : Cfg E) (s : State) : Ev E → State
  | .init lock => (certInit cfg s lock).2
  | .add nl lock md cert => if nl = .ok then (addTrusted cfg s lock md cert).2 else s
  | .erase nl lock id => if nl = .ok then (eraseTrusted cfg s lock id).2 else s
  | .verify nl c n k => if nl = .ok then (verifyMulti cfg s c n k).2 else s
  | .clear nl lock => if nl = .ok then { s with vc := (s.vc.clear lock).2 } else s
  | .enable nl lock b => if nl = .ok then { s with vc := (s.vc.setEnabled lock b).2 } else s
  | .restart sys => { s with sys := sys, vc := VCache.fresh cfg.count }
  | .other sys => { s with sys := sys }

/-- A history. -/
def run {E : Type} (cfg : Cfg E) (s : State) (evs : List (Ev E)) : State := evs.foldl (step cfg) s

end WolfHsm.Cert

import Verif.Model.Nvm
import Verif.Model.KeyId

/-!
# The server key store (`src/wh_server_keystore.c`)

Key cache, policy checks, request handler and key wrapping, over the NVM layer of
`Model/Nvm.lean`.  One NVM (with the cache for global keys) is shared by any number of
server contexts, each with its own local key cache.

Simplifications, common to the whole file: NVM is configured (`server->nvm != NULL`);
NULL-pointer checks have no counterpart; a cache buffer is represented by its first
`meta->len` bytes; an erased slot (`meta->id == WH_KEYID_ERASED`) by `none`, so what an
erased slot still holds besides its id is not represented.  Key id 0 itself, which the
C code would find in an erased slot, is never looked up: ids built by
`wh_KeyId_TranslateFromClient` carry a non-zero type.
-/

namespace WolfHsm.Keystore

open NvmFlash (Meta Store)

/-- A used cache slot, `whCacheSlot`/`whBigCacheSlot`, wolfhsm/wh_keycache.h:37-47. -/
structure CKey where
  md : Meta
  data : List UInt8
  committed : Bool
deriving DecidableEq

/-- A cache slot; `none` when its id is `WH_KEYID_ERASED`. -/
abbrev Slot := Option CKey

/-- `whKeyCacheContext`, wolfhsm/wh_keycache.h:56-59. -/
structure Cache where
  reg : List Slot
  big : List Slot

/-- Does the slot hold this id? -/
def Slot.holds (id : UInt16) : Slot → Bool
  | some k => k.md.id == id
  | none => false

/-- Is the slot marked as committed? -/
def Slot.isCommitted : Slot → Bool
  | some k => k.committed
  | none => false

/-- First slot with this id. -/
def findIn (l : List Slot) (id : UInt16) : Option CKey := (l.find? (Slot.holds id)).join

/-- `_FindInKeyCache`, src/wh_server_keystore.c:272-321: the regular cache first, then
the big one. -/
def Cache.find (c : Cache) (id : UInt16) : Option CKey :=
  match findIn c.reg id with
  | some k => some k
  | none => findIn c.big id

/-- Change the first slot with this id. -/
def updFirst (id : UInt16) (f : CKey → Slot) : List Slot → List Slot
  | [] => []
  | some k :: l => if k.md.id = id then f k :: l else some k :: updFirst id f l
  | none :: l => none :: updFirst id f l

/-- Change the slot found by `_FindInKeyCache`. -/
def Cache.update (c : Cache) (id : UInt16) (f : CKey → Slot) : Cache :=
  match findIn c.reg id with
  | some _ => { c with reg := updFirst id f c.reg }
  | none => { c with big := updFirst id f c.big }

/-- `_EvictKeyFromCache`/`_EvictSlot`, src/wh_server_keystore.c:323-328, 427-439. -/
def Cache.evict (c : Cache) (id : UInt16) : Cache := c.update id fun _ => none

/-- `_MarkKeyCommitted`, src/wh_server_keystore.c:444-461. -/
def Cache.mark (c : Cache) (id : UInt16) (b : Bool) : Cache :=
  c.update id fun k => some { k with committed := b }

/-- Index of the slot to use: the first empty one, otherwise the first committed one,
src/wh_server_keystore.c:348-368 and 378-398. -/
def freeIdx (l : List Slot) : Option Nat :=
  match l.findIdx? Option.isNone with
  | some i => some i
  | none => l.findIdx? Slot.isCommitted

/-- A reserved slot: big cache or not, and index. -/
structure Loc where
  big : Bool
  idx : Nat
deriving DecidableEq

/-- Store into a reserved slot. -/
def Cache.put (c : Cache) (loc : Loc) (s : Slot) : Cache :=
  if loc.big then { c with big := c.big.set loc.idx s }
  else { c with reg := c.reg.set loc.idx s }

/-- AES-GCM as the key-wrap code uses it; the additional data of the two domains,
`WH_KEYWRAP_AAD_KEY` and `WH_KEYWRAP_AAD_DATA` (wolfhsm/wh_common.h:154-162), is the
Boolean (`true` for keys).  `none`: wolfCrypt reports an error. -/
structure Aead where
  enc : (key : List UInt8) → (keyDomain : Bool) → (iv pt : List UInt8) →
    Option (List UInt8 × List UInt8)
  dec : (key : List UInt8) → (keyDomain : Bool) → (iv ct tag : List UInt8) →
    Option (List UInt8)

/-- Compile-time configuration and bound backends. -/
structure Cfg where
  ids : KeyId.Cfg
  /-- `WOLFHSM_CFG_SERVER_KEYCACHE_BUFSIZE` -/
  bufSize : Nat
  /-- `WOLFHSM_CFG_SERVER_KEYCACHE_BIG_BUFSIZE` -/
  bigBufSize : Nat
  /-- `WOLFHSM_CFG_SHE_EXTENSION` -/
  she : Bool
  /-- `WOLFHSM_CFG_SHE_GLOBAL_KEYS` -/
  sheGlobal : Bool
  /-- `wh_Crypto_IsStatefulSigPrivBlob` when LMS or XMSS is enabled, else constantly false. -/
  statefulBlob : List UInt8 → Bool
  /-- `WOLFHSM_CFG_KEYWRAP_MAX_KEY_SIZE` -/
  maxWrapKey : Nat
  /-- `WOLFHSM_CFG_KEYWRAP_MAX_DATA_SIZE` -/
  maxWrapData : Nat
  /-- `WOLFHSM_CFG_COMM_DATA_LEN` -/
  commLen : Nat
  aead : Aead
  /-- Hardware keystore lookup, `wh_HwKeystore_GetKey`. -/
  hwKey : UInt16 → Rc × List UInt8
  /-- `_Export…PublicKey`, src/wh_server_keystore.c:463-714: decode the private key of the
  requested algorithm and serialise its public part. -/
  publicOf : (algo : UInt16) → List UInt8 → Rc × List UInt8

/-- Everything the server contexts share, and the local caches of all contexts. -/
structure Sys where
  nvm : Nvm
  /-- `nvm->globalCache` -/
  global : Cache
  /-- `server->localCache` of each server context -/
  loc : Nat → Cache

/-- The server context a request arrives at and the client id it is connected to. -/
structure Srv where
  ctx : Nat
  client : UInt16

/-- Is the key in the global cache? `_GetCacheContext`/`_IsGlobalKey`,
src/wh_server_keystore.c:90-117. -/
def isGlobal (cfg : Cfg) (id : UInt16) : Bool :=
  cfg.ids.globalKeys && KeyId.userOf id == KeyId.userGlobal

/-- `_GetCacheContext`, src/wh_server_keystore.c:106-117. -/
def cacheOf (cfg : Cfg) (x : Nat) (s : Sys) (id : UInt16) : Cache :=
  if isGlobal cfg id then s.global else s.loc x

/-- Replace the cache returned by `_GetCacheContext`. -/
def setCache (cfg : Cfg) (x : Nat) (s : Sys) (id : UInt16) (c : Cache) : Sys :=
  if isGlobal cfg id then { s with global := c }
  else { s with loc := fun y => if y = x then c else s.loc y }

/-- `_FindInCache`, src/wh_server_keystore.c:939-946. -/
def cached (cfg : Cfg) (x : Nat) (s : Sys) (id : UInt16) : Option CKey :=
  (cacheOf cfg x s id).find id

/-- `WH_KEYID_ISHW` under `WOLFHSM_CFG_HWKEYSTORE`. -/
def isHw (cfg : Cfg) (id : UInt16) : Bool :=
  cfg.ids.hwKeystore && KeyId.typeOf id == KeyId.typeHw

/-- `whKsOp`, src/wh_server_keystore.c:119-128. -/
inductive Op where
  | cache | commit | evict | exportKey | revoke | exportPublic
deriving DecidableEq

/-- The decision of `_KeystoreCheckPolicy` once the key has been found,
src/wh_server_keystore.c:209-257.  `committed`: `_KeyIsCommitted`. -/
def judge (op : Op) (flags : UInt16) (committed : Bool) : Rc :=
  if hasFlag flags Flag.trusted then .access
  else match op with
    | .cache => if hasFlag flags Flag.nonModifiable then .access else .ok
    | .evict =>
      if committed then .ok
      else if hasFlag flags (Flag.nonModifiable ||| Flag.nonDestroyable) then .access else .ok
    | .exportKey => if hasFlag flags Flag.nonExportable then .access else .ok
    | .exportPublic => .ok
    | .commit => .ok
    | .revoke => .ok

/-- `_KeystoreCheckPolicy`, src/wh_server_keystore.c:151-258. -/
def policy (cfg : Cfg) (x : Nat) (s : Sys) (op : Op) (id : UInt16) : Rc :=
  if KeyId.isUnassigned id then .badargs
  else if isHw cfg id then .access
  else match cached cfg x s id with
    | some k => judge op k.md.flags k.committed
    | none =>
      match s.nvm.metadata id with
      | (.ok, some md) => judge op md.flags false
      | (rc, _) => rc

/-- The ids `wh_Server_KeystoreGetUniqueId` tries, in order:
`for (id = WH_KEYID_IDMAX; id > WH_KEYID_ERASED; id--)`. -/
def candidates : List UInt16 := ((List.range 255).map fun i => UInt16.ofNat (i + 1)).reverse

/-- The loop of `wh_Server_KeystoreGetUniqueId`, src/wh_server_keystore.c:741-781. -/
def searchId (c : Cache) (n : Nvm) (type user : UInt16) : List UInt16 → Rc × UInt16
  | [] => (.nospace, 0)
  | i :: rest =>
    let b := KeyId.make type user i
    match c.find b with
    | some _ => searchId c n type user rest
    | none =>
      match n.metadata b with
      | (.notfound, _) => (.ok, b)
      | (.ok, _) => searchId c n type user rest
      | (rc, _) => (rc, 0)

/-- `wh_Server_KeystoreGetUniqueId`, src/wh_server_keystore.c:716-782. -/
def getUniqueId (cfg : Cfg) (x : Nat) (s : Sys) (id : UInt16) : Rc × UInt16 :=
  if KeyId.typeOf id == KeyId.typeWrapped then (.badargs, 0)
  else if isHw cfg id then (.badargs, 0)
  else searchId (cacheOf cfg x s id) s.nvm (KeyId.typeOf id) (KeyId.userOf id) candidates

/-- `wh_Server_KeystoreEvictKey`, src/wh_server_keystore.c:1195-1223. -/
def evictKey (cfg : Cfg) (x : Nat) (s : Sys) (id : UInt16) : Rc × Sys :=
  if KeyId.isUnassigned id then (.badargs, s)
  else if isHw cfg id then (.access, s)
  else match cached cfg x s id with
    | none => (.notfound, s)
    | some _ => (.ok, setCache cfg x s id ((cacheOf cfg x s id).evict id))

/-- `_GetKeyCacheSlot`, src/wh_server_keystore.c:333-421: choose a slot and zero it. -/
def reserve (cfg : Cfg) (c : Cache) (sz : Nat) : Option (Loc × Cache) :=
  if sz ≤ cfg.bufSize then
    (freeIdx c.reg).map fun i => (⟨false, i⟩, c.put ⟨false, i⟩ none)
  else
    (freeIdx c.big).map fun i => (⟨true, i⟩, c.put ⟨true, i⟩ none)

/-- Last step of `wh_Server_KeystoreGetCacheSlot`, src/wh_server_keystore.c:822-823. -/
def reserveIn (cfg : Cfg) (x : Nat) (s : Sys) (id : UInt16) (sz : Nat) : Rc × Option Loc × Sys :=
  match reserve cfg (cacheOf cfg x s id) sz with
  | some (loc, c) => (.ok, some loc, setCache cfg x s id c)
  | none => (.nospace, none, s)

/-- `wh_Server_KeystoreGetCacheSlot`, src/wh_server_keystore.c:785-824. -/
def getSlot (cfg : Cfg) (x : Nat) (s : Sys) (id : UInt16) (sz : Nat) : Rc × Option Loc × Sys :=
  if sz > cfg.bufSize ∧ sz > cfg.bigBufSize then (.badargs, none, s)
  else if isHw cfg id then (.access, none, s)
  else match cached cfg x s id with
    | some _ =>
      match evictKey cfg x s id with
      | (.ok, s') => reserveIn cfg x s' id sz
      | (rc, s') => (rc, none, s')
    | none => reserveIn cfg x s id sz

/-- `wh_Server_KeystoreGetCacheSlotChecked`, src/wh_server_keystore.c:826-838. -/
def getSlotChecked (cfg : Cfg) (x : Nat) (s : Sys) (id : UInt16) (sz : Nat) :
    Rc × Option Loc × Sys :=
  let rc := policy cfg x s .cache id
  if rc = .ok ∨ rc = .notfound then getSlot cfg x s id sz else (rc, none, s)

/-- Fill the reserved slot.  The slot was zeroed, so it is not marked as committed;
`_MarkKeyCommitted(…, 0)` after the copies changes nothing more. -/
def fill (cfg : Cfg) (x : Nat) (s : Sys) (loc : Loc) (md : Meta) (data : List UInt8) : Sys :=
  setCache cfg x s md.id ((cacheOf cfg x s md.id).put loc (some ⟨md, data, false⟩))

/-- `_KeystoreCacheKey`, src/wh_server_keystore.c:840-889 (`checked` and unchecked). -/
def cacheKey (cfg : Cfg) (x : Nat) (s : Sys) (checked : Bool) (md : Meta) (data : List UInt8) :
    Rc × Sys :=
  if KeyId.isUnassigned md.id then (.badargs, s)
  else if md.len.toNat > cfg.bufSize ∧ md.len.toNat > cfg.bigBufSize then (.badargs, s)
  else if checked && cfg.statefulBlob data then (.access, s)
  else if isHw cfg md.id then (.access, s)
  else
    match (if checked then getSlotChecked cfg x s md.id md.len.toNat
           else getSlot cfg x s md.id md.len.toNat) with
    | (.ok, some loc, s') => (.ok, fill cfg x s' loc md data)
    | (rc, _, s') => (rc, s')

/-- `_KeystoreCacheRandomKey`, src/wh_server_keystore.c:903-936.  `rng`: the bytes the
generator delivers, or its error code. -/
def cacheRandomKey (cfg : Cfg) (x : Nat) (s : Sys) (md : Meta) (rng : Except Rc (Nat → UInt8)) :
    Rc × Sys :=
  if md.len = 0 then (.badargs, s)
  else if KeyId.isErased md.id then (.badargs, s)
  else if md.len.toNat > cfg.bufSize ∧ md.len.toNat > cfg.bigBufSize then (.badargs, s)
  else
    match getSlotChecked cfg x s md.id md.len.toNat with
    | (.ok, some loc, s') =>
      match rng with
      | .ok f => (.ok, fill cfg x s' loc md ((List.range md.len.toNat).map f))
      | .error rc => (errRc rc, s')
    | (rc, _, s') => (rc, s')

/-- `_KeystoreCacheKeyDma`, checked, src/wh_server_keystore.c:3621-3664.  `dma`: result of
the copy from client memory; `mem`: what that memory holds.  On an error the slot ends
up erased again. -/
def cacheKeyDma (cfg : Cfg) (x : Nat) (s : Sys) (md : Meta) (dma : Rc) (mem : Nat → UInt8) :
    Rc × Sys :=
  match getSlotChecked cfg x s md.id md.len.toNat with
  | (.ok, some loc, s') =>
    let data := (List.range md.len.toNat).map mem
    if dma = .ok then
      if cfg.statefulBlob data then (.access, s') else (.ok, fill cfg x s' loc md data)
    else (dma, s')
  | (rc, _, s') => (rc, s')

/-- Import of a generated or derived key by the crypto handlers, e.g.
`wh_Server_CacheImportRsaKey`, src/wh_server_crypto.c:260-306, and
`wh_Server_KeyCacheImportRaw`, :2045-2077.  `cap`: the slot size asked for; `der`: the
serialised key or the serialiser's error; a result larger than the slot is refused by the
serialiser. -/
def importKey (cfg : Cfg) (x : Nat) (s : Sys) (md : Meta) (cap : UInt16)
    (der : Except Rc (List UInt8)) : Rc × Sys :=
  if KeyId.isErased md.id then (.badargs, s)
  else
    match getSlotChecked cfg x s md.id cap.toNat with
    | (.ok, some loc, s') =>
      match der with
      | .ok data =>
        if data.length > cap.toNat then (.bufferSize, s')
        else (.ok, fill cfg x s' loc
          { md with flags := md.flags &&& ~~~Nvm.serverOnly, len := UInt16.ofNat data.length } data)
      | .error rc => (errRc rc, s')
    | (rc, _, s') => (rc, s')

/-- `wh_Server_KeystoreFreshenKey`, src/wh_server_keystore.c:972-1042: bring the key into
the cache and return it. -/
def freshen (cfg : Cfg) (x : Nat) (s : Sys) (id : UInt16) : Rc × Option CKey × Sys :=
  if KeyId.isUnassigned id then (.badargs, none, s)
  else if isHw cfg id then (.access, none, s)
  else match cached cfg x s id with
    | some k => (.ok, some k, s)
    | none =>
      if KeyId.typeOf id == KeyId.typeWrapped then (.notfound, none, s)
      else match s.nvm.metadata id with
        | (.ok, some md) =>
          match getSlot cfg x s id md.len.toNat with
          | (.ok, some loc, s') =>
            match s'.nvm.read id 0 md.len.toNat with
            | ((.ok, bs), n) =>
              let s'' := fill cfg x { s' with nvm := n } loc md bs
              let s3 := setCache cfg x s'' id ((cacheOf cfg x s'' id).mark id true)
              (.ok, some ⟨md, bs, true⟩, s3)
            | ((rc, _), n) => (rc, none, { s' with nvm := n })
          | (rc, _, s') => (rc, none, s')
        | (rc, _) => (rc, none, s)

/-- The zero key returned for an unset SHE master ECU key, src/wh_server_keystore.c:1125-1141
(`WH_SHE_MASTER_ECU_KEY_ID` is 1, `WH_SHE_KEY_SZ` 16). -/
def sheMasterZero (id : UInt16) : Meta × List UInt8 :=
  (⟨id, 0, 0, 16, Vector.replicate 24 0⟩, List.replicate 16 0)

/-- The fallback for the SHE master ECU key. -/
def sheFallback (cfg : Cfg) (id : UInt16) (rc : Rc) : Rc × Option (Meta × List UInt8) :=
  if cfg.she ∧ rc = .notfound ∧ KeyId.typeOf id = KeyId.typeShe ∧ KeyId.idOf id = 1 then
    (.ok, some (sheMasterZero id))
  else (rc, none)

/-- `wh_Server_KeystoreReadKey` with an output buffer of `outSz` bytes,
src/wh_server_keystore.c:1046-1143. -/
def readKey (cfg : Cfg) (x : Nat) (s : Sys) (id : UInt16) (outSz : Nat) :
    (Rc × Option (Meta × List UInt8)) × Sys :=
  if KeyId.isUnassigned id then ((.badargs, none), s)
  else if isHw cfg id then ((.access, none), s)
  else match cached cfg x s id with
    | some k => if k.md.len.toNat > outSz then ((.nospace, none), s) else ((.ok, some (k.md, k.data)), s)
    | none =>
      if KeyId.typeOf id == KeyId.typeWrapped then ((.notfound, none), s)
      else match s.nvm.metadata id with
        | (.ok, some md) =>
          if md.len.toNat > outSz then ((.nospace, none), s)
          else match s.nvm.read id 0 md.len.toNat with
            | ((.ok, bs), n) =>
              let s' := { s with nvm := n }
              if KeyId.typeOf md.id = KeyId.typeShe ∧ KeyId.idOf md.id = 0 then
                ((.ok, some (md, bs)), s')
              else match cacheKey cfg x s' false md bs with
                | (.ok, s'') =>
                  ((.ok, some (md, bs)),
                    setCache cfg x s'' id ((cacheOf cfg x s'' id).mark id true))
                | (_, s'') => ((.ok, some (md, bs)), s'')
            | ((rc, _), n) => (sheFallback cfg id rc, { s with nvm := n })
        | (rc, _) => (sheFallback cfg id rc, s)

/-- `wh_Server_KeystoreReadKeyChecked`, src/wh_server_keystore.c:1145-1156. -/
def readKeyChecked (cfg : Cfg) (x : Nat) (s : Sys) (id : UInt16) (outSz : Nat) :
    (Rc × Option (Meta × List UInt8)) × Sys :=
  match policy cfg x s .exportKey id with
  | .ok => readKey cfg x s id outSz
  | rc => ((rc, none), s)

/-- `WH_NVM_FLAGS_USAGE_ANY`, wolfhsm/wh_common.h:119-122. -/
def usageAny : UInt16 :=
  Flag.usageEncrypt ||| Flag.usageDecrypt ||| Flag.usageSign ||| Flag.usageVerify |||
  Flag.usageWrap ||| Flag.usageDerive

/-- `wh_Server_KeystoreEnforceKeyUsage`, src/wh_server_keystore.c:3719-3740. -/
def enforceUsage (flags required : UInt16) : Rc :=
  let req := required &&& usageAny
  if (flags &&& usageAny) &&& req = req then .ok else .usage

/-- `wh_Server_KeystoreReadKeyEnforce`, src/wh_server_keystore.c:1158-1193.  The second
component is the content of the caller's buffer: the key, or zeros when the usage check
fails, or untouched (`none`). -/
def readKeyEnforce (cfg : Cfg) (x : Nat) (s : Sys) (lock : Rc) (id required : UInt16) (outSz : Nat) :
    (Rc × Option (List UInt8)) × Sys :=
  match lock with
  | .ok =>
    match readKey cfg x s id outSz with
    | ((.ok, some (md, bs)), s') =>
      match enforceUsage md.flags required with
      | .ok => ((.ok, some bs), s')
      | rc => ((rc, some (List.replicate bs.length 0)), s')
    | ((rc, _), s') => ((rc, none), s')
  | rc => ((rc, none), s)

/-- `wh_Server_KeystoreEvictKeyChecked`, src/wh_server_keystore.c:1225-1234. -/
def evictKeyChecked (cfg : Cfg) (x : Nat) (s : Sys) (id : UInt16) : Rc × Sys :=
  match policy cfg x s .evict id with
  | .ok => evictKey cfg x s id
  | rc => (rc, s)

/-- `wh_Server_KeystoreCommitKey`, src/wh_server_keystore.c:1236-1275. -/
def commitKey (cfg : Cfg) (x : Nat) (s : Sys) (id : UInt16) : Rc × Sys :=
  if KeyId.isUnassigned id then (.badargs, s)
  else if KeyId.typeOf id = KeyId.typeWrapped then (.aborted, s)
  else if isHw cfg id then (.access, s)
  else match cached cfg x s id with
    | none => (.notfound, s)
    | some k =>
      match s.nvm.addWithReclaim k.md k.data with
      | (.ok, n) =>
        let s' := { s with nvm := n }
        (.ok, setCache cfg x s' id ((cacheOf cfg x s' id).mark id true))
      | (rc, n) => (rc, { s with nvm := n })

/-- `wh_Server_KeystoreCommitKeyChecked`, src/wh_server_keystore.c:1277-1286. -/
def commitKeyChecked (cfg : Cfg) (x : Nat) (s : Sys) (id : UInt16) : Rc × Sys :=
  match policy cfg x s .commit id with
  | .ok => commitKey cfg x s id
  | rc => (rc, s)

/-- `wh_Server_KeystoreEraseKeyChecked`, src/wh_server_keystore.c:1318-1352. -/
def eraseKeyChecked (cfg : Cfg) (x : Nat) (s : Sys) (id : UInt16) : Rc × Sys :=
  if KeyId.isUnassigned id then (.badargs, s)
  else if KeyId.typeOf id = KeyId.typeWrapped then (.aborted, s)
  else if isHw cfg id then (.access, s)
  else
    let r := evictKeyChecked cfg x s id
    if r.1 = .ok ∨ r.1 = .notfound then
      let d := r.2.nvm.destroyChecked [id]
      (d.1, { r.2 with nvm := d.2 })
    else r

/-- `_revokeKey`, src/wh_server_keystore.c:1354-1360. -/
def revokeMeta (md : Meta) : Meta :=
  { md with flags := (md.flags ||| Flag.nonModifiable) &&& ~~~usageAny }

/-- `_isKeyRevoked`, src/wh_server_keystore.c:1362-1370. -/
def isRevoked (md : Meta) : Bool :=
  hasFlag md.flags Flag.nonModifiable && (md.flags &&& usageAny) == 0

/-- `wh_Server_KeystoreRevokeKey`, src/wh_server_keystore.c:1372-1422. -/
def revokeKey (cfg : Cfg) (x : Nat) (s : Sys) (id : UInt16) : Rc × Sys :=
  if KeyId.isUnassigned id then (.badargs, s)
  else match policy cfg x s .revoke id with
    | .ok =>
      match s.nvm.metadata id with
      | (.ok, _) => go true
      | (.notfound, _) => go false
      | (rc, _) => (rc, s)
    | rc => (rc, s)
where
  /-- From line 1399 on; `inNvm` is `isInNvm`. -/
  go (inNvm : Bool) : Rc × Sys :=
    match freshen cfg x s id with
    | (.ok, some k, s') =>
      if isRevoked k.md && k.committed then (.ok, s')
      else
        let s'' := setCache cfg x s' id
          ((cacheOf cfg x s' id).update id fun k => some { k with md := revokeMeta k.md })
        if inNvm then
          match s''.nvm.addWithReclaim (revokeMeta k.md) k.data with
          | (.ok, n) =>
            let s3 := { s'' with nvm := n }
            (.ok, setCache cfg x s3 id ((cacheOf cfg x s3 id).mark id true))
          | (rc, n) => (rc, { s'' with nvm := n })
        else (.ok, s'')
    | (rc, _, s') => (rc, s')

/-! ## Key wrapping -/

/-- `_KeywrapResolveKek`, src/wh_server_keystore.c:1441-1491. -/
def resolveKek (cfg : Cfg) (x : Nat) (s : Sys) (id : UInt16) (trusted : Bool) :
    (Rc × List UInt8) × Sys :=
  if isHw cfg id then (cfg.hwKey id, s)
  else match freshen cfg x s id with
    | (.ok, some k, s') =>
      match enforceUsage k.md.flags Flag.usageWrap with
      | .ok =>
        if trusted && !hasFlag k.md.flags Flag.trusted then ((.access, []), s')
        else ((.ok, k.data), s')
      | rc => ((rc, []), s')
    | (rc, _, s') => ((rc, []), s')

/-- `_AesGcmKeyWrapWithKek`, src/wh_server_keystore.c:1505-1572, and the data variant,
:1693-1752: IV, tag, ciphertext.  `iv`: twelve bytes from the generator or its error. -/
def sealBlob (cfg : Cfg) (kek : List UInt8) (keyDomain : Bool) (iv : Except Rc (List UInt8))
    (pt : List UInt8) : Rc × List UInt8 :=
  match iv with
  | .error rc => (errRc rc, [])
  | .ok iv =>
    match cfg.aead.enc kek keyDomain iv pt with
    | some (ct, tag) => (.ok, iv ++ tag ++ ct)
    | none => (.aborted, [])

/-- `_AesGcmKeyUnwrapWithKek`, src/wh_server_keystore.c:1603-1662, and the data variant,
:1783-1835: split the blob and decrypt. -/
def openBlob (cfg : Cfg) (kek : List UInt8) (keyDomain : Bool) (blob : List UInt8) :
    Rc × List UInt8 :=
  match cfg.aead.dec kek keyDomain (blob.take 12) (blob.drop 28) ((blob.drop 12).take 16) with
  | some pt => (.ok, pt)
  | none => (.aborted, [])

/-- `wh_She_Label2Meta` for the counter, src/wh_she_common.c:40-58: the counter kept in
the first four label bytes, most significant first. -/
def labelCount (label : Vector UInt8 24) : Nat :=
  label[0].toNat * 2 ^ 24 + label[1].toNat * 2 ^ 16 + label[2].toNat * 2 ^ 8 + label[3].toNat

/-- `_HandleKeyWrapRequest`, src/wh_server_keystore.c:1870-1958, after the size checks of
the request: wrap the client's own key and metadata. -/
def handleWrap (cfg : Cfg) (v : Srv) (s : Sys) (kekId : UInt16) (md : Meta) (key : List UInt8)
    (iv : Except Rc (List UInt8)) : (Rc × List UInt8) × Sys :=
  if key.length > cfg.maxWrapKey then ((.badargs, []), s)
  else if KeyId.typeOf md.id ≠ KeyId.typeWrapped then ((.badargs, []), s)
  else if cfg.commLen - 8 < 60 + key.length then ((.bufferSize, []), s)
  else
    match resolveKek cfg v.ctx s (KeyId.fromClient cfg.ids KeyId.typeCrypto v.client kekId) false with
    | ((.ok, kek), s') => (sealBlob cfg kek true iv (md.ser ++ key), s')
    | ((rc, _), s') => ((rc, []), s')

/-- Metadata put into an exported blob, src/wh_server_keystore.c:2032-2040. -/
def wrapMeta (md : Meta) : Meta :=
  if KeyId.typeOf md.id = KeyId.typeShe then md
  else { md with id := KeyId.make KeyId.typeWrapped (KeyId.userOf md.id) (KeyId.idOf md.id) }

/-- Target of a wrap-export, src/wh_server_keystore.c:1996-2022.  `none`: refused type. -/
def wrapTarget (cfg : Cfg) (client keyType keyId : UInt16) : Option UInt16 :=
  let t := KeyId.fromClient cfg.ids keyType client keyId
  if KeyId.typeOf t = KeyId.typeCrypto ∨ KeyId.typeOf t = KeyId.typeWrapped then some t
  else if cfg.she ∧ KeyId.typeOf t = KeyId.typeShe then
    if cfg.sheGlobal then some (KeyId.make KeyId.typeShe KeyId.userGlobal (KeyId.idOf t)) else some t
  else none

/-- `_HandleKeyWrapExportRequest`, src/wh_server_keystore.c:1963-2088.  `gcm`: the cipher type is
`WC_CIPHER_AES_GCM`; others are refused after the key has been read. -/
def handleWrapExport (cfg : Cfg) (v : Srv) (s : Sys) (gcm : Bool) (kekId keyType keyId : UInt16)
    (iv : Except Rc (List UInt8)) : (Rc × List UInt8) × Sys :=
  match wrapTarget cfg v.client keyType keyId with
  | none => ((.badargs, []), s)
  | some t =>
    match readKeyChecked cfg v.ctx s t cfg.maxWrapKey with
    | ((.ok, some (md, key)), s') =>
      if gcm = false ∨ cfg.commLen - 8 < 60 + key.length then
        ((if gcm then .bufferSize else .badargs, []), s')
      else
        match resolveKek cfg v.ctx s' (KeyId.fromClient cfg.ids KeyId.typeCrypto v.client kekId)
            true with
        | ((.ok, kek), s'') => (sealBlob cfg kek true iv ((wrapMeta md).ser ++ key), s'')
        | ((rc, _), s'') => ((rc, []), s'')
    | ((rc, _), s') => ((rc, []), s')

/-- The owner check of unwrapped keys, src/wh_server_keystore.c:2189-2202, 2348-2362. -/
def ownerOk (cfg : Cfg) (client user : UInt16) : Bool :=
  (cfg.ids.globalKeys && user == KeyId.userGlobal) || user == client

/-- `_AesGcmKeyUnwrap`, src/wh_server_keystore.c:1603-1691: metadata and key of a blob of at
least 60 bytes. -/
def unwrapKey (cfg : Cfg) (v : Srv) (s : Sys) (kekId : UInt16) (trusted : Bool)
    (blob : List UInt8) : (Rc × Option (Meta × List UInt8)) × Sys :=
  match resolveKek cfg v.ctx s (KeyId.fromClient cfg.ids KeyId.typeCrypto v.client kekId) trusted with
  | ((.ok, kek), s') =>
    if blob.length - 60 > cfg.maxWrapKey then ((.badargs, none), s')
    else match openBlob cfg kek true blob with
      | (.ok, pt) =>
        ((.ok, some (Meta.deser (pt.take 32), (pt.drop 32).take (blob.length - 60))), s')
      | (rc, _) => ((rc, none), s')
  | ((rc, _), s') => ((rc, none), s')

/-- `_HandleKeyUnwrapAndExportRequest`, src/wh_server_keystore.c:2090-2234, after the
request's size check. -/
def handleUnwrapExport (cfg : Cfg) (v : Srv) (s : Sys) (kekId : UInt16) (blob : List UInt8) :
    (Rc × Option (Meta × List UInt8)) × Sys :=
  if blob.length < 60 then ((.badargs, none), s)
  else if cfg.commLen - 8 < blob.length - 28 then ((.bufferSize, none), s)
  else match unwrapKey cfg v s kekId false blob with
    | ((.ok, some (md, key)), s') =>
      if KeyId.isUnassigned md.id then ((.badargs, none), s')
      else if KeyId.typeOf md.id ≠ KeyId.typeWrapped then ((.aborted, none), s')
      else if hasFlag md.flags Flag.nonExportable then ((.access, none), s')
      else if !ownerOk cfg v.client (KeyId.userOf md.id) then ((.access, none), s')
      else ((.ok, some (md, key)), s')
    | ((rc, _), s') => ((rc, none), s')

/-- The SHE id rewriting of unwrap-and-cache, src/wh_server_keystore.c:2364-2382.  `none`:
refused. -/
def unwrapSheId (cfg : Cfg) (id : UInt16) : Option UInt16 :=
  if KeyId.typeOf id = KeyId.typeShe then
    if cfg.sheGlobal then some (KeyId.make KeyId.typeShe KeyId.userGlobal (KeyId.idOf id))
    else if cfg.ids.globalKeys ∧ KeyId.userOf id = KeyId.userGlobal then none
    else some id
  else some id

/-- The counter check of unwrap-and-cache for SHE keys, src/wh_server_keystore.c:2390-2415. -/
def unwrapCounter (s : Sys) (md : Meta) : Rc :=
  if KeyId.typeOf md.id = KeyId.typeShe then
    match s.nvm.metadata md.id with
    | (.ok, some stored) => if labelCount md.label < labelCount stored.label then .access else .ok
    | (.notfound, _) => .ok
    | (rc, _) => rc
  else .ok

/-- Decisions of unwrap-and-cache on the decoded blob, src/wh_server_keystore.c:2310-2427:
the metadata to cache, or the error and the id field of the response. -/
def unwrapAccept (cfg : Cfg) (v : Srv) (s : Sys) (md : Meta) (key : List UInt8) :
    Except (Rc × UInt16) Meta :=
  if key.length ≠ md.len.toNat then .error (.badargs, 0)
  else if KeyId.isUnassigned md.id then .error (.badargs, 0)
  else if KeyId.typeOf md.id ≠ KeyId.typeWrapped ∧
      ¬(cfg.she = true ∧ KeyId.typeOf md.id = KeyId.typeShe) then .error (.aborted, 0)
  else if !ownerOk cfg v.client (KeyId.userOf md.id) then .error (.access, 0)
  else match unwrapSheId cfg md.id with
    | none => .error (.access, 0)
    | some id =>
      if (cached cfg v.ctx s id).isSome then .error (.aborted, 0)
      else match unwrapCounter s { md with id := id } with
        | .ok =>
          if cfg.statefulBlob key then .error (.access, KeyId.toClient cfg.ids id)
          else .ok { md with id := id, flags := md.flags &&& ~~~Nvm.serverOnly }
        | rc => .error (rc, 0)

/-- `_HandleKeyUnwrapAndCacheRequest`, src/wh_server_keystore.c:2236-2436, after the request's
size check.  The response id is set before the key is cached, so it is sent even when
caching fails. -/
def handleUnwrapCache (cfg : Cfg) (v : Srv) (s : Sys) (kekId : UInt16) (blob : List UInt8) :
    (Rc × UInt16) × Sys :=
  if blob.length < 60 then ((.badargs, 0), s)
  else match unwrapKey cfg v s kekId true blob with
    | ((.ok, some (md, key)), s') =>
      match unwrapAccept cfg v s' md key with
      | .ok md' =>
        let r := cacheKey cfg v.ctx s' false md' key
        ((r.1, KeyId.toClient cfg.ids md'.id), r.2)
      | .error e => (e, s')
    | ((rc, _), s') => ((rc, 0), s')

/-- `_HandleDataWrapRequest`, src/wh_server_keystore.c:2438-2509. -/
def handleDataWrap (cfg : Cfg) (v : Srv) (s : Sys) (kekId : UInt16) (data : List UInt8)
    (iv : Except Rc (List UInt8)) : (Rc × List UInt8) × Sys :=
  if data.length > cfg.maxWrapData then ((.badargs, []), s)
  else if cfg.commLen - 12 < 28 + data.length then ((.bufferSize, []), s)
  else
    match resolveKek cfg v.ctx s (KeyId.fromClient cfg.ids KeyId.typeCrypto v.client kekId) false with
    | ((.ok, kek), s') => (sealBlob cfg kek false iv data, s')
    | ((rc, _), s') => ((rc, []), s')

/-- `_HandleDataUnwrapRequest`, src/wh_server_keystore.c:2511-2585. -/
def handleDataUnwrap (cfg : Cfg) (v : Srv) (s : Sys) (kekId : UInt16) (blob : List UInt8) :
    (Rc × List UInt8) × Sys :=
  if blob.length < 28 then ((.badargs, []), s)
  else if cfg.commLen - 12 < blob.length - 28 then ((.bufferSize, []), s)
  else
    match resolveKek cfg v.ctx s (KeyId.fromClient cfg.ids KeyId.typeCrypto v.client kekId) false with
    | ((.ok, kek), s') =>
      if blob.length - 28 > cfg.maxWrapData then ((.badargs, []), s')
      else (openBlob cfg kek false blob, s')
    | ((rc, _), s') => ((rc, []), s')

/-! ## The request handler -/

/-- A decoded key request.  `malformed`: the size check of the action failed.  `flags` is
the client's 32-bit flags field truncated to 16 bits, `label` the label the handler
copies (truncated to 24 bytes, zero filled).  The last four are what the requests of
the crypto group do to the key store: read a key into a buffer for an operation, import a
generated one, evict a key when the client asked for that in the options, and load a key that
is decoded where it lies in the cache. -/
inductive Req where
  | cache (id flags : UInt16) (label : Vector UInt8 24) (key : List UInt8)
  | cacheRandom (id flags : UInt16) (label : Vector UInt8 24) (sz : UInt16)
      (rng : Except Rc (Nat → UInt8))
  | cacheDma (id flags : UInt16) (label : Vector UInt8 24) (sz : UInt64) (dma : Rc)
      (mem : Nat → UInt8)
  | exportKey (id : UInt16)
  | exportDma (id : UInt16) (sz : UInt64) (dma : Nat → Rc)
  | exportPublic (id algo : UInt16)
  | evict (id : UInt16)
  | commit (id : UInt16)
  | erase (id : UInt16)
  | revoke (id : UInt16)
  | wrap (kekId : UInt16) (md : Meta) (key : List UInt8) (iv : Except Rc (List UInt8))
  | wrapExport (gcm : Bool) (kekId keyType keyId : UInt16) (iv : Except Rc (List UInt8))
  | unwrapExport (kekId : UInt16) (blob : List UInt8)
  | unwrapCache (kekId : UInt16) (blob : List UInt8)
  | dataWrap (kekId : UInt16) (data : List UInt8) (iv : Except Rc (List UInt8))
  | dataUnwrap (kekId : UInt16) (blob : List UInt8)
  | malformed
  | useKey (id required : UInt16) (outSz : Nat)
  | importKey (id flags : UInt16) (label : Vector UInt8 24) (cap : UInt16)
      (der : Except Rc (List UInt8))
  | evictOption (id : UInt16)
  | loadKey (id required : UInt16)

/-- What the client gets back. -/
inductive Resp where
  | code (rc : Rc)
  | keyId (rc : Rc) (id : UInt16)
  /-- A plain key, in the response or by DMA. -/
  | key (rc : Rc) (label : Option (Vector UInt8 24)) (bytes : List UInt8)
  | pubKey (rc : Rc) (bytes : List UInt8)
  | wrapped (rc : Rc) (blob : List UInt8)
  | unwrapped (rc : Rc) (key : Option (Meta × List UInt8))
  | data (rc : Rc) (bytes : List UInt8)
  /-- What the crypto handler goes on with. -/
  | usable (rc : Rc) (buffer : Option (List UInt8))
deriving DecidableEq

/-- Metadata of a key given by a client, src/wh_server_keystore.c:2631-2643. -/
def clientMeta (cfg : Cfg) (v : Srv) (id flags : UInt16) (label : Vector UInt8 24) (len : UInt16) :
    Meta :=
  ⟨KeyId.fromClient cfg.ids KeyId.typeCrypto v.client id, 0xFFFF,
    flags &&& ~~~Nvm.serverOnly, len, label⟩

/-- Take a fresh id when none was given, then go on, e.g. src/wh_server_keystore.c:2649-2658. -/
def withId (cfg : Cfg) (x : Nat) (s : Sys) (unassigned : Bool) (md : Meta)
    (k : Meta → Rc × Sys) : (Rc × UInt16) × Sys :=
  if unassigned then
    match getUniqueId cfg x s md.id with
    | (.ok, id) =>
      let r := k { md with id := id }
      ((r.1, if r.1 = .ok then KeyId.toClient cfg.ids id else 0), r.2)
    | (rc, _) => ((rc, 0), s)
  else
    let r := k md
    ((r.1, if r.1 = .ok then KeyId.toClient cfg.ids md.id else 0), r.2)

/-- CACHE, src/wh_server_keystore.c:2606-2674, with the NVM lock held. -/
def handleCache (cfg : Cfg) (v : Srv) (s : Sys) (id flags : UInt16) (label : Vector UInt8 24)
    (key : List UInt8) : (Rc × UInt16) × Sys :=
  if key.length ≥ 65536 then ((.badargs, 0), s)
  else
    let md := clientMeta cfg v id flags label (UInt16.ofNat key.length)
    withId cfg v.ctx s (KeyId.isUnassigned md.id) md fun md => cacheKey cfg v.ctx s true md key

/-- CACHE_RANDOM, src/wh_server_keystore.c:2676-2738, with the NVM lock held. -/
def handleCacheRandom (cfg : Cfg) (v : Srv) (s : Sys) (id flags : UInt16)
    (label : Vector UInt8 24) (sz : UInt16) (rng : Except Rc (Nat → UInt8)) :
    (Rc × UInt16) × Sys :=
  let md := clientMeta cfg v id flags label sz
  withId cfg v.ctx s (KeyId.isErased md.id) md fun md => cacheRandomKey cfg v.ctx s md rng

/-- CACHE_DMA, src/wh_server_keystore.c:2742-2806, with the NVM lock held.  The 64-bit size
of the client's buffer is truncated to the 16-bit length field (line 2763). -/
def handleCacheDma (cfg : Cfg) (v : Srv) (s : Sys) (id flags : UInt16) (label : Vector UInt8 24)
    (sz : UInt64) (dma : Rc) (mem : Nat → UInt8) : (Rc × UInt16) × Sys :=
  let md := clientMeta cfg v id flags label sz.toUInt16
  withId cfg v.ctx s (KeyId.isUnassigned md.id) md fun md => cacheKeyDma cfg v.ctx s md dma mem

/-- `wh_Server_KeystoreExportKeyDmaChecked`, src/wh_server_keystore.c:3677-3716. -/
def exportKeyDma (cfg : Cfg) (x : Nat) (s : Sys) (id : UInt16) (sz : UInt64) (dma : Nat → Rc) :
    (Rc × Option (Meta × List UInt8)) × Sys :=
  match policy cfg x s .exportKey id with
  | .ok =>
    match freshen cfg x s id with
    | (.ok, some k, s') =>
      if sz.toNat < k.md.len.toNat then ((.nospace, none), s')
      else if dma k.md.len.toNat = .ok then ((.ok, some (k.md, k.data)), s')
      else ((dma k.md.len.toNat, none), s')
    | (rc, _, s') => ((rc, none), s')
  | rc => ((rc, none), s)

/-- EXPORT_PUBLIC and EXPORT_PUBLIC_DMA, src/wh_server_keystore.c:3069-3187, 2857-2984. -/
def handleExportPublic (cfg : Cfg) (x : Nat) (s : Sys) (id algo : UInt16) :
    (Rc × List UInt8) × Sys :=
  match policy cfg x s .exportPublic id with
  | .ok =>
    match freshen cfg x s id with
    | (.ok, some k, s') => (cfg.publicOf algo k.data, s')
    | (rc, _, s') => ((rc, []), s')
  | rc => ((rc, []), s)

/-- Key bytes go to the client only on success. -/
def keyResp (r : Rc × Option (Meta × List UInt8)) : Resp :=
  match r with
  | (.ok, some (md, bs)) => .key .ok (some md.label) bs
  | (rc, _) => .key rc none []

/-- Import of a key made by a crypto request, e.g. src/wh_server_crypto.c:418-432. -/
def handleImport (cfg : Cfg) (v : Srv) (s : Sys) (id flags : UInt16) (label : Vector UInt8 24)
    (cap : UInt16) (der : Except Rc (List UInt8)) : (Rc × UInt16) × Sys :=
  let md := clientMeta cfg v id flags label 0
  withId cfg v.ctx s (KeyId.isErased md.id) md fun md => importKey cfg v.ctx s md cap der

/-- Freshen, then enforce the usage flags: the part of the enforcing export helpers that is under
the NVM lock, e.g. `_CacheExportRsaKeyEnforce`, src/wh_server_crypto.c:339-351, or
`_EccKeyCacheExportEnforce`, src/wh_server_crypto.c:725-736.  The decoding of the key bytes by
the crypto library belongs to the crypto handler. -/
def loadKey (cfg : Cfg) (x : Nat) (s : Sys) (id required : UInt16) :
    (Rc × Option (List UInt8)) × Sys :=
  match freshen cfg x s id with
  | (.ok, some k, s') =>
    match enforceUsage k.md.flags required with
    | .ok => ((.ok, some k.data), s')
    | rc => ((rc, none), s')
  | (rc, _, s') => ((rc, none), s')

/-- The actions of `wh_Server_HandleKeyRequest`, src/wh_server_keystore.c:2588-3617, and the
key-store part of the crypto requests, with the NVM lock held. -/
def act (cfg : Cfg) (v : Srv) (s : Sys) (r : Req) : Resp × Sys :=
  let own (id : UInt16) := KeyId.fromClient cfg.ids KeyId.typeCrypto v.client id
  match r with
  | .cache id flags label key =>
    let r := handleCache cfg v s id flags label key
    (.keyId r.1.1 r.1.2, r.2)
  | .cacheRandom id flags label sz rng =>
    let r := handleCacheRandom cfg v s id flags label sz rng
    (.keyId r.1.1 r.1.2, r.2)
  | .cacheDma id flags label sz dma mem =>
    let r := handleCacheDma cfg v s id flags label sz dma mem
    (.keyId r.1.1 r.1.2, r.2)
  | .exportKey id =>
    let r := readKeyChecked cfg v.ctx s (own id) (cfg.commLen - 36)
    (keyResp r.1, r.2)
  | .exportDma id sz dma =>
    let r := exportKeyDma cfg v.ctx s (own id) sz dma
    (keyResp r.1, r.2)
  | .exportPublic id algo =>
    let r := handleExportPublic cfg v.ctx s (own id) algo
    (.pubKey r.1.1 r.1.2, r.2)
  | .evict id =>
    let r := evictKeyChecked cfg v.ctx s (own id)
    (.code r.1, r.2)
  | .commit id =>
    let r := commitKeyChecked cfg v.ctx s (own id)
    (.code r.1, r.2)
  | .erase id =>
    let r := eraseKeyChecked cfg v.ctx s (own id)
    (.code r.1, r.2)
  | .revoke id =>
    let r := revokeKey cfg v.ctx s (own id)
    (.code r.1, r.2)
  | .wrap kekId md key iv =>
    let r := handleWrap cfg v s kekId md key iv
    (.wrapped r.1.1 r.1.2, r.2)
  | .wrapExport gcm kekId keyType keyId iv =>
    let r := handleWrapExport cfg v s gcm kekId keyType keyId iv
    (.wrapped r.1.1 r.1.2, r.2)
  | .unwrapExport kekId blob =>
    let r := handleUnwrapExport cfg v s kekId blob
    (.unwrapped r.1.1 r.1.2, r.2)
  | .unwrapCache kekId blob =>
    let r := handleUnwrapCache cfg v s kekId blob
    (.keyId r.1.1 r.1.2, r.2)
  | .dataWrap kekId data iv =>
    let r := handleDataWrap cfg v s kekId data iv
    (.wrapped r.1.1 r.1.2, r.2)
  | .dataUnwrap kekId blob =>
    let r := handleDataUnwrap cfg v s kekId blob
    (.data r.1.1 r.1.2, r.2)
  | .malformed => (.code .badargs, s)
  | .useKey id required outSz =>
    let r := readKeyEnforce cfg v.ctx s .ok (own id) required outSz
    (.usable r.1.1 r.1.2, r.2)
  | .importKey id flags label cap der =>
    let r := handleImport cfg v s id flags label cap der
    (.keyId r.1.1 r.1.2, r.2)
  | .evictOption id =>
    let r := if KeyId.isErased (own id) then (.ok, s) else evictKey cfg v.ctx s (own id)
    (.code r.1, r.2)
  | .loadKey id required =>
    let r := loadKey cfg v.ctx s (own id) required
    (.usable r.1.1 r.1.2, r.2)

/-- `wh_Server_HandleKeyRequest`, src/wh_server_keystore.c:2588-3617.  `lock`: the result of
`WH_SERVER_NVM_LOCK`. -/
def handle (cfg : Cfg) (v : Srv) (s : Sys) (lock : Rc) (r : Req) : Resp × Sys :=
  match r, lock with
  | .malformed, _ => (.code .badargs, s)
  | r, .ok => act cfg v s r
  | _, rc => (.code rc, s)

end WolfHsm.Keystore

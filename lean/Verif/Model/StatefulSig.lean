import Verif.Model.Keystore

/-!
# Stateful hash-based signatures: LMS and XMSS

The slot format of src/wh_crypto.c:497-905 and the request handlers of
src/wh_server_crypto.c:1129-1389, 7818-8680, over the key store of `Model/Keystore.lean`.

wolfCrypt is a parameter (`Lib`): which parameter sets there are and how long their keys are,
reloading, and signing, which returns the signature and the advanced private state.  What
wolfCrypt does around the callbacks is taken from its documentation and from the comments in
the code (src/wh_server_crypto.c:1131-1135, 8143-8155): sign into the caller's buffer, advance,
call the write callback, and clear the buffer if the callback fails.

Not modelled: the builds without DMA or with `…_VERIFY_ONLY`, where these requests do not
exist; message decoding; what verification answers.
-/

namespace WolfHsm.StatefulSig

open NvmFlash (Meta)
open Keystore (Sys Srv CKey)

/-- The two algorithms. -/
inductive Alg where
  | lms | xmss
deriving DecidableEq

/-- `WH_CRYPTO_STATEFUL_SIG_BLOB_MAGIC_LMS`, `…_XMSS`, src/wh_crypto.c:513-514. -/
def Alg.magic : Alg → Nat
  | .lms => 0x4C4D5301
  | .xmss => 0x584D5301

/-- A byte of a buffer. -/
def at8 (d : List UInt8) (i : Nat) : Nat := (d.getD i 0).toNat

/-- A 16-bit field in host byte order (`le`: little endian). -/
def at16 (le : Bool) (d : List UInt8) (i : Nat) : Nat :=
  if le then at8 d i + 256 * at8 d (i + 1) else 256 * at8 d i + at8 d (i + 1)

/-- A 32-bit field in host byte order. -/
def at32 (le : Bool) (d : List UInt8) (i : Nat) : Nat :=
  if le then at16 le d i + 65536 * at16 le d (i + 2) else 65536 * at16 le d i + at16 le d (i + 2)

/-- Store a 16-bit value in host byte order. -/
def put16 (le : Bool) (n : Nat) : List UInt8 :=
  if le then [UInt8.ofNat n, UInt8.ofNat (n / 256)] else [UInt8.ofNat (n / 256), UInt8.ofNat n]

/-- Store a 32-bit value in host byte order. -/
def put32 (le : Bool) (n : Nat) : List UInt8 :=
  if le then put16 le n ++ put16 le (n / 65536) else put16 le (n / 65536) ++ put16 le n

/-- `whCryptoStatefulSigHeader`, wolfhsm/wh_crypto.h:134-141, at the start of a slot: magic,
pubLen, privLen, paramLen and the reserved field. -/
structure Hdr where
  magic : Nat
  pubLen : Nat
  privLen : Nat
  paramLen : Nat
  reserved : Nat
deriving DecidableEq

/-- The header read by `memcpy(&hdr, buffer, sizeof(hdr))`. -/
def hdr (le : Bool) (d : List UInt8) : Hdr :=
  ⟨at32 le d 0, at16 le d 4, at16 le d 6, at16 le d 8, at16 le d 10⟩

/-- `wh_Crypto_IsStatefulSigPrivBlob`, src/wh_crypto.c:516-534. -/
def isPrivBlob (le : Bool) (d : List UInt8) : Bool :=
  if d.length < 12 then false
  else if (hdr le d).magic ≠ Alg.lms.magic ∧ (hdr le d).magic ≠ Alg.xmss.magic then false
  else decide ((hdr le d).privLen > 0)

/-- `_StatefulSigEncodeHeader` and the copies behind it, src/wh_crypto.c:536-550, 605-625,
784-800. -/
def encode (le : Bool) (a : Alg) (param pub priv : List UInt8) : List UInt8 :=
  put32 le a.magic ++ put16 le pub.length ++ put16 le priv.length ++ put16 le param.length ++
    put16 le 0 ++ param ++ pub ++ priv

/-- wolfCrypt's implementation of one algorithm. -/
structure Lib where
  /-- `wc_LmsKey_SetParameters` / `wc_XmssKey_SetParamStr` on the parameter descriptor, then
  the length of the public key and of the private state of that parameter set. -/
  params : List UInt8 → Except Rc (Nat × Nat)
  /-- `wc_LmsKey_Reload` / `wc_XmssKey_Reload` once the private state has been read. -/
  reload : (pub priv : List UInt8) → Rc
  /-- `wc_LmsKey_Sign` / `wc_XmssKey_Sign` up to the write callback: public key, private state,
  message, size of the buffer for the signature; result: signature, advanced state. -/
  sign : (pub priv msg : List UInt8) → (cap : Nat) → Except Rc (List UInt8 × List UInt8)

/-- Configuration: key store, host byte order, wolfCrypt. -/
structure Cfg where
  ks : Keystore.Cfg
  le : Bool
  lib : Alg → Lib

/-- The checks on the parameter descriptor before wolfCrypt sees it: LMS has three bytes,
src/wh_crypto.c:653-655; XMSS a NUL-terminated string, :860-868. -/
def paramOk : Alg → List UInt8 → Bool
  | .lms, p => p.length == 3
  | .xmss, p => p.getLast? == some 0

/-- `_StatefulSigDecodeHeader` and `wh_Crypto_LmsDeserializeKey` /
`wh_Crypto_XmssDeserializeKey`, src/wh_crypto.c:552-573, 630-697, 836-905: the header and the
length of the private state of the parameter set. -/
def deserialize (cfg : Cfg) (a : Alg) (d : List UInt8) : Except Rc (Hdr × Nat) :=
  let h := hdr cfg.le d
  if d.length < 12 then .error .badargs
  else if h.magic ≠ a.magic ∨ h.reserved ≠ 0 then .error .badargs
  else if 12 + h.paramLen + h.pubLen + h.privLen > d.length then .error .badargs
  else if !paramOk a ((d.drop 12).take h.paramLen) then .error .badargs
  else match (cfg.lib a).params ((d.drop 12).take h.paramLen) with
    | .error rc => .error (errRc rc)
    | .ok (pubLen, privLen) =>
      if pubLen ≠ h.pubLen then .error .badargs
      else if h.privLen ≠ 0 ∧ h.privLen ≠ privLen then .error .badargs
      else .ok (h, privLen)

/-- `_StatefulSigPrivOffset`, src/wh_server_crypto.c:1152-1155, of the lengths that
`_StatefulSigFromSlot` (:7823-7845) took from the header. -/
def Hdr.privOff (h : Hdr) : Nat := 12 + h.paramLen + h.pubLen

/-- Load a slot for signing: deserialize, then `Reload` with `_LmsSlotReadCb` /
`_XmssSlotReadCb`, src/wh_server_crypto.c:1197-1213, 1247-1264, 8111-8125, 8614-8628.  The
callback reads as many bytes as the parameter set's private state has; it does not look at
the header's `privLen`.  Result: header, public key, private state. -/
def load (cfg : Cfg) (a : Alg) (d : List UInt8) : Except Rc (Hdr × List UInt8 × List UInt8) :=
  match deserialize cfg a d with
  | .error rc => .error rc
  | .ok (h, privSz) =>
    if h.privOff + privSz > d.length then .error .aborted
    else
      let pub := (d.drop (12 + h.paramLen)).take h.pubLen
      let priv := (d.drop h.privOff).take privSz
      match (cfg.lib a).reload pub priv with
      | .ok => .ok (h, pub, priv)
      | rc => .error rc

/-- The slot after `memcpy(slotBuf + privOff, priv, privSz)` and `_StatefulSigWritePrivLen`,
src/wh_server_crypto.c:1157-1162, 1184-1186, cut to the new length. -/
def advanced (le : Bool) (h : Hdr) (d priv : List UInt8) : List UInt8 :=
  let b := d.take h.privOff ++ priv
  b.take 6 ++ put16 le priv.length ++ b.drop 8

/-- `_LmsSlotWriteCb` / `_XmssSlotWriteCb`, src/wh_server_crypto.c:1166-1195, 1218-1245: write
the advanced private state to the cache slot, then to the NVM, without a policy check.  The
slot is not marked as committed. -/
def writeCb (cfg : Cfg) (x : Nat) (s : Sys) (id : UInt16) (k : CKey) (h : Hdr)
    (priv : List UInt8) : Rc × Sys :=
  let newLen := h.privOff + priv.length
  if newLen > cfg.ks.bigBufSize then (.aborted, s)
  else
    let put : CKey → CKey := fun k =>
      { k with md := { k.md with len := UInt16.ofNat newLen }, data := advanced cfg.le h k.data priv }
    let s1 := Keystore.setCache cfg.ks x s id
      ((Keystore.cacheOf cfg.ks x s id).update id fun k => some (put k))
    let r := s1.nvm.addWithReclaim (put k).md (put k).data
    (r.1, { s1 with nvm := r.2 })

/-- A decoded sign request, with the results of what the environment does: `lock`, `init` of
the key object, the DMA address checks of message and signature. -/
structure SignReq where
  alg : Alg
  id : UInt16
  msg : List UInt8
  sigSz : Nat
  evict : Bool
  lock : Rc
  init : Rc
  preMsg : Rc
  preSig : Rc

/-- Outcome of a sign request: the return code, the signature in the client's buffer when the
request is answered, and a signature that was in that buffer before the write callback ran. -/
structure SignOut where
  rc : Rc
  sig : Option (List UInt8)
  early : Option (List UInt8)

/-- The part of a sign request between lock and eviction, src/wh_server_crypto.c:8104-8160,
8607-8650. -/
def signKey (cfg : Cfg) (x : Nat) (s : Sys) (id : UInt16) (r : SignReq) : SignOut × Sys :=
  match Keystore.freshen cfg.ks x s id with
  | (.ok, some k, s1) =>
    match r.init with
    | .ok =>
      match load cfg r.alg k.data with
      | .error rc => (⟨errRc rc, none, none⟩, s1)
      | .ok (h, pub, priv) =>
        match r.preMsg with
        | .ok =>
          match r.preSig with
          | .ok =>
            match (cfg.lib r.alg).sign pub priv r.msg r.sigSz with
            | .error rc => (⟨errRc rc, none, none⟩, s1)
            | .ok (sig, priv') =>
              match writeCb cfg x s1 id k h priv' with
              | (.ok, s2) => (⟨.ok, some sig, some sig⟩, s2)
              | (_, s2) => (⟨.aborted, none, some sig⟩, s2)
          | rc => (⟨rc, none, none⟩, s1)
        | rc => (⟨rc, none, none⟩, s1)
    | rc => (⟨rc, none, none⟩, s1)
  | (rc, _, s1) => (⟨errRc rc, none, none⟩, s1)

/-- `_HandleLmsSignDma`, src/wh_server_crypto.c:8054-8188, and `_HandleXmssSignDma`,
:8559-8679. -/
def sign (cfg : Cfg) (v : Srv) (s : Sys) (r : SignReq) : SignOut × Sys :=
  let id := KeyId.fromClient cfg.ks.ids KeyId.typeCrypto v.client r.id
  if KeyId.isErased id then (⟨.badargs, none, none⟩, s)
  else match r.lock with
    | .ok =>
      let p := signKey cfg v.ctx s id r
      (p.1, if r.evict then (Keystore.evictKey cfg.ks v.ctx p.2 id).2 else p.2)
    | rc => (⟨rc, none, none⟩, s)

/-- A decoded key generation request.  `param`: the parameter descriptor (the three LMS bytes,
or the XMSS string with its NUL); `made`: the result of `wc_…Key_MakeKey`. -/
structure GenReq where
  alg : Alg
  id : UInt16
  flags : UInt16
  label : Vector UInt8 24
  labelSz : Nat
  param : List UInt8
  pubSz : Nat
  lock : Rc
  init : Rc
  prePub : Rc
  made : Except Rc (List UInt8 × List UInt8)

/-- The flags of a generated key, src/wh_server_crypto.c:8014-8018, 8519-8523. -/
def genFlags (flags : UInt16) : UInt16 := (flags &&& ~~~Nvm.serverOnly) ||| Flag.nonExportable

/-- From the cache slot to the commit, src/wh_server_crypto.c:7977-8024, 8473-8529.  Taking the
slot, filling it and giving it up on an error are those of `Keystore.importKey`. -/
def genStore (cfg : Cfg) (x : Nat) (s : Sys) (id : UInt16) (r : GenReq) : Rc × Sys :=
  let md : Meta := ⟨id, 0xFFFF, genFlags r.flags, 0, r.label⟩
  let der : Except Rc (List UInt8) := match r.made with
    | .error rc => .error rc
    | .ok (pub, priv) => .ok (encode cfg.le r.alg r.param pub priv)
  match Keystore.importKey cfg.ks x s md (UInt16.ofNat cfg.ks.bigBufSize) der with
  | (.ok, s1) => Keystore.commitKey cfg.ks x s1 id
  | p => p

/-- `_HandleLmsKeyGenDma`, src/wh_server_crypto.c:7896-8052, and `_HandleXmssKeyGenDma`,
:8388-8557: return code and key id. -/
def keyGen (cfg : Cfg) (v : Srv) (s : Sys) (r : GenReq) : (Rc × UInt16) × Sys :=
  if r.flags &&& Flag.ephemeral ≠ 0 then ((.badargs, 0), s)
  else match r.init with
    | .ok =>
      match (cfg.lib r.alg).params r.param with
      | .error rc => ((errRc rc, 0), s)
      | .ok (pubLen, _) =>
        if r.pubSz < pubLen then ((.bufferSize, 0), s)
        else match r.prePub with
          | .ok =>
            if r.labelSz > 24 then ((.badargs, 0), s)
            else match r.lock with
              | .ok =>
                let id := KeyId.fromClient cfg.ks.ids KeyId.typeCrypto v.client r.id
                let u := if KeyId.isErased id then Keystore.getUniqueId cfg.ks v.ctx s id
                  else (.ok, id)
                match u with
                | (.ok, id) =>
                  let p := genStore cfg v.ctx s id r
                  ((p.1, id), p.2)
                | (rc, _) => ((rc, 0), s)
              | rc => ((rc, 0), s)
          | rc => ((rc, 0), s)
    | rc => ((rc, 0), s)

/-- Verify and signatures-left requests, src/wh_server_crypto.c:8190-8351 and the XMSS ones: as
far as the key store is concerned, bring the key into the cache under the lock, and evict it
if asked to (`_CryptoEvictKeyLocked`, :242-255, with its own lock). -/
def look (cfg : Cfg) (v : Srv) (s : Sys) (lock lock2 : Rc) (rid : UInt16) (evict : Bool) : Sys :=
  let id := KeyId.fromClient cfg.ks.ids KeyId.typeCrypto v.client rid
  if KeyId.isErased id then s
  else
    let s1 := if lock = .ok then (Keystore.freshen cfg.ks v.ctx s id).2.2 else s
    if evict = true ∧ lock2 = .ok then (Keystore.evictKey cfg.ks v.ctx s1 id).2 else s1

end WolfHsm.StatefulSig

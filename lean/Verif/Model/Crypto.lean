import Verif.Model.Keystore

/-!
# `src/wh_server_crypto.c`: the crypto requests that use or make keys

A crypto handler is a program over the key store: it issues key-store operations, each of which
holds the NVM lock for its own duration only, and computes with the crypto library in between.
Requests of other server contexts may be served between two operations.

The crypto library is a parameter (`Lib`): any functions of the key bytes, the request data and
random bytes.  The decoding of stored key bytes is part of the library function that uses them: a
decoding failure and a failure of the operation itself have the same consequences in every
handler.  Random bytes and DMA results are parameters of the request.  Structural checks of the
request (sizes, unknown RSA operation, unknown Ed25519 variant or an oversized context) are the
request `malformed`.  LMS and XMSS requests are in `Model/StatefulSig.lean`; packet bytes,
SHA and RNG requests are in `Model/CryptoMsg.lean`.
-/

namespace WolfHsm.Crypto

open Keystore (Srv)

/-- Algorithms with generated or stored key objects. -/
inductive Alg where
  | rsa | ecc | curve25519 | ed25519 | mldsa | mlkem
deriving DecidableEq

/-- `RSA_PUBLIC_ENCRYPT` … `RSA_PRIVATE_DECRYPT`. -/
inductive RsaOp where
  | publicEncrypt | publicDecrypt | privateEncrypt | privateDecrypt
deriving DecidableEq

inductive AesMode where
  | ctr | ecb | cbc | gcm
deriving DecidableEq

/-- The functions of the crypto library.  `key` arguments are the bytes held by the key store;
`obj` is a freshly made key object.  `max`: size of the output buffer. -/
structure Lib where
  /-- Make a key: `wc_MakeRsaKey`, `wc_ecc_make_key_ex`, … -/
  gen : Alg → (params : List Nat) → (coins : List UInt8) → Except Rc (List UInt8)
  /-- `_IsMlDsaLevelSupported`, `_IsMlKemLevelSupported` -/
  level : Alg → (params : List Nat) → Bool
  /-- `wh_Crypto_…SerializeKeyDer` -/
  privateDer : Alg → (max : Nat) → (obj : List UInt8) → Except Rc (List UInt8)
  /-- `wc_…PublicKeyToDer` -/
  publicDer : Alg → (max : Nat) → (obj : List UInt8) → Except Rc (List UInt8)
  /-- `wc_RsaFunction` -/
  rsa : RsaOp → (max : Nat) → (key input coins : List UInt8) → Except Rc (List UInt8)
  /-- `wc_RsaEncryptSize` -/
  rsaSize : (key : List UInt8) → Except Rc Nat
  /-- `wc_ecc_shared_secret`, `wc_curve25519_shared_secret_ex` -/
  secret : Alg → (opts : Nat) → (max : Nat) → (prv pub : List UInt8) → Except Rc (List UInt8)
  /-- `wc_ecc_sign_hash`, `wc_ed25519_sign_msg_ex`, `wc_MlDsaKey_SignCtx(Hash)` -/
  sign : Alg → (opts : Nat) → (max : Nat) → (key msg ctx coins : List UInt8) →
    Except Rc (List UInt8)
  /-- `wc_ecc_verify_hash`, `wc_ed25519_verify_msg_ex`, `wc_MlDsaKey_VerifyCtx(Hash)` -/
  verify : Alg → (opts : Nat) → (key sig msg ctx : List UInt8) → Except Rc Nat
  /-- `wc_EccPublicKeyToDer` of a stored key -/
  publicFrom : (max : Nat) → (key : List UInt8) → Except Rc (List UInt8)
  /-- `wc_ecc_make_pub_ex` and `wc_ecc_export_x963` -/
  makePub : (max : Nat) → (key coins : List UInt8) → Except Rc (List UInt8)
  /-- `wc_ecc_check_key` and the comparison with the caller's point -/
  checkPub : (key pub coins : List UInt8) → Except Rc Unit
  /-- `wc_MlKemKey_Encapsulate`, including the check of the key's level -/
  encaps : (params : List Nat) → (key coins : List UInt8) → Except Rc (List UInt8 × List UInt8)
  /-- `wc_MlKemKey_Decapsulate`, including the check of the key's level -/
  decaps : (params : List Nat) → (key ct : List UInt8) → Except Rc (List UInt8)
  /-- `wc_HKDF`; `room`: bytes between the output and `info` in the shared buffer, see
  `Model/Kdf.lean` -/
  hkdf : (hash : Nat) → (room : Nat) → (ikm salt info : List UInt8) → (outSz : Nat) →
    Except Rc (List UInt8)
  /-- `wc_KDA_KDF_twostep_cmac` -/
  cmacKdf : (room : Nat) → (salt z info : List UInt8) → (outSz : Nat) → Except Rc (List UInt8)
  /-- AES with a 16, 24 or 32 byte key; `extra`: IV, carried counter state, additional data, tag.
  The result is the bulk output and what follows it in the response (counter state, IV or
  tag). -/
  aes : AesMode → (enc : Bool) → (left : Nat) → (key input extra : List UInt8) →
    Except Rc (List UInt8 × List UInt8)
  /-- `aes->left` after `wc_AesCtrEncrypt` of `n` bytes: unused bytes of the last key-stream block -/
  aesLeft : (left n : Nat) → Nat :=
    fun left n => if n ≤ left then left - n else (16 - (n - left) % 16) % 16
  /-- `wc_AesCmacGenerate_ex` -/
  cmac : (key input : List UInt8) → (outSz : Nat) → Except Rc (List UInt8)
  /-- `wc_InitCmac_ex`, restored client state, `wc_CmacUpdate`: the state to save -/
  cmacUpdate : (key state input : List UInt8) → Except Rc (List UInt8)
  /-- The same followed by `wc_CmacFinal` -/
  cmacFinal : (key state input : List UInt8) → (outSz : Nat) → Except Rc (List UInt8)

/-- Compile-time configuration. -/
structure Cfg where
  ks : Keystore.Cfg
  /-- Slot size asked for when a made key is imported, e.g. `ECC_BUFSIZE`,
  src/wh_server_crypto.c:279-283, :662. -/
  cap : Alg → UInt16
  /-- `WOLFHSM_CFG_SERVER_KDF_MAX_KEY_SIZE` -/
  kdfMax : Nat

/-- A successful response: `fixed` bytes of response structure after the 12-byte crypto header,
then `body`; `dma`: what has been written to client memory. -/
structure Out where
  fixed : Nat
  keyId : UInt16 := 0
  res : Nat := 0
  /-- CMAC state inside the response structure -/
  state : List UInt8 := []
  body : List UInt8 := []
  dma : List UInt8 := []
deriving DecidableEq

/-- An unsuccessful response is the header with the return code only,
src/wh_server_crypto.c:6300-6316.  What a failed DMA request has written to client memory is
not modelled. -/
abbrev Resp := Except Rc Out

/-- Total length of the response in the comm buffer: `sizeof(whMessageCrypto_GenericResponseHeader)`
= 12, src/wh_server_crypto.c:6310. -/
def Out.size (o : Out) : Nat := 12 + o.fixed + o.body.length

/-- A handler: key-store operations with computation in between.  `locked`: the operation takes
the NVM lock. -/
inductive Prog where
  | done (a : Resp)
  | call (locked : Bool) (r : Keystore.Req) (k : Keystore.Resp → Prog)

/-- `wh_KeyId_TranslateFromClient(WH_KEYTYPE_CRYPTO, client_id, …)`, e.g.
src/wh_server_crypto.c:382-383.  Request fields are 32 bits wide and truncated to 16. -/
def own (cfg : Cfg) (v : Srv) (id : UInt16) : UInt16 :=
  KeyId.fromClient cfg.ks.ids KeyId.typeCrypto v.client id

/-- The key bytes a key-store operation hands to the handler. -/
def loaded : Keystore.Resp → Except Rc (List UInt8)
  | .usable .ok (some b) => .ok b
  | .usable rc _ => .error (errRc rc)
  | .code rc => .error (errRc rc)
  | _ => .error .aborted

/-- `_…KeyCacheExportEnforce`: src/wh_server_crypto.c:329-355 (RSA), 715-741 (ECC), 801-829
(Ed25519), 897-926 (Curve25519), 1000-1029 (ML-DSA), 1093-1121 (ML-KEM); with `locked = false`
`wh_Server_EccKeyCacheExport`, :694-713. -/
def load (cfg : Cfg) (v : Srv) (locked : Bool) (id required : UInt16)
    (k : Except Rc (List UInt8) → Prog) : Prog :=
  if KeyId.isErased (own cfg v id) then k (.error .badargs)
  else .call locked (.loadKey id required) fun r => k (loaded r)

/-- `wh_Server_KeystoreReadKeyEnforce` into a buffer of `size` bytes,
src/wh_server_keystore.c:1158-1193. -/
def read (id required : UInt16) (size : Nat) (k : Except Rc (List UInt8) → Prog) : Prog :=
  .call true (.useKey id required size) fun r => k (loaded r)

/-- `_CryptoEvictKeyLocked`, src/wh_server_crypto.c:242-255, when the evict option is set; with
`locked = false` `wh_Server_KeystoreEvictKey`, :1875-1878. -/
def evictOpt (cfg : Cfg) (v : Srv) (locked : Bool) (evict : Bool) (id : UInt16) (k : Prog) : Prog :=
  if evict && !KeyId.isErased (own cfg v id) then .call locked (.evictOption id) fun _ => k else k

/-- Import of a made key with the NVM lock held: a fresh id if none was given, then a checked
slot, e.g. src/wh_server_crypto.c:418-432.  The result is the id reported to the client. -/
def store (id flags : UInt16) (label : Vector UInt8 24) (cap : UInt16)
    (der : Except Rc (List UInt8)) (k : Except Rc UInt16 → Prog) : Prog :=
  .call true (.importKey id flags label cap der) fun
    | .keyId .ok rid => k (.ok rid)
    | .keyId rc _ => k (.error (errRc rc))
    | .code rc => k (.error (errRc rc))
    | _ => k (.error .aborted)

/-- `flags & WH_NVM_FLAGS_EPHEMERAL`. -/
def isEphemeral (flags : UInt16) : Bool := (flags &&& Flag.ephemeral) != 0

/-- Use one stored key, then evict it if asked to. -/
def useOne (cfg : Cfg) (v : Srv) (locked : Bool) (id required : UInt16) (evict : Bool)
    (op : List UInt8 → Resp) : Prog :=
  load cfg v locked id required fun key => evictOpt cfg v locked evict id (.done (key.bind op))

/-- Key generation: `_HandleRsaKeyGen` src/wh_server_crypto.c:358-468, `_HandleEccKeyGen`
1395-1500, `_HandleCurve25519KeyGen` 2446-2555, `_HandleEd25519KeyGen` 2698-2793,
`_HandleMlDsaKeyGen` 5192-5326, `_HandleMlKemKeyGen` 5570-5673.  The room for the key in the
response is computed without the 12-byte header, e.g. :391-392. -/
def keyGen (cfg : Cfg) (L : Lib) (alg : Alg) (id flags : UInt16) (label : Vector UInt8 24)
    (params : List Nat) (coins : List UInt8) : Prog :=
  if (alg = .mldsa ∨ alg = .mlkem) ∧ L.level alg params = false then .done (.error .badargs)
  else
    match L.gen alg params coins with
    | .error rc => .done (.error rc)
    | .ok obj =>
      if isEphemeral flags then
        .done ((L.privateDer alg (cfg.ks.commLen - 8) obj).map fun der => { fixed := 8, body := der })
      else
        store id flags label (cfg.cap alg) (L.privateDer alg (cfg.cap alg).toNat obj) fun r =>
          .done (r.map fun rid =>
            { fixed := 8, keyId := rid,
              body := (L.publicDer alg (cfg.ks.commLen - 8) obj).toOption.getD [] })

/-- The id a made key has been stored under, as a request id. -/
def outId (cfg : Cfg) (v : Srv) (id rid : UInt16) : UInt16 :=
  if KeyId.isErased (own cfg v id) then rid else id

/-- Key generation with the result written to client memory: `_HandleMlDsaKeyGenDma`
src/wh_server_crypto.c:6882-7043, `_HandleMlKemKeyGenDma` 7385-7520.  `pre`, `post`: results of
the DMA checks before and after the write.  If the public key cannot be delivered, the key just
imported is evicted again. -/
def keyGenDma (cfg : Cfg) (L : Lib) (v : Srv) (alg : Alg) (id flags : UInt16)
    (label : Vector UInt8 24) (params : List Nat) (coins : List UInt8) (sz : UInt64)
    (pre post : Rc) : Prog :=
  if L.level alg params = false then .done (.error .badargs)
  else
    match L.gen alg params coins with
    | .error rc => .done (.error rc)
    | .ok obj =>
      if isEphemeral flags then
        if pre = .ok then
          match L.privateDer alg sz.toUInt16.toNat obj with
          | .error rc => .done (.error rc)
          | .ok der =>
            if post = .ok then .done (.ok { fixed := 24, dma := der }) else .done (.error post)
        else .done (.error pre)
      else
        store id flags label (cfg.cap alg) (L.privateDer alg (cfg.cap alg).toNat obj) fun
          | .error rc => .done (.error rc)
          | .ok rid =>
            match (if pre = .ok then L.publicDer alg sz.toNat obj else .error pre) with
            | .ok pub => .done (.ok { fixed := 24, keyId := rid, dma := pub })
            | .error rc =>
              evictOpt cfg v true true (outId cfg v id rid) (.done (.error rc))

/-- Usage first asked for by `_HandleRsaFunction`, src/wh_server_crypto.c:526-537. -/
def rsaNeed : RsaOp → UInt16
  | .publicEncrypt | .privateEncrypt => Flag.usageEncrypt
  | .publicDecrypt | .privateDecrypt => Flag.usageDecrypt

/-- Usage asked for next if the first is missing, src/wh_server_crypto.c:545-563. -/
def rsaAlt : RsaOp → Option UInt16
  | .publicDecrypt => some Flag.usageVerify
  | .privateEncrypt => some Flag.usageSign
  | _ => none

/-- `_HandleRsaFunction`, src/wh_server_crypto.c:471-591.  `outLen` comes from the client and is
not compared with the room in the response. -/
def rsaFunction (cfg : Cfg) (L : Lib) (v : Srv) (op : RsaOp) (id : UInt16) (evict : Bool)
    (input : List UInt8) (outLen : Nat) (coins : List UInt8) : Prog :=
  let fin (key : Except Rc (List UInt8)) : Prog :=
    evictOpt cfg v true evict id (.done (key.bind fun k =>
      (L.rsa op outLen k input coins).map fun out => { fixed := 4, body := out }))
  load cfg v true id (rsaNeed op) fun key =>
    match key, rsaAlt op with
    | .error .usage, some alt => load cfg v true id alt fin
    | key, _ => fin key

/-- `_HandleRsaGetSize`, src/wh_server_crypto.c:593-651. -/
def rsaGetSize (cfg : Cfg) (L : Lib) (v : Srv) (id : UInt16) (evict : Bool) : Prog :=
  useOne cfg v true id 0 evict fun k => (L.rsaSize k).map fun n => { fixed := 4, res := n }

/-- The two evict options of the shared-secret requests, src/wh_server_crypto.c:1605-1612. -/
def evictTwo (cfg : Cfg) (v : Srv) (evPub evPrv : Bool) (pub prv : UInt16) (r : Resp) : Prog :=
  evictOpt cfg v true evPub pub (evictOpt cfg v true evPrv prv (.done r))

/-- `_HandleEccSharedSecret` src/wh_server_crypto.c:1503-1633, `_HandleCurve25519SharedSecret`
2557-2694. -/
def sharedSecret (cfg : Cfg) (L : Lib) (v : Srv) (alg : Alg) (opts : Nat) (prv pub : UInt16)
    (evPrv evPub : Bool) (id flags : UInt16) (label : Vector UInt8 24) : Prog :=
  load cfg v true prv Flag.usageDerive fun
    | .error rc => evictTwo cfg v evPub evPrv pub prv (.error rc)
    | .ok kprv =>
      load cfg v true pub 0 fun
        | .error rc => evictTwo cfg v evPub evPrv pub prv (.error rc)
        | .ok kpub =>
          match L.secret alg opts (cfg.ks.commLen - 8) kprv kpub with
          | .error rc => evictTwo cfg v evPub evPrv pub prv (.error rc)
          | .ok z =>
            if isEphemeral flags then
              evictTwo cfg v evPub evPrv pub prv (.ok { fixed := 8, body := z })
            else
              store id flags label (UInt16.ofNat z.length) (.ok z) fun
                | .error rc => evictTwo cfg v evPub evPrv pub prv (.error rc)
                | .ok rid =>
                  let out := own cfg v (outId cfg v id rid)
                  evictTwo cfg v (evPub && out != own cfg v pub) (evPrv && out != own cfg v prv)
                    pub prv (.ok { fixed := 8, keyId := rid })

/-- Room for a signature in the response: src/wh_server_crypto.c:1674-1676 (ECC), 2802 (Ed25519,
`ED25519_SIG_SIZE`), 5384-5386 (ML-DSA). -/
def sigRoom (cfg : Cfg) : Alg → Nat
  | .ed25519 => 64
  | .mldsa => cfg.ks.commLen - 8
  | _ => cfg.ks.commLen - 4

/-- Size of the fixed part of a sign response. -/
def sigFixed : Alg → Nat
  | .mldsa => 8
  | _ => 4

/-- `_HandleEccSign` src/wh_server_crypto.c:1637-1710, `_HandleEd25519Sign` 2795-2884 (with the
length check at 2859-2863, here made only when signing has succeeded), `_HandleMlDsaSign` 5328-5424. -/
def sign (cfg : Cfg) (L : Lib) (v : Srv) (alg : Alg) (id : UInt16) (evict : Bool) (opts : Nat)
    (msg ctx coins : List UInt8) : Prog :=
  useOne cfg v true id Flag.usageSign evict fun k =>
    match L.sign alg opts (sigRoom cfg alg) k msg ctx coins with
    | .error rc => .error rc
    | .ok sig =>
      if alg = .ed25519 ∧ sig.length > cfg.ks.commLen - 16 then .error .aborted
      else .ok { fixed := sigFixed alg, body := sig }

/-- `_HandleEd25519SignDma` src/wh_server_crypto.c:2969-3069 (DMA checks before the key is
loaded), `_HandleMlDsaSignDma` 7045-7180 (after).  `msg`: the client memory read; `pre`: result
of the DMA checks. -/
def signDma (cfg : Cfg) (L : Lib) (v : Srv) (alg : Alg) (id : UInt16) (evict : Bool) (opts : Nat)
    (msg ctx coins : List UInt8) (sigSz : Nat) (pre : Rc) : Prog :=
  if alg = .ed25519 ∧ pre ≠ .ok then evictOpt cfg v true evict id (.done (.error pre))
  else
    useOne cfg v true id Flag.usageSign evict fun k =>
      if pre = .ok then
        (L.sign alg opts sigSz k msg ctx coins).map fun sig => { fixed := 24, dma := sig }
      else .error pre

/-- `_HandleEccVerify` src/wh_server_crypto.c:1714-1813, `_HandleEd25519Verify` 2886-2967,
`_HandleMlDsaVerify` 5426-5536. -/
def verify (cfg : Cfg) (L : Lib) (v : Srv) (alg : Alg) (id : UInt16) (evict exportPub : Bool)
    (opts : Nat) (sig msg ctx : List UInt8) : Prog :=
  useOne cfg v true id Flag.usageVerify evict fun k =>
    match L.verify alg opts k sig msg ctx with
    | .error rc => .error rc
    | .ok res =>
      if alg = .ecc ∧ exportPub = true then
        (L.publicFrom (cfg.ks.commLen - 8) k).map fun pub => { fixed := 8, res := res, body := pub }
      else .ok { fixed := if alg = .ed25519 then 4 else 8, res := res }

/-- `_HandleEd25519VerifyDma` src/wh_server_crypto.c:3071-3169, `_HandleMlDsaVerifyDma`
7182-7320. -/
def verifyDma (cfg : Cfg) (L : Lib) (v : Srv) (alg : Alg) (id : UInt16) (evict : Bool)
    (opts : Nat) (sig msg ctx : List UInt8) (pre : Rc) : Prog :=
  if alg = .ed25519 ∧ pre ≠ .ok then evictOpt cfg v true evict id (.done (.error pre))
  else
    useOne cfg v true id Flag.usageVerify evict fun k =>
      if pre = .ok then
        (L.verify alg opts k sig msg ctx).map fun res => { fixed := 24, res := res }
      else .error pre

/-- `_HandleEccMakePub`, src/wh_server_crypto.c:1816-1888: no usage check, no NVM lock. -/
def makePub (cfg : Cfg) (L : Lib) (v : Srv) (id : UInt16) (evict : Bool) (coins : List UInt8) :
    Prog :=
  useOne cfg v false id 0 evict fun k =>
    (L.makePub (cfg.ks.commLen - 16) k coins).map fun pub => { fixed := 4, body := pub }

/-- `_HandleEccCheckPubKey`, src/wh_server_crypto.c:1891-1986: no usage check, no NVM lock. -/
def checkPub (cfg : Cfg) (L : Lib) (v : Srv) (id : UInt16) (evict : Bool)
    (pub coins : List UInt8) : Prog :=
  useOne cfg v false id 0 evict fun k =>
    (L.checkPub k pub coins).map fun _ => { fixed := 4, res := 1 }

/-- `_HandleMlKemEncaps` src/wh_server_crypto.c:5675-5776, `_HandleMlKemEncapsDma` 7522-7653.
`dma`: room and DMA result for the ciphertext, if it goes to client memory. -/
def encaps (cfg : Cfg) (L : Lib) (v : Srv) (params : List Nat) (id : UInt16) (evict : Bool)
    (coins : List UInt8) (dma : Option (Nat × Rc)) : Prog :=
  if L.level .mlkem params = false then evictOpt cfg v true evict id (.done (.error .badargs))
  else
    useOne cfg v true id Flag.usageDerive evict fun k =>
      match L.encaps params k coins with
      | .error rc => .error rc
      | .ok (ct, ss) =>
        match dma with
        | none =>
          if ct.length + ss.length > cfg.ks.commLen - 8 then .error .badargs
          else .ok { fixed := 8, res := ct.length, body := ct ++ ss }
        | some (sz, pre) =>
          if ct.length > sz ∨ ss.length > cfg.ks.commLen - 24 then .error .badargs
          else if pre = .ok then .ok { fixed := 24, body := ss, dma := ct } else .error pre

/-- `_HandleMlKemDecaps` src/wh_server_crypto.c:5778-5881, `_HandleMlKemDecapsDma` 7655-7780.
`dma`: the DMA result, if the ciphertext is read from client memory. -/
def decaps (cfg : Cfg) (L : Lib) (v : Srv) (params : List Nat) (id : UInt16) (evict : Bool)
    (ct : List UInt8) (dma : Option Rc) : Prog :=
  if L.level .mlkem params = false then evictOpt cfg v true evict id (.done (.error .badargs))
  else
    useOne cfg v true id Flag.usageDerive evict fun k =>
      match dma with
      | none =>
        match L.decaps params k ct with
        | .error rc => .error rc
        | .ok ss =>
          if ss.length > cfg.ks.commLen - 8 then .error .badargs else .ok { fixed := 8, body := ss }
      | some pre =>
        if pre ≠ .ok then .error pre
        else
          match L.decaps params k ct with
          | .error rc => .error rc
          | .ok ss =>
            if ss.length > cfg.ks.commLen - 24 then .error .badargs else .ok { fixed := 24, body := ss }

/-- Deliver a derived key: in the response if it is ephemeral, else into the key store,
src/wh_server_crypto.c:2230-2263, 2400-2425. -/
def deliver (id flags : UInt16) (label : Vector UInt8 24) (okm : Except Rc (List UInt8)) : Prog :=
  match okm with
  | .error rc => .done (.error rc)
  | .ok okm =>
    if isEphemeral flags then .done (.ok { fixed := 8, body := okm })
    else
      store id flags label (UInt16.ofNat okm.length) (.ok okm) fun r =>
        .done (r.map fun rid => { fixed := 8, keyId := rid })

/-- `_HandleHkdf`, src/wh_server_crypto.c:2139-2280. -/
def hkdf (cfg : Cfg) (L : Lib) (v : Srv) (idIn idOut flags : UInt16) (label : Vector UInt8 24)
    (hash : Nat) (inKey salt info : List UInt8) (outSz : Nat) : Prog :=
  let go (ikm : List UInt8) : Prog :=
    if outSz > cfg.ks.commLen - 20 then .done (.error .badargs)
    else deliver idOut flags label
      (L.hkdf hash (48 + inKey.length + salt.length) ikm salt info outSz)
  if inKey = [] ∧ KeyId.isErased (own cfg v idIn) = false then
    read idIn Flag.usageDerive cfg.kdfMax fun
      | .error rc => .done (.error rc)
      | .ok ikm => go ikm
  else go inKey

/-- One input of `_HandleCmacKdf`: given inline or a stored key, src/wh_server_crypto.c:2350-2385. -/
def kdfInput (cfg : Cfg) (v : Srv) (inline : List UInt8) (id : UInt16) (size : Nat)
    (k : List UInt8 → Prog) : Prog :=
  if inline = [] then
    if KeyId.isErased (own cfg v id) then .done (.error .badargs)
    else
      read id Flag.usageDerive size fun
        | .error rc => .done (.error rc)
        | .ok b => k b
  else k inline

/-- `_HandleCmacKdf`, src/wh_server_crypto.c:2284-2442. -/
def cmacKdf (cfg : Cfg) (L : Lib) (v : Srv) (idSalt idZ idOut flags : UInt16)
    (label : Vector UInt8 24) (salt z info : List UInt8) (outSz : Nat) : Prog :=
  kdfInput cfg v salt idSalt 32 fun s' =>
    kdfInput cfg v z idZ cfg.kdfMax fun z' =>
      if outSz = 0 ∨ outSz > cfg.ks.commLen - 20 then .done (.error .badargs)
      else deliver idOut flags label (L.cmacKdf (48 + salt.length + z.length) s' z' info outSz)

/-- AES key lengths. -/
def aesLen (n : Nat) : Bool := n == 16 || n == 24 || n == 32

/-- Usage an AES request asks for, e.g. src/wh_server_crypto.c:3232. -/
def aesNeed (enc : Bool) : UInt16 := if enc then Flag.usageEncrypt else Flag.usageDecrypt

/-- Size of the fixed part of an AES response. -/
def aesFixed : AesMode → Nat
  | .ctr => 20
  | .ecb | .cbc => 16
  | .gcm => 28

/-- What an AES request computes once it has a key, e.g. src/wh_server_crypto.c:3245-3304. -/
def aesWith (L : Lib) (mode : AesMode) (enc : Bool) (left : Nat) (input extra : List UInt8)
    (key : Except Rc (List UInt8)) : Except Rc (List UInt8 × List UInt8) :=
  match key with
  | .error rc => .error rc
  | .ok k =>
    if aesLen k.length = false then .error .badargs
    else if mode = .ctr ∧ left > 16 then .error .badargs
    else L.aes mode enc left k input extra

/-- `_HandleAesCtr` src/wh_server_crypto.c:3175-3307, `_HandleAesEcb` 3511-3621, `_HandleAesCbc`
3796-3912, `_HandleAesGcm` 4093-4248.  A stored key takes precedence over an inline one.
`tagLen`: GCM tag length, not bounded; the length of the response is computed in 32 bits. -/
def aes (cfg : Cfg) (L : Lib) (v : Srv) (mode : AesMode) (enc : Bool) (id : UInt16)
    (key input extra : List UInt8) (left tagLen : Nat) : Prog :=
  if mode = .gcm ∧ (28 + input.length + (if enc then tagLen else 0)) % 4294967296 > cfg.ks.commLen - 12 then
    .done (.error .badargs)
  else
    let fin (key : Except Rc (List UInt8)) : Prog :=
      .done ((aesWith L mode enc left input extra key).map fun (out, tail) =>
        { fixed := aesFixed mode, res := if mode = .ctr then L.aesLeft left input.length else 0,
          body := out ++ tail })
    if KeyId.isErased (own cfg v id) then fin (.ok key)
    else read id (aesNeed enc) 32 fin

/-- `_HandleAesCtrDma` src/wh_server_crypto.c:3311-3506, `_HandleAesEcbDma` 3624-3793,
`_HandleAesCbcDma` 3915-4090, `_HandleAesGcmDma` 4251-4452.  A stored key is used only if there
is no inline one.  `input`: the client memory read; `pre`, `post`: DMA results. -/
def aesDma (cfg : Cfg) (L : Lib) (v : Srv) (mode : AesMode) (enc : Bool) (id : UInt16)
    (key input extra : List UInt8) (left : Nat) (pre post : Rc) : Prog :=
  let fin (key : Except Rc (List UInt8)) : Prog :=
    .done (match key with
      | .error rc => .error rc
      | .ok k =>
        if aesLen k.length = false then .error .badargs
        else if pre ≠ .ok then .error pre
        else
          match aesWith L mode enc left input extra (.ok k) with
          | .error rc => .error rc
          | .ok (out, tail) =>
            if post = .ok then .ok { fixed := 24, body := tail, dma := out } else .error post)
  if key ≠ [] ∨ KeyId.isErased (own cfg v id) = true then fin (.ok key)
  else read id (aesNeed enc) 32 fin

/-- `_CmacResolveKey`, src/wh_server_crypto.c:4455-4499. -/
def cmacKey (id : UInt16) (key : List UInt8) (k : Except Rc (List UInt8) → Prog) : Prog :=
  let chk (r : Except Rc (List UInt8)) : Except Rc (List UInt8) :=
    r.bind fun b => if aesLen b.length then .ok b else .error .aborted
  if key ≠ [] then k (.ok key)
  else if KeyId.isErased id then k (.error .badargs)
  else
    read id Flag.usageSign 32 fun
      | .error .usage => read id Flag.usageVerify 32 fun r => k (chk r)
      | r => k (chk r)

/-- What a CMAC request computes once it has a key, src/wh_server_crypto.c:4553-4607.  Without a
requested output length the intermediate state is returned. -/
def cmacWith (L : Lib) (id : UInt16) (fixed : Nat) (state input : List UInt8) (outSz : Nat) (oneShot : Bool)
    (key : List UInt8) : Resp :=
  if oneShot then (L.cmac key input outSz).map fun t => { fixed := fixed, body := t }
  else if outSz ≠ 0 then
    (L.cmacFinal key state input outSz).map fun t => { fixed := fixed, body := t }
  else
    (L.cmacUpdate key state input).map fun st => { fixed := fixed, keyId := id, state := st }

/-- `_HandleCmac`, src/wh_server_crypto.c:4501-4619.  Inline keys longer than 32 bytes are
refused as malformed. -/
def cmac (L : Lib) (id : UInt16) (key state input : List UInt8) (outSz : Nat) : Prog :=
  cmacKey id key fun r =>
    .done (r.bind (cmacWith L id 48 state input outSz (input ≠ [] && outSz ≠ 0)))

/-- `_HandleCmacDma`, src/wh_server_crypto.c:8944-9133.  `inline`: input in the request; `mem`:
input read from client memory; `pre`: result of the DMA check. -/
def cmacDma (L : Lib) (id : UInt16) (key state inline mem : List UInt8) (outSz : Nat) (pre : Rc) :
    Prog :=
  if inline = [] ∧ mem ≠ [] ∧ outSz ≠ 0 then
    if pre = .ok then
      cmacKey id key fun r => .done (r.bind (cmacWith L id 64 state mem outSz true))
    else .done (.error pre)
  else
    cmacKey id key fun r =>
      .done (r.bind fun k =>
        if mem ≠ [] ∧ pre ≠ .ok then .error pre
        else cmacWith L id 64 state (inline ++ mem) outSz false k)

/-- Crypto requests that use or make keys.  `refused`: an ML-KEM decapsulation that announces more
ciphertext than it has; the evict option is still honoured, src/wh_server_crypto.c:5829-5832. -/
inductive Req where
  | malformed
  | refused (id : UInt16) (evict : Bool)
  | keyGen (alg : Alg) (id flags : UInt16) (label : Vector UInt8 24) (params : List Nat)
      (coins : List UInt8)
  | keyGenDma (alg : Alg) (id flags : UInt16) (label : Vector UInt8 24) (params : List Nat)
      (coins : List UInt8) (sz : UInt64) (pre post : Rc)
  | rsaFunction (op : RsaOp) (id : UInt16) (evict : Bool) (input : List UInt8) (outLen : Nat)
      (coins : List UInt8)
  | rsaGetSize (id : UInt16) (evict : Bool)
  | sharedSecret (alg : Alg) (opts : Nat) (prv pub : UInt16) (evPrv evPub : Bool)
      (id flags : UInt16) (label : Vector UInt8 24)
  | sign (alg : Alg) (id : UInt16) (evict : Bool) (opts : Nat) (msg ctx coins : List UInt8)
  | signDma (alg : Alg) (id : UInt16) (evict : Bool) (opts : Nat) (msg ctx coins : List UInt8)
      (sigSz : Nat) (pre : Rc)
  | verify (alg : Alg) (id : UInt16) (evict exportPub : Bool) (opts : Nat)
      (sig msg ctx : List UInt8)
  | verifyDma (alg : Alg) (id : UInt16) (evict : Bool) (opts : Nat) (sig msg ctx : List UInt8)
      (pre : Rc)
  | makePub (id : UInt16) (evict : Bool) (coins : List UInt8)
  | checkPub (id : UInt16) (evict : Bool) (pub coins : List UInt8)
  | encaps (params : List Nat) (id : UInt16) (evict : Bool) (coins : List UInt8)
      (dma : Option (Nat × Rc))
  | decaps (params : List Nat) (id : UInt16) (evict : Bool) (ct : List UInt8) (dma : Option Rc)
  | hkdf (idIn idOut flags : UInt16) (label : Vector UInt8 24) (hash : Nat)
      (inKey salt info : List UInt8) (outSz : Nat)
  | cmacKdf (idSalt idZ idOut flags : UInt16) (label : Vector UInt8 24)
      (salt z info : List UInt8) (outSz : Nat)
  | aes (mode : AesMode) (enc : Bool) (id : UInt16) (key input extra : List UInt8)
      (left tagLen : Nat)
  | aesDma (mode : AesMode) (enc : Bool) (id : UInt16) (key input extra : List UInt8)
      (left : Nat) (pre post : Rc)
  | cmac (id : UInt16) (key state input : List UInt8) (outSz : Nat)
  | cmacDma (id : UInt16) (key state inline mem : List UInt8) (outSz : Nat) (pre : Rc)

/-- `wh_Server_HandleCryptoRequest` src/wh_server_crypto.c:5975-6320 and
`wh_Server_HandleCryptoDmaRequest` 9200-9437, the requests above. -/
def handler (cfg : Cfg) (L : Lib) (v : Srv) : Req → Prog
  | .malformed => .done (.error .badargs)
  | .refused id evict => evictOpt cfg v true evict id (.done (.error .badargs))
  | .keyGen alg id flags label params coins => keyGen cfg L alg id flags label params coins
  | .keyGenDma alg id flags label params coins sz pre post =>
    keyGenDma cfg L v alg id flags label params coins sz pre post
  | .rsaFunction op id evict input outLen coins =>
    rsaFunction cfg L v op id evict input outLen coins
  | .rsaGetSize id evict => rsaGetSize cfg L v id evict
  | .sharedSecret alg opts prv pub evPrv evPub id flags label =>
    sharedSecret cfg L v alg opts prv pub evPrv evPub id flags label
  | .sign alg id evict opts msg ctx coins => sign cfg L v alg id evict opts msg ctx coins
  | .signDma alg id evict opts msg ctx coins sigSz pre =>
    signDma cfg L v alg id evict opts msg ctx coins sigSz pre
  | .verify alg id evict exportPub opts sig msg ctx =>
    verify cfg L v alg id evict exportPub opts sig msg ctx
  | .verifyDma alg id evict opts sig msg ctx pre =>
    verifyDma cfg L v alg id evict opts sig msg ctx pre
  | .makePub id evict coins => makePub cfg L v id evict coins
  | .checkPub id evict pub coins => checkPub cfg L v id evict pub coins
  | .encaps params id evict coins dma => encaps cfg L v params id evict coins dma
  | .decaps params id evict ct dma => decaps cfg L v params id evict ct dma
  | .hkdf idIn idOut flags label hash inKey salt info outSz =>
    hkdf cfg L v idIn idOut flags label hash inKey salt info outSz
  | .cmacKdf idSalt idZ idOut flags label salt z info outSz =>
    cmacKdf cfg L v idSalt idZ idOut flags label salt z info outSz
  | .aes mode enc id key input extra left tagLen =>
    aes cfg L v mode enc id key input extra left tagLen
  | .aesDma mode enc id key input extra left pre post =>
    aesDma cfg L v mode enc id key input extra left pre post
  | .cmac id key state input outSz => cmac L id key state input outSz
  | .cmacDma id key state inline mem outSz pre => cmacDma L id key state inline mem outSz pre

end WolfHsm.Crypto

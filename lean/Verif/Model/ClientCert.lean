import Verif.Model.CertMsg
import Verif.Model.ClientKey

/-!
# The client side of the certificate requests: `src/wh_client_cert.c`

As in `ClientKey`: requests in the client's own byte order, responses read without translation.
For the DMA calls the addresses are those given by the client's DMA callback, whose release after
the response is not modelled.
-/

namespace WolfHsm.ClientCert

open Utils (bytes16 bytes32 bytes64 magicNative)
open Wire
open ClientKey (labelField)

/-- The calls.  `verify` and `verifyMulti` are the common forms of `wh_Client_CertVerify` (flags 0,
key flags ANY, key id 0) and `wh_Client_CertVerifyAndCacheLeafPubKey` (flags 1). -/
inductive Call where
  | init
  | add (id access flags : UInt16) (label cert : List UInt8)
  | erase (id : UInt16)
  | read (id : UInt16)
  | verify (root flags keyFlags keyId : UInt16) (cert : List UInt8)
  | verifyMulti (roots : List UInt16) (flags keyFlags keyId : UInt16) (cert : List UInt8)
  | clear
  | enable (b : Bool)
  | addDma (id access flags : UInt16) (label : List UInt8) (addr : UInt64) (len : UInt32)
  | readDma (id : UInt16) (addr : UInt64) (len : UInt32)
  | verifyDma (root flags keyFlags keyId : UInt16) (addr : UInt64) (len : UInt32)
  | verifyMultiDma (roots : List UInt16) (flags keyFlags keyId : UInt16) (addr : UInt64) (len : UInt32)
  | acert (root : UInt16) (cert : List UInt8)
  | acertDma (root : UInt16) (addr : UInt64) (len : UInt32)

/-- Sizes the client library is compiled with. -/
structure Cfg where
  /-- `WOLFHSM_CFG_COMM_DATA_LEN` -/
  dataLen : Nat
  /-- `WOLFHSM_CFG_CERT_MAX_VERIFY_ROOTS` -/
  maxRoots : Nat
  /-- `WOLFHSM_CFG_MAX_CERT_SIZE` -/
  maxCert : Nat

/-- An array of ids in the client's memory. -/
def idArray (le : Bool) (ids : List UInt16) : List UInt8 := ids.flatMap (bytes16 le)

/-- Zeros. -/
def zeros (n : Nat) : List UInt8 := List.replicate n 0

/-- The request functions of src/wh_client_cert.c: `CertInitRequest` 53-66, `CertAddTrustedRequest`
117-150, `CertEraseTrustedRequest` 205-218, `CertReadTrustedRequest` 274-289, `_certVerifyRequest`
379-406, `_certVerifyMultiRootRequest` 519-559, `CertVerifyCacheClearRequest` 692-700,
`CertVerifyCacheSetEnabledRequest` 748-763, `CertAddTrustedDmaRequest` 811-852,
`CertReadTrustedDmaRequest` 917-950, `_certVerifyDmaRequest` 1017-1054,
`_certVerifyMultiRootDmaRequest` 1179-1223, `CertVerifyAcertRequest` 1357-1382,
`CertVerifyAcertDmaRequest` 1439-1472: action and data, or the error before anything is sent.  The
structures are cleared before they are filled. -/
def encode (le : Bool) (cfg : Cfg) : Call → Except Rc (UInt16 × List UInt8)
  | .init => .ok (1, [])
  | .add id access flags label cert =>
    if cert.length = 0 ∨ 36 + cert.length > cfg.dataLen then .error .badargs
    else .ok (2, bytes32 le (UInt32.ofNat cert.length) ++ (bytes16 le id ++ (bytes16 le access ++ (bytes16 le flags ++
      (labelField label ++ (zeros 2 ++ cert))))))
  | .erase id => .ok (3, bytes16 le id ++ zeros 6)
  | .read id => .ok (4, bytes16 le id ++ zeros 6)
  | .verify root flags keyFlags keyId cert =>
    if cert.length = 0 ∨ 12 + cert.length > cfg.dataLen then .error .badargs
    else .ok (5, bytes32 le (UInt32.ofNat cert.length) ++ (bytes16 le root ++ (bytes16 le flags ++ (bytes16 le keyFlags ++
      (bytes16 le keyId ++ cert)))))
  | .verifyMulti roots flags keyFlags keyId cert =>
    if cert.length = 0 ∨ roots.length = 0 ∨ roots.length > cfg.maxRoots ∨
        16 + 2 * roots.length + cert.length > cfg.dataLen then .error .badargs
    else .ok (6, bytes32 le (UInt32.ofNat cert.length) ++ (bytes16 le (UInt16.ofNat roots.length) ++ (bytes16 le flags ++
      (bytes16 le keyFlags ++ (bytes16 le keyId ++ (zeros 4 ++ (idArray le roots ++ cert)))))))
  | .clear => .ok (7, [])
  | .enable b => .ok (8, (if b then 1 else 0) :: zeros 7)
  | .addDma id access flags label addr len =>
    if len.toNat > cfg.maxCert then .error .badargs
    else .ok (0x22, bytes64 le addr ++ (bytes32 le len ++ (bytes16 le id ++ (bytes16 le access ++ (bytes16 le flags ++
      (labelField label ++ zeros 6))))))
  | .readDma id addr len => .ok (0x24, bytes64 le addr ++ (bytes32 le len ++ (bytes16 le id ++ zeros 2)))
  | .verifyDma root flags keyFlags keyId addr len =>
    .ok (0x25, bytes64 le addr ++ (bytes32 le len ++ (bytes16 le root ++ (bytes16 le flags ++ (bytes16 le keyFlags ++
      (bytes16 le keyId ++ zeros 4))))))
  | .verifyMultiDma roots flags keyFlags keyId addr len =>
    if roots.length = 0 ∨ roots.length > cfg.maxRoots then .error .badargs
    else .ok (0x28, bytes64 le addr ++ (bytes32 le len ++ (bytes16 le (UInt16.ofNat roots.length) ++ (bytes16 le flags ++
      (bytes16 le keyFlags ++ (bytes16 le keyId ++ (zeros 4 ++ (idArray le roots ++
        zeros (CertMsg.multiDmaSize cfg.maxRoots - 24 - 2 * roots.length)))))))))
  | .acert root cert =>
    if root = 0 ∨ cert.length = 0 ∨ 8 + cert.length > cfg.dataLen then .error .badargs
    else .ok (0x26, bytes32 le (UInt32.ofNat cert.length) ++ (bytes16 le root ++ (zeros 2 ++ cert)))
  | .acertDma root addr len =>
    .ok (0x27, bytes64 le addr ++ (bytes32 le len ++ (bytes16 le root ++ zeros 10)))

/-- What the caller gets: an error of the client library (its return value), or what has been written
to `out_rc` and the other outputs. -/
inductive Result where
  | err (rc : Rc)
  | code (c : UInt32)
  | verified (c : UInt32) (keyId : UInt16)
  | cert (bytes : List UInt8)
  /-- `out_rc` is BUFFER_SIZE and the length is reported. -/
  | tooLong (len : UInt32)
deriving DecidableEq

/-- The response functions, e.g. src/wh_client_cert.c:152-179, 291-341, 409-440: group, action and size
are compared.  `cap`: the size of the caller's buffer.  The key id reaches only callers that have
given a place for it. -/
def decode (le : Bool) (cap : Nat) (action : UInt16) (g : Comm.Got) : Result :=
  match g.rc with
  | .ok =>
    let p := g.payload
    let rc := rd32 le magicNative p 0
    if Server.groupOf g.kind ≠ 0x0C00 ∨ Server.actionOf g.kind ≠ action then .err .aborted
    else if action = 4 then
      if p.length < 8 then .err .aborted
      else
        let len := rd32 le magicNative p 4
        if rc = 0 then
          if len.toNat > p.length - 8 then .err .aborted
          else if cap < len.toNat then .tooLong len
          else .cert (rdBytes p 8 len.toNat)
        else if rc = Rc.bufferSize.code then .tooLong len
        else .code rc
    else if p.length ≠ 8 then .err .aborted
    else if action = 5 ∨ action = 6 ∨ action = 0x25 ∨ action = 0x28 then .verified rc (rd16 le magicNative p 4)
    else .code rc
  | rc => .err rc

end WolfHsm.ClientCert

import Verif.Model.Basic

/-!
# wolfBoot image headers and image verification methods

Models `src/wh_server_img_mgr.c`.  Memory is a list of bytes that is exactly as long as the region
the function may touch; reading outside it is the distinct outcome `oob`, and a loop that does not
end within a given number of steps is the distinct outcome `hang`.  Cryptographic primitives are
parameters.

Simplifications: an image lies in memory that does not change while it is verified (with DMA it may
belong to a client, and the code reads it in place, several times); pointer values that are computed
but not dereferenced are not modelled; NULL pointers are not modelled (they are all refused with
`BADARGS` before use).
-/

namespace WolfHsm.ImgMgr

/-- Result of code that reads memory. -/
inductive Out (α : Type) where
  | val (a : α)
  | oob
  | hang
  deriving DecidableEq, Repr

namespace Out
/-- Sequencing: the first failure is the result. -/
def bind {α β : Type} (x : Out α) (f : α → Out β) : Out β :=
  match x with
  | .val a => f a
  | .oob => .oob
  | .hang => .hang
end Out

instance : Monad Out where
  pure := .val
  bind := Out.bind

/-- One byte read, `p[i]`. -/
def rd (b : List UInt8) (i : Nat) : Out UInt8 :=
  match b[i]? with
  | some x => .val x
  | none => .oob

/-- `len` bytes read from `off` by `memcmp`, `memcpy` or a hash update. -/
def rdN (b : List UInt8) (off len : Nat) : Out (List UInt8) :=
  if off + len ≤ b.length then .val ((b.drop off).take len) else .oob

/-- `(uint16_t)(p[0] | p[1] << 8)`. -/
def le16 (lo hi : UInt8) : Nat := lo.toNat + 256 * hi.toNat

/-- The loop of `_wolfBootImgFindHeaderField`, src/wh_server_img_mgr.c:492-525.  `base` is the
address of the header (the loop looks at the parity of addresses) and `p` the offset.  The result is
the offset and length of the value, or `none` where the code returns 0 with a NULL pointer. -/
def findLoop (base : Nat) (hdr : List UInt8) (type : Nat) : Nat → Nat → Out (Option (Nat × Nat))
  | 0, _ => .hang
  | fuel + 1, p =>
    if ¬ p + 4 < hdr.length then .val none
    else do
      let b0 ← rd hdr p
      let b1 ← rd hdr (p + 1)
      if le16 b0 b1 = 0 then .val none
      else if b0 = 0xFF ∨ (base + p) % 2 = 1 then findLoop base hdr type fuel (p + 1)
      else do
        let b2 ← rd hdr (p + 2)
        let b3 ← rd hdr (p + 3)
        if 4 + le16 b2 b3 > hdr.length - 8 then .val none
        else if p + 4 + le16 b2 b3 > hdr.length then .val none
        else if le16 b0 b1 = type then .val (some (p + 4, le16 b2 b3))
        else findLoop base hdr type fuel (p + 4 + le16 b2 b3)

/-- `_wolfBootImgFindHeaderField`, src/wh_server_img_mgr.c:478-526.  The step budget is one more than
the number of bytes of the header. -/
def find (base : Nat) (hdr : List UInt8) (type : Nat) : Out (Option (Nat × Nat)) :=
  if 8 > hdr.length then .val none else findLoop base hdr type (hdr.length + 1) 8

/-- The cryptographic primitives used by the verification methods (wolfCrypt, not part of the
repository). -/
structure Crypto where
  /-- SHA-256 -/
  sha : List UInt8 → List UInt8
  /-- `wc_RsaPublicKeyDecode` accepts the key -/
  rsaKeyOk : List UInt8 → Bool
  /-- `wc_RsaSSL_VerifyInline`/`wc_RsaSSL_Verify`: the contents of the PKCS#1 v1.5 block recovered
  from a signature, if the padding is right -/
  rsaRecover : List UInt8 → List UInt8 → Option (List UInt8)
  /-- `wc_EccPublicKeyDecode` accepts the key -/
  eccKeyOk : List UInt8 → Bool
  /-- `wc_ecc_verify_hash`: key, signature, hash -/
  eccVerify : List UInt8 → List UInt8 → List UInt8 → Bool
  /-- AES-CMAC: key, message -/
  cmac : List UInt8 → List UInt8 → List UInt8

/-- What may fail for reasons outside the data: DMA address checks and the hash engine. -/
structure Env where
  dma : Bool
  preHdr : Rc
  prePayload : Rc
  /-- post-operation of a raw image -/
  post : Rc
  /-- return code of the hash of the image, and of the public key hint -/
  hash1 : Rc
  hash2 : Rc
  deriving Repr

/-- `_wolfBootImgDecodeAsn1Tag`, src/wh_server_img_mgr.c:579-596: the index after the two bytes and
the length, or `none` for -1. -/
def asn1Tag (input : List UInt8) (idx : Nat) (tag : UInt8) : Out (Option (Nat × Nat)) :=
  if idx + 2 > input.length then .val none
  else do
    let t ← rd input idx
    if t ≠ tag then .val none
    else do
      let l ← rd input (idx + 1)
      if l.toNat + (idx + 2) > input.length then .val none
      else .val (some (idx + 2, l.toNat))

/-- `_wolfBootImgDecodeRsaDigestInfo`, src/wh_server_img_mgr.c:605-639: offset and length of the
digest, or `none` for -1. -/
def digestInfo (input : List UInt8) : Out (Option (Nat × Nat)) := do
  match ← asn1Tag input 0 0x30 with
  | none => .val none
  | some (i1, _) =>
    match ← asn1Tag input i1 0x30 with
    | none => .val none
    | some (i2, algo) => asn1Tag input (i2 + algo) 0x04

/-- The part of `_wolfBootImgVerifySigRsa4096` after the RSA operation,
src/wh_server_img_mgr.c:678-694: `block` is what the operation recovered. -/
def checkBlock (block hash : List UInt8) : Out Rc := do
  let r ← if block.length > hash.length then digestInfo block else .val (some (0, block.length))
  match r with
  | none => .val .notverified
  | some (off, len) =>
    if len ≠ hash.length then .val .notverified
    else do
      let d ← rdN block off hash.length
      if d = hash then .val .ok else .val .notverified

/-- `_wolfBootImgVerifySigRsa4096`, src/wh_server_img_mgr.c:644-695. -/
def verifySigRsa4096 (c : Crypto) (sig hash key : List UInt8) : Out Rc :=
  if sig.length ≠ 512 then .val .badargs
  else if c.rsaKeyOk key = false then .val .aborted
  else match c.rsaRecover key sig with
    | none => .val .notverified
    | some block => checkBlock block hash

/-- `_wolfBootImgVerifyPubKeyHint`, src/wh_server_img_mgr.c:705-739. -/
def verifyHint (c : Crypto) (env : Env) (key hint : List UInt8) : Rc :=
  if hint.length ≠ 32 then .notverified
  else if env.hash2 ≠ .ok then .aborted
  else if c.sha key = hint then .ok else .notverified

/-- `_wolfBootImgReadLE32`, src/wh_server_img_mgr.c:744-748. -/
def readLE32 (b : List UInt8) (off : Nat) : Out Nat := do
  let b0 ← rd b off
  let b1 ← rd b (off + 1)
  let b2 ← rd b (off + 2)
  let b3 ← rd b (off + 3)
  .val (b0.toNat + 256 * b1.toNat + 65536 * b2.toNat + 16777216 * b3.toNat)

/-- `WH_IMG_MGR_WOLFBOOT_MAGIC`, wolfhsm/wh_server_img_mgr.h:37. -/
def magic : Nat := 0x464C4F57

/-- `_wolfBootImgPeekImgSize`, src/wh_server_img_mgr.c:754-776. -/
def peekImgSize (base : Nat) (hdr : List UInt8) : Out (Except Rc Nat) :=
  if base % 2 ≠ 0 then .val (.error .badargs)
  else if hdr.length < 8 then .val (.error .badargs)
  else do
    let m ← readLE32 hdr 0
    if m ≠ magic then .val (.error .notverified)
    else do
      let n ← readLE32 hdr 4
      .val (.ok n)

/-- The value of a field found at `off`, as the bytes its users read. -/
def fieldAt (hdr : List UInt8) : Option (Nat × Nat) → Out (List UInt8)
  | none => .val []
  | some (off, len) => rdN hdr off len

/-- `_wolfBootImgValidateAndHash`, src/wh_server_img_mgr.c:786-882: the computed hash and the
signature field.  `(word32)(end_sha - hdr)` (line 552) is the header length modulo 2^32.  The
signature is read later, by the RSA step; here its bytes are returned. -/
def validateAndHash (c : Crypto) (env : Env) (base : Nat) (hdr payload : List UInt8) :
    Out (Except Rc (List UInt8 × List UInt8)) :=
  if base % 2 ≠ 0 then .val (.error .badargs)
  else if hdr.length < 12 then .val (.error .badargs)
  else do
    let m ← readLE32 hdr 0
    if m ≠ magic then .val (.error .notverified)
    else do
      let imgSize ← readLE32 hdr 4
      if imgSize > payload.length then .val (.error .badargs)
      else do
        match ← find base hdr 0x04 with
        | none => .val (.error .notverified)
        | some (tOff, tLen) =>
          if tLen ≠ 2 then .val (.error .notverified)
          else do
            let _ ← rd hdr tOff
            let auth ← rd hdr (tOff + 1)
            if auth ≠ 0x04 then .val (.error .notverified)
            else do
              match ← find base hdr 0x03 with
              | none => .val (.error .notverified)
              | some (sOff, sLen) =>
                if sLen ≠ 32 then .val (.error .notverified)
                else if env.hash1 ≠ .ok then .val (.error .aborted)
                else do
                  let pre ← rdN hdr 0 ((sOff - 4) % 2 ^ 32)
                  let body ← rdN payload 0 imgSize
                  let stored ← rdN hdr sOff 32
                  if c.sha (pre ++ body) ≠ stored then .val (.error .notverified)
                  else do
                    match ← find base hdr 0x20 with
                    | none => .val (.error .notverified)
                    | some (gOff, gLen) =>
                      if gLen = 0 then .val (.error .notverified)
                      else do
                        let sig ← rdN hdr gOff gLen
                        .val (.ok (c.sha (pre ++ body), sig))

/-- The image in memory: the header at `base` and the payload buffer of `img->size` bytes. -/
structure Image where
  base : Nat
  hdr : List UInt8
  payload : List UInt8
  deriving Repr, DecidableEq

/-- The DMA part of the two wolfBoot methods, src/wh_server_img_mgr.c:918-954 and 1035-1071: how
much of the payload buffer is mapped. -/
def mapImage (env : Env) (img : Image) : Out (Except Rc (List UInt8)) :=
  if env.dma = false then .val (.ok img.payload)
  else if env.preHdr ≠ .ok then .val (.error env.preHdr)
  else do
    match ← peekImgSize img.base img.hdr with
    | .error rc => .val (.error rc)
    | .ok n =>
      if n > img.payload.length then .val (.error .badargs)
      else if env.prePayload ≠ .ok then .val (.error env.prePayload)
      else .val (.ok (img.payload.take n))

/-- The steps after the key is known, shared by the two wolfBoot methods:
src/wh_server_img_mgr.c:964-976 and 1104-1116. -/
def checkKey (c : Crypto) (env : Env) (img : Image) (key hash sig : List UInt8) : Out Rc := do
  let hint ← fieldAt img.hdr (← find img.base img.hdr 0x10)
  if verifyHint c env key hint ≠ .ok then .val (verifyHint c env key hint)
  else verifySigRsa4096 c sig hash key

/-- `wh_Server_ImgMgrVerifyMethodWolfBootRsa4096WithSha256`, src/wh_server_img_mgr.c:885-990.  The
release of the DMA mappings has no effect on the result. -/
def wolfBootRsa (c : Crypto) (env : Env) (img : Image) (key : List UInt8) : Out Rc :=
  if key.length = 0 then .val .badargs
  else do
    match ← mapImage env img with
    | .error rc => .val rc
    | .ok payload =>
      match ← validateAndHash c env img.base img.hdr payload with
      | .error rc => .val rc
      | .ok (hash, sig) => checkKey c env img key hash sig

/-- `wh_Server_ImgMgrVerifyMethodWolfBootCertChainRsa4096WithSha256`,
src/wh_server_img_mgr.c:993-1134.  `leaf chain` stands for `wh_Server_CertVerify` of the chain
against the configured root with the leaf key cached, followed by the load of that key. -/
def wolfBootCert (c : Crypto) (env : Env) (img : Image) (leaf : List UInt8 → Except Rc (List UInt8)) :
    Out Rc := do
  match ← mapImage env img with
  | .error rc => .val rc
  | .ok payload =>
    match ← validateAndHash c env img.base img.hdr payload with
    | .error rc => .val rc
    | .ok (hash, sig) =>
      let chain ← fieldAt img.hdr (← find img.base img.hdr 0x23)
      if chain.length = 0 then .val .notverified
      else match leaf chain with
        | .error rc => .val (if rc = .ok then .aborted else rc)
        | .ok key => checkKey c env img key hash sig

/-- The image bytes a raw method hashes: `(word32)img->size` of them. -/
def rawBytes (image : List UInt8) : List UInt8 := image.take (image.length % 2 ^ 32)

/-- The DMA steps and the hash result of a raw method, e.g. src/wh_server_img_mgr.c:255-291. -/
def rawRc (env : Env) : Rc :=
  if env.dma = true ∧ env.prePayload ≠ .ok then env.prePayload
  else if env.hash1 ≠ .ok then env.hash1
  else if env.dma = true then env.post else .ok

/-- `wh_Server_ImgMgrVerifyMethodEccWithSha256`, src/wh_server_img_mgr.c:226-308. -/
def rawEcc (c : Crypto) (env : Env) (image key sig : List UInt8) : Rc :=
  if key.length = 0 ∨ sig.length = 0 then .badargs
  else if c.eccKeyOk key = false then .aborted
  else if rawRc env ≠ .ok then rawRc env
  else if c.eccVerify key sig (c.sha (rawBytes image)) then .ok else .notverified

/-- `wh_Server_ImgMgrVerifyMethodAesCmac`, src/wh_server_img_mgr.c:312-373. -/
def rawCmac (c : Crypto) (env : Env) (image key sig : List UInt8) : Rc :=
  if key.length ≠ 16 then .badargs
  else if sig.length ≠ 16 then .badargs
  else if env.dma = true ∧ env.prePayload ≠ .ok then env.prePayload
  else if env.hash1 ≠ .ok then env.hash1
  else if c.cmac key (rawBytes image) ≠ sig then .notverified
  else if env.dma = true then env.post else .ok

/-- `wh_Server_ImgMgrVerifyMethodRsaSslWithSha256`, src/wh_server_img_mgr.c:377-464.  The recovered
block must fit the 256-byte buffer. -/
def rawRsa (c : Crypto) (env : Env) (image key sig : List UInt8) : Rc :=
  if key.length = 0 ∨ sig.length = 0 then .badargs
  else if c.rsaKeyOk key = false then .aborted
  else if rawRc env ≠ .ok then rawRc env
  else match c.rsaRecover key sig with
    | none => .notverified
    | some block =>
      if block.length > 256 then .notverified
      else if block = c.sha (rawBytes image) then .ok else .notverified

end WolfHsm.ImgMgr

import Verif.Model.CryptoMsg
import Verif.Model.StatefulSig

/-!
# The DMA crypto request group at byte level: `wh_Server_HandleCryptoDmaRequest` of
`src/wh_server_crypto.c`, with `src/wh_message_crypto.c` and `wolfhsm/wh_message_crypto.h`

The requests name buffers in client memory by address and size.  `Model/Crypto.lean` and
`Model/StatefulSig.lean` have the handlers on decoded requests.  Here: size checks, the fields of
each request structure, which client memory is read, the fields of each response structure, and
where in client memory the result goes.

Client memory, the results of the DMA checks and what the server's stack holds are parameters
(`Env`).  Sizes of buffers are 64 bits; wolfCrypt gets their lower 32 bits.

Simplifications: a CMAC input whose size is a multiple of 2^32 counts as absent; the cleanup calls
(`…_POST` after reading, whose result is dropped) are not modelled; what a failed request has written
to client memory is not modelled; when a request fails for several reasons at once, which one is
reported may differ.
-/

namespace WolfHsm.CryptoDma

open Wire
open Server (Req)
open Crypto (Alg AesMode)
open Keystore (Srv Sys)
open CryptoMsg (inSize u32 u16 len half opt str sized fits gcmExtra header reply num hash64 stateOut
  exec hashFits Hashes)

/-- A buffer in client memory, `whMessageCrypto_DmaBuffer`, wolfhsm/wh_message_crypto.h:1286-1289. -/
structure Buf where
  addr : UInt64
  sz : UInt64
deriving DecidableEq

/-- The handlers behind the switch of `wh_Server_HandleCryptoDmaRequest`. -/
inductive Op where
  | aes (m : AesMode)
  | keyGenMlDsa | keyGenMlKem
  | signMlDsa | verifyMlDsa
  | signEd | verifyEd
  | encaps | decaps
  | cmac
  | rng
  /-- `type`: the `WC_HASH_TYPE_…` reported -/
  | sha256 (type : UInt32)
  | sha384 (type : UInt32)
  | sha512
  | sha3 (block : Nat)
  | sigGen (a : StatefulSig.Alg)
  | sigSign (a : StatefulSig.Alg)
  | sigVerify (a : StatefulSig.Alg)
  | sigLeft (a : StatefulSig.Alg)
deriving DecidableEq

/-- Build options and parameters beside those of `CryptoMsg.Cfg`. -/
structure Cfg where
  base : CryptoMsg.Cfg
  /-- The nested switch, src/wh_server_crypto.c:9228-9410: `action` of the message, `algoType` and
  `algoSubType` of the header.  The error is `NOT_COMPILED_IN` or `WH_ERROR_NOHANDLER`. -/
  select : (action : UInt16) → (type sub : UInt32) → Except Rc Op
  /-- Lengths of public key and ciphertext of an ML-KEM level -/
  kem : UInt32 → UInt64 × UInt64
  sigLib : StatefulSig.Alg → StatefulSig.Lib
  /-- `wc_LmsKey_Verify`, `wc_XmssKey_Verify` with the key in a slot: 1 valid, 0 not -/
  sigVerify : StatefulSig.Alg → (slot sig msg : List UInt8) → Except Rc Nat
  /-- `wc_LmsKey_SigsLeft`, `wc_XmssKey_SigsLeft` -/
  sigsLeft : StatefulSig.Alg → (slot : List UInt8) → UInt32

/-- The byte order of the server. -/
def Cfg.le (c : Cfg) : Bool := c.base.le

/-- LMS and XMSS. -/
def Cfg.sig (c : Cfg) : StatefulSig.Cfg := ⟨c.base.crypto.ks, c.base.le, c.sigLib⟩

/-- What a request finds around it: random bytes, the results of taking the NVM lock, client memory,
the results of the DMA checks (`wh_Server_DmaProcessClientAddress`), what an uninitialised response
holds, and the results of initialising and making stateful keys. -/
structure Env where
  coins : List UInt8
  random : Nat → Except Rc (List UInt8)
  locks : Nat → Rc
  mem : UInt64 → UInt8
  readPre : Buf → Rc
  writePre : Buf → Rc
  writePost : Buf → Rc
  stack : Buf
  init : Rc
  made : StatefulSig.Alg → (param : List UInt8) → Except Rc (List UInt8 × List UInt8)

/-- Length handed to wolfCrypt: the lower 32 bits of the size. -/
def Buf.len (b : Buf) : Nat := b.sz.toUInt32.toNat

/-- The bytes of a buffer in client memory. -/
def Env.read (e : Env) (b : Buf) : List UInt8 :=
  (List.range b.len).map fun i => e.mem (b.addr + UInt64.ofNat i)

/-- A check made only for buffers that are not empty. -/
def some? (f : Buf → Rc) (b : Buf) : Rc := if b.sz = 0 then .ok else f b

/-- Checks one after the other. -/
def first : List Rc → Rc
  | [] => .ok
  | rc :: l => if rc = .ok then first l else rc

/-- A buffer named in the request, `wh_MessageCrypto_TranslateDmaBuffer`,
src/wh_message_crypto.c:1016-1028. -/
def buf (le : Bool) (r : Req) (off : Nat) : Buf :=
  ⟨rd64 le r.magic r.buf (12 + off), rd64 le r.magic r.buf (12 + off + 8)⟩

/-- A decoded request. -/
inductive Todo where
  | keys (q : Crypto.Req)
  | sign (q : StatefulSig.SignReq)
  | gen (q : StatefulSig.GenReq)
  | verify (a : StatefulSig.Alg) (id : UInt16) (evict : Bool) (sig msg : List UInt8) (pre : Rc)
  | left (a : StatefulSig.Alg) (id : UInt16)
  | rng (out : Buf)
  | sha2 (type : UInt32) (last : Bool) (hi lo : UInt32) (digest inline : List UInt8) (input : Buf)
  | sha3 (block : Nat) (last : Bool) (state : List UInt64) (inline : List UInt8) (input : Buf)

/-- AES requests: `_HandleAesCtrDma` src/wh_server_crypto.c:3311-3365, `_HandleAesEcbDma` 3624-3672,
`_HandleAesCbcDma` 3915-3965, `_HandleAesGcmDma` 4251-4310.  The lengths must add up to the size of the
request exactly; input and output are of the same size. -/
def decodeAes (le : Bool) (e : Env) (r : Req) : AesMode → Except Rc Todo
  | .ecb => sized r 48 <|
    let k := len le r 10
    let (i, o) := (buf le r 0, buf le r 16)
    fits (48 + k = inSize r) <| fits (i.sz = o.sz) <| .ok <| .keys <|
      .aesDma .ecb (u32 le r 8 != 0) (half le r 9) (str r 48 k) (e.read i) [] 0
        (first [some? e.readPre i, some? e.writePre o]) (some? e.writePost o)
  | .cbc => sized r 48 <|
    let k := len le r 10
    let (i, o) := (buf le r 0, buf le r 16)
    fits (48 + 16 + k = inSize r) <| fits (i.sz = o.sz) <| .ok <| .keys <|
      .aesDma .cbc (u32 le r 8 != 0) (half le r 9) (str r (48 + 16) k) (e.read i) (str r 48 16) 0
        (first [some? e.readPre i, some? e.writePre o]) (some? e.writePost o)
  | .ctr => sized r 48 <|
    let k := len le r 11
    let (i, o) := (buf le r 0, buf le r 16)
    fits (48 + 32 + k = inSize r) <| fits (i.sz = o.sz) <| .ok <| .keys <|
      .aesDma .ctr (u32 le r 8 != 0) (half le r 10) (str r (48 + 32) k) (e.read i) (str r 48 32)
        (len le r 9) (first [some? e.readPre i, some? e.writePre o]) (some? e.writePost o)
  | .gcm => sized r 72 <|
    let (k, iv) := (len le r 14, len le r 15)
    let enc := u32 le r 12 != 0
    let tag := if enc then 0 else len le r 16
    let (i, o) := (buf le r 0, buf le r 16)
    let a := buf le r 32
    fits (72 + iv + tag + k = inSize r) <| fits (i.sz = o.sz) <| .ok <| .keys <|
      .aesDma .gcm enc (half le r 13) (str r (72 + iv + tag) k) (e.read i)
        (gcmExtra (u32 le r 15) a.sz.toUInt32 (u32 le r 16)
          (str r 72 iv ++ e.read a ++ str r (72 + iv) tag))
        0 (first [some? e.readPre i, some? e.readPre a, some? e.writePre o]) (some? e.writePost o)

/-- Key generation: `_HandleMlDsaKeyGenDma` src/wh_server_crypto.c:6882-7043, `_HandleMlKemKeyGenDma`
7385-7520.  A public key goes to the client's buffer after a check with the size of the buffer
(ML-DSA) or of the key (ML-KEM).  A stored key has a label of at most 24 bytes
(src/wh_server_crypto.c:951-954), the length being truncated to 16 bits. -/
def decodeKeyGen (kem : UInt32 → UInt64 × UInt64) (le : Bool) (e : Env) (r : Req) (a : Alg) :
    Except Rc Todo :=
  sized r 64 <|
    let b := buf le r 0
    let flags := half le r 5
    let n := (half le r 8).toNat
    let eph := Crypto.isEphemeral flags
    fits (eph = true ∨ n ≤ 24) <| .ok <| .keys <|
      .keyGenDma a (half le r 6) flags (NvmMsg.label (str r 36 (min n 24))) [len le r 4] e.coins b.sz
        (e.writePre (if a = .mlkem ∧ eph = false then ⟨b.addr, (kem (u32 le r 4)).1⟩ else b))
        (e.writePost b)

/-- The parameter descriptor of a stateful key: three numbers (LMS), a string with its NUL (XMSS),
src/wh_server_crypto.c:7942-7943, 8427-8435.  LMS numbers above 255 are no parameter set. -/
def sigParam (le : Bool) (r : Req) : StatefulSig.Alg → List UInt8
  | .lms =>
    if len le r 8 < 256 ∧ len le r 9 < 256 ∧ len le r 10 < 256 then
      [(u32 le r 8).toUInt8, (u32 le r 9).toUInt8, (u32 le r 10).toUInt8] else []
  | .xmss => (str r 68 31).takeWhile (· != 0) ++ [0]

/-- The length of the public key of a parameter set, 0 if there is no such set. -/
def pubLen (cfg : Cfg) (a : StatefulSig.Alg) (p : List UInt8) : Nat :=
  match (cfg.sigLib a).params p with
  | .ok q => q.1
  | .error _ => 0

/-- Size checks and translation at the start of each handler.  `_HandleMlDsaSignDma`
src/wh_server_crypto.c:7045-7100, `_HandleMlDsaVerifyDma` 7182-7235, `_HandleEd25519SignDma` 2969-3013,
`_HandleEd25519VerifyDma` 3071-3113, `_HandleMlKemEncapsDma` 7522-7560, `_HandleMlKemDecapsDma`
7655-7690, `_HandleCmacDma` 8944-9000, `_HandleRngDma` 9137-9160, `_HandleSha256Dma` 6329-6374,
`_HandleSha224Dma` 6436-6476, `_HandleSha384Dma` 6541-6580, `_HandleSha512Dma` 6645-6690,
`_HandleSha3Dma` 6783-6825, stateful signatures 7896-8350, 8388-8860. -/
def decode (cfg : Cfg) (e : Env) (r : Req) : Op → Except Rc Todo
  | .aes m => decodeAes cfg.le e r m
  | .keyGenMlDsa => decodeKeyGen cfg.kem cfg.le e r .mldsa
  | .keyGenMlKem => decodeKeyGen cfg.kem cfg.le e r .mlkem
  | .signMlDsa => sized r 56 <|
    let k := len cfg.le r 11
    let (m, s) := (buf cfg.le r 0, buf cfg.le r 16)
    fits (k ≤ 255) <| fits (56 + k ≤ inSize r) <| .ok <| .keys <|
      .signDma .mldsa (half cfg.le r 10) (opt cfg.le r 8 1) (len cfg.le r 12) (e.read m) (str r 56 k)
        e.coins s.len (first [e.readPre m, e.writePre s])
  | .verifyMlDsa => sized r 56 <|
    let k := len cfg.le r 11
    let (s, m) := (buf cfg.le r 0, buf cfg.le r 16)
    fits (k ≤ 255) <| fits (56 + k ≤ inSize r) <| .ok <| .keys <|
      .verifyDma .mldsa (half cfg.le r 10) (opt cfg.le r 8 1) (len cfg.le r 12) (e.read s) (e.read m)
        (str r 56 k) (first [e.readPre s, e.readPre m])
  | .signEd => sized r 64 <|
    let (type, k) := (u32 cfg.le r 14, len cfg.le r 15)
    let (m, s) := (buf cfg.le r 0, buf cfg.le r 16)
    let c := cfg.base.codes
    fits (k ≤ inSize r - 64) <| fits (k ≤ 255) <|
      fits (type = c.edPlain ∨ type = c.edCtx ∨ type = c.edPh) <| .ok <| .keys <|
        .signDma .ed25519 (half cfg.le r 13) (opt cfg.le r 12 1) type.toNat (e.read m) (str r 64 k)
          e.coins s.len (first [e.readPre m, e.writePre s])
  | .verifyEd => sized r 64 <|
    let (type, k) := (u32 cfg.le r 14, len cfg.le r 15)
    let (s, m) := (buf cfg.le r 0, buf cfg.le r 16)
    let c := cfg.base.codes
    fits (k ≤ inSize r - 64) <| fits (k ≤ 255) <|
      fits (type = c.edPlain ∨ type = c.edCtx ∨ type = c.edPh) <| .ok <| .keys <|
        .verifyDma .ed25519 (half cfg.le r 13) (opt cfg.le r 12 1) type.toNat (e.read s) (e.read m)
          (str r 64 k) (first [e.readPre s, e.readPre m])
  | .encaps => sized r 32 <|
    let b := buf cfg.le r 0
    .ok <| .keys <| .encaps [len cfg.le r 5] (half cfg.le r 6) (opt cfg.le r 4 1) e.coins
      (some (b.sz.toNat, e.writePre ⟨b.addr, (cfg.kem (u32 cfg.le r 5)).2⟩))
  | .decaps => sized r 32 <|
    let b := buf cfg.le r 0
    .ok <| .keys <| .decaps [len cfg.le r 5] (half cfg.le r 6) (opt cfg.le r 4 1) (e.read b)
      (some (e.readPre b))
  | .cmac => sized r 72 <|
    let (k, n) := (len cfg.le r 15, len cfg.le r 16)
    let b := buf cfg.le r 40
    fits (n ≤ inSize r - 72) <| fits (k ≤ inSize r - 72 - n) <| fits (k ≤ 32) <| .ok <| .keys <|
      .cmacDma (u16 cfg.le r 68) (str r (72 + n) k)
        (str r 0 32 ++ Utils.bytes32 true (u32 cfg.le r 8) ++ Utils.bytes32 true (u32 cfg.le r 9))
        (str r 72 n) (e.read b) (len cfg.le r 14) (e.readPre b)
  | .rng => sized r 16 <| .ok <| .rng (buf cfg.le r 0)
  | .sha256 type => sized r 64 <|
    let (last, n) := (u32 cfg.le r 14 != 0, len cfg.le r 15)
    let b := buf cfg.le r 40
    fits (hashFits n (inSize r - 64) 64 last) <|
      fits (if last then b.sz = 0 else b.sz.toNat % 64 = 0) <| .ok <|
        .sha2 type last (u32 cfg.le r 0) (u32 cfg.le r 1) (str r 8 32) (str r 64 n) b
  | .sha384 type => sized r 104 <|
    let (last, n) := (u32 cfg.le r 24 != 0, len cfg.le r 25)
    let b := buf cfg.le r 80
    fits (hashFits n (inSize r - 104) 128 last) <|
      fits (if last then b.sz = 0 else b.sz.toNat % 128 = 0) <| .ok <|
        .sha2 type last (u32 cfg.le r 0) (u32 cfg.le r 1) (str r 8 64) (str r 104 n) b
  | .sha512 => sized r 104 <|
    let (last, n) := (u32 cfg.le r 24 != 0, len cfg.le r 25)
    let b := buf cfg.le r 80
    fits (hashFits n (inSize r - 104) 128 last) <|
      fits (if last then b.sz = 0 else b.sz.toNat % 128 = 0) <| .ok <|
        .sha2 (cfg.base.codes.sha512Type (u32 cfg.le r 18)) last (u32 cfg.le r 0) (u32 cfg.le r 1)
          (str r 8 64) (str r 104 n) b
  | .sha3 block => sized r 224 <|
    let (last, n) := (u32 cfg.le r 4 != 0, len cfg.le r 5)
    let b := buf cfg.le r 0
    fits (hashFits n (inSize r - 224) block last) <|
      fits (if last then b.sz = 0 else b.sz.toNat % block = 0) <| .ok <|
        .sha3 block last ((List.range 25).map fun i => rd64 cfg.le r.magic r.buf (36 + 8 * i))
          (str r 224 n) b
  | .sigGen a => sized r 104 <|
    let b := buf cfg.le r 0
    let p := sigParam cfg.le r a
    let n := len cfg.le r 7
    .ok <| .gen ⟨a, half cfg.le r 5, half cfg.le r 4, NvmMsg.label (str r 44 (min n 24)), n, p,
      b.sz.toNat, e.locks 0, e.init, e.writePre ⟨b.addr, UInt64.ofNat (pubLen cfg a p)⟩, e.made a p⟩
  | .sigSign a => sized r 40 <|
    let (m, s) := (buf cfg.le r 0, buf cfg.le r 16)
    .ok <| .sign ⟨a, half cfg.le r 9, e.read m, s.len, opt cfg.le r 8 1, e.locks 0, e.init,
      e.readPre m, e.writePre s⟩
  | .sigVerify a => sized r 40 <|
    let (s, m) := (buf cfg.le r 0, buf cfg.le r 16)
    .ok <| .verify a (half cfg.le r 9) (opt cfg.le r 8 1) (e.read s) (e.read m)
      (first [e.readPre s, e.readPre m])
  | .sigLeft a => sized r 4 <| .ok <| .left a (half cfg.le r 0)

/-- A `whMessageCrypto_DmaAddrStatus` in a response, `wh_MessageCrypto_TranslateDmaAddrStatus`,
src/wh_message_crypto.c:1030-1040. -/
def status (le : Bool) (r : Req) (b : Buf) : List UInt8 := w64 le r.magic b.addr ++ w64 le r.magic b.sz

/-- The status of a request whose handler clears its response: no bad address. -/
def clear (le : Bool) (r : Req) : List UInt8 := status le r ⟨0, 0⟩

/-- The fields of the response structure of a handler that uses the key store,
`wolfhsm/wh_message_crypto.h`.  The ML-DSA handlers do not clear their response,
src/wh_server_crypto.c:7066, 7204. -/
def fieldsOf (cfg : Cfg) (e : Env) (r : Req) (op : Op) (o : Crypto.Out) : List UInt8 :=
  match op with
  | .aes .ctr => clear cfg.le r ++ num cfg.le r (buf cfg.le r 0).len ++
      num cfg.le r (cfg.base.lib.aesLeft (len cfg.le r 9) (buf cfg.le r 0).len)
  | .aes .gcm => clear cfg.le r ++ num cfg.le r (buf cfg.le r 0).len ++
      num cfg.le r (if u32 cfg.le r 12 != 0 then len cfg.le r 16 else 0)
  | .aes _ => clear cfg.le r ++ num cfg.le r (buf cfg.le r 0).len
  | .keyGenMlDsa | .keyGenMlKem =>
    clear cfg.le r ++ w32 cfg.le r.magic o.keyId.toUInt32 ++ num cfg.le r o.dma.length
  | .signMlDsa => status cfg.le r e.stack ++ num cfg.le r o.dma.length
  | .verifyMlDsa => status cfg.le r e.stack ++ num cfg.le r o.res
  | .signEd => clear cfg.le r ++ num cfg.le r o.dma.length ++ num cfg.le r 0
  | .verifyEd => clear cfg.le r ++ num cfg.le r o.res ++ num cfg.le r 0
  | .encaps => clear cfg.le r ++ num cfg.le r o.dma.length ++ num cfg.le r o.body.length
  | .decaps => clear cfg.le r ++ num cfg.le r o.body.length
  | .cmac => stateOut cfg.le r o.state ++ clear cfg.le r ++ num cfg.le r o.body.length ++
      w16 cfg.le r.magic o.keyId
  | _ => []

/-- The buffer a handler writes its result to: second of the request for AES and signatures, first
for keys and ciphertexts. -/
def target (le : Bool) (r : Req) : Op → UInt64
  | .aes _ | .signMlDsa | .signEd | .sigSign _ => (buf le r 16).addr
  | _ => (buf le r 0).addr

/-- A write to client memory, if there is anything to write. -/
def sendTo (a : UInt64) (b : List UInt8) : Option (UInt64 × List UInt8) :=
  if b = [] then none else some (a, b)

/-- Feed whole blocks to a SHA-2 state. -/
def feed (H : Hashes) (type : UInt32) (st : UInt32 × UInt32 × List UInt8) (b : List UInt8) :
    Except Rc (UInt32 × UInt32 × List UInt8) :=
  if b = [] then .ok st else H.update type st.1 st.2.1 st.2.2 b

/-- Feed whole blocks to a SHA-3 state. -/
def feed3 (H : Hashes) (block : Nat) (st : List UInt64) (b : List UInt8) : Except Rc (List UInt64) :=
  if b = [] then .ok st else H.update3 block st b

/-- The SHA-2 handlers, src/wh_server_crypto.c:6329-6781, after their checks: inline data, then the
client's buffer, then either the digest or the state. -/
def sha2 (cfg : Cfg) (e : Env) (r : Req) (type : UInt32) (last : Bool) (hi lo : UInt32)
    (digest inline : List UInt8) (b : Buf) : List UInt8 :=
  let out (hi lo : UInt32) (h : List UInt8) :=
    reply cfg.le r (clear cfg.le r ++ hash64 h ++ w32 cfg.le r.magic hi ++ w32 cfg.le r.magic lo ++
      w32 cfg.le r.magic type) 96 []
  if last then
    match cfg.base.hashes.final type hi lo digest inline with
    | .error rc => header cfg.le r rc
    | .ok h => out 0 0 h
  else
    match feed cfg.base.hashes type (hi, lo, digest) inline with
    | .error rc => header cfg.le r rc
    | .ok st =>
      if some? e.readPre b = .ok then
        match feed cfg.base.hashes type st (e.read b) with
        | .error rc => header cfg.le r rc
        | .ok (hi', lo', d) => out hi' lo' d
      else header cfg.le r (e.readPre b)

/-- `_HandleSha3Dma`, src/wh_server_crypto.c:6783-6874, after its checks. -/
def sha3 (cfg : Cfg) (e : Env) (r : Req) (block : Nat) (last : Bool) (state : List UInt64)
    (inline : List UInt8) (b : Buf) : List UInt8 :=
  let out (st : List UInt64) (h : List UInt8) :=
    reply cfg.le r (((st ++ List.replicate 25 0).take 25).flatMap (w64 cfg.le r.magic) ++
      clear cfg.le r ++ hash64 h) 280 []
  if last then
    match cfg.base.hashes.final3 block state inline with
    | .error rc => header cfg.le r rc
    | .ok h => out [] h
  else
    match feed3 cfg.base.hashes block state inline with
    | .error rc => header cfg.le r rc
    | .ok st =>
      if some? e.readPre b = .ok then
        match feed3 cfg.base.hashes block st (e.read b) with
        | .error rc => header cfg.le r rc
        | .ok st' => out st' []
      else header cfg.le r (e.readPre b)

/-- `_HandleRngDma`, src/wh_server_crypto.c:9137-9197: the response and what goes to client memory.
The handler does not clear its response. -/
def rng (cfg : Cfg) (e : Env) (r : Req) (b : Buf) : List UInt8 × Option (UInt64 × List UInt8) :=
  if e.writePre b = .ok then
    match e.random b.len with
    | .error rc => (header cfg.le r rc, none)
    | .ok d =>
      if e.writePost b = .ok then (reply cfg.le r (status cfg.le r e.stack) 16 [], sendTo b.addr d)
      else (header cfg.le r (e.writePost b), none)
  else (header cfg.le r (e.writePre b), none)

/-- What a stateful key in the key store is worth for verification: `wh_Server_LmsKeyCacheExport`,
src/wh_server_crypto.c:1269-1389. -/
def slot (cfg : Cfg) (v : Srv) (s : Sys) (lock : Rc) (a : StatefulSig.Alg) (rid : UInt16) :
    Except Rc (List UInt8) :=
  let id := KeyId.fromClient cfg.base.crypto.ks.ids KeyId.typeCrypto v.client rid
  if KeyId.isErased id then .error .badargs
  else if lock ≠ .ok then .error lock
  else
    match Keystore.freshen cfg.base.crypto.ks v.ctx s id with
    | (.ok, some k, _) => (StatefulSig.deserialize cfg.sig a k.data).map fun _ => k.data
    | (rc, _, _) => .error (errRc rc)

/-- `_HandleLmsVerifyDma` src/wh_server_crypto.c:8190-8290, `_HandleXmssVerifyDma` 8681-8779. -/
def verify (cfg : Cfg) (v : Srv) (e : Env) (r : Req) (s : Sys) (a : StatefulSig.Alg) (id : UInt16)
    (evict : Bool) (sig msg : List UInt8) (pre : Rc) : List UInt8 × Sys :=
  let lock := first [e.init, e.locks 0]
  (match slot cfg v s lock a id with
    | .error rc => header cfg.le r rc
    | .ok k =>
      if pre = .ok then
        match cfg.sigVerify a k sig msg with
        | .error rc => header cfg.le r rc
        | .ok n => reply cfg.le r (clear cfg.le r ++ num cfg.le r n) 24 []
      else header cfg.le r pre,
   StatefulSig.look cfg.sig v s lock (e.locks 1) id evict)

/-- `_HandleLmsSigsLeftDma` src/wh_server_crypto.c:8292-8350 (reads the stored state directly),
`_HandleXmssSigsLeftDma` 8781-8860 (reloads the key). -/
def sigsLeft (cfg : Cfg) (v : Srv) (e : Env) (r : Req) (s : Sys) (a : StatefulSig.Alg) (id : UInt16) :
    List UInt8 × Sys :=
  let lock := if a = .lms then first [e.init, e.locks 0] else e.locks 0
  (match slot cfg v s lock a id with
    | .error rc => header cfg.le r rc
    | .ok k =>
      match (if a = .lms then .ok () else if e.init ≠ .ok then .error e.init else
          (StatefulSig.load cfg.sig a k).map fun _ => () : Except Rc Unit) with
      | .error rc => header cfg.le r rc
      | .ok _ => reply cfg.le r (w32 cfg.le r.magic (cfg.sigsLeft a k)) 4 [],
   StatefulSig.look cfg.sig v s lock .ok id false)

/-- Response and client memory after a request with the outcome `a`. -/
def encode (cfg : Cfg) (e : Env) (r : Req) (op : Op) :
    Crypto.Resp → List UInt8 × Option (UInt64 × List UInt8)
  | .error rc => (header cfg.le r rc, none)
  | .ok o => (reply cfg.le r (fieldsOf cfg e r op o) o.fixed o.body, sendTo (target cfg.le r op) o.dma)

/-- `_HandleLmsSignDma`, `_HandleXmssSignDma`: response and client memory.  When power is lost there is
no response, but a signature may be in the client's buffer. -/
def encodeSign (cfg : Cfg) (r : Req) (a : StatefulSig.Alg) (powered : Bool) (o : StatefulSig.SignOut) :
    List UInt8 × Option (UInt64 × List UInt8) :=
  if powered then
    match o.rc, o.sig with
    | .ok, some b => (reply cfg.le r (clear cfg.le r ++ num cfg.le r b.length) 24 [],
        sendTo (target cfg.le r (.sigSign a)) b)
    | rc, _ => (header cfg.le r rc, none)
  else ([], (o.early.bind (sendTo (target cfg.le r (.sigSign a)))))

/-- `_HandleLmsKeyGenDma`, `_HandleXmssKeyGenDma`: response and client memory. -/
def encodeGen (cfg : Cfg) (r : Req) (q : StatefulSig.GenReq) (powered : Bool) (o : Rc × UInt16) :
    List UInt8 × Option (UInt64 × List UInt8) :=
  if powered then
    match o.1, q.made with
    | .ok, .ok (pub, _) =>
      (reply cfg.le r (clear cfg.le r ++ w32 cfg.le r.magic (KeyId.toClient cfg.base.crypto.ks.ids o.2).toUInt32 ++
        num cfg.le r pub.length) 24 [], sendTo (buf cfg.le r 0).addr pub)
    | rc, _ => (header cfg.le r rc, none)
  else ([], none)

/-- `wh_Server_HandleCryptoDmaRequest`, src/wh_server_crypto.c:9200-9437: the response, what was
written to client memory, and the key store after it. -/
def handle (cfg : Cfg) (v : Srv) (e : Env) (r : Req) (s : Sys) :
    (List UInt8 × Option (UInt64 × List UInt8)) × Sys :=
  if r.size < 12 then ((r.data, none), s)
  else
    match cfg.select r.action (rd32 cfg.le r.magic r.buf 0) (rd32 cfg.le r.magic r.buf 4) with
    | .error rc => ((header cfg.le r rc, none), s)
    | .ok op =>
      match decode cfg e r op with
      | .error rc => ((header cfg.le r rc, none), s)
      | .ok (.keys q) =>
        match exec cfg.base.crypto.ks v e.locks 0
            (Crypto.handler cfg.base.crypto cfg.base.lib v q) s with
        | (some a, s') => (encode cfg e r op a, s')
        | (none, s') => (([], none), s')
      | .ok (.sign q) =>
        let p := StatefulSig.sign cfg.sig v s q
        (encodeSign cfg r q.alg p.2.nvm.powered p.1, p.2)
      | .ok (.gen q) =>
        let p := StatefulSig.keyGen cfg.sig v s q
        (encodeGen cfg r q p.2.nvm.powered p.1, p.2)
      | .ok (.verify a id evict sig msg pre) =>
        let p := verify cfg v e r s a id evict sig msg pre
        ((p.1, none), p.2)
      | .ok (.left a id) =>
        let p := sigsLeft cfg v e r s a id
        ((p.1, none), p.2)
      | .ok (.rng b) => (rng cfg e r b, s)
      | .ok (.sha2 type last hi lo d i b) => ((sha2 cfg e r type last hi lo d i b, none), s)
      | .ok (.sha3 block last st i b) => ((sha3 cfg e r block last st i b, none), s)

end WolfHsm.CryptoDma

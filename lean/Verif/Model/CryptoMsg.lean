import Verif.Model.Server
import Verif.Model.NvmMsg
import Verif.Model.Crypto

/-!
# The crypto request group at byte level: `wh_Server_HandleCryptoRequest` of
`src/wh_server_crypto.c`, with `src/wh_message_crypto.c` and `wolfhsm/wh_message_crypto.h`

`Model/Crypto.lean` has the handlers on decoded requests.  Here: the group's 12-byte header, the
size checks at the start of each handler, the fields of each request structure and of each response
structure, and the requests without stored keys (random numbers, hashes).

Which algorithm number selects which handler is a parameter: the numbers are wolfCrypt's, the build
decides which are there.  Request and response share one buffer, so padding of a response keeps
what the request had there.  The DMA group is in `Model/CryptoDma.lean`.
-/

namespace WolfHsm.CryptoMsg

open Wire
open Server (Req)
open Crypto (Alg AesMode RsaOp)
open Keystore (Srv Sys)

/-- The handlers behind the switch of `wh_Server_HandleCryptoRequest`. -/
inductive Op where
  | aes (m : AesMode)
  | keyGen (a : Alg)
  | rsa
  | rsaGetSize
  | secret25519 | secretEcc
  | signEcc | signEd | signMlDsa
  | verifyEcc | verifyEd | verifyMlDsa
  | makePub | checkPub
  | encaps | decaps
  | rng
  | hkdf | cmacKdf
  | cmac
  /-- `block`: 64 or 128; `type`: the `WC_HASH_TYPE_…` reported -/
  | sha256 (type : UInt32)
  | sha384 (type : UInt32)
  | sha512
  /-- by block size: 144, 136, 104, 72 -/
  | sha3 (block : Nat)
deriving DecidableEq

/-- Numbers of wolfCrypt and the build's choice of algorithms. -/
structure Codes where
  /-- The nested switch, src/wh_server_crypto.c:6027-6296: `action` of the message, `algoType` and
  `algoSubType` of the header.  The error is `NOT_COMPILED_IN` or `WH_ERROR_NOHANDLER`. -/
  select : (action : UInt16) → (type sub : UInt32) → Except Rc Op
  /-- `RSA_PUBLIC_ENCRYPT` … `RSA_PRIVATE_DECRYPT` -/
  rsaOp : UInt32 → Option RsaOp
  /-- `BAD_FUNC_ARG` -/
  badFuncArg : Rc
  /-- `Ed25519`, `Ed25519ctx`, `Ed25519ph` as bytes -/
  edPlain : UInt32
  edCtx : UInt32
  edPh : UInt32
  /-- The variant of SHA-512 run for a requested `hashType`, src/wh_server_crypto.c:4946-4963 -/
  sha512Type : UInt32 → UInt32

/-- Hash functions of the crypto library.  `type`: `WC_HASH_TYPE_…`; `hi`, `lo`, `digest`: state
carried by the client. -/
structure Hashes where
  /-- `wc_Sha…Update` of whole blocks -/
  update : (type : UInt32) → (hi lo : UInt32) → (digest input : List UInt8) →
    Except Rc (UInt32 × UInt32 × List UInt8)
  /-- `wc_Sha…Update`, `wc_Sha…Final` -/
  final : (type : UInt32) → (hi lo : UInt32) → (digest input : List UInt8) → Except Rc (List UInt8)
  update3 : (block : Nat) → (state : List UInt64) → (input : List UInt8) → Except Rc (List UInt64)
  final3 : (block : Nat) → (state : List UInt64) → (input : List UInt8) → Except Rc (List UInt8)

/-- Build options and parameters. -/
structure Cfg where
  crypto : Crypto.Cfg
  lib : Crypto.Lib
  hashes : Hashes
  codes : Codes
  /-- byte order of the server -/
  le : Bool

/-- What a request finds around it: random bytes the library draws, the generator's block for a
random number request, the results of taking the NVM lock. -/
structure Env where
  coins : List UInt8
  random : Nat → Except Rc (List UInt8)
  locks : Nat → Rc

/-- A decoded request. -/
inductive Todo where
  | keys (q : Crypto.Req)
  | rng (sz : Nat)
  | sha2 (type : UInt32) (last : Bool) (hi lo : UInt32) (digest input : List UInt8)
  | sha3 (block : Nat) (last : Bool) (state : List UInt64) (input : List UInt8)

/-- `cryptoInSize`: what follows the header, src/wh_server_crypto.c:5991-5992. -/
def inSize (r : Req) : Nat := r.size - 12

/-- The `i`-th 32-bit word of the request structure. -/
def u32 (le : Bool) (r : Req) (i : Nat) : UInt32 := rd32 le r.magic r.buf (12 + 4 * i)

/-- A 16-bit field of the request structure. -/
def u16 (le : Bool) (r : Req) (off : Nat) : UInt16 := rd16 le r.magic r.buf (12 + off)

/-- The `i`-th word as a length. -/
def len (le : Bool) (r : Req) (i : Nat) : Nat := (u32 le r i).toNat

/-- A key id or flags in a 32-bit field: truncated to `whKeyId`, `whNvmFlags`. -/
def half (le : Bool) (r : Req) (i : Nat) : UInt16 := (u32 le r i).toUInt16

/-- Bit `b` of the options word `i`. -/
def opt (le : Bool) (r : Req) (i : Nat) (b : UInt32) : Bool := u32 le r i &&& b != 0

/-- `n` bytes at an offset from the start of the request structure. -/
def str (r : Req) (off n : Nat) : List UInt8 := rdBytes r.buf (12 + off) n

/-- A label field. -/
def lab (r : Req) (off : Nat) : Vector UInt8 24 := NvmMsg.label (str r off 24)

/-- The check every handler starts with: `inSize < sizeof(request)`. -/
def sized {α : Type} (r : Req) (n : Nat) (k : Except Rc α) : Except Rc α :=
  if inSize r < n then .error .badargs else k

/-- A check of a length. -/
def fits {α : Type} (p : Prop) [Decidable p] (k : Except Rc α) : Except Rc α :=
  if p then k else .error .badargs

/-- What `wc_AesGcmEncrypt` and `wc_AesGcmDecrypt` get beside key and data: IV, additional data, tag
(or its length), with their lengths in front. -/
def gcmExtra (ivSz aadSz tagSz : UInt32) (b : List UInt8) : List UInt8 :=
  Utils.bytes32 true ivSz ++ Utils.bytes32 true aadSz ++ Utils.bytes32 true tagSz ++ b

/-- The carried CMAC state, `whMessageCrypto_CmacAesState` at offset 16, with its numbers in a fixed
order: `wh_MessageCrypto_TranslateCmacAesState`, src/wh_message_crypto.c:789-803. -/
def cmacState (le : Bool) (r : Req) : List UInt8 :=
  str r 16 32 ++ Utils.bytes32 true (u32 le r 12) ++ Utils.bytes32 true (u32 le r 13)

/-- AES requests: `_HandleAesCtr` src/wh_server_crypto.c:3186-3216, `_HandleAesEcb` 3522-3548,
`_HandleAesCbc` 3808-3837, `_HandleAesGcm` 4103-4142.  The lengths must add up to the size of the
request exactly; the sum is 64 bits wide. -/
def decodeAes (le : Bool) (r : Req) : AesMode → Except Rc Todo
  | .ctr => sized r 20 <|
    let (k, n) := (len le r 1, len le r 2)
    fits (20 + n + k + 16 + 16 = inSize r) <| .ok <| .keys <|
      .aes .ctr (u32 le r 0 != 0) (u16 le r 16) (str r (20 + n) k) (str r 20 n)
        (str r (20 + n + k) 32) (len le r 3) 0
  | .ecb => sized r 16 <|
    let (k, n) := (len le r 1, len le r 2)
    fits (16 + n + k = inSize r) <| .ok <| .keys <|
      .aes .ecb (u32 le r 0 != 0) (u16 le r 12) (str r (16 + n) k) (str r 16 n) [] 0 0
  | .cbc => sized r 16 <|
    let (k, n) := (len le r 1, len le r 2)
    fits (16 + n + k + 16 = inSize r) <| .ok <| .keys <|
      .aes .cbc (u32 le r 0 != 0) (u16 le r 12) (str r (16 + n) k) (str r 16 n)
        (str r (16 + n + k) 16) 0 0
  | .gcm => sized r 28 <|
    let (k, n) := (len le r 1, len le r 2)
    let (iv, aad) := (len le r 3, len le r 4)
    let enc := u32 le r 0 != 0
    let tag := if enc then 0 else len le r 5
    fits (28 + n + k + iv + aad + tag = inSize r) <| .ok <| .keys <|
      .aes .gcm enc (u16 le r 24) (str r (28 + n) k) (str r 28 n)
        (gcmExtra (u32 le r 3) (u32 le r 4) (u32 le r 5) (str r (28 + n + k) (iv + aad + tag)))
        0 (len le r 5)

/-- Key generation: src/wh_server_crypto.c:366-392 (RSA), 1403-1430 (ECC), 2455-2482 (Curve25519),
2706-2726 (Ed25519), 5210-5242 (ML-DSA), 5592-5611 (ML-KEM).  Structures:
wolfhsm/wh_message_crypto.h. -/
def decodeKeyGen (le : Bool) (coins : List UInt8) (r : Req) : Alg → Except Rc Todo
  | .rsa => sized r 40 <| .ok <| .keys <|
    .keyGen .rsa (half le r 1) (half le r 0) (lab r 16) [len le r 2, len le r 3] coins
  | .ecc => sized r 44 <| .ok <| .keys <|
    .keyGen .ecc (half le r 2) (half le r 3) (lab r 20) [len le r 0, len le r 1] coins
  | .curve25519 => sized r 36 <| .ok <| .keys <|
    .keyGen .curve25519 (half le r 2) (half le r 1) (lab r 12) [len le r 0] coins
  | .ed25519 => sized r 36 <| .ok <| .keys <|
    .keyGen .ed25519 (half le r 1) (half le r 0) (lab r 12) [] coins
  | .mldsa => sized r 44 <| .ok <| .keys <|
    .keyGen .mldsa (half le r 2) (half le r 3) (lab r 20) [len le r 1] coins
  | .mlkem => sized r 40 <| .ok <| .keys <|
    .keyGen .mlkem (half le r 1) (half le r 2) (lab r 16) [len le r 0] coins

/-- The size checks of a hash request: input within the packet; whole blocks, or less than one if
it is the last, e.g. src/wh_server_crypto.c:4647-4661. -/
def hashFits (n avail block : Nat) (last : Bool) : Prop :=
  n ≤ avail ∧ if last then n < block else n % block = 0

instance (n avail block : Nat) (last : Bool) : Decidable (hashFits n avail block last) := by
  unfold hashFits; infer_instance

/-- Size checks and translation at the start of each handler.  Lines as in `Model/Crypto.lean`. -/
def decode (c : Codes) (le : Bool) (coins : List UInt8) (r : Req) : Op → Except Rc Todo
  | .aes m => decodeAes le r m
  | .keyGen a => decodeKeyGen le coins r a
  | .rsa => sized r 20 <|
    let n := len le r 3
    fits (n ≤ inSize r - 20) <|
      match c.rsaOp (u32 le r 0) with
      | none => .error c.badFuncArg
      | some op => .ok (.keys (.rsaFunction op (half le r 2) (opt le r 1 1) (str r 20 n) (len le r 4) coins))
  | .rsaGetSize => sized r 8 <| .ok <| .keys <| .rsaGetSize (half le r 1) (opt le r 0 1)
  | .secretEcc => sized r 44 <| .ok <| .keys <|
    .sharedSecret .ecc 0 (half le r 1) (half le r 2) (opt le r 0 2) (opt le r 0 1) (half le r 4)
      (half le r 3) (lab r 20)
  | .secret25519 => sized r 48 <| .ok <| .keys <|
    .sharedSecret .curve25519 (len le r 3) (half le r 1) (half le r 2) (opt le r 0 2) (opt le r 0 1)
      (half le r 5) (half le r 4) (lab r 24)
  | .signEcc => sized r 12 <|
    let n := len le r 2
    fits (n ≤ inSize r - 12) <| .ok <| .keys <|
      .sign .ecc (half le r 1) (opt le r 0 1) 0 (str r 12 n) [] coins
  | .signEd => sized r 20 <|
    let (n, k) := (len le r 2, len le r 4)
    let type := u32 le r 3
    fits (n ≤ inSize r - 20) <| fits (k ≤ 255) <| fits (k ≤ inSize r - 20 - n) <|
      fits (type = c.edPlain ∨ type = c.edCtx ∨ type = c.edPh) <|
      fits (type = c.edPlain → k = 0) <| .ok <| .keys <|
        .sign .ed25519 (half le r 1) (opt le r 0 1) type.toNat (str r 20 n) (str r (20 + n) k) coins
  | .signMlDsa => sized r 24 <|
    let (n, k) := (len le r 3, len le r 4)
    fits (n ≤ inSize r - 24) <| fits (k ≤ inSize r - 24 - n) <| fits (k ≤ 255) <| .ok <| .keys <|
      .sign .mldsa (half le r 2) (opt le r 0 1) (len le r 5) (str r 24 n) (str r (24 + n) k) coins
  | .verifyEcc => sized r 16 <|
    let (s, n) := (len le r 2, len le r 3)
    fits (s ≤ inSize r - 16) <| fits (n ≤ inSize r - 16 - s) <| .ok <| .keys <|
      .verify .ecc (half le r 1) (opt le r 0 1) (opt le r 0 2) 0 (str r 16 s) (str r (16 + s) n) []
  | .verifyEd => sized r 24 <|
    let (s, n) := (len le r 2, len le r 3)
    let k := len le r 5
    let type := u32 le r 4
    fits (s ≤ inSize r - 24) <| fits (n ≤ inSize r - 24 - s) <| fits (k ≤ inSize r - 24 - s - n) <|
      fits (k ≤ 255) <| fits (type = c.edPlain ∨ type = c.edCtx ∨ type = c.edPh) <| .ok <| .keys <|
        .verify .ed25519 (half le r 1) (opt le r 0 1) false type.toNat (str r 24 s)
          (str r (24 + s) n) (str r (24 + s + n) k)
  | .verifyMlDsa => sized r 32 <|
    let (s, n) := (len le r 3, len le r 4)
    let k := len le r 5
    fits (s ≤ inSize r - 32 ∧ n ≤ inSize r - 32 ∧ s ≤ inSize r - 32 - n) <|
      fits (k ≤ inSize r - 32 - s - n) <| fits (k ≤ 255) <| .ok <| .keys <|
        .verify .mldsa (half le r 2) (opt le r 0 1) false (len le r 6) (str r 32 s)
          (str r (32 + s) n) (str r (32 + s + n) k)
  | .makePub => sized r 8 <| .ok <| .keys <| .makePub (half le r 1) (opt le r 0 1) coins
  | .checkPub => sized r 16 <|
    let n := len le r 3
    fits (n ≤ inSize r - 16) <| .ok <| .keys <|
      .checkPub (half le r 1) (opt le r 0 1) (str r 16 n) coins
  | .encaps => sized r 16 <| .ok <| .keys <|
    .encaps [len le r 1] (half le r 2) (opt le r 0 1) coins none
  | .decaps => sized r 16 <|
    let n := len le r 3
    .ok <| .keys <|
      if n ≤ inSize r - 16 then .decaps [len le r 1] (half le r 2) (opt le r 0 1) (str r 16 n) none
      else .refused (half le r 2) (opt le r 0 1)
  | .hkdf => sized r 56 <|
    let (k, s) := (len le r 4, len le r 5)
    let n := len le r 6
    fits (k ≤ inSize r - 56) <| fits (s ≤ inSize r - 56 - k) <| fits (n ≤ inSize r - 56 - k - s) <|
      .ok <| .keys <|
        .hkdf (half le r 1) (half le r 2) (half le r 0) (lab r 32) (len le r 3) (str r 56 k)
          (str r (56 + k) s) (str r (56 + k + s) n) (len le r 7)
  | .cmacKdf => sized r 56 <|
    let (s, z) := (len le r 4, len le r 5)
    let n := len le r 6
    fits (s ≤ inSize r - 56) <| fits (z ≤ inSize r - 56 - s) <| fits (n ≤ inSize r - 56 - s - z) <|
      .ok <| .keys <|
        .cmacKdf (half le r 1) (half le r 2) (half le r 3) (half le r 0) (lab r 32) (str r 56 s)
          (str r (56 + s) z) (str r (56 + s + z) n) (len le r 7)
  | .cmac => sized r 56 <|
    let (n, k) := (len le r 1, len le r 2)
    fits (n ≤ inSize r - 56) <| fits (k ≤ inSize r - 56 - n) <| fits (k ≤ 32) <| .ok <| .keys <|
      .cmac (u16 le r 12) (str r (56 + n) k) (cmacState le r) (str r 56 n) (len le r 0)
  | .rng => sized r 4 <| .ok <| .rng (len le r 0)
  | .sha256 type => sized r 48 <|
    let (last, n) := (u32 le r 10 != 0, len le r 11)
    fits (hashFits n (inSize r - 48) 64 last) <| .ok <|
      .sha2 type last (u32 le r 0) (u32 le r 1) (str r 8 32) (str r 48 n)
  | .sha384 type => sized r 84 <|
    let (last, n) := (u32 le r 19 != 0, len le r 20)
    fits (hashFits n (inSize r - 84) 128 last) <| .ok <|
      .sha2 type last (u32 le r 0) (u32 le r 1) (str r 8 64) (str r 84 n)
  | .sha512 => sized r 84 <|
    let (last, n) := (u32 le r 19 != 0, len le r 20)
    fits (hashFits n (inSize r - 84) 128 last) <| .ok <|
      .sha2 (c.sha512Type (u32 le r 18)) last (u32 le r 0) (u32 le r 1) (str r 8 64) (str r 84 n)
  | .sha3 block => sized r 208 <|
    let (last, n) := (u32 le r 0 != 0, len le r 1)
    fits (hashFits n (inSize r - 208) block last) <| .ok <|
      .sha3 block last ((List.range 25).map fun i => rd64 le r.magic r.buf (20 + 8 * i)) (str r 208 n)

/-- The header of a response, `wh_MessageCrypto_TranslateGenericResponseHeader`,
src/wh_message_crypto.c:45-56: algorithm of the request, return code, a reserved zero. -/
def header (le : Bool) (r : Req) (rc : Rc) : List UInt8 :=
  w32 le r.magic (rd32 le r.magic r.buf 0) ++ w32 le r.magic rc.code ++ w32 le r.magic 0

/-- A successful response, src/wh_server_crypto.c:6298-6314: the response structure of `fixed`
bytes, whose fields were written over the request, and the data behind it. -/
def reply (le : Bool) (r : Req) (fields : List UInt8) (fixed : Nat) (body : List UInt8) : List UInt8 :=
  over (header le r .ok ++ fields) r.buf (12 + fixed) ++ body

/-- A number in a 32-bit field. -/
def num (le : Bool) (r : Req) (n : Nat) : List UInt8 := w32 le r.magic (UInt32.ofNat n)

/-- A hash field of 64 bytes. -/
def hash64 (h : List UInt8) : List UInt8 := (h ++ List.replicate 64 0).take 64

/-- The state written to a CMAC response: numbers in the byte order of the client; zero unless the
state is handed back. -/
def stateOut (le : Bool) (r : Req) (st : List UInt8) : List UInt8 :=
  ((st ++ List.replicate 32 0).take 32) ++
    w32 le r.magic ((Utils.read32 true ((st.drop 32).take 4)).getD 0) ++
    w32 le r.magic ((Utils.read32 true ((st.drop 36).take 4)).getD 0)

/-- The fields of the response structure of a handler, `wolfhsm/wh_message_crypto.h`. -/
def fieldsOf (le : Bool) (r : Req) (op : Op) (o : Crypto.Out) : List UInt8 :=
  match op with
  | .aes .ctr => num le r (len le r 2) ++ num le r o.res
  | .aes .gcm => num le r (len le r 2) ++ num le r (if u32 le r 0 != 0 then len le r 5 else 0)
  | .aes _ => num le r (len le r 2)
  | .keyGen _ | .hkdf | .cmacKdf =>
    w32 le r.magic o.keyId.toUInt32 ++ num le r o.body.length
  | .secretEcc | .secret25519 => num le r o.body.length ++ w32 le r.magic o.keyId.toUInt32
  | .rsa | .signEcc | .signEd | .signMlDsa | .makePub | .decaps => num le r o.body.length
  | .rsaGetSize | .checkPub | .verifyEd | .verifyMlDsa => num le r o.res
  | .verifyEcc => num le r o.res ++ num le r o.body.length
  | .encaps => num le r o.res ++ num le r (o.body.length - o.res)
  | .cmac => stateOut le r o.state ++ num le r o.body.length ++ w16 le r.magic o.keyId
  | _ => []

/-- The response to a request that uses the key store. -/
def encode (le : Bool) (r : Req) (op : Op) : Crypto.Resp → List UInt8
  | .error rc => header le r rc
  | .ok o => reply le r (fieldsOf le r op o) o.fixed o.body

/-- `_HandleRng`, src/wh_server_crypto.c:2010-2048: as many bytes as fit, and not more than asked
for. -/
def rng (cfg : Cfg) (e : Env) (r : Req) (sz : Nat) : List UInt8 :=
  match e.random (min sz (cfg.crypto.ks.commLen - 16)) with
  | .error rc => header cfg.le r rc
  | .ok b => reply cfg.le r (num cfg.le r (min sz (cfg.crypto.ks.commLen - 16))) 4 b

/-- The hash handlers, src/wh_server_crypto.c:4623-5160, after their checks. -/
def sha2 (cfg : Cfg) (r : Req) (type : UInt32) (last : Bool) (hi lo : UInt32)
    (digest input : List UInt8) : List UInt8 :=
  let out (hi lo : UInt32) (h : List UInt8) :=
    reply cfg.le r (w32 cfg.le r.magic hi ++ w32 cfg.le r.magic lo ++ hash64 h ++ w32 cfg.le r.magic type) 76 []
  if last then
    match cfg.hashes.final type hi lo digest input with
    | .error rc => header cfg.le r rc
    | .ok h => out 0 0 h
  else
    match cfg.hashes.update type hi lo digest input with
    | .error rc => header cfg.le r rc
    | .ok (hi', lo', d) => out hi' lo' d

/-- `_HandleSha3`, src/wh_server_crypto.c:5071-5157, after its checks. -/
def sha3 (cfg : Cfg) (r : Req) (block : Nat) (last : Bool) (state : List UInt64)
    (input : List UInt8) : List UInt8 :=
  let out (st : List UInt64) (h : List UInt8) :=
    reply cfg.le r (((st ++ List.replicate 25 0).take 25).flatMap (w64 cfg.le r.magic) ++ hash64 h) 264 []
  if last then
    match cfg.hashes.final3 block state input with
    | .error rc => header cfg.le r rc
    | .ok h => out [] h
  else
    match cfg.hashes.update3 block state input with
    | .error rc => header cfg.le r rc
    | .ok st => out st []

/-- A handler's key-store operations one after the other, `k` of them so far.  When power is lost
there is no response. -/
def exec (ks : Keystore.Cfg) (v : Srv) (locks : Nat → Rc) :
    Nat → Crypto.Prog → Sys → Option Crypto.Resp × Sys
  | _, .done a, s => (some a, s)
  | k, .call locked r f, s =>
    let q := Keystore.handle ks v s (if locked then locks k else .ok) r
    if q.2.nvm.powered then exec ks v locks (k + 1) (f q.1) q.2 else (none, q.2)

/-- `wh_Server_HandleCryptoRequest`, src/wh_server_crypto.c:5975-6320: the response and the key
store after it.  A request without a whole header sets no response size, so it goes back as it
came (src/wh_server.c:674-677). -/
def handle (cfg : Cfg) (v : Srv) (e : Env) (r : Req) (s : Sys) : List UInt8 × Sys :=
  if r.size < 12 then (r.data, s)
  else
    match cfg.codes.select r.action (rd32 cfg.le r.magic r.buf 0) (rd32 cfg.le r.magic r.buf 4) with
    | .error rc => (header cfg.le r rc, s)
    | .ok op =>
      match decode cfg.codes cfg.le e.coins r op with
      | .error rc => (header cfg.le r rc, s)
      | .ok (.keys q) =>
        match exec cfg.crypto.ks v e.locks 0 (Crypto.handler cfg.crypto cfg.lib v q) s with
        | (some a, s') => (encode cfg.le r op a, s')
        | (none, s') => ([], s')
      | .ok (.rng sz) => (rng cfg e r sz, s)
      | .ok (.sha2 type last hi lo d b) => (sha2 cfg r type last hi lo d b, s)
      | .ok (.sha3 block last st b) => (sha3 cfg r block last st b, s)

end WolfHsm.CryptoMsg

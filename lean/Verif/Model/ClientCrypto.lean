import Verif.Model.ClientHash
import Verif.Model.CryptoMsg

/-!
# Crypto calls of the client, `src/wh_client_crypto.c` (without DMA)

Each call writes a request into the comm buffer, sends it and reads the response that comes back in
the same buffer.  `Call` has one constructor for each kind of request; blocking and split
(Request/Response) functions send the same bytes, except where a constructor has `blocking`.

Left out: NULL pointers, the import of a key that is not on the server before the call and its
eviction on an error, the conversion of DER into key objects after the call.  The loops around
NOTREADY are left out as in `Model/ClientHash.lean`, and reading past a short response is reading
zeros.
-/

namespace WolfHsm.ClientCrypto

open Wire
open ClientHash (Ret Reply put32 get32)
open Crypto (Alg AesMode RsaOp)
open CryptoMsg (Op)

/-- Message action, `algoType` and `algoSubType` of a request. -/
structure Code where
  action : UInt16
  type : UInt16
  sub : UInt16

/-- Numbers of wolfCrypt in the client's build. -/
structure Numbers where
  code : Op → Code
  rsaOp : RsaOp → UInt32
  edPlain : UInt32
  edCtx : UInt32
  edPh : UInt32

/-- The part of `Cmac` that goes back and forth, `whMessageCrypto_CmacAesState`,
wolfhsm/wh_message_crypto.h:1040-1052.  `bytes`: `buffer` and `digest`, 32 bytes. -/
structure CmacState where
  bytes : List UInt8
  filled : UInt32
  total : UInt32
deriving DecidableEq

/-- A fresh state. -/
def CmacState.zero : CmacState := ⟨List.replicate 32 0, 0, 0⟩

/-- The calls.  Key ids are those in the key object, or of a key imported for the call, which then
has `evict`. -/
inductive Call where
  /-- `reg`, `tmp`, `left`: counter block, key stream and unused bytes of it in the `Aes` object -/
  | aesCtr (enc : Bool) (id : UInt16) (key input reg tmp : List UInt8) (left : UInt32)
  | aesEcb (enc : Bool) (id : UInt16) (key input : List UInt8)
  | aesCbc (enc : Bool) (id : UInt16) (key input iv : List UInt8)
  | gcmEncrypt (id : UInt16) (key input iv aad : List UInt8) (tagLen : UInt32)
  | gcmDecrypt (id : UInt16) (key input iv aad tag : List UInt8)
  | rsaKeyGen (id flags : UInt16) (label : List UInt8) (size e : UInt32)
  | eccKeyGen (id flags : UInt16) (label : List UInt8) (size curve : UInt32)
  | x25519KeyGen (id flags : UInt16) (label : List UInt8) (size : UInt32)
  | edKeyGen (id flags : UInt16) (label : List UInt8)
  | mlDsaKeyGen (id flags : UInt16) (label : List UInt8) (size level : UInt32)
  | mlKemKeyGen (id flags : UInt16) (label : List UInt8) (level : UInt32)
  | rsa (op : RsaOp) (id : UInt16) (evict : Bool) (input : List UInt8) (room : UInt16)
  | rsaGetSize (id : UInt16) (evict : Bool)
  | eccSecret (prv pub : UInt16) (evPrv evPub : Bool) (id flags : UInt16) (label : List UInt8)
  | x25519Secret (prv pub : UInt16) (evPrv evPub : Bool) (id flags : UInt16) (label : List UInt8) (endian : UInt32)
  | eccSign (blocking : Bool) (id : UInt16) (evict : Bool) (hash : List UInt8)
  | edSign (id : UInt16) (evict : Bool) (type : UInt32) (msg ctx : List UInt8)
  | mlDsaSign (id : UInt16) (evict : Bool) (level preHash : UInt32) (msg ctx : List UInt8)
  | eccVerify (blocking : Bool) (id : UInt16) (evict exportPub : Bool) (sig hash : List UInt8)
  | edVerify (id : UInt16) (evict : Bool) (type : UInt32) (sig msg ctx : List UInt8)
  | mlDsaVerify (id : UInt16) (evict : Bool) (level preHash : UInt32) (sig msg ctx : List UInt8)
  | makePub (id : UInt16) (evict : Bool)
  | checkPub (id : UInt16) (evict : Bool) (curve : UInt32) (pub : List UInt8)
  | encaps (id : UInt16) (evict : Bool) (level : UInt32)
  | decaps (id : UInt16) (evict : Bool) (level : UInt32) (ct : List UInt8)
  | hkdf (idIn idOut flags : UInt16) (label : List UInt8) (hash : UInt32) (inKey salt info : List UInt8) (outSz : UInt32)
  | cmacKdf (idSalt idZ idOut flags : UInt16) (label salt z info : List UInt8) (outSz : UInt32)
  /-- `key`: given by the caller or kept in the `Cmac` object from an earlier call,
  `_CmacResolveClientKey`, src/wh_client_crypto.c:5628-5640 -/
  | cmacGenerate (id : UInt16) (key input : List UInt8) (outSz : UInt32)
  | cmacUpdate (id : UInt16) (key : List UInt8) (state : CmacState) (input : List UInt8)
  | cmacFinal (id : UInt16) (key : List UInt8) (state : CmacState)

/-- The operation a call asks for. -/
def Call.op : Call → Op
  | .aesCtr .. => .aes .ctr
  | .aesEcb .. => .aes .ecb
  | .aesCbc .. => .aes .cbc
  | .gcmEncrypt .. | .gcmDecrypt .. => .aes .gcm
  | .rsaKeyGen .. => .keyGen .rsa
  | .eccKeyGen .. => .keyGen .ecc
  | .x25519KeyGen .. => .keyGen .curve25519
  | .edKeyGen .. => .keyGen .ed25519
  | .mlDsaKeyGen .. => .keyGen .mldsa
  | .mlKemKeyGen .. => .keyGen .mlkem
  | .rsa .. => .rsa
  | .rsaGetSize .. => .rsaGetSize
  | .eccSecret .. => .secretEcc
  | .x25519Secret .. => .secret25519
  | .eccSign .. => .signEcc
  | .edSign .. => .signEd
  | .mlDsaSign .. => .signMlDsa
  | .eccVerify .. => .verifyEcc
  | .edVerify .. => .verifyEd
  | .mlDsaVerify .. => .verifyMlDsa
  | .makePub .. => .makePub
  | .checkPub .. => .checkPub
  | .encaps .. => .encaps
  | .decaps .. => .decaps
  | .hkdf .. => .hkdf
  | .cmacKdf .. => .cmacKdf
  | .cmacGenerate .. | .cmacUpdate .. | .cmacFinal .. => .cmac

/-! ## Requests -/

/-- A 16-bit field the client writes. -/
def put16 (cle : Bool) (v : UInt16) : List UInt8 := w16 cle Utils.magicNative v

/-- A key id or flags in a 32-bit field. -/
def putId (cle : Bool) (v : UInt16) : List UInt8 := put32 cle v.toUInt32

/-- A length in a 32-bit field. -/
def putLen (cle : Bool) (l : List UInt8) : List UInt8 := put32 cle (UInt32.ofNat l.length)

/-- An option bit. -/
def bit (b : Bool) (v : UInt32) : UInt32 := if b then v else 0

/-- A label field: the first 24 bytes, filled up with zeros, e.g. src/wh_client_crypto.c:2012-2017. -/
def label24 (l : List UInt8) : List UInt8 := (l ++ List.replicate 24 0).take 24

/-- The header, `_createCryptoRequestWithSubtype`, src/wh_client_crypto.c:161-181. -/
def head (cle : Bool) (k : Code) (affinity : UInt32) : List UInt8 :=
  put32 cle k.type.toUInt32 ++ put32 cle k.sub.toUInt32 ++ put32 cle affinity

/-- The request structure.  `pad`: two padding bytes of AES and CMAC requests, which keep what the
buffer had.  src/wh_client_crypto.c: AES 493-497, 835-838, 1168-1171, 1516-1522; key generation
4674-4684 (RSA), 2010-2019 (ECC), 3315-3330, 3848-3862, 10100-10118, 11294-11310; RSA 4917-4922,
5119-5121; shared secrets 2277-2290, 3500-3515; signatures 2522-2525, 4035-4042, 10320-10330;
verification 2720-2725, 4175-4184, 10462-10475; 2890-2895 and 3150-3156 (public keys); ML-KEM
11483-11490, 11606-11612; KDF 5290-5310, 5474-5491; CMAC 5708-5713, 5838-5843, 5956-5961. -/
def fields (n : Numbers) (cle : Bool) (pad : UInt8 × UInt8) : Call → List UInt8
  | .aesCtr enc id key input _ _ left =>
    put32 cle (bit enc 1) ++ putLen cle key ++ putLen cle input ++ put32 cle left ++ put16 cle id ++ [pad.1, pad.2]
  | .aesEcb enc id key input | .aesCbc enc id key input _ =>
    put32 cle (bit enc 1) ++ putLen cle key ++ putLen cle input ++ put16 cle id ++ [pad.1, pad.2]
  | .gcmEncrypt id key input iv aad tagLen =>
    put32 cle 1 ++ putLen cle key ++ putLen cle input ++ putLen cle iv ++ putLen cle aad ++ put32 cle tagLen ++
      put16 cle id ++ [pad.1, pad.2]
  | .gcmDecrypt id key input iv aad tag =>
    put32 cle 0 ++ putLen cle key ++ putLen cle input ++ putLen cle iv ++ putLen cle aad ++ putLen cle tag ++
      put16 cle id ++ [pad.1, pad.2]
  | .rsaKeyGen id flags label size e =>
    putId cle flags ++ putId cle id ++ put32 cle size ++ put32 cle e ++ label24 label
  | .eccKeyGen id flags label size curve =>
    put32 cle size ++ put32 cle curve ++ putId cle id ++ putId cle flags ++ put32 cle 0 ++ label24 label
  | .x25519KeyGen id flags label size =>
    put32 cle size ++ putId cle flags ++ putId cle id ++ label24 label
  | .edKeyGen id flags label =>
    putId cle flags ++ putId cle id ++ put32 cle 0xFFFF ++ label24 label
  | .mlDsaKeyGen id flags label size level =>
    put32 cle size ++ put32 cle level ++ putId cle id ++ putId cle flags ++ put32 cle 0xFFFF ++ label24 label
  | .mlKemKeyGen id flags label level =>
    put32 cle level ++ putId cle id ++ putId cle flags ++ put32 cle 0xFFFF ++ label24 label
  | .rsa op id evict input room =>
    put32 cle (n.rsaOp op) ++ put32 cle (bit evict 1) ++ putId cle id ++ putLen cle input ++ putId cle room
  | .rsaGetSize id evict => put32 cle (bit evict 1) ++ putId cle id
  | .eccSecret prv pub evPrv evPub id flags label =>
    put32 cle (bit evPub 1 ||| bit evPrv 2) ++ putId cle prv ++ putId cle pub ++ putId cle flags ++ putId cle id ++
      label24 label
  | .x25519Secret prv pub evPrv evPub id flags label endian =>
    put32 cle (bit evPub 1 ||| bit evPrv 2) ++ putId cle prv ++ putId cle pub ++ put32 cle endian ++
      putId cle flags ++ putId cle id ++ label24 label
  | .eccSign _ id evict hash => put32 cle (bit evict 1) ++ putId cle id ++ putLen cle hash
  | .edSign id evict type msg ctx =>
    put32 cle (bit evict 1) ++ putId cle id ++ putLen cle msg ++ put32 cle type ++ putLen cle ctx
  | .mlDsaSign id evict level preHash msg ctx =>
    put32 cle (bit evict 1) ++ put32 cle level ++ putId cle id ++ putLen cle msg ++ putLen cle ctx ++
      put32 cle preHash
  | .eccVerify _ id evict exportPub sig hash =>
    put32 cle (bit evict 1 ||| bit exportPub 2) ++ putId cle id ++ putLen cle sig ++ putLen cle hash
  | .edVerify id evict type sig msg ctx =>
    put32 cle (bit evict 1) ++ putId cle id ++ putLen cle sig ++ putLen cle msg ++ put32 cle type ++ putLen cle ctx
  | .mlDsaVerify id evict level preHash sig msg ctx =>
    put32 cle (bit evict 1) ++ put32 cle level ++ putId cle id ++ putLen cle sig ++ putLen cle msg ++
      putLen cle ctx ++ put32 cle preHash ++ put32 cle 0
  | .makePub id evict => put32 cle (bit evict 1) ++ putId cle id
  | .checkPub id evict curve pub => put32 cle (bit evict 1) ++ putId cle id ++ put32 cle curve ++ putLen cle pub
  | .encaps id evict level => put32 cle (bit evict 1) ++ put32 cle level ++ putId cle id ++ put32 cle 0
  | .decaps id evict level ct => put32 cle (bit evict 1) ++ put32 cle level ++ putId cle id ++ putLen cle ct
  | .hkdf idIn idOut flags label hash inKey salt info outSz =>
    putId cle flags ++ putId cle idIn ++ putId cle idOut ++ put32 cle hash ++ putLen cle inKey ++ putLen cle salt ++
      putLen cle info ++ put32 cle outSz ++ label24 label
  | .cmacKdf idSalt idZ idOut flags label salt z info outSz =>
    putId cle flags ++ putId cle idSalt ++ putId cle idZ ++ putId cle idOut ++ putLen cle salt ++ putLen cle z ++
      putLen cle info ++ put32 cle outSz ++ label24 label
  | .cmacGenerate id key input outSz =>
    put32 cle outSz ++ putLen cle input ++ putLen cle key ++ put16 cle id ++ [pad.1, pad.2] ++
      List.replicate 32 0 ++ put32 cle 0 ++ put32 cle 0
  | .cmacUpdate id key state input =>
    put32 cle 0 ++ putLen cle input ++ putLen cle key ++ put16 cle id ++ [pad.1, pad.2] ++
      state.bytes ++ put32 cle state.filled ++ put32 cle state.total
  | .cmacFinal id key state =>
    put32 cle 16 ++ put32 cle 0 ++ putLen cle key ++ put16 cle id ++ [pad.1, pad.2] ++
      state.bytes ++ put32 cle state.filled ++ put32 cle state.total

/-- What follows the structure, e.g. src/wh_client_crypto.c:499-506. -/
def trailer : Call → List UInt8
  | .aesCtr _ _ key input reg tmp _ => input ++ key ++ reg ++ tmp
  | .aesEcb _ _ key input => input ++ key
  | .aesCbc _ _ key input iv => input ++ key ++ iv
  | .gcmEncrypt _ key input iv aad _ => input ++ key ++ iv ++ aad
  | .gcmDecrypt _ key input iv aad tag => input ++ key ++ iv ++ aad ++ tag
  | .rsa _ _ _ input _ => input
  | .eccSign _ _ _ hash => hash
  | .edSign _ _ _ msg ctx => msg ++ ctx
  | .mlDsaSign _ _ _ _ msg ctx => msg ++ ctx
  | .eccVerify _ _ _ _ sig hash => sig ++ hash
  | .edVerify _ _ _ sig msg ctx => sig ++ msg ++ ctx
  | .mlDsaVerify _ _ _ _ sig msg ctx => sig ++ msg ++ ctx
  | .checkPub _ _ _ pub => pub
  | .decaps _ _ _ ct => ct
  | .hkdf _ _ _ _ _ inKey salt info _ => inKey ++ salt ++ info
  | .cmacKdf _ _ _ _ _ salt z info _ => salt ++ z ++ info
  | .cmacGenerate _ key input _ => input ++ key
  | .cmacUpdate _ key _ input => input ++ key
  | .cmacFinal _ key _ => key
  | _ => []

/-- What the client writes to its buffer. -/
def request (n : Numbers) (cle : Bool) (affinity : UInt32) (pad : UInt8 × UInt8) (c : Call) : List UInt8 :=
  head cle (n.code c.op) affinity ++ fields n cle pad c ++ trailer c

/-- The type in which the length of the request is computed before it is compared with the buffer, as
the number of its values; 0 where the comparison cannot wrap.  16 bits in the blocking ECC functions,
src/wh_client_crypto.c:2622-2623, 2824-2825, where the split ones have `size_t`; 32 bits for AES
(456-484), Ed25519 (4000, 4120), the KDFs (5279, 5462), `checkPub` (3134) and ML-DSA (10296, 10437).
For RSA (4901, 5037) and ML-KEM (11585) the sum is wider than its parts. -/
def width : Call → Nat
  | .eccSign true .. | .eccVerify true .. => 65536
  | .aesCtr .. | .aesEcb .. | .aesCbc .. | .gcmEncrypt .. | .gcmDecrypt .. | .edSign .. | .edVerify .. | .hkdf ..
  | .cmacKdf .. | .mlDsaSign .. | .mlDsaVerify .. | .checkPub .. => 4294967296
  | _ => 0

/-- `_CmacValidateTagLen`, src/wh_client_crypto.c:5659-5667. -/
def tagLenOk (n : Nat) : Bool := n == 0 || (4 ≤ n && n ≤ 16)

/-- Arguments refused before anything is sent: src/wh_client_crypto.c:813-815 and 1145-1147 (whole
blocks), 3984-3995 and 4127-4138 (Ed25519), 5438-5440, 5682-5704 and 5812-5815 (CMAC), and the
erased key ids, e.g. 4897-4899. -/
def refusal (n : Numbers) (dataLen : Nat) : Call → Option Rc
  | .aesEcb _ _ _ input | .aesCbc _ _ _ input _ => if input.length % 16 = 0 then none else some .badargs
  | .edSign _ _ type _ ctx | .edVerify _ _ type _ _ ctx =>
    if (type = n.edPlain ∨ type = n.edCtx ∨ type = n.edPh) ∧ (type = n.edPlain → ctx = []) ∧ ctx.length ≤ 255 then none
    else some .badargs
  | .cmacKdf _ _ _ _ _ _ _ _ outSz => if outSz = 0 then some .badargs else none
  | .cmacGenerate _ key input outSz =>
    if input = [] ∨ outSz = 0 then some .badargs
    else if tagLenOk outSz.toNat = false then some .bufferSize
    else if key.length > 32 ∨ input.length > dataLen - 100 then some .badargs
    else none
  | .cmacUpdate _ key _ _ | .cmacFinal _ key _ => if key.length > 32 then some .badargs else none
  | .rsa _ id .. | .rsaGetSize id _ | .eccSign _ id .. | .eccVerify _ id .. =>
    if KeyId.isErased id then some .badargs else none
  | .eccSecret prv pub .. | .x25519Secret prv pub .. =>
    if KeyId.isErased prv ∨ KeyId.isErased pub then some .badargs else none
  | _ => none

/-- Nothing to do: no blocks, counted in 16 bits (src/wh_client_crypto.c:816-819, 1148-1151); an
empty CMAC update without a key (5820-5824). -/
def idle : Call → Bool
  | .aesEcb _ _ _ input | .aesCbc _ _ _ input _ => UInt16.ofNat (input.length / 16) == 0
  | .cmacUpdate _ key _ input => input.isEmpty && key.isEmpty
  | _ => false

/-- Outcome of the sending half.  `packet`: bytes written to the comm buffer and the length sent. -/
inductive Sent where
  | refused (rc : Rc)
  | nothing
  | packet (buf : List UInt8) (size : Nat)

/-- The sending half of a call.  `dataLen`: `WOLFHSM_CFG_COMM_DATA_LEN`. -/
def send (n : Numbers) (cle : Bool) (dataLen : Nat) (affinity : UInt32) (pad : UInt8 × UInt8) (c : Call) : Sent :=
  match refusal n dataLen c with
  | some rc => .refused rc
  | none =>
    if idle c then .nothing
    else
      let b := request n cle affinity pad c
      if b.length % width c ≤ dataLen then .packet b (b.length % width c) else .refused .badargs

/-! ## Responses -/

/-- What the caller gave for the results: bytes of room in the output buffers, and whether there is
an object for a key (or a buffer for a derived one). -/
structure Want where
  room : Nat
  room2 : Nat
  key : Bool

/-- What a call hands back.  `num`: verdict, length or key size; `more`: counter state, IV, tag or
shared secret. -/
structure Got where
  id : UInt16 := 0
  num : UInt32 := 0
  out : List UInt8 := []
  more : List UInt8 := []
  state : Option CmacState := none
deriving DecidableEq

/-- Return code and results. -/
abbrev Result := Ret × Option Got

/-- `WH_ERROR_ABORTED`. -/
def aborted : Result := (Rc.aborted.code, none)

/-- `_getCryptoResponse`, src/wh_client_crypto.c:183-199.  `strict`: the caller goes on only if the
return code is 0, not if it is positive. -/
def opened (cle : Bool) (type : UInt16) (strict : Bool) (r : List UInt8) (k : Ret → Result) : Result :=
  if get32 cle r 0 ≠ type.toUInt32 then aborted
  else
    let rc := get32 cle r 4
    if rc ≥ 0x80000000 ∨ (strict = true ∧ rc ≠ 0) then (rc, none) else k rc

/-- A check that ends in `WH_ERROR_ABORTED`. -/
def need (p : Prop) [Decidable p] (k : Result) : Result := if p then k else aborted

/-- A length field of the response. -/
def getLen (cle : Bool) (r : List UInt8) (off : Nat) : Nat := (get32 cle r off).toNat

/-- An output of `sz` bytes at `off`: too little room is reported with the length needed, e.g.
src/wh_client_crypto.c:2564-2580. -/
def sized (w : Want) (r : List UInt8) (off sz : Nat) (rc : Ret) : Result :=
  if w.room < sz then (Rc.bufferSize.code, some { num := UInt32.ofNat sz })
  else (rc, some { num := UInt32.ofNat sz, out := rdBytes r off sz })

/-- `wh_Crypto_CmacAesRestoreStateFromMsg`, src/wh_crypto.c:968-979, from the response at 12. -/
def restore (cle : Bool) (r : List UInt8) : CmacState := ⟨rdBytes r 12 32, get32 cle r 44, get32 cle r 48⟩

/-- The receiving half of a call, src/wh_client_crypto.c: AES 535-562, 877-895, 1210-1232, 1577-1606;
key generation 4722-4760, 2061-2098, 3351-3393, 3873-3900, 10120-10165, 11320-11355; RSA 4955-4978,
5151-5160; shared secrets 2319-2343, 3547-3570; signatures 2555-2583, 4069-4095, 10350-10375;
verification 2758-2775, 4210-4225, 10492-10510; public keys 2928-2950, 3065-3075; ML-KEM
11506-11533, 11636-11655; KDF 5350-5387, 5523-5551; CMAC 5757-5784, 5890-5906, 5997-6023. -/
def receive (n : Numbers) (cle : Bool) (w : Want) (c : Call) (r : List UInt8) : Result :=
  let t := (n.code c.op).type
  let keyGen (strictLen : Bool) : Result := opened cle t false r fun rc =>
    let len := getLen cle r 16
    let id := (get32 cle r 12).toUInt16
    need (strictLen = true → 20 ≤ r.length ∧ len ≤ r.length - 20) <|
      if w.key then need (len ≠ 0 ∧ 20 ≤ r.length ∧ len ≤ r.length - 20) (rc, some { id := id, out := rdBytes r 20 len })
      else (rc, some { id := id })
  let secret : Result := opened cle t false r fun rc =>
    let len := getLen cle r 12
    let id := (get32 cle r 16).toUInt16
    need (20 ≤ r.length ∧ len ≤ r.length - 20) <|
      if w.key then
        if w.room < len then (Rc.bufferSize.code, some { id := id, num := UInt32.ofNat len })
        else (rc, some { id := id, num := UInt32.ofNat len, out := rdBytes r 20 len })
      else (rc, some { id := id })
  let output (fixed : Nat) : Result := opened cle t false r fun rc =>
    let len := getLen cle r 12
    need (12 + fixed ≤ r.length ∧ len ≤ r.length - (12 + fixed)) <| sized w r (12 + fixed) len rc
  let verdict (fixed : Nat) : Result := opened cle t false r fun rc =>
    need (12 + fixed ≤ r.length) (rc, some { num := get32 cle r 12 })
  let kdf (asked : UInt32) : Result := opened cle t true r fun rc =>
    let len := getLen cle r 16
    let id := (get32 cle r 12).toUInt16
    need (20 ≤ r.length ∧ len ≤ r.length - 20) <|
      if w.key then need (len ≤ asked.toNat) (rc, some { id := id, out := rdBytes r 20 len })
      else (rc, some { id := id })
  let mac : Result := opened cle t false r fun rc =>
    let len := getLen cle r 52
    need (60 ≤ r.length ∧ len ≤ r.length - 60) <|
      if (restore cle r).filled > 16 then (Rc.badargs.code, none)
      else if tagLenOk w.room = false then (Rc.bufferSize.code, some { state := some (restore cle r) })
      else (rc, some { out := rdBytes r 60 (min len w.room), state := some (restore cle r) })
  match c with
  | .aesCtr .. => opened cle t true r fun rc =>
    let len := getLen cle r 12
    need (64 ≤ r.length ∧ len ≤ r.length - 64)
      (rc, some { num := get32 cle r 16, out := rdBytes r 32 len, more := rdBytes r (32 + len) 32 })
  | .aesEcb .. => opened cle t true r fun rc =>
    let len := getLen cle r 12
    need (28 ≤ r.length ∧ len ≤ r.length - 28) (rc, some { out := rdBytes r 28 len })
  | .aesCbc .. => opened cle t true r fun rc =>
    let len := getLen cle r 12
    need (44 ≤ r.length ∧ len ≤ r.length - 44) (rc, some { out := rdBytes r 28 len, more := rdBytes r (28 + len) 16 })
  | .gcmEncrypt _ _ input _ _ tagLen => opened cle t true r fun rc =>
    let len := getLen cle r 12
    let tag := getLen cle r 16
    need (40 ≤ r.length ∧ len + tag < 4294967296 ∧ len + tag ≤ r.length - 40) <|
      need (len ≤ input.length ∧ tag ≤ tagLen.toNat)
        (rc, some { out := rdBytes r 40 len, more := rdBytes r (40 + len) tag })
  | .gcmDecrypt _ _ input _ _ _ => opened cle t true r fun rc =>
    let len := getLen cle r 12
    let tag := getLen cle r 16
    need (40 ≤ r.length ∧ len + tag < 4294967296 ∧ len + tag ≤ r.length - 40) <|
      need (len ≤ input.length) (rc, some { out := rdBytes r 40 len })
  | .rsaKeyGen .. | .eccKeyGen .. | .edKeyGen .. => keyGen true
  | .x25519KeyGen .. | .mlDsaKeyGen .. | .mlKemKeyGen .. => keyGen false
  | .rsa .. | .eccSign .. | .edSign .. | .makePub .. => output 4
  | .mlDsaSign .. => output 8
  | .rsaGetSize .. | .edVerify .. => verdict 4
  | .mlDsaVerify .. => verdict 8
  | .eccSecret .. | .x25519Secret .. => secret
  | .eccVerify .. => opened cle t false r fun rc =>
    let len := getLen cle r 16
    need (20 ≤ r.length ∧ len ≤ r.length - 20)
      (rc, some { num := get32 cle r 12, out := if w.key then rdBytes r 20 len else [] })
  | .checkPub .. => opened cle t false r fun rc =>
    need (16 ≤ r.length ∧ get32 cle r 12 ≠ 0) (rc, some {})
  | .encaps .. => opened cle t false r fun rc =>
    let ct := getLen cle r 12
    let ss := getLen cle r 16
    need (20 ≤ r.length ∧ ct ≤ r.length - 20 ∧ ss ≤ r.length - 20 - ct) <|
      if w.room < ct ∨ w.room2 < ss then (Rc.badargs.code, none)
      else (rc, some { out := rdBytes r 20 ct, more := rdBytes r (20 + ct) ss })
  | .decaps .. => opened cle t false r fun rc =>
    let ss := getLen cle r 12
    need (20 ≤ r.length ∧ ss ≤ r.length - 20) <|
      if w.room < ss then (Rc.badargs.code, none) else (rc, some { out := rdBytes r 20 ss })
  | .hkdf _ _ _ _ _ _ _ _ outSz => kdf outSz
  | .cmacKdf _ _ _ _ _ _ _ _ outSz => kdf outSz
  | .cmacUpdate .. => opened cle t false r fun rc =>
    need (60 ≤ r.length) <|
      if (restore cle r).filled > 16 then (Rc.badargs.code, none) else (rc, some { state := some (restore cle r) })
  | .cmacGenerate .. | .cmacFinal .. => mac

/-- A whole call.  When nothing is sent this is the result of the `…Request` function, with which the
calls for empty input end too; a blocking AES call with `k` · 2²⁰ bytes of input goes on to wait for a
response that does not come. -/
def run (n : Numbers) (cle : Bool) (dataLen : Nat) (affinity : UInt32) (pad : UInt8 × UInt8) (w : Want)
    (peer : List UInt8 → Reply) (c : Call) : Result :=
  match send n cle dataLen affinity pad c with
  | .refused rc => (rc.code, none)
  | .nothing => (0, some {})
  | .packet buf size =>
    match peer (buf.take size) with
    | .unsent rc | .lost rc => (rc, none)
    | .got r => receive n cle w c r

/-! ## Random numbers -/

/-- `wh_Client_RngGenerateRequest`, src/wh_client_crypto.c:201-235. -/
def rngRequest (n : Numbers) (cle : Bool) (affinity : UInt32) (size : Nat) : List UInt8 :=
  head cle (n.code .rng) affinity ++ put32 cle (UInt32.ofNat size)

/-- `wh_Client_RngGenerateResponse`, src/wh_client_crypto.c:237-281: the bytes copied out. -/
def rngResponse (n : Numbers) (cle : Bool) (dataLen asked : Nat) (r : List UInt8) : Ret × List UInt8 :=
  if get32 cle r 0 ≠ (n.code .rng).type.toUInt32 then (Rc.aborted.code, [])
  else
    let rc := get32 cle r 4
    let sz := getLen cle r 12
    if rc ≠ 0 then (rc, [])
    else if r.length < 16 ∨ sz > r.length - 16 ∨ sz > dataLen - 16 ∨ sz > asked then (Rc.aborted.code, [])
    else (rc, rdBytes r 16 sz)

/-- The loop of `wh_Client_RngGenerate`, src/wh_client_crypto.c:283-316.  `k`: requests so far; the
result has what has been written to the caller's buffer.  With as many rounds as there are bytes. -/
def rngLoop (n : Numbers) (cle : Bool) (dataLen : Nat) (affinity : UInt32) (peer : Nat → List UInt8 → Reply) :
    (fuel k remaining : Nat) → Ret × List UInt8
  | 0, _, _ => (0, [])
  | f + 1, k, remaining =>
    if remaining = 0 then (0, [])
    else
      let chunk := min remaining (dataLen - 16)
      if chunk = 0 then (Rc.badargs.code, []) else
      match peer k (rngRequest n cle affinity chunk) with
      | .unsent rc | .lost rc => (rc, [])
      | .got r =>
        let q := rngResponse n cle dataLen chunk r
        if q.1 ≠ 0 then (q.1, [])
        else if q.2.length = 0 then (Rc.aborted.code, [])
        else
          let z := rngLoop n cle dataLen affinity peer f (k + 1) (remaining - q.2.length)
          (z.1, q.2 ++ z.2)

/-- `wh_Client_RngGenerate`. -/
def rng (n : Numbers) (cle : Bool) (dataLen : Nat) (affinity : UInt32) (peer : Nat → List UInt8 → Reply) (size : Nat) :
    Ret × List UInt8 :=
  rngLoop n cle dataLen affinity peer size 0 size

end WolfHsm.ClientCrypto

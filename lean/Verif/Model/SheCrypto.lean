import Verif.Model.Utils
import Verif.Model.Basic

/-!
# SHE key derivation and key-update messages: `src/wh_she_crypto.c`

AES itself is a parameter: two functions from a 16-byte key and a 16-byte block to a block, and
AES-CMAC.  The chaining modes and the Miyaguchi–Preneel derivation are modelled.
-/

namespace WolfHsm.She

open Utils (bytes32 read32)

/-- What the SHE code takes from wolfCrypt. -/
structure Crypto where
  /-- AES-128 encryption of one block (`wc_AesEncryptDirect`): key, block. -/
  enc : List UInt8 → List UInt8 → List UInt8
  /-- AES-128 decryption of one block. -/
  dec : List UInt8 → List UInt8 → List UInt8
  /-- AES-CMAC: key, message. -/
  cmac : List UInt8 → List UInt8 → List UInt8
  /-- `wc_AesCmacVerify_ex` answers 0: key, message, MAC. -/
  cmacVerify : List UInt8 → List UInt8 → List UInt8 → Bool

/-- Byte-wise exclusive or. -/
def xorBytes (a b : List UInt8) : List UInt8 := List.zipWith (· ^^^ ·) a b

/-- `n` zero bytes. -/
def zeros (n : Nat) : List UInt8 := List.replicate n 0

/-- A block of at most 16 bytes, zero padded, src/wh_she_crypto.c:72-77. -/
def padBlock (b : List UInt8) : List UInt8 := b ++ zeros (16 - b.length)

/-- The loop of `wh_She_AesMp16_ex`, src/wh_she_crypto.c:70-97: `n` blocks, `prev` the previous
output. -/
def mpLoop (cr : Crypto) : Nat → List UInt8 → List UInt8 → List UInt8
  | 0, _, prev => prev
  | n + 1, inp, prev =>
    let b := padBlock (inp.take 16)
    mpLoop cr n (inp.drop 16) (xorBytes (xorBytes (cr.enc prev b) b) prev)

/-- `wh_She_AesMp16_ex`, src/wh_she_crypto.c:53-101, when no AES call fails. -/
def mp16 (cr : Crypto) (inp : List UInt8) : List UInt8 :=
  mpLoop cr ((inp.length + 15) / 16) inp (zeros 16)

/-- `wc_AesEcbEncrypt` of `n` blocks. -/
def ecbEnc (cr : Crypto) (key : List UInt8) : Nat → List UInt8 → List UInt8
  | 0, _ => []
  | n + 1, d => cr.enc key (d.take 16) ++ ecbEnc cr key n (d.drop 16)

/-- `wc_AesEcbDecrypt` of `n` blocks. -/
def ecbDec (cr : Crypto) (key : List UInt8) : Nat → List UInt8 → List UInt8
  | 0, _ => []
  | n + 1, d => cr.dec key (d.take 16) ++ ecbDec cr key n (d.drop 16)

/-- `wc_AesCbcEncrypt` of `n` blocks. -/
def cbcEnc (cr : Crypto) (key : List UInt8) : Nat → List UInt8 → List UInt8 → List UInt8
  | 0, _, _ => []
  | n + 1, iv, d =>
    let c := cr.enc key (xorBytes (d.take 16) iv)
    c ++ cbcEnc cr key n c (d.drop 16)

/-- `wc_AesCbcDecrypt` of `n` blocks. -/
def cbcDec (cr : Crypto) (key : List UInt8) : Nat → List UInt8 → List UInt8 → List UInt8
  | 0, _, _ => []
  | n + 1, iv, d => xorBytes (cr.dec key (d.take 16)) iv ++ cbcDec cr key n (d.take 16) (d.drop 16)

/-- `WH_SHE_KEY_UPDATE_ENC_C`, wolfhsm/wh_she_common.h:107-110. -/
def encC : List UInt8 := [0x01, 0x01, 0x53, 0x48, 0x45, 0x00, 0x80, 0, 0, 0, 0, 0, 0, 0, 0, 0xB0]
/-- `WH_SHE_KEY_UPDATE_MAC_C`, wolfhsm/wh_she_common.h:111-114. -/
def macC : List UInt8 := [0x01, 0x02, 0x53, 0x48, 0x45, 0x00, 0x80, 0, 0, 0, 0, 0, 0, 0, 0, 0xB0]
/-- `WH_SHE_PRNG_KEY_C`, wolfhsm/wh_she_common.h:115-118. -/
def prngKeyC : List UInt8 := [0x01, 0x04, 0x53, 0x48, 0x45, 0x00, 0x80, 0, 0, 0, 0, 0, 0, 0, 0, 0xB0]
/-- `WH_SHE_PRNG_SEED_KEY_C`, wolfhsm/wh_she_common.h:119-122. -/
def prngSeedC : List UInt8 := [0x01, 0x05, 0x53, 0x48, 0x45, 0x00, 0x80, 0, 0, 0, 0, 0, 0, 0, 0, 0xB0]

/-- The five messages of a key update. -/
structure Update where
  m1 : List UInt8
  m2 : List UInt8
  m3 : List UInt8
  m4 : List UInt8
  m5 : List UInt8
deriving DecidableEq

/-- The last byte of M1 and M4: `(keyId << 4) | authKeyId` in eight bits. -/
def idByte (keyId authId : UInt8) : UInt8 := (keyId <<< 4) ||| authId

/-- `wh_She_GenerateLoadableKey`, src/wh_she_crypto.c:109-258, when no AES call fails: `none` for
the argument error.  `key` and `authKey` have 16 bytes, `uid` 15. -/
def generate (cr : Crypto) (keyId authId : UInt8) (count flags : UInt32) (uid key authKey : List UInt8) :
    Option Update :=
  if keyId > 15 ∨ authId > 15 then none
  else
    let m1 := uid ++ [idByte keyId authId]
    let clear := bytes32 false ((count <<< 4) ||| flags) ++ zeros 12 ++ key
    let m2 := cbcEnc cr (mp16 cr (authKey ++ encC)) 2 (zeros 16) clear
    let m3 := cr.cmac (mp16 cr (authKey ++ macC)) (m1 ++ m2)
    let m4 := uid ++ [idByte keyId authId] ++
      cr.enc (mp16 cr (key ++ encC)) (bytes32 false ((count <<< 4) ||| 8) ++ zeros 12)
    some ⟨m1, m2, m3, m4, cr.cmac (mp16 cr (key ++ macC)) m4⟩

end WolfHsm.She

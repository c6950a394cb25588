import Verif.Model.CryptoMsg

/-!
# Specification vocabulary for crypto packets (C25, C27, C44)
-/

namespace WolfHsm.CryptoMsg

open Server (Req)
open Crypto (Alg AesMode Lib)

/-- Bytes of the request structure of each operation, `sizeof(whMessageCrypto_…Request)`. -/
def structSize : Op → Nat
  | .aes .ctr => 20
  | .aes .ecb => 16
  | .aes .cbc => 16
  | .aes .gcm => 28
  | .keyGen .rsa => 40
  | .keyGen .ecc => 44
  | .keyGen .curve25519 => 36
  | .keyGen .ed25519 => 36
  | .keyGen .mldsa => 44
  | .keyGen .mlkem => 40
  | .rsa => 20
  | .rsaGetSize => 8
  | .secretEcc => 44
  | .secret25519 => 48
  | .signEcc => 12
  | .signEd => 20
  | .signMlDsa => 24
  | .verifyEcc => 16
  | .verifyEd => 24
  | .verifyMlDsa => 32
  | .makePub => 8
  | .checkPub => 16
  | .encaps => 16
  | .decaps => 16
  | .rng => 4
  | .hkdf => 56
  | .cmacKdf => 56
  | .cmac => 56
  | .sha256 _ => 48
  | .sha384 _ => 84
  | .sha512 => 84
  | .sha3 _ => 208

/-- The `i`-th 32-bit field of the request structure, in the byte order of the sender. -/
def word (le : Bool) (r : Req) (i : Nat) : Nat := (Wire.rd32 le r.magic r.buf (12 + 4 * i)).toNat

/-- The data a request announces behind its structure: the sum of its length fields, and the IV and
counter blocks of AES. -/
def announced (le : Bool) (r : Req) : Op → Nat
  | .aes .ctr => word le r 2 + word le r 1 + 32
  | .aes .ecb => word le r 2 + word le r 1
  | .aes .cbc => word le r 2 + word le r 1 + 16
  | .aes .gcm => word le r 2 + word le r 1 + word le r 3 + word le r 4 + if word le r 0 = 0 then word le r 5 else 0
  | .rsa => word le r 3
  | .signEcc => word le r 2
  | .signEd => word le r 2 + word le r 4
  | .signMlDsa => word le r 3 + word le r 4
  | .verifyEcc => word le r 2 + word le r 3
  | .verifyEd => word le r 2 + word le r 3 + word le r 5
  | .verifyMlDsa => word le r 3 + word le r 4 + word le r 5
  | .checkPub => word le r 3
  | .decaps => word le r 3
  | .hkdf => word le r 4 + word le r 5 + word le r 6
  | .cmacKdf => word le r 4 + word le r 5 + word le r 6
  | .cmac => word le r 1 + word le r 2
  | .sha256 _ => word le r 11
  | .sha384 _ => word le r 20
  | .sha512 => word le r 20
  | .sha3 _ => word le r 1
  | _ => 0

/-- The packet holds its header, its structure and what it announces. -/
def Complete (le : Bool) (r : Req) (op : Op) : Prop :=
  12 + structSize op ≤ r.size ∧ 12 + structSize op + announced le r op ≤ r.size

/-- The tag length inside the extra data of GCM. -/
def gcmTag (extra : List UInt8) : Nat := ((Utils.read32 true ((extra.drop 8).take 4)).getD 0).toNat

/-- What follows the bulk output of AES. -/
def tailSize (enc : Bool) (extra : List UInt8) : AesMode → Nat
  | .ctr => 32
  | .ecb => 0
  | .cbc => 16
  | .gcm => if enc then gcmTag extra else 0

/-- The sizes of the library's results: AES and KDF output as long as asked for, MACs of at most a
block, GCM tags of at most 16 bytes; and the keys, secrets and signatures of the algorithms built
in are at most `n` bytes. -/
structure Small (L : Lib) (n : Nat) : Prop where
  privateDer : ∀ a m o b, L.privateDer a m o = .ok b → b.length ≤ n
  publicDer : ∀ a m o b, L.publicDer a m o = .ok b → b.length ≤ n
  rsa : ∀ op m k i c b, L.rsa op m k i c = .ok b → b.length ≤ n
  secret : ∀ a o m k p b, L.secret a o m k p = .ok b → b.length ≤ n
  sign : ∀ a o m k i x c b, L.sign a o m k i x c = .ok b → b.length ≤ n
  publicFrom : ∀ m k b, L.publicFrom m k = .ok b → b.length ≤ n
  makePub : ∀ m k c b, L.makePub m k c = .ok b → b.length ≤ n
  encaps : ∀ p k c ct ss, L.encaps p k c = .ok (ct, ss) → ct.length + ss.length ≤ n
  decaps : ∀ p k ct ss, L.decaps p k ct = .ok ss → ss.length ≤ n
  hkdf : ∀ h m k s i z b, L.hkdf h m k s i z = .ok b → b.length = z
  cmacKdf : ∀ m s z i k b, L.cmacKdf m s z i k = .ok b → b.length = k
  aes : ∀ mode e l k i x out tail, L.aes mode e l k i x = .ok (out, tail) →
    out.length = i.length ∧ tail.length = tailSize e x mode
  tag : ∀ l k i x q, L.aes .gcm true l k i x = .ok q → gcmTag x ≤ 16
  cmac : ∀ k i z b, L.cmac k i z = .ok b → b.length ≤ 16
  cmacFinal : ∀ k s i z b, L.cmacFinal k s i z = .ok b → b.length ≤ 16

/-- The library's results leave room for headers in a packet of `dataLen` bytes, and the generator
gives as many bytes as it is asked for. -/
structure Roomy (cfg : Cfg) (dataLen : Nat) : Prop where
  small : Small cfg.lib (dataLen - 20)
  room : 510 ≤ dataLen
  short : dataLen < 65536
  comm : cfg.crypto.ks.commLen = dataLen

/-- The generator gives no more bytes than asked for. -/
def Env.Fair (e : Env) : Prop := ∀ n b, e.random n = .ok b → b.length ≤ n

end WolfHsm.CryptoMsg

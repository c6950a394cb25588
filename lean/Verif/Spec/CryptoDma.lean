import Verif.Model.CryptoDma
import Verif.Spec.CryptoMsg

/-!
# Specification vocabulary for DMA crypto packets (C27, C39, C44, C55)
-/

namespace WolfHsm.CryptoDma

open Server (Req)
open Crypto (AesMode)
open CryptoMsg (word tailSize gcmTag)

/-- Bytes of the request structure of each operation, `sizeof(whMessageCrypto_…DmaRequest)`. -/
def structSize : Op → Nat
  | .aes .gcm => 72
  | .aes _ => 48
  | .keyGenMlDsa => 64
  | .keyGenMlKem => 64
  | .signMlDsa => 56
  | .verifyMlDsa => 56
  | .signEd => 64
  | .verifyEd => 64
  | .encaps => 32
  | .decaps => 32
  | .cmac => 72
  | .rng => 16
  | .sha256 _ => 64
  | .sha384 _ => 104
  | .sha512 => 104
  | .sha3 _ => 224
  | .sigGen _ => 104
  | .sigSign _ => 40
  | .sigVerify _ => 40
  | .sigLeft _ => 4

/-- The data a request announces behind its structure: the sum of its length fields, and the IV and
counter blocks of AES. -/
def announced (le : Bool) (r : Req) : Op → Nat
  | .aes .ecb => word le r 10
  | .aes .cbc => 16 + word le r 10
  | .aes .ctr => 32 + word le r 11
  | .aes .gcm => word le r 15 + word le r 14 + if word le r 12 = 0 then word le r 16 else 0
  | .signMlDsa | .verifyMlDsa => word le r 11
  | .signEd | .verifyEd => word le r 15
  | .cmac => word le r 16 + word le r 15
  | .sha256 _ => word le r 15
  | .sha384 _ | .sha512 => word le r 25
  | .sha3 _ => word le r 5
  | _ => 0

/-- The packet holds its header, its structure and what it announces. -/
def Complete (le : Bool) (r : Req) (op : Op) : Prop :=
  12 + structSize op ≤ r.size ∧ 12 + structSize op + announced le r op ≤ r.size

/-- The results that travel in the response are small: shared secrets leave room for headers, IV and
counter blocks have their sizes, tags and MACs are at most a block. -/
structure Roomy (cfg : Cfg) (dataLen : Nat) : Prop where
  room : 510 ≤ dataLen
  encaps : ∀ p k c ct ss, cfg.base.lib.encaps p k c = .ok (ct, ss) → ss.length + 36 ≤ dataLen
  decaps : ∀ p k ct ss, cfg.base.lib.decaps p k ct = .ok ss → ss.length + 36 ≤ dataLen
  aes : ∀ mode e l k i x out tail, cfg.base.lib.aes mode e l k i x = .ok (out, tail) →
    tail.length = tailSize e x mode
  tag : ∀ l k i x q, cfg.base.lib.aes .gcm true l k i x = .ok q → gcmTag x ≤ 16
  cmac : ∀ k i z b, cfg.base.lib.cmac k i z = .ok b → b.length ≤ 16
  cmacFinal : ∀ k s i z b, cfg.base.lib.cmacFinal k s i z = .ok b → b.length ≤ 16

/-- Results that go to client memory are not longer than the room the library is given, or than the
sizes fixed by the parameters. -/
structure Bounded (cfg : Cfg) (e : Env) : Prop where
  aes : ∀ mode enc l k i x out tail, cfg.base.lib.aes mode enc l k i x = .ok (out, tail) → out.length = i.length
  sign : ∀ a o max k m c z sig, cfg.base.lib.sign a o max k m c z = .ok sig → sig.length ≤ max
  privateDer : ∀ a max obj der, cfg.base.lib.privateDer a max obj = .ok der → der.length ≤ max
  publicDer : ∀ a max obj der, cfg.base.lib.publicDer a max obj = .ok der → der.length ≤ max
  kemPub : ∀ level coins obj max der, cfg.base.lib.gen .mlkem [level] coins = .ok obj →
    cfg.base.lib.publicDer .mlkem max obj = .ok der → der.length ≤ (cfg.kem (UInt32.ofNat level)).1.toNat
  encaps : ∀ level k coins ct ss, cfg.base.lib.encaps [level] k coins = .ok (ct, ss) →
    ct.length ≤ (cfg.kem (UInt32.ofNat level)).2.toNat
  random : ∀ n b, e.random n = .ok b → b.length ≤ n
  sigSign : ∀ a pub priv msg cap sig priv', (cfg.sigLib a).sign pub priv msg cap = .ok (sig, priv') → sig.length ≤ cap
  sigGen : ∀ a param pub priv n m, e.made a param = .ok (pub, priv) → (cfg.sigLib a).params param = .ok (n, m) →
    n < 18446744073709551616 ∧ pub.length ≤ n

/-- The bytes of buffer `b` in two client memories are equal. -/
def SameIn (m m' : UInt64 → UInt8) (b : Buf) : Prop :=
  ∀ i, i < b.sz.toNat → m' (b.addr + UInt64.ofNat i) = m (b.addr + UInt64.ofNat i)

end WolfHsm.CryptoDma

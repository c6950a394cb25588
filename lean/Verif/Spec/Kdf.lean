/-!
# Specification of the key derivation functions (C52)
-/

namespace WolfHsm.Kdf.Spec

/-- HKDF-Expand's blocks, RFC 5869 section 2.3: `T(0)` is empty and
`T(i) = HMAC(PRK, T(i-1) | info | i)`. -/
def hkdfT (hmac : List UInt8 → List UInt8 → List UInt8) (prk info : List UInt8) : Nat → List UInt8
  | 0 => []
  | i + 1 => hmac prk (hkdfT hmac prk info i ++ info ++ [UInt8.ofNat (i + 1)])

/-- `T(1) | T(2) | … | T(n)`. -/
def concat (T : Nat → List UInt8) (n : Nat) : List UInt8 := (List.range n).flatMap fun i => T (i + 1)

/-- HKDF, RFC 5869: extract with the salt (zeros if there is none), expand, and the first `outSz`
bytes of `N = ⌈outSz / h⌉` blocks. -/
def hkdf (hmac : List UInt8 → List UInt8 → List UInt8) (h : Nat) (ikm salt info : List UInt8)
    (outSz : Nat) : List UInt8 :=
  let prk := hmac (if salt = [] then List.replicate h 0 else salt) ikm
  (concat (hkdfT hmac prk info) ((outSz + h - 1) / h)).take outSz

/-- Two-step key derivation with CMAC, NIST SP 800-56C: the key-derivation key is
`CMAC(salt, z)`, and block `i` is `CMAC(key, i | info)` with a 32-bit counter. -/
def cmacKdf (cmac : List UInt8 → List UInt8 → List UInt8) (salt z info : List UInt8) (outSz : Nat) :
    List UInt8 :=
  (concat (fun i => cmac (cmac salt z) ([UInt8.ofNat (i / 2 ^ 24), UInt8.ofNat (i / 2 ^ 16),
    UInt8.ofNat (i / 2 ^ 8), UInt8.ofNat i] ++ info)) ((outSz + 15) / 16)).take outSz

end WolfHsm.Kdf.Spec

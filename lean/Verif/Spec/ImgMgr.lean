import Verif.Model.ImgMgr

/-!
# What a wolfBoot header says, and which images may be accepted

Written from the wolfBoot header format: four bytes "WOLF", the payload size (32 bits, little
endian), then fields of a 16-bit type, a 16-bit length (both little endian) and a value.  Fields
start at even offsets, bytes 0xFF between fields are padding, and a zero type ends the list.
-/

namespace WolfHsm.ImgMgr

/-- Little-endian number of the two bytes at `p` (0 outside the header). -/
def word (hdr : List UInt8) (p : Nat) : Nat := (hdr.getD p 0).toNat + 256 * (hdr.getD (p + 1) 0).toNat

/-- `p` is a padding position. -/
def Pad (hdr : List UInt8) (p : Nat) : Prop := p % 2 = 1 ∨ hdr.getD p 0 = 0xFF

instance (hdr : List UInt8) (p : Nat) : Decidable (Pad hdr p) := by unfold Pad; infer_instance

/-- What follows position `p`: one byte of padding, or a field. -/
def next (hdr : List UInt8) (p : Nat) : Nat := if Pad hdr p then p + 1 else p + 4 + word hdr (p + 2)

/-- The positions at which a reader of the header looks for a field. -/
inductive Chain (hdr : List UInt8) : Nat → Prop where
  | start : Chain hdr 8
  | next {p : Nat} : Chain hdr p → word hdr p ≠ 0 → Chain hdr (next hdr p)

/-- The first field of type `t` is at offset `p` and has value `v`; all of it is in the header. -/
structure Field (hdr : List UInt8) (t p : Nat) (v : List UInt8) : Prop where
  chain : Chain hdr p
  notPad : ¬ Pad hdr p
  type : word hdr p = t
  len : word hdr (p + 2) = v.length
  inside : p + 4 + v.length ≤ hdr.length
  value : (hdr.drop (p + 4)).take v.length = v
  first : ∀ q, q < p → Chain hdr q → ¬ Pad hdr q → word hdr q ≠ t

/-- The header starts with "WOLF" and declares a payload of `n` bytes. -/
def Declares (hdr : List UInt8) (n : Nat) : Prop :=
  hdr.take 4 = [0x57, 0x4F, 0x4C, 0x46] ∧ n = word hdr 4 + 65536 * word hdr 6

/-- A DigestInfo as the code understands it: a SEQUENCE holding a SEQUENCE (the algorithm, any) and
an OCTET STRING of the digest; anything may follow, and the length of the outer SEQUENCE only has to
fit. -/
def LaxDigestInfo (block digest : List UInt8) : Prop :=
  ∃ (tot : UInt8) (algo rest : List UInt8),
    algo.length < 256 ∧ digest.length < 256 ∧ tot.toNat + 2 ≤ block.length ∧
    block = [0x30, tot, 0x30, UInt8.ofNat algo.length] ++ algo ++
      [0x04, UInt8.ofNat digest.length] ++ digest ++ rest

/-- The RSA signature is by the holder of `key` over `digest`: the block recovered from it is the
bare digest, or (if longer) a DigestInfo containing it. -/
def Signed (c : Crypto) (key sig digest : List UInt8) : Prop :=
  sig.length = 512 ∧ c.rsaKeyOk key = true ∧
    ∃ block, c.rsaRecover key sig = some block ∧
      (block = digest ∨ (digest.length < block.length ∧ LaxDigestInfo block digest))

/-- The image may be accepted with `key`: the header is well formed, its hash field is the hash of
everything before that field followed by the whole declared payload, the key is the one the header
names, and the signature in the header is by that key over that hash. -/
def Acceptable (c : Crypto) (hdr payload key : List UInt8) : Prop :=
  ∃ n pType type pSha sha pSig sig pHint,
    Declares hdr n ∧ n ≤ payload.length ∧
    Field hdr 0x04 pType type ∧ type.length = 2 ∧ type.getD 1 0 = 0x04 ∧
    Field hdr 0x03 pSha sha ∧ sha.length = 32 ∧ sha = c.sha (hdr.take pSha ++ payload.take n) ∧
    Field hdr 0x10 pHint (c.sha key) ∧ (c.sha key).length = 32 ∧
    Field hdr 0x20 pSig sig ∧ Signed c key sig sha

/-- `m` is what the hash of the image is computed over. -/
def Hashed (hdr payload m : List UInt8) : Prop :=
  ∃ n p v, Declares hdr n ∧ Field hdr 0x03 p v ∧ m = hdr.take p ++ payload.take n

end WolfHsm.ImgMgr

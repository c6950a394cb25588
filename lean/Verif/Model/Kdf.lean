import Verif.Model.Basic

/-!
# Key derivation inside the communication buffer

`_HandleHkdf` and `_HandleCmacKdf` (src/wh_server_crypto.c:2139-2442) hand the crypto library input
and output pointers into the communication buffer.  Request and response are the same buffer
(src/wh_server.c:573, 670-685): the output starts at 12 + 8 bytes, where 12 is the response header
and 8 the response structure (:2196-2197, :2343-2344), and the context information follows the
request header, the 56-byte request structure and the inline inputs (:2186-2190, :2333-2337).  So
the information starts `room` = 48 + inline inputs bytes after the output.

The library is not part of /repo.  Modelled is what matters here: it computes the output block by
block, reading the information again for each, and writes each block before the next
(`wc_HKDF_Expand_ex`, `wc_KDA_KDF_PRF_cmac`).
-/

namespace WolfHsm.Kdf

/-- The buffer from the output position on. -/
abbrev Mem := Nat → UInt8

/-- `n` bytes at `off`. -/
def readAt (m : Mem) (off n : Nat) : List UInt8 := (List.range n).map fun i => m (off + i)

/-- `memcpy` to the buffer. -/
def writeAt (m : Mem) (off : Nat) (bs : List UInt8) : Mem := fun i =>
  if off ≤ i ∧ i < off + bs.length then bs.getD (i - off) 0 else m i

/-- An expansion step: the previous block, the information and the block number, from 1. -/
abbrev Step := (prev info : List UInt8) → Nat → List UInt8

/-- `k` more blocks of length `h` after `n`. -/
def expand (step : Step) (h room infoSz outSz : Nat) :
    (k n : Nat) → (prev : List UInt8) → Mem → Mem
  | 0, _, _, m => m
  | k + 1, n, prev, m =>
    let t := step prev (readAt m room infoSz) (n + 1)
    expand step h room infoSz outSz k (n + 1) t (writeAt m (n * h) (t.take (outSz - n * h)))

/-- Number of blocks. -/
def blocks (h outSz : Nat) : Nat := (outSz + h - 1) / h

/-- The whole expansion in the shared buffer. -/
def shared (step : Step) (h room : Nat) (info : List UInt8) (outSz : Nat) : List UInt8 :=
  readAt (expand step h room info.length outSz (blocks h outSz) 0 []
    fun i => if room ≤ i then info.getD (i - room) 0 else 0) 0 outSz

/-- `wc_HKDF` as `_HandleHkdf` calls it, src/wh_server_crypto.c:2225-2226: extract, then expand.
`hmac`: HMAC with the hash asked for; `h`: its length.  More than 255 blocks are refused. -/
def hkdf (hmac : Nat → List UInt8 → List UInt8 → List UInt8) (h : Nat → Nat) (hash room : Nat)
    (ikm salt info : List UInt8) (outSz : Nat) : Except Rc (List UInt8) :=
  if blocks (h hash) outSz > 255 then .error .badargs
  else
    let prk := hmac hash (if salt = [] then List.replicate (h hash) 0 else salt) ikm
    .ok (shared (fun prev info n => hmac hash prk (prev ++ info ++ [UInt8.ofNat n])) (h hash) room
      info outSz)

/-- A 32-bit counter, most significant byte first. -/
def be32 (n : Nat) : List UInt8 :=
  [UInt8.ofNat (n / 2 ^ 24), UInt8.ofNat (n / 2 ^ 16), UInt8.ofNat (n / 2 ^ 8), UInt8.ofNat n]

/-- `wc_KDA_KDF_twostep_cmac` as `_HandleCmacKdf` calls it, src/wh_server_crypto.c:2393-2396. -/
def cmacKdf (cmac : List UInt8 → List UInt8 → List UInt8) (room : Nat) (salt z info : List UInt8)
    (outSz : Nat) : Except Rc (List UInt8) :=
  let kdk := cmac salt z
  .ok (shared (fun _ info n => cmac kdk (be32 n ++ info)) 16 room info outSz)

end WolfHsm.Kdf

import Verif.Model.ClientHash
import Verif.Model.CryptoDma

/-!
# Hashing through the server, input by DMA: the client side, `src/wh_client_crypto.c`

SHA-256 (6891-7193), SHA-224 (7494-7778), SHA-384 (8081-8367), SHA-512 (8699-9018) and SHA-3
(9521-9818).  The context is that of the functions in `Model/ClientHash.lean`, so both kinds of
functions may be used on one context.  Whole blocks of the input stay where they are and the server
fetches them; what completes a block begun earlier, and the last bytes, go in the packet.

NULL checks, the loops around NOTREADY and the calls of the DMA callback after the operation, whose
result the client ignores, are left out.
-/

namespace WolfHsm.ClientHash

open Wire
open CryptoDma (Buf)

/-- What the DMA variants differ in beside block size and initial state, which are those of `Proto`. -/
structure Lane (σ : Type) where
  request : (last : Bool) → σ → (inline : List UInt8) → Buf → List UInt8
  chain : List UInt8 → Ret × Option σ
  digest : List UInt8 → Ret × Option (List UInt8)

/-- The surroundings of the client.  `pre`: `wh_Client_DmaProcessClientAddress` before the request
(src/wh_client_dma.c:68-98), the address for the server or an error.  `send`: what becomes of a
request: `mem` is the client's memory, `src` the address in it of the buffer that the request names
with its address for the server (`asyncCtx.sha.clientAddr`). -/
structure Host where
  pre : Nat → UInt64 → Nat → Except Ret UInt64
  send : Nat → (mem : UInt64 → UInt8) → (src : UInt64) → Buf → (body : List UInt8) → Reply

/-- `n` bytes of memory. -/
def bytesOf (mem : UInt64 → UInt8) (a : UInt64) (n : Nat) : List UInt8 :=
  (List.range n).map fun i => mem (a + UInt64.ofNat i)

/-- How an input is divided: `inline` in the packet, `sz` bytes from `off` on by DMA, `tail` in the
context. -/
structure Cut where
  inline : List UInt8
  off : Nat
  sz : Nat
  tail : List UInt8
deriving DecidableEq

variable {σ : Type}

/-- The whole blocks in `n` bytes, src/wh_client_crypto.c:6955-6960. -/
def whole (block n : Nat) : Nat := if block ≤ n then n / block * block else 0

/-- src/wh_client_crypto.c:6942-6966: top up the buffered block, send it if full, leave whole blocks to
DMA, buffer the rest. -/
def cut (block : Nat) (buf inp : List UInt8) : Cut :=
  let n := if buf.length > 0 then min (block - buf.length) inp.length else 0
  let top := buf ++ inp.take n
  let full := buf.length > 0 ∧ top.length = block
  let rest := inp.drop n
  let sz := whole block rest.length
  ⟨if full then top else [], n, sz, (if full then [] else top) ++ rest.drop sz⟩

/-- `…DmaUpdateRequest` and `…DmaUpdateResponse`, src/wh_client_crypto.c:6891-7076, 9521-9685, for
`n` bytes at address `a`. -/
def updateDma (p : Proto σ) (d : Lane σ) (h : Host) (k : Nat) (st : St σ) (mem : UInt64 → UInt8) (a : UInt64) (n : Nat) :
    Ret × St σ × Nat :=
  if p.block ≤ st.buf.length then (Rc.badargs.code, st, k)
  else if n = 0 then (0, st, k)
  else
    let q := cut p.block st.buf (bytesOf mem a n)
    if q.inline.length = 0 ∧ q.sz = 0 then (0, { st with buf := q.tail }, k)
    else
      let src := if q.sz = 0 then 0 else a + UInt64.ofNat q.off
      match (if q.sz = 0 then .ok 0 else h.pre k src q.sz) with
      | .error rc => (rc, st, k + 1)
      | .ok addr =>
        match h.send k mem src ⟨addr, UInt64.ofNat q.sz⟩
            (d.request false st.chain q.inline ⟨addr, UInt64.ofNat q.sz⟩) with
        | .unsent rc => (rc, st, k + 1)
        | .lost rc => (rc, { st with buf := q.tail }, k + 1)
        | .got resp =>
          match d.chain resp with
          | (rc, some c) => (rc, ⟨c, q.tail⟩, k + 1)
          | (rc, none) => (rc, { st with buf := q.tail }, k + 1)

/-- `…DmaFinalRequest` and `…DmaFinalResponse`, src/wh_client_crypto.c:7078-7169, 9687-9774. -/
def finalDma (p : Proto σ) (d : Lane σ) (h : Host) (k : Nat) (st : St σ) (mem : UInt64 → UInt8) :
    (Ret × Option (List UInt8)) × St σ × Nat :=
  if p.block ≤ st.buf.length then ((Rc.badargs.code, none), st, k)
  else
    match h.send k mem 0 ⟨0, 0⟩ (d.request true st.chain st.buf ⟨0, 0⟩) with
    | .unsent rc => ((rc, none), st, k + 1)
    | .lost rc => ((rc, none), st, k + 1)
    | .got resp =>
      match d.digest resp with
      | (rc, some g) => ((rc, some g), ⟨p.init, []⟩, k + 1)
      | (rc, none) => ((rc, none), st, k + 1)

/-- `wh_Client_Sha256Dma` and its SHA-2 siblings, src/wh_client_crypto.c:7171-7193. -/
def hashDma (p : Proto σ) (d : Lane σ) (h : Host) (k : Nat) (st : St σ) (mem : UInt64 → UInt8) (a : UInt64) (n : Nat)
    (out : Bool) : (Ret × Option (List UInt8)) × St σ × Nat :=
  let q := if n = 0 then (0, st, k) else updateDma p d h k st mem a n
  if q.1 = 0 ∧ out = true then finalDma p d h q.2.2 q.2.1 mem else ((q.1, none), q.2)

/-- `_Sha3DmaOneshot`, src/wh_client_crypto.c:9776-9818: the same, and an error restores the state. -/
def hashDma3 (p : Proto σ) (d : Lane σ) (h : Host) (k : Nat) (st : St σ) (mem : UInt64 → UInt8) (a : UInt64) (n : Nat)
    (out : Bool) : (Ret × Option (List UInt8)) × St σ × Nat :=
  let q := hashDma p d h k st mem a n out
  if q.1.1 = 0 then q else (q.1, st, q.2.2)

/-! ## Layouts -/

/-- A `whMessageCrypto_DmaBuffer` the client writes. -/
def putBuf (cle : Bool) (b : Buf) : List UInt8 := w64 cle Utils.magicNative b.addr ++ w64 cle Utils.magicNative b.sz

/-- Bytes of the request structure: 64 or 104. -/
def Sha2.dmaStruct (v : Sha2) : Nat := if v.wide then 104 else 64

/-- Messages of the SHA-2 functions, `wolfhsm/wh_message_crypto.h:1301-1349`.  `pad`: what the packet
buffer held where the wide layout has padding. -/
def Sha2.lane (v : Sha2) (cle : Bool) (pad : List UInt8) : Lane (UInt32 × UInt32 × List UInt8) where
  request last c inp b :=
    head cle v.type v.affinity ++ put32 cle c.1 ++ put32 cle c.2.1 ++ c.2.2 ++
      (if v.wide then put32 cle v.variant ++ pad else []) ++ putBuf cle b ++
      put32 cle (if last then 1 else 0) ++ put32 cle (UInt32.ofNat inp.length) ++ inp
  chain r := response cle v.type 96 r <|
    if v.accepts (get32 cle r 100) then some (get32 cle r 92, get32 cle r 96, rdBytes r 28 v.words) else none
  digest r := response cle v.type 96 r <|
    if v.accepts (get32 cle r 100) then some (rdBytes r 28 v.size) else none

/-- Messages of the SHA-3 functions, `wolfhsm/wh_message_crypto.h:1366-1390`. -/
def Sha3.lane (v : Sha3) (cle : Bool) : Lane (List UInt64) where
  request last c inp b :=
    head cle v.type v.affinity ++ putBuf cle b ++ put32 cle (if last then 1 else 0) ++
      put32 cle (UInt32.ofNat inp.length) ++ c.flatMap (w64 cle Utils.magicNative) ++ inp
  chain r := response cle v.type 280 r <|
    some ((List.range 25).map fun i => rd64 cle Utils.magicNative r (12 + 8 * i))
  digest r := response cle v.type 280 r <| some (rdBytes r 228 v.size)

end WolfHsm.ClientHash

import Verif.Model.Wire

/-!
# Hashing through the server: the client side of SHA-2 and SHA-3, `src/wh_client_crypto.c`

The client keeps the chaining state and the beginning of a block; the server gets both with each
request and forgets them.  The functions for SHA-256 (6604-6887), SHA-224 (7204-7490), SHA-384
(7789-8077), SHA-512 (8379-8695) and SHA-3 (9062-9389) are the same except for the layout of the
messages, so there is one model of the streaming, `update`, `final`, `hash`, with the layout as a
parameter, `Proto`.

NULL checks are left out, and so are the loops around NOTREADY: `Reply` is the outcome after them.
A response shorter than its header is read as if followed by zeros (the client reads what its
buffer holds; every way it ends in an error).  The DMA variants are in `Model/ClientHashDma.lean`.
-/

namespace WolfHsm.ClientHash

open Wire

/-- An `int` a client function returns; 0 is OK. -/
abbrev Ret := UInt32

/-- What became of a request: it could not be sent, it was sent and no response was obtained, or there
is a response. -/
inductive Reply where
  | unsent (rc : Ret)
  | lost (rc : Ret)
  | got (resp : List UInt8)

/-- What the variants differ in; `σ`: chaining state. -/
structure Proto (σ : Type) where
  /-- `WC_…_BLOCK_SIZE` -/
  block : Nat
  /-- `WH_MESSAGE_CRYPTO_…_MAX_INLINE_UPDATE_SZ` -/
  maxInline : Nat
  /-- `wc_Init…` -/
  init : σ
  request : (last : Bool) → σ → (input : List UInt8) → List UInt8
  /-- `…UpdateResponse`: the return code and the new chaining state, if it is taken over -/
  chain : List UInt8 → Ret × Option σ
  /-- `…FinalResponse`: the return code and the digest, if it is copied out -/
  digest : List UInt8 → Ret × Option (List UInt8)

/-- `wc_Sha256` and so on: chaining state and buffered bytes. -/
structure St (σ : Type) where
  chain : σ
  buf : List UInt8
deriving DecidableEq

variable {σ : Type}

/-- `_Sha256UpdatePerCallCapacity`, src/wh_client_crypto.c:6604-6608; 9062-9066. -/
def capacity (p : Proto σ) (st : St σ) : Nat := p.maxInline + (p.block - 1 - st.buf.length)

/-- The loop that copies whole blocks of the input, src/wh_client_crypto.c:6680-6686.  `pos`: bytes
already in the message.  Result: what it copies and what it leaves. -/
def blocks (block max : Nat) : (fuel pos : Nat) → List UInt8 → List UInt8 × List UInt8
  | 0, _, rest => ([], rest)
  | n + 1, pos, rest =>
    if block ≤ rest.length ∧ pos + block ≤ max then
      let q := blocks block max n (pos + block) (rest.drop block)
      (rest.take block ++ q.1, q.2)
    else ([], rest)

/-- src/wh_client_crypto.c:6663-6692: top up the buffered block, send it if full, send whole blocks of
the input, buffer the rest.  Result: bytes to send, buffer. -/
def pack (p : Proto σ) (buf inp : List UInt8) : List UInt8 × List UInt8 :=
  let n := if buf.length > 0 then min (p.block - buf.length) inp.length else 0
  let top := buf ++ inp.take n
  let full := buf.length > 0 ∧ top.length = p.block
  let first := if full then top else []
  let kept := if full then [] else top
  let q := blocks p.block p.maxInline inp.length first.length (inp.drop n)
  (first ++ q.1, kept ++ q.2)

/-- `…UpdateRequest` and `…UpdateResponse`, src/wh_client_crypto.c:6611-6761, 9084-9218.  `k`: number
of requests before this one. -/
def update (p : Proto σ) (peer : Nat → List UInt8 → Reply) (k : Nat) (st : St σ) (inp : List UInt8) :
    Ret × St σ × Nat :=
  if p.block ≤ st.buf.length ∨ capacity p st < inp.length then (Rc.badargs.code, st, k)
  else if inp.length = 0 then (0, st, k)
  else
    let q := pack p st.buf inp
    if q.1.length = 0 then (0, { st with buf := q.2 }, k)
    else
      match peer k (p.request false st.chain q.1) with
      | .unsent rc => (rc, st, k + 1)
      | .lost rc => (rc, { st with buf := q.2 }, k + 1)
      | .got resp =>
        match p.chain resp with
        | (rc, some c) => (rc, ⟨c, q.2⟩, k + 1)
        | (rc, none) => (rc, { st with buf := q.2 }, k + 1)

/-- `…FinalRequest` and `…FinalResponse`, src/wh_client_crypto.c:6763-6842, 9220-9302. -/
def final (p : Proto σ) (peer : Nat → List UInt8 → Reply) (k : Nat) (st : St σ) :
    (Ret × Option (List UInt8)) × St σ × Nat :=
  if p.block ≤ st.buf.length then ((Rc.badargs.code, none), st, k)
  else
    match peer k (p.request true st.chain st.buf) with
    | .unsent rc => ((rc, none), st, k + 1)
    | .lost rc => ((rc, none), st, k + 1)
    | .got resp =>
      match p.digest resp with
      | (rc, some d) => ((rc, some d), ⟨p.init, []⟩, k + 1)
      | (rc, none) => ((rc, none), st, k + 1)

/-- The update loop of `wh_Client_Sha256`, src/wh_client_crypto.c:6851-6875, with as many rounds as
there are bytes. -/
def absorb (p : Proto σ) (peer : Nat → List UInt8 → Reply) :
    (fuel k : Nat) → St σ → List UInt8 → Ret × St σ × Nat
  | 0, k, st, _ => (0, st, k)
  | n + 1, k, st, inp =>
    if inp.length = 0 then (0, st, k)
    else
      let c := capacity p st
      let q := update p peer k st (inp.take c)
      if q.1 = 0 then absorb p peer n q.2.2 q.2.1 (inp.drop c) else q

/-- `wh_Client_Sha256` and its SHA-2 siblings, src/wh_client_crypto.c:6844-6887: update with `inp`,
then, if `out`, finalize. -/
def hash (p : Proto σ) (peer : Nat → List UInt8 → Reply) (k : Nat) (st : St σ) (inp : List UInt8) (out : Bool) :
    (Ret × Option (List UInt8)) × St σ × Nat :=
  let q := absorb p peer inp.length k st inp
  if q.1 = 0 ∧ out = true then final p peer q.2.2 q.2.1 else ((q.1, none), q.2)

/-- `_Sha3Oneshot`, src/wh_client_crypto.c:9326-9389: the same, and an error restores the state. -/
def hash3 (p : Proto σ) (peer : Nat → List UInt8 → Reply) (k : Nat) (st : St σ) (inp : List UInt8) (out : Bool) :
    (Ret × Option (List UInt8)) × St σ × Nat :=
  let q := hash p peer k st inp out
  if q.1.1 = 0 then q else (q.1, st, q.2.2)

/-! ## Layouts -/

/-- A field the client writes in its own byte order. -/
def put32 (cle : Bool) (v : UInt32) : List UInt8 := w32 cle Utils.magicNative v
/-- A field the client reads. -/
def get32 (cle : Bool) (r : List UInt8) (off : Nat) : UInt32 := rd32 cle Utils.magicNative r off

/-- `_createCryptoRequest`, src/wh_client_crypto.c:161-180. -/
def head (cle : Bool) (type affinity : UInt32) : List UInt8 :=
  put32 cle type ++ put32 cle 0 ++ put32 cle affinity

/-- `_getCryptoResponse`, src/wh_client_crypto.c:183-199, and the check of the response's size that
follows it.  `k`: what is done with a response of at least `size` bytes behind the header. -/
def response {α : Type} (cle : Bool) (type : UInt32) (size : Nat) (r : List UInt8) (k : Option α) :
    Ret × Option α :=
  if get32 cle r 0 ≠ type then (Rc.aborted.code, none)
  else
    let rc := get32 cle r 4
    if rc ≥ 0x80000000 then (rc, none)
    else if r.length < 12 + size then (Rc.aborted.code, none)
    else match k with
      | none => (Rc.aborted.code, none)
      | some a => (rc, some a)

/-- A SHA-2 variant.  `wide`: the layout of SHA-512 and SHA-384, `wolfhsm/wh_message_crypto.h:806-907`. -/
structure Sha2 where
  wide : Bool
  /-- `algoType` of the messages -/
  type : UInt32
  /-- `hashType` of the context, sent along in the wide layout -/
  variant : UInt32
  /-- `hashType` accepted in responses -/
  accepts : UInt32 → Bool
  /-- bytes of digest copied to the caller -/
  size : Nat
  /-- `WOLFHSM_CFG_COMM_DATA_LEN` -/
  dataLen : Nat
  affinity : UInt32
  /-- bit counters and digest words of `wc_Init…`, the words as they are in memory -/
  iv : UInt32 × UInt32 × List UInt8

/-- Bytes in a block: 64 or 128. -/
def Sha2.block (v : Sha2) : Nat := if v.wide then 128 else 64
/-- Bytes of chaining state: 32 or 64. -/
def Sha2.words (v : Sha2) : Nat := if v.wide then 64 else 32
/-- Bytes of the request structure: 48 or 84. -/
def Sha2.struct (v : Sha2) : Nat := if v.wide then 84 else 48

/-- Messages of the SHA-2 functions. -/
def Sha2.proto (v : Sha2) (cle : Bool) : Proto (UInt32 × UInt32 × List UInt8) where
  block := v.block
  maxInline := (v.dataLen - 12 - v.struct) / v.block * v.block
  init := v.iv
  request last c inp :=
    head cle v.type v.affinity ++ put32 cle c.1 ++ put32 cle c.2.1 ++ c.2.2 ++
      (if v.wide then put32 cle v.variant else []) ++
      put32 cle (if last then 1 else 0) ++ put32 cle (UInt32.ofNat inp.length) ++ inp
  chain r := response cle v.type 76 r <|
    if v.accepts (get32 cle r 84) then some (get32 cle r 12, get32 cle r 16, rdBytes r 20 v.words) else none
  digest r := response cle v.type 76 r <|
    if v.accepts (get32 cle r 84) then some (rdBytes r 20 v.size) else none

/-- A SHA-3 variant, `whSha3Variant`. -/
structure Sha3 where
  type : UInt32
  block : Nat
  size : Nat
  dataLen : Nat
  affinity : UInt32

/-- Messages of the SHA-3 functions, `wolfhsm/wh_message_crypto.h:939-956`. -/
def Sha3.proto (v : Sha3) (cle : Bool) : Proto (List UInt64) where
  block := v.block
  maxInline := (v.dataLen - 12 - 208) / v.block * v.block
  init := List.replicate 25 0
  request last c inp :=
    head cle v.type v.affinity ++ put32 cle (if last then 1 else 0) ++ put32 cle (UInt32.ofNat inp.length) ++
      c.flatMap (w64 cle Utils.magicNative) ++ inp
  chain r := response cle v.type 264 r <|
    some ((List.range 25).map fun i => rd64 cle Utils.magicNative r (12 + 8 * i))
  digest r := response cle v.type 264 r <| some (rdBytes r 212 v.size)

end WolfHsm.ClientHash

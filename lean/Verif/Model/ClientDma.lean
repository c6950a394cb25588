import Verif.Model.Server

/-!
# Buffers the client gives to the server by DMA: `src/wh_client_dma.c` and its callers

Before a request, the client has its DMA callback map each buffer (PRE); afterwards it has it release
the buffer (POST).  Functions that come as a pair of `…Request` and `…Response` keep what is mapped in
`dma.asyncCtx`, a union of structures of eight-byte words (`wolfhsm/wh_client.h:138-217`); the other
functions keep it in local variables.

Modelled is what these functions do with mappings, with the communication layer reduced to its flag
`pending`.  Request and response contents, argument checks before the first mapping, and requests
that share nothing with the union (key import before a signature, eviction after it) are left out.
Addresses and lengths are 64 bits.
-/

namespace WolfHsm.ClientDma

/-- The direction of a transfer as the server sees client memory. -/
inductive Dir where
  | read | write
  deriving DecidableEq, Repr

/-- PRE and POST. -/
inductive Phase where
  | pre | post
  deriving DecidableEq, Repr

abbrev Ret := UInt32

/-- A buffer of the caller. -/
structure Buf where
  addr : UInt64
  len : UInt64
  dir : Dir
  deriving DecidableEq, Repr

/-- A mapped buffer: `taddr` is its address for the server. -/
structure Map where
  addr : UInt64
  taddr : UInt64
  len : UInt64
  dir : Dir
  deriving DecidableEq, Repr

/-- What an observer sees: the callback mapped a buffer, refused to, or was told to release one and
returned `rc`; a request with the addresses in `bufs` left; waiting for the response ended, with the
server's answer (`answered`) or without. -/
inductive Ev where
  | mapped (m : Map)
  | refused (b : Buf)
  | released (m : Map) (rc : Ret)
  | sent (bufs : List Buf)
  | ended (rc : Ret) (answered : Bool)
  deriving DecidableEq, Repr

/-- Which member of the union a request uses.  `quiet`: none. -/
inductive Kind where
  | buf | nvmAdd | sha | rng | cmac | aes | quiet
  deriving DecidableEq, Repr

/-- How an attempt to receive ends: its result, whether the request stays pending
(`context->pending`), and whether a whole response of the server to this request has come. -/
structure Got where
  rc : Ret
  still : Bool
  answered : Bool
  deriving DecidableEq, Repr

/-- Surroundings, each result for the `k`-th use.  `cb`: the DMA callback (identity if none is
registered), result and address.  `allow`: the allow list check after PRE.  `send`: result, and
whether the request left.  `recv`: one attempt to receive (NOTREADY included); `wait`: the last
attempt of a loop. -/
structure World where
  cb : Nat → Phase → Buf → UInt64 → Ret × UInt64
  allow : Dir → UInt64 → UInt64 → Ret
  send : Nat → Ret × Bool
  recv : Nat → Got
  wait : Nat → Got

/-- The client.  `slots`: the words of `dma.asyncCtx`.  `pending`: `comm->pending`.  `last`: the kind of
the last request sent (not in the code). -/
structure S where
  slots : Nat → UInt64
  pending : Bool
  last : Kind
  k : Nat
  trace : List Ev

/-- The initial client, `wh_Client_Init`, src/wh_client.c (context cleared). -/
def S.start : S := ⟨fun _ => 0, false, .quiet, 0, []⟩

/-- `n` words from `o` on. -/
def S.put (s : S) (o : Nat) (v : List UInt64) : S :=
  { s with slots := fun i => if o ≤ i ∧ i < o + v.length then v.getD (i - o) 0 else s.slots i }

/-- Append to the trace. -/
def S.log (s : S) (e : Ev) : S := { s with k := s.k + 1, trace := s.trace ++ [e] }

/-- `wh_Client_DmaProcessClientAddress`, src/wh_client_dma.c:68-98.  `t`: the address on entry. -/
def process (w : World) (s : S) (ph : Phase) (b : Buf) (t : UInt64) : Ret × UInt64 × S :=
  let r := w.cb s.k ph b t
  let s' := s.log (match ph with
    | .pre => if r.1 = 0 then .mapped ⟨b.addr, r.2, b.len, b.dir⟩ else .refused b
    | .post => .released ⟨b.addr, t, b.len, b.dir⟩ r.1)
  if r.1 = 0 then (if b.len = 0 ∨ ph = .post then 0 else w.allow b.dir r.2 b.len, r.2, s') else (r.1, r.2, s')

/-- `WH_DMA_OPER_CLIENT_READ_POST`, `…WRITE_POST`, wolfhsm/wh_dma.h:39-45. -/
def postOper : Dir → UInt64
  | .read => 1
  | .write => 3

/-- Back. -/
def dirOf (w : UInt64) : Dir := if w = 3 then .write else .read

/-- `wh_Client_DmaAsyncPre`, src/wh_client_dma.c:100-148, with the slot at word `o`. -/
def asyncPre (w : World) (s : S) (o : Nat) (b : Buf) : Ret × UInt64 × S :=
  let s := s.put o [0, 0, 0, 0]
  if b.len = 0 then (0, 0, s)
  else
    let r := process w s .pre b 0
    if r.1 = 0 then (0, r.2.1, r.2.2.put o [r.2.1, b.addr, b.len, postOper b.dir]) else (r.1, 0, r.2.2)

/-- `wh_Client_DmaAsyncPost`, src/wh_client_dma.c:150-172. -/
def asyncPost (w : World) (s : S) (o : Nat) : Ret × S :=
  if s.slots (o + 2) = 0 then (0, s)
  else
    let r := process w s .post ⟨s.slots (o + 1), s.slots (o + 2), dirOf (s.slots (o + 3))⟩ (s.slots o)
    (r.1, r.2.2.put o [0, 0, 0, 0])

/-- The buffers a request names: those of length zero are none. -/
def named (bs : List Buf) : List Buf := bs.filter fun b => b.len ≠ 0

/-- `wh_Client_SendRequest` and `wh_CommClient_SendRequest`, src/wh_comm.c:107-157: the request may have
left although the call fails (starting the timer fails). -/
def send (w : World) (s : S) (kd : Kind) (bs : List Buf) : Ret × S :=
  if s.pending then (Rc.requestPending.code, s)
  else
    let r := w.send s.k
    if r.1 = 0 ∨ r.2 then (r.1, { s.log (.sent (named bs)) with pending := true, last := kd }) else (r.1, { s with k := s.k + 1 })

/-- `wh_Client_RecvResponse` and `wh_CommClient_RecvResponse`, src/wh_comm.c:159-285, one attempt, and the
checks of the response. -/
def recv (w : World) (s : S) : Ret × S :=
  if s.pending = false then (Rc.notready.code, s)
  else
    let r := w.recv s.k
    if r.rc = Rc.notready.code then (r.rc, { s with k := s.k + 1 })
    else (r.rc, { s.log (.ended r.rc r.answered) with pending := r.still })

/-- Attempts until the result is not NOTREADY. -/
def wait (w : World) (s : S) : Ret × S :=
  let r := w.wait s.k
  (r.rc, { s.log (.ended r.rc r.answered) with pending := r.still })

/-- `wh_Client_KeyCacheDmaRequest`, `wh_Client_KeyExportDmaRequest`, `wh_Client_KeyExportPublicDmaRequest`,
src/wh_client.c:1717-1769, 1838-1879, 1959-2003, and `wh_Client_CertAddTrustedDmaRequest`,
`wh_Client_CertReadTrustedDmaRequest`, `_certVerifyDmaRequest`, `_certVerifyMultiRootDmaRequest`,
`wh_Client_CertVerifyAcertDmaRequest`, src/wh_client_cert.c:811-852, 917-950, 1017-1054, 1179-1223,
1439-1472. -/
def bufRequest (w : World) (s : S) (b : Buf) : Ret × S :=
  if s.pending then (Rc.requestPending.code, s)
  else
    let r := asyncPre w s 0 b
    let q := if r.1 = 0 then send w r.2.2 .buf [{ b with addr := r.2.1 }] else (r.1, r.2.2)
    if q.1 = 0 then q else (q.1, (asyncPost w q.2 0).2)

/-- `wh_Client_NvmReadDmaRequest`, src/wh_client_nvm.c:808-848: a NULL buffer is not mapped. -/
def nvmReadRequest (w : World) (s : S) (b : Buf) : Ret × S :=
  if s.pending then (Rc.requestPending.code, s)
  else
    let r := asyncPre w s 0 { b with len := if b.addr = 0 then 0 else b.len }
    let q := if r.1 = 0 then send w r.2.2 .buf [{ b with addr := r.2.1 }] else (r.1, r.2.2)
    if q.1 = 0 then q else (q.1, (asyncPost w q.2 0).2)

/-- `wh_Client_KeyCacheDmaResponse`, src/wh_client.c:1771-1821, and the other responses to `bufRequest`
and `nvmReadRequest`.  `told`: the release of a buffer the server writes decides the result. -/
def bufResponse (w : World) (s : S) (told : Bool) : Ret × S :=
  let r := recv w s
  if r.1 = Rc.notready.code then r
  else
    let q := asyncPost w r.2 0
    (if told ∧ r.1 = 0 then q.1 else r.1, q.2)

/-- `wh_Client_NvmAddObjectDmaRequest`, src/wh_client_nvm.c:686-741. -/
def nvmAddRequest (w : World) (s : S) (md b : Buf) : Ret × S :=
  if s.pending then (Rc.requestPending.code, s)
  else
    let s := s.put 0 [0, 0, 0, 0, 0, 0, 0, 0]
    let r := asyncPre w s 0 md
    let q := if r.1 = 0 then asyncPre w r.2.2 4 { b with len := if b.addr = 0 then 0 else b.len } else (r.1, 0, r.2.2)
    let z := if q.1 = 0 then send w q.2.2 .nvmAdd [{ md with addr := r.2.1 }, { b with addr := q.2.1 }] else (q.1, q.2.2)
    if z.1 = 0 then z else (z.1, (asyncPost w (asyncPost w z.2 4).2 0).2)

/-- `wh_Client_NvmAddObjectDmaResponse`, src/wh_client_nvm.c:743-785. -/
def nvmAddResponse (w : World) (s : S) : Ret × S :=
  let r := recv w s
  if r.1 = Rc.notready.code then r else (r.1, (asyncPost w (asyncPost w r.2 4).2 0).2)

/-- Release what the three words at `o` describe and clear the length, e.g.
src/wh_client_crypto.c:419-426, 748-763, 6108-6121, 7066-7074. -/
def postWords (w : World) (s : S) (o : Nat) (d : Dir) : S :=
  if s.slots (o + 2) = 0 then s
  else (process w s .post ⟨s.slots (o + 1), s.slots (o + 2), d⟩ (s.slots o)).2.2.put (o + 2) [0]

/-- `wh_Client_RngGenerateDmaRequest`, src/wh_client_crypto.c:319-378. -/
def rngRequest (w : World) (s : S) (b : Buf) : Ret × S :=
  if b.len = 0 then (Rc.badargs.code, s)
  else if s.pending then (Rc.requestPending.code, s)
  else
    let r := process w s .pre b 0
    if r.1 = 0 then
      let q := send w (r.2.2.put 0 [r.2.1, b.addr, b.len]) .rng [{ b with addr := r.2.1 }]
      if q.1 = 0 then q else (q.1, (process w q.2 .post b r.2.1).2.2.put 2 [0])
    else (r.1, r.2.2)

/-- `wh_Client_RngGenerateDmaResponse`, src/wh_client_crypto.c:380-428. -/
def rngResponse (w : World) (s : S) : Ret × S :=
  let r := recv w s
  if r.1 = Rc.notready.code then r else (r.1, postWords w r.2 0 .write)

/-- The DMA part of `wh_Client_Sha256DmaUpdateRequest`, src/wh_client_crypto.c:6983-7022, and of its
siblings (7578-7612, 8166-8200, 8783-8817, 9603-9637).  `b`: the whole blocks, perhaps none. -/
def shaRequest (w : World) (s : S) (b : Buf) : Ret × S :=
  if s.pending then (Rc.requestPending.code, s)
  else
    let r := if b.len = 0 then (0, 0, s) else process w s .pre b 0
    let q := if r.1 = 0 then send w (r.2.2.put 0 [r.2.1, b.addr, b.len]) .sha [{ b with addr := r.2.1 }] else (r.1, r.2.2)
    if q.1 = 0 then q
    else (q.1, (if r.1 = 0 ∧ b.len ≠ 0 then (process w q.2 .post b r.2.1).2.2 else q.2).put 0 [0, 0, 0])

/-- `wh_Client_Sha256DmaUpdateResponse`, src/wh_client_crypto.c:7025-7076, and its siblings. -/
def shaResponse (w : World) (s : S) : Ret × S :=
  let r := recv w s
  if r.1 = Rc.notready.code then r else (r.1, postWords w r.2 0 .read)

/-- `wh_Client_CmacGenerateDmaRequest` and `wh_Client_CmacDmaUpdateRequest`,
src/wh_client_crypto.c:6123-6213, 6269-6371.  `b`: the input, perhaps none. -/
def cmacRequest (w : World) (s : S) (b : Buf) : Ret × S :=
  if s.pending then (Rc.requestPending.code, s)
  else
    let r := if b.len = 0 then (0, 0, s) else process w s .pre b 0
    let s' := if r.1 = 0 ∧ b.len ≠ 0 then r.2.2.put 0 [r.2.1, b.addr, b.len] else r.2.2
    let q := if r.1 = 0 then send w s' .cmac [{ b with addr := r.2.1 }] else (r.1, s')
    if q.1 = 0 then q else (q.1, if r.1 = 0 ∧ b.len ≠ 0 then postWords w q.2 0 .read else q.2)

/-- `wh_Client_CmacGenerateDmaResponse` and `wh_Client_CmacDmaUpdateResponse`,
src/wh_client_crypto.c:6215-6267, 6373-6415. -/
def cmacResponse (w : World) (s : S) : Ret × S :=
  let r := recv w s
  if r.1 = Rc.notready.code then r else (r.1, postWords w r.2 0 .read)

/-- PRE of a buffer that may be absent, when all was well so far, e.g.
src/wh_client_crypto.c:646-667. -/
def optPre (w : World) (s : S) (rc : Ret) (b : Buf) : Ret × UInt64 × S :=
  if rc = 0 ∧ b.len ≠ 0 then process w s .pre b 0 else (rc, 0, s)

/-- POST of a buffer if its PRE succeeded, e.g. src/wh_client_crypto.c:686-696. -/
def optPost (w : World) (s : S) (acq : Bool) (b : Buf) (t : UInt64) : S :=
  if acq then (process w s .post b t).2.2 else s

/-- `wh_Client_AesGcmDmaRequest`, src/wh_client_crypto.c:1632-1778, and, without `aad`,
`wh_Client_AesCtrDmaRequest`, `…Ecb…`, `…Cbc…` (585-700, 921-1026, 1262-1373).  What they put into the
word `aadAddr` and `aadClientAddr` differs and is of no effect. -/
def aesRequest (w : World) (s : S) (inp out aad : Buf) : Ret × S :=
  if s.pending then (Rc.requestPending.code, s)
  else
    let r1 := optPre w s 0 inp
    let r2 := optPre w r1.2.2 r1.1 out
    let r3 := optPre w r2.2.2 r2.1 aad
    let q := if r3.1 = 0 then
        send w (r3.2.2.put 0 [r1.2.1, inp.addr, inp.len, r2.2.1, out.addr, out.len, r3.2.1, aad.addr, aad.len]) .aes
          [{ inp with addr := r1.2.1 }, { out with addr := r2.2.1 }, { aad with addr := r3.2.1 }]
      else (r3.1, r3.2.2)
    if q.1 = 0 then q
    else
      let s1 := optPost w q.2 (r1.1 = 0 ∧ inp.len ≠ 0) inp r1.2.1
      let s2 := optPost w s1 (r2.1 = 0 ∧ out.len ≠ 0) out r2.2.1
      let s3 := optPost w s2 (r3.1 = 0 ∧ aad.len ≠ 0) aad r3.2.1
      (q.1, s3.put 0 [0, 0, 0, 0, 0, 0, 0, 0, 0])

/-- `wh_Client_AesGcmDmaResponse`, src/wh_client_crypto.c:1780-1857, and its siblings, which do not look at
the third buffer (its length is zero then). -/
def aesResponse (w : World) (s : S) : Ret × S :=
  let r := recv w s
  if r.1 = Rc.notready.code then r
  else (r.1, postWords w (postWords w (postWords w r.2 0 .read) 3 .write) 6 .read)

/-- A request that uses no member of the union: all requests without DMA, and the `…DmaFinalRequest`
functions of the hashes and CMAC (src/wh_client_crypto.c:6417-6470, 7078-7127). -/
def quietRequest (w : World) (s : S) : Ret × S := send w s .quiet []

/-- The response to it. -/
def quietResponse (w : World) (s : S) : Ret × S := recv w s

/-- A function that sends, waits and returns, with one buffer: `_MlDsaMakeKeyDma`, `_MlKemMakeKeyDma`,
`wh_Client_MlKemEncapsulateDma`, `wh_Client_MlKemDecapsulateDma`, `wh_Client_LmsMakeKeyDma`,
`wh_Client_XmssMakeKeyDma`, src/wh_client_crypto.c:10673-10703, 11808-11837, 11996-12043, 12121-12166,
12270-12299, 12751-12780.  `told` (the last two): the release decides the result. -/
def direct1 (w : World) (s : S) (b : Buf) (told : Bool) : Ret × S :=
  let r := process w s .pre b 0
  let q := if r.1 = 0 then send w r.2.2 .quiet [{ b with addr := r.2.1 }] else (r.1, r.2.2)
  let z := if q.1 = 0 then wait w q.2 else q
  let p := process w z.2 .post b r.2.1
  (if told ∧ z.1 = 0 then p.1 else z.1, p.2.2)

/-- The same with two buffers: `wh_Client_Ed25519SignDma`, `wh_Client_Ed25519VerifyDma`,
`wh_Client_MlDsaSignDma`, `wh_Client_MlDsaVerifyDma`, `wh_Client_LmsSignDma`, `wh_Client_LmsVerifyDma`,
`wh_Client_XmssSignDma`, `wh_Client_XmssVerifyDma`, src/wh_client_crypto.c:4321-4375, 4469-4523,
10904-10970, 11060-11124, 12387-12414, 12494-12521, 12868-12895, 12976-13003.  `fifo` (the last
four): released in the order in which they were mapped.  `told` (LMS and XMSS signatures): the
release of the second decides the result. -/
def direct2 (w : World) (s : S) (a b : Buf) (fifo told : Bool) : Ret × S :=
  let r := process w s .pre a 0
  let x := if r.1 = 0 then process w r.2.2 .pre b 0 else (r.1, 0, r.2.2)
  let q := if x.1 = 0 then send w x.2.2 .quiet [{ a with addr := r.2.1 }, { b with addr := x.2.1 }] else (x.1, x.2.2)
  let z := if q.1 = 0 then wait w q.2 else q
  if fifo then
    let p := process w z.2 .post a r.2.1
    let p' := process w p.2.2 .post b x.2.1
    (if told ∧ z.1 = 0 then p'.1 else z.1, p'.2.2)
  else
    let p := process w z.2 .post b x.2.1
    let p' := process w p.2.2 .post a r.2.1
    (z.1, p'.2.2)

/-- `wh_CommClient_AbortPending`, src/wh_comm.c:319-331. -/
def abort (s : S) : Ret × S := (0, { s with pending := false })

/-- A call of the API. -/
inductive Call where
  | buf (b : Buf) | nvmRead (b : Buf) | bufResp (told : Bool)
  | nvmAdd (md b : Buf) | nvmAddResp
  | rng (b : Buf) | rngResp
  | sha (b : Buf) | shaResp
  | cmac (b : Buf) | cmacResp
  | aes (inp out aad : Buf) | aesResp
  | quiet | quietResp
  | direct1 (b : Buf) (told : Bool)
  | direct2 (a b : Buf) (fifo told : Bool)
  | abort
  deriving DecidableEq

/-- A buffer the server reads. -/
def rd (b : Buf) : Buf := { b with dir := .read }

/-- A buffer the server writes. -/
def wr (b : Buf) : Buf := { b with dir := .write }

/-- One call. -/
def step (w : World) (s : S) : Call → Ret × S
  | .buf b => bufRequest w s b
  | .nvmRead b => nvmReadRequest w s (wr b)
  | .bufResp t => bufResponse w s t
  | .nvmAdd md b => nvmAddRequest w s (rd md) (rd b)
  | .nvmAddResp => nvmAddResponse w s
  | .rng b => rngRequest w s (wr b)
  | .rngResp => rngResponse w s
  | .sha b => shaRequest w s (rd b)
  | .shaResp => shaResponse w s
  | .cmac b => cmacRequest w s (rd b)
  | .cmacResp => cmacResponse w s
  | .aes i o a => aesRequest w s (rd i) (wr o) (rd a)
  | .aesResp => aesResponse w s
  | .quiet => quietRequest w s
  | .quietResp => quietResponse w s
  | .direct1 b t => direct1 w s b t
  | .direct2 a b f t => direct2 w s a b f t
  | .abort => abort s

/-- A sequence of calls. -/
def run (w : World) (s : S) : List Call → S
  | [] => s
  | c :: cs => run w (step w s c).2 cs

end WolfHsm.ClientDma

import Verif.Model.Basic

/-!
# The shared-memory transport: `src/wh_transport_mem.c`

Client and server run concurrently on two shared buffers.  Each call is a little program
whose steps are its single accesses to shared memory: reading a control word, copying one
byte, writing a control word.  A step of the system is one access of either side, so a
theorem over all event lists covers every interleaving.

Assumptions: memory is sequentially consistent (the code's fences and cache operations are
what a port provides for that), and a control word is read and written in one access (it is
a 64-bit union; the two fields in use share its first four bytes).  The fields `ack` and
`wait` are never used by the code and left out.
-/

namespace WolfHsm.Mem

/-- `whTransportMemCsr`, wolfhsm/wh_transport_mem.h:114-122. -/
structure Csr where
  notify : UInt16
  len : UInt16
deriving DecidableEq

/-- The shared memory: control words and what follows them.  `ub`: some access was outside
the buffers. -/
structure Shm where
  req : Csr
  resp : Csr
  reqData : List UInt8
  respData : List UInt8
  ub : Bool
deriving DecidableEq

/-- `whTransportMemConfig`, wolfhsm/wh_transport_mem.h:102-108: `req_size` and `resp_size`,
both including the control word. -/
structure Cfg where
  reqSize : UInt16
  respSize : UInt16

/-- Bytes that follow the control word. -/
def dataSize (size : UInt16) : Nat := size.toNat - 8

/-- `size - sizeof(whTransportMemCsr)` in `size_t` arithmetic (64 bits), lines 114, 219. -/
def room (size : UInt16) : Nat := (2 ^ 64 + size.toNat - 8) % 2 ^ 64

/-- `wh_TransportMem_InitClear`, src/wh_transport_mem.c:70-82. -/
def initClear (k : Cfg) : Shm :=
  ⟨⟨0, 0⟩, ⟨0, 0⟩, List.replicate (dataSize k.reqSize) 0, List.replicate (dataSize k.respSize) 0, false⟩

/-- Where a client is in its call. -/
inductive CPc where
  | idle
  /-- `SendRequest`, about to read the response word (line 121). -/
  | send1 (msg : List UInt8)
  /-- About to read the request word and compare (lines 122-127). -/
  | send2 (msg : List UInt8) (respNotify : UInt16)
  /-- Copying byte `i` (line 130), or all copied and about to write the word (line 137). -/
  | sendCopy (msg : List UInt8) (req : Csr) (i : Nat)
  /-- `RecvResponse` with room for `cap` bytes, about to read the request word (line 167). -/
  | recv1 (cap : UInt16)
  /-- About to read the response word and compare (lines 168-173). -/
  | recv2 (cap : UInt16) (reqNotify : UInt16)
  /-- Copying up to `n` bytes (line 189), then returning `len`. -/
  | recvCopy (cap len : UInt16) (n : Nat) (acc : List UInt8)
deriving DecidableEq

/-- Where a server is in its call. -/
inductive SPc where
  | idle
  /-- `RecvRequest`, about to read the request word (line 267). -/
  | recv1 (cap : UInt16)
  /-- About to read the response word and compare (lines 268-273). -/
  | recv2 (cap : UInt16) (req : Csr)
  /-- Copying up to `n` bytes (line 291), then returning `len`. -/
  | recvCopy (cap len : UInt16) (n : Nat) (acc : List UInt8)
  /-- `SendResponse`, about to read the request word (line 226). -/
  | send1 (msg : List UInt8)
  /-- About to read the response word (line 227). -/
  | send2 (msg : List UInt8) (reqNotify : UInt16)
  /-- Copying byte `i` (line 230), or all copied and about to write the word (line 237). -/
  | sendCopy (msg : List UInt8) (reqNotify : UInt16) (i : Nat)
deriving DecidableEq

/-- Return of a call, or the moment a message is published. -/
inductive Obs where
  /-- `SendRequest` published `msg` and returns 0. -/
  | sent (msg : List UInt8)
  /-- `RecvResponse` returns 0 with `*out_len = len` and these bytes. -/
  | got (cap len : UInt16) (bytes : List UInt8)
  /-- A client call returns `WH_ERROR_NOTREADY`. -/
  | clientBusy
  /-- `RecvRequest` returns 0. -/
  | received (cap len : UInt16) (bytes : List UInt8)
  /-- `SendResponse` published `msg` and returns 0. -/
  | answered (msg : List UInt8)
  /-- A server call returns `WH_ERROR_NOTREADY`. -/
  | serverBusy
  /-- A call returns `WH_ERROR_BADARGS`. -/
  | refused
deriving DecidableEq

structure Sys where
  shm : Shm
  c : CPc
  s : SPc
  /-- The server has received a request it has not answered yet. -/
  todo : Bool
deriving DecidableEq

/-- Store one byte. -/
def poke (l : List UInt8) (i : Nat) (b : UInt8) : Option (List UInt8) :=
  if i < l.length then some (l.set i b) else none

/-- `copy_len`, lines 179-188 and 281-290. -/
def copyLen (len cap size : UInt16) : Nat := min (min len.toNat cap.toNat) (dataSize size)

/-- One access of the client. -/
def cStep (k : Cfg) (m : Shm) : CPc → Shm × CPc × Option Obs
  | .idle => (m, .idle, none)
  | .send1 msg => (m, .send2 msg m.resp.notify, none)
  | .send2 msg rn =>
    if m.req.notify ≠ rn then (m, .idle, some .clientBusy) else (m, .sendCopy msg m.req 0, none)
  | .sendCopy msg q i =>
    match msg[i]? with
    | some b =>
      match poke m.reqData i b with
      | some d => ({ m with reqData := d }, .sendCopy msg q (i + 1), none)
      | none => ({ m with ub := true }, .idle, none)
    | none =>
      ({ m with req := ⟨q.notify + 1, UInt16.ofNat msg.length⟩ }, .idle, some (.sent msg))
  | .recv1 cap => (m, .recv2 cap m.req.notify, none)
  | .recv2 cap qn =>
    if m.resp.notify ≠ qn then (m, .idle, some .clientBusy)
    else (m, .recvCopy cap m.resp.len (copyLen m.resp.len cap k.respSize) [], none)
  | .recvCopy cap len n acc =>
    if acc.length < n then
      match m.respData[acc.length]? with
      | some b => (m, .recvCopy cap len n (acc ++ [b]), none)
      | none => ({ m with ub := true }, .idle, none)
    else (m, .idle, some (.got cap len acc))

/-- One access of the server; the last component: the request just received is to be
answered. -/
def sStep (k : Cfg) (m : Shm) (todo : Bool) : SPc → Shm × SPc × Option Obs × Bool
  | .idle => (m, .idle, none, todo)
  | .recv1 cap => (m, .recv2 cap m.req, none, todo)
  | .recv2 cap q =>
    if q.notify = m.resp.notify then (m, .idle, some .serverBusy, todo)
    else (m, .recvCopy cap q.len (copyLen q.len cap k.reqSize) [], none, todo)
  | .recvCopy cap len n acc =>
    if acc.length < n then
      match m.reqData[acc.length]? with
      | some b => (m, .recvCopy cap len n (acc ++ [b]), none, todo)
      | none => ({ m with ub := true }, .idle, none, todo)
    else (m, .idle, some (.received cap len acc), true)
  | .send1 msg => (m, .send2 msg m.req.notify, none, todo)
  | .send2 msg qn => (m, .sendCopy msg qn 0, none, todo)
  | .sendCopy msg qn i =>
    match msg[i]? with
    | some b =>
      match poke m.respData i b with
      | some d => ({ m with respData := d }, .sendCopy msg qn (i + 1), none, todo)
      | none => ({ m with ub := true }, .idle, none, todo)
    | none => ({ m with resp := ⟨qn, UInt16.ofNat msg.length⟩ }, .idle, some (.answered msg), todo)

/-- Calls and accesses.  A call is possible when the caller is idle; the length arguments
are 16 bits wide.  The server calls `SendResponse` only to answer a request it has received,
once, as `wh_Server_HandleRequestMessage` does (src/wh_server.c:581-729). -/
inductive Ev where
  | cSend (msg : List UInt8)
  | cRecv (cap : UInt16)
  | cStep
  | sRecv (cap : UInt16)
  | sSend (msg : List UInt8)
  | sStep
deriving DecidableEq

def step (k : Cfg) (y : Sys) : Ev → Sys × Option Obs
  | .cSend msg =>
    if y.c = .idle ∧ msg.length < 65536 then
      if msg.length > room k.reqSize then (y, some .refused) else ({ y with c := .send1 msg }, none)
    else (y, none)
  | .cRecv cap => if y.c = .idle then ({ y with c := .recv1 cap }, none) else (y, none)
  | .cStep =>
    let r := cStep k y.shm y.c
    ({ y with shm := r.1, c := r.2.1 }, r.2.2)
  | .sRecv cap => if y.s = .idle then ({ y with s := .recv1 cap }, none) else (y, none)
  | .sSend msg =>
    if y.s = .idle ∧ y.todo = true ∧ msg.length < 65536 then
      if msg.length > room k.respSize then ({ y with todo := false }, some .refused)
      else ({ y with s := .send1 msg, todo := false }, none)
    else (y, none)
  | .sStep =>
    let r := sStep k y.shm y.todo y.s
    ({ y with shm := r.1, s := r.2.1, todo := r.2.2.2 }, r.2.2.1)

/-- Both sides idle on cleared buffers. -/
def init (k : Cfg) : Sys := ⟨initClear k, .idle, .idle, false⟩

/-- The final state and everything observed. -/
def run (k : Cfg) (y : Sys) : List Ev → Sys × List Obs
  | [] => (y, [])
  | e :: es =>
    let r := step k y e
    let r' := run k r.1 es
    (r'.1, r.2.toList ++ r'.2)

end WolfHsm.Mem

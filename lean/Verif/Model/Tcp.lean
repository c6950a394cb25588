import Verif.Model.Basic
import Verif.Model.Utils

/-!
# `port/posix/posix_transport_tcp.c`

Packets on a TCP connection: each is preceded by its length, four bytes in network order.  The
connection is a pair of byte streams; what the socket calls return is a parameter of every call.  `max`
is `WH_COMM_MTU`, less than 2^16 - 4.  Addresses, socket options and file descriptors are left out.
-/

namespace WolfHsm.Tcp

/-- The members `buffer_offset` and `buffer` of both contexts, port/posix/posix_transport_tcp.h:93-102,
127-137.  `ub`: the code read outside `buffer` (not in the code). -/
structure Side where
  off : Nat
  buf : List UInt8
  ub : Bool

/-- What `send` returns: an error that means "again", another error, or the number of bytes taken (at
most those offered). -/
inductive Out where
  | again | fatal | wrote (n : Nat)
deriving DecidableEq

/-- What `read` returns: likewise; 0 bytes at the end of the stream. -/
inductive In where
  | again | fatal | got (n : Nat)
deriving DecidableEq

/-- A packet with its length. -/
def frame (m : List UInt8) : List UInt8 := Utils.bytes32 false (UInt32.ofNat m.length) ++ m

/-- Overwrite `buffer` from `off` on. -/
def patch (buf : List UInt8) (off : Nat) (b : List UInt8) : List UInt8 :=
  buf.take off ++ b ++ buf.drop (off + b.length)

/-- `posixTransportTcp_Send`, port/posix/posix_transport_tcp.c:106-158, with the bytes that went into the
stream. -/
def send (max : Nat) (s : Side) (io : Out) (data : List UInt8) : Rc × Side × List UInt8 :=
  if data.length = 0 ∨ data.length > max then (.badargs, s, [])
  else
    let size := 4 + data.length
    let buf := if s.off = 0 then patch s.buf 0 (frame data) else s.buf
    let ub := s.ub || decide (size < s.off)
    let remaining := size - s.off
    match io with
    | .again => (.notready, ⟨s.off, buf, ub⟩, [])
    | .fatal => (.aborted, ⟨0, buf, ub⟩, [])
    | .wrote n =>
      let k := min n remaining
      let b := (buf.drop s.off).take k
      if k ≠ remaining then (.notready, ⟨s.off + k, buf, ub⟩, b) else (.ok, ⟨0, buf, ub⟩, b)

/-- The second part of `posixTransportTcp_Recv`, port/posix/posix_transport_tcp.c:201-240: the length is
there.  The third component is what stays in the stream. -/
def body (max : Nat) (s : Side) (io : In) (w : List UInt8) : Rc × Side × List UInt8 × Option (List UInt8) :=
  match Utils.read32 false (s.buf.take 4) with
  | none => (.aborted, { s with ub := true }, w, none)
  | some n =>
    let size := n.toNat
    if size = 0 ∨ size > max then (.aborted, { s with off := 0 }, w, none)
    else
      let remaining := size - (s.off - 4)
      match io with
      | .again => (.notready, s, w, none)
      | .fatal => (.aborted, { s with off := 0 }, w, none)
      | .got n =>
        let b := w.take (min n remaining)
        let buf := patch s.buf s.off b
        if remaining - b.length > 0 then (.notready, ⟨s.off + b.length, buf, s.ub⟩, w.drop b.length, none)
        else (.ok, ⟨0, buf, s.ub⟩, w.drop b.length, some ((buf.drop 4).take size))

/-- `posixTransportTcp_Recv`, port/posix/posix_transport_tcp.c:160-240.  The packet is there when the
result is OK. -/
def recv (max : Nat) (s : Side) (io io2 : In) (w : List UInt8) : Rc × Side × List UInt8 × Option (List UInt8) :=
  if s.off < 4 then
    match io with
    | .again => (.notready, s, w, none)
    | .fatal => (.aborted, { s with off := 0 }, w, none)
    | .got n =>
      let b := w.take (min n (4 - s.off))
      let s := { s with off := s.off + b.length, buf := patch s.buf s.off b }
      if s.off < 4 then (.notready, s, w.drop b.length, none) else body max s io2 (w.drop b.length)
  else body max s io2 w

/-- `pttClientState`, port/posix/posix_transport_tcp.h:86-91. -/
inductive Link where
  | unconnected | waiting | connected | done
deriving DecidableEq

/-- How creating a socket and connecting it, or polling it, turns out in
`posixTransportTcp_HandleConnect`: connected; in progress; refused or hung up; an error. -/
inductive Conn where
  | up | later | refused | broken
deriving DecidableEq

/-- `posixTransportTcp_HandleConnect`, port/posix/posix_transport_tcp.c:243-382. -/
def connect (l : Link) (e : Conn) : Rc × Link :=
  match l with
  | .connected => (.ok, .connected)
  | .done => (.aborted, .done)
  | .unconnected | .waiting =>
    match e with
    | .up => (.ok, .connected)
    | .later => (.notready, .waiting)
    | .refused => (.notfound, .unconnected)
    | .broken => (.aborted, .done)

/-- `posixTransportTcpClientContext`, port/posix/posix_transport_tcp.h:93-102; `dead`: a socket call failed
with an error other than "again" (then nothing passes the socket any more; not in the code). -/
structure Client where
  side : Side
  link : Link
  sent : Bool
  dead : Bool

/-- A dead socket takes nothing any more. -/
def outOf (dead : Bool) (io : Out) : Out := if dead then (if io = .fatal then .fatal else .again) else io

/-- A dead socket gives nothing any more (the end of the stream is `.again` here: the code treats them
alike). -/
def inOf (dead : Bool) (io : In) : In := if dead then (if io = .fatal then .fatal else .again) else io

/-- Did a `read` of this call fail? -/
def failed (rc : Rc) (io io2 : In) : Bool := decide (rc = .aborted) && (decide (io = .fatal) || decide (io2 = .fatal))

/-- `posixTransportTcp_SendRequest`, port/posix/posix_transport_tcp.c:471-516. -/
def sendRequest (max : Nat) (c : Client) (e : Conn) (io : Out) (data : List UInt8) : Rc × Client × List UInt8 :=
  if data.length = 0 ∨ data.length > max then (.badargs, c, [])
  else if c.sent then (.notready, c, [])
  else
    let p := connect c.link e
    let c := { c with link := p.2 }
    if p.1 = .ok then
      let r := send max c.side (outOf c.dead io) data
      if r.1 = .notready then (r.1, { c with side := r.2.1 }, r.2.2)
      else (r.1, { c with side := { r.2.1 with off := 0 }, sent := decide (r.1 = .ok),
                          dead := c.dead || decide (r.1 = .aborted) }, r.2.2)
    else (if p.1 = .notfound then .notready else p.1, c, [])

/-- `posixTransportTcp_RecvResponse`, port/posix/posix_transport_tcp.c:518-551. -/
def recvResponse (max : Nat) (c : Client) (io io2 : In) (w : List UInt8) :
    Rc × Client × List UInt8 × Option (List UInt8) :=
  if c.link = .unconnected ∨ c.link = .done then (.badargs, c, w, none)
  else if !c.sent then (.notready, c, w, none)
  else
    let r := recv max c.side (inOf c.dead io) (inOf c.dead io2) w
    if r.1 = .notready then (r.1, { c with side := r.2.1 }, r.2.2)
    else (r.1, { c with side := { r.2.1 with off := 0 }, sent := false,
                        dead := c.dead || failed r.1 io io2 }, r.2.2)

/-- `posixTransportTcpServerContext`, port/posix/posix_transport_tcp.h:127-137; `dead` as above. -/
structure Server where
  side : Side
  listening : Bool
  accepted : Bool
  busy : Bool
  dead : Bool

/-- `accept`: nobody there, an error, a client. -/
inductive Acc where
  | again | fatal | client
deriving DecidableEq

/-- The rest of `posixTransportTcp_RecvRequest`, port/posix/posix_transport_tcp.c:721-746: a client is
accepted. -/
def recvAccepted (max : Nat) (c : Server) (io io2 : In) (w : List UInt8) :
    Rc × Server × List UInt8 × Option (List UInt8) :=
  if c.busy then (.notready, c, w, none)
  else
    let r := recv max c.side (inOf c.dead io) (inOf c.dead io2) w
    if r.1 = .notready then (r.1, { c with side := r.2.1 }, r.2.2)
    else (r.1, { c with side := { r.2.1 with off := 0 }, busy := decide (r.1 = .ok),
                        dead := c.dead || failed r.1 io io2 }, r.2.2)

/-- `posixTransportTcp_RecvRequest`, port/posix/posix_transport_tcp.c:688-746. -/
def recvRequest (max : Nat) (c : Server) (a : Acc) (io io2 : In) (w : List UInt8) :
    Rc × Server × List UInt8 × Option (List UInt8) :=
  if !c.listening then (.badargs, c, w, none)
  else if c.accepted then recvAccepted max c io io2 w
  else
    match a with
    | .again => (.notready, c, w, none)
    | .fatal => (.aborted, { c with listening := false }, w, none)
    | .client => recvAccepted max { c with accepted := true } io io2 w

/-- `posixTransportTcp_SendResponse`, port/posix/posix_transport_tcp.c:748-785. -/
def sendResponse (max : Nat) (c : Server) (io : Out) (data : List UInt8) : Rc × Server × List UInt8 :=
  if !c.listening || !c.accepted || decide (data.length = 0 ∨ data.length > max) then (.badargs, c, [])
  else if !c.busy then (.notready, c, [])
  else
    let r := send max c.side (outOf c.dead io) data
    if r.1 = .notready then (r.1, { c with side := r.2.1 }, r.2.2)
    else (r.1, { c with side := { r.2.1 with off := 0 }, busy := !decide (r.1 = .ok),
                        dead := c.dead || decide (r.1 = .aborted) }, r.2.2)

/-- A client, a server, and the bytes under way to the server and to the client. -/
structure Sys where
  c : Client
  s : Server
  up : List UInt8
  down : List UInt8

/-- After `posixTransportTcp_InitConnect` (its attempt to connect is left to the first call) and
`posixTransportTcp_InitListen`, port/posix/posix_transport_tcp.c:397-436, 616-686: contexts cleared. -/
def Sys.start (max : Nat) : Sys :=
  ⟨⟨⟨0, List.replicate (max + 4) 0, false⟩, .unconnected, false, false⟩,
   ⟨⟨0, List.replicate (max + 4) 0, false⟩, true, false, false, false⟩, [], []⟩

/-- The calls of both sides, with what the sockets say. -/
inductive Op where
  | cSend (e : Conn) (io : Out) (data : List UInt8)
  | cRecv (io io2 : In)
  | sRecv (a : Acc) (io io2 : In)
  | sSend (io : Out) (data : List UInt8)

/-- One call: its result, and the packet it returns. -/
def step (max : Nat) (y : Sys) : Op → Sys × Rc × Option (List UInt8)
  | .cSend e io d =>
    let r := sendRequest max y.c e io d
    ({ y with c := r.2.1, up := y.up ++ r.2.2 }, r.1, none)
  | .cRecv io io2 =>
    let r := recvResponse max y.c io io2 y.down
    ({ y with c := r.2.1, down := r.2.2.1 }, r.1, r.2.2.2)
  | .sRecv a io io2 =>
    let r := recvRequest max y.s a io io2 y.up
    ({ y with s := r.2.1, up := r.2.2.1 }, r.1, r.2.2.2)
  | .sSend io d =>
    let r := sendResponse max y.s io d
    ({ y with s := r.2.1, down := y.down ++ r.2.2 }, r.1, none)

/-- A sequence of calls, with what they return. -/
def run (max : Nat) (y : Sys) : List Op → Sys × List (Op × Rc × Option (List UInt8))
  | [] => (y, [])
  | o :: os =>
    let p := step max y o
    let q := run max p.1 os
    (q.1, (o, p.2) :: q.2)

end WolfHsm.Tcp

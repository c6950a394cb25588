import Verif.Model.Comm

/-!
# A client, a server and the network between them

The network keeps every packet for ever and may deliver any response packet at any poll:
late, twice, out of order, or never.  The server may answer any request it ever got, any
number of times.  `le` of the client and `sle` of the server are their byte orders.
-/

namespace WolfHsm.Comm

open Utils (magicNative)

/-- A response in the network, with what an observer of the server knows about it: which
request (counted from 0) it answers, the kind and data the server found in that request,
and what its answer was. -/
structure Answer where
  request : Nat
  sawKind : UInt16
  sawData : List UInt8
  data : List UInt8
  packet : List UInt8
deriving DecidableEq

/-- A request as the application gave it to the client. -/
structure Request where
  kind : UInt16
  data : List UInt8
  packet : List UInt8
deriving DecidableEq

structure Link where
  client : Client
  /-- All requests the transport accepted, oldest first. -/
  requests : List Request
  /-- All responses the server ever sent. -/
  answers : List Answer

/-- What the transport does at a poll of the client. -/
inductive Poll where
  /-- Delivers the `i`-th response sent so far. -/
  | deliver (i : Nat)
  /-- Reports an error, or nothing yet. -/
  | fail (rc : Rc)

/-- One step of the world.  `aux` is the unused header field, `junk` what the packet buffer
holds after the packet, `now` the clock. -/
inductive Ev where
  | send (kind aux : UInt16) (data : List UInt8) (tx : Rc) (now : UInt64)
  | serve (request : Nat) (aux : UInt16) (junk : List UInt8) (answer : List UInt8)
  | poll (p : Poll) (cap : Option Nat) (junk : List UInt8) (now : UInt64)
  | abort

/-- What the client's application sees. -/
inductive Obs where
  /-- The transport took the request, or not; return code. -/
  | sent (taken : Bool) (rc : Rc)
  /-- Result of a poll. -/
  | got (g : Got)
  /-- The application gave up the outstanding request. -/
  | aborted
  | other
deriving DecidableEq

/-- A packet in the receive buffer. -/
def Rx.of (packet junk : List UInt8) : Rx := ⟨.ok, UInt16.ofNat packet.length, packet ++ junk⟩

/-- The server gets the packet of a request and answers it with the kind and sequence
number it found, as `wh_Server_HandleRequestMessage` does (src/wh_server.c:581-582,
726-728). -/
def serve (scfg : Cfg) (sle : Bool) (packet junk : List UInt8) (aux : UInt16)
    (answer : List UInt8) : Option (Got × List UInt8) :=
  let g := serverRecv scfg sle scfg.dataLen (Rx.of packet junk)
  match g.rc with
  | .ok => (serverPacket scfg sle g.magic g.kind g.seq aux answer).map fun p => (g, p)
  | _ => none

def Link.step (cfg scfg : Cfg) (sle : Bool) (l : Link) : Ev → Obs × Link
  | .send kind aux data tx now =>
    let r := l.client.sendRequest cfg magicNative kind aux data tx now
    match r.1.packet with
    | some p => (.sent true r.1.rc, { l with client := r.2, requests := l.requests ++ [⟨kind, data, p⟩] })
    | none => (.sent false r.1.rc, { l with client := r.2 })
  | .serve i aux junk answer =>
    match l.requests[i]? with
    | none => (.other, l)
    | some q =>
      match serve scfg sle q.packet junk aux answer with
      | some (g, p) =>
        (.other, { l with answers := l.answers ++ [⟨i, g.kind, g.payload, answer, p⟩] })
      | none => (.other, l)
  | .poll (.deliver i) cap junk now =>
    match l.answers[i]? with
    | none => (.other, l)
    | some a =>
      let r := l.client.recvResponse cfg cap (Rx.of a.packet junk) now
      (.got r.1, { l with client := r.2 })
  | .poll (.fail rc) cap junk now =>
    let r := l.client.recvResponse cfg cap ⟨if rc = .ok then .aborted else rc, 0, junk⟩ now
    (.got r.1, { l with client := r.2 })
  | .abort => (.aborted, { l with client := (l.client.abortPending cfg).2 })

/-- A freshly initialised client and an empty network. -/
def Link.init (le : Bool) (timer : Timeout) : Link := ⟨Client.init le timer, [], []⟩

def Link.run (cfg scfg : Cfg) (sle : Bool) (l : Link) : List Ev → List Obs × Link
  | [] => ([], l)
  | e :: es =>
    let r := l.step cfg scfg sle e
    let r' := Link.run cfg scfg sle r.2 es
    (r.1 :: r'.1, r'.2)

/-- The delivered response is not older than 65535 requests. -/
def Ev.InWindow (l : Link) : Ev → Prop
  | .poll (.deliver i) _ _ _ => ∀ a, l.answers[i]? = some a → l.requests.length ≤ a.request + 65536
  | _ => True

/-- The transport took a request. -/
def Obs.isRequest : Obs → Bool
  | .sent t _ => t
  | _ => false

/-- The outstanding request is over: answered, or given up by the application. -/
def Obs.closes : Obs → Bool
  | .got g => g.rc == .ok
  | .aborted => true
  | _ => false

/-! ## The client alone, with any transport -/

/-- Calls of a client's application, with what the transport and the clock do. -/
inductive Call where
  | send (kind aux : UInt16) (data : List UInt8) (tx : Rc) (now : UInt64)
  | poll (cap : Option Nat) (rx : Rx) (now : UInt64)
  | abort

def Client.call (cfg : Cfg) (c : Client) : Call → Client
  | .send kind aux data tx now => (c.sendRequest cfg magicNative kind aux data tx now).2
  | .poll cap rx now => (c.recvResponse cfg cap rx now).2
  | .abort => (c.abortPending cfg).2

/-- A poll at which the transport has nothing, at clock reading `now`. -/
structure Quiet where
  cap : Option Nat
  buf : List UInt8
  now : UInt64

/-- The results of consecutive polls without any packet. -/
def Client.pollQuiet (cfg : Cfg) (c : Client) : List Quiet → List Got × Client
  | [] => ([], c)
  | q :: qs =>
    let r := c.recvResponse cfg q.cap ⟨.notready, 0, q.buf⟩ q.now
    let r' := Client.pollQuiet cfg r.2 qs
    (r.1 :: r'.1, r'.2)

end WolfHsm.Comm

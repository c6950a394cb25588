import Verif.Model.Tcp

/-!
# `port/posix/posix_transport_tls.c`

Packets on a TLS connection.  The transport puts nothing around a packet: it is what one `wolfSSL_write` was given and what
one `wolfSSL_read` returns.  wolfSSL is not in /repo; what is assumed of it is in `End.write` and `End.read`: a connection
carries a sequence of records in either direction, unchanged; a write that is told to come back keeps the record it has
built; a read returns bytes of one record.  How the handshake, the sockets and the peer behave is a parameter of every
call.  `max` is `WH_COMM_MTU`.  Simplified: `wolfSSL_new`, `wolfSSL_set_fd` and `fcntl` succeed; sizes are below 2^16; no
pre-shared keys; addresses and file descriptors are left out.
-/

namespace WolfHsm.Tls

/-- The certificate the peer shows: none, one that the configured CA does not vouch for, one it does. -/
inductive Cert where
  | none | bad | good
deriving DecidableEq

/-- `WOLFSSL_VERIFY_NONE`, `WOLFSSL_VERIFY_PEER`, `WOLFSSL_VERIFY_PEER | WOLFSSL_VERIFY_FAIL_IF_NO_PEER_CERT`. -/
inductive Verify where
  | off | peer | always
deriving DecidableEq

/-- The last part of `LoadTlsCertificates`, port/posix/posix_transport_tls.c:100-118. -/
def verifyMode (disabled isServer : Bool) : Verify :=
  if disabled then .off else if isServer then .always else .peer

/-- Whom wolfSSL completes a handshake with (wolfSSL is not in /repo; `WOLFSSL_VERIFY_PEER` lets a peer without
certificate pass, see the comment in the code, port/posix/posix_transport_tls.c:100-103). -/
def Verify.admits : Verify → Cert → Bool
  | .off, _ => true
  | .peer, c => decide (c ≠ .bad)
  | .always, c => decide (c = .good)

/-- Options of the two sides and the certificates they show; a TLS server always shows one.  `frag`: the longest record. -/
structure Cfg where
  max : Nat
  frag : Nat
  clientOff : Bool
  serverOff : Bool
  clientCert : Cert
  serverCert : Cert

/-- The client goes on with this server. -/
def Cfg.clientAdmits (k : Cfg) : Bool := decide (k.serverCert ≠ .none) && (verifyMode k.clientOff false).admits k.serverCert

/-- The server goes on with this client. -/
def Cfg.serverAdmits (k : Cfg) : Bool := (verifyMode k.serverOff true).admits k.clientCert

/-- How a handshake goes on: told to come back, failed, the connection was reset (`SOCKET_ERROR_E`), finished. -/
inductive Hs where
  | again | fatal | reset | done
deriving DecidableEq

/-- What happens to records: an error, or this many are taken by the socket. -/
inductive Out where
  | fatal | takes (n : Nat)
deriving DecidableEq

/-- What a read finds: nothing, an error (or the peer has closed), a record if there is one. -/
inductive In where
  | again | fatal | data
deriving DecidableEq

/-- A TLS session at one end (a `WOLFSSL` object): handshake finished; failed; the record that could not be sent, and how
much of the packet was sent before it. -/
structure End where
  up : Bool
  dead : Bool
  held : Option (List UInt8)
  prev : Nat

def End.fresh : End := ⟨false, false, .none, 0⟩

/-- A handshake with a peer that is not admitted fails. -/
def handshake (admits up : Bool) (h : Hs) : Hs :=
  if up then .done else match h with
    | .done => if admits then .done else .fatal
    | h => h

/-- `n` records of `data` from byte `sent` on: those that go, and the one that is kept. -/
def push (frag : Nat) (data : List UInt8) : Nat → Nat → List (List UInt8) × Option (List UInt8) × Nat
  | 0, sent => ([], if sent < data.length then some ((data.drop sent).take frag) else .none, sent)
  | n + 1, sent =>
    if sent < data.length then
      let r := (data.drop sent).take frag
      let p := push frag data n (sent + r.length)
      (r :: p.1, p.2)
    else ([], .none, sent)

/-- Send the records of `data` from `sent` on, after `first`. -/
def End.records (frag : Nat) (e : End) (first : List (List UInt8)) (data : List UInt8) (n sent : Nat) :
    Rc × End × List (List UInt8) :=
  let p := push frag data n sent
  match p.2.1 with
  | .none => (.ok, { e with held := .none, prev := 0 }, first ++ p.1)
  | some r => (.notready, { e with held := some r, prev := p.2.2 }, first ++ p.1)

/-- `wolfSSL_write` and what the transport makes of its result, port/posix/posix_transport_tls.c:284-293, 609-620: OK if it
returns more than 0.  wolfSSL goes on with the handshake if it must, sends the record it has kept, which counts as the
first bytes of `data`, then the rest. -/
def End.write (frag : Nat) (admits : Bool) (e : End) (h : Hs) (io : Out) (data : List UInt8) : Rc × End × List (List UInt8) :=
  if e.dead then (.aborted, e, [])
  else match handshake admits e.up h with
    | .again => (.notready, e, [])
    | .fatal | .reset => (.aborted, { e with dead := true }, [])
    | .done =>
      let e := { e with up := true }
      match io with
      | .fatal => (.aborted, { e with dead := true }, [])
      | .takes n =>
        match e.held with
        | .none => e.records frag [] data n 0
        | some m =>
          match n with
          | 0 => (.notready, e, [])
          | n + 1 =>
            if e.prev + m.length > data.length then (.aborted, { e with held := .none, dead := true }, [m])
            else e.records frag [m] data n (e.prev + m.length)

/-- `wolfSSL_read` and what the transport makes of its result, port/posix/posix_transport_tls.c:324-335, 573-586; with the
records that stay and the packet. -/
def End.read (max : Nat) (admits : Bool) (e : End) (h : Hs) (io : In) (w : List (List UInt8)) :
    Rc × End × List (List UInt8) × Option (List UInt8) :=
  if e.dead then (.aborted, e, w, .none)
  else match handshake admits e.up h with
    | .again => (.notready, e, w, .none)
    | .fatal | .reset => (.aborted, { e with dead := true }, w, .none)
    | .done =>
      let e := { e with up := true }
      match io with
      | .again => (.notready, e, w, .none)
      | .fatal => (.aborted, { e with dead := true }, w, .none)
      | .data =>
        match w with
        | [] => (.notready, e, [], .none)
        | r :: w => (.ok, e, if r.length > max then r.drop max :: w else w, some (r.take max))

/-- `posixTransportTlsClientContext`, port/posix/posix_transport_tls.h:105-116: the state of the TCP context, `state` is
`PTTLS_STATE_CONNECTED`, `ssl` is not NULL. -/
structure Client where
  link : Tcp.Link
  connected : Bool
  ssl : Bool
  tls : End

/-- `posixTransportTls_SendRequest`, port/posix/posix_transport_tls.c:202-300. -/
def sendRequest (k : Cfg) (c : Client) (e : Tcp.Conn) (h : Hs) (io : Out) (data : List UInt8) :
    Rc × Client × List (List UInt8) :=
  if data.length = 0 then (.badargs, c, [])
  else if c.connected then
    let r := c.tls.write k.frag k.clientAdmits h io data
    (r.1, { c with tls := r.2.1 }, r.2.2)
  else
    let p := Tcp.connect c.link e
    if p.1 ≠ .ok then (.notready, { c with link := p.2 }, [])
    else
      let c := { c with link := p.2, ssl := true }
      if c.tls.dead then (.aborted, c, [])
      else match handshake k.clientAdmits c.tls.up h with
        | .again => (.notready, c, [])
        | .reset => (.notready, ⟨.unconnected, false, false, .fresh⟩, [])
        | .fatal => (.aborted, { c with tls := { c.tls with dead := true } }, [])
        | .done =>
          let r := End.write k.frag k.clientAdmits { c.tls with up := true } h io data
          (r.1, { c with connected := true, tls := r.2.1 }, r.2.2)

/-- `posixTransportTls_RecvResponse`, port/posix/posix_transport_tls.c:302-343. -/
def recvResponse (k : Cfg) (c : Client) (h : Hs) (io : In) (w : List (List UInt8)) :
    Rc × Client × List (List UInt8) × Option (List UInt8) :=
  if !c.ssl then (.badargs, c, w, .none)
  else
    let r := c.tls.read k.max k.clientAdmits h io w
    (r.1, { c with tls := r.2.1 }, r.2.2)

/-- `posixTransportTlsServerContext`, port/posix/posix_transport_tls.h:141-157: `accept_fd_p1` is not 0 (then `ssl` is
not NULL); `told`: the calls of `connectcb`, true for `WH_COMM_CONNECTED`. -/
structure Server where
  accepted : Bool
  tls : End
  told : List Bool

/-- The end of `posixTransportTls_RecvRequest`, port/posix/posix_transport_tls.c:571-586. -/
def readRequest (k : Cfg) (s : Server) (h : Hs) (io : In) (w : List (List UInt8)) :
    Rc × Server × List (List UInt8) × Option (List UInt8) :=
  let r := s.tls.read k.max k.serverAdmits h io w
  (r.1, { s with tls := r.2.1 }, r.2.2)

/-- `posixTransportTls_RecvRequest`, port/posix/posix_transport_tls.c:499-593. -/
def recvRequest (k : Cfg) (s : Server) (a : Tcp.Acc) (h : Hs) (io : In) (w : List (List UInt8)) :
    Rc × Server × List (List UInt8) × Option (List UInt8) :=
  if s.accepted then readRequest k s h io w
  else
    match a with
    | .again => (.notready, s, w, .none)
    | .fatal => (.aborted, s, w, .none)
    | .client =>
      match handshake k.serverAdmits false h with
      | .again => (.notready, { s with accepted := true, tls := .fresh }, w, .none)
      | .fatal | .reset => (.aborted, { s with tls := .fresh }, w, .none)
      | .done =>
        readRequest k { s with accepted := true, tls := { End.fresh with up := true }, told := s.told ++ [true] } h io w

/-- `posixTransportTls_SendResponse`, port/posix/posix_transport_tls.c:595-627. -/
def sendResponse (k : Cfg) (s : Server) (h : Hs) (io : Out) (data : List UInt8) : Rc × Server × List (List UInt8) :=
  if data.length = 0 then (.badargs, s, [])
  else if !s.accepted then (.notready, s, [])
  else
    let r := s.tls.write k.frag k.serverAdmits h io data
    (r.1, { s with tls := r.2.1 }, r.2.2)

/-- A client, a server, and the records under way to the server and to the client. -/
structure Sys where
  c : Client
  s : Server
  up : List (List UInt8)
  down : List (List UInt8)

/-- After `posixTransportTls_InitConnect` and `posixTransportTls_InitListen`, port/posix/posix_transport_tls.c:123-200,
378-497: contexts cleared.  The server's callback has been told `WH_COMM_CONNECTED` by the TCP context and again by
this one, posix_transport_tcp.c:681-683, posix_transport_tls.c:485-487. -/
def Sys.start : Sys := ⟨⟨.unconnected, false, false, .fresh⟩, ⟨false, .fresh, [true, true]⟩, [], []⟩

/-- The calls of both sides, with what happens below. -/
inductive Op where
  | cSend (e : Tcp.Conn) (h : Hs) (io : Out) (data : List UInt8)
  | cRecv (h : Hs) (io : In)
  | sRecv (a : Tcp.Acc) (h : Hs) (io : In)
  | sSend (h : Hs) (io : Out) (data : List UInt8)

/-- The connection the server has accepted is gone if the client gives its socket up for another one. -/
def Server.lost (s : Server) (reset : Bool) : Server :=
  if reset && s.accepted then { s with tls := { s.tls with dead := true } } else s

/-- One call: its result, and the packet it returns. -/
def step (k : Cfg) (y : Sys) : Op → Sys × Rc × Option (List UInt8)
  | .cSend e h io d =>
    let r := sendRequest k y.c e h io d
    ({ y with c := r.2.1, s := y.s.lost (y.c.ssl && !r.2.1.ssl), up := y.up ++ r.2.2 }, r.1, .none)
  | .cRecv h io =>
    let r := recvResponse k y.c h io y.down
    ({ y with c := r.2.1, down := r.2.2.1 }, r.1, r.2.2.2)
  | .sRecv a h io =>
    let r := recvRequest k y.s a h io y.up
    ({ y with s := r.2.1, up := r.2.2.1 }, r.1, r.2.2.2)
  | .sSend h io d =>
    let r := sendResponse k y.s h io d
    ({ y with s := r.2.1, down := y.down ++ r.2.2 }, r.1, .none)

/-- A sequence of calls, with what they return. -/
def run (k : Cfg) (y : Sys) : List Op → Sys × List (Op × Rc × Option (List UInt8))
  | [] => (y, [])
  | o :: os =>
    let p := step k y o
    let q := run k p.1 os
    (q.1, (o, p.2) :: q.2)

end WolfHsm.Tls

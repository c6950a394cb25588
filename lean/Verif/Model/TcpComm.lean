import Verif.Model.Tcp
import Verif.Model.Comm

/-!
# The comm client of `src/wh_comm.c` on the TCP transport
-/

namespace WolfHsm.TcpComm

/-- A comm client, and the connection it uses. -/
structure Node where
  comm : Comm.Client
  sys : Tcp.Sys

/-- The packet `wh_CommClient_SendRequest` gives to the transport, src/wh_comm.c:129-140. -/
def packet (c : Comm.Client) (magic kind aux : UInt16) (data : List UInt8) : List UInt8 :=
  Comm.header c.le magic kind (c.seq + 1) aux ++ data

/-- `wh_CommClient_SendRequest`, src/wh_comm.c:107-151, calling `posixTransportTcp_SendRequest`. -/
def send (cfg : Comm.Cfg) (n : Node) (magic kind aux : UInt16) (data : List UInt8) (e : Tcp.Conn) (io : Tcp.Out)
    (now : UInt64) : Rc × Node :=
  if n.comm.initialized && !n.comm.pending && decide (data.length ≤ cfg.dataLen) then
    let p := Tcp.step cfg.mtu n.sys (.cSend e io (packet n.comm magic kind aux data))
    let q := n.comm.sendRequest cfg magic kind aux data p.2.1 now
    (q.1.rc, ⟨q.2, p.1⟩)
  else
    let q := n.comm.sendRequest cfg magic kind aux data .badargs now
    (q.1.rc, { n with comm := q.2 })

/-- `wh_CommClient_RecvResponse`, src/wh_comm.c:159-270, calling `posixTransportTcp_RecvResponse`. -/
def recv (cfg : Comm.Cfg) (n : Node) (cap : Option Nat) (io io2 : Tcp.In) (now : UInt64) : Comm.Got × Node :=
  if n.comm.initialized && n.comm.pending then
    let p := Tcp.step cfg.mtu n.sys (.cRecv io io2)
    let b := p.2.2.getD []
    let q := n.comm.recvResponse cfg cap ⟨p.2.1, UInt16.ofNat b.length, b⟩ now
    (q.1, ⟨q.2, p.1⟩)
  else
    let q := n.comm.recvResponse cfg cap ⟨.badargs, 0, []⟩ now
    (q.1, { n with comm := q.2 })

/-- The calls of the client, and those of the server to its transport. -/
inductive Op where
  | send (magic kind aux : UInt16) (data : List UInt8) (e : Tcp.Conn) (io : Tcp.Out) (now : UInt64)
  | recv (cap : Option Nat) (io io2 : Tcp.In) (now : UInt64)
  | abort
  | sRecv (a : Tcp.Acc) (io io2 : Tcp.In)
  | sSend (io : Tcp.Out) (data : List UInt8)

/-- One call, with its result. -/
def step (cfg : Comm.Cfg) (n : Node) : Op → Node × Rc
  | .send magic kind aux data e io now =>
    let r := send cfg n magic kind aux data e io now
    (r.2, r.1)
  | .recv cap io io2 now =>
    let r := recv cfg n cap io io2 now
    (r.2, r.1.rc)
  | .abort =>
    let r := n.comm.abortPending cfg
    ({ n with comm := r.2 }, r.1)
  | .sRecv a io io2 =>
    let r := Tcp.step cfg.mtu n.sys (.sRecv a io io2)
    ({ n with sys := r.1 }, r.2.1)
  | .sSend io d =>
    let r := Tcp.step cfg.mtu n.sys (.sSend io d)
    ({ n with sys := r.1 }, r.2.1)

/-- A sequence of calls, with their results. -/
def run (cfg : Comm.Cfg) (n : Node) : List Op → Node × List (Op × Rc)
  | [] => (n, [])
  | o :: os =>
    let p := step cfg n o
    let q := run cfg p.1 os
    (q.1, (o, p.2) :: q.2)

end WolfHsm.TcpComm

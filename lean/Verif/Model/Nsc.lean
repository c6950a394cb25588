import Verif.Model.Server

/-!
# A client and a server joined by a call into the secure world

`port/armv8m-tz/wh_transport_nsc.c` under `src/wh_comm.c` and `src/wh_server.c`: sending a request is one call of the
veneer, in which the server handles it; receiving hands out what that call brought.  The veneer itself is not in the
repository; what is assumed of it is what port/armv8m-tz/README.md:19-36 and wh_transport_nsc.h:65-79 ask for.
Simplified: NULL pointers do not occur; the two sides do not run at the same time, because the call is synchronous.
-/

namespace WolfHsm.Nsc

open Utils (magicNative)

variable {R : Type}

/-- Compile-time options of the client, the server with its handlers, and the context that serves this client. -/
structure Cfg (R : Type) where
  cli : Comm.Cfg
  srv : Server.Cfg R
  x : Nat

/-- `whTransportNscClientContext`, wh_transport_nsc.h:53-58. -/
structure Cli where
  buf : List UInt8
  last : UInt16
  initialized : Bool

/-- `whTransportNscServerContext`, wh_transport_nsc.h:71-79; `buf` is what `rsp_buf` points to. -/
structure Srv where
  req : List UInt8
  buf : List UInt8
  reqSize : UInt16
  cap : UInt16
  rspSize : UInt16
  pending : Bool

/-- `wh_TransportNsc_ClientInit`, port/armv8m-tz/wh_transport_nsc.c:48-68: `memset`. -/
def clientInit (mtu : Nat) : Cli := ⟨List.replicate mtu 0, 0, true⟩

/-- `wh_TransportNsc_ServerInit`, port/armv8m-tz/wh_transport_nsc.c:149-167: `memset`. -/
def serverInit : Srv := ⟨[], [], 0, 0, 0, false⟩

/-- `wh_TransportNsc_ServerRecv`, port/armv8m-tz/wh_transport_nsc.c:169-191: what the comm server gets in its packet
buffer, which holds `junk` behind the packet. -/
def serverRecv (s : Srv) (room : UInt16) (junk : List UInt8) : Comm.Rx × Srv :=
  if !s.pending || s.reqSize == 0 then (⟨.notready, 0, junk⟩, s)
  else if s.reqSize > room then (⟨.aborted, 0, junk⟩, { s with rspSize := 0, pending := false })
  else (⟨.ok, s.reqSize, s.req.take s.reqSize.toNat ++ junk⟩, { s with rspSize := 0, pending := false })

/-- `wh_TransportNsc_ServerSend`, port/armv8m-tz/wh_transport_nsc.c:193-211. -/
def serverSend (s : Srv) (p : List UInt8) : Rc × Srv :=
  if p.length = 0 ∨ p.length > s.cap.toNat then (.badargs, s)
  else (.ok, { s with buf := p ++ s.buf.drop p.length, rspSize := UInt16.ofNat p.length })

/-- What the device has done: the state it was in, the request, the response and the state afterwards. -/
structure Exec (R : Type) where
  before : Server.Dev R
  kind : UInt16
  req : Server.Req
  resp : List UInt8
  after : Server.Dev R

/-- What a call of the veneer brings. -/
structure Call (R : Type) where
  rc : Rc
  size : UInt16
  srv : Srv
  dev : Server.Dev R
  ran : Option (Exec R)

/-- `sizeof(context->packet)`, src/wh_comm.c:168, 371. -/
def mtu16 (c : Comm.Cfg) : UInt16 := UInt16.ofNat c.mtu

/-- `wcs_wolfhsm_transmit` as port/armv8m-tz/README.md:19-36 and wh_transport_nsc.h:65-70 describe it: the fields of the
context are set, `wh_Server_HandleRequestMessage` (src/wh_server.c:557-756) is called once, its result is returned
together with `rsp_size`.  The loop at src/wh_server.c:726-729 ends at once: `ServerSend` is never "not ready". -/
def veneer (c : Cfg R) (s : Srv) (d : Server.Dev R) (cmd : List UInt8) (cap : UInt16) (buf junk : List UInt8) (aux : UInt16) :
    Call R :=
  let s : Srv := { s with req := cmd, reqSize := UInt16.ofNat cmd.length, cap := cap, buf := buf, pending := true }
  if (d.ctx c.x).connected = false then ⟨.notready, s.rspSize, s, d, none⟩
  else
    let rx := serverRecv s (mtu16 c.srv.comm) junk
    let g := Comm.serverRecv c.srv.comm c.srv.le c.srv.comm.dataLen rx.1
    match g.rc with
    | .ok =>
      let r : Server.Req := ⟨g.magic, Server.actionOf g.kind, g.seq, rx.1.buf.drop 8, g.payload.length⟩
      let a := Server.answer c.srv d c.x g.kind r
      let e : Exec R := ⟨d, g.kind, r, a.1, a.2⟩
      match Comm.serverPacket c.srv.comm c.srv.le g.magic g.kind g.seq aux a.1 with
      | none => ⟨.badargs, rx.2.rspSize, rx.2, a.2, some e⟩
      | some p =>
        let t := serverSend rx.2 p
        ⟨t.1, t.2.rspSize, t.2, a.2, some e⟩
    | rc => ⟨rc, rx.2.rspSize, rx.2, d, none⟩

/-- `rc` as `ClientSend` passes it on, port/armv8m-tz/wh_transport_nsc.c:90-98. -/
def known : Rc → Rc
  | .badargs => .badargs
  | .notready => .notready
  | _ => .aborted

/-- Client, transport and device. -/
structure World (R : Type) where
  client : Comm.Client
  cli : Cli
  srv : Srv
  dev : Server.Dev R

/-- `wh_TransportNsc_ClientSend`, port/armv8m-tz/wh_transport_nsc.c:70-106. -/
def clientSend (c : Cfg R) (w : World R) (msg junk : List UInt8) (aux : UInt16) : Rc × World R × Option (Exec R) :=
  if !w.cli.initialized then (.badargs, w, none)
  else if msg.length = 0 ∨ msg.length > c.cli.mtu then (.badargs, w, none)
  else if w.cli.last ≠ 0 then (.notready, w, none)
  else
    let v := veneer c w.srv w.dev msg (mtu16 c.cli) w.cli.buf junk aux
    let w := { w with srv := v.srv, dev := v.dev, cli := { w.cli with buf := v.srv.buf } }
    match v.rc with
    | .ok =>
      if v.size = 0 ∨ v.size.toNat > c.cli.mtu then (.aborted, { w with cli := { w.cli with last := 0 } }, v.ran)
      else (.ok, { w with cli := { w.cli with last := v.size } }, v.ran)
    | rc => (known rc, { w with cli := { w.cli with last := 0 } }, v.ran)

/-- `wh_TransportNsc_ClientRecv`, port/armv8m-tz/wh_transport_nsc.c:108-128, into the packet buffer of the client. -/
def clientRecv (k : Cli) (room : UInt16) (junk : List UInt8) : Comm.Rx × Cli :=
  if !k.initialized then (⟨.badargs, 0, junk⟩, k)
  else if k.last = 0 then (⟨.notready, 0, junk⟩, k)
  else if room < k.last then (⟨.badargs, 0, junk⟩, k)
  else (⟨.ok, k.last, k.buf.take k.last.toNat ++ junk⟩, { k with last := 0 })

/-- What there is to see. -/
inductive Obs (R : Type) where
  /-- `wh_CommClient_SendRequest`: the transport's result, or what was refused before, and what the device did meanwhile. -/
  | sent (rc : Rc) (kind : UInt16) (data : List UInt8) (ran : Option (Exec R))
  /-- `wh_CommClient_RecvResponse` returns. -/
  | got (g : Comm.Got)
  /-- `wh_CommClient_AbortPending`. -/
  | gaveUp
  /-- The client has been closed and opened again. -/
  | restarted
  /-- Somebody else has changed the device. -/
  | changed (d : Server.Dev R)

/-- Calls; `junk`: what the packet buffers hold behind the packet, `aux`, `saux`: the unused fields of the headers. -/
inductive Ev (R : Type) where
  | send (kind aux : UInt16) (data : List UInt8) (now : UInt64) (sjunk : List UInt8) (saux : UInt16)
  | poll (cap : Option Nat) (junk : List UInt8) (now : UInt64)
  | abort
  | restart (timer : Timeout)
  | other (d : Server.Dev R)

/-- One call: `wh_CommClient_SendRequest` (src/wh_comm.c:107-151), `wh_CommClient_RecvResponse` (src/wh_comm.c:159-270),
`wh_CommClient_AbortPending` (src/wh_comm.c:319-329), `wh_CommClient_Cleanup` and `wh_CommClient_Init`
(src/wh_comm.c:64-102, 283-309). -/
def step (c : Cfg R) (w : World R) : Ev R → World R × Obs R
  | .send kind aux data now sjunk saux =>
    let r := (w.client.sendRequest c.cli magicNative kind aux data .ok now).1
    match r.packet with
    | none => (w, .sent r.rc kind data none)
    | some p =>
      let t := clientSend c w p sjunk saux
      ({ t.2.1 with client := (w.client.sendRequest c.cli magicNative kind aux data t.1 now).2 }, .sent t.1 kind data t.2.2)
  | .poll cap junk now =>
    if w.client.initialized && w.client.pending then
      let t := clientRecv w.cli (mtu16 c.cli) junk
      let r := w.client.recvResponse c.cli cap t.1 now
      ({ w with client := r.2, cli := t.2 }, .got r.1)
    else
      let r := w.client.recvResponse c.cli cap ⟨.notready, 0, junk⟩ now
      ({ w with client := r.2 }, .got r.1)
  | .abort => ({ w with client := (w.client.abortPending c.cli).2 }, .gaveUp)
  | .restart timer => ({ w with client := Comm.Client.init w.client.le timer, cli := clientInit c.cli.mtu }, .restarted)
  | .other d => ({ w with dev := d }, .changed d)

def init (c : Cfg R) (le : Bool) (timer : Timeout) (d : Server.Dev R) : World R :=
  ⟨Comm.Client.init le timer, clientInit c.cli.mtu, serverInit, d⟩

/-- The state at the end and everything seen. -/
def run (c : Cfg R) (w : World R) : List (Ev R) → World R × List (Obs R)
  | [] => (w, [])
  | e :: es =>
    let r := step c w e
    let r' := run c r.1 es
    (r'.1, r.2 :: r'.2)

end WolfHsm.Nsc

import Verif.Model.Server
import Verif.Model.TransportMem

/-!
# A client, the shared-memory transport and a server together

`src/wh_comm.c` and `src/wh_server.c` on top of `src/wh_transport_mem.c`: the calls of `Model/Comm.lean` and
`Model/Server.lean`, in which the transport is a parameter, take what the two-party model of `Model/TransportMem.lean`
gives them.  A step is one access to shared memory of either side, so that all interleavings are covered.
What other clients and the application on the server do to the device is an event of its own.
-/

namespace WolfHsm.Stack

open Utils (magicNative)

variable {R : Type}

/-- The two sides: compile-time options of the client, the server with its handlers, the shared buffers
(`whTransportMemConfig`), and the context that serves this client. -/
structure Cfg (R : Type) where
  cli : Comm.Cfg
  srv : Server.Cfg R
  mem : Mem.Cfg
  x : Nat

/-- The call the client is in: `wh_CommClient_SendRequest`, src/wh_comm.c:107-151, or `wh_CommClient_RecvResponse`,
src/wh_comm.c:159-270. -/
inductive Busy where
  | free
  | sending (kind aux : UInt16) (data : List UInt8) (now : UInt64)
  | polling (cap : Option Nat) (junk : List UInt8) (now : UInt64)

/-- Client, shared memory and device. -/
structure World (R : Type) where
  client : Comm.Client
  busy : Busy
  mem : Mem.Sys
  dev : Server.Dev R

/-- What there is to see. -/
inductive Obs (R : Type) where
  /-- `wh_CommClient_SendRequest` has handed over a request. -/
  | asked (kind : UInt16) (data : List UInt8)
  /-- It has failed. -/
  | refused (rc : Rc)
  /-- `wh_CommClient_RecvResponse` returns. -/
  | got (g : Comm.Got)
  /-- `wh_CommClient_AbortPending`. -/
  | gaveUp
  /-- The device in state `d` has handled the request `r`; its response, and its state afterwards. -/
  | ran (d : Server.Dev R) (kind : UInt16) (r : Server.Req) (resp : List UInt8) (d' : Server.Dev R)
  /-- Somebody else has changed the device. -/
  | changed (d : Server.Dev R)

/-- Calls of the two sides and their accesses to memory; `junk`: what the packet buffer holds behind the packet,
`aux`: the unused field of a header, `now`: the clock. -/
inductive Ev (R : Type) where
  | send (kind aux : UInt16) (data : List UInt8) (now : UInt64)
  | poll (cap : Option Nat) (junk : List UInt8) (now : UInt64)
  | abort
  | cStep
  | serve
  | sStep (junk : List UInt8) (aux : UInt16)
  | other (d : Server.Dev R)

/-- `sizeof(context->packet)`, src/wh_comm.c:168, 371. -/
def mtu16 (c : Comm.Cfg) : UInt16 := UInt16.ofNat c.mtu

/-- The transport call of the client returns, src/wh_comm.c:133-149, 181-267. -/
def returned (c : Cfg R) (w : World R) (o : Mem.Obs) : World R × List (Obs R) :=
  match w.busy with
  | .free => (w, [])
  | .sending kind aux data now =>
    match o with
    | .sent _ =>
      let r := w.client.sendRequest c.cli magicNative kind aux data .ok now
      ({ w with client := r.2, busy := .free }, [.asked kind data])
    | _ => ({ w with busy := .free }, [.refused .notready])
  | .polling cap junk now =>
    match o with
    | .got _ len bytes =>
      let r := w.client.recvResponse c.cli cap ⟨.ok, len, bytes ++ junk⟩ now
      ({ w with client := r.2, busy := .free }, [.got r.1])
    | _ =>
      let r := w.client.recvResponse c.cli cap ⟨.notready, 0, junk⟩ now
      ({ w with client := r.2, busy := .free }, [.got r.1])

/-- The server has received something, src/wh_server.c:581-729: the request is handled, and sending the response begins.
(`Server.handle` in two halves.) -/
def handled (c : Cfg R) (w : World R) (rx : Comm.Rx) (aux : UInt16) : World R × List (Obs R) :=
  let g := Comm.serverRecv c.srv.comm c.srv.le c.srv.comm.dataLen rx
  match g.rc with
  | .ok =>
    let r : Server.Req := ⟨g.magic, Server.actionOf g.kind, g.seq, rx.buf.drop 8, g.payload.length⟩
    let a := Server.answer c.srv w.dev c.x g.kind r
    let m := match Comm.serverPacket c.srv.comm c.srv.le g.magic g.kind g.seq aux a.1 with
      | some p => (Mem.step c.mem w.mem (.sSend p)).1
      | none => w.mem
    ({ w with dev := a.2, mem := m }, [.ran w.dev g.kind r a.1 a.2])
  | _ => (w, [])

/-- One event.  A client is in one call at a time, and so is a server: src/wh_comm.c:107-151, 159-200, 319-329,
src/wh_server.c:557-583. -/
def step (c : Cfg R) (w : World R) : Ev R → World R × List (Obs R)
  | .send kind aux data now =>
    match w.busy with
    | .free =>
      let r := (w.client.sendRequest c.cli magicNative kind aux data .ok now).1
      match r.packet with
      | none => (w, [.refused r.rc])
      | some p =>
        let m := Mem.step c.mem w.mem (.cSend p)
        match m.2 with
        | some _ => (w, [.refused .badargs])
        | none => ({ w with mem := m.1, busy := .sending kind aux data now }, [])
    | _ => (w, [])
  | .poll cap junk now =>
    match w.busy with
    | .free =>
      if w.client.initialized && w.client.pending then
        ({ w with mem := (Mem.step c.mem w.mem (.cRecv (mtu16 c.cli))).1, busy := .polling cap junk now }, [])
      else
        let r := w.client.recvResponse c.cli cap ⟨.notready, 0, junk⟩ now
        ({ w with client := r.2 }, [.got r.1])
    | _ => (w, [])
  | .abort =>
    match w.busy with
    | .free => ({ w with client := (w.client.abortPending c.cli).2 }, [.gaveUp])
    | _ => (w, [])
  | .cStep =>
    let m := Mem.step c.mem w.mem .cStep
    match m.2 with
    | some o => returned c { w with mem := m.1 } o
    | none => ({ w with mem := m.1 }, [])
  | .serve =>
    if (w.dev.ctx c.x).connected then ({ w with mem := (Mem.step c.mem w.mem (.sRecv (mtu16 c.srv.comm))).1 }, [])
    else (w, [])
  | .sStep junk aux =>
    let m := Mem.step c.mem w.mem .sStep
    match m.2 with
    | some (.received _ len bytes) => handled c { w with mem := m.1 } ⟨.ok, len, bytes ++ junk⟩ aux
    | _ => ({ w with mem := m.1 }, [])
  | .other d => ({ w with dev := d }, [.changed d])

/-- Both sides after their initialisation, src/wh_comm.c:64-102, src/wh_transport_mem.c:70-82. -/
def init (c : Cfg R) (le : Bool) (timer : Timeout) (d : Server.Dev R) : World R :=
  ⟨Comm.Client.init le timer, .free, Mem.init c.mem, d⟩

/-- The state at the end and everything seen. -/
def run (c : Cfg R) (w : World R) : List (Ev R) → World R × List (Obs R)
  | [] => (w, [])
  | e :: es =>
    let r := step c w e
    let r' := run c r.1 es
    (r'.1, r.2 ++ r'.2)

end WolfHsm.Stack

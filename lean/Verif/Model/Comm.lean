import Verif.Model.Utils
import Verif.Model.Timeout

/-!
# The comm layer: `src/wh_comm.c`

A packet is its bytes; `le` says whether the host it is built or read on is little-endian.
The transport is seen through the results of its `Send` and `Recv` callbacks, which are
parameters, so a theorem for all of them covers every transport and every network.
The packet buffer of the context is not kept between calls: every call writes all of the
header fields it uses, except `aux`, which is a parameter.
-/

namespace WolfHsm.Comm

open Utils (bytes16 read16 translate16 magicNative)

/-- Compile-time options. -/
structure Cfg where
  /-- `WOLFHSM_CFG_COMM_DATA_LEN` -/
  dataLen : Nat
  /-- `WOLFHSM_CFG_ENABLE_TIMEOUT` -/
  timeout : Bool

/-- `WH_COMM_MTU`, wolfhsm/wh_comm.h:55. -/
def Cfg.mtu (cfg : Cfg) : Nat := 8 + cfg.dataLen

/-- The header as built by both senders, src/wh_comm.c:129-131 and 433-435. -/
def header (le : Bool) (magic kind seq aux : UInt16) : List UInt8 :=
  bytes16 le magic ++ bytes16 le (translate16 magic kind) ++ bytes16 le (translate16 magic seq) ++
    bytes16 le aux

/-- One 16-bit header field of the packet buffer as the host reads it (the buffer holds at
least eight bytes). -/
def field (le : Bool) (buf : List UInt8) (off : Nat) : UInt16 :=
  (read16 le ((buf.drop off).take 2)).getD 0

/-- What the `Recv` callback of a transport leaves: its result, `*out_size`, and the packet
buffer. -/
structure Rx where
  rc : Rc
  size : UInt16
  buf : List UInt8

/-- `whCommClient`, wolfhsm/wh_comm.h:168-189, without buffers and callbacks. -/
structure Client where
  le : Bool
  initialized : Bool
  pending : Bool
  seq : UInt16
  timer : Timeout

/-- `wh_CommClient_Init`, src/wh_comm.c:64-102, when the transport and the connect callback
succeed. -/
def Client.init (le : Bool) (timer : Timeout) : Client := ⟨le, true, false, 0, timer⟩

/-- Outcome of a send: return code, and the bytes given to the transport if it took them. -/
structure Sent where
  rc : Rc
  packet : Option (List UInt8)
deriving DecidableEq

/-- `wh_CommClient_SendRequest`, src/wh_comm.c:107-151.  `tx`: result of the transport's
`Send`; `now`: clock reading of `wh_Timeout_Start`. -/
def Client.sendRequest (cfg : Cfg) (c : Client) (magic kind aux : UInt16) (data : List UInt8)
    (tx : Rc) (now : UInt64) : Sent × Client :=
  if !c.initialized then (⟨.badargs, none⟩, c)
  else if c.pending then (⟨.requestPending, none⟩, c)
  else if data.length > cfg.dataLen then (⟨.badargs, none⟩, c)
  else match tx with
    | .ok =>
      let pkt := header c.le magic kind (c.seq + 1) aux ++ data
      let c' := { c with seq := c.seq + 1, pending := true }
      if cfg.timeout then
        (⟨(c.timer.start now).1, some pkt⟩, { c' with timer := (c.timer.start now).2 })
      else (⟨.ok, some pkt⟩, c')
    | rc => (⟨rc, none⟩, c)

/-- What `wh_CommClient_RecvResponse` or `wh_CommServer_RecvRequest` hand to their caller. -/
structure Got where
  rc : Rc
  magic : UInt16
  kind : UInt16
  seq : UInt16
  payload : List UInt8
deriving DecidableEq

/-- Nothing but an error code. -/
def Got.err (rc : Rc) : Got := ⟨rc, 0, 0, 0, []⟩

/-- `(size < sizeof(*context->hdr)) || (size > WH_COMM_MTU)`, src/wh_comm.c:190-191, 386-387. -/
def badSize (cfg : Cfg) (size : UInt16) : Bool := decide (size.toNat < 8) || decide (size.toNat > cfg.mtu)

/-- Lines 200-246 of `wh_CommClient_RecvResponse`: a packet of acceptable size.  `cap`:
capacity of the caller's buffer; `none` if the caller uses the packet buffer in place. -/
def Client.accept (c : Client) (cap : Option Nat) (rx : Rx) : Got × Client :=
  let magic := field c.le rx.buf 0
  let kind := translate16 magic (field c.le rx.buf 2)
  let seq := translate16 magic (field c.le rx.buf 4)
  let payload := (rx.buf.drop 8).take (rx.size.toNat - 8)
  if magic ≠ magicNative then (⟨.aborted, magic, 0, 0, []⟩, c)
  else if seq ≠ c.seq then (.err .notready, c)
  else match cap with
    | none => (⟨.ok, magic, kind, seq, payload⟩, { c with pending := false })
    | some n =>
      if rx.size.toNat - 8 > n then (⟨.bufferSize, magic, kind, seq, []⟩, { c with pending := false })
      else (⟨.ok, magic, kind, seq, payload⟩, { c with pending := false })

/-- `wh_Timeout_Stop` when timeouts are compiled in. -/
def Client.stopTimer (cfg : Cfg) (c : Client) : Client :=
  if cfg.timeout then { c with timer := c.timer.stop } else c

/-- Lines 254-267: the transport has nothing yet. -/
def Client.notReady (cfg : Cfg) (c : Client) (now : UInt64) : Got × Client :=
  if cfg.timeout then
    match c.timer.expired now with
    | (.ok, true, t) => (.err .timeout, { c with pending := false, timer := t.stop })
    | (.ok, false, t) => (.err .notready, { c with timer := t })
    | (rc, _, t) => (.err rc, { c with timer := t })
  else (.err .notready, c)

/-- `wh_CommClient_RecvResponse`, src/wh_comm.c:159-270.  `now`: clock reading of
`wh_Timeout_Expired`. -/
def Client.recvResponse (cfg : Cfg) (c : Client) (cap : Option Nat) (rx : Rx) (now : UInt64) :
    Got × Client :=
  if !c.initialized then (.err .badargs, c)
  else if !c.pending then (.err .notready, c)
  else match rx.rc with
    | .ok =>
      if badSize cfg rx.size then (.err .aborted, { c.stopTimer cfg with pending := false })
      else (c.stopTimer cfg).accept cap rx
    | .aborted => (.err .aborted, { c with pending := false })
    | .notready => c.notReady cfg now
    | rc => (.err rc, c)

/-- `wh_CommClient_IsRequestPending`, src/wh_comm.c:311-317. -/
def Client.isRequestPending (c : Client) : Except Rc Bool :=
  if c.initialized then .ok c.pending else .error .badargs

/-- `wh_CommClient_AbortPending`, src/wh_comm.c:319-329. -/
def Client.abortPending (cfg : Cfg) (c : Client) : Rc × Client :=
  if !c.initialized then (.badargs, c)
  else (.ok, { c.stopTimer cfg with pending := false })

/-- `wh_CommClient_Cleanup`, src/wh_comm.c:283-309 (the timer is zeroed when its cleanup
succeeds, which the POSIX one always does). -/
def Client.cleanup (cfg : Cfg) (c : Client) : Client :=
  { c with initialized := false, pending := false,
           timer := if cfg.timeout then ⟨false, none, none⟩ else c.timer }

/-- `wh_CommServer_RecvRequest`, src/wh_comm.c:363-414, on a context whose `Init` has
succeeded.  `cap`: capacity of the caller's buffer. -/
def serverRecv (cfg : Cfg) (le : Bool) (cap : Nat) (rx : Rx) : Got :=
  match rx.rc with
  | .ok =>
    if badSize cfg rx.size then .err .aborted
    else
      let magic := field le rx.buf 0
      let kind := translate16 magic (field le rx.buf 2)
      let seq := translate16 magic (field le rx.buf 4)
      if rx.size.toNat - 8 > cap then ⟨.bufferSize, magic, kind, seq, []⟩
      else ⟨.ok, magic, kind, seq, (rx.buf.drop 8).take (rx.size.toNat - 8)⟩
  | rc => .err rc

/-- `wh_CommServer_SendResponse`, src/wh_comm.c:416-447: the packet given to the transport,
or nothing and an error. -/
def serverPacket (cfg : Cfg) (le : Bool) (magic kind seq aux : UInt16) (data : List UInt8) :
    Option (List UInt8) :=
  if data.length > cfg.dataLen then none
  else some (header le magic kind seq aux ++ data)

/-- `wh_CommServer_SendResponse` including the transport's result `tx`. -/
def serverSend (cfg : Cfg) (le : Bool) (magic kind seq aux : UInt16) (data : List UInt8)
    (tx : Rc) : Sent :=
  match serverPacket cfg le magic kind seq aux data with
  | none => ⟨.badargs, none⟩
  | some pkt => match tx with
    | .ok => ⟨.ok, some pkt⟩
    | rc => ⟨rc, none⟩

end WolfHsm.Comm

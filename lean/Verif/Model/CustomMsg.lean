import Verif.Model.Server

/-!
# Custom callbacks: `src/wh_server_customcb.c`, `src/wh_message_customcb.c`, and their calls in
`src/wh_client.c`

The callbacks are parameters that may do anything to the device's NVM and other state.
-/

namespace WolfHsm.CustomMsg

open Wire
open Utils (bytes32 bytes64 magicNative)
open Server (Req)

/-- The union `whMessageCustomCb_Data` (wolfhsm/wh_message_customcb.h:49-69) is kept as the bytes it
has in the memory of the machine. -/
structure CbReq where
  id : UInt32
  type : UInt32
  data : List UInt8
deriving DecidableEq

/-- `whMessageCustomCb_Response`, wolfhsm/wh_message_customcb.h:79-86. -/
structure CbResp where
  id : UInt32
  type : UInt32
  rc : UInt32
  err : UInt32
  data : List UInt8
deriving DecidableEq

/-- A registered callback: it is given the request and fills type, return code and data of the
response, which are zero before. -/
abbrev Callback (S : Type) := CbReq → S → (UInt32 × UInt32 × List UInt8) × S

/-- Options: `WOLFHSM_CFG_SERVER_CUSTOMCB_COUNT`, `WOLFHSM_CFG_CUSTOMCB_LEN`, byte order. -/
structure Cfg where
  count : Nat
  len : Nat
  le : Bool

/-- `_translateCustomData`, src/wh_message_customcb.c:35-65, into zeroed memory of the server. -/
def dataIn (cfg : Cfg) (magic : UInt16) (type : UInt32) (buf : List UInt8) : List UInt8 :=
  let f32 := fun off => bytes32 cfg.le (rd32 cfg.le magic buf off)
  let f64 := fun off => bytes64 cfg.le (rd64 cfg.le magic buf off)
  let z := fun n => List.replicate (cfg.len - n) (0 : UInt8)
  if type.toNat < 8 then
    if type = 1 then f32 0 ++ (f32 4 ++ (f32 8 ++ (f32 12 ++ z 16)))
    else if type = 2 then f64 0 ++ (f64 8 ++ (f64 16 ++ (f64 24 ++ z 32)))
    else z 0
  else rdBytes buf 0 cfg.len

/-- The same for a response: the bytes written over the packet. -/
def dataOut (cfg : Cfg) (magic : UInt16) (type : UInt32) (mem : List UInt8) : List UInt8 :=
  let f32 := fun off => w32 cfg.le magic (rd32 cfg.le magicNative mem off)
  let f64 := fun off => w64 cfg.le magic (rd64 cfg.le magicNative mem off)
  if type.toNat < 8 then
    if type = 1 then f32 0 ++ (f32 4 ++ (f32 8 ++ f32 12))
    else if type = 2 then f64 0 ++ (f64 8 ++ (f64 16 ++ f64 24))
    else []
  else rdBytes mem 0 cfg.len

/-- `wh_Server_HandleCustomCbRequest`, src/wh_server_customcb.c:54-114.  The refusals return before
the response size is set, so the request goes back.  `table`: the registered callbacks. -/
def handle {S : Type} (cfg : Cfg) (table : Nat → Option (Callback S)) (r : Req) (s : S) : List UInt8 × S :=
  if cfg.count ≤ r.action.toNat then (r.data, s)
  else if r.size ≠ 8 + cfg.len then (r.data, s)
  else
    let id := rd32 cfg.le r.magic r.buf 0
    let type := rd32 cfg.le r.magic r.buf 4
    let send := fun (type rc : UInt32) (err : Rc) (data : List UInt8) =>
      over (w32 cfg.le r.magic id ++ (w32 cfg.le r.magic type ++ (w32 cfg.le r.magic rc ++
        (w32 cfg.le r.magic err.code ++ dataOut cfg r.magic type data)))) r.buf (16 + cfg.len)
    match table r.action.toNat with
    | some cb =>
      if type ≠ 0 then
        let q := cb ⟨id, type, dataIn cfg r.magic type (r.buf.drop 8)⟩ s
        (send q.1.1 q.1.2.1 .ok q.1.2.2, q.2)
      else (send 0 0 .ok [], s)
    | none => (send 0 0 .nohandler [], s)

/-- The handler in the place the dispatcher has for it. -/
def handler {Q : Type} (cfg : Cfg) (table : Nat → Option (Callback (Nvm × Q))) (r : Req) (m : Nvm × Q) :
    (Rc × List UInt8) × (Nvm × Q) :=
  let q := handle cfg table r m
  ((.ok, q.1), q.2)

/-- `wh_Client_CustomCbRequest`, src/wh_client.c:694-702: the action is the low byte of the id. -/
def encode (le : Bool) (q : CbReq) : UInt16 × List UInt8 :=
  (q.id.toUInt16 &&& 0xFF, bytes32 le q.id ++ (bytes32 le q.type ++ q.data))

/-- `wh_Client_CustomCbResponse`, src/wh_client.c:704-731; the action is not compared. -/
def decode (le : Bool) (len : Nat) (g : Comm.Got) : Except Rc CbResp :=
  match g.rc with
  | .ok =>
    if g.payload.length ≠ 16 + len ∨ g.kind &&& 0xFF00 ≠ 0x0A00 then .error .aborted
    else .ok ⟨rd32 le magicNative g.payload 0, rd32 le magicNative g.payload 4, rd32 le magicNative g.payload 8,
      rd32 le magicNative g.payload 12, rdBytes g.payload 16 len⟩
  | rc => .error rc

/-- `wh_Client_CustomCheckRegisteredRequest`, src/wh_client.c:733-746. -/
def encodeCheck (le : Bool) (len : Nat) (id : UInt16) : UInt16 × List UInt8 :=
  encode le ⟨id.toUInt32, 0, List.replicate len 0⟩

/-- `wh_Client_CustomCbCheckRegisteredResponse`, src/wh_client.c:749-776: is there a callback? -/
def decodeCheck (le : Bool) (len : Nat) (g : Comm.Got) : Except Rc Bool :=
  match decode le len g with
  | .error rc => .error rc
  | .ok p =>
    if p.type ≠ 0 then .error .aborted
    else if p.err ≠ 0 ∧ p.err ≠ Rc.nohandler.code then .error .aborted
    else .ok (p.err == 0)

end WolfHsm.CustomMsg

import Verif.Model.Wire
import Verif.Model.Comm
import Verif.Model.Auth

/-!
# The request dispatcher: `src/wh_server.c`, `src/wh_server_auth.c`

One device with its users, sessions and NVM (`Auth.St`), everything else the request handlers
work on (`rest`: key caches, SHE state, certificate cache, the application's own data), and any
number of server contexts, one per connection.  The handlers of the other message groups are
parameters: functions of the request, the NVM and `rest` that cannot reach the user database,
the sessions and the connection state.  In the code nothing outside `wh_server.c` and
`wh_server_auth.c` uses `server->auth`; a custom callback that does is not covered.
The packet buffer serves for the request and the response; a request is that buffer and the
received size.
-/

namespace WolfHsm.Server

open Utils (bytes32 translate32)
open Wire

/-- Groups whose handlers are parameters. -/
inductive Group where
  | nvm | counter | key | crypto | cryptoDma | she | custom | cert
deriving DecidableEq

/-- A request as handed to the handlers: `magic`, `action`, `seq`, the packet buffer and the
received size. -/
structure Req where
  magic : UInt16
  action : UInt16
  seq : UInt16
  buf : List UInt8
  size : Nat

/-- `req_size` bytes of the request. -/
def Req.data (r : Req) : List UInt8 := r.buf.take r.size

/-- Build options and the handlers of the other groups.  A handler is given the context and its client, and returns its code and the
`*out_resp_size` bytes of the response packet. -/
structure Cfg (R : Type) where
  comm : Comm.Cfg
  /-- byte order of the server -/
  le : Bool
  auth : Auth.Cfg
  /-- `WOLFHSM_CFG_ENABLE_AUTHENTICATION` -/
  enableAuth : Bool
  /-- `WOLFHSM_CFG_GLOBAL_KEYS` -/
  globalKeys : Bool
  /-- `WOLFHSM_CFG_NO_CRYPTO` -/
  noCrypto : Bool
  /-- `WOLFHSM_CFG_DMA` -/
  dma : Bool
  /-- `WOLFHSM_CFG_SHE_EXTENSION` -/
  she : Bool
  /-- `WOLFHSM_CFG_CERTIFICATE_MANAGER` -/
  certs : Bool
  serverId : UInt32
  /-- The twelve words and the two version strings of the INFO response. -/
  info : Vector UInt32 12
  version : Vector UInt8 18
  handler : Group → Nat → UInt32 → Req → Nvm × R → (Rc × List UInt8) × (Nvm × R)

/-- `whServerContext`: connection flag, client id, and whether an authentication context is
configured. -/
structure Ctx where
  connected : Bool
  client : UInt32
  hasAuth : Bool

/-- A device. -/
structure Dev (R : Type) where
  auth : Auth.St
  rest : R
  ctx : Nat → Ctx

variable {R : Type}

/-- Replace one context. -/
def Dev.setCtx (d : Dev R) (x : Nat) (c : Ctx) : Dev R := { d with ctx := Auth.upd d.ctx x c }

/-! ## Message groups, wolfhsm/wh_message.h:33-58 -/

/-- `WH_MESSAGE_GROUP` -/
def groupOf (kind : UInt16) : UInt16 := kind &&& 0xFF00
/-- `WH_MESSAGE_ACTION` -/
def actionOf (kind : UInt16) : UInt16 := kind &&& 0x00FF

/-- The groups passed to handlers, with the options that compile them in,
src/wh_server.c:626-710. -/
def groupFor (cfg : Cfg R) (group : UInt16) : Option Group :=
  if group = 0x0200 then some .nvm
  else if group = 0x0800 then some .counter
  else if group = 0x0300 ∧ cfg.noCrypto = false then some .key
  else if group = 0x0400 ∧ cfg.noCrypto = false then some .crypto
  else if group = 0x0B00 ∧ cfg.noCrypto = false ∧ cfg.dma = true then some .cryptoDma
  else if group = 0x0700 ∧ cfg.she = true then some .she
  else if group = 0x0A00 then some .custom
  else if group = 0x0C00 ∧ cfg.certs = true ∧ cfg.noCrypto = false then some .cert
  else none

/-! ## Connection state -/

/-- `wh_Server_SetConnected` with `WH_COMM_DISCONNECTED`, src/wh_server.c:199-231. -/
def drop (cfg : Cfg R) (d : Dev R) (x : Nat) : Dev R :=
  let c := d.ctx x
  let a := if cfg.enableAuth ∧ c.hasAuth = true then Auth.disconnect d.auth x else d.auth
  { d with auth := a, ctx := Auth.upd d.ctx x { c with connected := false } }

/-- `wh_Server_SetConnected` with `WH_COMM_CONNECTED`. -/
def connect (d : Dev R) (x : Nat) : Dev R := d.setCtx x { d.ctx x with connected := true }

/-- `wh_Server_Init` of a context, src/wh_server.c:78-176, when the communication layer starts:
the context is cleared and a stale session ended.  (Its effect on `rest`, a fresh key cache, is
not modelled here.) -/
def start (cfg : Cfg R) (d : Dev R) (x : Nat) (hasAuth : Bool) : Dev R :=
  let a := if cfg.enableAuth ∧ hasAuth = true then Auth.reset (Auth.disconnect d.auth x) x else d.auth
  { d with auth := a, ctx := Auth.upd d.ctx x ⟨false, 0, hasAuth⟩ }

/-! ## The communication group -/

/-- `_wh_Server_HandleCommRequest`, src/wh_server.c:252-361.  INIT reads its field without
looking at the request's size. -/
def handleComm (cfg : Cfg R) (d : Dev R) (x : Nat) (r : Req) : (Rc × List UInt8) × Dev R :=
  if r.action = 1 then
    let id := rd32 cfg.le r.magic r.buf 0
    if id.toNat > 15 then ((.badargs, []), d)
    else if cfg.globalKeys ∧ id = 0 then ((.badargs, []), d)
    else ((.ok, w32 cfg.le r.magic id ++ w32 cfg.le r.magic cfg.serverId),
      d.setCtx x { d.ctx x with client := id })
  else if r.action = 4 then
    ((.ok, over (cfg.info.toList.flatMap (w32 cfg.le r.magic) ++ cfg.version.toList) r.buf 72), d)
  else if r.action = 3 then ((.ok, []), drop cfg d x)
  else if r.action = 5 then ((.ok, r.data), d)
  else ((.ok, []), d)

/-! ## The authentication group, src/wh_server_auth.c, src/wh_message_auth.c -/

/-- A string field of 32 bytes, terminated by the translators. -/
def rdName (buf : List UInt8) (off : Nat) : List UInt8 := Auth.nameOf (rdBytes buf off 32)

/-- `wh_MessageAuth_TranslateLoginRequest`, src/wh_message_auth.c:51-85, on a request of
`r.size` bytes: method, name and authentication data. -/
def parseLogin (cfg : Cfg R) (r : Req) : Except Rc (UInt16 × List UInt8 × List UInt8) :=
  if r.size < 36 then .error .bufferSize
  else
    let len := (rd16 cfg.le r.magic r.buf 34).toNat
    if len > cfg.comm.dataLen - 36 ∨ r.size < (36 + len) % 65536 then .error .bufferSize
    else .ok (rd16 cfg.le r.magic r.buf 0, rdName r.buf 2, rdBytes r.buf 36 len)

/-- `wh_MessageAuth_TranslateUserAddRequest`, src/wh_message_auth.c:222-260, and the
permissions: name, permissions, method, credentials. -/
def parseAdd (cfg : Cfg R) (r : Req) :
    Except Rc (List UInt8 × Auth.Perms × UInt16 × List UInt8) :=
  if r.size < 510 then .error .bufferSize
  else
    let len := (rd16 cfg.le r.magic r.buf 508).toNat
    if len > cfg.comm.dataLen - 510 ∨ r.size < (510 + len) % 65536 then .error .bufferSize
    else match Auth.unflatten (rdBytes r.buf 32 473) with
      | none => .error .badargs
      | some p => .ok (rdName r.buf 0, p, rd16 cfg.le r.magic r.buf 506, rdBytes r.buf 510 len)

/-- `wh_MessageAuth_TranslateUserSetCredentialsRequest`, src/wh_message_auth.c:332-373: user id,
method, current and new credentials. -/
def parseSetCred (cfg : Cfg R) (r : Req) :
    Except Rc (UInt16 × UInt16 × List UInt8 × List UInt8) :=
  if r.size < 8 then .error .badargs
  else
    let cur := (rd16 cfg.le r.magic r.buf 4).toNat
    let new := (rd16 cfg.le r.magic r.buf 6).toNat
    if cur > (cfg.comm.dataLen - 8) / 2 then .error .bufferSize
    else if new > (cfg.comm.dataLen - 8) / 2 then .error .bufferSize
    else if r.size < (8 + cur + new) % 65536 then .error .bufferSize
    else .ok (rd16 cfg.le r.magic r.buf 0, rd16 cfg.le r.magic r.buf 2, rdBytes r.buf 8 cur,
      rdBytes r.buf (8 + cur) new)

/-- `whMessageAuth_SimpleResponse`. -/
def simpleResp (cfg : Cfg R) (r : Req) (rc : Rc) : List UInt8 := w32 cfg.le r.magic rc.code
/-- `whMessageAuth_LoginResponse`, `whMessageAuth_UserAddResponse` (8 bytes, 2 of padding). -/
def idResp (cfg : Cfg R) (r : Req) (rc : Rc) (id : UInt16) : List UInt8 :=
  over (w32 cfg.le r.magic rc.code ++ w16 cfg.le r.magic id) r.buf 8
/-- `whMessageAuth_UserGetResponse` (480 bytes, 1 of padding). -/
def getResp (cfg : Cfg R) (r : Req) (rc : Rc) (id : UInt16) (perms : List UInt8) : List UInt8 :=
  over (w32 cfg.le r.magic rc.code ++ w16 cfg.le r.magic id ++ perms) r.buf 480

/-- LOGIN, src/wh_server_auth.c:68-104. -/
def handleLogin (cfg : Cfg R) (s : Auth.St) (x : Nat) (r : Req) : (Rc × List UInt8) × Auth.St :=
  match parseLogin cfg r with
  | .error rc => ((rc, idResp cfg r rc 0), s)
  | .ok (method, name, data) =>
    match Auth.login cfg.auth s x method name data with
    | ((.ok, true), s') => ((.ok, idResp cfg r .ok (s'.sess x).id), s')
    | ((.ok, false), s') => ((.ok, idResp cfg r .authLoginFailed 0), s')
    | ((rc, _), s') => ((rc, idResp cfg r rc 0), s')

/-- `wh_Server_HandleAuthRequest`, src/wh_server_auth.c:51-289.  Sizes of the fixed-size
requests: LOGOUT and DELETE 4, GET 34, SET_PERMISSIONS 476.  When the permissions do not parse
the handler's own code stays 0; here it is the code of the response. -/
def handleAuth (cfg : Cfg R) (s : Auth.St) (x : Nat) (r : Req) : (Rc × List UInt8) × Auth.St :=
  if r.action = 0 then handleLogin cfg s x r
  else if r.action = 1 then
    if r.size ≠ 4 then ((.ok, simpleResp cfg r .badargs), s)
    else
      let q := Auth.logout s x (rd16 cfg.le r.magic r.buf 0)
      ((q.1, simpleResp cfg r q.1), q.2)
  else if r.action = 2 then
    match parseAdd cfg r with
    | .error rc => ((rc, idResp cfg r rc 0), s)
    | .ok (name, p, method, cred) =>
      let q := Auth.userAdd cfg.auth s x name p method cred
      ((q.1.1, idResp cfg r q.1.1 q.1.2), q.2)
  else if r.action = 3 then
    if r.size ≠ 4 then ((.ok, simpleResp cfg r .badargs), s)
    else
      let q := Auth.userDelete cfg.auth s x (rd16 cfg.le r.magic r.buf 0)
      ((q.1, simpleResp cfg r q.1), q.2)
  else if r.action = 4 then
    if r.size ≠ 34 then ((.ok, getResp cfg r .badargs 0 (List.replicate 473 0)), s)
    else match Auth.userGet s x (rdName r.buf 0) with
      | (.ok, some (id, p)) => ((.ok, getResp cfg r .ok id p.clamp.bytes), s)
      | (rc, _) => ((rc, getResp cfg r rc 0 (List.replicate 473 0)), s)
  else if r.action = 5 then
    if r.size ≠ 476 then ((.ok, simpleResp cfg r .badargs), s)
    else match Auth.unflatten (rdBytes r.buf 2 473) with
      | none => ((.ok, simpleResp cfg r .badargs), s)
      | some p =>
        let q := Auth.setPerms cfg.auth s x (rd16 cfg.le r.magic r.buf 0) p
        ((q.1, simpleResp cfg r q.1), q.2)
  else if r.action = 6 then
    match parseSetCred cfg r with
    | .error rc => ((rc, simpleResp cfg r rc), s)
    | .ok (id, method, cur, new) =>
      let q := Auth.setCred cfg.auth s x id method cur new
      ((q.1, simpleResp cfg r q.1), q.2)
  else ((.notimpl, []), s)

/-! ## Refused requests -/

/-- `_FormatAuthErrorResponse`, src/wh_server.c:389-553. -/
def refusal (cfg : Cfg R) (group : UInt16) (r : Req) : List UInt8 :=
  let rc := Rc.authPermissionError
  let z := fun n => List.replicate n (0 : UInt8)
  if group = 0x0D00 then
    if r.action = 0 ∨ r.action = 2 then idResp cfg r rc 0
    else if r.action = 4 then getResp cfg r rc 0 (z 473)
    else simpleResp cfg r rc
  else if group = 0x0200 then
    if r.action = 1 then simpleResp cfg r rc ++ z 8
    else if r.action = 3 then simpleResp cfg r rc ++ z 12
    else if r.action = 5 then simpleResp cfg r rc ++ z 4
    else if r.action = 6 then simpleResp cfg r rc ++ z 32
    else simpleResp cfg r rc
  else if group = 0x0C00 ∧ cfg.certs = true ∧ cfg.noCrypto = false then
    over (simpleResp cfg r rc) r.buf 8
  else simpleResp cfg r rc

/-! ## The dispatcher -/

/-- The group switch of `wh_Server_HandleRequestMessage`, src/wh_server.c:619-717. -/
def dispatch (cfg : Cfg R) (d : Dev R) (x : Nat) (group : UInt16) (r : Req) :
    (Rc × List UInt8) × Dev R :=
  if group = 0x0100 then handleComm cfg d x r
  else if group = 0x0D00 then
    if cfg.enableAuth ∧ (d.ctx x).hasAuth = true then
      let q := handleAuth cfg d.auth x r
      (q.1, { d with auth := q.2 })
    else ((.authNotEnabled, simpleResp cfg r .authNotEnabled), d)
  else if group = 0x0600 then ((.ok, []), d)
  else match groupFor cfg group with
    | some g =>
      let q := cfg.handler g x (d.ctx x).client r (d.auth.nvm, d.rest)
      (q.1, { d with auth := { d.auth with nvm := q.2.1 }, rest := q.2.2 })
    | none => ((.notimpl, []), d)

/-- The loops of src/wh_server.c:603-606 and 726-729: send until the transport gives an answer
other than NOTREADY.  `txs`: the transport's answers.  Result: the code, or none when the
answers are used up and the loop goes on; and the packets the transport took. -/
def sendLoop (cfg : Cfg R) (magic kind seq aux : UInt16) (data : List UInt8) :
    List Rc → Option Rc × List (List UInt8)
  | [] => (none, [])
  | tx :: txs =>
    let s := Comm.serverSend cfg.comm cfg.le magic kind seq aux data tx
    if s.rc = .notready then sendLoop cfg magic kind seq aux data txs
    else (some s.rc, s.packet.toList)

/-- The response to a received request and the device after it, src/wh_server.c:585-717. -/
def answer (cfg : Cfg R) (d : Dev R) (x : Nat) (kind : UInt16) (r : Req) : List UInt8 × Dev R :=
  let group := groupOf kind
  if cfg.enableAuth ∧ (d.ctx x).hasAuth = true ∧
      Auth.checkRequest cfg.auth d.auth x group r.action ≠ .ok then
    (refusal cfg group r, d)
  else
    let q := dispatch cfg d x group r
    (q.1.2, q.2)

/-- `wh_Server_HandleRequestMessage`, src/wh_server.c:557-756, on context `x`; `rx`: what the
transport delivers, `txs`: its answers to sending, `aux`: the header's last field. -/
def handle (cfg : Cfg R) (d : Dev R) (x : Nat) (rx : Comm.Rx) (aux : UInt16) (txs : List Rc) :
    (Option Rc × List (List UInt8)) × Dev R :=
  if (d.ctx x).connected = false then ((some .notready, []), d)
  else
    let got := Comm.serverRecv cfg.comm cfg.le cfg.comm.dataLen rx
    match got.rc with
    | .ok =>
      let r : Req := ⟨got.magic, actionOf got.kind, got.seq, rx.buf.drop 8, got.payload.length⟩
      let a := answer cfg d x got.kind r
      (sendLoop cfg got.magic got.kind got.seq aux a.1 txs, a.2)
    | rc => ((some rc, []), d)

end WolfHsm.Server

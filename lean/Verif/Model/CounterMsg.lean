import Verif.Model.Server
import Verif.Model.Counter

/-!
# The counter request group at byte level: `src/wh_server_counter.c`, `src/wh_message_counter.c`,
and the counter calls of `src/wh_client.c`

`Model/Counter.lean` has the handler on decoded requests.  There the counter is kept in the label in
little-endian order whatever the order of the server; no request shows the difference, except those
of other groups that read the label of a counter's object.
-/

namespace WolfHsm.CounterMsg

open Wire
open Server (Req)

/-- The size checks and translations at the start of each action, src/wh_server_counter.c:55-230.
Actions: wolfhsm/wh_message.h:101-106. -/
def decode (le : Bool) (r : Req) : Counter.Req :=
  if r.action = 0 then
    if r.size < 8 then .malformed else .init (rd16 le r.magic r.buf 4) (rd32 le r.magic r.buf 0)
  else if r.action = 1 then
    if r.size < 8 then .malformed else .increment (rd16 le r.magic r.buf 0)
  else if r.action = 2 then
    if r.size < 8 then .malformed else .read (rd16 le r.magic r.buf 0)
  else if r.action = 3 then
    if r.size < 8 then .malformed else .destroy (rd16 le r.magic r.buf 0)
  else .unknown

/-- `wh_Server_HandleCounter`, src/wh_server_counter.c:40-233: the response and the objects after
it.  The response of DESTROY has four bytes of padding, which keep what the packet held.  For an
unknown action the response size is not set and stays the size of the request
(src/wh_server.c:664-667), so the request goes back. -/
def handle (le : Bool) (client : UInt16) (lock : Rc) (r : Req) (n : Nvm) : List UInt8 × Nvm :=
  let q := decode le r
  let a := Counter.handle n client lock q
  (if q = .unknown then r.data
   else if r.action = 3 then over (w32 le r.magic a.1.rc.code) r.buf 8
   else w32 le r.magic a.1.rc.code ++ w32 le r.magic a.1.value, a.2)

/-- The handler in the place the dispatcher has for it.  `lock`: result of taking the lock. -/
def handler {Q : Type} (le : Bool) (lock : Q → Rc) (client : UInt32) (r : Req) (m : Nvm × Q) :
    (Rc × List UInt8) × (Nvm × Q) :=
  let q := handle le client.toUInt16 (lock m.2) r m.1
  ((.ok, q.1), (q.2, m.2))

end WolfHsm.CounterMsg

namespace WolfHsm.ClientCounter

open Utils (bytes16 bytes32 magicNative)
open Wire

/-- The counter calls; `wh_Client_CounterReset` is `init` with value 0, src/wh_client.c:1505-1520. -/
inductive Call where
  | init (id : UInt16) (value : UInt32)
  | increment (id : UInt16)
  | read (id : UInt16)
  | destroy (id : UInt16)

/-- The counter a call is about. -/
def Call.id : Call → UInt16
  | .init id _ | .increment id | .read id | .destroy id => id

/-- The request functions, src/wh_client.c:1435-1453, 1522-1540, 1592-1609, 1661-1678: action and
data, or the error before anything is sent.  `stale`: what the packet buffer of the client holds. -/
def encode (le : Bool) (stale : Nat → UInt8) (c : Call) : Except Rc (UInt16 × List UInt8) :=
  if c.id = 0 then .error .badargs
  else match c with
    | .init id v => .ok (0, bytes32 le v ++ (bytes16 le id ++ (List.range 2).map stale))
    | .increment id => .ok (1, bytes16 le id ++ (List.range 6).map stale)
    | .read id => .ok (2, bytes16 le id ++ (List.range 6).map stale)
    | .destroy id => .ok (3, bytes16 le id ++ (List.range 6).map stale)

/-- What the caller gets. -/
inductive Result where
  | err (rc : Rc)
  | failed (code : UInt32)
  | value (v : UInt32)
  | done
deriving DecidableEq

/-- The response functions, src/wh_client.c:1455-1488, 1542-1575, 1611-1644, 1680-1709.  Group and
action are not compared. -/
def decode (le : Bool) (action : UInt16) (g : Comm.Got) : Result :=
  match g.rc with
  | .ok =>
    if g.payload.length < 8 then .err .aborted
    else if rd32 le magicNative g.payload 0 ≠ 0 then .failed (rd32 le magicNative g.payload 0)
    else if action = 3 then .done
    else .value (rd32 le magicNative g.payload 4)
  | rc => .err rc

end WolfHsm.ClientCounter

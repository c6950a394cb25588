import Verif.Model.Server
import Verif.Model.Nvm

/-!
# The NVM request group at byte level: `src/wh_server_nvm.c`, `src/wh_message_nvm.c`

`Model/Nvm.lean` has the handler on decoded requests; here are the packets around it.  The
structures (wolfhsm/wh_message_nvm.h:60-239) have no hidden padding, so a response is exactly
the fields written.
-/

namespace WolfHsm.NvmMsg

open Wire
open NvmFlash (Meta)
open Server (Req)

/-- Build options and parameters of the handler. -/
structure Cfg where
  nvm : NvmServer.Cfg
  /-- byte order of the server -/
  le : Bool
  /-- `WOLFHSM_CFG_DMA` -/
  dma : Bool
  /-- `server->comm->server_id` -/
  serverId : UInt32

/-- What one request finds around it: the result of taking the NVM lock, and the client memory
as seen through the server's address check (`Model/Dma.lean`). -/
structure Env where
  lock : Rc
  /-- Result of the address check: for writing or reading, address and size. -/
  pre : Bool → UInt64 → Nat → Rc
  /-- Is the server's pointer for this address NULL? -/
  null : UInt64 → Bool
  /-- What the client memory holds when the policy is checked, and when it is copied. -/
  mem1 : UInt64 → Nat → List UInt8
  mem2 : UInt64 → Nat → List UInt8

/-- A label field of `WH_NVM_LABEL_LEN` bytes. -/
def label (l : List UInt8) : Vector UInt8 24 := Vector.ofFn fun i => l.getD i.val 0

/-- A `whNvmMetadata` (wolfhsm/wh_common.h:151-158) in memory that the server reads in its own
byte order, as ADDOBJECTDMA does with the client's structure. -/
def rawMeta (le : Bool) (b : List UInt8) : Meta :=
  ⟨rd16 le Utils.magicNative b 0, rd16 le Utils.magicNative b 2, rd16 le Utils.magicNative b 4,
   rd16 le Utils.magicNative b 6, label (rdBytes b 8 24)⟩

/-- The size checks and translations at the start of each action,
src/wh_server_nvm.c:108-480 and src/wh_message_nvm.c:60-330. -/
def decode (cfg : Cfg) (e : Env) (r : Req) : NvmServer.Req :=
  let f16 := rd16 cfg.le r.magic r.buf
  if r.action = 1 then
    if r.size = 4 then .init (rd32 cfg.le r.magic r.buf 0) else .malformed
  else if r.action = 2 then
    if r.size = 0 then .cleanup else .malformed
  else if r.action = 3 then
    if r.size = 0 then .getAvailable else .malformed
  else if r.action = 4 then
    if r.size < 32 then .malformed
    else .add ⟨f16 0, f16 2, f16 4, f16 6, label (rdBytes r.buf 8 24)⟩ (rdBytes r.buf 32 (r.size - 32))
  else if r.action = 5 then
    if r.size = 6 then .list (f16 0) (f16 2) (f16 4) else .malformed
  else if r.action = 6 then
    if r.size = 2 then .getMetadata (f16 0) else .malformed
  else if r.action = 7 then
    if r.size = 40 then .destroy (f16 0) (Vector.ofFn fun i => f16 (2 + 2 * i.val)) else .malformed
  else if r.action = 8 then
    if r.size = 6 then .read (f16 0) (f16 2) (f16 4) else .malformed
  else if r.action = 0x24 ∧ cfg.dma then
    if r.size = 24 then
      let ma := rd64 cfg.le r.magic r.buf 0
      let da := rd64 cfg.le r.magic r.buf 8
      let len := (f16 16).toNat
      .addDma (e.pre false ma 32) (e.pre false da len) (e.null ma) (rawMeta cfg.le (e.mem1 ma 32))
        (rawMeta cfg.le (e.mem2 ma 32)) (e.mem1 da len) (e.mem2 da len)
    else .malformed
  else if r.action = 0x28 ∧ cfg.dma then
    if r.size = 16 then
      .readDma (f16 8) (f16 10) (f16 12) (e.pre true (rd64 cfg.le r.magic r.buf 0) (f16 12).toNat)
    else .malformed
  else .unknown

/-- Size of the fixed part of a response. -/
def respSize (action : UInt16) : Nat :=
  if action = 1 then 12 else if action = 3 then 16 else if action = 5 then 8
  else if action = 6 then 36 else 4

/-- The response packet: the translated response structure, zero-initialised.  Bytes read from an
object follow only in a READ response. -/
def encode (cfg : Cfg) (r : Req) : NvmServer.Resp → List UInt8
  | .simple rc => w32 cfg.le r.magic rc.code ++ List.replicate (respSize r.action - 4) 0
  | .initResp rc c =>
    w32 cfg.le r.magic rc.code ++ (w32 cfg.le r.magic cfg.serverId ++ w32 cfg.le r.magic c)
  | .listed rc count id => w32 cfg.le r.magic rc.code ++ (w16 cfg.le r.magic count ++ w16 cfg.le r.magic id)
  | .avail rc v =>
    w32 cfg.le r.magic rc.code ++ (w32 cfg.le r.magic (UInt32.ofNat (v.getD 0 0)) ++
      (w32 cfg.le r.magic (UInt32.ofNat (v.getD 2 0)) ++ (w16 cfg.le r.magic (UInt16.ofNat (v.getD 1 0)) ++
        w16 cfg.le r.magic (UInt16.ofNat (v.getD 3 0)))))
  | .metadata rc md =>
    match rc, md with
    | .ok, some md =>
      w32 cfg.le r.magic Rc.ok.code ++ (w16 cfg.le r.magic md.id ++ (w16 cfg.le r.magic md.access ++
        (w16 cfg.le r.magic md.flags ++ (w16 cfg.le r.magic md.len ++ md.label.toList))))
    | rc, _ => w32 cfg.le r.magic rc.code ++ List.replicate 32 0
  | .bytes rc data =>
    w32 cfg.le r.magic rc.code ++ (if rc = .ok ∧ r.action = 8 then data else [])
  | .empty => []

/-- Bytes that READDMA puts into the client's memory. -/
def written (cfg : Cfg) (r : Req) : NvmServer.Resp → Option (UInt64 × List UInt8)
  | .bytes .ok data => if r.action = 0x28 then some (rd64 cfg.le r.magic r.buf 0, data) else none
  | _ => none

/-- `wh_Server_HandleNvmRequest`, src/wh_server_nvm.c:87-523: the response packet, the write to
client memory, and the new NVM state. -/
def handle (cfg : Cfg) (e : Env) (r : Req) (n : Nvm) : (List UInt8 × Option (UInt64 × List UInt8)) × Nvm :=
  let q := NvmServer.handle cfg.nvm n e.lock (decode cfg e r)
  ((encode cfg r q.1, written cfg r q.1), q.2)

/-- The handler in the place the dispatcher has for it.  `env` finds the lock and the client
memory in the rest of the device, `next` puts a write to client memory there.  (The handler's own
return code is only logged; it is not modelled.) -/
def handler {R : Type} (cfg : Cfg) (env : R → Env) (next : R → Option (UInt64 × List UInt8) → R) (r : Req)
    (m : Nvm × R) : (Rc × List UInt8) × (Nvm × R) :=
  let q := handle cfg (env m.2) r m.1
  ((.ok, q.1.1), (q.2, next m.2 q.1.2))

end WolfHsm.NvmMsg

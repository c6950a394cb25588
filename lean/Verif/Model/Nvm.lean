import Verif.Spec.NvmStore

/-!
# The generic NVM layer (`src/wh_nvm.c`) over an abstract backend, and the server's
NVM request handler (`src/wh_server_nvm.c`)

The layers above the NVM backend see the backend only through its callbacks.  What the
callbacks do is the content of C01–C06 (proved for the flash NVM in
`Verif/Props/NvmFlash.lean`): an object map with atomic, possibly failing, updates.
That map is the state here; the success, failure or power loss of each backend call is
taken from a stream of outcomes, so a theorem for all streams covers every pattern of
media errors and crash points.
-/

namespace WolfHsm

open NvmFlash (Meta Store withLen)

/-- How one backend call ends.  `fail rc applied`: the call reports an error; for a
failed destroy `applied` says whether the objects are gone, for a failed add whether
the object will show up after the next restart (both happen, see
`C04_destroy_error` and `C04_boot_close`).  `cut applied`: power is lost during the
call, with the atomic update applied or not (C01, C02). -/
inductive Out where
  | ok
  | fail (rc : Rc) (applied : Bool)
  | cut (applied : Bool)
deriving DecidableEq, Repr

/-- A failing call never reports `WH_ERROR_OK`. -/
def errRc (rc : Rc) : Rc := if rc = .ok then .aborted else rc

/-- State of the NVM as its callers see it. -/
structure Nvm where
  /-- What the running NVM shows. -/
  store : Store
  /-- An object whose add was reported as failed but which is complete on the media:
  it may show up after a restart. -/
  pending : Option (Meta × List UInt8)
  /-- False once power has been lost; nothing happens any more until the restart. -/
  powered : Bool
  /-- Outcomes of the backend calls. -/
  outs : Nat → Out
  /-- Number of backend calls so far. -/
  tick : Nat

namespace Nvm

/-- The callback behind `wh_Nvm_AddObject`, src/wh_nvm.c:257-270 (behaviour: C01, C03,
C04).  The NULL-pointer checks have no counterpart here. -/
def add (n : Nvm) (md : Meta) (data : List UInt8) : Rc × Nvm :=
  if n.powered then
    match n.outs n.tick with
    | .ok => (.ok, { n with store := n.store.set md data, pending := none, tick := n.tick + 1 })
    | .fail rc true => (errRc rc, { n with pending := some (md, data), tick := n.tick + 1 })
    | .fail rc false => (errRc rc, { n with tick := n.tick + 1 })
    | .cut true => (.aborted, { n with store := n.store.set md data, pending := none,
                                       powered := false, tick := n.tick + 1 })
    | .cut false => (.aborted, { n with powered := false, tick := n.tick + 1 })
  else (.aborted, n)

/-- The callback behind `wh_Nvm_DestroyObjects`, src/wh_nvm.c:329-342 (behaviour: C02,
C03, C04).  After a failed destroy the backend is assumed usable, with the objects gone
or not; for the flash NVM that needs a re-initialisation (`F_failed_destroy_then_add_lost`
in the findings of DESIGN.md).  When no object on the list is shown, success leaves the
media as it is (src/wh_nvm_flash.c:1350-1367 for non-empty lists,
src/wh_nvm_flash_log.c:663-664 for empty ones), so a pending object stays pending.  The
two backends differ in which of these lists they skip; here all of them may. -/
def destroy (n : Nvm) (ids : List UInt16) : Rc × Nvm :=
  if n.powered then
    match n.outs n.tick with
    | .ok =>
      if ids.all fun id => (n.store id).isNone then (.ok, { n with tick := n.tick + 1 })
      else (.ok, { n with store := n.store.drop ids, pending := none, tick := n.tick + 1 })
    | .fail rc true =>
      (errRc rc, { n with store := n.store.drop ids, pending := none, tick := n.tick + 1 })
    | .fail rc false => (errRc rc, { n with tick := n.tick + 1 })
    | .cut true => (.aborted, { n with store := n.store.drop ids, pending := none,
                                       powered := false, tick := n.tick + 1 })
    | .cut false => (.aborted, { n with powered := false, tick := n.tick + 1 })
  else (.aborted, n)

/-- The callback behind `wh_Nvm_Read`, src/wh_nvm.c:366-379: the bytes, or an error and
no bytes. -/
def read (n : Nvm) (id : UInt16) (off len : Nat) : (Rc × List UInt8) × Nvm :=
  if n.powered then
    match n.outs n.tick with
    | .ok => (n.store.slice id off len, { n with tick := n.tick + 1 })
    | .fail rc _ => ((errRc rc, []), { n with tick := n.tick + 1 })
    | .cut _ => ((.aborted, []), { n with powered := false, tick := n.tick + 1 })
  else ((.aborted, []), n)

/-- `wh_Nvm_GetMetadata`, src/wh_nvm.c:313-326.  The flash backends answer from RAM, so
this cannot fail on an object that exists. -/
def metadata (n : Nvm) (id : UInt16) : Rc × Option Meta := n.store.info id

/-- `wh_Nvm_AddObjectWithReclaim`, src/wh_nvm.c:219-255.  The free-space arithmetic is
modelled and proved in `NvmReclaim` (C06).  Here the space check and the reclaim are
one step, `destroy []`, whose outcome stands for "enough space, or reclaimed", for
`NOSPACE` and other errors, or for a power loss; none of them changes the objects. -/
def addWithReclaim (n : Nvm) (md : Meta) (data : List UInt8) : Rc × Nvm :=
  match n.destroy [] with
  | (.ok, n') => n'.add md data
  | (rc, n') => (rc, n')

/-- Power cycle.  `b`: whether a pending object shows up. -/
def restart (n : Nvm) (b : Bool) : Nvm :=
  match n.pending, b with
  | some (md, data), true =>
    { n with store := n.store.set md data, pending := none, powered := true }
  | _, _ => { n with pending := none, powered := true }

/-- `whNvmOp`, src/wh_nvm.c:36-40. -/
inductive Op where
  | add | destroy | read
deriving DecidableEq, Repr

/-- `WH_NVM_FLAGS_SERVER_ONLY`, wolfhsm/wh_common.h:114-117. -/
def serverOnly : UInt16 := Flag.trusted

/-- `wh_Nvm_CheckPolicy`, src/wh_nvm.c:44-94. -/
def checkPolicy (n : Nvm) (op : Op) (id : UInt16) : Rc :=
  match n.metadata id with
  | (.ok, some md) =>
    if hasFlag md.flags Flag.trusted then .access
    else match op with
      | .add => if hasFlag md.flags Flag.nonModifiable then .access else .ok
      | .destroy =>
        if hasFlag md.flags (Flag.nonModifiable ||| Flag.nonDestroyable) then .access else .ok
      | .read => if hasFlag md.flags Flag.nonExportable then .access else .ok
  | (rc, _) => rc

/-- The continue-condition of lines 283 and 357: `OK` or `NOTFOUND`. -/
def passes (rc : Rc) : Bool := rc == .ok || rc == .notfound

/-- `sanitized`, src/wh_nvm.c:290-291. -/
def sanitize (md : Meta) : Meta := { md with flags := md.flags &&& ~~~serverOnly }

/-- `wh_Nvm_AddObjectChecked`, src/wh_nvm.c:272-294.  `meta` is a pointer which may point
into client memory (DMA): `first` is what it holds when the policy is checked, `second`
what it holds when it is copied. -/
def addChecked (n : Nvm) (first second : Meta) (data : List UInt8) : Rc × Nvm :=
  let rc := n.checkPolicy .add first.id
  if passes rc then n.add (sanitize second) data else (rc, n)

/-- The policy loop of `wh_Nvm_DestroyObjectsChecked`, src/wh_nvm.c:354-360. -/
def checkAll (n : Nvm) : List UInt16 → Rc
  | [] => .ok
  | id :: ids =>
    let rc := n.checkPolicy .destroy id
    if passes rc then n.checkAll ids else rc

/-- `wh_Nvm_DestroyObjectsChecked`, src/wh_nvm.c:344-363. -/
def destroyChecked (n : Nvm) (ids : List UInt16) : Rc × Nvm :=
  match n.checkAll ids with
  | .ok => n.destroy ids
  | rc => (rc, n)

/-- `wh_Nvm_ReadChecked`, src/wh_nvm.c:381-392. -/
def readChecked (n : Nvm) (id : UInt16) (off len : Nat) : (Rc × List UInt8) × Nvm :=
  match n.checkPolicy .read id with
  | .ok => n.read id off len
  | rc => ((rc, []), n)

end Nvm

/-! ## The server's NVM request group, src/wh_server_nvm.c -/

namespace NvmServer

/-- Compile-time and backend parameters of the handler. -/
structure Cfg where
  /-- `WH_MESSAGE_NVM_MAX_READ_LEN`, wolfhsm/wh_message_nvm.h:53. -/
  maxRead : Nat
  /-- `wh_Crypto_IsStatefulSigPrivBlob` when LMS or XMSS is enabled, otherwise constantly
  false (src/wh_server_nvm.c:264-271, 404-413). -/
  statefulBlob : List UInt8 → Bool
  /-- Backend `List` callback. -/
  list : Store → UInt16 → UInt16 → UInt16 → Rc × UInt16 × UInt16
  /-- Backend `GetAvailable` callback. -/
  avail : Store → Rc × List Nat

/-- A decoded NVM request.  `malformed`: the size check of the action failed.  For
`add`, `payload` is what follows the fixed part of the message, whatever its length.
In the DMA requests the client's addresses are replaced by the outcome of the address
check (`pre`, see `Model/Dma.lean`) and by what the memory holds when it is read: `first`
and `second`, the metadata for the policy check and for the add; `peek` and `data`, the
object for the test for private key state and for the add. -/
inductive Req where
  | init (clientNvmId : UInt32)
  | cleanup
  | list (access flags start : UInt16)
  | getAvailable
  | getMetadata (id : UInt16)
  | add (md : Meta) (payload : List UInt8)
  | destroy (count : UInt16) (ids : Vector UInt16 19)
  | read (id off len : UInt16)
  | addDma (preMeta preData : Rc) (metaNull : Bool) (first second : Meta) (peek data : List UInt8)
  | readDma (id off len : UInt16) (pre : Rc)
  | malformed
  | unknown

/-- What the client observes: return code and returned data. -/
inductive Resp where
  | simple (rc : Rc)
  | initResp (rc : Rc) (clientNvmId : UInt32)
  | listed (rc : Rc) (count id : UInt16)
  | avail (rc : Rc) (sizes : List Nat)
  | metadata (rc : Rc) (md : Option Meta)
  /-- Bytes in the response packet, or written to the client's buffer. -/
  | bytes (rc : Rc) (data : List UInt8)
  | empty
deriving DecidableEq

/-- `_HandleNvmRead`, src/wh_server_nvm.c:52-85. -/
def handleRead (cfg : Cfg) (n : Nvm) (id off len : UInt16) : (Rc × List UInt8) × Nvm :=
  if len.toNat > cfg.maxRead then ((.aborted, []), n)
  else match n.metadata id with
    | (.ok, some md) =>
      if off ≥ md.len then ((.badargs, []), n)
      else
        let len' := if len > md.len - off then md.len - off else len
        n.readChecked id off.toNat len'.toNat
    | (rc, _) => ((rc, []), n)

/-- READDMA, src/wh_server_nvm.c:463-509. -/
def handleReadDma (n : Nvm) (id off len : UInt16) (pre : Rc) : (Rc × List UInt8) × Nvm :=
  match n.metadata id with
  | (.ok, some md) =>
    if off ≥ md.len then ((.badargs, []), n)
    else
      let len' := if len > md.len - off then md.len - off else len
      match pre with
      | .ok => n.readChecked id off.toNat len'.toNat
      | rc => ((rc, []), n)
  | (rc, _) => ((rc, []), n)

/-- ADDOBJECT once the fixed part has been decoded, src/wh_server_nvm.c:255-282.  When
the payload does not have the announced length nothing is stored and the response
keeps its initial code 0. -/
def handleAdd (cfg : Cfg) (n : Nvm) (lock : Rc) (md : Meta) (payload : List UInt8) :
    Rc × Nvm :=
  if payload.length = md.len.toNat then
    if cfg.statefulBlob payload then (.access, n)
    else match lock with
      | .ok => n.addChecked md md payload
      | rc => (rc, n)
  else (.ok, n)

/-- ADDOBJECTDMA, src/wh_server_nvm.c:375-426. -/
def handleAddDma (cfg : Cfg) (n : Nvm) (lock preMeta preData : Rc) (metaNull : Bool)
    (first second : Meta) (peek data : List UInt8) : Rc × Nvm :=
  match preMeta, preData with
  | .ok, .ok =>
    if metaNull then (.badargs, n)
    else if cfg.statefulBlob peek then (.access, n)
    else match lock with
      | .ok => n.addChecked first second data
      | rc => (rc, n)
  | .ok, rc => (rc, n)
  | rc, _ => (rc, n)

/-- DESTROYOBJECTS, src/wh_server_nvm.c:303-317.
`WH_MESSAGE_NVM_MAX_DESTROY_OBJECTS_COUNT` is 19. -/
def handleDestroy (n : Nvm) (lock : Rc) (count : UInt16) (ids : Vector UInt16 19) : Rc × Nvm :=
  if count.toNat ≤ 19 then
    match lock with
    | .ok => n.destroyChecked (ids.toList.take count.toNat)
    | rc => (rc, n)
  else (.aborted, n)

/-- `wh_Server_HandleNvmRequest`, src/wh_server_nvm.c:87-523: the response and the new
NVM state.  `lock` is the result of `WH_SERVER_NVM_LOCK`. -/
def handle (cfg : Cfg) (n : Nvm) (lock : Rc) : Req → Resp × Nvm
  | .init c => (.initResp .ok c, n)
  | .cleanup => (.simple .ok, n)
  | .list a f s =>
    match lock with
    | .ok => (let r := cfg.list n.store a f s; .listed r.1 r.2.1 r.2.2, n)
    | rc => (.listed rc 0 0, n)
  | .getAvailable =>
    match lock with
    | .ok => (let r := cfg.avail n.store; .avail r.1 r.2, n)
    | rc => (.avail rc [], n)
  | .getMetadata id =>
    match lock with
    | .ok => (.metadata (n.metadata id).1 (n.metadata id).2, n)
    | rc => (.metadata rc none, n)
  | .add md payload =>
    let r := handleAdd cfg n lock md payload
    (.simple r.1, r.2)
  | .destroy count ids =>
    let r := handleDestroy n lock count ids
    (.simple r.1, r.2)
  | .read id off len =>
    match lock with
    | .ok => let r := handleRead cfg n id off len; (.bytes r.1.1 r.1.2, r.2)
    | rc => (.bytes rc [], n)
  | .addDma pm pd z m1 m2 peek data =>
    let r := handleAddDma cfg n lock pm pd z m1 m2 peek data
    (.simple r.1, r.2)
  | .readDma id off len pre =>
    match lock with
    | .ok => let r := handleReadDma n id off len pre; (.bytes r.1.1 r.1.2, r.2)
    | rc => (.bytes rc [], n)
  | .malformed => (.simple .aborted, n)
  | .unknown => (.empty, n)

end NvmServer

end WolfHsm

import Verif.Model.TransportMem

/-!
# `port/posix/posix_transport_shm.c`: processes that meet in a named shared memory object

A server creates the object and its name, a client opens the name, maps the object, removes the name and marks
the object as in use; then both use the transport of `Model/TransportMem.lean` inside it.  A step is one system
call or one access to the shared memory, of any process; processes are numbered, die at any point and start
again.  One name is modelled (objects with different names have nothing in common).  Process ids in the header,
the connect callback and results of calls that only report a failure are left out.
-/

namespace WolfHsm.PosixShm

/-- `initialized` in the header, port/posix/posix_transport_shm.c:66-71. -/
inductive Mark where
  | none | cleanup | creator | user
deriving DecidableEq

/-- A shared memory object.  `sized`: `ftruncate` has been done; `k`: `req_size` and `resp_size` in its header
(lines 42-52); `shm`: the request and response buffers. -/
structure Obj where
  sized : Bool
  mark : Mark
  k : Mem.Cfg
  shm : Mem.Shm

/-- Where a server process is. -/
inductive SAt where
  /-- Not running, or without transport. -/
  | off
  /-- In `ServerInit`, the old name removed (line 210). -/
  | unlinked (k : Mem.Cfg)
  /-- The object exists (line 212). -/
  | created (o : Nat) (k : Mem.Cfg)
  /-- Its size is set (line 217). -/
  | truncated (o : Nat) (k : Mem.Cfg)
  /-- The sizes are in the header (lines 223-226). -/
  | described (o : Nat) (k : Mem.Cfg)
  /-- The mark CREATOR is set (line 228). -/
  | marked (o : Nat)
  /-- In `RecvRequest`, about to look for a client (line 656). -/
  | looking (o : Nat) (cap : UInt16) (todo : Bool)
  /-- `PTSHM_STATE_MAPPED` or `PTSHM_STATE_INITIALIZED` (`conn`), in a call of the memory transport. -/
  | up (o : Nat) (conn : Bool) (pc : Mem.SPc) (todo : Bool)

/-- Where a client process is.  `next`: the request it goes on with once connected. -/
inductive CAt where
  /-- Not running, or without transport. -/
  | off
  /-- `PTSHM_STATE_NONE`: initialised, not connected. -/
  | ready
  /-- In `UseMap`, the object opened (line 131). -/
  | opened (o : Nat) (next : Option (List UInt8))
  /-- Its size was not zero (lines 135-137). -/
  | statted (o : Nat) (next : Option (List UInt8))
  /-- Its mark was CREATOR (line 143). -/
  | checked (o : Nat) (next : Option (List UInt8))
  /-- Mapped and the name removed (lines 156-159). -/
  | removed (o : Nat) (next : Option (List UInt8))
  /-- The mark USER is set (line 163); clearing the buffers, `n` words and bytes done. -/
  | clearing (o : Nat) (n : Nat) (next : Option (List UInt8))
  /-- `PTSHM_STATE_INITIALIZED`, in a call of the memory transport. -/
  | up (o : Nat) (pc : Mem.CPc)

structure World where
  objs : List Obj
  /-- The object the name stands for. -/
  name : Option Nat
  srv : Nat → SAt
  cli : Nat → CAt

/-- Nothing there, nobody runs. -/
def World.start : World := ⟨[], none, fun _ => .off, fun _ => .off⟩

/-- Returns of transport calls on object `obj`, by process `who`. -/
structure Seen where
  obj : Nat
  who : Nat
  obs : Mem.Obs
deriving DecidableEq

def World.setSrv (w : World) (i : Nat) (s : SAt) : World :=
  { w with srv := fun j => if j = i then s else w.srv j }

def World.setCli (w : World) (i : Nat) (s : CAt) : World :=
  { w with cli := fun j => if j = i then s else w.cli j }

def World.upd (w : World) (o : Nat) (f : Obj → Obj) : World := { w with objs := w.objs.modify o f }

/-- `shm_unlink`. -/
def World.unlink (w : World) : World := { w with name := none }

/-- `shm_open` of a new object: no bytes yet. -/
def World.create (w : World) : World :=
  { w with objs := w.objs ++ [⟨false, .none, ⟨0, 0⟩, Mem.initClear ⟨0, 0⟩⟩], name := some w.objs.length }

/-- Calls, single steps, failing system calls and deaths. -/
inductive Ev where
  | sInit (i : Nat) (k : Mem.Cfg)
  | sStep (i : Nat)
  | sFail (i : Nat)
  | sRecv (i : Nat) (cap : UInt16)
  | sSend (i : Nat) (msg : List UInt8)
  | sCleanup (i : Nat)
  | sKill (i : Nat)
  | cInit (i : Nat)
  | cOpen (i : Nat) (next : Option (List UInt8))
  | cStep (i : Nat)
  | cFail (i : Nat)
  | cSend (i : Nat) (msg : List UInt8)
  | cRecv (i : Nat) (cap : UInt16)
  | cCleanup (i : Nat)
  | cKill (i : Nat)

/-- An event of the memory transport for the server on its object. -/
def srvMem (w : World) (i o : Nat) (conn : Bool) (pc : Mem.SPc) (todo : Bool) (e : Mem.Ev) : World × List Seen :=
  match w.objs[o]? with
  | some b =>
    let r := Mem.step b.k ⟨b.shm, .idle, pc, todo⟩ e
    ((w.upd o fun b => { b with shm := r.1.shm }).setSrv i (.up o conn r.1.s r.1.todo), r.2.toList.map fun x => ⟨o, i, x⟩)
  | none => (w, [])

/-- An event of the memory transport for the client on its object. -/
def cliMem (w : World) (i o : Nat) (pc : Mem.CPc) (e : Mem.Ev) : World × List Seen :=
  match w.objs[o]? with
  | some b =>
    let r := Mem.step b.k ⟨b.shm, pc, .idle, false⟩ e
    ((w.upd o fun b => { b with shm := r.1.shm }).setCli i (.up o r.1.c), r.2.toList.map fun x => ⟨o, i, x⟩)
  | none => (w, [])

/-- One store of `wh_TransportMem_InitClear`, src/wh_transport_mem.c:78-79: request word, request bytes,
response word, response bytes. -/
def clear1 (m : Mem.Shm) (n : Nat) : Mem.Shm :=
  if n = 0 then { m with req := ⟨0, 0⟩ }
  else if n < 1 + m.reqData.length then { m with reqData := m.reqData.set (n - 1) 0 }
  else if n = 1 + m.reqData.length then { m with resp := ⟨0, 0⟩ }
  else { m with respData := m.respData.set (n - 2 - m.reqData.length) 0 }

/-- A step of a server, `posixTransportShm_CreateMap` and `posixTransportShm_ServerInit`,
port/posix/posix_transport_shm.c:198-253, 384-430, and `posixTransportShm_RecvRequest`, lines 637-680. -/
def sStep (w : World) (i : Nat) : World × List Seen :=
  match w.srv i with
  | .off => (w, [])
  | .unlinked k =>
    -- O_EXCL: fails if somebody else has created the name meanwhile
    if w.name.isSome then (w.setSrv i .off, [])
    else
      (w.create.setSrv i (.created w.objs.length k), [])
  | .created o k => ((w.upd o fun b => { b with sized := true }).setSrv i (.truncated o k), [])
  | .truncated o k =>
    ((w.upd o fun b => { b with k := k, shm := Mem.initClear k }).setSrv i (.described o k), [])
  | .described o _ => ((w.upd o fun b => { b with mark := .creator }).setSrv i (.marked o), [])
  | .marked o =>
    match w.objs[o]? with
    | some b =>
      -- wh_TransportMem_Init refuses sizes of zero; then the name is removed
      if b.k.reqSize = 0 ∨ b.k.respSize = 0 then (w.unlink.setSrv i .off, [])
      else (w.setSrv i (.up o false .idle false), [])
    | none => (w, [])
  | .looking o cap todo =>
    match w.objs[o]? with
    | some b => (w.setSrv i (.up o (decide (b.mark = .user)) (.recv1 cap) todo), [])
    | none => (w, [])
  | .up o conn pc todo => srvMem w i o conn pc todo .sStep

/-- A step of a client, `posixTransportShm_UseMap` and `posixTransportShm_HandleMap`,
port/posix/posix_transport_shm.c:122-195, 256-305.  A client that cannot connect yet stays `ready`. -/
def cStep (w : World) (i : Nat) : World × List Seen :=
  match w.cli i with
  | .off => (w, [])
  | .ready => (w, [])
  | .opened o next =>
    match w.objs[o]? with
    | some b => (w.setCli i (if b.sized then .statted o next else .ready), [])
    | none => (w, [])
  | .statted o next =>
    match w.objs[o]? with
    | some b => (w.setCli i (if b.mark = .creator then .checked o next else .ready), [])
    | none => (w, [])
  | .checked o next => (w.unlink.setCli i (.removed o next), [])
  | .removed o next => ((w.upd o fun b => { b with mark := .user }).setCli i (.clearing o 0 next), [])
  | .clearing o n next =>
    match w.objs[o]? with
    | some b =>
      if b.k.reqSize = 0 ∨ b.k.respSize = 0 then (w.setCli i .ready, [])
      else if n < 2 + b.shm.reqData.length + b.shm.respData.length then
        ((w.upd o fun b => { b with shm := clear1 b.shm n }).setCli i (.clearing o (n + 1) next), [])
      else
        match next with
        | none => (w.setCli i (.up o .idle), [])
        | some msg => cliMem w i o .idle (.cSend msg)
    | none => (w, [])
  | .up o pc => cliMem w i o pc .cStep

/-- A step of the world; an event that is not possible does nothing. -/
def step (w : World) : Ev → World × List Seen
  | .sInit i k => match w.srv i with
    | .off => (w.unlink.setSrv i (.unlinked k), [])
    | _ => (w, [])
  | .sStep i => sStep w i
  -- a system call fails: the file descriptor is closed, the name stays (lines 233-250)
  | .sFail i => match w.srv i with
    | .unlinked _ | .created .. | .truncated .. | .marked _ => (w.setSrv i .off, [])
    | _ => (w, [])
  | .sRecv i cap => match w.srv i with
    | .up o false .idle todo => (w.setSrv i (.looking o cap todo), [])
    | .up o true .idle todo => srvMem w i o true .idle todo (.sRecv cap)
    | _ => (w, [])
  | .sSend i msg => match w.srv i with
    | .up o conn .idle todo => srvMem w i o conn .idle todo (.sSend msg)
    | _ => (w, [])
  -- posixTransportShm_Cleanup, lines 464-482
  | .sCleanup i => match w.srv i with
    | .up o _ .idle _ => ((w.upd o fun b => { b with mark := .cleanup }).setSrv i .off, [])
    | _ => (w, [])
  | .sKill i => (w.setSrv i .off, [])
  | .cInit i => match w.cli i with
    | .off => (w.setCli i .ready, [])
    | _ => (w, [])
  -- shm_open in UseMap, from ClientInit (`none`) or from SendRequest, lines 131, 453, 498
  | .cOpen i next => match w.cli i, w.name with
    | .ready, some o => (w.setCli i (.opened o next), [])
    | _, _ => (w, [])
  | .cStep i => cStep w i
  -- fstat or mmap fails
  | .cFail i => match w.cli i with
    | .opened .. | .statted .. | .checked .. => (w.setCli i .ready, [])
    | _ => (w, [])
  | .cSend i msg => match w.cli i with
    | .up o .idle => cliMem w i o .idle (.cSend msg)
    | _ => (w, [])
  | .cRecv i cap => match w.cli i with
    | .up o .idle => cliMem w i o .idle (.cRecv cap)
    | _ => (w, [])
  | .cCleanup i => match w.cli i with
    | .up o .idle => ((w.upd o fun b => { b with mark := .cleanup }).setCli i .off, [])
    | _ => (w, [])
  | .cKill i => (w.setCli i .off, [])

/-- The final state and everything observed. -/
def run (w : World) : List Ev → World × List Seen
  | [] => (w, [])
  | e :: es =>
    let r := step w e
    let r' := run r.1 es
    (r'.1, r.2 ++ r'.2)

end WolfHsm.PosixShm

import Verif.Model.Basic

/-!
# `src/wh_dma.c` and `src/wh_server_dma.c`

`P` is `UINTPTR_MAX + 1`; `uintptr_t`/`size_t` values are naturals below `P`
(the two types are taken to have the same width) and additions wrap modulo `P`.
-/

namespace WolfHsm.Dma

/-- `whDmaOper`, wolfhsm/wh_dma.h:36-46; `invalid` is any other enum value. -/
inductive Oper
  | readPre | readPost | writePre | writePost | invalid
deriving DecidableEq, Repr

/-- `whDmaAddr`, wolfhsm/wh_dma.h:62-65. -/
structure Region where
  addr : Nat
  size : Nat
deriving DecidableEq, Repr

/-- `whDmaAddrAllowList`, wolfhsm/wh_dma.h:69-72. -/
structure AllowList where
  readList : List Region
  writeList : List Region

/-- The loop of `_checkAddrAgainstAllowList`, src/wh_dma.c:68-85.  The list
length stands for `WOLFHSM_CFG_DMAADDR_COUNT`. -/
def scan (P startAddr endAddr : Nat) : List Region → Rc
  | [] => .access
  | r :: rest =>
    if r.size = 0 then scan P startAddr endAddr rest
    else if r.addr > P - 1 - r.size then scan P startAddr endAddr rest
    else
      let allowEnd := (r.addr + r.size) % P
      if startAddr ≥ r.addr ∧ endAddr ≤ allowEnd then .ok
      else scan P startAddr endAddr rest

/-- `_checkAddrAgainstAllowList`, src/wh_dma.c:50-88. -/
def checkAddr (P : Nat) (l : List Region) (addr size : Nat) : Rc :=
  if size = 0 then .badargs
  else if addr > P - 1 - size then .badargs
  else scan P addr ((addr + size) % P) l

/-- `_checkMemOperAgainstAllowList` and `wh_Dma_CheckMemOperAgainstAllowList`,
src/wh_dma.c:91-132.  `none` is a NULL allow list. -/
def checkMemOper (P : Nat) (al : Option AllowList) (op : Oper) (addr size : Nat) : Rc :=
  if size = 0 then .badargs
  else if op = .invalid then .badargs
  else match al with
    | none => .ok
    | some al =>
      match op with
      | .readPre => checkAddr P al.readList addr size
      | .writePre => checkAddr P al.writeList addr size
      | _ => .ok

/-- The optional port callbacks of `whServerDmaContext`, wolfhsm/wh_server.h:134-140.
`cb` returns a code and the translated address; it may do anything else outside
the model.  `memCopyCb` is only known to exist (`true`) and to touch the address
it is given. -/
structure Server where
  allow : Option AllowList
  cb : Option (Nat → Nat → Oper → Rc × Nat)
  hasMemCopyCb : Bool

/-- A client-memory access performed by the server. -/
inductive Access
  | read (addr len : Nat)
  | write (addr len : Nat)
deriving DecidableEq, Repr

/-- `wh_Server_DmaProcessClientAddress`, src/wh_server_dma.c:91-122. -/
def processClientAddress (P : Nat) (s : Server) (clientAddr len : Nat) (op : Oper) : Rc × Nat :=
  let (rc, x) := match s.cb with
    | none => (Rc.ok, clientAddr)
    | some cb => cb clientAddr len op
  if rc ≠ .ok then (rc, x)
  else if len > 0 then (checkMemOper P s.allow op x len, x)
  else (.ok, x)

/-- `whServerDma_CopyFromClient`, src/wh_server_dma.c:124-168: result code and
the client-memory accesses made.  `copyRc` is what a custom copy callback
returns. -/
def copyFromClient (P : Nat) (s : Server) (copyRc : Rc) (clientAddr len : Nat) :
    Rc × List Access :=
  if len = 0 then (.badargs, [])
  else
    let (rc, x) := processClientAddress P s clientAddr len .readPre
    if rc ≠ .ok then (rc, [])
    else if s.hasMemCopyCb ∧ copyRc ≠ .ok then (copyRc, [.read x len])
    else
      ((processClientAddress P s clientAddr len .readPost).1, [.read x len])

/-- `whServerDma_CopyToClient`, src/wh_server_dma.c:170-213.  Note that line 193
hands the custom copy callback `clientAddr`, not the translated address that
was checked. -/
def copyToClient (P : Nat) (s : Server) (copyRc : Rc) (clientAddr len : Nat) :
    Rc × List Access :=
  if len = 0 then (.badargs, [])
  else
    let (rc, x) := processClientAddress P s clientAddr len .writePre
    if rc ≠ .ok then (rc, [])
    else if s.hasMemCopyCb then
      if copyRc ≠ .ok then (copyRc, [.write clientAddr len])
      else ((processClientAddress P s clientAddr len .writePost).1, [.write clientAddr len])
    else
      ((processClientAddress P s clientAddr len .writePost).1, [.write x len])

end WolfHsm.Dma

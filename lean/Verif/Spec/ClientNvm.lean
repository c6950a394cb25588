import Verif.Model.ClientNvm

/-!
# What an NVM call of a client should do

On an NVM with contents `n`, when the server's lock gives `lock`, and the address check of DMA
calls gives `pre`.  Everything is in terms of the checked operations of `src/wh_nvm.c`
(`Nvm.addChecked` and so on), whose own properties are C09 to C12.
-/

namespace WolfHsm.ClientNvm

open NvmFlash (Meta)

/-- The metadata of no object. -/
def zeroMeta : Meta := ⟨0, 0, 0, 0, Vector.replicate 24 0⟩

/-- The metadata of an object to add: the label filled up with zeros. -/
def newMeta (id access flags : UInt16) (label data : List UInt8) : Meta :=
  ⟨id, access, flags, UInt16.ofNat data.length,
   Vector.ofFn fun i => (label ++ List.replicate (24 - label.length) 0).getD i.val 0⟩

/-- An update that needs the lock. -/
def locked (lock : Rc) (n : Nvm) (f : Rc × Nvm) : Result × Nvm :=
  if lock = .ok then (.simple f.1.code, f.2) else (.simple lock.code, n)

/-- Result of the call for the caller, the bytes put into client memory, and the NVM after it. -/
def expected (cfg : NvmMsg.Cfg) (e : NvmMsg.Env) (n : Nvm) :
    Call → (Result × Option (UInt64 × List UInt8)) × Nvm
  | .init c => ((.init 0 c cfg.serverId, none), n)
  | .cleanup => ((.simple 0, none), n)
  | .getAvailable =>
    if e.lock = .ok then
      let v := cfg.nvm.avail n.store
      ((.avail v.1.code (UInt32.ofNat (v.2.getD 0 0)) (UInt16.ofNat (v.2.getD 1 0))
        (UInt32.ofNat (v.2.getD 2 0)) (UInt16.ofNat (v.2.getD 3 0)), none), n)
    else ((.avail e.lock.code 0 0 0 0, none), n)
  | .add id access flags label data =>
    if cfg.nvm.statefulBlob data then ((.simple Rc.access.code, none), n)
    else
      let md := newMeta id access flags label data
      let q := locked e.lock n (n.addChecked md md data)
      ((q.1, none), q.2)
  | .list a f s =>
    if e.lock = .ok then
      let v := cfg.nvm.list n.store a f s
      ((.listed v.1.code v.2.1 v.2.2, none), n)
    else ((.listed e.lock.code 0 0, none), n)
  | .getMetadata id =>
    if e.lock = .ok then
      match n.store id with
      | some (md, _) => ((.metadata 0 md, none), n)
      | none => ((.metadata Rc.notfound.code zeroMeta, none), n)
    else ((.metadata e.lock.code zeroMeta, none), n)
  | .destroy ids =>
    let q := locked e.lock n (n.destroyChecked ids)
    ((q.1, none), q.2)
  | .read id off len =>
    if e.lock = .ok then
      let q := NvmServer.handleRead cfg.nvm n id off len
      ((.bytes q.1.1.code (if q.1.1 = .ok then q.1.2 else []), none), q.2)
    else ((.bytes e.lock.code [], none), n)
  | .addDma ma da len =>
    let p1 := e.pre false ma 32
    let p2 := e.pre false da len.toNat
    if p1 ≠ .ok then ((.simple p1.code, none), n)
    else if p2 ≠ .ok then ((.simple p2.code, none), n)
    else if e.null ma then ((.simple Rc.badargs.code, none), n)
    else if cfg.nvm.statefulBlob (e.mem1 da len.toNat) then ((.simple Rc.access.code, none), n)
    else
      let q := locked e.lock n (n.addChecked (NvmMsg.rawMeta cfg.le (e.mem1 ma 32))
        (NvmMsg.rawMeta cfg.le (e.mem2 ma 32)) (e.mem2 da len.toNat))
      ((q.1, none), q.2)
  | .readDma id off len addr =>
    if e.lock = .ok then
      let q := NvmServer.handleReadDma n id off len (e.pre true addr len.toNat)
      ((.simple q.1.1.code, if q.1.1 = .ok then some (addr, q.1.2) else none), q.2)
    else ((.simple e.lock.code, none), n)

/-- What the caller gets when the request is not authorised. -/
def refusedResult : Call → Result
  | .init _ => .init Rc.authPermissionError.code 0 0
  | .getAvailable => .avail Rc.authPermissionError.code 0 0 0 0
  | .list .. => .listed Rc.authPermissionError.code 0 0
  | .getMetadata _ => .metadata Rc.authPermissionError.code zeroMeta
  | .read .. => .bytes Rc.authPermissionError.code []
  | _ => .simple Rc.authPermissionError.code

/-- DMA calls. -/
def Call.IsDma : Call → Prop
  | .addDma .. | .readDma .. => True
  | _ => False

end WolfHsm.ClientNvm

namespace WolfHsm.NvmMsg

open Wire
open Server (Req)

/-- The request has the size its action needs; an ADDOBJECT carries as many bytes as it says. -/
def WellSized (cfg : Cfg) (r : Req) : Prop :=
  match r.action.toNat with
  | 1 => r.size = 4
  | 2 | 3 => r.size = 0
  | 4 => 32 ≤ r.size ∧ r.size = 32 + (rd16 cfg.le r.magic r.buf 6).toNat
  | 5 | 8 => r.size = 6
  | 6 => r.size = 2
  | 7 => r.size = 40
  | 0x24 => cfg.dma = true ∧ r.size = 24
  | 0x28 => cfg.dma = true ∧ r.size = 16
  | _ => False

end WolfHsm.NvmMsg

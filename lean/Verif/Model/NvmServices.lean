import Verif.Model.NvmProg
import Verif.Model.Counter

/-!
# The counter and NVM request handlers as programs over the NVM API

The same handlers as in `Model/Counter.lean` and `Model/Nvm.lean`, written as programs, so
that they can be executed on the flash NVM too (C50).  That both agree on the object map is
proved in `Proofs/NvmServices.lean`.
-/

namespace WolfHsm

open NvmFlash (Meta)

namespace Counter

/-- `Model/Counter.lean`, `handle`; src/wh_server_counter.c:40-233. -/
def prog (client : UInt16) (lock : Rc) : Req → NP Resp
  | .init cid v =>
    match lock with
    | .ok => .addReclaim (put (blankMeta (keyOf client cid)) v) [] fun rc =>
        .ret (if rc = .ok then ⟨.ok, v⟩ else ⟨rc, 0⟩)
    | rc => .ret ⟨rc, 0⟩
  | .increment cid =>
    match lock with
    | .ok => .info (keyOf client cid) fun rc md =>
        match rc, md with
        | .ok, some md =>
          if get md + 1 = 0 then .ret ⟨.ok, 0xFFFFFFFF⟩
          else .addReclaim (put md (get md + 1)) [] fun rc =>
            .ret (if rc = .ok then ⟨.ok, get md + 1⟩ else ⟨rc, 0⟩)
        | rc, _ => .ret ⟨rc, 0⟩
    | rc => .ret ⟨rc, 0⟩
  | .read cid =>
    match lock with
    | .ok => .info (keyOf client cid) fun rc md =>
        match rc, md with
        | .ok, some md => .ret ⟨.ok, get md⟩
        | rc, _ => .ret ⟨rc, 0⟩
    | rc => .ret ⟨rc, 0⟩
  | .destroy cid =>
    match lock with
    | .ok => .destroy [keyOf client cid] fun rc => .ret ⟨rc, 0⟩
    | rc => .ret ⟨rc, 0⟩
  | .malformed => .ret ⟨.badargs, 0⟩
  | .unknown => .ret ⟨.badargs, 0⟩

end Counter

namespace NvmServer

/-- `wh_Nvm_CheckPolicy`, src/wh_nvm.c:44-94, as in `Nvm.checkPolicy`. -/
def policyP {α : Type} (op : Nvm.Op) (id : UInt16) (k : Rc → NP α) : NP α :=
  .info id fun rc md =>
    k (match rc, md with
      | .ok, some md =>
        if hasFlag md.flags Flag.trusted then .access
        else match op with
          | .add => if hasFlag md.flags Flag.nonModifiable then .access else .ok
          | .destroy =>
            if hasFlag md.flags (Flag.nonModifiable ||| Flag.nonDestroyable) then .access else .ok
          | .read => if hasFlag md.flags Flag.nonExportable then .access else .ok
      | rc, _ => rc)

/-- `wh_Nvm_AddObjectChecked`, src/wh_nvm.c:272-294. -/
def addP (first second : Meta) (data : List UInt8) : NP Rc :=
  policyP .add first.id fun rc =>
    if Nvm.passes rc then .add (Nvm.sanitize second) data .ret else .ret rc

/-- `wh_Nvm_DestroyObjectsChecked`, src/wh_nvm.c:344-363: the loop over the ids still to be
checked, then the destroy of `all`. -/
def destroyP (all : List UInt16) : List UInt16 → NP Rc
  | [] => .destroy all .ret
  | id :: ids => policyP .destroy id fun rc =>
    if Nvm.passes rc then destroyP all ids else .ret rc

/-- `wh_Nvm_ReadChecked`, src/wh_nvm.c:381-392. -/
def readP (id : UInt16) (off len : Nat) : NP (Rc × List UInt8) :=
  policyP .read id fun rc =>
    match rc with
    | .ok => .read id off len fun rc bs => .ret (rc, bs)
    | rc => .ret (rc, [])

/-- `_HandleNvmRead`, src/wh_server_nvm.c:52-85, without the limit on the length; also the
length handling of READDMA, :463-509. -/
def readAtP (id off len : UInt16) (pre : Rc) : NP (Rc × List UInt8) :=
  .info id fun rc md =>
    match rc, md with
    | .ok, some md =>
      if off ≥ md.len then .ret (.badargs, [])
      else match pre with
        | .ok => readP id off.toNat (if len > md.len - off then md.len - off else len).toNat
        | rc => .ret (rc, [])
    | rc, _ => .ret (rc, [])

/-- `Model/Nvm.lean`, `handle`; src/wh_server_nvm.c:87-523.  The two queries LIST and
GETAVAILABLE are missing: what they answer depends on the layout of the flash, which the
object map does not have. -/
def prog (cfg : Cfg) (lock : Rc) : Req → NP Resp
  | .init c => .ret (.initResp .ok c)
  | .cleanup => .ret (.simple .ok)
  | .list _ _ _ => .ret .empty
  | .getAvailable => .ret .empty
  | .getMetadata id =>
    match lock with
    | .ok => .info id fun rc md => .ret (.metadata rc md)
    | rc => .ret (.metadata rc none)
  | .add md payload =>
    if payload.length = md.len.toNat then
      if cfg.statefulBlob payload then .ret (.simple .access)
      else match lock with
        | .ok => (addP md md payload).bind fun rc => .ret (.simple rc)
        | rc => .ret (.simple rc)
    else .ret (.simple .ok)
  | .destroy count ids =>
    if count.toNat ≤ 19 then
      match lock with
      | .ok => (destroyP (ids.toList.take count.toNat) (ids.toList.take count.toNat)).bind
          fun rc => .ret (.simple rc)
      | rc => .ret (.simple rc)
    else .ret (.simple .aborted)
  | .read id off len =>
    match lock with
    | .ok =>
      if len.toNat > cfg.maxRead then .ret (.bytes .aborted [])
      else (readAtP id off len .ok).bind fun r => .ret (.bytes r.1 r.2)
    | rc => .ret (.bytes rc [])
  | .addDma preMeta preData metaNull first second peek data =>
    match preMeta, preData with
    | .ok, .ok =>
      if metaNull then .ret (.simple .badargs)
      else if cfg.statefulBlob peek then .ret (.simple .access)
      else match lock with
        | .ok => (addP first second data).bind fun rc => .ret (.simple rc)
        | rc => .ret (.simple rc)
    | .ok, rc => .ret (.simple rc)
    | rc, _ => .ret (.simple rc)
  | .readDma id off len pre =>
    match lock with
    | .ok => (readAtP id off len pre).bind fun r => .ret (.bytes r.1 r.2)
    | rc => .ret (.bytes rc [])
  | .malformed => .ret (.simple .aborted)
  | .unknown => .ret .empty

/-- A request that does not ask for the layout of the flash. -/
def Req.Plain : Req → Bool
  | .list _ _ _ => false
  | .getAvailable => false
  | _ => true

end NvmServer

end WolfHsm

import Verif.Model.Nvm
import Verif.Model.NvmReclaim
import Verif.Spec.NvmStore

/-!
# Programs over the NVM API, and their two executions

The request handlers reach the NVM through five calls of wolfhsm/wh_nvm.h.  A handler is
therefore a program that issues such calls and goes on with their results.  A program can
be executed on the object map used in the models of the request handlers (`onMap`), and on
the model of the flash NVM with its torn writes, failing commands and power losses
(`OnFlash`).  C50 relates the two.
-/

namespace WolfHsm

open NvmFlash (Meta Store)

/-- A program issuing NVM calls; the continuation receives the results. -/
inductive NP (α : Type) : Type
  | ret (a : α) : NP α
  /-- `wh_Nvm_AddObject`, src/wh_nvm.c:257-270 -/
  | add (md : Meta) (data : List UInt8) (k : Rc → NP α) : NP α
  /-- `wh_Nvm_AddObjectWithReclaim`, src/wh_nvm.c:219-255 -/
  | addReclaim (md : Meta) (data : List UInt8) (k : Rc → NP α) : NP α
  /-- `wh_Nvm_DestroyObjects`, src/wh_nvm.c:329-342 -/
  | destroy (ids : List UInt16) (k : Rc → NP α) : NP α
  /-- `wh_Nvm_Read`, src/wh_nvm.c:366-379 -/
  | read (id : UInt16) (off len : Nat) (k : Rc → List UInt8 → NP α) : NP α
  /-- `wh_Nvm_GetMetadata`, src/wh_nvm.c:313-326 -/
  | info (id : UInt16) (k : Rc → Option Meta → NP α) : NP α

namespace NP

/-- Sequencing. -/
def bind {α β : Type} : NP α → (α → NP β) → NP β
  | ret a, f => f a
  | add md d k, f => add md d fun rc => (k rc).bind f
  | addReclaim md d k, f => addReclaim md d fun rc => (k rc).bind f
  | destroy ids k, f => destroy ids fun rc => (k rc).bind f
  | read id off len k, f => read id off len fun rc bs => (k rc bs).bind f
  | info id k, f => info id fun rc md => (k rc md).bind f

instance : Monad NP where
  pure := ret
  bind := bind

/-- Execution on the object map, `Model/Nvm.lean`.  After a power loss the rest of the
program runs without effect; its answer is never sent. -/
def onMap {α : Type} : NP α → Nvm → α × Nvm
  | ret a, n => (a, n)
  | add md d k, n => onMap (k (n.add md d).1) (n.add md d).2
  | addReclaim md d k, n => onMap (k (n.addWithReclaim md d).1) (n.addWithReclaim md d).2
  | destroy ids k, n => onMap (k (n.destroy ids).1) (n.destroy ids).2
  | read id off len k, n =>
    onMap (k (n.read id off len).1.1 (n.read id off len).1.2) (n.read id off len).2
  | info id k, n => onMap (k (n.metadata id).1 (n.metadata id).2) n

/-- `wh_Nvm_AddObjectWithReclaim`, src/wh_nvm.c:219-255, with the flash NVM's answer to
`GetAvailable`, as a program (the same decisions as `NvmFlash.addObjectWithReclaim`). -/
def reclaiming {α : Type} (c : NvmFlash.Cfg) (ctx : NvmFlash.Ctx) (md : Meta)
    (data : List UInt8) (k : Rc → NP α) : NP α :=
  match NvmFlash.getAvailable c ctx with
  | (rc, availSize, availObjs, reclSize, reclObjs) =>
    if rc ≠ .ok then k rc
    else if availSize < data.length ∨ availObjs = 0 then
      if availSize + reclSize ≥ data.length ∧ availObjs + reclObjs > 0 then
        .destroy [] fun rc => if rc = .ok then .add md data k else k rc
      else k .nospace
    else .add md data k

open Flash NvmFlash in
/-- All executions on the flash NVM, from the running device (`ctx`, `m`) with the `n`-th
destroy ahead: the answer, or `none` if power was lost before it, and the device
afterwards.  Any driver call may fail in adds and reads; program, verify and erase
commands may fail in destroys.  After a failed destroy the caller restarts the device before
the next NVM call; the request at hand may still be answered.  Data lengths are 16-bit (C
type `whNvmSize`) and there are at most `2^32 - 2` destroys (see `NvmFlash.Reach`).  On a
read error the caller gets no bytes (the callers ignore the buffer then). -/
inductive OnFlash {α : Type} (c : NvmFlash.Cfg) :
    NP α → Nat → Ctx → Mem → Option α → Nat → PState → Prop
  | ret {a n ctx m} : OnFlash c (.ret a) n ctx m (some a) n (.on ctx m)
  | cut {p n ctx m} : OnFlash c p n ctx m none n (.off m)
  | add {md data k n ctx m rc ctx' m' o n' s} (hl : data.length < 2 ^ 16)
      (hx : Exec c.dev (addFaults true) (addObject c ctx md data) m (some (rc, ctx')) m')
      (h : OnFlash c (k rc) n ctx' m' o n' s) : OnFlash c (.add md data k) n ctx m o n' s
  | addCut {md data k n ctx m m'} (hl : data.length < 2 ^ 16)
      (hx : Exec c.dev (addFaults true) (addObject c ctx md data) m none m') :
      OnFlash c (.add md data k) n ctx m none n (.off m')
  | addReclaim {md data k n ctx m o n' s}
      (h : OnFlash c (reclaiming c ctx md data k) n ctx m o n' s) :
      OnFlash c (.addReclaim md data k) n ctx m o n' s
  | destroy {ids k n ctx m ctx' m' o n' s} (hn : n + 1 < 2 ^ 32)
      (hx : Exec c.dev (wrFaults true) (destroyObjects c ctx ids) m (some (.ok, ctx')) m')
      (h : OnFlash c (k .ok) (n + 1) ctx' m' o n' s) : OnFlash c (.destroy ids k) n ctx m o n' s
  | destroyFailed {ids k n ctx m rc ctx' m' o} (hn : n + 1 < 2 ^ 32)
      (hx : Exec c.dev (wrFaults true) (destroyObjects c ctx ids) m (some (rc, ctx')) m')
      (hrc : rc ≠ .ok) (ho : ∀ a, o = some a → k rc = .ret a) :
      OnFlash c (.destroy ids k) n ctx m o (n + 1) (.off m')
  | destroyCut {ids k n ctx m m'} (hn : n + 1 < 2 ^ 32)
      (hx : Exec c.dev (wrFaults true) (destroyObjects c ctx ids) m none m') :
      OnFlash c (.destroy ids k) n ctx m none (n + 1) (.off m')
  | read {id off len k n ctx m rc bs m' o n' s}
      (hx : Exec c.dev ⟨true, true⟩ (readObject c ctx id off len) m (some (rc, bs)) m')
      (h : OnFlash c (k rc (if rc = .ok then bs else [])) n ctx m' o n' s) :
      OnFlash c (.read id off len k) n ctx m o n' s
  | info {id k n ctx m o n' s}
      (h : OnFlash c (k (getMetadata ctx id).1 (getMetadata ctx id).2) n ctx m o n' s) :
      OnFlash c (.info id k) n ctx m o n' s

end NP

end WolfHsm

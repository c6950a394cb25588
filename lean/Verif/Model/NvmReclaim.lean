import Verif.Model.NvmFlash

/-! # `wh_Nvm_AddObjectWithReclaim` over the flash backend -/

namespace WolfHsm.NvmFlash

open Flash

/-- `wh_Nvm_AddObjectWithReclaim`, src/wh_nvm.c:219-255, with the flash backend's
callbacks.  The 16- and 32-bit counters are naturals; they do not overflow because they
are bounded by the partition size and the object count. -/
def addObjectWithReclaim (c : Cfg) (ctx : Ctx) (md : Meta) (data : List UInt8) :
    FP (Rc × Ctx) :=
  match getAvailable c ctx with
  | (rc, availSize, availObjs, reclSize, reclObjs) =>
    if rc ≠ .ok then pure (rc, ctx)
    else if availSize < data.length ∨ availObjs = 0 then
      if availSize + reclSize ≥ data.length ∧ availObjs + reclObjs > 0 then do
        let (rc, ctx) ← destroyObjects c ctx []
        if rc = .ok then addObject c ctx md data else pure (rc, ctx)
      else pure (.nospace, ctx)
    else addObject c ctx md data

end WolfHsm.NvmFlash

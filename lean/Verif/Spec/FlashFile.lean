import Verif.Model.FlashFile
import Verif.Model.NvmFlash
import Verif.Spec.NvmStore

/-!
# The flash NVM on a file: what a user sees (C62)

Stated with the driver's own calls on the bytes of the file, and with the store of `Spec/NvmStore.lean`.
-/

namespace WolfHsm.FlashFile

open Flash (Faults)
open NvmFlash (Cfg Store Meta)

/-- The driver as the NVM uses it: open and unlocked, with partitions of `pu` units. -/
def drv (c : Cfg) : Ctx := ⟨true, 8 * c.pu, c.erased, true⟩

/-- No system call fails. -/
def InitIo.good : InitIo := ⟨true, true, fun _ => true, true⟩

/-- `posixFlashFile_Init` succeeds on `file` and leaves the bytes `f`. -/
def Opens (c : Cfg) (file : Option File) (f : File) : Prop :=
  init .good (8 * c.pu) c.erased file = (.ok, ⟨true, 8 * c.pu, c.erased, false⟩, some f)

/-- Through its API the running NVM on the file shows exactly the store `st`, and reading changes nothing. -/
structure Shows (c : Cfg) (ctx : NvmFlash.Ctx) (f : File) (st : Store) : Prop where
  info : ∀ id, NvmFlash.getMetadata ctx id = st.info id
  slice : ∀ id off n, run (drv c) (NvmFlash.readObject c ctx id off n) f = (st.slice id off n, f)
  len : ∀ id md bs, st id = some (md, bs) → md.len.toNat = bs.length

/-- A new process opens the file, initialises the NVM, and shows `st`. -/
def Boots (c : Cfg) (file : Option File) (st : Store) : Prop :=
  ∃ f, Opens c file f ∧ (run (drv c) (NvmFlash.init c) f).1.1 = .ok ∧
    Shows c (run (drv c) (NvmFlash.init c) f).1.2 (run (drv c) (NvmFlash.init c) f).2 st

/-- No process runs, and the file (if any) has these bytes; or one runs. -/
inductive FState
  | off (file : Option File)
  | on (ctx : NvmFlash.Ctx) (f : File)

/-- Every history of a file: processes started, adding and destroying objects, and killed anywhere; a
process killed while it erases or writes leaves that done up to a byte allowed by `cut`.  `opening`: the driver
may stop or fail at any point while it opens the file.  The number counts destroy calls. -/
inductive Reach (c : Cfg) (cut : Nat → Prop) : Nat → FState → Prop
  | new : Reach c cut 0 (.off none)
  | opening {n file} (io : InitIo) : Reach c cut n (.off file) →
      Reach c cut n (.off (init io (8 * c.pu) c.erased file).2.2)
  | boot {n file f ctx f'} : Reach c cut n (.off file) → Opens c file f →
      Exec (drv c) Faults.none cut (NvmFlash.init c) f (some (.ok, ctx)) f' → Reach c cut n (.on ctx f')
  | bootFailed {n file f rc ctx f'} : Reach c cut n (.off file) → Opens c file f →
      Exec (drv c) Faults.none cut (NvmFlash.init c) f (some (rc, ctx)) f' → rc ≠ .ok → Reach c cut n (.off (some f'))
  | bootKilled {n file f f'} : Reach c cut n (.off file) → Opens c file f →
      Exec (drv c) Faults.none cut (NvmFlash.init c) f none f' → Reach c cut n (.off (some f'))
  | add {n ctx f md data rc ctx' f'} : Reach c cut n (.on ctx f) → data.length < 2 ^ 16 →
      Exec (drv c) Faults.none cut (NvmFlash.addObject c ctx md data) f (some (rc, ctx')) f' →
      Reach c cut n (.on ctx' f')
  | addKilled {n ctx f md data f'} : Reach c cut n (.on ctx f) → data.length < 2 ^ 16 →
      Exec (drv c) Faults.none cut (NvmFlash.addObject c ctx md data) f none f' → Reach c cut n (.off (some f'))
  | destroy {n ctx f ids rc ctx' f'} : Reach c cut n (.on ctx f) → n + 1 < 2 ^ 32 →
      Exec (drv c) Faults.none cut (NvmFlash.destroyObjects c ctx ids) f (some (rc, ctx')) f' →
      Reach c cut (n + 1) (.on ctx' f')
  | destroyKilled {n ctx f ids f'} : Reach c cut n (.on ctx f) → n + 1 < 2 ^ 32 →
      Exec (drv c) Faults.none cut (NvmFlash.destroyObjects c ctx ids) f none f' → Reach c cut (n + 1) (.off (some f'))
  | stop {n ctx f} : Reach c cut n (.on ctx f) → Reach c cut n (.off (some f))

end WolfHsm.FlashFile

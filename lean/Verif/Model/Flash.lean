import Verif.Model.Basic

/-!
# A flash device and the programs that drive it

The model of a flash driver (`whFlashCb`, wolfhsm/wh_flash.h) and of a program
issuing driver calls, so that power loss and driver faults can be placed at
every point of the program.

* `Mem` is the byte-addressed flash content.
* `FP α` is a program (a C function) as a tree of driver calls.
* `run` executes it without faults.
* `Exec` relates a program and a flash content to every possible outcome:
  normal return (`some a`) or power loss (`none`) at any point, where a program or
  erase command that was running may have affected any subset of its 8-byte
  units, and, if allowed by `Faults`, driver calls that report errors.

The driver behaviour is that of `src/wh_flash_ramsim.c`; simplifications: write
lock state is not modelled (the NVM layer unlocks at init and ignores the result),
the page size divides the 8-byte unit, and offsets do not wrap (the layers above
only use offsets below the device size, which is proved where it matters).
-/

namespace WolfHsm.Flash

/-- Flash content: a byte per address. -/
abbrev Mem := Nat → UInt8

/-- Device parameters, `whFlashRamsimCtx` in wolfhsm/wh_flash_ramsim.h. -/
structure Dev where
  /-- size in bytes -/
  size : Nat
  /-- value of an erased byte -/
  erased : UInt8

/-- The `n` bytes at address `a`. -/
def rd (m : Mem) (a n : Nat) : List UInt8 := (List.range n).map fun i => m (a + i)

/-- Replace the bytes at `a` by `bs`. -/
def wr (m : Mem) (a : Nat) (bs : List UInt8) : Mem := fun x =>
  if a ≤ x ∧ x < a + bs.length then bs.getD (x - a) 0 else m x

/-- A write cut off by power loss: unit `u` (bytes `8u .. 8u+7`) was updated iff
`sel u`. -/
def torn (m : Mem) (a : Nat) (bs : List UInt8) (sel : Nat → Bool) : Mem := fun x =>
  if sel (x / 8) then wr m a bs x else m x

/-- `isMemoryErased`, src/wh_flash_ramsim.c:38-52. -/
def isBlank (d : Dev) (m : Mem) (a n : Nat) : Bool := (rd m a n).all (· == d.erased)

/-- A program issuing driver calls; the continuation receives the return code
(and the bytes read). -/
inductive FP (α : Type) : Type
  | ret (a : α) : FP α
  /-- `cb->Read` -/
  | read (a n : Nat) (k : Rc → List UInt8 → FP α) : FP α
  /-- `cb->BlankCheck` -/
  | blank (a n : Nat) (k : Rc → FP α) : FP α
  /-- `cb->Program` -/
  | prog (a : Nat) (bs : List UInt8) (k : Rc → FP α) : FP α
  /-- `cb->Verify` -/
  | verify (a : Nat) (bs : List UInt8) (k : Rc → FP α) : FP α
  /-- `cb->Erase` -/
  | erase (a n : Nat) (k : Rc → FP α) : FP α

namespace FP

/-- Sequencing. -/
def bind {α β : Type} : FP α → (α → FP β) → FP β
  | ret a, f => f a
  | read a n k, f => read a n fun rc bs => (k rc bs).bind f
  | blank a n k, f => blank a n fun rc => (k rc).bind f
  | prog a bs k, f => prog a bs fun rc => (k rc).bind f
  | verify a bs k, f => verify a bs fun rc => (k rc).bind f
  | erase a n k, f => erase a n fun rc => (k rc).bind f

instance : Monad FP where
  pure := ret
  bind := bind

end FP

/-- `whFlashRamsim_Read`, src/wh_flash_ramsim.c:131-147. -/
def devRead (d : Dev) (m : Mem) (a n : Nat) : Rc × List UInt8 :=
  if a + n > d.size then (.badargs, []) else (.ok, rd m a n)

/-- `whFlashRamsim_BlankCheck`, src/wh_flash_ramsim.c:196-211. -/
def devBlank (d : Dev) (m : Mem) (a n : Nat) : Rc :=
  if a + n > d.size then .badargs
  else if isBlank d m a n then .ok else .notblank

/-- `whFlashRamsim_Program`, src/wh_flash_ramsim.c:96-129: result code; the
flash changes (to `wr m a bs`) iff it is `ok`. -/
def devProg (d : Dev) (m : Mem) (a : Nat) (bs : List UInt8) : Rc :=
  if a + bs.length > d.size then .badargs
  else if !isBlank d m a bs.length then .notblank
  else .ok

/-- `whFlashRamsim_Verify`, src/wh_flash_ramsim.c:175-193. -/
def devVerify (d : Dev) (m : Mem) (a : Nat) (bs : List UInt8) : Rc :=
  if a + bs.length > d.size then .badargs
  else if rd m a bs.length = bs then .ok else .notverified

/-- `whFlashRamsim_Erase`, src/wh_flash_ramsim.c:149-173: result code; the flash
changes iff it is `ok`.  (Sector alignment: the layers above erase whole
partitions, which are sectors.) -/
def devErase (d : Dev) (a n : Nat) : Rc :=
  if a + n > d.size then .badargs else .ok

/-- The bytes an erase writes. -/
def erasedBytes (d : Dev) (n : Nat) : List UInt8 := List.replicate n d.erased

/-- Fault-free execution. -/
def run {α : Type} (d : Dev) : FP α → Mem → α × Mem
  | .ret a, m => (a, m)
  | .read a n k, m => run d (k (devRead d m a n).1 (devRead d m a n).2) m
  | .blank a n k, m => run d (k (devBlank d m a n)) m
  | .prog a bs k, m =>
    if devProg d m a bs = .ok then run d (k .ok) (wr m a bs) else run d (k (devProg d m a bs)) m
  | .verify a bs k, m => run d (k (devVerify d m a bs)) m
  | .erase a n k, m =>
    if devErase d a n = .ok then run d (k .ok) (wr m a (erasedBytes d n))
    else run d (k (devErase d a n)) m

/-- Which driver calls may report a spurious error. -/
structure Faults where
  /-- `Program`, `Verify` and `Erase` may fail; a failing `Program`/`Erase` may have
  affected any subset of its units. -/
  write : Bool
  /-- `Read` and `BlankCheck` may fail. -/
  read : Bool

/-- No faults (power loss only). -/
def Faults.none : Faults := ⟨false, false⟩

/-- All outcomes of running a program: `some a` = it returned `a`; `none` = power
was lost, leaving the given flash content. -/
inductive Exec {α : Type} (d : Dev) (F : Faults) : FP α → Mem → Option α → Mem → Prop
  | ret (a m) : Exec d F (.ret a) m (some a) m
  | crash (p m) : Exec d F p m none m
  | read {a n k m o m'} :
      Exec d F (k (devRead d m a n).1 (devRead d m a n).2) m o m' →
      Exec d F (.read a n k) m o m'
  | readFault {a n k m o m'} (e : Rc) (bs : List UInt8) : F.read = true → e ≠ .ok →
      Exec d F (k e bs) m o m' → Exec d F (.read a n k) m o m'
  | blank {a n k m o m'} :
      Exec d F (k (devBlank d m a n)) m o m' → Exec d F (.blank a n k) m o m'
  | blankFault {a n k m o m'} (e : Rc) : F.read = true → e ≠ .ok → e ≠ .notblank →
      Exec d F (k e) m o m' → Exec d F (.blank a n k) m o m'
  | progRefused {a bs k m o m'} : devProg d m a bs ≠ .ok →
      Exec d F (k (devProg d m a bs)) m o m' → Exec d F (.prog a bs k) m o m'
  | prog {a bs k m o m'} : devProg d m a bs = .ok →
      Exec d F (k .ok) (wr m a bs) o m' → Exec d F (.prog a bs k) m o m'
  | progTorn {a bs k m} (sel : Nat → Bool) : devProg d m a bs = .ok →
      Exec d F (.prog a bs k) m none (torn m a bs sel)
  | progFault {a bs k m o m'} (e : Rc) (sel : Nat → Bool) : F.write = true → e ≠ .ok →
      devProg d m a bs = .ok → Exec d F (k e) (torn m a bs sel) o m' →
      Exec d F (.prog a bs k) m o m'
  | verify {a bs k m o m'} :
      Exec d F (k (devVerify d m a bs)) m o m' → Exec d F (.verify a bs k) m o m'
  | verifyFault {a bs k m o m'} (e : Rc) : F.write = true → e ≠ .ok →
      Exec d F (k e) m o m' → Exec d F (.verify a bs k) m o m'
  | eraseRefused {a n k m o m'} : devErase d a n ≠ .ok →
      Exec d F (k (devErase d a n)) m o m' → Exec d F (.erase a n k) m o m'
  | erase {a n k m o m'} : devErase d a n = .ok →
      Exec d F (k .ok) (wr m a (erasedBytes d n)) o m' → Exec d F (.erase a n k) m o m'
  | eraseTorn {a n k m} (sel : Nat → Bool) : devErase d a n = .ok →
      Exec d F (.erase a n k) m none (torn m a (erasedBytes d n) sel)
  | eraseFault {a n k m o m'} (e : Rc) (sel : Nat → Bool) : F.write = true → e ≠ .ok →
      devErase d a n = .ok → Exec d F (k e) (torn m a (erasedBytes d n) sel) o m' →
      Exec d F (.erase a n k) m o m'

end WolfHsm.Flash

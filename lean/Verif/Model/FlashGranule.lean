import Verif.Model.Flash

/-!
# Flash devices that write in larger granules

`Flash.Exec` lets a cut or failing command affect any subset of its 8-byte units.  `Exec g` is the
same for devices whose unit of writing and erasing is `g` bytes, as
`WH_NVM_FLASH_LOG_WRITE_GRANULARITY` (wolfhsm/wh_nvm_flash_log.h:29-31) describes.
-/

namespace WolfHsm.FlashG

open Flash

/-- A write cut off by power loss: granule `u` (bytes `g*u .. g*u+g-1`) was updated iff `sel u`. -/
def torn (g : Nat) (m : Mem) (a : Nat) (bs : List UInt8) (sel : Nat → Bool) : Mem := fun x =>
  if sel (x / g) then wr m a bs x else m x

/-- All outcomes of running a program: `some a` = it returned `a`; `none` = power was lost. -/
inductive Exec (g : Nat) {α : Type} (d : Dev) (F : Faults) : FP α → Mem → Option α → Mem → Prop
  | ret (a m) : Exec g d F (.ret a) m (some a) m
  | crash (p m) : Exec g d F p m none m
  | read {a n k m o m'} :
      Exec g d F (k (devRead d m a n).1 (devRead d m a n).2) m o m' →
      Exec g d F (.read a n k) m o m'
  | readFault {a n k m o m'} (e : Rc) (bs : List UInt8) : F.read = true → e ≠ .ok →
      Exec g d F (k e bs) m o m' → Exec g d F (.read a n k) m o m'
  | blank {a n k m o m'} :
      Exec g d F (k (devBlank d m a n)) m o m' → Exec g d F (.blank a n k) m o m'
  | blankFault {a n k m o m'} (e : Rc) : F.read = true → e ≠ .ok → e ≠ .notblank →
      Exec g d F (k e) m o m' → Exec g d F (.blank a n k) m o m'
  | progRefused {a bs k m o m'} : devProg d m a bs ≠ .ok →
      Exec g d F (k (devProg d m a bs)) m o m' → Exec g d F (.prog a bs k) m o m'
  | prog {a bs k m o m'} : devProg d m a bs = .ok →
      Exec g d F (k .ok) (wr m a bs) o m' → Exec g d F (.prog a bs k) m o m'
  | progTorn {a bs k m} (sel : Nat → Bool) : devProg d m a bs = .ok →
      Exec g d F (.prog a bs k) m none (torn g m a bs sel)
  | progFault {a bs k m o m'} (e : Rc) (sel : Nat → Bool) : F.write = true → e ≠ .ok →
      devProg d m a bs = .ok → Exec g d F (k e) (torn g m a bs sel) o m' →
      Exec g d F (.prog a bs k) m o m'
  | verify {a bs k m o m'} :
      Exec g d F (k (devVerify d m a bs)) m o m' → Exec g d F (.verify a bs k) m o m'
  | verifyFault {a bs k m o m'} (e : Rc) : F.write = true → e ≠ .ok →
      Exec g d F (k e) m o m' → Exec g d F (.verify a bs k) m o m'
  | eraseRefused {a n k m o m'} : devErase d a n ≠ .ok →
      Exec g d F (k (devErase d a n)) m o m' → Exec g d F (.erase a n k) m o m'
  | erase {a n k m o m'} : devErase d a n = .ok →
      Exec g d F (k .ok) (wr m a (erasedBytes d n)) o m' → Exec g d F (.erase a n k) m o m'
  | eraseTorn {a n k m} (sel : Nat → Bool) : devErase d a n = .ok →
      Exec g d F (.erase a n k) m none (torn g m a (erasedBytes d n) sel)
  | eraseFault {a n k m o m'} (e : Rc) (sel : Nat → Bool) : F.write = true → e ≠ .ok →
      devErase d a n = .ok → Exec g d F (k e) (torn g m a (erasedBytes d n) sel) o m' →
      Exec g d F (.erase a n k) m o m'

end WolfHsm.FlashG

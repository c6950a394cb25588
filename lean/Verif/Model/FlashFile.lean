import Verif.Model.Flash

/-!
# `port/posix/posix_flash_file.c`: flash memory kept in a file

A file is its bytes.  Every system call may fail: what it does is a parameter.  Offsets and sizes are
32-bit numbers in the code; the checks are made in 64 bits, so that nothing wraps.
-/

namespace WolfHsm.FlashFile

open Flash (FP)

/-- The bytes of the file. -/
abbrev File := List UInt8

/-- `posixFlashFileContext`, port/posix/posix_flash_file.h:37-42. -/
structure Ctx where
  isOpen : Bool
  /-- `partition_size` -/
  psize : Nat
  erased : UInt8
  unlocked : Bool
deriving DecidableEq

/-- `MAX_OFFSET`, port/posix/posix_flash_file.c:47. -/
def Ctx.size (c : Ctx) : Nat := c.psize * 2

/-- What `pwrite` does to a file when it writes all of `bs`; a gap is filled with zeros. -/
def put (f : File) (off : Nat) (bs : List UInt8) : File :=
  (f ++ List.replicate (off - f.length) 0).take off ++ bs ++ f.drop (off + bs.length)

/-- `pfill`, port/posix/posix_flash_file.c:54-65: one byte at a time; `io i`: the `i`-th `pwrite` works. -/
def pfill (io : Nat → Bool) (f : File) (b : UInt8) : (n i off : Nat) → Bool × File
  | 0, _, _ => (true, f)
  | n + 1, i, off => if io i then pfill io (put f off [b]) b n (i + 1) (off + 1) else (false, f)

/-- What the system says during `posixFlashFile_Init`. -/
structure InitIo where
  opens : Bool
  stat : Bool
  fill : Nat → Bool
  trunc : Bool

/-- `posixFlashFile_Init`, port/posix/posix_flash_file.c:68-138; `none`: there is no such
file yet.  When `open` fails the code leaves the context as it was; here it is a closed one.  `off_t` has 64
bits. -/
def init (io : InitIo) (psize : Nat) (erased : UInt8) (file : Option File) : Rc × Ctx × Option File :=
  let closed : Ctx := ⟨false, psize, erased, false⟩
  if !io.opens then (.aborted, closed, file)
  else
    let f := file.getD []
    let c : Ctx := ⟨true, psize, erased, false⟩
    if c.size > 4294967295 then (.badargs, closed, some f)
    else if !io.stat then (.ok, c, some f)
    else if f.length < c.size then
      let r := pfill io.fill f erased (c.size - f.length) 0 f.length
      if r.1 then (.ok, c, some r.2) else (.aborted, closed, some r.2)
    else if f.length > c.size then
      if io.trunc then (.ok, c, some (f.take c.size)) else (.aborted, closed, some f)
    else (.ok, c, some f)

/-- `posixFlashFile_Cleanup`, port/posix/posix_flash_file.c:140-154. -/
def cleanup (c : Ctx) : Ctx := { c with isOpen := false }

/-- `posixFlashFile_WriteLock` and `posixFlashFile_WriteUnlock`, port/posix/posix_flash_file.c:165-189. -/
def setLock (c : Ctx) (unlocked : Bool) : Ctx := { c with unlocked := unlocked }

/-- `posixFlashFile_Read`, port/posix/posix_flash_file.c:190-216; `io`: `pread` gives what is there.
The buffer is not NULL; after an error its content, which no caller looks at, is not modelled. -/
def read (c : Ctx) (f : File) (io : Bool) (off n : Nat) : Rc × List UInt8 :=
  if off + n > c.size then (.badargs, [])
  else if n = 0 then (.ok, [])
  else if c.isOpen && io && decide (((f.drop off).take n).length = n) then (.ok, (f.drop off).take n)
  else (.aborted, [])

/-- What `pwrite` does: all, or `n` bytes only (0: an error). -/
inductive Wr where
  | all | only (n : Nat)

/-- `posixFlashFile_Program`, port/posix/posix_flash_file.c:218-247. -/
def program (c : Ctx) (f : File) (io : Wr) (off : Nat) (bs : List UInt8) : Rc × File :=
  if off + bs.length > c.size then (.badargs, f)
  else if bs.length = 0 then (.ok, f)
  else if !c.unlocked then (.locked, f)
  else if !c.isOpen then (.aborted, f)
  else match io with
    | .all => (.ok, put f off bs)
    | .only n => (if n = bs.length then .ok else .aborted, put f off (bs.take n))

/-- Loop of `posixFlashFile_Verify`, port/posix/posix_flash_file.c:270-289; `io i`: the `i`-th read works. -/
def verifyLoop (c : Ctx) (f : File) (io : Nat → Bool) : (fuel i off : Nat) → List UInt8 → Rc
  | 0, _, _, _ => .ok
  | fuel + 1, i, off, bs =>
    if bs.length = 0 then .ok
    else
      let r := read c f (io i) off (min 64 bs.length)
      if r.1 ≠ .ok then r.1
      else if bs.take 64 ≠ r.2 then .notverified
      else verifyLoop c f io fuel (i + 1) (off + min 64 bs.length) (bs.drop 64)

/-- `posixFlashFile_Verify`, port/posix/posix_flash_file.c:249-290. -/
def verify (c : Ctx) (f : File) (io : Nat → Bool) (off : Nat) (bs : List UInt8) : Rc :=
  if off + bs.length > c.size then .badargs else verifyLoop c f io bs.length 0 off bs

/-- `posixFlashFile_Erase`, port/posix/posix_flash_file.c:292-320; `io i`: the `i`-th `pwrite` works. -/
def erase (c : Ctx) (f : File) (io : Nat → Bool) (off n : Nat) : Rc × File :=
  if off + n > c.size then (.badargs, f)
  else if n = 0 then (.ok, f)
  else if !c.unlocked then (.locked, f)
  else if !c.isOpen then (.aborted, f)
  else
    let r := pfill io f c.erased n 0 off
    (if r.1 then .ok else .aborted, r.2)

/-- Loop of `posixFlashFile_BlankCheck`, port/posix/posix_flash_file.c:344-363. -/
def blankLoop (c : Ctx) (f : File) (io : Nat → Bool) : (fuel i off n : Nat) → Rc
  | 0, _, _, _ => .ok
  | fuel + 1, i, off, n =>
    if n = 0 then .ok
    else
      let r := read c f (io i) off (min 64 n)
      if r.1 ≠ .ok then r.1
      else if r.2 ≠ List.replicate (min 64 n) c.erased then .notblank
      else blankLoop c f io fuel (i + 1) (off + min 64 n) (n - min 64 n)

/-- `posixFlashFile_BlankCheck`, port/posix/posix_flash_file.c:322-365. -/
def blank (c : Ctx) (f : File) (io : Nat → Bool) (off n : Nat) : Rc :=
  if off + n > c.size then .badargs else blankLoop c f io n 0 off n

/-- A program on this driver when no system call fails. -/
def run {α : Type} (c : Ctx) : FP α → File → α × File
  | .ret a, f => (a, f)
  | .read a n k, f => run c (k (read c f true a n).1 (read c f true a n).2) f
  | .blank a n k, f => run c (k (blank c f (fun _ => true) a n)) f
  | .prog a bs k, f => run c (k (program c f .all a bs).1) (program c f .all a bs).2
  | .verify a bs k, f => run c (k (verify c f (fun _ => true) a bs)) f
  | .erase a n k, f => run c (k (erase c f (fun _ => true) a n).1) (erase c f (fun _ => true) a n).2

/-- All outcomes of a program on this driver: `some a`, it returned `a`; `none`, the process was killed,
between two calls or in the middle of one.  `F`: which system calls may fail.  `cut x`: an erase or a write
may end before address `x`. -/
inductive Exec {α : Type} (c : Ctx) (F : Flash.Faults) (cut : Nat → Prop) : FP α → File → Option α → File → Prop
  | ret (a f) : Exec c F cut (.ret a) f (some a) f
  | kill (p f) : Exec c F cut p f none f
  | read {a n k f o f'} (io : Bool) : (io = true ∨ F.read = true) →
      Exec c F cut (k (FlashFile.read c f io a n).1 (FlashFile.read c f io a n).2) f o f' → Exec c F cut (.read a n k) f o f'
  | blank {a n k f o f'} (io : Nat → Bool) : ((∀ i, io i = true) ∨ F.read = true) →
      Exec c F cut (k (FlashFile.blank c f io a n)) f o f' → Exec c F cut (.blank a n k) f o f'
  | verify {a bs k f o f'} (io : Nat → Bool) : ((∀ i, io i = true) ∨ F.write = true) →
      Exec c F cut (k (FlashFile.verify c f io a bs)) f o f' → Exec c F cut (.verify a bs k) f o f'
  | prog {a bs k f o f'} : Exec c F cut (k (program c f .all a bs).1) (program c f .all a bs).2 o f' →
      Exec c F cut (.prog a bs k) f o f'
  | progFails {a bs k f o f'} (n : Nat) : F.write = true → n < bs.length → cut (a + n) →
      Exec c F cut (k (program c f (.only n) a bs).1) (program c f (.only n) a bs).2 o f' → Exec c F cut (.prog a bs k) f o f'
  | progKilled {a bs k f} (n : Nat) : n < bs.length → cut (a + n) →
      Exec c F cut (.prog a bs k) f none (program c f (.only n) a bs).2
  | erase {a n k f o f'} : Exec c F cut (k (FlashFile.erase c f (fun _ => true) a n).1)
        (FlashFile.erase c f (fun _ => true) a n).2 o f' → Exec c F cut (.erase a n k) f o f'
  | eraseFails {a n k f o f'} (j : Nat) : F.write = true → j < n → cut (a + j) →
      Exec c F cut (k (FlashFile.erase c f (fun i => decide (i < j)) a n).1)
        (FlashFile.erase c f (fun i => decide (i < j)) a n).2 o f' → Exec c F cut (.erase a n k) f o f'
  | eraseKilled {a n k f} (j : Nat) : j < n → cut (a + j) →
      Exec c F cut (.erase a n k) f none (FlashFile.erase c f (fun i => decide (i < j)) a n).2

/-- The same program, killed in its `e`-th erase (from 0) after `j` bytes. -/
def runKilled {α : Type} (c : Ctx) (j : Nat) : (e : Nat) → FP α → File → Option File
  | _, .ret _, _ => none
  | e, .read a n k, f => runKilled c j e (k (read c f true a n).1 (read c f true a n).2) f
  | e, .blank a n k, f => runKilled c j e (k (blank c f (fun _ => true) a n)) f
  | e, .prog a bs k, f => runKilled c j e (k (program c f .all a bs).1) (program c f .all a bs).2
  | e, .verify a bs k, f => runKilled c j e (k (verify c f (fun _ => true) a bs)) f
  | 0, .erase a n _, f => if j < n then some (erase c f (fun i => decide (i < j)) a n).2 else none
  | e + 1, .erase a n k, f => runKilled c j e (k (erase c f (fun _ => true) a n).1) (erase c f (fun _ => true) a n).2

end WolfHsm.FlashFile

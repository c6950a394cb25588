import Verif.Proofs.FlashFile
import Verif.Model.NvmReclaim

/-! # Both NVM backends look before they write (C62) -/

namespace WolfHsm.FlashFile

open Flash (FP)

variable {α β : Type}

theorem Guarded.bind {p : FP α} {f : α → FP β} (hp : Guarded p) (hf : ∀ a, Guarded (f a)) :
    Guarded (p.bind f) := by
  induction hp with
  | ret a => exact hf a
  | read _ ih => exact .read ih
  | blank _ ih => exact .blank ih
  | verify _ ih => exact .verify ih
  | erase _ ih => exact .erase ih
  | @prog a bs k k' _ h2 _ ih1 ih3 =>
    exact .prog (k := fun rc => (k rc).bind f) (k' := fun rc => (k' rc).bind f) ih1
      (by show (k .ok).bind f = _; rw [h2]; rfl) ih3

theorem guarded_bind {p : FP α} {f : α → FP β} (hp : Guarded p) (hf : ∀ a, Guarded (f a)) :
    Guarded (p >>= f) := hp.bind hf

theorem guarded_pure (a : α) : Guarded (pure a : FP α) := .ret a

theorem guarded_ite {p : Prop} [Decidable p] {a b : FP α} (ha : Guarded a) (hb : Guarded b) :
    Guarded (if p then a else b) := by split <;> assumption

/-- Splits a program into its calls. -/
macro "guard" : tactic => `(tactic| repeat' first
  | assumption
  | exact guarded_pure _
  | exact Guarded.ret _
  | with_reducible apply guarded_bind
  | with_reducible apply Guarded.bind
  | intro _
  | with_reducible apply guarded_ite
  | with_reducible apply Guarded.read
  | with_reducible apply Guarded.verify
  | with_reducible apply Guarded.erase
  | with_reducible apply Guarded.blank
  | dsimp only
  | split)

open FlashUnit in
section
theorem g_program (off : Nat) (data : List UInt8) : Guarded (FlashUnit.program off data) := by
  unfold FlashUnit.program
  refine .prog (k' := fun rc => if rc ≠ .ok then .ret rc
      else .verify (off * 8) data fun rc => .ret rc) ?_ rfl ?_
  · intro rc h; rw [if_pos h]; exact .ret _
  · guard

theorem g_read (off n : Nat) : Guarded (FlashUnit.read off n) := by unfold FlashUnit.read; guard
theorem g_blankCheck (off n : Nat) : Guarded (blankCheck off n) := by unfold blankCheck; guard
theorem g_erase (off n : Nat) : Guarded (FlashUnit.erase off n) := by unfold FlashUnit.erase; guard
theorem g_andThen {rc : Rc} {p : FP Rc} (h : Guarded p) : Guarded (andThen rc p) := by unfold andThen; guard
theorem g_readHead (off n : Nat) : Guarded (readHead off n) := by
  unfold readHead; have := g_read; guard; apply this
theorem g_readBody (rc : Rc) (off n : Nat) : Guarded (readBody rc off n) := by
  unfold readBody; guard; apply g_read
theorem g_readTail (rc : Rc) (off n : Nat) : Guarded (readTail rc off n) := by
  unfold readTail; guard; apply g_read
theorem g_readBytes (off n : Nat) : Guarded (readBytes off n) := by
  unfold readBytes
  refine guarded_bind (g_readHead ..) fun _ => ?_
  refine guarded_bind (g_readBody ..) fun _ => ?_
  refine guarded_bind (g_readTail ..) fun _ => guarded_pure _
theorem g_programBytes (off : Nat) (data : List UInt8) : Guarded (programBytes off data) := by
  unfold programBytes
  dsimp only
  refine guarded_bind (g_andThen (guarded_ite (g_program ..) (guarded_pure _))) fun _ => ?_
  exact g_andThen (guarded_ite (g_program ..) (guarded_pure _))
end

open NvmFlash FlashUnit in
section
variable (c : NvmFlash.Cfg)

theorem g_stateRead (off : Nat) : Guarded (stateRead c off) := by
  unfold stateRead
  guard
  all_goals first | apply g_blankCheck | apply g_read
theorem g_objectRead (off : Nat) : Guarded (objectRead c off) := by
  unfold objectRead
  guard
  all_goals first | apply g_stateRead | apply g_read
theorem g_partErase (p : Bool) : Guarded (NvmFlash.partErase c p) := g_erase ..
theorem g_readObjects (p : Bool) : ∀ n i, Guarded (readObjects c p n i) := by
  intro n
  induction n with
  | zero => intro i; exact guarded_pure _
  | succ n ih =>
    intro i
    unfold readObjects
    exact guarded_bind (g_objectRead ..) fun _ => guarded_bind (ih _) fun _ => guarded_pure _
theorem g_readParseDir (p : Bool) : Guarded (readParseDir c p) := by
  unfold readParseDir readDir
  exact guarded_bind (guarded_bind (g_readObjects ..) fun _ => guarded_pure _) fun _ => guarded_pure _
theorem g_blankOrErase (p : Bool) : Guarded (blankOrErase c p) := by
  unfold blankOrErase partBlankCheck
  exact guarded_bind (g_blankCheck ..) fun _ => guarded_ite (g_partErase ..) (guarded_pure _)
theorem g_programInit (p : Bool) : Guarded (programInit c p) := by
  unfold programInit programEpoch programStart programCount
  exact guarded_bind (g_blankOrErase ..) fun _ => guarded_bind (g_andThen (g_program ..)) fun _ =>
    guarded_bind (g_andThen (g_program ..)) fun _ => guarded_bind (g_andThen (g_program ..)) fun _ =>
    guarded_pure _
theorem g_objProgramBegin (p : Bool) (i e s : Nat) (md : Meta) (r : Nat) :
    Guarded (objProgramBegin c p i e s md r) := by
  unfold objProgramBegin
  exact guarded_bind (g_program ..) fun _ => guarded_bind (g_andThen (g_program ..)) fun _ =>
    g_andThen (g_program ..)
theorem g_objProgramData (p : Bool) (o : Nat) (data : List UInt8) : Guarded (objProgramData c p o data) := by
  unfold objProgramData
  exact guarded_ite (guarded_pure _) (g_programBytes ..)
theorem g_objProgramFinish (p : Bool) (i n r : Nat) : Guarded (objProgramFinish c p i n r) := g_program ..
theorem g_objProgram (p : Bool) (i e : Nat) (md : Meta) (s : Nat) (data : List UInt8) (r r' : Nat) :
    Guarded (objProgram c p i e md s data r r') := by
  unfold objProgram
  exact guarded_bind (g_objProgramBegin ..) fun _ => guarded_bind (g_andThen (g_objProgramData ..)) fun _ =>
    g_andThen (g_objProgramFinish ..)
theorem g_objReadData (p : Bool) (o : MemObj) (off n : Nat) : Guarded (objReadData c p o off n) := by
  unfold objReadData
  guard
  all_goals apply g_readBytes
theorem g_copyLoop (s d : Bool) (o : MemObj) : ∀ fuel x y acc, Guarded (copyLoop c s d o fuel x y acc) := by
  intro fuel
  induction fuel with
  | zero => intros; exact guarded_pure _
  | succ fuel ih =>
    intro x y acc
    unfold copyLoop
    refine guarded_ite (guarded_bind (g_objReadData ..) fun _ => ?_) (guarded_pure _)
    exact guarded_bind (g_andThen (g_objProgramData ..)) fun _ => guarded_ite (ih ..) (guarded_pure _)
theorem g_objCopy (s d : Bool) (o : MemObj) (i n : Nat) : Guarded (objCopy c s d o i n) := by
  unfold objCopy
  refine guarded_ite (guarded_pure _) (guarded_bind (g_objProgramBegin ..) fun _ => ?_)
  refine guarded_ite (guarded_bind (g_copyLoop ..) fun _ => ?_) (guarded_pure _)
  exact guarded_bind (g_andThen (guarded_ite (guarded_pure _) (g_objProgramFinish ..))) fun _ => guarded_pure _
theorem g_copyObjects (s d : Bool) (ids : List UInt16) : ∀ os i n, Guarded (copyObjects c s d ids os i n) := by
  intro os
  induction os with
  | nil => intros; exact guarded_pure _
  | cons o os ih =>
    intro i n
    unfold copyObjects
    exact guarded_ite (guarded_bind (g_objCopy ..) fun _ => g_andThen (ih ..)) (ih ..)
theorem g_replicate (x : NvmFlash.Ctx) (ids : List UInt16) (s : MemState) : Guarded (replicate c x ids s) := by
  unfold replicate
  exact guarded_bind (g_blankOrErase ..) fun _ => guarded_bind (g_andThen (g_program ..)) fun _ =>
    guarded_bind (g_andThen (g_program ..)) fun _ => guarded_bind (g_andThen (g_copyObjects ..)) fun _ =>
    g_andThen (g_program ..)

theorem nvm_init : Guarded (NvmFlash.init c) := by
  unfold NvmFlash.init partReadState chooseActive
  refine guarded_bind (g_stateRead ..) fun _ => guarded_bind (g_stateRead ..) fun _ => ?_
  refine guarded_bind ?_ fun _ => ?_
  · guard
    apply g_programInit
  · exact guarded_ite (guarded_bind (g_readParseDir ..) fun _ => guarded_pure _) (guarded_pure _)
theorem nvm_add (x : NvmFlash.Ctx) (md : Meta) (data : List UInt8) : Guarded (NvmFlash.addObject c x md data) := by
  unfold NvmFlash.addObject
  guard
  all_goals apply g_objProgram
theorem nvm_destroy (x : NvmFlash.Ctx) (ids : List UInt16) : Guarded (NvmFlash.destroyObjects c x ids) := by
  unfold NvmFlash.destroyObjects
  guard
  all_goals first | apply g_replicate | apply g_readParseDir | apply g_partErase
theorem nvm_read (x : NvmFlash.Ctx) (id : UInt16) (off n : Nat) : Guarded (NvmFlash.readObject c x id off n) := by
  unfold NvmFlash.readObject
  guard
  all_goals apply g_objReadData
end

open FlashLog in
section
variable (c : FlashLog.Cfg)

theorem l_program (a : Nat) (bs : List UInt8) : Guarded (FlashLog.program a bs) := by
  unfold FlashLog.program
  refine .prog (k' := fun rc => if rc ≠ .ok then .ret rc else
    .verify a bs fun rc => if rc ≠ .ok then .ret rc else .ret .ok) ?_ rfl ?_
  · intro rc h; rw [if_pos h]; exact .ret _
  · guard
theorem l_partErase (p : Nat) : Guarded (FlashLog.partErase c p) := by unfold FlashLog.partErase; guard
theorem l_partWrite (s : FlashLog.Ctx) (p : Nat) : Guarded (partWrite c s p) := by
  unfold partWrite; guard; apply l_program
theorem l_partCommit (s : FlashLog.Ctx) (p : Nat) : Guarded (partCommit c s p) := by
  unfold partCommit; guard; apply l_program
theorem l_choose (s : FlashLog.Ctx) : Guarded (choose c s) := by
  unfold choose; guard
  all_goals first | apply l_partErase | apply l_partCommit
theorem l_partRead (s : FlashLog.Ctx) : Guarded (partRead c s) := by unfold partRead; guard
theorem l_newEpoch (s : FlashLog.Ctx) : Guarded (FlashLog.newEpoch c s) := by
  unfold FlashLog.newEpoch; guard
  all_goals first | apply l_partErase | apply l_partCommit | apply l_partWrite
theorem l_newEpochOrFallback (s : FlashLog.Ctx) : Guarded (newEpochOrFallback c s) := by
  unfold newEpochOrFallback; guard
  all_goals first | apply l_partErase | apply l_newEpoch | apply l_partRead

theorem log_init : Guarded (FlashLog.init c) := by
  unfold FlashLog.init; guard
  all_goals first | apply l_partErase | apply l_choose | apply l_partRead
theorem log_add (s : FlashLog.Ctx) (md : NvmFlash.Meta) (data : List UInt8) :
    Guarded (FlashLog.addObject c s md data) := by
  unfold FlashLog.addObject; guard
  all_goals first | apply l_newEpochOrFallback
theorem log_destroy (s : FlashLog.Ctx) (ids : List UInt16) : Guarded (FlashLog.destroyObjects c s ids) := by
  unfold FlashLog.destroyObjects; guard
  all_goals first | apply l_newEpochOrFallback
end

end WolfHsm.FlashFile

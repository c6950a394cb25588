import Verif.Proofs.SheDemo
import Verif.Props.She
import Verif.Props.SheBoot

/-!
# Examples and findings for the SHE properties

Concrete histories of the device of `Proofs/SheDemo` that meet the hypotheses of the theorems, and
histories that show where the code does not do what the English property says (`F_…`).
-/

namespace WolfHsm.Props

open NvmFlash (Meta)
open Keystore (Sys Srv cached view labelCount OnlyAt)
open Server (Req)
open She She.Demo

/-- The device booted without a boot MAC key. -/
def opened : World := run Demo.cfg Demo.ncfg (dev false Demo.fine) openBoot
/-- The device booted with the right boot loader. -/
def bootedDev : World := run Demo.cfg Demo.ncfg (dev true Demo.fine) goodBoot

def k7 : List UInt8 := List.replicate 16 7
def k8 : List UInt8 := List.replicate 16 8
/-- Update of key 5 with counter 4, authorised by the (empty) master ECU key. -/
def up4 : Req := genR 5 1 4 1 k7 (zeros 16)
/-- With the counter the key has. -/
def up3 : Req := genR 5 1 3 0 k7 (zeros 16)
/-- With counter 5. -/
def up5 : Req := genR 5 1 5 0 k8 (zeros 16)
/-- With counter 6 and write protection. -/
def up6wp : Req := wpR 5 1 6 k8 (zeros 16)
/-- Key 5 as an object. -/
def id5 : UInt16 := sheId Demo.cfg 1 5

theorem open_valid : ∀ e ∈ openBoot, Ev.Valid e := by decide +kernel
theorem good_valid : ∀ e ∈ goodBoot, Ev.Valid e := by decide +kernel
theorem opened_reach : She.Reach Demo.cfg Demo.ncfg opened := reach _ _ _ open_valid
theorem opened_honest : Honest opened := (honest false).run openBoot
theorem opened_outs (k : Nat) : opened.sys.nvm.outs k = .ok := by unfold opened; rw [run_outs']; rfl
theorem opened_nvm : Fine opened.sys.nvm := ⟨by decide +kernel, opened_outs⟩
theorem id5_global : Keystore.isGlobal Demo.cfg.ks id5 = true := by decide +kernel

/-! ## C33 -/

-- Before the UID is set a plain key load is refused; so it is after an INIT that found a boot key.
example : Refused Demo.cfg Demo.ncfg (dev true Demo.fine) one calm (req 6 k7) :=
  (C33_gated (booted true Demo.fine) (evs := []) (by simp) rfl one calm (req 6 k7)).2.1 (by decide) (by decide) (by decide)
    (by rintro ⟨a, v, env, r, b, h, _⟩; simp at h)

-- The boot loader is complete: `BootDone` holds, so the commands are let through.
example : BootDone Demo.cfg Demo.ncfg (dev true Demo.fine) goodBoot 0 :=
  ⟨goodBoot.take 4, one, calm, finR, [], rfl, rfl, Or.inl ⟨rfl, answered (by decide +kernel)⟩, by simp⟩
example : UidGiven Demo.cfg Demo.ncfg (dev true Demo.fine) goodBoot 0 :=
  ⟨[], one, calm, setUidR, goodBoot.drop 1, rfl, rfl, rfl, answered (by decide +kernel), by
    intro e he; simp only [goodBoot, ev, List.drop_succ_cons, List.drop_zero, List.mem_cons, List.not_mem_nil, or_false] at he
    rcases he with rfl | rfl | rfl | rfl <;> exact fun h => h⟩
example : Refused Demo.cfg Demo.ncfg bootedDev one calm setUidR :=
  (C33_gated (booted true Demo.fine) good_valid (by decide +kernel) one calm setUidR).1 rfl
    ⟨[], one, calm, setUidR, goodBoot.drop 1, rfl, rfl, rfl, answered (by decide +kernel), by
    intro e he; simp only [goodBoot, ev, List.drop_succ_cons, List.drop_zero, List.mem_cons, List.not_mem_nil, or_false] at he
    rcases he with rfl | rfl | rfl | rfl <;> exact fun h => h⟩
example : Answered Demo.cfg Demo.ncfg bootedDev one calm (req 6 k7) .ok := answered (by decide +kernel)

-- A boot loader with a changed byte does not complete the boot.
example : ¬Answered Demo.cfg Demo.ncfg (run Demo.cfg Demo.ncfg (dev true Demo.fine)
    [ev setUidR, ev initR, ev (updR [1, 2, 3]), ev (updR [4, 6])]) one calm finR .ok := by
  intro h
  have h1 : answeredB (run Demo.cfg Demo.ncfg (dev true Demo.fine)
    [ev setUidR, ev initR, ev (updR [1, 2, 3]), ev (updR [4, 6])]) one calm finR .ok = true := by
    obtain ⟨p, e, h2, h3⟩ := h
    unfold answeredB; rw [e]; simp [h2, h3]
  revert h1; decide +kernel

/-! ## C35, C36 -/

theorem up4_ok : Answered Demo.cfg Demo.ncfg opened one calm up4 .ok := answered (by decide +kernel)

-- Two accepted updates: the counters increase.
example : updateCount Demo.cfg (authKey Demo.cfg one opened.sys up4) up4 = 4 ∧
    updateCount Demo.cfg (authKey Demo.cfg one opened.sys up4) up4 <
      updateCount Demo.cfg (authKey Demo.cfg one (step Demo.cfg Demo.ncfg opened (ev up4)).2.sys up5) up5 :=
  ⟨by decide +kernel,
    C35_increasing Demo.good sized opened_reach opened_honest (v := one) (env := calm) (r := up4) (by decide +kernel) rfl
      (by decide +kernel) (Keystore.onlyAt_global (by decide +kernel)) up4_ok (evs := []) (by simp) (by simp) rfl
      (v' := one) (env' := calm) (r' := up5) (by decide +kernel) rfl (by decide +kernel) (answered (by decide +kernel))⟩

-- A replayed update is not accepted, also after a power cycle and the boot.
example : ¬Answered Demo.cfg Demo.ncfg
    (run Demo.cfg Demo.ncfg (step Demo.cfg Demo.ncfg opened (ev up4)).2 (.other (.restart true) :: openBoot)) one calm up4 .ok := by
  intro h
  refine (C35_no_replay Demo.good sized opened_reach opened_honest (v := one) (env := calm) (r := up4) (by decide +kernel) rfl
    (by decide +kernel) (Keystore.onlyAt_global (by decide +kernel)) up4_ok (evs := .other (.restart true) :: openBoot)
    (by decide +kernel) ?_ rfl (by decide +kernel) rfl rfl rfl rfl rfl h).1 (by decide +kernel)
  intro e he
  simp only [openBoot, ev, List.mem_cons, List.not_mem_nil, or_false] at he
  rcases he with rfl | rfl | rfl <;> first | exact trivial | exact fun h => h

-- An update that changes the stored object, and one that is rejected.
example : (step Demo.cfg Demo.ncfg opened (ev up4)).2.sys.nvm.store id5 ≠ opened.sys.nvm.store id5 := by
  intro h
  have := congrArg (Option.map fun p => labelCount p.1.label) h
  revert this; decide +kernel
example : (step Demo.cfg Demo.ncfg opened (.she one calm up3)).2.sys.nvm.store id5 = opened.sys.nvm.store id5 := by
  refine C35_rejected_unchanged Demo.good sized opened_reach opened_outs (v := one) (env := calm) (r := up3)
    (by decide +kernel) (by decide +kernel) (fun _ => rfl) ?_ id5
  intro h
  have h1 : answeredB opened one calm up3 .ok = true := by
    obtain ⟨p, e, h2, h3⟩ := h
    unfold answeredB; rw [e]; simp [h2, h3]
  revert h1; decide +kernel

-- A write-protected key after an accepted load: later updates are refused.
example : ¬Answered Demo.cfg Demo.ncfg (step Demo.cfg Demo.ncfg opened (ev up6wp)).2 one calm (genR 5 1 9 0 k7 (zeros 16)) .ok :=
  (C36_from_load Demo.good sized opened_reach opened_honest (v := one) (env := calm) (r := up6wp) (by decide +kernel) rfl
    (by decide +kernel) (by decide +kernel) (Keystore.onlyAt_global (by decide +kernel)) (answered (by decide +kernel))
    (by decide +kernel) (evs := []) (by simp) (by simp) rfl).2 one calm (genR 5 1 9 0 k7 (zeros 16)) (by decide +kernel) rfl
    (by decide +kernel)

/-! ## C34 -/

example := C34_partial Demo.good sized (booted true Demo.fine) (evs := goodBoot.take 4)
  (fun e he => good_valid e (List.mem_of_mem_take he)) (v := one) (env := calm) (r := finR) rfl
  (answered (by decide +kernel))

example : slotKey Demo.cfg one (dev true Demo.fine).sys 2 = some bootKey ∧
    chunks Demo.cfg 0 (goodBoot.take 4) = image := by decide +kernel

-- Without a boot key the boot is complete at once.
example := C34_no_key_partial Demo.good sized (w := run Demo.cfg Demo.ncfg (dev false Demo.fine) [ev setUidR])
  (reach _ _ _ (by decide +kernel)) ⟨by decide +kernel, fun k => by rw [run_outs']; rfl⟩ (v := one) (env := calm) (r := initR) rfl
  (answered (by decide +kernel))

/-- The first read of the NVM fails with an I/O error. -/
def badRead : Nat → Out := fun k => if k = 0 then .fail .notready false else .ok

/-- **F.**  Secure boot fails open: a boot MAC key is stored, but one failing NVM read makes
`SECURE_BOOT_INIT` answer `NO_SECURE_BOOT`; boot then counts as complete, no boot loader having been
checked, and keys can be loaded. -/
theorem F_she_boot_fail_open :
    slotKey Demo.cfg one (run Demo.cfg Demo.ncfg (dev true badRead) [ev setUidR]).sys 2 = some bootKey ∧
    Answered Demo.cfg Demo.ncfg (run Demo.cfg Demo.ncfg (dev true badRead) [ev setUidR]) one calm initR .sheNoSecureBoot ∧
    BootDone Demo.cfg Demo.ncfg (dev true badRead) openBoot 0 ∧
    Answered Demo.cfg Demo.ncfg (run Demo.cfg Demo.ncfg (dev true badRead) openBoot) one calm (req 6 k7) .ok := by
  have h1 : Answered Demo.cfg Demo.ncfg (run Demo.cfg Demo.ncfg (dev true badRead) [ev setUidR]) one calm initR
      .sheNoSecureBoot := answered (by decide +kernel)
  exact ⟨by decide +kernel, h1, ⟨[ev setUidR], one, calm, initR, [], rfl, rfl, Or.inr ⟨rfl, h1⟩, by simp⟩,
    answered (by decide +kernel)⟩

/-! ## C37 -/

/-- The messages for key 5, counter 4, write protection requested. -/
def made : Update := (generate cr 5 1 4 1 uid k7 (zeros 16)).getD ⟨[], [], [], [], []⟩

theorem cr_inv (k b : List UInt8) (h : b.length = 16) : cr.dec k (cr.enc k b) = b := by
  have hf : ∀ l : List UInt8, l.length = 16 → fit l = l := by
    intro l hl; unfold fit; exact List.take_left' hl
  have hm : ∀ l : List UInt8, (l.map (· + 1)).map (· - 1) = l := by
    intro l; simp [List.map_map, Function.comp_def]
  show xorBytes ((fit ((xorBytes (fit b) (fit k)).map (· + 1))).map (· - 1)) (fit k) = b
  rw [hf b h, hf _ (by rw [List.length_map, xorBytes_length, h, fit_length]; rfl), hm, xor_xor (by rw [h, fit_length])]

theorem gen_loaded :
    (step Demo.cfg Demo.ncfg opened (.she one calm up4)).1 =
      .she .ok (Wire.w32 Demo.cfg.le up4.magic 0 ++ made.m4 ++ made.m5) ∧
    ∃ md, (step Demo.cfg Demo.ncfg opened (.she one calm up4)).2.sys.nvm.store = opened.sys.nvm.store.set md k7 ∧
      md.id = sheId Demo.cfg one.client (5 : UInt8).toUInt16 ∧ md.len = 16 ∧ labelCount md.label = (4 : UInt32).toNat ∧
      labelFlags md.label = (1 : UInt32).toNat * 16 ∧ isWp md = false :=
  C37_partial Demo.good sized cr_inv opened_reach opened_nvm (v := one) (env := calm) (r := up4) rfl (fun _ => rfl)
    (by decide +kernel) (by decide +kernel) (k := 5) (a := 1) (count := 4) (flags := 1) (key := k7) (ak := zeros 16)
    (u := made) (by decide +kernel) (by decide +kernel) (by decide +kernel) (by decide +kernel) (by decide +kernel) (by decide +kernel)
    (by decide +kernel) (by decide +kernel) (by decide +kernel) (by decide +kernel) (by decide +kernel)
    (Or.inr (by decide +kernel)) (Keystore.coherent_global id5_global (by decide +kernel))
    (Or.inr ⟨md 5 3 0, key5, by decide +kernel, by decide +kernel, by decide +kernel, by decide +kernel⟩)

/-- **F.**  The generator's flags are not the ones the loader stores: a key generated with
`WRITE_PROTECT` (flag 1) is stored with the flag 16, `WILDCARD`, and a later update replaces it. -/
theorem F_she_flags : ∃ md, (step Demo.cfg Demo.ncfg opened (ev up4)).2.sys.nvm.store id5 = some (md, k7) ∧
    labelFlags md.label = 16 ∧ isWp md = false ∧ isWild md = true ∧
    Answered Demo.cfg Demo.ncfg (step Demo.cfg Demo.ncfg opened (ev up4)).2 one calm up5 .ok := by
  refine ⟨{ md 5 3 0 with label := setLabel (Vector.replicate 24 0) 4 16 }, ?_, by decide +kernel, by decide +kernel,
    by decide +kernel, answered (by decide +kernel)⟩
  decide +kernel

/-! ## C38 -/

/-- A `LOAD_KEY` for the RAM key, authorised by the secret key. -/
def loadRam : Req := genR 14 0 1 0 k7 secretKey

example := C38_partial Demo.good sized (booted false Demo.fine) (evs := openBoot ++ [ev (req 6 k7)]) (by decide +kernel)
  (v := one) (env := calm) (r := req 7 []) rfl (answered (by decide +kernel))

/-- **F.**  A RAM key that was never loaded in plaintext can be exported. -/
theorem F_she_export_loaded :
    (∀ e ∈ openBoot ++ [ev loadRam], ∀ v env r, e = .she v env r → r.action ≠ 6) ∧
    Answered Demo.cfg Demo.ncfg (run Demo.cfg Demo.ncfg (dev false Demo.fine) (openBoot ++ [ev loadRam])) one calm (req 7 []) .ok := by
  refine ⟨?_, answered (by decide +kernel)⟩
  intro e he v env r h
  simp only [openBoot, ev, List.cons_append, List.nil_append, List.mem_cons, List.not_mem_nil, or_false] at he
  rcases he with rfl | rfl | rfl <;> cases h <;> decide +kernel

/-- The second wolfCrypt call of the request fails. -/
def fault1 : Env := ⟨.ok, fun k => k == 1, fun _ => 0xEE⟩

/-- **F.**  If the encryption in `EXPORT_RAM_KEY` fails, the error response carries the RAM key in
the clear. -/
theorem F_she_export_fault_leaks : ∃ p,
    (step Demo.cfg Demo.ncfg (run Demo.cfg Demo.ncfg (dev false Demo.fine) (openBoot ++ [ev (req 6 k7)]))
      (.she one fault1 (req 7 []))).1 = .she .ok p ∧ (p.drop 36).take 16 = k7 ∧
    Wire.rd32 true Utils.magicNative p 0 ≠ 0 := by
  have h : (match (step Demo.cfg Demo.ncfg (run Demo.cfg Demo.ncfg (dev false Demo.fine) (openBoot ++ [ev (req 6 k7)]))
      (.she one fault1 (req 7 []))).1 with
    | .she .ok p => (p.drop 36).take 16 == k7 && Wire.rd32 true Utils.magicNative p 0 != 0
    | _ => false) = true := by decide +kernel
  split at h
  · rename_i p e
    simp only [Bool.and_eq_true, beq_iff_eq, bne_iff_ne] at h
    exact ⟨p, e, h.1, h.2⟩
  · cases h

/-- **F.**  A refused `EXPORT_RAM_KEY` or `LOAD_KEY` answers with uninitialised memory of the
server: on every device whose context has no UID, whatever that memory holds is sent. -/
theorem F_she_refusal_leaks (cfg : She.Cfg) (ncfg : NvmServer.Cfg) (w : World) (hp : w.sys.nvm.powered = true)
    (v : Srv) (hu : (w.she v.ctx).uidSet = false) (env : Env) (r : Req) (ha : r.action = 7) :
    (step cfg ncfg w (.she v env r)).1 =
      .she .ok (Wire.w32 cfg.le r.magic Rc.sheSequenceError.code ++ env.bytes 0 112) := by
  have hr : refused (w.she v.ctx) r.action = true := by simp [refused, ha, hu]
  have hh : handle cfg v env (w.she v.ctx) w.sys r =
      ((.ok, Wire.w32 cfg.le r.magic Rc.sheSequenceError.code ++ env.bytes 0 112), w.she v.ctx, w.sys) := by
    unfold handle
    rw [if_pos hr]
    have : refusal env r.action = some (env.bytes 0 112, 116) := by simp [refusal, ha]
    rw [this]
    dsimp only
    unfold Wire.over
    have : (Wire.w32 cfg.le r.magic Rc.sheSequenceError.code ++ env.bytes 0 112).length = 116 := by
      simp [Wire.w32_length, Env.bytes]
    rw [this]; simp
  rw [step_obs hp (by rw [hh]; exact hp), hh]

/-- The entropy of an `EXTEND_SEED`. -/
def entropy : List UInt8 := List.replicate 16 0x33

/-- **F.**  `EXTEND_SEED` extends a stale seed: `INIT_RND` stores a new seed but leaves the old one
in the cache, and `EXTEND_SEED` then stores the compression of the OLD seed with the entropy, so
the step of `INIT_RND` is lost. -/
theorem F_she_seed_stale :
    ((run Demo.cfg Demo.ncfg opened [ev (req 8 [])]).sys.nvm.store (sheId Demo.cfg 1 15)).map (·.2) ≠
      some (List.replicate 16 0xF0) ∧
    ((run Demo.cfg Demo.ncfg opened [ev (req 8 []), ev (req 10 entropy)]).sys.nvm.store (sheId Demo.cfg 1 15)).map (·.2) =
      some (mp16 cr (List.replicate 16 0xF0 ++ entropy)) := by
  constructor <;> decide +kernel

end WolfHsm.Props

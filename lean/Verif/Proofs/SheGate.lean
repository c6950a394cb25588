import Verif.Spec.She
import Verif.Proofs.Wire

/-! # The gate of the SHE commands: which commands are let through, and what they answer -/

namespace WolfHsm.She

open Keystore (Sys Srv)
open Server (Req)
open Wire

variable {cfg : Cfg} {ncfg : NvmServer.Cfg}

theorem paired_self (le : Bool) (m : UInt16) : Paired le le m m := by simp [Paired]

theorem over_code (le : Bool) (m : UInt16) (c : UInt32) (body buf : List UInt8) (n : Nat) :
    rd32 le m (over (w32 le m c ++ body) buf n) 0 = c ∧ 4 ≤ (over (w32 le m c ++ body) buf n).length := by
  constructor
  · unfold over
    rw [List.append_assoc]
    exact rd32_at (pre := []) (paired_self le m) c rfl
  · unfold over
    simp only [List.length_append, w32_length]
    omega

theorem packet_code (cfg : Cfg) (r : Req) (x : Res) :
    rd32 cfg.le r.magic (x.packet cfg r) 0 = (translate x.ret).code ∧ 4 ≤ (x.packet cfg r).length :=
  over_code ..

theorem translate_ok {rc : Rc} : (translate rc).code = Rc.ok.code ↔ rc = .ok := by
  cases rc <;> first | decide | simp [translate, Rc.code]

theorem translate_noBoot {rc : Rc} : (translate rc).code = Rc.sheNoSecureBoot.code ↔ rc = .sheNoSecureBoot := by
  cases rc <;> first | decide | simp [translate, Rc.code]

theorem run_cons (w : World) (e : Ev) (evs : List Ev) :
    run cfg ncfg w (e :: evs) = run cfg ncfg (step cfg ncfg w e).2 evs := rfl

theorem run_append (w : World) (a b : List Ev) :
    run cfg ncfg w (a ++ b) = run cfg ncfg (run cfg ncfg w a) b := by
  unfold run; exact List.foldl_append ..

theorem run_snoc (w : World) (a : List Ev) (e : Ev) :
    run cfg ncfg w (a ++ [e]) = (step cfg ncfg (run cfg ncfg w a) e).2 := by
  rw [run_append]; rfl

/-- Induction over histories, last event first. -/
theorem snoc_induction {α : Type} {P : List α → Prop} (h0 : P []) (h1 : ∀ a e, P a → P (a ++ [e]))
    (l : List α) : P l := by
  rw [← List.reverse_reverse l]
  induction l.reverse with
  | nil => exact h0
  | cons e a ih => rw [List.reverse_cons]; exact h1 _ _ ih

/-- A request in a powered device. -/
theorem step_she {w : World} (hp : w.sys.nvm.powered = true) (v : Srv) (env : Env) (r : Req) :
    (step cfg ncfg w (.she v env r)).2 =
      w.set v.ctx (handle cfg v env (w.she v.ctx) w.sys r).2.1 (handle cfg v env (w.she v.ctx) w.sys r).2.2 := by
  simp only [step, hp, if_true]

theorem step_obs {w : World} (hp : w.sys.nvm.powered = true) {v : Srv} {env : Env} {r : Req}
    (h : (handle cfg v env (w.she v.ctx) w.sys r).2.2.nvm.powered = true) :
    (step cfg ncfg w (.she v env r)).1 = .she (handle cfg v env (w.she v.ctx) w.sys r).1.1
      (handle cfg v env (w.she v.ctx) w.sys r).1.2 := by
  simp only [step, hp, if_true, h]

theorem set_ctx (w : World) (x : Nat) (t : St) (s : Sys) : (w.set x t s).she x = t := by
  simp [World.set]
theorem set_other (w : World) {x y : Nat} (h : y ≠ x) (t : St) (s : Sys) : (w.set x t s).she y = w.she y := by
  simp [World.set, h]
theorem set_sys (w : World) (x : Nat) (t : St) (s : Sys) : (w.set x t s).sys = s := rfl
theorem set_same (w : World) (x : Nat) : w.set x (w.she x) w.sys = w := by
  unfold World.set
  congr 1
  funext y
  split <;> simp_all

/-- An answered request: the device was and is powered, and the answer is the handler's. -/
theorem Answered.inv {w : World} {v : Srv} {env : Env} {r : Req} {rc : Rc}
    (h : Answered cfg ncfg w v env r rc) :
    w.sys.nvm.powered = true ∧ (handle cfg v env (w.she v.ctx) w.sys r).2.2.nvm.powered = true ∧
    (handle cfg v env (w.she v.ctx) w.sys r).1.1 = .ok ∧
    4 ≤ (handle cfg v env (w.she v.ctx) w.sys r).1.2.length ∧
    rd32 cfg.le r.magic (handle cfg v env (w.she v.ctx) w.sys r).1.2 0 = rc.code := by
  obtain ⟨p, h1, h2, h3⟩ := h
  cases hp : w.sys.nvm.powered with
  | false => simp [step, hp] at h1
  | true =>
    cases hq : (handle cfg v env (w.she v.ctx) w.sys r).2.2.nvm.powered with
    | false => simp [step, hp, hq] at h1
    | true =>
      rw [step_obs hp hq] at h1
      simp only [Obs.she.injEq] at h1
      exact ⟨rfl, rfl, h1.1, h1.2 ▸ h2, h1.2 ▸ h3⟩

/-- An answer without error: the command was let through and returned without error. -/
theorem Answered.ok {w : World} {v : Srv} {env : Env} {r : Req} (h : Answered cfg ncfg w v env r .ok) :
    w.sys.nvm.powered = true ∧ refused (w.she v.ctx) r.action = false ∧
    ∃ x, command cfg v env (w.she v.ctx) w.sys r = .inr x ∧ x.ret = .ok ∧ x.sys.nvm.powered = true ∧
      (step cfg ncfg w (.she v env r)).2 = w.set v.ctx x.st x.sys ∧
      (step cfg ncfg w (.she v env r)).1 = .she .ok (x.packet cfg r) := by
  obtain ⟨hp, hq, h1, h2, h3⟩ := h.inv
  have hs := step_she (cfg := cfg) (ncfg := ncfg) hp v env r
  have ho := step_obs (cfg := cfg) (ncfg := ncfg) hp hq
  refine ⟨hp, ?_⟩
  unfold handle at hq h1 h2 h3 hs ho
  split at h3
  · exfalso
    split at h3
    · rw [(over_code ..).1] at h3; exact absurd h3 (by decide)
    · rename_i hr _; simp_all
  · rename_i hr
    simp only [hr, Bool.false_eq_true, if_false] at hq h1 h2 h3 hs ho
    refine ⟨by simpa using hr, ?_⟩
    split at h3
    · rename_i hc; simp [hc] at h2
    · rename_i x hc
      rw [(packet_code ..).1] at h3
      have hret := translate_ok.1 h3
      simp only [hc] at hq hs ho
      refine ⟨x, hc, hret, hq, ?_, ho⟩
      rw [hs]; unfold resetBoot; simp [hret]

/-! ## What the commands do to the SHE state -/

/-- The part of the SHE state the gate looks at. -/
theorem command_gate {v : Srv} {env : Env} {t : St} {s : Sys} {r : Req} {x : Res}
    (h : command cfg v env t s r = .inr x) (h0 : r.action ≠ 0) (h1 : r.action ≠ 1) (h2 : r.action ≠ 2)
    (h3 : r.action ≠ 3) : x.st.uidSet = t.uidSet ∧ x.st.sb = t.sb := by
  unfold command at h
  extract_lets locked at h
  have hlk : ∀ {y z : Res}, locked y = .inr z → y = z := by
    intro y z e
    simp only [locked] at e
    split at e
    · cases e; rfl
    · cases e
  clear_value locked
  rw [if_neg h0, if_neg h1, if_neg h2, if_neg h3] at h
  by_cases h4 : r.action = 4
  · rw [if_pos h4] at h
    cases h; unfold getStatus; split <;> exact ⟨rfl, rfl⟩
  rw [if_neg h4] at h
  by_cases h5 : r.action = 5
  · rw [if_pos h5] at h
    cases hlk h
    unfold loadKey; dsimp only
    split
    · exact ⟨rfl, rfl⟩
    split
    · exact ⟨rfl, rfl⟩
    split
    · exact ⟨rfl, rfl⟩
    split
    · split
      · dsimp only; split <;> exact ⟨rfl, rfl⟩
      · exact ⟨rfl, rfl⟩
    · exact ⟨rfl, rfl⟩
  rw [if_neg h5] at h
  by_cases h6 : r.action = 6
  · rw [if_pos h6] at h
    cases hlk h
    unfold loadPlain; dsimp only
    split
    · exact ⟨rfl, rfl⟩
    · split <;> exact ⟨rfl, rfl⟩
  rw [if_neg h6] at h
  by_cases h7 : r.action = 7
  · rw [if_pos h7] at h
    cases hlk h
    unfold exportRam; dsimp only
    split
    · exact ⟨rfl, rfl⟩
    split
    · exact ⟨rfl, rfl⟩
    split
    · split
      · exact ⟨rfl, rfl⟩
      split
      · repeat (split; · exact ⟨rfl, rfl⟩)
        exact ⟨rfl, rfl⟩
      · exact ⟨rfl, rfl⟩
    · exact ⟨rfl, rfl⟩
  rw [if_neg h7] at h
  by_cases h8 : r.action = 8
  · rw [if_pos h8] at h
    cases hlk h
    unfold initRnd; dsimp only
    split
    · exact ⟨rfl, rfl⟩
    split
    · exact ⟨rfl, rfl⟩
    split
    · split
      · exact ⟨rfl, rfl⟩
      split
      · split
        · exact ⟨rfl, rfl⟩
        split
        · split <;> exact ⟨rfl, rfl⟩
        · exact ⟨rfl, rfl⟩
      · exact ⟨rfl, rfl⟩
    · exact ⟨rfl, rfl⟩
  rw [if_neg h8] at h
  by_cases h9 : r.action = 9
  · rw [if_pos h9] at h
    cases h
    unfold rnd; dsimp only
    repeat (split; · exact ⟨rfl, rfl⟩)
    exact ⟨rfl, rfl⟩
  rw [if_neg h9] at h
  by_cases h10 : r.action = 10
  · rw [if_pos h10] at h
    cases hlk h
    unfold extendSeed; dsimp only
    split
    · exact ⟨rfl, rfl⟩
    split
    · exact ⟨rfl, rfl⟩
    split
    · exact ⟨rfl, rfl⟩
    split
    · split
      · exact ⟨rfl, rfl⟩
      split <;> exact ⟨rfl, rfl⟩
    · exact ⟨rfl, rfl⟩
  rw [if_neg h10] at h
  have hciph : ∀ m, (cipher cfg v env t s r m).st = t := by
    intro m
    unfold cipher; dsimp only
    split
    · rfl
    split
    · rfl
    split
    · rfl
    split
    · split
      · rfl
      split <;> rfl
    · rfl
  by_cases h11 : r.action = 11
  · rw [if_pos h11] at h
    cases hlk h
    rw [hciph]; exact ⟨rfl, rfl⟩
  rw [if_neg h11] at h
  by_cases h12 : r.action = 12
  · rw [if_pos h12] at h
    cases hlk h
    rw [hciph]; exact ⟨rfl, rfl⟩
  rw [if_neg h12] at h
  by_cases h13 : r.action = 13
  · rw [if_pos h13] at h
    cases hlk h
    rw [hciph]; exact ⟨rfl, rfl⟩
  rw [if_neg h13] at h
  by_cases h14 : r.action = 14
  · rw [if_pos h14] at h
    cases hlk h
    rw [hciph]; exact ⟨rfl, rfl⟩
  rw [if_neg h14] at h
  by_cases h15 : r.action = 15
  · rw [if_pos h15] at h
    cases hlk h
    unfold genMac; dsimp only
    split
    · exact ⟨rfl, rfl⟩
    split
    · exact ⟨rfl, rfl⟩
    split
    · split
      · exact ⟨rfl, rfl⟩
      split <;> exact ⟨rfl, rfl⟩
    · exact ⟨rfl, rfl⟩
  rw [if_neg h15] at h
  by_cases h16 : r.action = 16
  · rw [if_pos h16] at h
    cases hlk h
    unfold verifyMac; dsimp only
    split
    · exact ⟨rfl, rfl⟩
    split
    · exact ⟨rfl, rfl⟩
    split
    · split
      · exact ⟨rfl, rfl⟩
      split <;> exact ⟨rfl, rfl⟩
    · exact ⟨rfl, rfl⟩
  · rw [if_neg h16] at h; cases h

theorem sbInit_cases {v : Srv} {env : Env} {t : St} {s : Sys} {r : Req} {P : Res → Prop}
    (herr : ∀ x : Res, x.ret ≠ .ok → x.ret ≠ .sheNoSecureBoot → x.st.uidSet = t.uidSet → P x)
    (hno : ∀ x : Res, t.sb = .init → x.ret = .sheNoSecureBoot →
      x.st = { t with blSize := rd32 cfg.le r.magic r.buf 0, sb := .success, keyFound := false } → P x)
    (hok : ∀ (x : Res) md key, t.sb = .init → x.ret = .ok →
      readSlot cfg v s 2 = ((.ok, some (md, key)), x.sys) → key.length = 16 →
      x.st = { t with blSize := rd32 cfg.le r.magic r.buf 0, keyFound := true, sb := .update, cmacKey := key,
                      cmacData := zeros 12 ++ Utils.bytes32 cfg.le (rd32 cfg.le r.magic r.buf 0) } → P x) :
    P (sbInit cfg v env t s r) := by
  unfold sbInit; dsimp only
  split
  · exact herr _ (by simp) (by simp) rfl
  split
  · exact herr _ (by simp) (by simp) rfl
  rename_i hsb
  have hsb' : t.sb = .init := by simpa using hsb
  split
  · split
    · exact hno _ hsb' rfl rfl
    · rename_i hr hl
      split
      · exact herr _ (by simp [cryptoErr]) (by simp [cryptoErr]) rfl
      · exact hok _ _ _ hsb' rfl hr (by simpa using hl) rfl
  · exact hno _ hsb' rfl rfl

theorem sbUpdate_cases {env : Env} {t : St} {s : Sys} {r : Req} {P : Res → Prop}
    (herr : ∀ x : Res, x.ret ≠ .ok → x.ret ≠ .sheNoSecureBoot → x.st.uidSet = t.uidSet → P x)
    (hok : ∀ x : Res, t.sb = .update → x.ret = .ok → x.sys = s →
      x.st = { t with blRecv := t.blRecv + rd32 cfg.le r.magic r.buf 0,
                      cmacData := t.cmacData ++ rdBytes r.buf 8 (rd32 cfg.le r.magic r.buf 0).toNat,
                      sb := if t.blRecv + rd32 cfg.le r.magic r.buf 0 = t.blSize then .finish else .update } →
      8 + (rd32 cfg.le r.magic r.buf 0).toNat ≤ r.size →
      t.blRecv + rd32 cfg.le r.magic r.buf 0 ≤ t.blSize → P x) :
    P (sbUpdate cfg env t s r) := by
  unfold sbUpdate; dsimp only
  split
  · exact herr _ (by simp) (by simp) rfl
  split
  · exact herr _ (by simp) (by simp) rfl
  rename_i hsb
  have hsb' : t.sb = .update := by simpa using hsb
  split
  · exact herr _ (by simp) (by simp) rfl
  rename_i hsz
  split
  · exact herr _ (by simp) (by simp) rfl
  rename_i hle
  split
  · exact herr _ (by simp [cryptoErr]) (by simp [cryptoErr]) rfl
  have hle' : t.blRecv + rd32 cfg.le r.magic r.buf 0 ≤ t.blSize := by
    rw [UInt32.le_iff_toNat_le]; rw [gt_iff_lt, UInt32.lt_iff_toNat_lt] at hle; omega
  have hsz' : 8 + (rd32 cfg.le r.magic r.buf 0).toNat ≤ r.size := by
    rcases Nat.lt_or_ge r.size (8 + (rd32 cfg.le r.magic r.buf 0).toNat) with h | h
    · exact absurd (Or.inr h) hsz
    · exact h
  split
  · rename_i he; exact hok _ hsb' rfl rfl (by simp [he]) hsz' hle'
  · rename_i he
    refine hok _ hsb' rfl rfl ?_ hsz' hle'
    simp only [he, if_false, ← hsb']

theorem sbFinish_cases {v : Srv} {env : Env} {t : St} {s : Sys} {r : Req} {P : Res → Prop}
    (herr : ∀ x : Res, x.ret ≠ .ok → x.ret ≠ .sheNoSecureBoot → x.st.uidSet = t.uidSet → P x)
    (hok : ∀ (x : Res) md mac, t.sb = .finish → x.ret = .ok → x.st = { t with sb := .success } →
      readSlot cfg v s 3 = ((.ok, some (md, mac)), x.sys) →
      cfg.cr.cmac t.cmacKey t.cmacData = put (env.bytes 0 16) 0 mac → P x) :
    P (sbFinish cfg v env t s r) := by
  unfold sbFinish; dsimp only
  split
  · exact herr _ (by simp) (by simp) rfl
  split
  · exact herr _ (by simp) (by simp) rfl
  rename_i hsb
  split
  · exact herr _ (by simp [cryptoErr]) (by simp [cryptoErr]) rfl
  split
  · rename_i hr
    split
    · rename_i hm; exact hok _ _ _ (by simpa using hsb) rfl rfl hr hm
    · exact herr _ (by simp) (by simp) rfl
  · exact herr _ (by simp) (by simp) rfl

/-- Outcomes of a boot command. -/
def BootOut (t : St) (r : Req) (x : Res) : Prop :=
  x.st.uidSet = t.uidSet ∧
  ((x.ret ≠ .ok ∧ x.ret ≠ .sheNoSecureBoot) ∨ (r.action = 1 ∧ x.ret = .sheNoSecureBoot) ∨
    (x.ret = .ok ∧ x.st.sb ≠ .success) ∨ (x.ret = .ok ∧ r.action = 3))

/-- How one SHE request changes what the gate looks at. -/
theorem handle_gate {v : Srv} {env : Env} {t : St} {s : Sys} {r : Req}
    (hl : env.lock ≠ .sheNoSecureBoot) {p} (hp : handle cfg v env t s r = p) :
    (p.2.1.uidSet = t.uidSet ∨
      r.action = 0 ∧ p.2.1.uidSet = true ∧ p.1.1 = .ok ∧ 4 ≤ p.1.2.length ∧
        rd32 cfg.le r.magic p.1.2 0 = Rc.ok.code) ∧
    ((r.action = 1 ∨ r.action = 2 ∨ r.action = 3) → refused t r.action = false → p.2.1.sb = .success →
      (r.action = 3 ∨ r.action = 1) ∧ p.1.1 = .ok ∧ 4 ≤ p.1.2.length ∧
      (r.action = 3 → rd32 cfg.le r.magic p.1.2 0 = Rc.ok.code) ∧
      (r.action = 1 → rd32 cfg.le r.magic p.1.2 0 = Rc.sheNoSecureBoot.code)) ∧
    (¬(r.action = 1 ∨ r.action = 2 ∨ r.action = 3) ∨ refused t r.action = true →
      p.2.1.sb = t.sb) := by
  subst hp
  unfold handle
  split
  · rename_i hr
    split <;> exact ⟨Or.inl rfl, fun _ h => by rw [hr] at h; exact absurd h (by simp), fun _ => rfl⟩
  · rename_i hr
    have hr' : refused t r.action = false := by simpa using hr
    by_cases h0 : r.action = 0
    · have hc : command cfg v env t s r = .inr (setUid cfg t s r) := by simp [command, h0]
      simp only [hc]
      have hu : (setUid cfg t s r).st.sb = t.sb ∧ ((setUid cfg t s r).st.uidSet = t.uidSet ∨
          (setUid cfg t s r).st.uidSet = true ∧ (setUid cfg t s r).ret = .ok) := by
        unfold setUid
        split
        · exact ⟨rfl, Or.inl rfl⟩
        · split
          · exact ⟨rfl, Or.inl rfl⟩
          · exact ⟨rfl, Or.inr ⟨rfl, rfl⟩⟩
      have hnb : ¬(r.action = 1 ∨ r.action = 2 ∨ r.action = 3) := by rw [h0]; decide
      have hrb : ∀ rc q, resetBoot r.action rc q = q := by
        intro rc q; simp [resetBoot, hnb]
      rw [hrb]
      refine ⟨?_, fun h => absurd h hnb, fun _ => hu.1⟩
      rcases hu.2 with h | ⟨h, h'⟩
      · exact Or.inl h
      · refine Or.inr ⟨h0, h, trivial, (packet_code ..).2, ?_⟩
        rw [(packet_code ..).1, h']; rfl
    · by_cases hb : r.action = 1 ∨ r.action = 2 ∨ r.action = 3
      · have key : ∀ x : Res, x.st.uidSet = t.uidSet →
            ((resetBoot r.action x.ret x.st).uidSet = t.uidSet) := by
          intro x h; unfold resetBoot; split <;> exact h
        have kerr : ∀ x : Res, x.ret ≠ .ok → x.ret ≠ .sheNoSecureBoot →
            (resetBoot r.action x.ret x.st).sb = .init := by
          intro x h1 h2; unfold resetBoot; rw [if_pos ⟨hb, h1, h2⟩]
        have klock : env.lock ≠ .ok → (resetBoot r.action env.lock t).sb = .init ∧
            (resetBoot r.action env.lock t).uidSet = t.uidSet := by
          intro h; unfold resetBoot; rw [if_pos ⟨hb, h, hl⟩]; exact ⟨rfl, rfl⟩
        have last : ∀ (q : St), (¬(r.action = 1 ∨ r.action = 2 ∨ r.action = 3) ∨ refused t r.action = true) →
            q.sb = t.sb := by
          intro q h; rcases h with h | h
          · exact absurd hb h
          · rw [hr'] at h; cases h
        have fin : ∀ x : Res, BootOut t r x →
            ((resetBoot r.action x.ret x.st).uidSet = t.uidSet) ∧
            ((resetBoot r.action x.ret x.st).sb = .success → (r.action = 3 ∨ r.action = 1) ∧
              (r.action = 3 → rd32 cfg.le r.magic (x.packet cfg r) 0 = Rc.ok.code) ∧
              (r.action = 1 → rd32 cfg.le r.magic (x.packet cfg r) 0 = Rc.sheNoSecureBoot.code)) := by
          intro x hx
          refine ⟨key _ hx.1, fun h => ?_⟩
          rw [(packet_code ..).1]
          rcases hx.2 with ⟨e1, e2⟩ | ⟨e1, e2⟩ | ⟨e1, e2⟩ | ⟨e1, e2⟩
          · rw [kerr _ e1 e2] at h; cases h
          · rw [e1, e2]; decide
          · simp [resetBoot, e1] at h; exact absurd h e2
          · rw [e1, e2]; decide
        have fin2 : ∀ x : Res, BootOut t r x → command cfg v env t s r = .inr x → _ :=
          fun x hx hc => (⟨Or.inl (fin x hx).1, fun _ _ h => ⟨((fin x hx).2 h).1, rfl, (packet_code ..).2,
            ((fin x hx).2 h).2⟩, last _⟩ :
            ((resetBoot r.action x.ret x.st).uidSet = t.uidSet ∨
              r.action = 0 ∧ (resetBoot r.action x.ret x.st).uidSet = true ∧ Rc.ok = .ok ∧
                4 ≤ (x.packet cfg r).length ∧ rd32 cfg.le r.magic (x.packet cfg r) 0 = Rc.ok.code) ∧
            ((r.action = 1 ∨ r.action = 2 ∨ r.action = 3) → refused t r.action = false →
              (resetBoot r.action x.ret x.st).sb = .success →
              (r.action = 3 ∨ r.action = 1) ∧ Rc.ok = .ok ∧ 4 ≤ (x.packet cfg r).length ∧
              (r.action = 3 → rd32 cfg.le r.magic (x.packet cfg r) 0 = Rc.ok.code) ∧
              (r.action = 1 → rd32 cfg.le r.magic (x.packet cfg r) 0 = Rc.sheNoSecureBoot.code)) ∧
            (¬(r.action = 1 ∨ r.action = 2 ∨ r.action = 3) ∨ refused t r.action = true →
              (resetBoot r.action x.ret x.st).sb = t.sb))
        split
        · rename_i rc hc
          have : rc = env.lock ∧ env.lock ≠ .ok := by
            rcases hb with h1 | h2 | h3
            · by_cases hlk : env.lock = .ok
              · simp [command, h1, hlk] at hc
              · simp [command, h1, hlk] at hc; exact ⟨hc.symm, hlk⟩
            · simp [command, h2] at hc
            · by_cases hlk : env.lock = .ok
              · simp [command, h3, hlk] at hc
              · simp [command, h3, hlk] at hc; exact ⟨hc.symm, hlk⟩
          obtain ⟨rfl, hlk⟩ := this
          refine ⟨Or.inl (klock hlk).2, fun _ _ h => ?_, last _⟩
          rw [(klock hlk).1] at h; cases h
        · rename_i x hc
          refine fin2 x ?_ hc
          rcases hb with h1 | h2 | h3
          · by_cases hlk : env.lock = .ok
            · simp [command, h1, hlk] at hc
              subst hc
              refine sbInit_cases (P := BootOut t r) ?_ ?_ ?_
              · exact fun x e1 e2 e3 => ⟨e3, Or.inl ⟨e1, e2⟩⟩
              · exact fun x e0 e1 e2 => ⟨by rw [e2], Or.inr (Or.inl ⟨h1, e1⟩)⟩
              · exact fun x md k e0 e1 _ _ e2 => ⟨by rw [e2], Or.inr (Or.inr (Or.inl ⟨e1, by rw [e2]; simp⟩))⟩
            · simp [command, h1, hlk] at hc
          · simp [command, h2] at hc
            subst hc
            refine sbUpdate_cases (P := BootOut t r) ?_ ?_
            · exact fun x e1 e2 e3 => ⟨e3, Or.inl ⟨e1, e2⟩⟩
            · intro x e0 e1 _ e2 _ _
              refine ⟨by rw [e2], Or.inr (Or.inr (Or.inl ⟨e1, ?_⟩))⟩
              rw [e2]; dsimp only; split <;> simp
          · by_cases hlk : env.lock = .ok
            · simp [command, h3, hlk] at hc
              subst hc
              refine sbFinish_cases (P := BootOut t r) ?_ ?_
              · exact fun x e1 e2 e3 => ⟨e3, Or.inl ⟨e1, e2⟩⟩
              · exact fun x md mac e0 e1 e2 _ _ => ⟨by rw [e2], Or.inr (Or.inr (Or.inr ⟨e1, h3⟩))⟩
            · simp [command, h3, hlk] at hc
      · have hrb : ∀ rc q, resetBoot r.action rc q = q := by
          intro rc q; simp [resetBoot, hb]
        have hb1 : r.action ≠ 1 := fun h => hb (Or.inl h)
        have hb2 : r.action ≠ 2 := fun h => hb (Or.inr (Or.inl h))
        have hb3 : r.action ≠ 3 := fun h => hb (Or.inr (Or.inr h))
        split
        · rw [hrb]; exact ⟨Or.inl rfl, fun h => absurd h hb, fun _ => rfl⟩
        · rename_i x hc
          have := command_gate hc h0 hb1 hb2 hb3
          dsimp only
          rw [hrb]; exact ⟨Or.inl this.1, fun h => absurd h hb, fun _ => this.2⟩

end WolfHsm.She

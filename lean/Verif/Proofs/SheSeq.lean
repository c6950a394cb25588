import Verif.Proofs.SheAccept

/-! # The boot sequence and the RAM key flag follow the history -/

namespace WolfHsm.She

open NvmFlash (Meta)
open Keystore hiding Req Ev Cfg step run Reach run_cons
open Server (Req)
open Wire

variable {cfg : Cfg} {ncfg : NvmServer.Cfg}

/-- Case distinction on the command. -/
theorem command_elim {v : Srv} {env : Env} {t : St} {s : Sys} {r : Req} {x : Res} {P : Res → Prop}
    (h : command cfg v env t s r = .inr x)
    (h0 : r.action = 0 → P (setUid cfg t s r))
    (h1 : r.action = 1 → P (sbInit cfg v env t s r))
    (h2 : r.action = 2 → P (sbUpdate cfg env t s r))
    (h3 : r.action = 3 → P (sbFinish cfg v env t s r))
    (h4 : r.action = 4 → P (getStatus t s r))
    (h5 : r.action = 5 → P (loadKey cfg v env t s r))
    (h6 : r.action = 6 → P (loadPlain cfg v t s r))
    (h7 : r.action = 7 → P (exportRam cfg v env t s r))
    (h8 : r.action = 8 → P (initRnd cfg v env t s r))
    (h9 : r.action = 9 → P (rnd cfg env t s r))
    (h10 : r.action = 10 → P (extendSeed cfg v env t s r))
    (hc : ∀ m, (m = .encEcb ∧ r.action = 11 ∨ m = .encCbc ∧ r.action = 12 ∨ m = .decEcb ∧ r.action = 13 ∨
      m = .decCbc ∧ r.action = 14) → P (cipher cfg v env t s r m))
    (h15 : r.action = 15 → P (genMac cfg v env t s r))
    (h16 : r.action = 16 → P (verifyMac cfg v env t s r)) : P x := by
  unfold command at h
  extract_lets locked at h
  have hlk : ∀ {y z : Res}, locked y = .inr z → y = z := by
    intro y z e
    simp only [locked] at e
    split at e
    · cases e; rfl
    · cases e
  clear_value locked
  by_cases a0 : r.action = 0
  · rw [if_pos a0] at h; cases h; exact h0 a0
  rw [if_neg a0] at h
  by_cases a1 : r.action = 1
  · rw [if_pos a1] at h; cases hlk h; exact h1 a1
  rw [if_neg a1] at h
  by_cases a2 : r.action = 2
  · rw [if_pos a2] at h; cases h; exact h2 a2
  rw [if_neg a2] at h
  by_cases a3 : r.action = 3
  · rw [if_pos a3] at h; cases hlk h; exact h3 a3
  rw [if_neg a3] at h
  by_cases a4 : r.action = 4
  · rw [if_pos a4] at h; cases h; exact h4 a4
  rw [if_neg a4] at h
  by_cases a5 : r.action = 5
  · rw [if_pos a5] at h; cases hlk h; exact h5 a5
  rw [if_neg a5] at h
  by_cases a6 : r.action = 6
  · rw [if_pos a6] at h; cases hlk h; exact h6 a6
  rw [if_neg a6] at h
  by_cases a7 : r.action = 7
  · rw [if_pos a7] at h; cases hlk h; exact h7 a7
  rw [if_neg a7] at h
  by_cases a8 : r.action = 8
  · rw [if_pos a8] at h; cases hlk h; exact h8 a8
  rw [if_neg a8] at h
  by_cases a9 : r.action = 9
  · rw [if_pos a9] at h; cases h; exact h9 a9
  rw [if_neg a9] at h
  by_cases a10 : r.action = 10
  · rw [if_pos a10] at h; cases hlk h; exact h10 a10
  rw [if_neg a10] at h
  by_cases a11 : r.action = 11
  · rw [if_pos a11] at h; cases hlk h; exact hc _ (Or.inl ⟨rfl, a11⟩)
  rw [if_neg a11] at h
  by_cases a12 : r.action = 12
  · rw [if_pos a12] at h; cases hlk h; exact hc _ (Or.inr (Or.inl ⟨rfl, a12⟩))
  rw [if_neg a12] at h
  by_cases a13 : r.action = 13
  · rw [if_pos a13] at h; cases hlk h; exact hc _ (Or.inr (Or.inr (Or.inl ⟨rfl, a13⟩)))
  rw [if_neg a13] at h
  by_cases a14 : r.action = 14
  · rw [if_pos a14] at h; cases hlk h; exact hc _ (Or.inr (Or.inr (Or.inr ⟨rfl, a14⟩)))
  rw [if_neg a14] at h
  by_cases a15 : r.action = 15
  · rw [if_pos a15] at h; cases hlk h; exact h15 a15
  rw [if_neg a15] at h
  by_cases a16 : r.action = 16
  · rw [if_pos a16] at h; cases hlk h; exact h16 a16
  rw [if_neg a16] at h
  cases h

/-- The part of the SHE state that belongs to the boot sequence. -/
def bootPart (t : St) : Sb × UInt32 × UInt32 × List UInt8 × List UInt8 :=
  (t.sb, t.blSize, t.blRecv, t.cmacKey, t.cmacData)

theorem exportRam_st {v : Srv} {env : Env} {t : St} {s : Sys} {r : Req} : (exportRam cfg v env t s r).st = t := by
  unfold exportRam; dsimp only
  repeat' split
  all_goals rfl

theorem cipher_st {v : Srv} {env : Env} {t : St} {s : Sys} {r : Req} {m : Mode} : (cipher cfg v env t s r m).st = t := by
  unfold cipher; dsimp only
  repeat' split
  all_goals rfl

theorem genMac_st {v : Srv} {env : Env} {t : St} {s : Sys} {r : Req} : (genMac cfg v env t s r).st = t := by
  unfold genMac; dsimp only
  repeat' split
  all_goals rfl

theorem verifyMac_st {v : Srv} {env : Env} {t : St} {s : Sys} {r : Req} : (verifyMac cfg v env t s r).st = t := by
  unfold verifyMac; dsimp only
  repeat' split
  all_goals rfl

theorem initRnd_st {v : Srv} {env : Env} {t : St} {s : Sys} {r : Req} :
    bootPart (initRnd cfg v env t s r).st = bootPart t ∧ (initRnd cfg v env t s r).st.ramPlain = t.ramPlain := by
  unfold initRnd; dsimp only
  repeat' split
  all_goals exact ⟨rfl, rfl⟩

theorem rnd_st {env : Env} {t : St} {s : Sys} {r : Req} :
    bootPart (rnd cfg env t s r).st = bootPart t ∧ (rnd cfg env t s r).st.ramPlain = t.ramPlain := by
  unfold rnd; dsimp only
  repeat' split
  all_goals exact ⟨rfl, rfl⟩

theorem extendSeed_st {v : Srv} {env : Env} {t : St} {s : Sys} {r : Req} :
    bootPart (extendSeed cfg v env t s r).st = bootPart t ∧ (extendSeed cfg v env t s r).st.ramPlain = t.ramPlain := by
  unfold extendSeed; dsimp only
  repeat' split
  all_goals exact ⟨rfl, rfl⟩

theorem setUid_st {t : St} {s : Sys} {r : Req} :
    bootPart (setUid cfg t s r).st = bootPart t ∧ (setUid cfg t s r).st.ramPlain = t.ramPlain := by
  unfold setUid
  repeat' split
  all_goals exact ⟨rfl, rfl⟩

theorem getStatus_st {t : St} {s : Sys} {r : Req} : (getStatus t s r).st = t := by
  unfold getStatus
  repeat' split
  all_goals rfl

theorem loadPlain_st {v : Srv} {t : St} {s : Sys} {r : Req} :
    bootPart (loadPlain cfg v t s r).st = bootPart t ∧
    ((loadPlain cfg v t s r).ret ≠ .ok → (loadPlain cfg v t s r).st = t) := by
  unfold loadPlain; dsimp only
  split
  · exact ⟨rfl, fun _ => rfl⟩
  split
  · exact ⟨rfl, fun h => absurd rfl h⟩
  · exact ⟨rfl, fun _ => rfl⟩

theorem loadKey_boot {v : Srv} {env : Env} {t : St} {s : Sys} {r : Req} :
    bootPart (loadKey cfg v env t s r).st = bootPart t := by
  unfold loadKey; dsimp only
  repeat' split
  all_goals rfl

theorem loadKey_st {v : Srv} {env : Env} {t : St} {s : Sys} {r : Req} (hw : WF s) (hs : cfg.cr.Sized)
    (hb : r.size ≤ r.buf.length) :
    ¬((loadKey cfg v env t s r).ret = .ok ∧ popId (m1 r) = 14) → (loadKey cfg v env t s r).st = t := by
  refine loadKey_cases (P := fun x => ¬(x.ret = .ok ∧ popId (m1 r) = 14) → x.st = t) hw hs hb ?_ ?_ ?_ ?_
  · intro x _ h _ _; exact h
  · intro x _ _ _ _ _ _ _ h1 _ _ h2 h; exact h2 fun he => h ⟨he, h1⟩
  · intro x _ _ _ _ _ _ _ _ _ h _ _ _; exact h
  · intro x _ _ _ _ _ _ _ _ _ _ _ h _ _ _ _ _ _ _ _ _; exact h

/-- Commands other than the boot commands leave the boot sequence alone. -/
theorem command_boot {v : Srv} {env : Env} {t : St} {s : Sys} {r : Req} {x : Res}
    (h : command cfg v env t s r = .inr x) (h1 : r.action ≠ 1) (h2 : r.action ≠ 2) (h3 : r.action ≠ 3) :
    bootPart x.st = bootPart t := by
  refine command_elim (P := fun x => bootPart x.st = bootPart t) h (fun _ => setUid_st.1) (fun h => absurd h h1)
    (fun h => absurd h h2) (fun h => absurd h h3) (fun _ => by rw [getStatus_st]) (fun _ => loadKey_boot)
    (fun _ => loadPlain_st.1) (fun _ => by rw [exportRam_st]) (fun _ => initRnd_st.1) (fun _ => rnd_st.1)
    (fun _ => extendSeed_st.1) (fun m _ => by rw [cipher_st]) (fun _ => by rw [genMac_st]) (fun _ => by rw [verifyMac_st])

theorem sbInit_ram {v : Srv} {env : Env} {t : St} {s : Sys} {r : Req} :
    (sbInit cfg v env t s r).st.ramPlain = t.ramPlain := by
  unfold sbInit; dsimp only
  repeat' split
  all_goals rfl

theorem sbUpdate_ram {env : Env} {t : St} {s : Sys} {r : Req} :
    (sbUpdate cfg env t s r).st.ramPlain = t.ramPlain := by
  unfold sbUpdate; dsimp only
  repeat' split
  all_goals rfl

theorem sbFinish_ram {v : Srv} {env : Env} {t : St} {s : Sys} {r : Req} :
    (sbFinish cfg v env t s r).st.ramPlain = t.ramPlain := by
  unfold sbFinish; dsimp only
  repeat' split
  all_goals rfl

/-- A key load that lets the RAM key be exported. -/
def RamLoad (r : Req) : Prop := r.action = 6 ∨ r.action = 5 ∧ popId (m1 r) = 14

theorem command_ram {v : Srv} {env : Env} {t : St} {s : Sys} {r : Req} {x : Res} (hw : WF s) (hs : cfg.cr.Sized)
    (hb : r.size ≤ r.buf.length) (h : command cfg v env t s r = .inr x) :
    x.st.ramPlain = t.ramPlain ∨ x.ret = .ok ∧ RamLoad r := by
  refine command_elim (P := fun x => x.st.ramPlain = t.ramPlain ∨ x.ret = .ok ∧ RamLoad r) h
    (fun _ => Or.inl setUid_st.2) (fun _ => Or.inl sbInit_ram)
    (fun _ => Or.inl sbUpdate_ram) (fun _ => Or.inl sbFinish_ram) (fun _ => Or.inl (by rw [getStatus_st])) ?_
    ?_ (fun _ => Or.inl (by rw [exportRam_st])) (fun _ => Or.inl initRnd_st.2) (fun _ => Or.inl rnd_st.2)
    (fun _ => Or.inl extendSeed_st.2) (fun m _ => Or.inl (by rw [cipher_st])) (fun _ => Or.inl (by rw [genMac_st]))
    (fun _ => Or.inl (by rw [verifyMac_st]))
  · intro h5
    by_cases hr : (loadKey cfg v env t s r).ret = .ok ∧ popId (m1 r) = 14
    · exact Or.inr ⟨hr.1, Or.inr ⟨h5, hr.2⟩⟩
    · exact Or.inl (by rw [loadKey_st hw hs hb hr])
  · intro h6
    by_cases hr : (loadPlain cfg v t s r).ret = .ok
    · exact Or.inr ⟨hr, Or.inl h6⟩
    · exact Or.inl (by rw [loadPlain_st.2 hr])

theorem resetBoot_ram (a : UInt16) (rc : Rc) (t : St) : (resetBoot a rc t).ramPlain = t.ramPlain := by
  unfold resetBoot; split <;> rfl

theorem resetBoot_other {a : UInt16} (rc : Rc) (t : St) (h : ¬(a = 1 ∨ a = 2 ∨ a = 3)) : resetBoot a rc t = t := by
  unfold resetBoot; rw [if_neg fun hh => h hh.1]

/-- An accepted load of the RAM key. -/
def RamEv (cfg : Cfg) (ncfg : NvmServer.Cfg) (w : World) (x : Nat) (a : List Ev) (f : Ev) : Prop :=
  ∃ v env r, f = .she v env r ∧ v.ctx = x ∧ RamLoad r ∧ Answered cfg ncfg (run cfg ncfg w a) v env r .ok

theorem ram_history (hg : GoodCfg cfg.ks) (hs : cfg.cr.Sized) {w : World} (hw : Booted w) (x : Nat) (evs : List Ev)
    (hv : ∀ e ∈ evs, Ev.Valid e) (hp : (run cfg ncfg w evs).sys.nvm.powered = true)
    (hr : ((run cfg ncfg w evs).she x).ramPlain = true) :
    ∃ a f b, evs = a ++ f :: b ∧ RamEv cfg ncfg w x a f ∧ ∀ e ∈ b, ¬e.isRestart := by
  induction evs using snoc_induction with
  | h0 =>
    have : (run cfg ncfg w []).she x = St.boot := hw.1 x
    rw [this] at hr; cases hr
  | h1 evs e ih =>
    rw [since_snoc]
    rw [run_snoc] at hp hr
    have hvo : ∀ e ∈ evs, Ev.Valid e := fun e he => hv e (by simp [he])
    have hve : e.Valid := hv e (by simp)
    by_cases hres : e.isRestart
    · rw [restart_she hres] at hr; cases hr
    have hp0 := powered_before hp hres
    by_cases hx : ∀ v env r, e = .she v env r → v.ctx ≠ x
    · rw [step_she_other hres hx] at hr
      exact Or.inr ⟨hres, ih hvo hp0 hr⟩
    have ⟨v, env, r, he, hvx⟩ : ∃ v env r, e = .she v env r ∧ v.ctx = x := by
      simpa only [ne_eq, Classical.not_forall, Classical.not_not, exists_prop] using hx
    clear hx
    subst he; subst hvx
    have hst := step_she (cfg := cfg) (ncfg := ncfg) hp0 v env r
    rw [hst, set_sys] at hp
    have ho := step_obs (cfg := cfg) (ncfg := ncfg) hp0 hp
    rw [hst, set_ctx] at hr
    have hwf : WF (run cfg ncfg w evs).sys := run_wf' hg hs (booted_wf cfg ncfg hw) hvo
    have main : ((run cfg ncfg w evs).she v.ctx).ramPlain = true ∨
        (∃ q, handle cfg v env ((run cfg ncfg w evs).she v.ctx) (run cfg ncfg w evs).sys r =
          ((.ok, Res.packet cfg r q), resetBoot r.action q.ret q.st, q.sys) ∧ q.ret = .ok ∧ RamLoad r) := by
      revert hr
      unfold handle
      split
      · split
        · exact fun h => Or.inl h
        · exact fun h => Or.inl h
      · split
        · rw [resetBoot_ram]; exact fun h => Or.inl h
        · rename_i q hc
          rw [resetBoot_ram]
          intro h
          rcases command_ram hwf hs hve.2.2 hc with e | ⟨e1, e2⟩
          · exact Or.inl (e ▸ h)
          · exact Or.inr ⟨q, rfl, e1, e2⟩
    rcases main with h | ⟨q, hq, h1, h2⟩
    · exact Or.inr ⟨hres, ih hvo hp0 h⟩
    · left
      refine ⟨v, env, r, rfl, rfl, h2, q.packet cfg r, ?_, ?_, ?_⟩
      · rw [ho, hq]
      · exact (packet_code cfg r q).2
      · rw [(packet_code cfg r q).1, h1]; rfl

end WolfHsm.She

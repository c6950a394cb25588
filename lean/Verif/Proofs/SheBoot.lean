import Verif.Proofs.SheSeq

/-! # The boot MAC covers what was sent since `SECURE_BOOT_INIT` -/

namespace WolfHsm.She

open NvmFlash (Meta)
open Keystore hiding Req Ev Cfg step run Reach run_cons
open Server (Req)
open Wire

variable {cfg : Cfg} {ncfg : NvmServer.Cfg}

/-- A boot in progress. -/
structure Booting (cfg : Cfg) (ncfg : NvmServer.Cfg) (w : World) (x : Nat) (evs : List Ev) (t : St)
    (a : List Ev) (v : Srv) (env : Env) (r : Req) (b : List Ev) (md : Meta) (key : List UInt8) (s1 : Sys) : Prop where
  hist : evs = a ++ .she v env r :: b
  ctx : v.ctx = x
  act : r.action = 1
  ans : Answered cfg ncfg (run cfg ncfg w a) v env r .ok
  nores : ∀ e ∈ b, ¬e.isRestart
  upd : OnlyUpdates cfg ncfg w x (a ++ [.she v env r]) b
  read : readSlot cfg v (run cfg ncfg w a).sys 2 = ((.ok, some (md, key)), s1)
  klen : key.length = 16
  hkey : t.cmacKey = key
  data : t.cmacData = zeros 12 ++ Utils.bytes32 cfg.le (announced cfg r) ++ chunks cfg x b
  size : t.blSize = announced cfg r
  recv : t.blRecv.toNat = (chunks cfg x b).length % 2 ^ 32
  small : (announced cfg r).toNat + cfg.ks.commLen < 2 ^ 32 → (chunks cfg x b).length ≤ (announced cfg r).toNat
  fin : t.sb = .finish → t.blRecv = t.blSize

/-- The invariant. -/
structure BootInv (cfg : Cfg) (ncfg : NvmServer.Cfg) (w : World) (x : Nat) (evs : List Ev) (t : St) : Prop where
  uid : t.sb ≠ .init → t.uidSet = true
  start : t.sb = .init → t.blRecv = 0
  going : t.sb = .update ∨ t.sb = .finish → ∃ a v env r b md key s1, Booting cfg ncfg w x evs t a v env r b md key s1

theorem sbUpdate_len {env : Env} {t : St} {s : Sys} {r : Req} (h : (sbUpdate cfg env t s r).ret = .ok) :
    (rd32 cfg.le r.magic r.buf 0).toNat ≤ cfg.ks.commLen := by
  unfold sbUpdate at h; dsimp only at h
  by_cases hc : (rd32 cfg.le r.magic r.buf 0).toNat ≤ cfg.ks.commLen
  · exact hc
  · exfalso
    have : (rd32 cfg.le r.magic r.buf 0).toNat > cfg.ks.commLen ∨ r.size < 8 + (rd32 cfg.le r.magic r.buf 0).toNat :=
      Or.inl (by omega)
    rw [if_pos this] at h
    repeat' split at h
    all_goals cases h

theorem onlyUpdates_snoc {w : World} {x : Nat} {pre b : List Ev} {e : Ev} (h : OnlyUpdates cfg ncfg w x pre b)
    (he : ∀ v env r, e = .she v env r → v.ctx = x → (r.action = 1 ∨ r.action = 2 ∨ r.action = 3) →
      r.action = 2 ∧ Answered cfg ncfg (run cfg ncfg w (pre ++ b)) v env r .ok) :
    OnlyUpdates cfg ncfg w x pre (b ++ [e]) := by
  intro c v env r d hb
  rcases List.eq_nil_or_concat d with rfl | ⟨d', g, rfl⟩
  · obtain ⟨rfl, h2⟩ := List.append_inj' hb rfl
    cases h2
    exact he v env r rfl
  · rw [List.concat_eq_append] at hb
    have e1 : c ++ .she v env r :: (d' ++ [g]) = (c ++ .she v env r :: d') ++ [g] := by simp
    rw [e1] at hb
    obtain ⟨rfl, h2⟩ := List.append_inj' hb rfl
    exact h c v env r d' rfl

theorem chunks_snoc (x : Nat) (b : List Ev) (e : Ev) : chunks cfg x (b ++ [e]) = chunks cfg x b ++ chunks cfg x [e] := by
  simp [chunks]

/-- A boot in progress goes on when nothing of it changes. -/
theorem Booting.keep {w : World} {x : Nat} {evs : List Ev} {t t' : St} {a : List Ev} {v : Srv} {env : Env} {r : Req}
    {b : List Ev} {md : Meta} {key : List UInt8} {s1 : Sys}
    (h : Booting cfg ncfg w x evs t a v env r b md key s1) {e : Ev} (hres : ¬e.isRestart) (hb : ¬e.isBoot x)
    (ht : bootPart t' = bootPart t) :
    Booting cfg ncfg w x (evs ++ [e]) t' a v env r (b ++ [e]) md key s1 := by
  have hc : chunks cfg x (b ++ [e]) = chunks cfg x b := by
    rw [chunks_snoc]
    suffices chunks cfg x [e] = [] by rw [this, List.append_nil]
    unfold chunks
    simp only [List.flatMap_cons, List.flatMap_nil, List.append_nil]
    cases e with
    | other => rfl
    | she v env r =>
      show (if _ then _ else _) = _
      rw [if_neg]
      intro hh
      exact hb ⟨hh.1, Or.inr (Or.inl hh.2)⟩
  simp only [bootPart, Prod.mk.injEq] at ht
  obtain ⟨e1, e2, e3, e4, e5⟩ := ht
  refine ⟨by rw [h.hist]; simp, h.ctx, h.act, h.ans, ?_, onlyUpdates_snoc h.upd ?_, h.read, h.klen, by rw [e4, h.hkey],
    by rw [e5, h.data, hc], by rw [e2, h.size], by rw [e3, h.recv, hc], by rw [hc]; exact h.small, ?_⟩
  · intro g hg
    rcases List.mem_append.1 hg with hg | hg
    · exact h.nores g hg
    · simp only [List.mem_singleton] at hg; subst hg; exact hres
  · rintro v' env' r' rfl hx ha; exact absurd ⟨hx, ha⟩ hb
  · rw [e1, e2, e3]; exact h.fin

theorem BootInv.keep {w : World} {x : Nat} {evs : List Ev} {t t' : St} (h : BootInv cfg ncfg w x evs t) {e : Ev}
    (hres : ¬e.isRestart) (hb : ¬e.isBoot x) (ht : bootPart t' = bootPart t) (hu : t.uidSet = true → t'.uidSet = true) :
    BootInv cfg ncfg w x (evs ++ [e]) t' := by
  have e1 : t'.sb = t.sb := congrArg (·.1) ht
  have e2 : t'.blRecv = t.blRecv := congrArg (·.2.2.1) ht
  refine ⟨fun h' => hu (h.uid (e1 ▸ h')), fun h' => by rw [e2]; exact h.start (e1 ▸ h'), fun h' => ?_⟩
  obtain ⟨a, v, env, r, b, md, key, s1, hB⟩ := h.going (e1 ▸ h')
  exact ⟨a, v, env, r, b ++ [e], md, key, s1, hB.keep hres hb ht⟩

theorem BootInv.ended {w : World} {x : Nat} {evs : List Ev} {t : St} (h : t.sb = .success) (hu : t.uidSet = true) :
    BootInv cfg ncfg w x evs t :=
  ⟨fun _ => hu, fun h' => (by rw [h] at h'; cases h'), fun h' => (by rw [h] at h'; rcases h' with h' | h' <;> cases h')⟩

theorem BootInv.reset {w : World} {x : Nat} {evs : List Ev} {t : St} (h : t.sb = .init) (hu : t.blRecv = 0) :
    BootInv cfg ncfg w x evs t :=
  ⟨fun h' => absurd h h', fun _ => hu, fun h' => (by rw [h] at h'; rcases h' with h' | h' <;> cases h')⟩

theorem resetBoot_err {a : UInt16} {rc : Rc} (t : St) (h : a = 1 ∨ a = 2 ∨ a = 3) (h1 : rc ≠ .ok)
    (h2 : rc ≠ .sheNoSecureBoot) : (resetBoot a rc t).sb = .init ∧ (resetBoot a rc t).blRecv = 0 := by
  unfold resetBoot; rw [if_pos ⟨h, h1, h2⟩]; exact ⟨rfl, rfl⟩

theorem resetBoot_ok {a : UInt16} {rc : Rc} (t : St) (h1 : rc = .ok ∨ rc = .sheNoSecureBoot) : resetBoot a rc t = t := by
  unfold resetBoot
  rw [if_neg]
  rintro ⟨_, h2, h3⟩
  rcases h1 with h | h
  · exact h2 h
  · exact h3 h

theorem handle_inl_lock {v : Srv} {env : Env} {t : St} {s : Sys} {r : Req} {rc : Rc}
    (h : command cfg v env t s r = .inl rc) (hb : r.action = 1 ∨ r.action = 2 ∨ r.action = 3)
    (hl : env.lock ≠ .sheNoSecureBoot) : rc ≠ .ok ∧ rc ≠ .sheNoSecureBoot := by
  unfold command at h
  rcases hb with hb | hb | hb <;> simp only [hb] at h <;> simp at h
  · split at h
    · cases h
    · cases h; rename_i hh; exact ⟨hh, hl⟩
  · split at h
    · cases h
    · cases h; rename_i hh; exact ⟨hh, hl⟩

/-- The effect of a boot command that was let through on the boot in progress. -/
theorem boot_step {w : World} {evs : List Ev} {v : Srv} {env : Env} {r : Req} {q : Res}
    (hI : BootInv cfg ncfg w v.ctx evs ((run cfg ncfg w evs).she v.ctx))
    (hve : Ev.Valid (.she v env r)) (hb : r.action = 1 ∨ r.action = 2 ∨ r.action = 3)
    (hu : ((run cfg ncfg w evs).she v.ctx).uidSet = true)
    (hc : command cfg v env ((run cfg ncfg w evs).she v.ctx) (run cfg ncfg w evs).sys r = .inr q)
    (hans : q.ret = .ok → Answered cfg ncfg (run cfg ncfg w evs) v env r .ok) :
    BootInv cfg ncfg w v.ctx (evs ++ [.she v env r]) (resetBoot r.action q.ret q.st) := by
  have herr : ∀ x : Res, x.ret ≠ .ok → x.ret ≠ .sheNoSecureBoot →
      BootInv cfg ncfg w v.ctx (evs ++ [.she v env r]) (resetBoot r.action x.ret x.st) := by
    intro x h1 h2
    obtain ⟨e1, e2⟩ := resetBoot_err x.st hb h1 h2
    exact BootInv.reset e1 e2
  have hcs : (r.action = 1 ∧ q = sbInit cfg v env ((run cfg ncfg w evs).she v.ctx) (run cfg ncfg w evs).sys r) ∨
      (r.action = 2 ∧ q = sbUpdate cfg env ((run cfg ncfg w evs).she v.ctx) (run cfg ncfg w evs).sys r) ∨
      (r.action = 3 ∧ q = sbFinish cfg v env ((run cfg ncfg w evs).she v.ctx) (run cfg ncfg w evs).sys r) := by
    rcases hb with hb | hb | hb
    all_goals
      simp only [command, hb] at hc
      simp at hc
    · split at hc
      · cases hc; exact Or.inl ⟨hb, rfl⟩
      · cases hc
    · exact Or.inr (Or.inl ⟨hb, hc.symm⟩)
    · split at hc
      · cases hc; exact Or.inr (Or.inr ⟨hb, rfl⟩)
      · cases hc
  rcases hcs with ⟨ha, rfl⟩ | ⟨ha, hq⟩ | ⟨ha, rfl⟩
  · revert hans
    refine sbInit_cases (P := fun q => (q.ret = .ok → Answered cfg ncfg (run cfg ncfg w evs) v env r .ok) →
      BootInv cfg ncfg w v.ctx (evs ++ [.she v env r]) (resetBoot r.action q.ret q.st)) ?_ ?_ ?_
    · exact fun x h1 h2 _ _ => herr x h1 h2
    · intro x _ h1 h2 _
      rw [resetBoot_ok _ (Or.inr h1)]
      exact BootInv.ended (by rw [h2]) (by rw [h2]; exact hu)
    · intro x md key hsb hret hrd hkl hst hans
      rw [resetBoot_ok _ (Or.inl hret)]
      refine ⟨fun _ => by rw [hst]; exact hu, fun h => (by rw [hst] at h; cases h), fun _ => ?_⟩
      refine ⟨evs, v, env, r, [], md, key, x.sys, rfl, rfl, ha, hans hret, by simp, ?_, hrd, hkl, by rw [hst], ?_, by rw [hst]; rfl, ?_, ?_, ?_⟩
      · intro c _ _ _ d hh; simp at hh
      · rw [hst]; simp [chunks, announced]
      · rw [hst]
        show ((run cfg ncfg w evs).she v.ctx).blRecv.toNat = _
        rw [hI.start hsb]; rfl
      · intro _; simp [chunks]
      · intro h; rw [hst] at h; cases h
  · have hlen := sbUpdate_len (cfg := cfg) (env := env) (t := (run cfg ncfg w evs).she v.ctx) (s := (run cfg ncfg w evs).sys) (r := r)
    rw [hq] at hans ⊢
    clear hq
    revert hans hlen
    refine sbUpdate_cases (P := fun q => (q.ret = .ok → Answered cfg ncfg (run cfg ncfg w evs) v env r .ok) →
      (q.ret = .ok → (rd32 cfg.le r.magic r.buf 0).toNat ≤ cfg.ks.commLen) →
      BootInv cfg ncfg w v.ctx (evs ++ [.she v env r]) (resetBoot r.action q.ret q.st)) ?_ ?_
    · exact fun x h1 h2 _ _ _ => herr x h1 h2
    · intro x hsb hret hsys hst hsz hle hans hlen
      rw [resetBoot_ok _ (Or.inl hret)]
      refine ⟨fun _ => by rw [hst]; exact hu, fun h => ?_, fun _ => ?_⟩
      · rw [hst] at h; dsimp only at h; split at h <;> cases h
      obtain ⟨a, v0, env0, r0, b, md, key, s1, B⟩ := hI.going (Or.inl hsb)
      have hch : chunks cfg v.ctx (b ++ [.she v env r]) =
          chunks cfg v.ctx b ++ rdBytes r.buf 8 (rd32 cfg.le r.magic r.buf 0).toNat := by
        rw [chunks_snoc]; congr 1; simp [chunks, ha]
      have hcl : (chunks cfg v.ctx (b ++ [.she v env r])).length =
          (chunks cfg v.ctx b).length + (rd32 cfg.le r.magic r.buf 0).toNat := by
        rw [hch, List.length_append, rdBytes_length (by have := hve.2.2; omega)]
      refine ⟨a, v0, env0, r0, b ++ [.she v env r], md, key, s1, by rw [B.hist]; simp, B.ctx, B.act, B.ans, ?_,
        onlyUpdates_snoc B.upd ?_, B.read, B.klen, by rw [hst]; exact B.hkey, ?_, by rw [hst]; exact B.size, ?_, ?_, ?_⟩
      · intro g hg
        rcases List.mem_append.1 hg with hg | hg
        · exact B.nores g hg
        · simp only [List.mem_singleton] at hg; subst hg; exact fun h => h
      · intro v' env' r' e _ _
        cases e
        refine ⟨ha, ?_⟩
        have : a ++ [Ev.she v0 env0 r0] ++ b = evs := by rw [B.hist]; simp
        rw [this]; exact hans hret
      · rw [hst, hch]; dsimp only; rw [B.data]; simp [List.append_assoc]
      · rw [hst, hcl]; dsimp only; rw [UInt32.toNat_add, B.recv]; omega
      · rw [hcl]
        intro hsm
        have h1 := B.small hsm
        have h2 := B.recv
        have h3 := hlen hret
        rw [UInt32.le_iff_toNat_le, UInt32.toNat_add, B.size] at hle
        omega
      · rw [hst]; dsimp only
        split
        · rename_i h; intro _; exact h
        · intro h; cases h
  · revert hans
    refine sbFinish_cases (P := fun q => (q.ret = .ok → Answered cfg ncfg (run cfg ncfg w evs) v env r .ok) →
      BootInv cfg ncfg w v.ctx (evs ++ [.she v env r]) (resetBoot r.action q.ret q.st)) ?_ ?_
    · exact fun x h1 h2 _ _ => herr x h1 h2
    · intro x md mac _ h1 h2 _ _ _
      rw [resetBoot_ok _ (Or.inl h1)]
      exact BootInv.ended (by rw [h2]) (by rw [h2]; exact hu)

theorem boot_history {w : World} (hw : Booted w) (x : Nat) (evs : List Ev)
    (hv : ∀ e ∈ evs, Ev.Valid e) (hp : (run cfg ncfg w evs).sys.nvm.powered = true) :
    BootInv cfg ncfg w x evs ((run cfg ncfg w evs).she x) := by
  induction evs using snoc_induction with
  | h0 =>
    have : (run cfg ncfg w []).she x = St.boot := hw.1 x
    rw [this]; exact BootInv.reset rfl rfl
  | h1 evs e ih =>
    rw [run_snoc] at hp ⊢
    have hvo : ∀ e ∈ evs, Ev.Valid e := fun e he => hv e (by simp [he])
    have hve : e.Valid := hv e (by simp)
    by_cases hres : e.isRestart
    · rw [restart_she hres]; exact BootInv.reset rfl rfl
    have hp0 := powered_before hp hres
    have hI := ih hvo hp0
    by_cases hx : ∀ v env r, e = .she v env r → v.ctx ≠ x
    · rw [step_she_other hres hx]
      refine hI.keep hres ?_ rfl id
      intro h
      cases e with
      | she v env r => exact hx _ _ _ rfl h.1
      | other => exact h
    have ⟨v, env, r, he, hvx⟩ : ∃ v env r, e = .she v env r ∧ v.ctx = x := by
      simpa only [ne_eq, Classical.not_forall, Classical.not_not, exists_prop] using hx
    clear hx
    subst he; subst hvx
    have hst := step_she (cfg := cfg) (ncfg := ncfg) hp0 v env r
    rw [hst, set_sys] at hp
    have ho := step_obs (cfg := cfg) (ncfg := ncfg) hp0 hp
    rw [hst, set_ctx]
    obtain ⟨g1, _, _⟩ := handle_gate (cfg := cfg) (v := v) (env := env)
      (t := (run cfg ncfg w evs).she v.ctx) (s := (run cfg ncfg w evs).sys) (r := r) hve.2.1 rfl
    have hu : ((run cfg ncfg w evs).she v.ctx).uidSet = true →
        (handle cfg v env ((run cfg ncfg w evs).she v.ctx) (run cfg ncfg w evs).sys r).2.1.uidSet = true := by
      intro h
      rcases g1 with g | g
      · rw [g]; exact h
      · exact g.2.1
    by_cases hb : r.action = 1 ∨ r.action = 2 ∨ r.action = 3
    · cases hrf : refused ((run cfg ncfg w evs).she v.ctx) r.action with
      | true =>
        have hns : ((run cfg ncfg w evs).she v.ctx).uidSet = false := by
          rw [refused_boot hb] at hrf; simpa using hrf
        have hi : ((run cfg ncfg w evs).she v.ctx).sb = .init := by
          refine Decidable.byContradiction fun h => ?_
          rw [hI.uid h] at hns; cases hns
        have : (handle cfg v env ((run cfg ncfg w evs).she v.ctx) (run cfg ncfg w evs).sys r).2.1 =
            (run cfg ncfg w evs).she v.ctx := by
          unfold handle; rw [if_pos hrf]; split <;> rfl
        rw [this]
        exact BootInv.reset hi (hI.start hi)
      | false =>
        have hus : ((run cfg ncfg w evs).she v.ctx).uidSet = true := by
          rw [refused_boot hb] at hrf; simpa using hrf
        have hh : ∀ P : St → Prop,
            (∀ rc, command cfg v env ((run cfg ncfg w evs).she v.ctx) (run cfg ncfg w evs).sys r = .inl rc →
              P (resetBoot r.action rc ((run cfg ncfg w evs).she v.ctx))) →
            (∀ q, command cfg v env ((run cfg ncfg w evs).she v.ctx) (run cfg ncfg w evs).sys r = .inr q →
              (handle cfg v env ((run cfg ncfg w evs).she v.ctx) (run cfg ncfg w evs).sys r).1 = (.ok, q.packet cfg r) →
              P (resetBoot r.action q.ret q.st)) →
            P (handle cfg v env ((run cfg ncfg w evs).she v.ctx) (run cfg ncfg w evs).sys r).2.1 := by
          intro P k1 k2
          unfold handle at k2 ⊢
          rw [if_neg (by rw [hrf]; simp)] at k2 ⊢
          split
          · rename_i rc hc; exact k1 rc hc
          · rename_i q hc
            refine k2 q hc ?_
            rw [hc]
        refine hh (fun t => BootInv cfg ncfg w v.ctx (evs ++ [.she v env r]) t) ?_ ?_
        · intro rc hc
          obtain ⟨e1, e2⟩ := handle_inl_lock hc hb hve.2.1
          obtain ⟨e3, e4⟩ := resetBoot_err ((run cfg ncfg w evs).she v.ctx) hb e1 e2
          exact BootInv.reset e3 e4
        · intro q hc h1
          refine boot_step hI hve hb hus hc ?_
          intro hret
          refine ⟨q.packet cfg r, by rw [ho, h1], (packet_code cfg r q).2, ?_⟩
          rw [(packet_code cfg r q).1, hret]; rfl
    · have hsame : bootPart (handle cfg v env ((run cfg ncfg w evs).she v.ctx) (run cfg ncfg w evs).sys r).2.1 =
          bootPart ((run cfg ncfg w evs).she v.ctx) := by
        have h1 : r.action ≠ 1 := fun h => hb (Or.inl h)
        have h2 : r.action ≠ 2 := fun h => hb (Or.inr (Or.inl h))
        have h3 : r.action ≠ 3 := fun h => hb (Or.inr (Or.inr h))
        unfold handle
        split
        · split <;> rfl
        · split
          · rw [resetBoot_other _ _ hb]
          · rename_i q hc
            rw [resetBoot_other _ _ hb]
            exact command_boot hc h1 h2 h3
      exact hI.keep hres (fun h => hb h.2) hsame hu

end WolfHsm.She

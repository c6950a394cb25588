import Verif.Proofs.SheGate

/-! # The gate follows the history -/

namespace WolfHsm.She

open Keystore (Sys Srv)
open Server (Req)
open Wire

variable {cfg : Cfg} {ncfg : NvmServer.Cfg}

theorem since_snoc {α : Type} {A : List α → α → Prop} {B : α → Prop} (evs : List α) (e : α) :
    (∃ a f b, evs ++ [e] = a ++ f :: b ∧ A a f ∧ ∀ g ∈ b, B g) ↔
      A evs e ∨ (B e ∧ ∃ a f b, evs = a ++ f :: b ∧ A a f ∧ ∀ g ∈ b, B g) := by
  constructor
  · rintro ⟨a, f, b, h, hA, hB⟩
    rcases List.eq_nil_or_concat b with rfl | ⟨b', g, rfl⟩
    · obtain ⟨rfl, h2⟩ := List.append_inj' h rfl
      cases h2
      exact Or.inl hA
    · right
      rw [List.concat_eq_append] at h hB
      have : a ++ f :: (b' ++ [g]) = (a ++ f :: b') ++ [g] := by simp
      rw [this] at h
      obtain ⟨rfl, h2⟩ := List.append_inj' h rfl
      cases h2
      exact ⟨hB _ (by simp), a, f, b', rfl, hA, fun g hg => hB g (by simp [hg])⟩
  · rintro (h | ⟨hB, a, f, b, rfl, hA, hB'⟩)
    · exact ⟨evs, e, [], rfl, h, by simp⟩
    · refine ⟨a, f, b ++ [e], by simp, hA, ?_⟩
      intro g hg
      rcases List.mem_append.1 hg with h | h
      · exact hB' g h
      · simp only [List.mem_singleton] at h; subst h; exact hB

/-- An accepted `SET_UID`. -/
def UidEv (cfg : Cfg) (ncfg : NvmServer.Cfg) (w : World) (x : Nat) (a : List Ev) (f : Ev) : Prop :=
  ∃ v env r, f = .she v env r ∧ v.ctx = x ∧ r.action = 0 ∧ Answered cfg ncfg (run cfg ncfg w a) v env r .ok

/-- A boot command that ends the boot. -/
def DoneEv (cfg : Cfg) (ncfg : NvmServer.Cfg) (w : World) (x : Nat) (a : List Ev) (f : Ev) : Prop :=
  ∃ v env r, f = .she v env r ∧ v.ctx = x ∧
    (r.action = 3 ∧ Answered cfg ncfg (run cfg ncfg w a) v env r .ok ∨
      r.action = 1 ∧ Answered cfg ncfg (run cfg ncfg w a) v env r .sheNoSecureBoot)

theorem uidGiven_eq {w : World} {evs : List Ev} {x : Nat} : UidGiven cfg ncfg w evs x ↔
    ∃ a f b, evs = a ++ f :: b ∧ UidEv cfg ncfg w x a f ∧ ∀ e ∈ b, ¬e.isRestart := by
  constructor
  · rintro ⟨a, v, env, r, b, h1, h2, h3, h4, h5⟩
    exact ⟨a, _, b, h1, ⟨v, env, r, rfl, h2, h3, h4⟩, h5⟩
  · rintro ⟨a, _, b, h1, ⟨v, env, r, rfl, h2, h3, h4⟩, h5⟩
    exact ⟨a, v, env, r, b, h1, h2, h3, h4, h5⟩

theorem bootDone_eq {w : World} {evs : List Ev} {x : Nat} : BootDone cfg ncfg w evs x ↔
    ∃ a f b, evs = a ++ f :: b ∧ DoneEv cfg ncfg w x a f ∧ ∀ e ∈ b, ¬e.isRestart ∧ ¬e.isBoot x := by
  constructor
  · rintro ⟨a, v, env, r, b, h1, h2, h3, h5⟩
    exact ⟨a, _, b, h1, ⟨v, env, r, rfl, h2, h3⟩, h5⟩
  · rintro ⟨a, _, b, h1, ⟨v, env, r, rfl, h2, h3⟩, h5⟩
    exact ⟨a, v, env, r, b, h1, h2, h3, h5⟩

theorem uidGiven_snoc {w : World} {evs : List Ev} {x : Nat} {e : Ev} : UidGiven cfg ncfg w (evs ++ [e]) x ↔
    UidEv cfg ncfg w x evs e ∨ (¬e.isRestart ∧ UidGiven cfg ncfg w evs x) := by
  rw [uidGiven_eq, uidGiven_eq]; exact since_snoc ..

theorem bootDone_snoc {w : World} {evs : List Ev} {x : Nat} {e : Ev} : BootDone cfg ncfg w (evs ++ [e]) x ↔
    DoneEv cfg ncfg w x evs e ∨ ((¬e.isRestart ∧ ¬e.isBoot x) ∧ BootDone cfg ncfg w evs x) := by
  rw [bootDone_eq, bootDone_eq]; exact since_snoc ..

/-- An answer other than the gate's: the command was let through. -/
theorem Answered.inr {w : World} {v : Srv} {env : Env} {r : Req} {rc : Rc}
    (h : Answered cfg ncfg w v env r rc) (hrc : rc.code ≠ Rc.sheSequenceError.code) :
    refused (w.she v.ctx) r.action = false ∧
    ∃ x, command cfg v env (w.she v.ctx) w.sys r = .inr x ∧ (translate x.ret).code = rc.code ∧
      x.sys.nvm.powered = true ∧
      (step cfg ncfg w (.she v env r)).2 = w.set v.ctx (resetBoot r.action x.ret x.st) x.sys ∧
      (step cfg ncfg w (.she v env r)).1 = .she .ok (x.packet cfg r) := by
  obtain ⟨hp, hq, h1, h2, h3⟩ := h.inv
  have hs := step_she (cfg := cfg) (ncfg := ncfg) hp v env r
  have ho := step_obs (cfg := cfg) (ncfg := ncfg) hp hq
  unfold handle at hq h1 h2 h3 hs ho
  split at h3
  · exfalso
    split at h3
    · rw [(over_code ..).1] at h3; exact absurd h3.symm hrc
    · rename_i hr _; simp_all
  · rename_i hr
    simp only [hr, Bool.false_eq_true, if_false] at hq h1 h2 h3 hs ho
    refine ⟨by simpa using hr, ?_⟩
    split at h3
    · rename_i hc; simp [hc] at h2
    · rename_i x hc
      rw [(packet_code ..).1] at h3
      simp only [hc] at hq hs ho
      exact ⟨x, hc, h3, hq, hs, ho⟩

theorem restart_powered (n : Nvm) (b : Bool) : (n.restart b).powered = true := by
  unfold Nvm.restart; repeat' split
  all_goals rfl

/-- Power comes back only with a restart. -/
theorem powered_before {w : World} {e : Ev} (h : (step cfg ncfg w e).2.sys.nvm.powered = true)
    (he : ¬e.isRestart) : w.sys.nvm.powered = true := by
  cases hp : w.sys.nvm.powered with
  | true => rfl
  | false =>
    exfalso
    cases e with
    | she v env r => simp [step, hp] at h
    | other e =>
      cases e with
      | key v l r => simp [step, Keystore.step, hp] at h
      | nvm l r => simp [step, Keystore.step, hp] at h
      | restart b => exact he trivial

/-- Events other than restarts and SHE requests of the context leave its SHE state alone. -/
theorem step_she_other {w : World} {x : Nat} {e : Ev} (he : ¬e.isRestart)
    (hx : ∀ v env r, e = .she v env r → v.ctx ≠ x) : (step cfg ncfg w e).2.she x = w.she x := by
  cases e with
  | she v env r =>
    cases hp : w.sys.nvm.powered with
    | true => rw [step_she hp]; exact set_other _ (Ne.symm (hx v env r rfl)) _ _
    | false => simp [step, hp]
  | other e =>
    cases e with
    | key => rfl
    | nvm => rfl
    | restart => exact absurd trivial he

theorem restart_she {w : World} {e : Ev} (he : e.isRestart) (x : Nat) :
    (step cfg ncfg w e).2.she x = St.boot := by
  cases e with
  | she => exact absurd he (by simp [Ev.isRestart])
  | other e =>
    cases e with
    | key => exact absurd he (by simp [Ev.isRestart])
    | nvm => exact absurd he (by simp [Ev.isRestart])
    | restart => rfl

theorem refused_boot {t : St} {a : UInt16} (h : a = 1 ∨ a = 2 ∨ a = 3) : refused t a = !t.uidSet := by
  unfold refused
  rcases h with rfl | rfl | rfl <;> cases t.uidSet <;> simp

theorem gate_history {w : World} (hw : Booted w) (x : Nat) (evs : List Ev) (hv : ∀ e ∈ evs, Ev.Valid e)
    (hp : (run cfg ncfg w evs).sys.nvm.powered = true) :
    (((run cfg ncfg w evs).she x).uidSet = true ↔ UidGiven cfg ncfg w evs x) ∧
    (((run cfg ncfg w evs).she x).sb = .success ↔ BootDone cfg ncfg w evs x) ∧
    (((run cfg ncfg w evs).she x).sb = .success → ((run cfg ncfg w evs).she x).uidSet = true) := by
  induction evs using snoc_induction with
  | h0 =>
    rw [uidGiven_eq, bootDone_eq]
    have : (run cfg ncfg w []).she x = St.boot := hw.1 x
    rw [this]
    refine ⟨⟨fun h => (by cases h), ?_⟩, ⟨fun h => (by cases h), ?_⟩, fun h => (by cases h)⟩ <;>
      · rintro ⟨a, f, b, h, _⟩; simp at h
  | h1 evs e ih =>
    rw [uidGiven_snoc, bootDone_snoc]
    rw [run_snoc] at hp ⊢
    have hvo : ∀ e ∈ evs, Ev.Valid e := fun e he => hv e (by simp [he])
    have hve : e.Valid := hv e (by simp)
    by_cases hres : e.isRestart
    · rw [restart_she hres]
      have h1 : ¬UidEv cfg ncfg w x evs e := by
        rintro ⟨v, env, r, rfl, _⟩; exact hres
      have h2 : ¬DoneEv cfg ncfg w x evs e := by
        rintro ⟨v, env, r, rfl, _⟩; exact hres
      simp [h1, h2, hres, St.boot]
    · have hp0 := powered_before hp hres
      obtain ⟨i1, i2, i3⟩ := ih hvo hp0
      by_cases hx : ∀ v env r, e = .she v env r → v.ctx ≠ x
      · rw [step_she_other hres hx]
        have h1 : ¬UidEv cfg ncfg w x evs e := by
          rintro ⟨v, env, r, rfl, h, _⟩; exact hx _ _ _ rfl h
        have h2 : ¬DoneEv cfg ncfg w x evs e := by
          rintro ⟨v, env, r, rfl, h, _⟩; exact hx _ _ _ rfl h
        have h3 : ¬e.isBoot x := by
          intro h
          cases e with
          | she v env r => exact hx _ _ _ rfl h.1
          | other => exact h
        refine ⟨?_, ?_, i3⟩
        · rw [i1]; simp [h1, hres]
        · rw [i2]; simp [h2, hres, h3]
      · have ⟨v, env, r, he, hvx⟩ : ∃ v env r, e = .she v env r ∧ v.ctx = x := by
          simpa only [ne_eq, Classical.not_forall, Classical.not_not, exists_prop] using hx
        clear hx
        subst he; subst hvx
        have hs := step_she (cfg := cfg) (ncfg := ncfg) hp0 v env r
        rw [hs, set_sys] at hp
        have ho := step_obs (cfg := cfg) (ncfg := ncfg) hp0 hp
        rw [hs, set_ctx]
        obtain ⟨g1, g2, g3⟩ := handle_gate (cfg := cfg) (v := v) (env := env)
          (t := (run cfg ncfg w evs).she v.ctx) (s := (run cfg ncfg w evs).sys) (r := r) hve.2.1 rfl
        refine ⟨⟨?_, ?_⟩, ⟨?_, ?_⟩, ?_⟩
        · intro hu
          rcases g1 with g1 | ⟨ga, _, gb, gc, gd⟩
          · right; exact ⟨hres, i1.1 (g1 ▸ hu)⟩
          · left
            exact ⟨v, env, r, rfl, rfl, ga, _, by rw [ho, gb], gc, gd⟩
        · rintro (⟨v', env', r', he, _, ha, hans⟩ | ⟨_, hu⟩)
          · cases he
            obtain ⟨_, _, q, hc, hret, _, hst, _⟩ := hans.ok
            rw [hs] at hst
            have := congrArg (fun w => World.she w v.ctx) hst
            simp only [set_ctx] at this
            rw [this]
            simp only [command, ha, if_true, Sum.inr.injEq] at hc
            subst hc
            unfold setUid at hret ⊢
            split at hret
            · cases hret
            split at hret
            · cases hret
            · rename_i h1 h2; simp [h1, h2]
          · rcases g1 with g1 | g1
            · rw [g1]; exact i1.2 hu
            · exact g1.2.1
        · intro hsb
          by_cases hb : r.action = 1 ∨ r.action = 2 ∨ r.action = 3
          · cases hr : refused ((run cfg ncfg w evs).she v.ctx) r.action with
            | true =>
              have := i3 (g3 (Or.inr hr) ▸ hsb)
              rw [refused_boot hb, this] at hr; cases hr
            | false =>
              obtain ⟨ga, gb, gc, gd, ge⟩ := g2 hb hr hsb
              left
              refine ⟨v, env, r, rfl, rfl, ?_⟩
              rcases ga with ga | ga
              · exact Or.inl ⟨ga, _, by rw [ho, gb], gc, gd ga⟩
              · exact Or.inr ⟨ga, _, by rw [ho, gb], gc, ge ga⟩
          · right
            exact ⟨⟨hres, fun h => hb h.2⟩, i2.1 (g3 (Or.inl hb) ▸ hsb)⟩
        · rintro (⟨v', env', r', he, _, ⟨ha, hans⟩ | ⟨ha, hans⟩⟩ | ⟨⟨_, hb⟩, hu⟩)
          · cases he
            obtain ⟨_, _, q, hc, hret, _, hst, _⟩ := hans.ok
            rw [hs] at hst
            have := congrArg (fun w => World.she w v.ctx) hst
            simp only [set_ctx] at this
            rw [this]
            by_cases hlk : env.lock = .ok
            · simp [command, ha, hlk] at hc
              subst hc
              revert hret
              refine sbFinish_cases (P := fun q => q.ret = .ok → q.st.sb = .success) ?_ ?_
              · exact fun q h _ _ h' => absurd h' h
              · intro q _ _ _ _ h _ _ _; rw [h]
            · simp [command, ha, hlk] at hc
          · cases he
            obtain ⟨_, q, hc, hret, _, hst, _⟩ := hans.inr (by decide)
            rw [translate_noBoot] at hret
            rw [hs] at hst
            have := congrArg (fun w => World.she w v.ctx) hst
            simp only [set_ctx] at this
            rw [this]
            have : resetBoot r.action q.ret q.st = q.st := by simp [resetBoot, hret]
            rw [this]
            by_cases hlk : env.lock = .ok
            · simp [command, ha, hlk] at hc
              subst hc
              revert hret
              refine sbInit_cases (P := fun q => q.ret = .sheNoSecureBoot → q.st.sb = .success) ?_ ?_ ?_
              · exact fun q _ h _ h' => absurd h' h
              · intro q _ _ h _; rw [h]
              · intro q _ _ _ h _ _ _ h'; rw [h] at h'; cases h'
            · simp [command, ha, hlk] at hc
          · rw [g3 (Or.inl (fun h => hb ⟨rfl, h⟩))]; exact i2.2 hu
        · intro hsb
          have hu : ((run cfg ncfg w evs).she v.ctx).uidSet = true := by
            by_cases hb : r.action = 1 ∨ r.action = 2 ∨ r.action = 3
            · cases hr : refused ((run cfg ncfg w evs).she v.ctx) r.action with
              | true => exact i3 (g3 (Or.inr hr) ▸ hsb)
              | false => rw [refused_boot hb] at hr; simpa using hr
            · exact i3 (g3 (Or.inl hb) ▸ hsb)
          rcases g1 with g1 | g1
          · rw [g1]; exact hu
          · exact g1.2.1

end WolfHsm.She

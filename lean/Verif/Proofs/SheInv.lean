import Verif.Proofs.SheLoad
import Verif.Proofs.SheHist

/-! # Invariants of a slot over histories -/

namespace WolfHsm.She

open NvmFlash (Meta Store withLen)
open Keystore hiding Req Ev Cfg step run Reach run_cons
open Server (Req)
open Wire

variable {cfg : Cfg} {ncfg : NvmServer.Cfg}

theorem command_did {v : Srv} {env : Env} {t : St} {s : Sys} {r : Req} {x : Res} (hw : WF s)
    (hs : cfg.cr.Sized) (hb : r.size ≤ r.buf.length) (h : command cfg v env t s r = .inr x) :
    Did cfg v r s x.sys := by
  unfold command at h
  extract_lets locked at h
  have hlk : ∀ {y z : Res}, locked y = .inr z → y = z := by
    intro y z e
    simp only [locked] at e
    split at e
    · cases e; rfl
    · cases e
  clear_value locked
  by_cases h0 : r.action = 0
  · rw [if_pos h0] at h; cases h; unfold setUid
    (repeat' split) <;> exact .reads (.nil _)
  rw [if_neg h0] at h
  by_cases h1 : r.action = 1
  · rw [if_pos h1] at h; rw [← hlk h]; exact .reads (sbInit_reads hw)
  rw [if_neg h1] at h
  by_cases h2 : r.action = 2
  · rw [if_pos h2] at h; cases h
    refine .reads ?_
    have : (sbUpdate cfg env t s r).sys = s := by
      unfold sbUpdate; dsimp only; (repeat' split) <;> rfl
    rw [this]; exact .nil _
  rw [if_neg h2] at h
  by_cases h3 : r.action = 3
  · rw [if_pos h3] at h; rw [← hlk h]; exact .reads (sbFinish_reads hw)
  rw [if_neg h3] at h
  by_cases h4 : r.action = 4
  · rw [if_pos h4] at h; cases h; unfold getStatus; dsimp only
    split <;> exact .reads (.nil _)
  rw [if_neg h4] at h
  by_cases h5 : r.action = 5
  · rw [if_pos h5] at h; rw [← hlk h]; exact loadKey_did hw hs hb h5
  rw [if_neg h5] at h
  by_cases h6 : r.action = 6
  · rw [if_pos h6] at h; rw [← hlk h]; exact loadPlain_did hw hb
  rw [if_neg h6] at h
  by_cases h7 : r.action = 7
  · rw [if_pos h7] at h; rw [← hlk h]; exact .reads (exportRam_reads hw)
  rw [if_neg h7] at h
  by_cases h8 : r.action = 8
  · rw [if_pos h8] at h; rw [← hlk h]; exact initRnd_did hw hs
  rw [if_neg h8] at h
  by_cases h9 : r.action = 9
  · rw [if_pos h9] at h; cases h
    refine .reads ?_
    have : (rnd cfg env t s r).sys = s := by
      unfold rnd; dsimp only; (repeat' split) <;> rfl
    rw [this]; exact .nil _
  rw [if_neg h9] at h
  by_cases h10 : r.action = 10
  · rw [if_pos h10] at h; rw [← hlk h]; exact extendSeed_did hw hs
  rw [if_neg h10] at h
  by_cases h11 : r.action = 11
  · rw [if_pos h11] at h; rw [← hlk h]; exact .reads (cipher_reads hw)
  rw [if_neg h11] at h
  by_cases h12 : r.action = 12
  · rw [if_pos h12] at h; rw [← hlk h]; exact .reads (cipher_reads hw)
  rw [if_neg h12] at h
  by_cases h13 : r.action = 13
  · rw [if_pos h13] at h; rw [← hlk h]; exact .reads (cipher_reads hw)
  rw [if_neg h13] at h
  by_cases h14 : r.action = 14
  · rw [if_pos h14] at h; rw [← hlk h]; exact .reads (cipher_reads hw)
  rw [if_neg h14] at h
  by_cases h15 : r.action = 15
  · rw [if_pos h15] at h; rw [← hlk h]; exact .reads (genMac_reads hw)
  rw [if_neg h15] at h
  by_cases h16 : r.action = 16
  · rw [if_pos h16] at h; rw [← hlk h]; exact .reads (verifyMac_reads hw)
  rw [if_neg h16] at h
  cases h

theorem handle_did {v : Srv} {env : Env} {t : St} {s : Sys} {r : Req} (hw : WF s)
    (hs : cfg.cr.Sized) (hb : r.size ≤ r.buf.length) :
    Did cfg v r s (handle cfg v env t s r).2.2 := by
  unfold handle
  split
  · split <;> exact .reads (.nil _)
  · cases hc : command cfg v env t s r with
    | inl rc => exact .reads (.nil _)
    | inr x => exact command_did hw hs hb hc

/-! ## The outcomes of the medium -/

theorem readSlot_outs' {v : Srv} {s s' : Sys} {slot : UInt16} {q} (h : readSlot cfg v s slot = (q, s')) :
    s'.nvm.outs = s.nvm.outs := by
  have := readKey_outs cfg.ks v.ctx s (sheId cfg v.client slot) 16
  unfold readSlot at h; rw [h] at this; exact this

theorem add_outs' {n n' : Nvm} {md : Meta} {d : List UInt8} {rc} (h : n.add md d = (rc, n')) :
    n'.outs = n.outs := by
  have := n.add_outs md d; rw [h] at this; exact this

theorem openM2_outs {v : Srv} {env : Env} {s s' : Sys} {a b c : List UInt8} {q}
    (h : openM2 cfg v env s a b c = (q, s')) : s'.nvm.outs = s.nvm.outs := by
  unfold openM2 at h
  split at h <;> rename_i h1 <;> have h1 := readSlot_outs' h1
  · repeat' (split at h)
    all_goals (cases h; exact h1)
  all_goals (cases h; exact h1)

theorem target_outs {v : Srv} {s s' : Sys} {slot : UInt16} {q} (h : target cfg v s slot = (q, s')) :
    s'.nvm.outs = s.nvm.outs := by
  unfold target at h
  dsimp only at h
  split at h <;> rename_i h1 <;> have h1 := readSlot_outs' h1
  · repeat' (split at h)
    all_goals (cases h; exact h1)
  · cases h; exact h1
  · split at h <;> (cases h; exact h1)

theorem store_outs {v : Srv} {s s' : Sys} {md : Meta} {key : List UInt8} {q}
    (h : store cfg v s md key = (q, s')) : s'.nvm.outs = s.nvm.outs := by
  unfold store at h
  dsimp only at h
  split at h
  · cases h; rw [cacheKey_nvm]
  · split at h
    · rename_i n1 e
      have e := add_outs' e
      have he : (evictKey cfg.ks v.ctx { s with nvm := n1 } md.id).2.nvm.outs = s.nvm.outs := by
        rw [evictKey_nvm]; exact e
      split at h
      · have hk := readKey_outs cfg.ks v.ctx (evictKey cfg.ks v.ctx { s with nvm := n1 } md.id).2 md.id 16
        split at h <;> rename_i h2 <;> rw [h2] at hk <;> (cases h; exact hk.trans he)
      · cases h; exact he
    · rename_i e; cases h; exact add_outs' e

theorem loadKey_outs {v : Srv} {env : Env} {t : St} {s : Sys} {r : Req} :
    (loadKey cfg v env t s r).sys.nvm.outs = s.nvm.outs := by
  unfold loadKey
  dsimp only
  split
  · rfl
  split
  · rename_i h1; exact openM2_outs h1
  · rename_i h1
    have h1 := openM2_outs h1
    split
    · rename_i h2; exact (target_outs h2).trans h1
    · rename_i h2
      have h2 := target_outs h2
      split
      · split
        · rename_i h3; exact (store_outs h3).trans (h2.trans h1)
        · rename_i h3; exact (store_outs h3).trans (h2.trans h1)
      · exact h2.trans h1

theorem exportRam_outs {v : Srv} {env : Env} {t : St} {s : Sys} {r : Req} :
    (exportRam cfg v env t s r).sys.nvm.outs = s.nvm.outs := by
  unfold exportRam
  dsimp only
  split
  · rfl
  split
  · rfl
  split <;> rename_i h1 <;> have h1 := readSlot_outs' h1
  · split
    · exact h1
    split <;> rename_i h2 <;> have h2 := readSlot_outs' h2
    · repeat (split; · exact h2.trans h1)
      exact h2.trans h1
    · exact h2.trans h1
  · exact h1

theorem initRnd_outs {v : Srv} {env : Env} {t : St} {s : Sys} {r : Req} :
    (initRnd cfg v env t s r).sys.nvm.outs = s.nvm.outs := by
  unfold initRnd
  dsimp only
  split
  · rfl
  split
  · rfl
  split <;> rename_i h1 <;> have h1 := readSlot_outs' h1
  · split
    · exact h1
    split <;> rename_i h2 <;> have h2 := readSlot_outs' h2
    · split
      · exact h2.trans h1
      split <;> rename_i e <;> have e := add_outs' e
      · split <;> exact e.trans (h2.trans h1)
      · exact e.trans (h2.trans h1)
    · exact h2.trans h1
  · exact h1

theorem extendSeed_outs {v : Srv} {env : Env} {t : St} {s : Sys} {r : Req} :
    (extendSeed cfg v env t s r).sys.nvm.outs = s.nvm.outs := by
  unfold extendSeed
  dsimp only
  repeat (split; · rfl)
  split <;> rename_i h1 <;> have h1 := readSlot_outs' h1
  · split
    · exact h1
    split <;> rename_i e <;> have e := add_outs' e <;> exact e.trans h1
  · exact h1

theorem readers_outs {v : Srv} {env : Env} {t : St} {s : Sys} {r : Req} :
    (sbInit cfg v env t s r).sys.nvm.outs = s.nvm.outs ∧
    (sbFinish cfg v env t s r).sys.nvm.outs = s.nvm.outs ∧
    (∀ m, (cipher cfg v env t s r m).sys.nvm.outs = s.nvm.outs) ∧
    (genMac cfg v env t s r).sys.nvm.outs = s.nvm.outs ∧
    (verifyMac cfg v env t s r).sys.nvm.outs = s.nvm.outs := by
  refine ⟨?_, ?_, ?_, ?_, ?_⟩
  · unfold sbInit; dsimp only
    repeat (split; · rfl)
    split <;> rename_i h1 <;> have h1 := readSlot_outs' h1
    · repeat (split; · exact h1)
      exact h1
    · exact h1
  · unfold sbFinish; dsimp only
    repeat (split; · rfl)
    split <;> rename_i h1 <;> have h1 := readSlot_outs' h1
    · repeat (split; · exact h1)
      exact h1
    · exact h1
  · intro m
    unfold cipher; dsimp only
    repeat (split; · rfl)
    split <;> rename_i h1 <;> have h1 := readSlot_outs' h1
    · repeat (split; · exact h1)
      exact h1
    · exact h1
  · unfold genMac; dsimp only
    repeat (split; · rfl)
    split <;> rename_i h1 <;> have h1 := readSlot_outs' h1
    · repeat (split; · exact h1)
      exact h1
    · exact h1
  · unfold verifyMac; dsimp only
    repeat (split; · rfl)
    split <;> rename_i h1 <;> have h1 := readSlot_outs' h1
    · repeat (split; · exact h1)
      exact h1
    · exact h1

theorem command_outs {v : Srv} {env : Env} {t : St} {s : Sys} {r : Req} {x : Res}
    (h : command cfg v env t s r = .inr x) : x.sys.nvm.outs = s.nvm.outs := by
  unfold command at h
  extract_lets locked at h
  have hlk : ∀ {y z : Res}, locked y = .inr z → y = z := by
    intro y z e
    simp only [locked] at e
    split at e
    · cases e; rfl
    · cases e
  clear_value locked
  obtain ⟨g1, g2, g3, g4, g5⟩ := readers_outs (cfg := cfg) (v := v) (env := env) (t := t) (s := s) (r := r)
  by_cases h0 : r.action = 0
  · rw [if_pos h0] at h; cases h; unfold setUid
    (repeat' split) <;> rfl
  rw [if_neg h0] at h
  by_cases h1 : r.action = 1
  · rw [if_pos h1] at h; rw [← hlk h]; exact g1
  rw [if_neg h1] at h
  by_cases h2 : r.action = 2
  · rw [if_pos h2] at h; cases h
    unfold sbUpdate; dsimp only; (repeat' split) <;> rfl
  rw [if_neg h2] at h
  by_cases h3 : r.action = 3
  · rw [if_pos h3] at h; rw [← hlk h]; exact g2
  rw [if_neg h3] at h
  by_cases h4 : r.action = 4
  · rw [if_pos h4] at h; cases h; unfold getStatus; dsimp only
    split <;> rfl
  rw [if_neg h4] at h
  by_cases h5 : r.action = 5
  · rw [if_pos h5] at h; rw [← hlk h]; exact loadKey_outs
  rw [if_neg h5] at h
  by_cases h6 : r.action = 6
  · rw [if_pos h6] at h; rw [← hlk h]
    unfold loadPlain; dsimp only
    split
    · rfl
    · split <;> (dsimp only; rw [cacheKey_nvm])
  rw [if_neg h6] at h
  by_cases h7 : r.action = 7
  · rw [if_pos h7] at h; rw [← hlk h]; exact exportRam_outs
  rw [if_neg h7] at h
  by_cases h8 : r.action = 8
  · rw [if_pos h8] at h; rw [← hlk h]; exact initRnd_outs
  rw [if_neg h8] at h
  by_cases h9 : r.action = 9
  · rw [if_pos h9] at h; cases h
    unfold rnd; dsimp only; (repeat' split) <;> rfl
  rw [if_neg h9] at h
  by_cases h10 : r.action = 10
  · rw [if_pos h10] at h; rw [← hlk h]; exact extendSeed_outs
  rw [if_neg h10] at h
  by_cases h11 : r.action = 11
  · rw [if_pos h11] at h; rw [← hlk h]; exact g3 _
  rw [if_neg h11] at h
  by_cases h12 : r.action = 12
  · rw [if_pos h12] at h; rw [← hlk h]; exact g3 _
  rw [if_neg h12] at h
  by_cases h13 : r.action = 13
  · rw [if_pos h13] at h; rw [← hlk h]; exact g3 _
  rw [if_neg h13] at h
  by_cases h14 : r.action = 14
  · rw [if_pos h14] at h; rw [← hlk h]; exact g3 _
  rw [if_neg h14] at h
  by_cases h15 : r.action = 15
  · rw [if_pos h15] at h; rw [← hlk h]; exact g4
  rw [if_neg h15] at h
  by_cases h16 : r.action = 16
  · rw [if_pos h16] at h; rw [← hlk h]; exact g5
  rw [if_neg h16] at h
  cases h

theorem handle_outs' {v : Srv} {env : Env} {t : St} {s : Sys} {r : Req} :
    (handle cfg v env t s r).2.2.nvm.outs = s.nvm.outs := by
  unfold handle
  split
  · split <;> rfl
  · cases hc : command cfg v env t s r with
    | inl rc => rfl
    | inr x => exact command_outs hc

theorem step_outs' (w : World) (e : Ev) : (step cfg ncfg w e).2.sys.nvm.outs = w.sys.nvm.outs := by
  cases e with
  | she v env r =>
    unfold step
    dsimp only
    split
    · exact handle_outs'
    · rfl
  | other e => cases e <;> exact Keystore.step_outs cfg.ks ncfg w.sys _

theorem run_outs' (evs : List Ev) (w : World) : (run cfg ncfg w evs).sys.nvm.outs = w.sys.nvm.outs := by
  induction evs generalizing w with
  | nil => rfl
  | cons e evs ih => rw [run_cons, ih, step_outs']

theorem Honest.run {w : World} (h : Honest w) (evs : List Ev) : Honest (run cfg ncfg w evs) := by
  intro k b; rw [run_outs']; exact h k b

/-! ## Well-formedness -/

theorem booted_wf (cfg : Cfg) (ncfg : NvmServer.Cfg) {w : World} (h : Booted w) : WF w.sys := by
  obtain ⟨_, hg, hl, hp, hn⟩ := h
  let c : Keystore.Cfg := { cfg.ks with sheGlobal := false }
  have hc : GoodCfg c := fun h => by cases h
  exact Keystore.Reach.wf (cfg := c) hc (.boot (ncfg := ncfg) w.sys hg hl hp hn)

theorem step_wf' (hg : GoodCfg cfg.ks) (hs : cfg.cr.Sized) {w : World} (hw : WF w.sys) {e : Ev} (hv : e.Valid) :
    WF (step cfg ncfg w e).2.sys := by
  cases e with
  | she v env r =>
    unfold step
    dsimp only
    split
    · exact (handle_did hw hs hv.2.2).wf hw
    · exact hw
  | other e => cases e <;> exact Keystore.step_wf hg ncfg hw hv

theorem run_wf' (hg : GoodCfg cfg.ks) (hs : cfg.cr.Sized) {w : World} (hw : WF w.sys) {evs : List Ev}
    (hv : ∀ e ∈ evs, Ev.Valid e) : WF (run cfg ncfg w evs).sys := by
  induction evs generalizing w with
  | nil => exact hw
  | cons e evs ih =>
    rw [run_cons]
    exact ih (step_wf' hg hs hw (hv e (by simp))) fun e he => hv e (by simp [he])

theorem Reach.wf' (hg : GoodCfg cfg.ks) (hs : cfg.cr.Sized) {w : World} (h : Reach cfg ncfg w) : WF w.sys := by
  obtain ⟨w0, evs, h0, hv, rfl⟩ := h
  exact run_wf' hg hs (booted_wf cfg ncfg h0) hv

/-! ## A slot over a request -/

/-- The profile allows the write. -/
def Allows (Q : Prof) (md : Meta) (data : List UInt8) : Prop :=
  Q.C ⟨md, data, false⟩ ∧ Q.N (some (md, data)) ∧ Q.P md data

theorem Wrote.inv3 {Q : Prof} {x : Nat} {md : Meta} {data : List UInt8} {s s' : Sys}
    (h : Wrote cfg x md data s s') (hI : Inv3 cfg.ks Q md.id s) (ha : Allows Q md data) :
    Inv3 cfg.ks Q md.id s' := by
  refine ⟨?_, ?_, ?_⟩
  · intro y k hk
    by_cases hy : area cfg.ks y md.id = area cfg.ks x md.id
    · have hk' : cached cfg.ks x s' md.id = some k := by rw [cached_eq] at hk ⊢; rw [← hy]; exact hk
      rcases h.c with h1 | h1 | h1
      · exact hI.c x k (by rw [← h1]; exact hk')
      · rw [h1] at hk'; cases hk'
      · rw [h1] at hk'; cases hk'; exact ha.1
    · rw [cached_eq, h.frame.areas _ hy] at hk
      exact hI.c y k (by rw [cached_eq]; exact hk)
  · rcases h.n with h1 | h1
    · rw [h1]; exact hI.n
    · rw [h1]; exact ha.2.1
  · intro m d hp hm
    rcases h.p with h1 | h1 | h1
    · exact hI.p m d (by rw [← h1]; exact hp) hm
    · rw [h1] at hp; cases hp
    · rw [h1] at hp; cases hp; exact ha.2.2

theorem Reads.inv3 {Q : Prof} {x : Nat} {i : UInt16} {s s' : Sys} (h : Reads cfg x s s') (hw : WF s)
    (hl : Q.Loads) (hI : Inv3 cfg.ks Q i s) : Inv3 cfg.ks Q i s' :=
  hI.readonly hw h (fun h => h) hl

/-- What a context sees of the slot fits the profile. -/
def Seen (Q : Prof) (md : Meta) (d : List UInt8) : Prop := (∃ b, Q.C ⟨md, d, b⟩) ∨ Q.N (some (md, d))

theorem Inv3.seen {Q : Prof} {x : Nat} {i : UInt16} {s : Sys} {md : Meta} {d : List UInt8}
    (hI : Inv3 cfg.ks Q i s) (h : view cfg.ks x s i = some (md, d)) : Seen Q md d := by
  unfold view at h
  split at h
  · rename_i k hk; cases h; exact Or.inl ⟨k.committed, hI.c x k hk⟩
  · exact Or.inr (by rw [← h]; exact hI.n)

theorem Did.inv3 {Q : Prof} {v : Srv} {r : Req} {s s' : Sys} {i : UInt16} (h : Did cfg v r s s') (hw : WF s)
    (hh : HonestN s.nvm) (hI : Inv3 cfg.ks Q i s) (hl : Q.Loads) (h14 : i ≠ sheId cfg v.client 14)
    (hsome : ¬Q.N none)
    (hseed : ∀ md d data, i = sheId cfg v.client 15 → data.length = 16 → Seen Q md d →
      Allows Q { md with id := i, len := 16 } data)
    (hload : ∀ md d md' data, Seen Q md d → isWp md = false → labelCount md.label < labelCount md'.label →
      md'.id = i → md'.len.toNat = data.length → Allows Q md' data) : Inv3 cfg.ks Q i s' := by
  cases h with
  | reads h => exact h.inv3 hw hl hI
  | ram h1 hid hl' h2 => exact (h1.inv3 hw hl hI).other (h2.other (by rw [hid]; exact h14))
  | @seed s1 s2 _ md d data h1 hv h2 hl' h3 =>
    have hI1 := h1.inv3 hw hl hI
    have hI2 := h2.inv3 (h1.wf hw) hl hI1
    by_cases hi : i = sheId cfg v.client 15
    · subst hi
      exact h3.inv3 hI2 (hseed md d data rfl hl' (Inv3.seen hI1 hv))
    · exact hI2.other (h3.other hi)
  | @load s1 s2 s3 _ md data key ha h1 hk hh' hc h2 hid hn hcnt hl' h3 h4 =>
    have hI1 := h1.inv3 hw hl hI
    have hw1 := h1.wf hw
    have hI2 := h2.inv3 hw1 hl hI1
    have hw2 := h2.wf hw1
    have hI3 : Inv3 cfg.ks Q i s3 := by
      by_cases hi : i = md.id
      · subst hi
        refine h3.inv3 hI2 ?_
        have : view cfg.ks v.ctx s1 md.id ≠ none := by
          unfold view
          split
          · simp
          · intro e; have := hI1.n; rw [e] at this; exact hsome this
        cases hv : view cfg.ks v.ctx s1 md.id with
        | none => exact absurd hv this
        | some p =>
          obtain ⟨md0, d0⟩ := p
          obtain ⟨g1, g2⟩ := hc (hh' hh) md0 d0 (by rw [← hid]; exact hv)
          exact hload md0 d0 md data (Inv3.seen hI1 hv) g1 (by rw [hcnt]; exact g2) rfl hl'
      · exact hI2.other (h3.other hi)
    exact h4.inv3 (h3.wf hl' hw2) hl hI3

/-- A slot over any event. -/
theorem step_inv3 (hg : GoodCfg cfg.ks) (hs : cfg.cr.Sized) {Q : Prof} {i : UInt16} {w : World} (hw : WF w.sys)
    (hh : Honest w) {e : Ev} (hv : e.Valid) (hsp : e.Spares cfg i) (hI : Inv3 cfg.ks Q i w.sys) (hl : Q.Loads)
    (h14 : ∀ c, i ≠ sheId cfg c 14) (hsome : ¬Q.N none)
    (hpn : ∀ md d, md.id = i → d.length < 65536 → Q.P md d → Q.N (some (withLen md d, d)))
    (hseed : ∀ c md d data, i = sheId cfg c 15 → data.length = 16 → Seen Q md d →
      Allows Q { md with id := i, len := 16 } data)
    (hload : ∀ md d md' data, Seen Q md d → isWp md = false → labelCount md.label < labelCount md'.label →
      md'.id = i → md'.len.toNat = data.length → Allows Q md' data) :
    Inv3 cfg.ks Q i (step cfg ncfg w e).2.sys := by
  cases e with
  | she v env r =>
    unfold step
    dsimp only
    split
    · exact (handle_did hw hs hv.2.2).inv3 hw hh hI hl (h14 _) hsome (hseed _) hload
    · exact hI
  | other e =>
    have key := Keystore.step_readonly hg ncfg (Q := Q) (i := i) hw hv hsp
      (Or.inl (fun e => by have := hI.n; rw [e] at this; exact hsome this)) hl hpn hI
    cases e <;> exact key

theorem run_inv3 (hg : GoodCfg cfg.ks) (hs : cfg.cr.Sized) {Q : Prof} {i : UInt16} {w : World} (hw : WF w.sys)
    (hh : Honest w) {evs : List Ev} (hv : ∀ e ∈ evs, Ev.Valid e) (hsp : ∀ e ∈ evs, e.Spares cfg i)
    (hI : Inv3 cfg.ks Q i w.sys) (hl : Q.Loads)
    (h14 : ∀ c, i ≠ sheId cfg c 14) (hsome : ¬Q.N none)
    (hpn : ∀ md d, md.id = i → d.length < 65536 → Q.P md d → Q.N (some (withLen md d, d)))
    (hseed : ∀ c md d data, i = sheId cfg c 15 → data.length = 16 → Seen Q md d →
      Allows Q { md with id := i, len := 16 } data)
    (hload : ∀ md d md' data, Seen Q md d → isWp md = false → labelCount md.label < labelCount md'.label →
      md'.id = i → md'.len.toNat = data.length → Allows Q md' data) :
    Inv3 cfg.ks Q i (run cfg ncfg w evs).sys := by
  induction evs generalizing w with
  | nil => exact hI
  | cons e evs ih =>
    rw [run_cons]
    exact ih (step_wf' hg hs hw (hv e (by simp))) (Honest.run (evs := [e]) hh)
      (fun e he => hv e (by simp [he])) (fun e he => hsp e (by simp [he]))
      (step_inv3 hg hs hw hh (hv e (by simp)) (hsp e (by simp)) hI hl h14 hsome hpn hseed hload)

end WolfHsm.She

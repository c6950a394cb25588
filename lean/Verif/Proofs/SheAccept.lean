import Verif.Proofs.SheInv

/-! # Accepted key updates -/

namespace WolfHsm.She

open NvmFlash (Meta Store withLen)
open Keystore hiding Req Ev Cfg step run Reach run_cons
open Server (Req)
open Wire

variable {cfg : Cfg} {ncfg : NvmServer.Cfg}

theorem refused_effect {w : World} {v : Srv} {env : Env} {r : Req} (hp : w.sys.nvm.powered = true)
    (hr : refused (w.she v.ctx) r.action = true) (ha : r.action.toNat ≤ 16) :
    Answered cfg ncfg w v env r .sheSequenceError ∧ (step cfg ncfg w (.she v env r)).2 = w := by
  have hsome : ∃ b n, refusal env r.action = some (b, n) := by
    have : ∀ a : UInt16, a.toNat ≤ 16 → ∃ b n, refusal env a = some (b, n) := by
      intro a h
      unfold refusal
      repeat' split
      any_goals exact ⟨_, _, rfl⟩
      exfalso
      simp only [← UInt16.toNat_inj, UInt16.reduceToNat] at *
      omega
    exact this _ ha
  obtain ⟨b, n, hn⟩ := hsome
  have hh : handle cfg v env (w.she v.ctx) w.sys r =
      ((.ok, over (w32 cfg.le r.magic Rc.sheSequenceError.code ++ b) r.buf n), w.she v.ctx, w.sys) := by
    unfold handle; rw [if_pos hr, hn]
  have ho := over_code cfg.le r.magic Rc.sheSequenceError.code b r.buf n
  refine ⟨⟨over (w32 cfg.le r.magic Rc.sheSequenceError.code ++ b) r.buf n, ?_, ho.2, ho.1⟩, ?_⟩
  · rw [step_obs hp (by rw [hh]; exact hp), hh]
  · rw [step_she hp, hh]; exact set_same _ _

theorem command_locked {v : Srv} {env : Env} {t : St} {s : Sys} {r : Req} {x : Res} 
    (h : command cfg v env t s r = .inr x) :
    (r.action = 5 → x = loadKey cfg v env t s r) ∧ (r.action = 6 → x = loadPlain cfg v t s r) ∧
    (r.action = 7 → x = exportRam cfg v env t s r) ∧ (r.action = 1 → x = sbInit cfg v env t s r) ∧
    (r.action = 2 → x = sbUpdate cfg env t s r) ∧ (r.action = 3 → x = sbFinish cfg v env t s r) := by
  unfold command at h
  extract_lets locked at h
  have hlk : ∀ {y z : Res}, locked y = .inr z → z = y := by
    intro y z e
    simp only [locked] at e
    split at e
    · cases e; rfl
    · cases e
  clear_value locked
  refine ⟨?_, ?_, ?_, ?_, ?_, ?_⟩ <;> intro ha <;> rw [ha] at h <;> simp at h <;>
    first | exact hlk h | exact h.symm

/-- What an accepted update has done. -/
theorem answered_load {w : World} {v : Srv} {env : Env} {r : Req} (hw : WF w.sys) (hs : cfg.cr.Sized)
    (hb : r.size ≤ r.buf.length) (ha : r.action = 5) (h : Answered cfg ncfg w v env r .ok) :
    ∃ (x : Res) (s1 s2 s3 : Sys) (key : List UInt8) (md0 md : Meta) (keyRet : Rc),
      Loaded' cfg v (w.she v.ctx) w.sys r s1 s2 s3 key md0 md keyRet ∧
      (step cfg ncfg w (.she v env r)).2 = w.set v.ctx x.st x.sys ∧
      (step cfg ncfg w (.she v env r)).1 = .she .ok (x.packet cfg r) ∧
      ((popId (m1 r) = 14 ∧ s3 = x.sys ∧ x.st = { w.she v.ctx with ramPlain := true } ∧
          Filled cfg.ks v.ctx s2 x.sys md (((clearM2 cfg key r).drop 16).take 16)) ∨
        (popId (m1 r) ≠ 14 ∧ x.st = w.she v.ctx ∧ Reads cfg v.ctx s3 x.sys ∧
          s3.nvm.store md.id = some (md, ((clearM2 cfg key r).drop 16).take 16) ∧ s3.nvm.pending = none ∧
          cached cfg.ks v.ctx s3 md.id = none ∧
          ∃ md' key', readKey cfg.ks v.ctx s3 md.id 16 = ((.ok, some (md', key')), x.sys) ∧
            answer cfg env (w.she v.ctx) (m1 r) md' key' = (.ok, x.body) ∧ x.size = 52)) := by
  obtain ⟨hp, hr, x, hc, hret, hpow, hst, hobs⟩ := h.ok
  have hx := (command_locked hc).1 ha
  subst hx
  refine loadKey_cases (cfg := cfg) (v := v) (env := env) (t := w.she v.ctx) (s := w.sys) (r := r) hw hs hb
    (P := fun y => y = loadKey cfg v env (w.she v.ctx) w.sys r → _) ?_ ?_ ?_ ?_ rfl
  · intro y hy _ _ e; rw [e] at hy; exact absurd hret hy
  · intro y s1 s2 key md0 md keyRet hL h14 _ hf _ e
    rw [← e] at hret hst hobs
    obtain ⟨h1, h2⟩ := hf hret
    exact ⟨y, s1, s2, y.sys, key, md0, md, keyRet, hL, hst, hobs, Or.inl ⟨h14, rfl, h2, h1⟩⟩
  · intro y s1 s2 s3 key md0 md keyRet _ _ _ _ hy e; rw [e] at hy; exact absurd hret hy
  · intro y s1 s2 s3 key md0 md keyRet md' key' hL h14 h1 h2 _ h4 h5 h6 h7 h8 h9 e
    rw [← e] at hret hst hobs
    exact ⟨y, s1, s2, s3, key, md0, md, keyRet, hL, hst, hobs, Or.inr ⟨h14, h1, h2, h4, h5, h6, md', key', h7, h8, h9⟩⟩

theorem area_other {x y : Nat} (hy : y ≠ x) (j : UInt16) : some y ≠ area cfg.ks x j := by
  unfold area; split
  · simp
  · intro h; cases h; exact hy rfl

/-- Reads at one context leave the other caches alone. -/
theorem Reads.areas {x y : Nat} {s s' : Sys} (h : Reads cfg x s s') (hy : y ≠ x) :
    cacheAt s' (some y) = cacheAt s (some y) := by
  induction h with
  | nil => rfl
  | @cons s s1 s2 id hT ht _ ih => rw [ih, ht.frame.areas _ (area_other hy id)]

theorem Wrote.areas {x y : Nat} {md : Meta} {data : List UInt8} {s s' : Sys} (h : Wrote cfg x md data s s')
    (hy : y ≠ x) : cacheAt s' (some y) = cacheAt s (some y) := h.frame.areas _ (area_other hy _)

theorem popFlags_wp {m : List UInt8} (h : m.getD 4 0 &&& 0x80 = 0x80) : (popFlags m).toNat % 2 = 1 := by
  unfold popFlags
  rw [h]
  rw [UInt32.toNat_or]
  have : ((0x80 : UInt8) >>> 7).toUInt32.toNat = 1 := rfl
  rw [this]
  generalize ((m.getD 3 0 &&& 15).toUInt32 <<< 4).toNat = a
  have := Nat.testBit_or a 1 0
  simp only [Nat.testBit_zero] at this
  simpa using this

theorem Loaded'.wp {v : Srv} {t : St} {s s1 s2 s3 : Sys} {r : Req} {key : List UInt8} {md0 md : Meta}
    {keyRet : Rc} (h : Loaded' cfg v t s r s1 s2 s3 key md0 md keyRet)
    (hwp : (clearM2 cfg key r).getD 4 0 &&& 0x80 = 0x80) : isWp md = true := by
  rw [h.hmd]
  unfold isWp newMeta
  dsimp only
  rw [labelFlags_setLabel, popFlags_wp hwp]
  rfl

theorem Reach.step {w : World} (h : Reach cfg ncfg w) {e : Ev} (hv : e.Valid) :
    Reach cfg ncfg (She.step cfg ncfg w e).2 := by
  obtain ⟨w0, evs, h0, h1, rfl⟩ := h
  refine ⟨w0, evs ++ [e], h0, ?_, by rw [run_snoc]⟩
  intro e' he'
  rcases List.mem_append.1 he' with h | h
  · exact h1 e' h
  · rw [List.mem_singleton.1 h]; exact hv

/-- After an accepted update: the new object is stored, and it is the only copy. -/
theorem accepted_everywhere {w : World} {v : Srv} {env : Env} {r : Req} (hw : WF w.sys) (hs : cfg.cr.Sized)
    (hb : r.size ≤ r.buf.length) (ha : r.action = 5) (h : Answered cfg ncfg w v env r .ok)
    (h14 : popId (m1 r) ≠ 14) (ho : OnlyAt cfg.ks v.ctx w.sys (updateSlot cfg v r)) :
    ∃ s1 s2 s3 key md0 md keyRet, Loaded' cfg v (w.she v.ctx) w.sys r s1 s2 s3 key md0 md keyRet ∧
      (∀ Q : Prof, Q.Loads → Q.N (some (md, ((clearM2 cfg key r).drop 16).take 16)) →
        Inv3 cfg.ks Q (updateSlot cfg v r) (step cfg ncfg w (.she v env r)).2.sys) := by
  obtain ⟨x, s1, s2, s3, key, md0, md, keyRet, hL, hst, _, hcase⟩ := answered_load hw hs hb ha h
  refine ⟨s1, s2, s3, key, md0, md, keyRet, hL, fun Q hl hN => ?_⟩
  rcases hcase with ⟨h, _⟩ | ⟨_, _, hr, hstore, hpend, hcach, _⟩
  · exact absurd h h14
  rw [hst]
  have hr1 := hL.reads1 hw
  have hw2 := hL.reads.wf (hr1.wf hw)
  have hw3 := hL.wrote.wf (hL.len hs hb) hw2
  have hI3 : Inv3 cfg.ks Q (updateSlot cfg v r) s3 := by
    rw [← hL.id]
    refine ⟨?_, by rw [hstore]; exact hN, ?_⟩
    · intro y k hk
      exfalso
      cases hgl : isGlobal cfg.ks md.id with
      | true =>
        have e : cached cfg.ks v.ctx s3 md.id = cached cfg.ks y s3 md.id := by
          simp [cached, cacheOf, hgl]
        rw [← e, hcach] at hk; cases hk
      | false =>
        by_cases hy : y = v.ctx
        · subst hy; rw [hcach] at hk; cases hk
        · have e : ∀ s : Sys, cached cfg.ks y s md.id = (cacheAt s (some y)).find md.id := by
            intro s; simp [cached, cacheOf, hgl, cacheAt]
          rw [e, hL.wrote.areas hy, hL.reads.areas hy, hr1.areas hy, ← e] at hk
          rw [hL.id] at hk hgl
          rw [ho hgl y hy] at hk; cases hk
    · intro m d hp; rw [hpend] at hp; cases hp
  exact hr.inv3 hw3 hl hI3

/-- Reading does not change what a context sees if the committed copies are what is stored. -/
theorem Reads.view {x y : Nat} {s s' : Sys} {i : UInt16} (h : Reads cfg x s s') (hc : Coherent cfg.ks s i) :
    Keystore.view cfg.ks y s' i = Keystore.view cfg.ks y s i := by
  obtain ⟨h1, h2⟩ := Trs.readonly h (i := i) (fun h => h)
  have hcoh := hc y
  unfold Keystore.view
  rw [cached_eq, cached_eq] at *
  rcases h2 (area cfg.ks y i) with h3 | ⟨h3, k, h4, h5⟩ | ⟨h3, md, bs, h4, h5⟩
  · rw [h3, h1]
  · rw [h3, h4, h1]; exact hcoh k h4 h5
  · rw [h5]
    rcases h3 with h3 | ⟨k, h3, h6⟩
    · rw [h3]; exact h4.symm
    · rw [h3]
      have := hcoh k h3 h6
      rw [h4] at this; cases this; rfl

/-! ## A medium that works -/

theorem Fine.read {n : Nvm} (h : Fine n) (i : UInt16) (o l : Nat) :
    n.read i o l = (n.store.slice i o l, { n with tick := n.tick + 1 }) := by
  unfold Nvm.read; rw [if_pos h.1, h.2]

theorem Fine.add {n : Nvm} (h : Fine n) (md : Meta) (d : List UInt8) :
    n.add md d = (.ok, { n with store := n.store.set md d, pending := none, tick := n.tick + 1 }) := by
  unfold Nvm.add; rw [if_pos h.1, h.2]

theorem readKey_fine {x : Nat} {s : Sys} {id : UInt16} {n : Nat} (hf : Fine s.nvm) :
    Fine (readKey cfg.ks x s id n).2.nvm := by
  refine ⟨?_, fun k => by rw [readKey_outs]; exact hf.2 k⟩
  unfold readKey
  split
  · exact hf.1
  split
  · exact hf.1
  split
  · split <;> exact hf.1
  · split
    · exact hf.1
    split
    · split
      · exact hf.1
      rename_i md _ _
      have h : (s.nvm.read id 0 md.len.toNat).2.powered = true := by rw [hf.read]; exact hf.1
      split
      · rename_i bs n e
        rw [e] at h
        dsimp only
        split
        · exact h
        · have hc := cacheKey_nvm cfg.ks x { s with nvm := n } false md bs
          split
          · rename_i e2
            rw [e2] at hc
            rw [setCache_nvm]
            exact (congrArg Nvm.powered hc).trans h
          · rename_i e2
            rw [e2] at hc
            exact (congrArg Nvm.powered hc).trans h
      · rename_i e
        rw [e] at h
        exact h
    · exact hf.1

/-- Reading a stored object that is not cached. -/
theorem readKey_stored {x : Nat} {s : Sys} {id : UInt16} {md : Meta} {d : List UInt8} (hf : Fine s.nvm)
    (hty : KeyId.typeOf id = KeyId.typeShe) (hc : cached cfg.ks x s id = none)
    (hst : s.nvm.store id = some (md, d)) (hl : md.len.toNat = d.length) (h16 : d.length ≤ 16) (h0 : 0 < d.length) :
    (readKey cfg.ks x s id 16).1 = (.ok, some (md, d)) := by
  have h1 : KeyId.isUnassigned id = false := by
    unfold KeyId.isUnassigned; rw [hty]; simp [KeyId.typeShe, KeyId.typeCrypto, KeyId.typeWrapped]
  have h2 : isHw cfg.ks id = false := by unfold isHw; rw [hty]; simp [KeyId.typeShe, KeyId.typeHw]
  have h3 : (KeyId.typeOf id == KeyId.typeWrapped) = false := by rw [hty]; decide
  have h4 : s.nvm.metadata id = (.ok, some md) := by unfold Nvm.metadata Store.info; rw [hst]
  have h5 : s.nvm.read id 0 md.len.toNat = ((.ok, d), { s.nvm with tick := s.nvm.tick + 1 }) := by
    rw [hf.read]
    unfold Store.slice
    rw [hst]
    simp [h0, hl]
  unfold readKey
  simp only [h1, h2, hc, h3, h4, h5, Bool.false_eq_true, if_false]
  rw [if_neg (by omega)]
  split
  · rfl
  · split <;> rfl

theorem store_fine {v : Srv} {s : Sys} {md : Meta} {key : List UInt8} (hw : WF s) (hf : Fine s.nvm)
    (hl : md.len.toNat = key.length) (hk : key.length = 16) (hty : KeyId.typeOf md.id = KeyId.typeShe)
    (h14 : KeyId.idOf md.id ≠ 14) :
    ∃ s', store cfg v s md key = ((.ok, md, key), s') ∧ Fine s'.nvm ∧ s'.nvm.store = s.nvm.store.set md key := by
  have h1 : KeyId.isUnassigned md.id = false := by
    unfold KeyId.isUnassigned; rw [hty]; simp
  have h2 : isHw cfg.ks md.id = false := by unfold isHw; rw [hty]; simp [KeyId.typeShe, KeyId.typeHw]
  unfold store
  rw [if_neg h14, hf.add]
  dsimp only
  have hw1 : WF { s with nvm := { s.nvm with
      store := s.nvm.store.set md key, pending := none, tick := s.nvm.tick + 1 } } := by
    refine add_wrote (cfg := cfg) (x := v.ctx) (s := s) (P := fun q => q = s.nvm.add md key → WF _) hw hl ?_ ?_ rfl
    · intro n h _ _ _ e
      rw [hf.add] at e; cases e; exact h.wf hl hw
    · intro rc n hrc _ e
      rw [hf.add] at e; cases e; exact absurd rfl hrc
  generalize hs1 : ({ s with nvm := { s.nvm with
      store := s.nvm.store.set md key, pending := none, tick := s.nvm.tick + 1 } } : Sys) = s1 at *
  have hf1 : Fine s1.nvm := by subst hs1; exact hf
  have hst1 : s1.nvm.store = s.nvm.store.set md key := by subst hs1; rfl
  have hst1' : s1.nvm.store md.id = some (md, key) := by
    rw [hst1]; simp [Store.set, withLen_self hl]
  have fin : ∀ s2 : Sys, s2.nvm = s1.nvm → WF s2 → cached cfg.ks v.ctx s2 md.id = none →
      ∃ s', (match readKey cfg.ks v.ctx s2 md.id 16 with
          | ((.ok, some (md', key')), s3) => ((Rc.ok, md', key'), s3)
          | ((rc, _), s3) => ((errRc rc, md, key), s3)) = ((.ok, md, key), s') ∧ Fine s'.nvm ∧
        s'.nvm.store = s.nvm.store.set md key := by
    intro s2 hn hw2 hc
    have hr := readKey_stored (cfg := cfg) (x := v.ctx) (s := s2) (id := md.id) (md := md) (d := key)
      (by rw [hn]; exact hf1) hty hc (by rw [hn]; exact hst1') hl (by omega) (by omega)
    have hfi := readKey_fine (cfg := cfg) (x := v.ctx) (s := s2) (id := md.id) (n := 16) (by rw [hn]; exact hf1)
    have hst := (readKey_reads (cfg := cfg) (x := v.ctx) md.id 16 hw2).store
    rcases hq : readKey cfg.ks v.ctx s2 md.id 16 with ⟨q, s3⟩
    rw [hq] at hr hfi hst
    dsimp only at hr hfi hst
    subst hr
    exact ⟨s3, rfl, hfi, by rw [hst, hn, hst1]⟩
  unfold evictKey
  simp only [h1, h2, Bool.false_eq_true, if_false]
  cases hc : cached cfg.ks v.ctx s1 md.id with
  | none =>
    dsimp only
    rw [if_pos (Or.inr rfl)]
    exact fin s1 rfl hw1 hc
  | some k =>
    dsimp only
    rw [if_pos (Or.inl rfl)]
    obtain ⟨g1, g2, g3⟩ := Keystore.evicted (cfg := cfg.ks) (x := v.ctx) (id := md.id) hw1
    exact fin _ g3 (g1.wf hw1 g3 (fun k hk => by rw [g2] at hk; cases hk)) g2

theorem answer_fine {env : Env} {t : St} {m : List UInt8} {md : Meta} {key : List UInt8}
    (hf : ∀ k, env.fault k = false) : (answer cfg env t m md key).1 = .ok := by
  unfold answer; simp [hf]

theorem openM2_fine {v : Srv} {env : Env} {s : Sys} {a b c : List UInt8} (h : Fine s.nvm) :
    Fine (openM2 cfg v env s a b c).2.nvm := by
  have hr := readKey_fine (cfg := cfg) (x := v.ctx) (s := s) (id := sheId cfg v.client (popAuth a)) (n := 16) h
  unfold openM2
  split <;> rename_i h1 <;> (unfold readSlot at h1; rw [h1] at hr)
  · repeat' split
    all_goals exact hr
  all_goals exact hr

theorem target_fine {v : Srv} {s : Sys} {slot : UInt16} (h : Fine s.nvm) : Fine (target cfg v s slot).2.nvm := by
  have hr := readKey_fine (cfg := cfg) (x := v.ctx) (s := s) (id := sheId cfg v.client slot) (n := 16) h
  unfold target
  dsimp only
  split <;> rename_i h1 <;> (unfold readSlot at h1; rw [h1] at hr)
  · repeat' split
    all_goals exact hr
  · exact hr
  · split <;> exact hr

/-- With a medium that works and no failing wolfCrypt call: the update is accepted, or no object
changes. -/
theorem loadKey_fine {v : Srv} {env : Env} {t : St} {s : Sys} {r : Req} (hw : WF s) (hs : cfg.cr.Sized)
    (hb : r.size ≤ r.buf.length) (hf : Fine s.nvm) (hfa : ∀ k, env.fault k = false) :
    Fine (loadKey cfg v env t s r).sys.nvm ∧
    ((loadKey cfg v env t s r).ret = .ok ∨ (loadKey cfg v env t s r).sys.nvm.store = s.nvm.store) := by
  unfold loadKey
  dsimp only
  split
  · exact ⟨hf, Or.inr rfl⟩
  rename_i hsz
  have hf1 := openM2_fine (cfg := cfg) (v := v) (env := env) (a := m1 r) (b := m2 r) (c := m3 r) hf
  have hq : ∀ m2' s1, openM2 cfg v env s (m1 r) (m2 r) (m3 r) = (.ok m2', s1) → m2'.length = 32 := by
    refine openM2_cases (cfg := cfg) (v := v) (env := env) (s := s) (r := r) hw
      (P := fun q => ∀ m2' s1, q = (.ok m2', s1) → m2'.length = 32) ?_ ?_
    · intro _ _ _ _ _ _ e; cases e
    · intro _ key s' _ _ _ _ _ e
      cases e
      exact cbcDec_length hs _ _ _ _ (zeros_length 16) (by unfold m2; rw [rdBytes_length (by omega)])
  have hrd : Reads cfg v.ctx s (openM2 cfg v env s (m1 r) (m2 r) (m3 r)).2 := by
    refine openM2_cases (cfg := cfg) (v := v) (env := env) (s := s) (r := r) hw
      (P := fun q => Reads cfg v.ctx s q.2) ?_ ?_
    · intro _ _ _ h; exact h
    · intro _ key s' h _ _; exact (readSlot_ok hw h).1
  change Fine (match openM2 cfg v env s (m1 r) (m2 r) (m3 r) with
    | (.error e, s1) => (⟨e, zeros 48, 52, t, s1⟩ : Res)
    | (.ok m2, s1) => _).sys.nvm ∧ ((match openM2 cfg v env s (m1 r) (m2 r) (m3 r) with
    | (.error e, s1) => (⟨e, zeros 48, 52, t, s1⟩ : Res)
    | (.ok m2, s1) => _).ret = .ok ∨ (match openM2 cfg v env s (m1 r) (m2 r) (m3 r) with
    | (.error e, s1) => (⟨e, zeros 48, 52, t, s1⟩ : Res)
    | (.ok m2, s1) => _).sys.nvm.store = _)
  rcases ho : openM2 cfg v env s (m1 r) (m2 r) (m3 r) with ⟨e | m2', s1⟩
  · rw [ho] at hf1 hrd
    exact ⟨hf1, Or.inr hrd.store⟩
  · rw [ho] at hf1 hrd
    have hlen := hq m2' s1 ho
    dsimp only at hf1 hrd ⊢
    have hw1 := hrd.wf hw
    have hf2 := target_fine (cfg := cfg) (v := v) (slot := popId (m1 r)) hf1
    have hrd2 : Reads cfg v.ctx s1 (target cfg v s1 (popId (m1 r))).2 := by
      refine target_cases (cfg := cfg) (v := v) (slot := popId (m1 r)) hw1 (P := fun q => Reads cfg v.ctx s1 q.2) ?_ ?_
      · intro _ _ _ h; exact h
      · intro _ _ _ h _; exact h
    change Fine (match target cfg v s1 (popId (m1 r)) with
      | (.error e, s2) => (⟨e, zeros 48, 52, t, s2⟩ : Res)
      | (.ok (keyRet, md), s2) => _).sys.nvm ∧ ((match target cfg v s1 (popId (m1 r)) with
      | (.error e, s2) => (⟨e, zeros 48, 52, t, s2⟩ : Res)
      | (.ok (keyRet, md), s2) => _).ret = .ok ∨ (match target cfg v s1 (popId (m1 r)) with
      | (.error e, s2) => (⟨e, zeros 48, 52, t, s2⟩ : Res)
      | (.ok (keyRet, md), s2) => _).sys.nvm.store = _)
    rcases ht : target cfg v s1 (popId (m1 r)) with ⟨e | ⟨keyRet, md⟩, s2⟩
    · rw [ht] at hf2 hrd2
      exact ⟨hf2, Or.inr (Reads.store (hrd.trans hrd2))⟩
    · rw [ht] at hf2 hrd2
      dsimp only at hf2 hrd2 ⊢
      have hst2 := Reads.store (hrd.trans hrd2)
      split
      · have hkl : ((m2'.drop 16).take 16).length = 16 := by simp [hlen]
        have hid : KeyId.idOf (newMeta cfg v (m1 r) m2' md).id = popId (m1 r) := idOf_popId ..
        change Fine (match store cfg v s2 (newMeta cfg v (m1 r) m2' md) ((m2'.drop 16).take 16) with
          | ((.ok, md', key), s3) => (_ : Res)
          | (_, s3) => _).sys.nvm ∧ _
        by_cases h14 : popId (m1 r) = 14
        · have hn : (store cfg v s2 (newMeta cfg v (m1 r) m2' md) ((m2'.drop 16).take 16)).2.nvm = s2.nvm := by
            unfold store; rw [if_pos (hid.trans h14)]; exact cacheKey_nvm ..
          rw [show rdBytes r.buf 0 16 = m1 r from rfl] at *
          rcases hq : store cfg v s2 (newMeta cfg v (m1 r) m2' md) ((m2'.drop 16).take 16) with ⟨⟨rc, md', key⟩, s3⟩
          rw [hq] at hn
          dsimp only at hn
          by_cases hrc : rc = .ok
          · subst hrc
            dsimp only
            rw [hn]; exact ⟨hf2, Or.inl (answer_fine hfa)⟩
          · have key : Fine s3.nvm ∧ (Rc.sheKeyUpdateError = .ok ∨ s3.nvm.store = s.nvm.store) := by
              rw [hn]; exact ⟨hf2, Or.inr hst2⟩
            cases rc <;> first | exact absurd rfl hrc | exact key
        · obtain ⟨s3, h3, hf3, _⟩ := store_fine (cfg := cfg) (v := v) (s := s2)
            (md := newMeta cfg v (m1 r) m2' md) (key := (m2'.drop 16).take 16)
            (hrd2.wf hw1) hf2 (by rw [hkl]; rfl) hkl (typeOf_sheId ..) (by rw [hid]; exact h14)
          rw [show rdBytes r.buf 0 16 = m1 r from rfl] at *
          rw [h3]
          exact ⟨hf3, Or.inl (answer_fine hfa)⟩
      · exact ⟨hf2, Or.inr hst2⟩

end WolfHsm.She

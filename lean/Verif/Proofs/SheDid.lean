import Verif.Proofs.SheSys

/-! # One SHE request: reads, and at most one write with a reason -/

namespace WolfHsm.She

open NvmFlash (Meta Store withLen)
open Keystore hiding Req Ev Cfg step run Reach
open Server (Req)
open Wire
open Utils (bytes32 read32)

variable {cfg : Cfg} {ncfg : NvmServer.Cfg}

/-! ## Labels and lengths -/

theorem split32 (v : UInt32) : (v >>> 24).toUInt8.toNat * 2 ^ 24 + (v >>> 16).toUInt8.toNat * 2 ^ 16 +
    (v >>> 8).toUInt8.toNat * 2 ^ 8 + v.toUInt8.toNat = v.toNat := by
  have := v.toNat_lt
  simp only [UInt32.toNat_toUInt8, UInt32.toNat_shiftRight, UInt32.reduceToNat, Nat.shiftRight_eq_div_pow,
    Nat.reduceMod, Nat.reducePow]
  omega

theorem labelCount_setLabel (l : Vector UInt8 24) (c f : UInt32) :
    labelCount (setLabel l c f) = c.toNat := by
  rw [← split32 c]
  unfold labelCount setLabel
  simp [bytes32]

theorem labelFlags_setLabel (l : Vector UInt8 24) (c f : UInt32) :
    labelFlags (setLabel l c f) = f.toNat := by
  rw [← split32 f]
  unfold labelFlags setLabel
  simp [bytes32]

theorem xorBytes_length (a b : List UInt8) : (xorBytes a b).length = min a.length b.length := by
  unfold xorBytes; exact List.length_zipWith

theorem zeros_length (n : Nat) : (zeros n).length = n := by simp [zeros]

theorem padBlock_length {b : List UInt8} (h : b.length ≤ 16) : (padBlock b).length = 16 := by
  unfold padBlock; simp [zeros_length]; omega

theorem mpLoop_length (hs : cfg.cr.Sized) (n : Nat) (inp prev : List UInt8) (hp : prev.length = 16) :
    (mpLoop cfg.cr n inp prev).length = 16 := by
  induction n generalizing inp prev with
  | zero => exact hp
  | succ n ih =>
    unfold mpLoop
    dsimp only
    apply ih
    rw [xorBytes_length, xorBytes_length, hs.enc, padBlock_length (by simp), hp]
    rfl

theorem mp16_length (hs : cfg.cr.Sized) (inp : List UInt8) : (mp16 cfg.cr inp).length = 16 :=
  mpLoop_length hs _ _ _ (zeros_length 16)

theorem cbcEnc_length (hs : cfg.cr.Sized) (key : List UInt8) (n : Nat) (iv d : List UInt8) :
    (cbcEnc cfg.cr key n iv d).length = 16 * n := by
  induction n generalizing iv d with
  | zero => rfl
  | succ n ih =>
    unfold cbcEnc
    dsimp only
    rw [List.length_append, hs.enc, ih]; omega

theorem cbcDec_length (hs : cfg.cr.Sized) (key : List UInt8) (n : Nat) (iv d : List UInt8) (hiv : iv.length = 16)
    (hd : 16 * n ≤ d.length) : (cbcDec cfg.cr key n iv d).length = 16 * n := by
  induction n generalizing iv d with
  | zero => rfl
  | succ n ih =>
    unfold cbcDec
    rw [List.length_append, xorBytes_length, hs.dec, hiv, ih]
    · omega
    · simp; omega
    · simp; omega

theorem rdBytes_length {buf : List UInt8} {off n : Nat} (h : off + n ≤ buf.length) :
    (rdBytes buf off n).length = n := by
  unfold rdBytes; simp; omega

theorem popId_lt (m : List UInt8) : (popId m).toNat < 16 := by
  unfold popId
  rw [UInt8.toNat_toUInt16, UInt8.toNat_shiftRight, UInt8.toNat_and]
  have h : (m.getD 15 0).toNat &&& (0xf0 : UInt8).toNat ≤ 240 := Nat.and_le_right
  simp only [UInt8.reduceToNat] at h ⊢
  rw [Nat.shiftRight_eq_div_pow]
  simp only [Nat.reduceMod, Nat.reducePow]
  omega

theorem and_FF_small {s : UInt16} (h : s.toNat < 256) : s &&& 0xFF = s := by
  apply UInt16.toNat_inj.1
  rw [UInt16.toNat_and]
  have : (0xFF : UInt16).toNat = 2 ^ 8 - 1 := rfl
  rw [this, Nat.and_two_pow_sub_one_eq_mod]
  omega

theorem idOf_popId (client : UInt16) (m : List UInt8) :
    KeyId.idOf (sheId cfg client (popId m)) = popId m := by
  rw [idOf_sheId, and_FF_small (by have := popId_lt m; omega)]

/-! ## What the medium reports does not change -/

theorem readKey_honest {x : Nat} {s : Sys} {id : UInt16} {n : Nat} (h : HonestN s.nvm) :
    HonestN (readKey cfg.ks x s id n).2.nvm := by
  intro k b; rw [readKey_outs]; exact h k b

/-! ## The write -/

/-- The check made before a write to a slot: what the context sees in it is not write protected
and has a smaller counter. -/
def Checked (cfg : Cfg) (x : Nat) (s : Sys) (id : UInt16) (count : Nat) : Prop :=
  HonestN s.nvm → ∀ md d, view cfg.ks x s id = some (md, d) → isWp md = false ∧ labelCount md.label < count

/-- What one SHE request does to the key store. -/
inductive Did (cfg : Cfg) (v : Srv) (r : Req) (s : Sys) : Sys → Prop where
  | reads {s'} (h : Reads cfg v.ctx s s') : Did cfg v r s s'
  | ram {s1 s' md data} (h1 : Reads cfg v.ctx s s1) (hid : md.id = sheId cfg v.client 14)
      (hl : md.len.toNat = data.length) (h2 : Wrote cfg v.ctx md data s1 s') : Did cfg v r s s'
  | seed {s1 s2 s' md d data} (h1 : Reads cfg v.ctx s s1)
      (hv : view cfg.ks v.ctx s1 (sheId cfg v.client 15) = some (md, d)) (h2 : Reads cfg v.ctx s1 s2)
      (hl : data.length = 16)
      (h3 : Wrote cfg v.ctx { md with id := sheId cfg v.client 15, len := 16 } data s2 s') :
      Did cfg v r s s'
  | load {s1 s2 s3 s' md data key} (ha : r.action = 5) (h1 : Reads cfg v.ctx s s1)
      (hk : HonestN s.nvm → key = authKey cfg v s r)
      (hh : HonestN s.nvm → HonestN s1.nvm)
      (hc : Checked cfg v.ctx s1 (updateSlot cfg v r) (updateCount cfg key r))
      (h2 : Reads cfg v.ctx s1 s2) (hid : md.id = updateSlot cfg v r) (hn : popId (m1 r) ≠ 14)
      (hcnt : labelCount md.label = updateCount cfg key r)
      (hl : md.len.toNat = data.length) (h3 : Wrote cfg v.ctx md data s2 s3)
      (h4 : Reads cfg v.ctx s3 s') : Did cfg v r s s'

theorem Did.wf {v : Srv} {r : Req} {s s' : Sys} (h : Did cfg v r s s') (hw : WF s) : WF s' := by
  cases h with
  | reads h => exact h.wf hw
  | ram h1 hid hl h2 => exact h2.wf hl (h1.wf hw)
  | seed h1 hv h2 hl h3 => exact h3.wf (by rw [hl]; rfl) (h2.wf (h1.wf hw))
  | load ha h1 hk hh hc h2 hid hn hcnt hl h3 h4 => exact h4.wf (h3.wf hl (h2.wf (h1.wf hw)))

/-! ## The parts of `LOAD_KEY` -/

theorem authKey_of {v : Srv} {s s' : Sys} {r : Req} {md : Meta} {key : List UInt8} (hw : WF s)
    (h : readSlot cfg v s (popAuth (m1 r)) = ((.ok, some (md, key)), s')) (hh : HonestN s.nvm) :
    key = authKey cfg v s r := by
  obtain ⟨_, _, h | ⟨_, h2, _, h3⟩⟩ := readSlot_ok hw h
  · simp [authKey, slotKey, h]
  · simp [authKey, slotKey, h3 hh, h2]

theorem openM2_cases {v : Srv} {env : Env} {s : Sys} {r : Req} (hw : WF s)
    {P : Except Rc (List UInt8) × Sys → Prop}
    (herr : ∀ e s', e ≠ .ok → Reads cfg v.ctx s s' → P (.error e, s'))
    (hok : ∀ md key s', readSlot cfg v s (popAuth (m1 r)) = ((.ok, some (md, key)), s') →
      key.length = 16 → m3 r = cfg.cr.cmac (mp16 cfg.cr (key ++ macC)) (m1 r ++ m2 r) →
      P (.ok (cbcDec cfg.cr (mp16 cfg.cr (key ++ encC)) 2 (zeros 16) (m2 r)), s')) :
    P (openM2 cfg v env s (m1 r) (m2 r) (m3 r)) := by
  have hr := readSlot_reads (cfg := cfg) (v := v) (popAuth (m1 r)) hw
  unfold openM2
  rcases hrs : readSlot cfg v s (popAuth (m1 r)) with ⟨⟨rc, o⟩, s1⟩
  rw [hrs] at hr
  by_cases hrc : rc = .ok
  · subst hrc
    cases o with
    | none => exact herr _ _ (by simp [errRc]) hr
    | some p =>
      obtain ⟨md, key⟩ := p
      dsimp only
      split
      · exact herr _ _ (by simp) hr
      split
      · exact herr _ _ (by simp) hr
      split
      · exact herr _ _ (by simp [cryptoErr]) hr
      split
      · exact herr _ _ (by simp) hr
      split
      · exact herr _ _ (by simp [cryptoErr]) hr
      · rename_i h1 _ _ h2 _
        exact hok md key s1 hrs (by simpa using h1) (by simpa using h2)
  · have : errRc rc ≠ .ok := errRc_ne_ok _
    cases rc <;> first | exact absurd rfl hrc | exact herr _ _ this hr | exact herr _ _ (by simp) hr

theorem target_cases {v : Srv} {s : Sys} {slot : UInt16} (hw : WF s)
    {P : Except Rc (Rc × Meta) × Sys → Prop}
    (herr : ∀ e s', e ≠ .ok → Reads cfg v.ctx s s' → P (.error e, s'))
    (hok : ∀ keyRet md s', Reads cfg v.ctx s s' →
      (HonestN s.nvm → ∀ md' d, view cfg.ks v.ctx s (sheId cfg v.client slot) = some (md', d) →
        isWp md' = false ∧ keyRet ≠ .notfound ∧ md = md') → P (.ok (keyRet, md), s')) :
    P (target cfg v s slot) := by
  unfold target
  have key : ∀ q : (Rc × Option (Meta × List UInt8)) × Sys, readSlot cfg v s slot = q →
      P (match q with
        | ((.ok, some (md, key)), s1) =>
          if key.length ≠ 16 then (.error .sheKeyInvalid, s1)
          else if isWp md then (.error .sheWriteProtected, s1)
          else (.ok (.ok, md), s1)
        | ((.nospace, _), s1) => (.error .sheKeyInvalid, s1)
        | ((rc, _), s1) =>
          let md := metaLeft cfg v s slot
          if rc = .notfound ∨ isWp md = false then (.ok (rc, md), s1)
          else (.error .sheWriteProtected, s1)) := by
    intro q hq
    rw [← hq]
    unfold readSlot
    refine readKey_she_cases (P := fun q => P (match q with
        | ((.ok, some (md, key)), s1) =>
          if key.length ≠ 16 then (.error .sheKeyInvalid, s1)
          else if isWp md then (.error .sheWriteProtected, s1)
          else (.ok (.ok, md), s1)
        | ((.nospace, _), s1) => (.error .sheKeyInvalid, s1)
        | ((rc, _), s1) =>
          let md := metaLeft cfg v s slot
          if rc = .notfound ∨ isWp md = false then (.ok (rc, md), s1)
          else (.error .sheWriteProtected, s1))) hw (typeOf_sheId ..) ?_ ?_ ?_ ?_ ?_
    · intro md bs s' hv hl hr
      dsimp only
      split
      · exact herr _ _ (by simp) hr
      split
      · exact herr _ _ (by simp) hr
      · rename_i h1 h2
        refine hok _ _ _ hr ?_
        intro _ md' d hv'
        rw [hv] at hv'; cases hv'
        exact ⟨by simpa using h2, by simp, rfl⟩
    · intro s' h1 h2 h3 hr
      have hnone : HonestN s.nvm → view cfg.ks v.ctx s (sheId cfg v.client slot) = none := by
        intro hh; simp [view, h2, h3 hh]
      dsimp only [sheMasterZero]
      split
      · exact herr _ _ (by simp) hr
      split
      · exact herr _ _ (by simp) hr
      · refine hok _ _ _ hr ?_
        intro hh md' d hv'
        rw [hnone hh] at hv'; cases hv'
    · intro s' hr; exact herr _ _ (by simp) hr
    · intro s' h1 h2 hr
      dsimp only
      rw [if_pos (Or.inl rfl)]
      refine hok _ _ _ hr ?_
      intro hh md' d hv'
      simp [view, h1, h2 hh] at hv'
    · intro rc s' h1 h2 h3 h4 h5 hr
      have : P (if rc = .notfound ∨ isWp (metaLeft cfg v s slot) = false then
          (.ok (rc, metaLeft cfg v s slot), s') else (.error .sheWriteProtected, s')) := by
        split
        · rename_i hwp
          refine hok _ _ _ hr ?_
          intro _ md' d hv'
          rcases hst : s.nvm.store (sheId cfg v.client slot) with _ | ⟨md0, d0⟩
          · exact absurd hst h5
          · simp only [view, h4, hst, Option.some.injEq, Prod.mk.injEq] at hv'
            have hml : metaLeft cfg v s slot = md0 := by
              unfold metaLeft; rw [h4, Nvm.metadata_some hst]
            rw [hml] at hwp ⊢
            exact ⟨hv'.1 ▸ hwp.resolve_left h3, h3, hv'.1⟩
        · exact herr _ _ (by simp) hr
      cases rc <;> first | exact absurd rfl h1 | exact absurd rfl h2 | exact absurd rfl h3 | exact this
  exact key _ rfl

theorem accept_ok {t : St} {m1 m2 : List UInt8} {keyRet : Rc} {md : Meta}
    (h : accept t m1 m2 keyRet md = .ok) :
    (keyRet ≠ .notfound → labelCount md.label < (popCount m2).toNat) ∧
    (m1.take 15 = t.uid ∨ m1.take 15 = zeros 15 ∧ isWild md = true) := by
  have key : ∀ u : Rc, (if u = .ok ∧ keyRet ≠ .notfound ∧ (popCount m2).toNat ≤ labelCount md.label then
      Rc.sheKeyUpdateError else u) = .ok → u = .ok ∧
      (keyRet ≠ .notfound → labelCount md.label < (popCount m2).toNat) := by
    intro u hu
    split at hu
    · cases hu
    · rename_i h1
      subst hu
      refine ⟨rfl, fun hk => ?_⟩
      rcases Nat.lt_or_ge (labelCount md.label) (popCount m2).toNat with h3 | h3
      · exact h3
      · exact absurd ⟨rfl, hk, h3⟩ h1
  obtain ⟨h1, h2⟩ := key _ h
  refine ⟨h2, ?_⟩
  split at h1
  · split at h1
    · rename_i h3 h4; exact Or.inr ⟨h3, h4⟩
    · cases h1
  · split at h1
    · rename_i h4; exact Or.inl h4
    · cases h1

/-- The fourth part: for the RAM key a cache entry, for the others the object, and the cached copy
dropped. -/
theorem store_cases {v : Srv} {s : Sys} {md : Meta} {key : List UInt8} (hw : WF s)
    (hl : md.len.toNat = key.length) {P : (Rc × Meta × List UInt8) × Sys → Prop}
    (hram : ∀ rc s', KeyId.idOf md.id = 14 → Wrote cfg v.ctx md key s s' → s'.nvm = s.nvm →
      (rc = .ok → Filled cfg.ks v.ctx s s' md key) → P ((rc, md, key), s'))
    (herr : ∀ rc s1 s2, KeyId.idOf md.id ≠ 14 → rc ≠ .ok → Wrote cfg v.ctx md key s s1 →
      Reads cfg v.ctx s1 s2 → P ((rc, md, key), s2))
    (hok : ∀ md' key' s1 s2, KeyId.idOf md.id ≠ 14 → Wrote cfg v.ctx md key s s1 →
      s1.nvm.store md.id = some (md, key) → s1.nvm.pending = none →
      (cached cfg.ks v.ctx s1 md.id = none ∨ KeyId.isUnassigned md.id = true ∨ isHw cfg.ks md.id = true) →
      readKey cfg.ks v.ctx s1 md.id 16 = ((.ok, some (md', key')), s2) → P ((.ok, md', key'), s2)) :
    P (store cfg v s md key) := by
  unfold store
  split
  · rename_i h14
    dsimp only
    refine cacheKey_wrote (P := fun p => p.2.nvm = s.nvm → P ((p.1, md, key), p.2)) hw ?_ ?_
      (cacheKey_nvm ..)
    · intro s' h e; exact hram _ _ h14 (filled_wrote h) e (fun _ => h)
    · intro rc s' hrc h e; exact hram _ _ h14 h e (fun h => absurd h hrc)
  · rename_i h14
    refine add_wrote (cfg := cfg) (x := v.ctx) (P := fun q => P (match q with
      | (.ok, n1) =>
        let s1 := { s with nvm := n1 }
        let p := evictKey cfg.ks v.ctx s1 md.id
        if p.1 = .ok ∨ p.1 = .notfound then
          match readKey cfg.ks v.ctx p.2 md.id 16 with
          | ((.ok, some (md', key')), s3) => ((.ok, md', key'), s3)
          | ((rc, _), s3) => ((errRc rc, md, key), s3)
        else ((p.1, md, key), p.2)
      | (rc, n1) => ((rc, md, key), { s with nvm := n1 }))) hw hl ?_ ?_
    · intro n hwr hst hpe _
      dsimp only
      have hw1 := hwr.wf hl hw
      have cont : ∀ s1, Wrote cfg v.ctx md key s s1 → s1.nvm.store md.id = some (md, key) →
          s1.nvm.pending = none →
          (cached cfg.ks v.ctx s1 md.id = none ∨ KeyId.isUnassigned md.id = true ∨ isHw cfg.ks md.id = true) →
          P (match readKey cfg.ks v.ctx s1 md.id 16 with
          | ((.ok, some (md', key')), s3) => ((.ok, md', key'), s3)
          | ((rc, _), s3) => ((errRc rc, md, key), s3)) := by
        intro s1 h1 h2 h3 h4
        have hw2 := h1.wf hl hw
        have hr := readKey_reads (cfg := cfg) (x := v.ctx) md.id 16 hw2
        rcases hrk : readKey cfg.ks v.ctx s1 md.id 16 with ⟨⟨rc, o⟩, s2⟩
        rw [hrk] at hr
        by_cases hrc : rc = .ok
        · subst hrc
          cases o with
          | none => exact herr _ _ _ h14 (by simp [errRc]) h1 hr
          | some p => exact hok p.1 p.2 s1 s2 h14 h1 h2 h3 h4 hrk
        · have := herr (errRc rc) _ _ h14 (errRc_ne_ok rc) h1 hr
          cases rc <;> first | exact absurd rfl hrc | exact this
      unfold evictKey
      split
      · rename_i hu
        rw [if_neg (by simp)]
        exact herr _ _ _ h14 (by simp) hwr (.nil _)
      split
      · rw [if_neg (by simp)]
        exact herr _ _ _ h14 (by simp) hwr (.nil _)
      split
      · rename_i hc
        rw [if_pos (Or.inr rfl)]
        exact cont _ hwr hst hpe (Or.inl hc)
      · rename_i k hk
        rw [if_pos (Or.inl rfl)]
        obtain ⟨g1, g2, g3⟩ := Keystore.evicted (cfg := cfg.ks) (x := v.ctx) (id := md.id) hw1
        refine cont _ (hwr.evicted ⟨g1, hk, g2, g3⟩) ?_ ?_ (Or.inl g2)
        · rw [g3]; exact hst
        · rw [g3]; exact hpe
    · intro rc n hrc hwr
      have := herr rc _ _ h14 hrc hwr (.nil _)
      cases rc <;> first | exact absurd rfl hrc | exact this

end WolfHsm.She

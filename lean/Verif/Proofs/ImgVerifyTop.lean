import Verif.Proofs.ImgVerifyKey

/-!
# One verification and the table of images

Lemmas for C49 above the verification methods.
-/

namespace WolfHsm.ImgMgr

open Keystore (Sys WF GoodCfg)

variable {E : Type}

theorem judge_inv {cfg : Cfg E} {x : Nat} {t : Turn E} {s s' : Cert.State} {img : Img}
    {key sig : List UInt8} {rc : Rc} {v : Verdict} (h : judge cfg x t s img key sig = .val ((rc, v), s')) :
    rc = .ok ∧ callMethod cfg x t s img key sig = .val (v.method, s') ∧
      v.action = match img.action with
        | some a => a.run v.method
        | none => .nohandler := by
  unfold judge at h
  obtain ⟨⟨m, s1⟩, hm, h⟩ := bind_inv h
  cases h
  exact ⟨rfl, hm, rfl⟩

/-- How a verification ended, in any state. -/
theorem verifyImg_ends {cfg : Cfg E} {x : Nat} {t : Turn E} {s s' : Cert.State}
    {img : Img} {rc : Rc} {v : Verdict} (h : verifyImg cfg x t s img = .val ((rc, v), s')) :
    (rc ≠ .ok ∧ v = .unknown) ∨
    (rc = .ok ∧ img.type ≠ .other ∧ ∃ s1 key sig,
      callMethod cfg x t s1 img key sig = .val (v.method, s') ∧
      v.action = match img.action with
        | some a => a.run v.method
        | none => .nohandler) := by
  have hj : ∀ {s1 key sig}, img.type ≠ .other → judge cfg x t s1 img key sig = .val ((rc, v), s') →
      (rc ≠ .ok ∧ v = .unknown) ∨ (rc = .ok ∧ img.type ≠ .other ∧ ∃ s1 key sig,
      callMethod cfg x t s1 img key sig = .val (v.method, s') ∧
      v.action = match img.action with
        | some a => a.run v.method
        | none => .nohandler) := fun hne hj =>
    .inr ⟨(judge_inv hj).1, hne, _, _, _, (judge_inv hj).2⟩
  unfold verifyImg at h
  cases hty : img.type with
  | wolfBoot =>
    rw [hty] at h
    dsimp only at h
    rw [← hty]
    split at h
    · exact hj (by rw [hty]; intro hc; cases hc) h
    · next hne _ => cases h; exact .inl ⟨hne, rfl⟩
  | wolfBootCert =>
    rw [hty] at h
    rw [← hty]
    exact hj (by rw [hty]; intro hc; cases hc) h
  | raw =>
    rw [hty] at h
    dsimp only at h
    rw [← hty]
    split at h
    · split at h
      · exact hj (by rw [hty]; intro hc; cases hc) h
      · next hne _ => cases h; exact .inl ⟨hne, rfl⟩
    · next hne _ => cases h; exact .inl ⟨hne, rfl⟩
  | other =>
    rw [hty] at h
    cases h
    exact .inl ⟨(fun hc => by cases hc), rfl⟩

/-- How a verification ended. -/
theorem verifyImg_inv {cfg : Cfg E} {P : UInt16 → Prop} {x : Nat} {t : Turn E} {s s' : Cert.State}
    {img : Img} {rc : Rc} {v : Verdict} (hg : Good cfg P s)
    (h : verifyImg cfg x t s img = .val ((rc, v), s')) :
    (rc ≠ .ok ∧ v = .unknown) ∨
    (rc = .ok ∧ ∃ s1 key sig, Good cfg P s1 ∧ s1.sys.nvm.store = s.sys.nvm.store ∧
      (match img.type with
        | .raw => KeyIs cfg x s img key ∧ SigIs s img sig
        | .wolfBoot => KeyIs cfg x s img key ∧ sig = []
        | .wolfBootCert => key = [] ∧ sig = []
        | .other => False) ∧
      callMethod cfg x t s1 img key sig = .val (v.method, s') ∧
      v.action = match img.action with
        | some a => a.run v.method
        | none => .nohandler) := by
  have hkg := loadKey_good (x := x) (img := img) hg
  have hks : (loadKey cfg x s img).2.sys.nvm.store = s.sys.nvm.store := by
    rw [loadKey_state]; exact freshen_store _ _ _ _ hg.wf
  unfold verifyImg at h
  cases hty : img.type with
  | wolfBoot =>
    rw [hty] at h
    dsimp only at h
    split at h
    · next key s1 e =>
      rw [e] at hkg hks
      obtain ⟨h1, h2, h3⟩ := judge_inv h
      exact .inr ⟨h1, s1, key, [], hkg, hks, ⟨loadKey_ok hg.wf e, rfl⟩, h2, h3⟩
    · next rc' _ s1 hne e =>
      cases h
      exact .inl ⟨hne, rfl⟩
  | wolfBootCert =>
    rw [hty] at h
    obtain ⟨h1, h2, h3⟩ := judge_inv h
    exact .inr ⟨h1, s, [], [], hg, rfl, ⟨rfl, rfl⟩, h2, h3⟩
  | raw =>
    rw [hty] at h
    dsimp only at h
    split at h
    · next key s1 e =>
      rw [e] at hkg hks
      have hsg := loadSig_good (img := img) hkg
      have hss : (loadSig cfg s1 img).2.sys.nvm.store = s1.sys.nvm.store := by
        unfold loadSig
        split
        · split
          · rfl
          · exact read_store ..
        · rfl
      split at h
      · next sig s2 e2 =>
        rw [e2] at hsg hss
        obtain ⟨h1, h2, h3⟩ := judge_inv h
        refine .inr ⟨h1, s2, key, sig, hsg, hss.trans hks, ⟨loadKey_ok hg.wf e, ?_⟩, h2, h3⟩
        obtain ⟨md, hm⟩ := loadSig_ok hkg.wf e2
        exact ⟨md, by rw [← hks]; exact hm⟩
      · next rc' _ _ hne e2 =>
        cases h
        exact .inl ⟨hne, rfl⟩
    · next rc' _ s1 hne e =>
      cases h
      exact .inl ⟨hne, rfl⟩
  | other =>
    rw [hty] at h
    cases h
    exact .inl ⟨(fun hc => by cases hc), rfl⟩

theorem verifyImg_genuine {cfg : Cfg E} (hb : cfg.cert.ks.bigBufSize < 65536) {P : UInt16 → Prop} {x : Nat}
    {t : Turn E} {s s' : Cert.State} {img : Img} {rc : Rc} {v : Verdict} (hg : Good cfg P s)
    (hP : img.method = some .wolfBootCert → P img.sigId)
    (hlen : img.mem.hdr.length < 2 ^ 32) (hpl : img.mem.payload.length < 2 ^ 32)
    (h : verifyImg cfg x t s img = .val ((rc, v), s')) (hv : v.method = .ok) :
    rc = .ok ∧ Genuine cfg x s s'.log img := by
  rcases verifyImg_inv hg h with ⟨_, rfl⟩ | ⟨h1, s1, key, sig, hg1, hs1, hin, hm, _⟩
  · cases hv
  · rw [hv] at hm
    exact ⟨h1, callMethod_genuine hb hg1 hs1 hP hlen hpl hin hm⟩

theorem bootCert_val (cfg : Cfg E) (x : Nat) (t : Turn E) (s : Cert.State) (img : Img)
    (hlen : img.mem.hdr.length < 2 ^ 32) : ∃ r, bootCert cfg x t s img = .val r := by
  obtain ⟨rm, em, _⟩ := mapImage_val t.env img.mem
  unfold bootCert
  rw [em, bind_val]
  match rm with
  | .error rc => exact ⟨_, rfl⟩
  | .ok payload =>
    obtain ⟨rv, ev, _⟩ := validate_val cfg.crypto t.env img.mem.base img.mem.hdr payload hlen
    dsimp only
    rw [ev, bind_val]
    match rv with
    | .error rc => exact ⟨_, rfl⟩
    | .ok (hash, sig) =>
      obtain ⟨r, er, hr⟩ := find_safe img.mem.base img.mem.hdr 0x23
      have hf : ∃ chain, fieldAt img.mem.hdr r = .val chain := by
        match r, hr with
        | none, _ => exact ⟨[], rfl⟩
        | some (off, len), hr => exact ⟨_, rdN_val (hr off len rfl).2⟩
      obtain ⟨chain, ef⟩ := hf
      dsimp only
      rw [er, bind_val, ef, bind_val]
      by_cases hc : chain.length = 0
      · rw [if_pos hc]; exact ⟨_, rfl⟩
      rw [if_neg hc]
      split
      · next id s1 _ =>
        split
        · next k _ _ =>
          obtain ⟨rc, e, _⟩ := checkKey_val cfg.crypto t.env img.mem k.data hash sig
          rw [e, bind_val]
          exact ⟨_, rfl⟩
        · exact ⟨_, rfl⟩
      · exact ⟨_, rfl⟩

theorem callMethod_val (cfg : Cfg E) (x : Nat) (t : Turn E) (s : Cert.State) (img : Img)
    (key sig : List UInt8) (hlen : img.mem.hdr.length < 2 ^ 32) :
    ∃ r, callMethod cfg x t s img key sig = .val r := by
  unfold callMethod
  split
  all_goals first
    | exact ⟨_, rfl⟩
    | exact bootCert_val cfg x t s img hlen
    | (obtain ⟨rc, e⟩ := (Props.C43_methods_safe cfg.crypto t.env img.mem key (fun _ => .error .ok) hlen).1
       rw [e, bind_val]
       exact ⟨_, rfl⟩)

theorem judge_val (cfg : Cfg E) (x : Nat) (t : Turn E) (s : Cert.State) (img : Img)
    (key sig : List UInt8) (hlen : img.mem.hdr.length < 2 ^ 32) :
    ∃ r, judge cfg x t s img key sig = .val r := by
  obtain ⟨⟨m, s1⟩, e⟩ := callMethod_val cfg x t s img key sig hlen
  unfold judge
  rw [e, bind_val]
  exact ⟨_, rfl⟩

theorem verifyImg_val (cfg : Cfg E) (x : Nat) (t : Turn E) (s : Cert.State) (img : Img)
    (hlen : img.mem.hdr.length < 2 ^ 32) : ∃ r, verifyImg cfg x t s img = .val r := by
  unfold verifyImg
  repeat' split
  all_goals first
    | exact ⟨_, rfl⟩
    | exact judge_val cfg x t _ img _ _ hlen

/-! ## The table -/

theorem seq_length {cfg : Cfg E} {x : Nat} {t : Nat → Turn E} {i : Nat} {imgs : List Img}
    {s s' : Cert.State} {vs : List Verdict} (h : Sequence cfg x t i imgs s vs s') :
    vs.length = imgs.length := by
  induction h with
  | nil => rfl
  | cons _ _ ih => simp [ih]

theorem verifyLoop_spec {cfg : Cfg E} (x : Nat) (t : Nat → Turn E) :
    ∀ (imgs : List Img) (pre post : List Verdict) (s s' : Cert.State) (rc : Rc) (idx : Option Nat)
      (res : List Verdict), imgs.length ≤ post.length →
    verifyLoop cfg x t imgs pre.length (pre ++ post) s = .val ((rc, idx, res), s') →
    (rc = .ok ∧ idx = none ∧ ∃ vs, Sequence cfg x t pre.length imgs s vs s' ∧
      res = pre ++ vs ++ post.drop imgs.length) ∨
    (rc ≠ .ok ∧ ∃ k img vs s1, idx = some (pre.length + k) ∧ imgs[k]? = some img ∧
      Sequence cfg x t pre.length (imgs.take k) s vs s1 ∧
      verifyImg cfg x (t (pre.length + k)) s1 img = .val ((rc, .unknown), s') ∧
      res = pre ++ vs ++ .unknown :: post.drop (k + 1)) := by
  intro imgs
  induction imgs with
  | nil =>
    intro pre post s s' rc idx res _ h
    unfold verifyLoop at h
    cases h
    exact .inl ⟨rfl, rfl, [], .nil .., by simp⟩
  | cons img imgs ih =>
    intro pre post s s' rc idx res hl h
    match post, hl with
    | p :: post, hl =>
      unfold verifyLoop at h
      obtain ⟨⟨⟨rc1, v⟩, s1⟩, hv, h⟩ := bind_inv h
      have hset : (pre ++ p :: post).set pre.length v = pre ++ [v] ++ post := by
        simp [List.set_append]
      dsimp only at h
      split at h
      · next hok =>
        subst hok
        rw [hset] at h
        have hlen : (pre ++ [v]).length = pre.length + 1 := by simp
        rw [← hlen] at h
        rcases ih (pre ++ [v]) post s1 s' rc idx res (by simpa using hl) h with
          ⟨h1, h2, vs, h3, h4⟩ | ⟨h1, k, img', vs, s2, h2, h3, h4, h5, h6⟩
        · rw [hlen] at h3
          exact .inl ⟨h1, h2, v :: vs, .cons hv h3, by rw [h4]; simp⟩
        · rw [hlen] at h2 h4 h5
          refine .inr ⟨h1, k + 1, img', v :: vs, s2, by rw [h2]; congr 1; omega, h3, .cons hv h4, ?_,
            by rw [h6]; simp⟩
          rw [show pre.length + (k + 1) = pre.length + 1 + k by omega]
          exact h5
      · next hne =>
        cases h
        rcases verifyImg_ends hv with ⟨_, rfl⟩ | ⟨h1, _⟩
        · exact .inr ⟨hne, 0, img, [], s, rfl, rfl, .nil .., hv, by rw [hset]; simp⟩
        · exact absurd h1 hne

theorem verifyLoop_val (cfg : Cfg E) (x : Nat) (t : Nat → Turn E) :
    ∀ (imgs : List Img) (i : Nat) (out : List Verdict) (s : Cert.State),
    (∀ img ∈ imgs, img.mem.hdr.length < 2 ^ 32) → ∃ r, verifyLoop cfg x t imgs i out s = .val r := by
  intro imgs
  induction imgs with
  | nil => intro i out s _; exact ⟨_, rfl⟩
  | cons img imgs ih =>
    intro i out s h
    unfold verifyLoop
    obtain ⟨⟨⟨rc, v⟩, s1⟩, e⟩ := verifyImg_val cfg x (t i) s img (h img (List.mem_cons_self ..))
    rw [e, bind_val]
    dsimp only
    split
    · exact ih _ _ _ fun i hi => h i (List.mem_cons_of_mem _ hi)
    · exact ⟨_, rfl⟩

theorem seq_genuine {cfg : Cfg E} (hb : cfg.cert.ks.bigBufSize < 65536) {P : UInt16 → Prop} {x : Nat}
    {t : Nat → Turn E} {i : Nat} {imgs : List Img} {s s' : Cert.State} {vs : List Verdict}
    (h : Sequence cfg x t i imgs s vs s') (hg : Good cfg P s)
    (hP : ∀ img ∈ imgs, img.method = some .wolfBootCert → P img.sigId)
    (hlen : ∀ img ∈ imgs, img.mem.hdr.length < 2 ^ 32 ∧ img.mem.payload.length < 2 ^ 32) :
    ∀ k img v, imgs[k]? = some img → vs[k]? = some v → v.method = .ok →
      ∃ s1 s2, Sequence cfg x t i (imgs.take k) s (vs.take k) s1 ∧
        verifyImg cfg x (t (i + k)) s1 img = .val ((.ok, v), s2) ∧ Genuine cfg x s1 s2.log img := by
  induction h with
  | nil => intro k img v h; simp at h
  | @cons i img0 imgs s s1 s' v0 vs hv hs ih =>
    intro k img v hi hvk hok
    match k with
    | 0 =>
      cases hi
      cases hvk
      obtain ⟨h1, h2⟩ := hlen img0 (List.mem_cons_self ..)
      exact ⟨s, s1, .nil .., hv, (verifyImg_genuine hb hg (hP img0 (List.mem_cons_self ..)) h1 h2 hv hok).2⟩
    | k + 1 =>
      obtain ⟨a, b, h1, h2, h3⟩ := ih (verifyImg_good hb hg hv) (fun j hj => hP j (List.mem_cons_of_mem _ hj))
        (fun j hj => hlen j (List.mem_cons_of_mem _ hj)) k img v hi hvk hok
      exact ⟨a, b, .cons hv h1, by rw [show i + (k + 1) = i + 1 + k by omega]; exact h2, h3⟩

end WolfHsm.ImgMgr

import Verif.Proofs.AuthHist

/-! # Rights of users and sessions -/

namespace WolfHsm.Auth

open NvmFlash (Meta Store withLen)

theorem Perms.Within.refl (p : Perms) : p.Within p := ⟨fun h => h, fun _ _ h => h, fun _ h => h⟩
theorem Perms.Within.trans {p q r : Perms} (h : p.Within q) (h' : q.Within r) : p.Within r :=
  ⟨fun a => h'.1 (h.1 a), fun g a x => h'.2.1 g a (h.2.1 g a x), fun k x => h'.2.2 k (h.2.2 k x)⟩

theorem zero_word (g w : Nat) : Perms.zero.word g w = 0 := by
  unfold Perms.word Perms.zero
  dsimp only
  split
  · rename_i v hv
    have : v = Vector.replicate 8 0 := by
      have := List.mem_of_getElem? hv
      simpa using this
    subst this
    simp only [Vector.toList_replicate, List.getD_eq_getElem?_getD, List.getElem?_replicate]
    split <;> rfl
  · rfl

theorem zero_within (p : Perms) : Perms.zero.Within p := by
  refine ⟨fun h => absurd h (by decide), fun g a h => ?_, fun k h => ?_⟩
  · have := h.2.2.2
    rw [zero_word] at this
    simp at this
  · obtain ⟨i, hi, _⟩ := h
    have : Perms.zero.keyIdCount.toNat = 0 := by decide
    omega

/-! ## Clamping -/

theorem clamp_keyId (p : Perms) {k : Nat} (hk : k < p.count) : p.clamp.keyId k = p.keyId k := by
  have h2 : k < 2 := by
    have : p.count ≤ 2 := Nat.min_le_right _ _
    omega
  unfold Perms.keyId Perms.clamp
  simp only [List.getD_eq_getElem?_getD, Vector.getElem?_toList]
  rw [Vector.getElem?_eq_getElem h2, Vector.getElem?_eq_getElem h2]
  simp [hk]

theorem clamp_count_eq (p : Perms) : p.clamp.keyIdCount.toNat = p.count := by
  have hc : p.count = min p.keyIdCount.toNat 2 := rfl
  by_cases h : p.keyIdCount.toNat > 2
  · have e : p.clamp.keyIdCount = 2 := if_pos h
    have : (2 : UInt16).toNat = 2 := rfl
    rw [e]; omega
  · have e : p.clamp.keyIdCount = p.keyIdCount := if_neg h
    rw [e]; omega

/-- Clamping keeps all rights. -/
theorem clamp_rights (p : Perms) : p.clamp.isAdmin = p.isAdmin ∧
    (∀ g a, p.clamp.Grants g a ↔ p.Grants g a) ∧ ∀ k, p.clamp.Lists k ↔ p.Lists k := by
  refine ⟨rfl, fun g a => Iff.rfl, fun k => ?_⟩
  have hc : p.count = min p.keyIdCount.toNat 2 := rfl
  constructor
  · rintro ⟨i, h1, h2, h3⟩
    rw [clamp_count_eq] at h1
    rw [clamp_keyId p h1] at h3
    exact ⟨i, by omega, h2, h3⟩
  · rintro ⟨i, h1, h2, h3⟩
    have h4 : i < p.count := by omega
    exact ⟨i, by rw [clamp_count_eq]; exact h4, h2, by rw [clamp_keyId p h4]; exact h3⟩

theorem clamp_within (p : Perms) : p.clamp.Within p :=
  ⟨fun h => h, fun _ _ h => h, fun k h => ((clamp_rights p).2.2 k).mp h⟩

theorem within_clamp (p : Perms) : p.Within p.clamp :=
  ⟨fun h => h, fun _ _ h => h, fun k h => ((clamp_rights p).2.2 k).mpr h⟩

theorem clamp_of_le {p : Perms} (h : p.keyIdCount.toNat ≤ maxKeyIds) :
    p.clamp.keyIdCount = p.keyIdCount := by
  unfold Perms.clamp
  have : ¬ p.keyIdCount.toNat > maxKeyIds := by omega
  simp [this]

/-! ## The subset check -/

theorem and_not_zero {a b : UInt32} (h : a &&& ~~~b = 0) (i : Nat) (hi : a.toNat.testBit i = true) :
    b.toNat.testBit i = true := by
  have h1 : (a &&& ~~~b).toBitVec = 0 := by rw [h]; rfl
  have h2 : (a &&& ~~~b).toBitVec.getLsbD i = false := by rw [h1]; simp
  rw [UInt32.toBitVec_and, UInt32.toBitVec_not, BitVec.getLsbD_and, BitVec.getLsbD_not] at h2
  have ha : a.toBitVec.getLsbD i = true := hi
  have hlt : i < 32 := BitVec.lt_of_getLsbD ha
  rw [ha] at h2
  simp only [hlt, decide_true, Bool.true_and, Bool.not_eq_false'] at h2
  exact h2

theorem subset_within {caller new : Perms} (h : subsetOk caller new = true) :
    new.Within caller ∧ new.isAdmin = false := by
  unfold subsetOk at h
  simp only [Bool.and_eq_true, Bool.not_eq_true', List.all_eq_true, List.mem_range, Bool.or_eq_true,
    beq_iff_eq, bne_iff_ne, List.any_eq_true] at h
  obtain ⟨⟨h1, h2⟩, h3⟩ := h
  refine ⟨⟨fun ha => absurd ha (by rw [h1]; simp), ?_, ?_⟩, h1⟩
  · rintro g a ⟨hg, ha, hgr, hb⟩
    obtain ⟨hx, hy⟩ := h2 g hg
    refine ⟨hg, ha, ?_, and_not_zero (hy (a / 32) (by show a / 32 < 8; omega)) _ hb⟩
    cases hx with
    | inl hx => exact absurd hx hgr
    | inr hx => exact hx
  · rintro k ⟨i, hi, hi2, hk⟩
    obtain ⟨c, hc, e⟩ := h3 i (by show i < min _ 2; omega)
    have hc' : c < min caller.keyIdCount.toNat 2 := hc
    exact ⟨c, by omega, by omega, by rw [e, hk]⟩

/-- The bit test of the code. -/
theorem actionBit_iff (p : Perms) (g : Nat) (a : UInt16) (hg : g < 14) (hz : p.group g ≠ 0) :
    actionBit p g a = true ↔ p.Grants g a.toNat := by
  unfold actionBit Perms.Grants
  simp only [Bool.and_eq_true, decide_eq_true_eq, bne_iff_ne, ne_eq]
  have key : ∀ (w : UInt32) (k : Nat), k < 32 →
      ((w &&& ((1 : UInt32) <<< UInt32.ofNat k)) ≠ 0 ↔ w.toNat.testBit k = true) := by
    intro w k hk
    have hsh : ((1 : UInt32) <<< UInt32.ofNat k).toNat = 2 ^ k := by
      rw [UInt32.toNat_shiftLeft, UInt32.toNat_ofNat', Nat.shiftLeft_eq]
      have h1 : k % 2 ^ 32 % 32 = k := by omega
      rw [h1]
      show 1 * 2 ^ k % 2 ^ 32 = 2 ^ k
      rw [Nat.one_mul, Nat.mod_eq_of_lt (Nat.pow_lt_pow_right (by omega) hk)]
    constructor
    · intro h
      cases hb : w.toNat.testBit k with
      | true => rfl
      | false =>
        exfalso
        apply h
        apply UInt32.toNat_inj.mp
        rw [UInt32.toNat_and, hsh]
        show w.toNat &&& 2 ^ k = 0
        apply Nat.eq_of_testBit_eq
        intro j
        rw [Nat.testBit_and, Nat.testBit_two_pow, Nat.zero_testBit]
        by_cases e : k = j
        · subst e; simp [hb]
        · simp [e]
    · intro hb h
      have : (w &&& ((1 : UInt32) <<< UInt32.ofNat k)).toNat.testBit k = true := by
        rw [UInt32.toNat_and, hsh, Nat.testBit_and, hb, Nat.testBit_two_pow_self]; rfl
      rw [h] at this
      simp at this
  rw [← ne_eq, key _ _ (Nat.mod_lt _ (by omega))]
  constructor
  · rintro ⟨h1, h2⟩; exact ⟨hg, h1, hz, h2⟩
  · rintro ⟨_, h1, _, h2⟩; exact ⟨h1, h2⟩

/-! ## What a non-administrator is refused -/

theorem delete_refused {cfg : Cfg} {s : St} {x : Nat} (h : ¬ AdminOn s x) (id : UInt16) :
    ∃ rc, rc ≠ .ok ∧ act cfg s x (.delete id) = (rc, s) := by
  unfold act userDelete
  dsimp only
  split
  · exact ⟨.badargs, by simp, rfl⟩
  · unfold baseDelete
    split
    · exact ⟨.notfound, by simp, rfl⟩
    · by_cases hb : badId (s.sess x).id = true
      · rw [if_pos hb]; exact ⟨.badargs, by simp, rfl⟩
      · rw [if_neg hb]
        have ht : tableAdmin s (s.sess x).id = false := by
          cases ht : tableAdmin s (s.sess x).id with
          | false => rfl
          | true =>
            refine absurd (Or.inr ⟨fun e => ?_, ht⟩) h
            rw [e] at hb
            exact hb (by decide)
        rw [if_pos ht]; exact ⟨.access, by simp, rfl⟩

theorem setPerms_refused {cfg : Cfg} {s : St} {x : Nat} (h : ¬ AdminOn s x) (id : UInt16) (p : Perms) :
    ∃ rc, rc ≠ .ok ∧ act cfg s x (.setPerms id p) = (rc, s) := by
  unfold act setPerms
  dsimp only
  split
  · exact ⟨.badargs, by simp, rfl⟩
  · have hbase : ∃ rc, rc ≠ .ok ∧ baseSetPerms cfg s (s.sess x).id id p = (rc, s) := by
      unfold baseSetPerms
      split
      · exact ⟨.notfound, by simp, rfl⟩
      · by_cases hb : badId (s.sess x).id = true
        · rw [if_pos hb]; exact ⟨.notfound, by simp, rfl⟩
        · rw [if_neg hb]
          have ht : tableAdmin s (s.sess x).id = false := by
            cases ht : tableAdmin s (s.sess x).id with
            | false => rfl
            | true =>
              refine absurd (Or.inr ⟨fun e => ?_, ht⟩) h
              rw [e] at hb
              exact hb (by decide)
          rw [if_pos ht]; exact ⟨.access, by simp, rfl⟩
    obtain ⟨rc, hrc, e⟩ := hbase
    rw [e]
    refine ⟨rc, hrc, ?_⟩
    cases rc <;> first | exact absurd rfl hrc | rfl

theorem add_within {cfg : Cfg} {s : St} {x : Nat} (h : (s.sess x).perms.isAdmin = false)
    (name : List UInt8) (p : Perms) (m : UInt16) (cred : List UInt8) :
    (∃ rc, rc ≠ .ok ∧ act cfg s x (.add name p m cred) = (rc, s)) ∨
    (p.Within (s.sess x).perms ∧ p.isAdmin = false ∧ cred ≠ []) := by
  unfold act userAdd
  dsimp only
  rw [h]
  by_cases h1 : s.up = false
  · rw [if_pos h1]; exact Or.inl ⟨.badargs, by simp, rfl⟩
  · rw [if_neg h1, if_neg (by simp)]
    by_cases h2 : subsetOk (s.sess x).perms p = false
    · rw [if_pos h2]; exact Or.inl ⟨.authPermissionError, by simp, rfl⟩
    · rw [if_neg h2]
      have := subset_within (by simpa using h2)
      by_cases h3 : cred = []
      · rw [if_pos h3]; exact Or.inl ⟨.authPermissionError, by simp, rfl⟩
      · exact Or.inr ⟨this.1, this.2, h3⟩

theorem loadCred_off_err {cfg : Cfg} {s : St} (hn : cfg.useNvm = true) (h : s.nvm.powered = false)
    (i : Nat) : (loadCred cfg s i).1.1 ≠ .ok := by
  unfold loadCred
  rw [if_pos hn]
  unfold Nvm.metadata Store.info
  cases s.nvm.store (credId i) with
  | none => simp
  | some e =>
    dsimp only
    split
    · rw [(nvm_off h).2.2]; simp
    · simp

/-- Without power no login succeeds. -/
theorem login_off {cfg : Cfg} {s : St} (hn : cfg.useNvm = true) (h : s.nvm.powered = false) (x : Nat)
    (m : UInt16) (name data : List UInt8) : (act cfg s x (.login m name data)).1 ≠ .ok := by
  have hc : ∀ i t, (if m = mPin then checkPin cfg s name data
      else if m = mCert ∧ cfg.certLogin = true then checkCert cfg s name data
      else ((.badargs, none), s)) ≠ ((.ok, some i), t) := by
    intro i t
    split
    · unfold checkPin
      cases hashPin cfg data with
      | error rc => simp
      | ok hh =>
        cases findUser s name with
        | none => simp
        | some j =>
          dsimp only
          have hl := loadCred_off_err hn h j
          generalize loadCred cfg s j = r at *
          obtain ⟨⟨rc, d⟩, s'⟩ := r
          split
          · cases rc <;> first | exact absurd rfl hl | simp
          · simp
    · split
      · unfold checkCert
        cases findUser s name with
        | none => simp
        | some j =>
          dsimp only
          have hl := loadCred_off_err hn h j
          generalize loadCred cfg s j = r at *
          obtain ⟨⟨rc, d⟩, s'⟩ := r
          split
          · cases rc <;> first | exact absurd rfl hl | simp
          · simp
      · simp
  unfold act login
  dsimp only
  by_cases hup : s.up = false
  · rw [if_pos hup]; simp
  · rw [if_neg hup]
    by_cases hx : (s.sess x).id ≠ 0
    · rw [if_pos hx]; simp
    · rw [if_neg hx]
      unfold baseLogin
      dsimp only
      generalize (if m = mPin then checkPin cfg s name data
        else if m = mCert ∧ cfg.certLogin = true then checkCert cfg s name data
        else ((.badargs, none), s)) = r at *
      obtain ⟨⟨rc, o⟩, t⟩ := r
      cases rc <;> cases o <;> first | exact absurd rfl (hc _ _) | simp

/-! ## No escalation -/

/-- The rights a group of non-administrators can hand out. -/
def Base (s : St) (d : Db) (p : Perms) : Prop :=
  (∃ j r, d j = some r ∧ r.perms = p ∧ p.isAdmin = false) ∨ ∃ x, (s.sess x).perms = p

/-- Same user, possibly with new credentials. -/
def SameUser (r r' : Rec) : Prop := r'.name = r.name ∧ r'.perms = r.perms

/-- The invariant of histories without administrators. -/
structure Kept (B : Perms → Prop) (d₀ : Db) (s : St) (d : Db) : Prop where
  old : ∀ i r, d₀ i = some r → ∃ r', d i = some r' ∧ SameUser r r'
  new : ∀ i r', d i = some r' → (∃ r, d₀ i = some r ∧ SameUser r r') ∨
    (r'.perms.isAdmin = false ∧ ∃ p, B p ∧ r'.perms.Within p)
  sess : ∀ x, ∃ p, B p ∧ (s.sess x).perms.Within p

theorem kept_effect {cfg : Cfg} {B : Perms → Prop} {d₀ d d' : Db} {s t : St} {x : Nat} {c : Call}
    (h : Kept B d₀ s d) (hna : ¬ AdminOn s x) (he : Effect cfg c d d')
    (hrun : (act cfg s x c).1 = .ok ∨ (act cfg s x c).2.nvm.powered = false)
    (hp : s.nvm.powered = true) (hloc : (Ev.call x c).NotLocal) (ht : ∀ y, ∃ p, B p ∧ (t.sess y).perms.Within p) : Kept B d₀ t d' := by
  have refused : (∃ rc, rc ≠ .ok ∧ act cfg s x c = (rc, s)) → False := by
    rintro ⟨rc, hrc, e⟩
    rw [e] at hrun
    cases hrun with
    | inl h1 => exact hrc h1
    | inr h1 => dsimp only at h1; rw [hp] at h1; cases h1
  have same : d' = d → Kept B d₀ t d' := by
    rintro rfl; exact ⟨h.old, h.new, ht⟩
  have put : ∀ i r r', d i = some r → SameUser r r' → d' = upd d i (some r') → Kept B d₀ t d' := by
    intro i r r' hi hsame hd
    subst hd
    refine ⟨?_, ?_, ht⟩
    · intro j r0 hj
      obtain ⟨r1, h1, h2⟩ := h.old j r0 hj
      by_cases e : j = i
      · subst e
        rw [hi] at h1
        cases h1
        exact ⟨r', upd_self _ _ _, hsame.1.trans h2.1, hsame.2.trans h2.2⟩
      · exact ⟨r1, by rw [upd_ne e]; exact h1, h2⟩
    · intro j r1 hj
      by_cases e : j = i
      · subst e
        rw [upd_self] at hj
        cases hj
        cases h.new j r hi with
        | inl hh =>
          obtain ⟨r0, h1, h2⟩ := hh
          exact Or.inl ⟨r0, h1, hsame.1.trans h2.1, hsame.2.trans h2.2⟩
        | inr hh => rw [← hsame.2] at hh; exact Or.inr hh
      · rw [upd_ne e] at hj; exact h.new j r1 hj
  cases c with
  | login _ _ _ => exact same he
  | logout _ => exact same he
  | get _ => exact same he
  | disconnect => exact same he
  | provision _ _ _ _ => exact hloc.elim
  | delete id => exact (refused (delete_refused hna id)).elim
  | setPerms id p => exact (refused (setPerms_refused hna id p)).elim
  | setCred id m cur new =>
    obtain ⟨r, h1, h2⟩ := he
    cases h2 with
    | inl h2 => exact put _ r { r with method := mNone, cred := [] } h1 ⟨rfl, rfl⟩ h2.2
    | inr h2 =>
      obtain ⟨blob, _, _, h3⟩ := h2
      exact put _ r { r with method := m, cred := blob } h1 ⟨rfl, rfl⟩ h3
  | add name p m cred =>
    have hadm : (s.sess x).perms.isAdmin = false := by
      cases hh : (s.sess x).perms.isAdmin with
      | false => rfl
      | true => exact absurd (Or.inl hh) hna
    cases add_within hadm name p m cred with
    | inl hr => exact (refused hr).elim
    | inr hr =>
      obtain ⟨q, hq, hw⟩ := h.sess x
      obtain ⟨i, hi, hnone, hcase⟩ := he
      have key : ∀ r' : Rec, r'.perms = p.clamp → d' = upd d i (some r') → Kept B d₀ t d' := by
        intro r' hpr hd
        subst hd
        refine ⟨?_, ?_, ht⟩
        · intro j r0 hj
          obtain ⟨r1, h1, h2⟩ := h.old j r0 hj
          by_cases e : j = i
          · subst e; rw [hnone] at h1; cases h1
          · exact ⟨r1, by rw [upd_ne e]; exact h1, h2⟩
        · intro j r1 hj
          by_cases e : j = i
          · subst e
            rw [upd_self] at hj
            cases hj
            refine Or.inr ⟨by rw [hpr]; exact hr.2.1, q, hq, ?_⟩
            rw [hpr]
            exact (clamp_within p).trans (hr.1.trans hw)
          · rw [upd_ne e] at hj; exact h.new j r1 hj
      cases hcase with
      | inl h2 => exact key _ rfl h2.2
      | inr h2 =>
        obtain ⟨blob, _, _, h3⟩ := h2
        exact key _ rfl h3

theorem kept_step {cfg : Cfg} {B : Perms → Prop} {d₀ d : Db} {s : St} (hB : ∃ p, B p)
    (hB0 : ∀ i r, d₀ i = some r → r.perms.isAdmin = false → B r.perms)
    (h : Kept B d₀ s d) (hg : Good cfg s d) (e : Ev) (he : EvOk s e) (hloc : e.NotLocal)
    (hna : ∀ x, ¬ AdminOn s x)    (hna' : ∀ x, ¬ AdminOn (step cfg s e) x) :
    ∃ d', Good cfg (step cfg s e) d' ∧ Kept B d₀ (step cfg s e) d' := by
  obtain ⟨d', hg', hcase⟩ := step_good hg e he
  refine ⟨d', hg', ?_⟩
  have hzero : ∃ p, B p ∧ Session.none.perms.Within p := by
    obtain ⟨p, hp⟩ := hB
    exact ⟨p, hp, zero_within p⟩
  have hs : ∀ y, ∃ p, B p ∧ ((step cfg s e).sess y).perms.Within p := by
    cases e with
    | foreign f =>
      intro y
      unfold step
      dsimp only
      split <;> exact h.sess y
    | restart b =>
      intro y
      have : (step cfg s (.restart b)).sess = fun _ => Session.none := by
        unfold step init
        dsimp only
        rw [if_pos hg.nvm]
        split <;> rfl
      rw [this]
      exact hzero
    | call x c =>
      intro y
      show ∃ p, B p ∧ ((act cfg s x c).2.sess y).perms.Within p
      rcases act_sess cfg s x c with h1 | h1 | ⟨m, name, data, i, hc, hrc, hi, h1⟩ | ⟨p, hc, _, hrc, h1⟩
      · rw [h1]; exact h.sess y
      · rw [h1]
        by_cases ey : y = x
        · subst ey; rw [upd_self]; exact hzero
        · rw [upd_ne ey]; exact h.sess y
      · by_cases ey : y = x
        · subst ey
          rw [h1, upd_self]
          dsimp only
          have hna1 := hna' y
          unfold AdminOn step at hna1
          dsimp only at hna1
          rw [h1, upd_self] at hna1
          have hadm : (s.users i).perms.isAdmin = false := by
            cases hh : (s.users i).perms.isAdmin with
            | false => rfl
            | true => exact absurd (Or.inl hh) hna1
          subst hc
          by_cases hp : s.nvm.powered = true
          · by_cases hu : s.up = true
            · have hl := hg.toLive hu hp
              -- the logged-in user is the one of the database
              refine login_cases hl y m name data
                (P := fun r => r.1 = .ok → r.2.sess = upd s.sess y ⟨(s.users i).id, (s.users i).perms⟩ →
                  ∃ p, B p ∧ (s.users i).perms.Within p) ?_ ?_ hrc h1
              · intro rc n' hne _ _ _ hok; exact absurd hok hne
              · intro j blob n' _ _ _ _ _ _ hlo _ hse
                dsimp only at hse
                have hp2 : (s.users j).perms = (s.users i).perms := by
                  have := congrFun hse y
                  rw [upd_self, upd_self] at this
                  injection this
                have hv : d j = some ⟨(s.users j).name, (s.users j).perms, (s.users j).method,
                    credOf s.nvm.store (s.users j) j⟩ := by
                  rw [← (hg.live hu hp).2]
                  exact viewOf_some hlo.lt hlo.exists_
                cases h.new j _ hv with
                | inl hh =>
                  obtain ⟨r0, a, b⟩ := hh
                  have hpe : (s.users i).perms = r0.perms := hp2.symm.trans b.2
                  exact ⟨r0.perms, hB0 j r0 a (by rw [← hpe]; exact hadm), by rw [hpe]; exact .refl _⟩
                | inr hh =>
                  obtain ⟨_, q, hq, hw⟩ := hh
                  exact ⟨q, hq, by rw [← hp2]; exact hw⟩
            · have : s.up = false := by simpa using hu
              unfold act login at hrc
              dsimp only at hrc
              rw [if_pos this] at hrc
              cases hrc
          · exact absurd hrc (login_off hg.nvm (by simpa using hp) _ _ _ _)
        · rw [h1, upd_ne ey]; exact h.sess y
      · subst hc
        obtain ⟨rc, hrc', e⟩ := setPerms_refused (cfg := cfg) (hna x) (s.sess x).id p
        rw [e] at hrc
        exact absurd hrc hrc'
  rcases hcase with hd | ⟨x, c, hev, hu, hp, heff, hrun⟩
  · subst hd; exact ⟨h.old, h.new, hs⟩
  · subst hev
    exact kept_effect h (hna x) heff hrun hp hloc hs

theorem kept_run {cfg : Cfg} {B : Perms → Prop} {d₀ : Db} (hB : ∃ p, B p)
    (hB0 : ∀ i r, d₀ i = some r → r.perms.isAdmin = false → B r.perms) (evs : List Ev) :
    ∀ {d : Db} {s : St}, Kept B d₀ s d → Good cfg s d → HistOk cfg s evs → NoAdmin cfg s evs →
      ∃ d', Good cfg (run cfg s evs) d' ∧ Kept B d₀ (run cfg s evs) d' := by
  induction evs with
  | nil => intro d s h hg _ _; exact ⟨d, hg, h⟩
  | cons e es ih =>
    intro d s h hg hok hna
    have hna' : ∀ x, ¬ AdminOn (step cfg s e) x := by
      cases es with
      | nil => exact hna.2.2
      | cons _ _ => exact hna.2.2.1
    obtain ⟨d', hg', hk'⟩ := kept_step hB hB0 h hg e hok.1 hna.2.1 hna.1 hna'
    exact ih hk' hg' hok.2 hna.2.2

end WolfHsm.Auth

import Verif.Proofs.AuthOps2

/-! # Invariants of histories of authentication calls -/

namespace WolfHsm.Auth

open NvmFlash (Meta Store withLen)

/-! ## Login and logout -/

/-- What a successful login means for slot `i`. -/
structure LoginOk (cfg : Cfg) (s : St) (m : UInt16) (name data : List UInt8) (i : Nat)
    (blob : List UInt8) : Prop where
  lt : i < maxUsers
  exists_ : (s.users i).id ≠ 0
  name : (s.users i).name = name
  inactive : (s.users i).active = false
  method : (s.users i).method = m
  stored : s.nvm.store (credId i) = some (credMeta i m blob.length, blob)
  len : blob.length = (s.users i).credLen ∧ blob ≠ []
  cred : (m = mPin ∧ hashPin cfg data = .ok blob) ∨
    (m = mCert ∧ cfg.certLogin = true ∧ cfg.verify blob data = true)

theorem used_of_method {cfg : Cfg} {s : St} (h : Live cfg s) {i : Nat} (hi : i < maxUsers)
    (hm : (s.users i).method ≠ mNone) : (s.users i).id ≠ 0 := by
  intro e
  rw [(h.mat.wf i hi).free e] at hm
  exact hm rfl

/-- The credential check of a login changes nothing; the slot it answers has a matching
name, method and credential. -/
theorem check_cases {cfg : Cfg} {s : St} (h : Live cfg s) (m : UInt16) (name data : List UInt8)
    {P : (Rc × Option Nat) × St → Prop}
    (hno : ∀ rc n', Safe n' → n'.outs = s.nvm.outs → n'.store = s.nvm.store →
      P ((rc, none), { s with nvm := n' }))
    (hyes : ∀ i blob n', Safe n' → n'.outs = s.nvm.outs → n'.powered = true →
      n'.store = s.nvm.store → i < maxUsers → (s.users i).id ≠ 0 → (s.users i).name = name →
      (s.users i).method = m →
      s.nvm.store (credId i) = some (credMeta i m blob.length, blob) →
      (blob.length = (s.users i).credLen ∧ blob ≠ []) →
      ((m = mPin ∧ hashPin cfg data = .ok blob) ∨
        (m = mCert ∧ cfg.certLogin = true ∧ cfg.verify blob data = true)) →
      P ((.ok, some i), { s with nvm := n' })) :
    P (if m = mPin then checkPin cfg s name data
      else if m = mCert ∧ cfg.certLogin = true then checkCert cfg s name data
      else ((.badargs, none), s)) := by
  by_cases h1 : m = mPin
  · rw [if_pos h1]
    unfold checkPin
    cases hh : hashPin cfg data with
    | error rc => exact hno rc s.nvm h.safe rfl rfl
    | ok hsh =>
      dsimp only
      cases hf : findUser s name with
      | none => exact hno .ok s.nvm h.safe rfl rfl
      | some i =>
        dsimp only
        obtain ⟨hi, hn⟩ := findUser_some hf
        by_cases hc : (s.users i).method = mPin ∧ (s.users i).credLen = hsh.length
        · rw [if_pos hc]
          have hz := used_of_method h hi (by rw [hc.1]; decide)
          refine loadCred_cases h hi hz (P := fun r => P (match r with
            | ((.ok, stored), s') => ((.ok, if stored = hsh then some i else none), s')
            | ((.notfound, _), s') => ((.ok, none), s')
            | ((rc, _), s') => ((rc, none), s'))) ?_ ?_
          · intro n' dat a b c d e f g
            dsimp only
            by_cases hd : dat = hsh
            · rw [if_pos hd]
              refine hyes i dat n' a b c d hi hz hn (by rw [hc.1, h1]) ?_ ⟨g, ?_⟩
                (Or.inl ⟨h1, by rw [hd, hh]⟩)
              · rw [f, hc.1, h1, g]
              · rintro rfl; exact e g.symm
            · rw [if_neg hd]; exact hno .ok n' a b d
          · intro rc n' hrc a b d
            cases rc <;> first
              | exact absurd rfl hrc
              | exact hno .ok n' a b d
              | exact hno _ n' a b d
        · rw [if_neg hc]; exact hno .ok s.nvm h.safe rfl rfl
  · rw [if_neg h1]
    by_cases h2 : m = mCert ∧ cfg.certLogin = true
    · rw [if_pos h2]
      unfold checkCert
      cases hf : findUser s name with
      | none => exact hno .ok s.nvm h.safe rfl rfl
      | some i =>
        dsimp only
        obtain ⟨hi, hn⟩ := findUser_some hf
        by_cases hc : (s.users i).method = mCert ∧ (s.users i).credLen > 0
        · rw [if_pos hc]
          have hz := used_of_method h hi (by rw [hc.1]; decide)
          refine loadCred_cases h hi hz (P := fun r => P (match r with
            | ((.ok, stored), s') =>
              ((.ok, if stored.length = (s.users i).credLen ∧ cfg.verify stored data = true then some i
                     else none), s')
            | ((.notfound, _), s') => ((.ok, none), s')
            | ((rc, _), s') => ((rc, none), s'))) ?_ ?_
          · intro n' dat a b c d e f g
            dsimp only
            by_cases hd : dat.length = (s.users i).credLen ∧ cfg.verify dat data = true
            · rw [if_pos hd]
              refine hyes i dat n' a b c d hi hz hn (by rw [hc.1, h2.1]) ?_ ⟨g, ?_⟩
                (Or.inr ⟨h2.1, h2.2, hd.2⟩)
              · rw [f, hc.1, h2.1, g]
              · rintro rfl; exact e g.symm
            · rw [if_neg hd]; exact hno .ok n' a b d
          · intro rc n' hrc a b d
            cases rc <;> first
              | exact absurd rfl hrc
              | exact hno .ok n' a b d
              | exact hno _ n' a b d
        · rw [if_neg hc]; exact hno .ok s.nvm h.safe rfl rfl
    · rw [if_neg h2]; exact hno .badargs s.nvm h.safe rfl rfl

/-- A login either changes nothing or logs in a user with matching credentials. -/
theorem login_cases {cfg : Cfg} {s : St} (h : Live cfg s) (x : Nat) (m : UInt16)
    (name data : List UInt8) {P : Rc × St → Prop}
    (hno : ∀ rc n', rc ≠ .ok → Safe n' → n'.outs = s.nvm.outs → n'.store = s.nvm.store →
      P (rc, { s with nvm := n' }))
    (hyes : ∀ i blob n', Safe n' → n'.outs = s.nvm.outs → n'.powered = true →
      n'.store = s.nvm.store → s.up = true → (s.sess x).id = 0 → LoginOk cfg s m name data i blob →
      P (.ok, { s with nvm := n', users := upd s.users i { s.users i with active := true },
                       sess := upd s.sess x ⟨(s.users i).id, (s.users i).perms⟩ })) :
    P (act cfg s x (.login m name data)) := by
  unfold act login
  dsimp only
  by_cases hup : s.up = false
  · rw [if_pos hup]; exact hno .badargs s.nvm (by simp) h.safe rfl rfl
  · rw [if_neg hup]
    by_cases hx : (s.sess x).id ≠ 0
    · rw [if_pos hx]; exact hno .authLoginFailed s.nvm (by simp) h.safe rfl rfl
    · rw [if_neg hx]
      unfold baseLogin
      dsimp only
      refine check_cases h m name data (P := fun chk => P (match
        (match
          (match chk with
          | ((.ok, some i), s') =>
            if (s'.users i).active then ((.ok, none), s')
            else ((.ok, some i), { s' with users := upd s'.users i { s'.users i with active := true } })
          | ((rc, _), s') => ((rc, none), s') : (Rc × Option Nat) × St) with
        | ((.ok, some i), s') =>
          ((.ok, true), { s' with sess := upd s'.sess x ⟨(s'.users i).id, (s'.users i).perms⟩ })
        | ((rc, _), s') => ((rc, false), s') : (Rc × Bool) × St) with
        | ((.ok, true), s') => (.ok, s')
        | ((.ok, false), s') => (.authLoginFailed, s')
        | ((rc, _), s') => (rc, s'))) ?_ ?_
      · intro rc n' a b d
        cases rc <;> exact hno _ n' (by simp) a b d
      · intro i blob n' a b c d hi hz hn hm hst hl hc
        dsimp only
        cases hact : (s.users i).active with
        | true => exact hno .authLoginFailed n' (by simp) a b d
        | false =>
          have hz' := hyes i blob n' a b c d (by simpa using hup) (by simpa using hx)
            ⟨hi, hz, hn, hact, hm, hst, hl, hc⟩
          simpa [upd_self] using hz'

/-- Changing only the activity mark of used entries. -/
theorem Match.active {st : Store} {us us' : Nat → Slot} (h : Match st us)
    (e : ∀ i, i < maxUsers → ∃ a, us' i = { us i with active := a } ∧ ((us i).id = 0 → a = false)) :
    Match st us' := by
  refine ⟨h.idx.congr rfl ?_, ?_⟩
  · intro i hi
    obtain ⟨a, ea, _⟩ := e i hi
    rw [ea]; exact ⟨rfl, rfl, rfl⟩
  · intro i hi
    obtain ⟨a, ea, ez⟩ := e i hi
    have hs := h.wf i hi
    rw [ea]
    refine ⟨hs.name, ?_, hs.used, hs.bare, hs.cred⟩
    intro hz
    rw [ez hz, hs.free hz]
    rfl

theorem view_active {st : Store} {us us' : Nat → Slot}
    (e : ∀ i, i < maxUsers → ∃ a, us' i = { us i with active := a }) :
    viewOf st us' = viewOf st us := by
  apply viewOf_congr
  intro i hi
  obtain ⟨a, ea⟩ := e i hi
  rw [ea]
  exact ⟨rfl, fun _ => ⟨rfl, rfl, rfl, rfl, rfl⟩⟩

theorem upd_active {us : Nat → Slot} {j : Nat} {b : Bool} (i : Nat) :
    ∃ a, upd us j { us j with active := b } i = { us i with active := a } := by
  by_cases e : i = j
  · subst e; exact ⟨b, upd_self _ _ _⟩
  · exact ⟨(us i).active, by rw [upd_ne e]⟩

/-- Logging out touches activity marks and the own session only. -/
theorem logout_cases (s : St) (x : Nat) (id : UInt16) {P : Rc × St → Prop}
    (hno : ∀ rc, rc ≠ .ok → P (rc, s))
    (hyes : ∀ se, s.up = true → (s.sess x).id ≠ 0 → id ≠ 0 → slotOf id < maxUsers →
      (s.sess x).id.toNat ≤ maxUsers →
      ((s.sess x).id = id ∨ tableAdmin s (s.sess x).id = true) →
      (se = if id = (s.sess x).id then upd s.sess x Session.none else s.sess) →
      P (.ok, { s with users := upd s.users (slotOf id) { s.users (slotOf id) with active := false },
                       sess := se })) :
    P (logout s x id) := by
  unfold logout
  by_cases hup : s.up = false
  · rw [if_pos hup]; exact hno _ (by simp)
  · rw [if_neg hup]
    unfold baseLogout
    by_cases h1 : (s.sess x).id = 0 ∨ id = 0
    · rw [if_pos h1]; exact hno _ (by simp)
    · rw [if_neg h1]
      by_cases h2 : (s.sess x).id.toNat > maxUsers ∨ id.toNat > maxUsers
      · rw [if_pos h2]; exact hno _ (by simp)
      · rw [if_neg h2]
        by_cases h3 : (s.sess x).id ≠ id ∧ tableAdmin s (s.sess x).id = false
        · rw [if_pos h3]; exact hno _ (by simp)
        · rw [if_neg h3]
          dsimp only
          rw [not_or] at h1 h2
          have hlt : slotOf id < maxUsers := by
            have h4 : id.toNat ≠ 0 := fun e => h1.2 (UInt16.toNat_inj.mp e)
            have h5 : ¬ id.toNat > 5 := h2.2
            unfold slotOf
            show id.toNat - 1 < 5
            omega
          have := hyes (if id = (s.sess x).id then upd s.sess x Session.none else s.sess)
            (by simpa using hup) h1.1 h1.2 hlt (by omega) (by
              by_cases e : (s.sess x).id = id
              · exact Or.inl e
              · refine Or.inr ?_
                cases ht : tableAdmin s (s.sess x).id with
                | true => rfl
                | false => exact absurd ⟨e, ht⟩ h3) rfl
          by_cases e : id = (s.sess x).id
          · rw [if_pos e] at this ⊢; exact this
          · rw [if_neg e] at this ⊢; exact this

/-- The end of a connection. -/
theorem disconnect_eq (s : St) (x : Nat) :
    ∃ us, (disconnect s x) = { s with users := us, sess := upd s.sess x Session.none } ∧
      (us = s.users ∨ us = upd s.users (slotOf (s.sess x).id)
        { s.users (slotOf (s.sess x).id) with active := false }) ∨
    (disconnect s x = s ∧ (s.sess x).id = 0) := by
  unfold disconnect
  by_cases h : (s.sess x).id ≠ 0
  · rw [if_pos h]
    unfold reset
    refine logout_cases s x (s.sess x).id (P := fun r => ∃ us,
      ({ r.2 with sess := upd r.2.sess x Session.none } : St) =
        { s with users := us, sess := upd s.sess x Session.none } ∧
      (us = s.users ∨ us = upd s.users (slotOf (s.sess x).id)
        { s.users (slotOf (s.sess x).id) with active := false }) ∨
      (({ r.2 with sess := upd r.2.sess x Session.none } : St) = s ∧ (s.sess x).id = 0)) ?_ ?_
    · intro rc _
      exact ⟨s.users, Or.inl ⟨rfl, Or.inl rfl⟩⟩
    · intro se _ _ _ _ _ _ hse
      rw [if_pos rfl] at hse
      refine ⟨_, Or.inl ⟨?_, Or.inr rfl⟩⟩
      rw [hse, upd_upd]
  · rw [if_neg h]
    exact ⟨s.users, Or.inr ⟨rfl, by simpa using h⟩⟩

/-! ## Every call -/

/-- User names handed to the API are C strings. -/
def Call.CStr : Call → Prop
  | .add name _ _ _ | .provision name _ _ _ => ∀ b ∈ name, b ≠ 0
  | _ => True

/-- A user without credentials is not added over a left-over credential object. -/
def Call.Clean (s : St) : Call → Prop
  | .add _ _ _ cred | .provision _ _ _ cred => cred = [] → Tidy s
  | _ => True

theorem Res.same {cfg : Cfg} {E : (Nat → Option Rec) → Prop} {s s' : St} {rc : Rc} (h : Live cfg s)
    (hE : E (view s)) (hu : s'.up = s.up) (hn : s'.nvm = s.nvm)
    (hus : ∀ i, i < maxUsers → ∃ a, s'.users i = { s.users i with active := a } ∧
      ((s.users i).id = 0 → a = false)) : Res E s (rc, s') := by
  have hv : view s' = view s := by
    unfold view
    rw [hn]
    exact view_active (fun i hi => by
      obtain ⟨a, b, _⟩ := hus i hi
      exact ⟨a, b⟩)
  refine ⟨hu, by dsimp only; rw [hn]; exact h.safe, by dsimp only; rw [hn],
    Or.inl ⟨by dsimp only; rw [hn]; exact h.powered, by dsimp only; rw [hn]; exact h.mat.active hus, ?_⟩⟩
  by_cases hrc : rc = .ok
  · exact Or.inl ⟨hrc, by dsimp only; rw [hv]; exact hE⟩
  · exact Or.inr ⟨hrc, hv⟩

theorem updFalse {us : Nat → Slot} {st : Store} (hm : Wf st us) (j : Nat) :
    ∀ i, i < maxUsers → ∃ a, upd us j { us j with active := false } i = { us i with active := a } ∧
      ((us i).id = 0 → a = false) := by
  intro i hi
  by_cases e : i = j
  · subst e; exact ⟨false, upd_self _ _ _, fun _ => rfl⟩
  · refine ⟨(us i).active, by rw [upd_ne e], fun hz => ?_⟩
    rw [(hm i hi).free hz]; rfl

/-- Every call ends in one of the three ways. -/
theorem act_res {cfg : Cfg} {s : St} (h : Live cfg s) (x : Nat) (c : Call) (hn : c.CStr)
    (hcl : c.Clean s) : Res (Effect cfg c (view s)) s (act cfg s x c) := by
  cases c with
  | login m name data =>
    refine login_cases h x m name data ?_ ?_
    · intro rc n' hrc a b d; exact Res.refuse' h rfl a b d rfl hrc
    · intro i blob n' a b c d _ _ hl
      have hus : ∀ j, j < maxUsers → ∃ a, upd s.users i { s.users i with active := true } j =
          { s.users j with active := a } ∧ ((s.users j).id = 0 → a = false) := by
        intro j hj
        by_cases e : j = i
        · subst e; exact ⟨true, upd_self _ _ _, fun hz => absurd hz hl.exists_⟩
        · refine ⟨(s.users j).active, by rw [upd_ne e], fun hz => ?_⟩
          rw [(h.mat.wf j hj).free hz]; rfl
      refine ⟨rfl, a, b, Or.inl ⟨c, ?_, Or.inl ⟨rfl, ?_⟩⟩⟩
      · dsimp only; rw [d]; exact h.mat.active hus
      · unfold Effect view
        dsimp only
        rw [d]
        exact view_active (fun j hj => by
          obtain ⟨a, b, _⟩ := hus j hj
          exact ⟨a, b⟩)
  | logout id =>
    unfold act
    refine logout_cases s x id ?_ ?_
    · intro rc hrc; exact Res.refuse h hrc
    · intro se _ _ _ _ _ _ _
      exact Res.same h rfl rfl rfl (updFalse h.mat.wf _)
  | add name p m cred =>
    unfold act userAdd
    dsimp only
    by_cases hup : s.up = false
    · rw [if_pos hup]; exact Res.refuse h (by simp)
    · rw [if_neg hup]
      split
      · exact baseAdd_res h name p m cred hn hcl
      · split
        · exact Res.refuse h (by simp)
        · split
          · exact Res.refuse h (by simp)
          · exact baseAdd_res h name p m cred hn hcl
  | delete id =>
    unfold act userDelete
    dsimp only
    split
    · exact Res.refuse h (by simp)
    · exact baseDelete_res h _ _
  | setPerms id p =>
    unfold act setPerms
    dsimp only
    by_cases hup : s.up = false
    · rw [if_pos hup]; exact Res.refuse h (by simp)
    · rw [if_neg hup]
      have := baseSetPerms_res h (s.sess x).id id p
      generalize baseSetPerms cfg s (s.sess x).id id p = r at *
      obtain ⟨rc, s'⟩ := r
      have key : ∀ t : St, t.up = s'.up → t.nvm = s'.nvm → t.users = s'.users →
          Res (Effect cfg (.setPerms id p) (view s)) s (rc, t) := by
        intro t h1 h2 h3
        refine ⟨by dsimp only; rw [h1]; exact this.up, by dsimp only; rw [h2]; exact this.safe,
          by dsimp only; rw [h2]; exact this.outs, ?_⟩
        have hb := this.body
        unfold view at hb ⊢
        dsimp only at hb ⊢
        rw [h2, h3]
        exact hb
      cases rc <;> first
        | exact key s' rfl rfl rfl
        | (dsimp only; split <;> exact key _ rfl rfl rfl)
  | provision name p m cred =>
    unfold act
    dsimp only
    split
    · exact Res.refuse h (by simp)
    · exact baseAdd_res h name p m cred hn hcl
  | get name =>
    unfold act
    exact Res.same h rfl rfl rfl (fun i hi => ⟨(s.users i).active, rfl, fun hz => by
      rw [(h.mat.wf i hi).free hz]; rfl⟩)
  | setCred id m cur new =>
    unfold act setCred
    dsimp only
    split
    · exact Res.refuse h (by simp)
    · exact baseSetCred_res h _ _ _ _ _
  | disconnect =>
    unfold act
    dsimp only
    obtain ⟨us, h1⟩ := disconnect_eq s x
    cases h1 with
    | inl h1 =>
      rw [h1.1]
      refine Res.same h rfl rfl rfl ?_
      cases h1.2 with
      | inl e =>
        subst e
        exact fun i hi => ⟨(s.users i).active, rfl, fun hz => by rw [(h.mat.wf i hi).free hz]; rfl⟩
      | inr e => subst e; exact updFalse h.mat.wf _
    | inr h1 =>
      rw [h1.1]
      exact Res.same h rfl rfl rfl (fun i hi => ⟨(s.users i).active, rfl, fun hz => by
        rw [(h.mat.wf i hi).free hz]; rfl⟩)

/-! ## Without power -/

theorem nvm_off {n : Nvm} (h : n.powered = false) :
    (∀ ids, n.destroy ids = (.aborted, n)) ∧ (∀ md d, n.addWithReclaim md d = (.aborted, n)) ∧
    (∀ id o l, n.read id o l = ((.aborted, []), n)) := by
  have hd : ∀ ids, n.destroy ids = (.aborted, n) := by
    intro ids; unfold Nvm.destroy; rw [h]; rfl
  refine ⟨hd, ?_, ?_⟩
  · intro md d; unfold Nvm.addWithReclaim; rw [hd]
  · intro id o l; unfold Nvm.read; rw [h]; rfl

theorem persistIndex_off {cfg : Cfg} {s : St} (hn : cfg.useNvm = true) (h : s.nvm.powered = false) :
    persistIndex cfg s = (.aborted, s) := by
  unfold persistIndex; rw [if_pos hn, (nvm_off h).2.1]

theorem persistIndex_off' {cfg : Cfg} {s : St} (hn : cfg.useNvm = true) (h : s.nvm.powered = false)
    (us : Nat → Slot) : persistIndex cfg { s with users := us } = (.aborted, { s with users := us }) :=
  persistIndex_off hn h

theorem addCommit_off' {cfg : Cfg} {s : St} (h : s.nvm.powered = false)
    (us : Nat → Slot) (i : Nat) (hc : ∀ t : St, t.nvm.powered = false → (addCommit cfg t i).2.nvm = t.nvm ∧
      (addCommit cfg t i).2.up = t.up) :
    (addCommit cfg { s with users := us } i).2.nvm = s.nvm ∧
      (addCommit cfg { s with users := us } i).2.up = s.up := hc _ h

theorem persistCred_off {cfg : Cfg} {s : St} (hn : cfg.useNvm = true) (h : s.nvm.powered = false)
    (i : Nat) (m : UInt16) (b : List UInt8) : persistCred cfg s i m b = (.aborted, s) := by
  unfold persistCred; rw [if_pos hn, (nvm_off h).2.1]

theorem destroyCred_off {cfg : Cfg} {s : St} (hn : cfg.useNvm = true) (h : s.nvm.powered = false)
    (i : Nat) : destroyCred cfg s i = (.aborted, s) := by
  unfold destroyCred; rw [if_pos hn, (nvm_off h).1]

theorem loadCred_off {cfg : Cfg} {s : St} (hn : cfg.useNvm = true) (h : s.nvm.powered = false)
    (i : Nat) : (loadCred cfg s i).2 = s := by
  unfold loadCred
  rw [if_pos hn]
  split
  · split
    · rw [(nvm_off h).2.2]
    · rfl
  · rfl

theorem checkCurrent_off {cfg : Cfg} {s : St} (hn : cfg.useNvm = true) (h : s.nvm.powered = false)
    (i : Nat) (c : List UInt8) : (checkCurrent cfg s i c).2 = s := by
  have hl := loadCred_off hn h i
  unfold checkCurrent
  dsimp only
  generalize loadCred cfg s i = r at *
  obtain ⟨⟨rc, d⟩, s'⟩ := r
  dsimp only at hl
  subst hl
  (repeat' split) <;> first | rfl | (rename_i e; cases e; rfl) | simp_all

theorem checkPin_off {cfg : Cfg} {s : St} (hn : cfg.useNvm = true) (h : s.nvm.powered = false)
    (a b : List UInt8) : (checkPin cfg s a b).2 = s := by
  unfold checkPin
  cases hashPin cfg b with
  | error rc => rfl
  | ok hh =>
    cases findUser s a with
    | none => rfl
    | some i =>
      dsimp only
      have hl := loadCred_off hn h i
      generalize loadCred cfg s i = r at *
      obtain ⟨⟨rc, d⟩, s'⟩ := r
      dsimp only at hl
      subst hl
      split
      · cases rc <;> rfl
      · rfl

theorem checkCert_off {cfg : Cfg} {s : St} (hn : cfg.useNvm = true) (h : s.nvm.powered = false)
    (a b : List UInt8) : (checkCert cfg s a b).2 = s := by
  unfold checkCert
  cases findUser s a with
  | none => rfl
  | some i =>
    dsimp only
    have hl := loadCred_off hn h i
    generalize loadCred cfg s i = r at *
    obtain ⟨⟨rc, d⟩, s'⟩ := r
    dsimp only at hl
    subst hl
    split
    · cases rc <;> rfl
    · rfl

theorem baseLogin_off {cfg : Cfg} {s : St} (hn : cfg.useNvm = true) (h : s.nvm.powered = false)
    (m : UInt16) (a b : List UInt8) : (baseLogin cfg s m a b).2.nvm = s.nvm ∧
      (baseLogin cfg s m a b).2.up = s.up := by
  have hc : (if m = mPin then checkPin cfg s a b
      else if m = mCert ∧ cfg.certLogin = true then checkCert cfg s a b
      else ((.badargs, none), s)).2 = s := by
    (repeat' split) <;> first | exact checkPin_off hn h _ _ | exact checkCert_off hn h _ _ | rfl
  unfold baseLogin
  dsimp only
  generalize (if m = mPin then checkPin cfg s a b
      else if m = mCert ∧ cfg.certLogin = true then checkCert cfg s a b
      else ((.badargs, none), s)) = r at *
  obtain ⟨⟨rc, o⟩, s'⟩ := r
  dsimp only at hc
  subst hc
  cases rc <;> cases o <;> first
    | exact ⟨rfl, rfl⟩
    | (dsimp only; split <;> exact ⟨rfl, rfl⟩)

theorem addCommit_off {cfg : Cfg} {s : St} (hn : cfg.useNvm = true) (h : s.nvm.powered = false)
    (i : Nat) : (addCommit cfg s i).2.nvm = s.nvm ∧ (addCommit cfg s i).2.up = s.up := by
  unfold addCommit
  rw [persistIndex_off hn h]
  dsimp only
  split
  · rw [destroyCred_off hn h]; exact ⟨rfl, rfl⟩
  · exact ⟨rfl, rfl⟩

theorem baseAdd_off {cfg : Cfg} {s : St} (hn : cfg.useNvm = true) (h : s.nvm.powered = false)
    (name : List UInt8) (p : Perms) (m : UInt16) (cred : List UInt8) :
    (baseAdd cfg s name p m cred).2.nvm = s.nvm ∧ (baseAdd cfg s name p m cred).2.up = s.up := by
  unfold baseAdd
  split
  · exact ⟨rfl, rfl⟩
  · split
    · exact ⟨rfl, rfl⟩
    · split
      · exact ⟨rfl, rfl⟩
      · dsimp only
        split
        · exact addCommit_off' h _ _ (fun t ht => addCommit_off hn ht _)
        · split
          · exact ⟨rfl, rfl⟩
          · rw [persistCred_off hn h]; exact ⟨rfl, rfl⟩

/-- Without power no call reaches the NVM. -/
theorem act_off {cfg : Cfg} {s : St} (hn : cfg.useNvm = true) (h : s.nvm.powered = false) (x : Nat)
    (c : Call) : (act cfg s x c).2.nvm = s.nvm ∧ (act cfg s x c).2.up = s.up := by
  cases c with
  | login m a b =>
    unfold act login
    dsimp only
    have hl := baseLogin_off hn h m a b
    generalize baseLogin cfg s m a b = r at *
    obtain ⟨⟨rc, o⟩, s'⟩ := r
    by_cases h1 : s.up = false
    · rw [if_pos h1]; exact ⟨rfl, rfl⟩
    · rw [if_neg h1]
      by_cases h2 : (s.sess x).id ≠ 0
      · rw [if_pos h2]; exact ⟨rfl, rfl⟩
      · rw [if_neg h2]
        cases rc <;> cases o <;> exact hl
  | logout id =>
    unfold act
    exact logout_cases s x id (P := fun r => r.2.nvm = s.nvm ∧ r.2.up = s.up)
      (fun _ _ => ⟨rfl, rfl⟩) (fun _ _ _ _ _ _ _ _ => ⟨rfl, rfl⟩)
  | add name p m cred =>
    unfold act userAdd
    dsimp only
    (repeat' split) <;> first | exact ⟨rfl, rfl⟩ | exact baseAdd_off hn h _ _ _ _
  | delete id =>
    unfold act userDelete
    dsimp only
    split
    · exact ⟨rfl, rfl⟩
    · unfold baseDelete
      split
      · exact ⟨rfl, rfl⟩
      · split
        · exact ⟨rfl, rfl⟩
        · split
          · exact ⟨rfl, rfl⟩
          · dsimp only
            split
            · exact ⟨rfl, rfl⟩
            · rw [persistIndex_off' hn h]; exact ⟨rfl, rfl⟩
  | setPerms id p =>
    unfold act setPerms
    dsimp only
    split
    · exact ⟨rfl, rfl⟩
    · have hb : (baseSetPerms cfg s (s.sess x).id id p).2.nvm = s.nvm ∧
          (baseSetPerms cfg s (s.sess x).id id p).2.up = s.up := by
        unfold baseSetPerms
        split
        · exact ⟨rfl, rfl⟩
        · split
          · exact ⟨rfl, rfl⟩
          · split
            · exact ⟨rfl, rfl⟩
            · dsimp only
              split
              · exact ⟨rfl, rfl⟩
              · rw [persistIndex_off' hn h]; exact ⟨rfl, rfl⟩
      generalize baseSetPerms cfg s (s.sess x).id id p = r at *
      obtain ⟨rc, s'⟩ := r
      cases rc <;> first
        | exact hb
        | (dsimp only; split <;> exact hb)
  | provision name p m cred =>
    unfold act
    dsimp only
    split
    · exact ⟨rfl, rfl⟩
    · exact baseAdd_off hn h _ _ _ _
  | get name => exact ⟨rfl, rfl⟩
  | setCred id m cur new =>
    unfold act setCred
    dsimp only
    split
    · exact ⟨rfl, rfl⟩
    · unfold baseSetCred
      have hc := checkCurrent_off hn h (slotOf id) cur
      dsimp only
      generalize checkCurrent cfg s (slotOf id) cur = r at *
      obtain ⟨rc, s'⟩ := r
      dsimp only at hc
      subst hc
      by_cases h1 : badId id = true
      · rw [if_pos h1]; exact ⟨rfl, rfl⟩
      rw [if_neg h1]
      by_cases h2 : badId (s'.sess x).id = true
      · rw [if_pos h2]; exact ⟨rfl, rfl⟩
      rw [if_neg h2]
      by_cases h3 : (s'.sess x).id ≠ id ∧ tableAdmin s' (s'.sess x).id = false
      · rw [if_pos h3]; exact ⟨rfl, rfl⟩
      rw [if_neg h3]
      by_cases h4 : cfg.methodOk m = false
      · rw [if_pos h4]; exact ⟨rfl, rfl⟩
      rw [if_neg h4]
      by_cases h5 : (s'.users (slotOf id)).id = 0
      · rw [if_pos h5]; exact ⟨rfl, rfl⟩
      rw [if_neg h5]
      by_cases h6 : new.length > maxCred
      · rw [if_pos h6]; exact ⟨rfl, rfl⟩
      rw [if_neg h6]
      cases rc <;> first
        | exact ⟨rfl, rfl⟩
        | (dsimp only
           rw [destroyCred_off hn h]
           split
           · cases makeBlob cfg m new with
             | error rc => exact ⟨rfl, rfl⟩
             | ok blob => dsimp only; rw [persistCred_off hn h]; exact ⟨rfl, rfl⟩
           · split <;> exact ⟨rfl, rfl⟩)
  | disconnect =>
    unfold act
    dsimp only
    obtain ⟨us, h1⟩ := disconnect_eq s x
    cases h1 with
    | inl h1 => rw [h1.1]; exact ⟨rfl, rfl⟩
    | inr h1 => rw [h1.1]; exact ⟨rfl, rfl⟩

/-! ## Changing credentials -/

theorem checkCurrent_ok {cfg : Cfg} {s : St} (h : Live cfg s) {i : Nat} (hi : i < maxUsers)
    (hz : (s.users i).id ≠ 0) {current : List UInt8} (hrc : (checkCurrent cfg s i current).1 = .ok) :
    (credOf s.nvm.store (s.users i) i = [] ∧ current = []) ∨
    (credOf s.nvm.store (s.users i) i ≠ [] ∧ current ≠ [] ∧
      if (s.users i).method = mPin ∧ cfg.noCrypto = false then
        hashPin cfg current = .ok (credOf s.nvm.store (s.users i) i)
      else current = credOf s.nvm.store (s.users i) i) := by
  unfold checkCurrent at hrc
  dsimp only at hrc
  by_cases hc : (s.users i).credLen > 0
  · rw [if_pos hc] at hrc
    by_cases hcur : current = []
    · rw [if_pos hcur] at hrc; cases hrc
    · rw [if_neg hcur] at hrc
      revert hrc
      refine loadCred_cases h hi hz (P := fun r => (match r with
        | ((.ok, stored), s') =>
          if stored.length ≠ (s.users i).credLen then (.access, s')
          else if (s.users i).method = mPin ∧ cfg.noCrypto = false then
            match hashPin cfg current with
            | .error rc => (rc, s')
            | .ok h => if (s.users i).credLen ≠ 32 ∨ stored.take 32 ≠ h then (.access, s') else (.ok, s')
          else if (s.users i).credLen ≠ current.length ∨ stored ≠ current then (.access, s')
          else (.ok, s')
        | ((_, _), s') => (.access, s') : Rc × St).1 = .ok → _) ?_ ?_
      · intro n' data a b c d e f g
        have hcr : credOf s.nvm.store (s.users i) i = data := credOf_some (by omega) f
        have hne : data ≠ [] := by rintro rfl; exact e g.symm
        dsimp only
        rw [hcr, if_neg (by simpa using g)]
        by_cases h1 : (s.users i).method = mPin ∧ cfg.noCrypto = false
        · rw [if_pos h1, if_pos h1]
          cases hh : hashPin cfg current with
          | error rc => intro he; exact absurd he (hashPin_err hh)
          | ok hs =>
            dsimp only
            by_cases h2 : (s.users i).credLen ≠ 32 ∨ data.take 32 ≠ hs
            · rw [if_pos h2]; intro he; cases he
            · rw [if_neg h2]
              intro _
              refine Or.inr ⟨hne, hcur, ?_⟩
              rw [not_or] at h2
              have h3 : (s.users i).credLen = 32 := by simpa using h2.1
              have h4 : data.take 32 = hs := by simpa using h2.2
              rw [List.take_of_length_le (by omega)] at h4
              rw [h4]
        · rw [if_neg h1, if_neg h1]
          by_cases h2 : (s.users i).credLen ≠ current.length ∨ data ≠ current
          · rw [if_pos h2]; intro he; cases he
          · rw [if_neg h2]
            intro _
            rw [not_or] at h2
            have h4 : data = current := by simpa using h2.2
            exact Or.inr ⟨hne, hcur, h4.symm⟩
      · intro rc n' hrc a b d he
        cases rc <;> first | exact absurd rfl hrc | cases he
  · rw [if_neg hc] at hrc
    have h0 : (s.users i).credLen = 0 := by omega
    by_cases hcur : current ≠ []
    · rw [if_pos hcur] at hrc; cases hrc
    · exact Or.inl ⟨credOf_zero h0, by simpa using hcur⟩

theorem setCred_ok {cfg : Cfg} {s : St} (h : Live cfg s) {cur id m : UInt16} {current new : List UInt8}
    (hrc : (baseSetCred cfg s cur id m current new).1 = .ok) :
    cur ≠ 0 ∧ (cur = id ∨ tableAdmin s cur = true) ∧
    (∃ r, view s (id.toNat - 1) = some r ∧
      ((r.cred = [] ∧ current = []) ∨ (r.cred ≠ [] ∧ current ≠ [] ∧
        if r.method = mPin ∧ cfg.noCrypto = false then hashPin cfg current = .ok r.cred
        else current = r.cred))) ∧ (m = mPin ∨ m = mCert) := by
  unfold baseSetCred at hrc
  by_cases hb : badId id = true
  · rw [if_pos hb] at hrc; cases hrc
  rw [if_neg hb] at hrc
  by_cases hc : badId cur = true
  · rw [if_pos hc] at hrc; cases hrc
  rw [if_neg hc] at hrc
  by_cases ha : cur ≠ id ∧ tableAdmin s cur = false
  · rw [if_pos ha] at hrc; cases hrc
  rw [if_neg ha] at hrc
  by_cases hm : cfg.methodOk m = false
  · rw [if_pos hm] at hrc; cases hrc
  rw [if_neg hm] at hrc
  dsimp only at hrc
  by_cases hz : (s.users (slotOf id)).id = 0
  · rw [if_pos hz] at hrc; cases hrc
  rw [if_neg hz] at hrc
  by_cases hlen : new.length > maxCred
  · rw [if_pos hlen] at hrc; cases hrc
  rw [if_neg hlen] at hrc
  have hi := slotOf_lt (id := id) (by simpa using hb)
  have hck : (checkCurrent cfg s (slotOf id) current).1 = .ok := by
    generalize checkCurrent cfg s (slotOf id) current = r at *
    obtain ⟨rc, s'⟩ := r
    cases rc <;> first | rfl | exact hrc
  refine ⟨fun e => hc (by rw [e]; decide), ?_, ⟨_, viewOf_some (i := slotOf id) hi hz, ?_⟩,
    methodOk_cases (cfg := cfg) (by simpa using hm)⟩
  · by_cases e : cur = id
    · exact Or.inl e
    · refine Or.inr ?_
      cases ht : tableAdmin s cur with
      | true => rfl
      | false => exact absurd ⟨e, ht⟩ ha
  · exact checkCurrent_ok h hi hz hck

end WolfHsm.Auth

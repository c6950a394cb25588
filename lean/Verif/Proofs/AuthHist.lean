import Verif.Proofs.AuthInv

/-! # Histories of authentication calls -/

namespace WolfHsm.Auth

open NvmFlash (Meta Store withLen)

/-- The store holds the database. -/
def OnDisk (st : Store) (d : Db) : Prop := ∃ us, Match st us ∧ viewOf st us = d

/-- The stored database is unique. -/
theorem Match.unique {st : Store} {us us' : Nat → Slot} (h : Match st us) (h' : Match st us') :
    viewOf st us = viewOf st us' := by
  let n : Nvm := { store := st, pending := none, powered := true, outs := fun _ => .ok, tick := 0 }
  have hs : Safe n := ⟨fun t rc a e => Out.noConfusion e, rfl⟩
  have key : ∀ vs, Match st vs → (loadFromNvm n).1 = .ok (Auth.fresh vs) := by
    intro vs hv
    refine loadFromNvm_match (n := n) hs rfl hv (P := fun r => r.1 = .ok (Auth.fresh vs)) ?_ ?_
    · intro n' _ _ _ _; rfl
    · intro rc n' _ _ _ he
      obtain ⟨t, ht⟩ := he
      exact absurd rfl ht
  have e : Auth.fresh us = Auth.fresh us' := by
    have := (key us h).symm.trans (key us' h')
    injection this
  rw [← viewOf_fresh st us, e, viewOf_fresh]

theorem OnDisk.unique {st : Store} {d d' : Db} (h : OnDisk st d) (h' : OnDisk st d') : d = d' := by
  obtain ⟨us, a, b⟩ := h
  obtain ⟨us', a', b'⟩ := h'
  rw [← b, ← b']; exact a.unique a'

/-- The state of a device whose database is `d`. -/
structure Good (cfg : Cfg) (s : St) (d : Db) : Prop where
  nvm : cfg.useNvm = true
  safe : Safe s.nvm
  disk : OnDisk s.nvm.store d
  live : s.up = true → s.nvm.powered = true → Match s.nvm.store s.users ∧ view s = d

theorem Good.toLive {cfg : Cfg} {s : St} {d : Db} (h : Good cfg s d) (hu : s.up = true)
    (hp : s.nvm.powered = true) : Live cfg s := ⟨h.nvm, h.safe, hp, (h.live hu hp).1⟩

/-! ## Calls before a successful start -/

theorem act_down {cfg : Cfg} {s : St} (h : s.up = false) (x : Nat) (c : Call) :
    (act cfg s x c).2.nvm = s.nvm ∧ (act cfg s x c).2.up = s.up := by
  cases c with
  | login m a b => unfold act login; dsimp only; rw [if_pos h]; exact ⟨rfl, rfl⟩
  | logout id => unfold act logout; dsimp only; rw [if_pos h]; exact ⟨rfl, rfl⟩
  | add a b c d => unfold act userAdd; dsimp only; rw [if_pos h]; exact ⟨rfl, rfl⟩
  | delete id => unfold act userDelete; dsimp only; rw [if_pos h]; exact ⟨rfl, rfl⟩
  | setPerms id p => unfold act setPerms; dsimp only; rw [if_pos h]; exact ⟨rfl, rfl⟩
  | provision a b c d => unfold act; dsimp only; rw [if_pos h]; exact ⟨rfl, rfl⟩
  | get n => exact ⟨rfl, rfl⟩
  | setCred a b c d => unfold act setCred; dsimp only; rw [if_pos h]; exact ⟨rfl, rfl⟩
  | disconnect =>
    unfold act
    dsimp only
    obtain ⟨us, h1⟩ := disconnect_eq s x
    cases h1 with
    | inl h1 => rw [h1.1]; exact ⟨rfl, rfl⟩
    | inr h1 => rw [h1.1]; exact ⟨rfl, rfl⟩

theorem evOk_call {s : St} {x : Nat} {c : Call} (h : EvOk s (.call x c)) : c.CStr ∧ c.Clean s := by
  cases c <;> first | exact ⟨trivial, trivial⟩ | exact h

/-! ## Start -/

theorem restart_safe {n : Nvm} (h : Safe n) (b : Bool) :
    Safe (n.restart b) ∧ (n.restart b).powered = true ∧ (n.restart b).store = n.store ∧
      (n.restart b).outs = n.outs := by
  unfold Nvm.restart
  rw [h.pending]
  exact ⟨⟨h.spaced, rfl⟩, rfl, rfl, rfl⟩

theorem init_good {cfg : Cfg} {s : St} {d : Db} (hn : cfg.useNvm = true) (hs : Safe s.nvm)
    (hd : OnDisk s.nvm.store d) (b : Bool) : Good cfg (restart cfg s b) d := by
  obtain ⟨us, hm, hv⟩ := hd
  obtain ⟨hs', hp', hst', _⟩ := restart_safe hs b
  unfold restart step init
  dsimp only
  rw [if_pos hn]
  refine loadFromNvm_match hs' hp' (us := us) (by rw [hst']; exact hm) (P := fun r => Good cfg (match r with
    | (.ok us, n) => { s with users := us, ram := fun _ => [], sess := fun _ => Session.none, nvm := n, up := true }
    | (.error _, n) => { s with users := fun _ => Slot.empty, ram := fun _ => [],
                                sess := fun _ => Session.none, nvm := n, up := false }) d) ?_ ?_
  · intro n' a b' c e
    refine ⟨hn, a, ⟨us, ?_, ?_⟩, fun _ _ => ⟨?_, ?_⟩⟩
    · dsimp only; rw [e, hst']; exact hm
    · dsimp only; rw [e, hst']; exact hv
    · dsimp only; rw [e, hst']; exact hm.fresh
    · unfold view; dsimp only; rw [e, hst', viewOf_fresh]; exact hv
  · intro rc n' a b' e _
    refine ⟨hn, a, ⟨us, ?_, ?_⟩, fun h => by cases h⟩
    · dsimp only; rw [e, hst']; exact hm
    · dsimp only; rw [e, hst']; exact hv

theorem init_up {cfg : Cfg} {s : St} {d : Db} (hn : cfg.useNvm = true) (hs : Safe s.nvm)
    (hd : OnDisk s.nvm.store d) (hok : ∀ t, s.nvm.outs t = .ok) (b : Bool) :
    (restart cfg s b).up = true ∧ (restart cfg s b).nvm.powered = true := by
  obtain ⟨us, hm, hv⟩ := hd
  obtain ⟨hs', hp', hst', ho'⟩ := restart_safe hs b
  unfold restart step init
  dsimp only
  rw [if_pos hn]
  refine loadFromNvm_match hs' hp' (us := us) (by rw [hst']; exact hm) (P := fun r =>
    (match r with
    | (.ok us, n) => { s with users := us, ram := fun _ => [], sess := fun _ => Session.none, nvm := n, up := true }
    | (.error _, n) => { s with users := fun _ => Slot.empty, ram := fun _ => [],
                                sess := fun _ => Session.none, nvm := n, up := false } : St).up = true ∧
    (match r with
    | (.ok us, n) => { s with users := us, ram := fun _ => [], sess := fun _ => Session.none, nvm := n, up := true }
    | (.error _, n) => { s with users := fun _ => Slot.empty, ram := fun _ => [],
                                sess := fun _ => Session.none, nvm := n, up := false } : St).nvm.powered = true)
    ?_ ?_
  · intro n' _ _ c _; exact ⟨rfl, c⟩
  · intro rc n' _ _ _ he
    obtain ⟨t, ht⟩ := he
    rw [ho'] at ht
    exact absurd (hok t) ht

/-! ## One event -/

/-- The database after an event is the old one, or the one a call that was answered with
success or cut off makes of it. -/
theorem step_good {cfg : Cfg} {s : St} {d : Db} (h : Good cfg s d) (e : Ev) (he : EvOk s e) :
    ∃ d', Good cfg (step cfg s e) d' ∧
      (d' = d ∨ ∃ x c, e = .call x c ∧ s.up = true ∧ s.nvm.powered = true ∧ Effect cfg c d d' ∧
        ((act cfg s x c).1 = .ok ∨ (act cfg s x c).2.nvm.powered = false)) := by
  cases e with
  | restart b => exact ⟨d, init_good h.nvm h.safe h.disk b, Or.inl rfl⟩
  | foreign f =>
    refine ⟨d, ?_, Or.inl rfl⟩
    unfold step
    dsimp only
    by_cases hp : s.nvm.powered = true
    · rw [if_pos hp]
      have hst : ∀ us, Match s.nvm.store us → Match (fun id => if reserved id then s.nvm.store id else f id) us := by
        intro us hm
        refine ⟨hm.idx.congr (by simp [reserved_index]) (fun _ _ => ⟨rfl, rfl, rfl⟩), ?_⟩
        intro i hi
        exact (hm.wf i hi).store (by simp [reserved_cred hi])
      have hvw : ∀ us, viewOf (fun id => if reserved id then s.nvm.store id else f id) us =
          viewOf s.nvm.store us := by
        intro us
        apply viewOf_congr
        intro i hi
        exact ⟨rfl, fun _ => ⟨rfl, rfl, rfl, rfl, by simp [reserved_cred hi]⟩⟩
      obtain ⟨us, hm, hv⟩ := h.disk
      refine ⟨h.nvm, ⟨h.safe.spaced, h.safe.pending⟩, ⟨us, hst us hm, by rw [hvw]; exact hv⟩, ?_⟩
      intro hu hp'
      refine ⟨hst _ (h.live hu hp').1, ?_⟩
      unfold view
      dsimp only
      rw [hvw]
      exact (h.live hu hp').2
    · rw [if_neg hp]; exact h
  | call x c =>
    unfold step
    dsimp only
    have quiet : (act cfg s x c).2.nvm = s.nvm ∧ (act cfg s x c).2.up = s.up →
        ¬ (s.up = true ∧ s.nvm.powered = true) → Good cfg (act cfg s x c).2 d := by
      intro hq hno
      refine ⟨h.nvm, by rw [hq.1]; exact h.safe, by rw [hq.1]; exact h.disk, fun hu hp => ?_⟩
      rw [hq.1] at hp; rw [hq.2] at hu
      exact absurd ⟨hu, hp⟩ hno
    by_cases hu : s.up = true
    · by_cases hp : s.nvm.powered = true
      · have hl := h.toLive hu hp
        obtain ⟨hc1, hc2⟩ := evOk_call he
        have hr := act_res hl x c hc1 hc2
        have hvd := (h.live hu hp).2
        rw [hvd] at hr
        cases hr.body with
        | inl hb =>
          obtain ⟨hpw, hm, hcase⟩ := hb
          have hg : Good cfg (act cfg s x c).2 (view (act cfg s x c).2) :=
            ⟨h.nvm, hr.safe, ⟨_, hm, rfl⟩, fun _ _ => ⟨hm, rfl⟩⟩
          cases hcase with
          | inl hy => exact ⟨_, hg, Or.inr ⟨x, c, rfl, hu, hp, hy.2, Or.inl hy.1⟩⟩
          | inr hno =>
            refine ⟨_, hg, Or.inl ?_⟩
            rw [hno.2, hvd]
        | inr hb =>
          obtain ⟨hpw, us, hm, hcase⟩ := hb
          refine ⟨viewOf (act cfg s x c).2.nvm.store us, ⟨h.nvm, hr.safe, ⟨us, hm, rfl⟩, fun _ hp' => ?_⟩, ?_⟩
          · rw [hpw] at hp'; cases hp'
          · cases hcase with
            | inl hold => exact Or.inl (by rw [hold, hvd])
            | inr hnew => exact Or.inr ⟨x, c, rfl, hu, hp, hnew, Or.inr hpw⟩
      · exact ⟨d, quiet (act_off h.nvm (by simpa using hp) x c) (fun hh => hp hh.2), Or.inl rfl⟩
    · exact ⟨d, quiet (act_down (by simpa using hu) x c) (fun hh => hu hh.1), Or.inl rfl⟩

theorem run_append (cfg : Cfg) (s : St) (as bs : List Ev) :
    run cfg s (as ++ bs) = run cfg (run cfg s as) bs := by
  induction as generalizing s with
  | nil => rfl
  | cons a as ih => exact ih _

theorem histOk_append {cfg : Cfg} {s : St} {as bs : List Ev} (h : HistOk cfg s (as ++ bs)) :
    HistOk cfg s as ∧ HistOk cfg (run cfg s as) bs := by
  induction as generalizing s with
  | nil => exact ⟨trivial, h⟩
  | cons a as ih => exact ⟨⟨h.1, (ih h.2).1⟩, (ih h.2).2⟩

theorem run_good {cfg : Cfg} {s : St} {d : Db} (h : Good cfg s d) (evs : List Ev)
    (hok : HistOk cfg s evs) : ∃ d', Good cfg (run cfg s evs) d' := by
  induction evs generalizing s d with
  | nil => exact ⟨d, h⟩
  | cons e es ih =>
    obtain ⟨d', hg, _⟩ := step_good h e hok.1
    exact ih hg hok.2

theorem blank_good {cfg : Cfg} {s : St} (hn : cfg.useNvm = true) (h : Blank s) :
    Good cfg s (fun _ => none) := by
  have hm : Match s.nvm.store (fun _ => Slot.empty) :=
    ⟨Or.inl ⟨h.2.2.2 _ reserved_index, fun _ _ => rfl⟩, fun i _ => SlotOk.empty _ i⟩
  refine ⟨hn, ⟨h.2.2.1, h.2.1⟩, ⟨_, hm, ?_⟩, fun hu => ?_⟩
  · funext i; exact viewOf_none rfl
  · rw [h.1] at hu; cases hu

/-! ## Frames: what a call does to sessions and the table, whatever the NVM does -/

/-- The NVM helpers leave table and sessions alone. -/
def Frame (s t : St) : Prop := t.users = s.users ∧ t.sess = s.sess ∧ t.up = s.up

theorem Frame.refl (s : St) : Frame s s := ⟨rfl, rfl, rfl⟩

theorem persistIndex_frame (cfg : Cfg) (s : St) : Frame s (persistIndex cfg s).2 := by
  unfold persistIndex; split <;> exact ⟨rfl, rfl, rfl⟩
theorem persistCred_frame (cfg : Cfg) (s : St) (i : Nat) (m : UInt16) (b : List UInt8) :
    Frame s (persistCred cfg s i m b).2 := by
  unfold persistCred; (repeat' split) <;> exact ⟨rfl, rfl, rfl⟩
theorem destroyCred_frame (cfg : Cfg) (s : St) (i : Nat) : Frame s (destroyCred cfg s i).2 := by
  unfold destroyCred; split <;> exact ⟨rfl, rfl, rfl⟩
theorem loadCred_frame (cfg : Cfg) (s : St) (i : Nat) : Frame s (loadCred cfg s i).2 := by
  unfold loadCred; (repeat' split) <;> exact ⟨rfl, rfl, rfl⟩

theorem addCommit_sess (cfg : Cfg) (s : St) (i : Nat) : (addCommit cfg s i).2.sess = s.sess := by
  unfold addCommit
  have h := persistIndex_frame cfg s
  generalize persistIndex cfg s = r at *
  obtain ⟨rc, s'⟩ := r
  have h2 := destroyCred_frame cfg s' i
  have e : (destroyCred cfg s' i).2.sess = s.sess := h2.2.1.trans h.2.1
  cases rc <;> first
    | exact h.2.1
    | (dsimp only; split <;> first | exact e | exact h.2.1)

theorem baseAdd_sess (cfg : Cfg) (s : St) (name : List UInt8) (p : Perms) (m : UInt16)
    (cred : List UInt8) : (baseAdd cfg s name p m cred).2.sess = s.sess := by
  unfold baseAdd
  split
  · rfl
  · split
    · rfl
    · split
      · rfl
      · rename_i i _
        dsimp only
        split
        · exact addCommit_sess _ _ _
        · cases makeBlob cfg m cred with
          | error rc => rfl
          | ok blob =>
            dsimp only
            have h := persistCred_frame cfg s i m blob
            generalize persistCred cfg s i m blob = r at *
            obtain ⟨rc, s'⟩ := r
            cases rc <;> first
              | exact h.2.1
              | exact (addCommit_sess _ _ _).trans h.2.1

theorem baseDelete_sess (cfg : Cfg) (s : St) (cur id : UInt16) :
    (baseDelete cfg s cur id).2.sess = s.sess := by
  unfold baseDelete
  split
  · rfl
  · split
    · rfl
    · split
      · rfl
      · dsimp only
        split
        · rfl
        · have h := persistIndex_frame cfg { s with users := upd s.users (slotOf id) Slot.empty }
          generalize persistIndex cfg { s with users := upd s.users (slotOf id) Slot.empty } = r at *
          obtain ⟨rc, s'⟩ := r
          cases rc <;> first
            | exact h.2.1
            | (dsimp only
               split
               · have h2 := destroyCred_frame cfg s' (slotOf id)
                 generalize destroyCred cfg s' (slotOf id) = r2 at *
                 obtain ⟨rc2, s2⟩ := r2
                 cases rc2 <;> first
                   | exact h2.2.1.trans h.2.1
                   | exact (persistIndex_frame cfg _).2.1.trans (h2.2.1.trans h.2.1)
               · exact h.2.1)

theorem baseSetPerms_sess (cfg : Cfg) (s : St) (cur id : UInt16) (p : Perms) :
    (baseSetPerms cfg s cur id p).2.sess = s.sess := by
  unfold baseSetPerms
  split
  · rfl
  · split
    · rfl
    · split
      · rfl
      · dsimp only
        split
        · rfl
        · have h := persistIndex_frame cfg { s with users := (upd s.users (slotOf id)
            { s.users (slotOf id) with perms := p.clamp }) }
          generalize persistIndex cfg { s with users := (upd s.users (slotOf id)
            { s.users (slotOf id) with perms := p.clamp }) } = r at *
          obtain ⟨rc, s'⟩ := r
          cases rc <;> exact h.2.1

theorem checkCurrent_frame (cfg : Cfg) (s : St) (i : Nat) (c : List UInt8) :
    Frame s (checkCurrent cfg s i c).2 := by
  unfold checkCurrent
  dsimp only
  have h := loadCred_frame cfg s i
  generalize loadCred cfg s i = r at *
  obtain ⟨⟨rc, d⟩, s'⟩ := r
  by_cases h1 : (s.users i).credLen > 0
  · rw [if_pos h1]
    by_cases h2 : c = []
    · rw [if_pos h2]; exact Frame.refl s
    · rw [if_neg h2]
      cases rc <;> first
        | exact h
        | (dsimp only
           (repeat' split) <;> exact h)
  · rw [if_neg h1]
    split <;> exact Frame.refl s

theorem baseSetCred_sess (cfg : Cfg) (s : St) (cur id m : UInt16) (a b : List UInt8) :
    (baseSetCred cfg s cur id m a b).2.sess = s.sess := by
  unfold baseSetCred
  split
  · rfl
  · split
    · rfl
    · split
      · rfl
      · split
        · rfl
        · dsimp only
          split
          · rfl
          · split
            · rfl
            · have h := checkCurrent_frame cfg s (slotOf id) a
              generalize checkCurrent cfg s (slotOf id) a = r at *
              obtain ⟨rc, s'⟩ := r
              cases rc <;> first
                | exact h.2.1
                | (dsimp only
                   split
                   · cases makeBlob cfg m b with
                     | error rc => exact h.2.1
                     | ok blob =>
                       dsimp only
                       have h2 := persistCred_frame cfg s' (slotOf id) m blob
                       generalize persistCred cfg s' (slotOf id) m blob = r2 at *
                       obtain ⟨rc2, s2⟩ := r2
                       cases rc2 <;> exact h2.2.1.trans h.2.1
                   · split
                     · have h2 := destroyCred_frame cfg s' (slotOf id)
                       generalize destroyCred cfg s' (slotOf id) = r2 at *
                       obtain ⟨rc2, s2⟩ := r2
                       cases rc2 <;> exact h2.2.1.trans h.2.1
                     · exact h.2.1)

theorem check_frame (cfg : Cfg) (s : St) (m : UInt16) (a b : List UInt8) :
    Frame s (if m = mPin then checkPin cfg s a b
      else if m = mCert ∧ cfg.certLogin = true then checkCert cfg s a b
      else ((.badargs, none), s)).2 := by
  split
  · unfold checkPin
    cases hashPin cfg b with
    | error rc => exact Frame.refl s
    | ok hh =>
      cases findUser s a with
      | none => exact Frame.refl s
      | some i =>
        dsimp only
        have hl := loadCred_frame cfg s i
        generalize loadCred cfg s i = r at *
        obtain ⟨⟨rc, d⟩, s'⟩ := r
        split
        · cases rc <;> exact hl
        · exact Frame.refl s
  · split
    · unfold checkCert
      cases findUser s a with
      | none => exact Frame.refl s
      | some i =>
        dsimp only
        have hl := loadCred_frame cfg s i
        generalize loadCred cfg s i = r at *
        obtain ⟨⟨rc, d⟩, s'⟩ := r
        split
        · cases rc <;> exact hl
        · exact Frame.refl s
    · exact Frame.refl s

/-- The slot the credential check answers is a table slot. -/
theorem check_lt {cfg : Cfg} {s : St} {m : UInt16} {a b : List UInt8} {rc : Rc} {i : Nat} {t : St}
    (h : (if m = mPin then checkPin cfg s a b
      else if m = mCert ∧ cfg.certLogin = true then checkCert cfg s a b
      else ((.badargs, none), s)) = ((rc, some i), t)) :
    i < maxUsers ∧ (s.users i).name = a ∧ (s.users i).method = m ∧ (m = mPin ∨ m = mCert) := by
  split at h
  · rename_i hm
    unfold checkPin at h
    cases hh : hashPin cfg b with
    | error rc => rw [hh] at h; cases h
    | ok hs =>
      rw [hh] at h
      cases hf : findUser s a with
      | none => rw [hf] at h; cases h
      | some j =>
        rw [hf] at h
        dsimp only at h
        obtain ⟨hj, hn⟩ := findUser_some hf
        by_cases hc : (s.users j).method = mPin ∧ (s.users j).credLen = hs.length
        · rw [if_pos hc] at h
          have : j = i := by
            generalize loadCred cfg s j = r at h
            obtain ⟨⟨rc', d⟩, s'⟩ := r
            cases rc' <;> dsimp only at h <;> first
              | (injection h with h1 h2; injection h1 with h3 h4; cases h4)
              | (split at h <;> injection h with h1 h2 <;> (injection h1 with h3 h4; cases h4 <;> rfl))
          subst this
          exact ⟨hj, hn, by rw [hc.1, hm], Or.inl hm⟩
        · rw [if_neg hc] at h; cases h
  · split at h
    · rename_i hm
      unfold checkCert at h
      cases hf : findUser s a with
      | none => rw [hf] at h; cases h
      | some j =>
        rw [hf] at h
        dsimp only at h
        obtain ⟨hj, hn⟩ := findUser_some hf
        by_cases hc : (s.users j).method = mCert ∧ (s.users j).credLen > 0
        · rw [if_pos hc] at h
          have : j = i := by
            generalize loadCred cfg s j = r at h
            obtain ⟨⟨rc', d⟩, s'⟩ := r
            cases rc' <;> dsimp only at h <;> first
              | (injection h with h1 h2; injection h1 with h3 h4; cases h4)
              | (split at h <;> injection h with h1 h2 <;> (injection h1 with h3 h4; cases h4 <;> rfl))
          subst this
          exact ⟨hj, hn, by rw [hc.1, hm.1], Or.inr hm.1⟩
        · rw [if_neg hc] at h; cases h
    · cases h

/-- A login, whatever the NVM does. -/
theorem login_frame (cfg : Cfg) (s : St) (x : Nat) (m : UInt16) (name data : List UInt8)
    {P : Rc × St → Prop}
    (hno : ∀ rc t, rc ≠ .ok → Frame s t → P (rc, t))
    (hyes : ∀ i t, i < maxUsers → (s.users i).name = name → (s.users i).active = false →
      (s.users i).method = m → (m = mPin ∨ m = mCert) → (s.sess x).id = 0 → s.up = true → Frame s t →
      P (.ok, { t with users := upd s.users i { s.users i with active := true },
                       sess := upd s.sess x ⟨(s.users i).id, (s.users i).perms⟩ })) :
    P (act cfg s x (.login m name data)) := by
  unfold act login
  dsimp only
  by_cases hup : s.up = false
  · rw [if_pos hup]; exact hno .badargs s (by simp) (Frame.refl s)
  · rw [if_neg hup]
    by_cases hx : (s.sess x).id ≠ 0
    · rw [if_pos hx]; exact hno .authLoginFailed s (by simp) (Frame.refl s)
    · rw [if_neg hx]
      unfold baseLogin
      dsimp only
      have hf := check_frame cfg s m name data
      have hl := @check_lt cfg s m name data
      generalize (if m = mPin then checkPin cfg s name data
        else if m = mCert ∧ cfg.certLogin = true then checkCert cfg s name data
        else ((.badargs, none), s)) = r at *
      obtain ⟨⟨rc, o⟩, t⟩ := r
      dsimp only at hf
      cases rc <;> cases o <;> first
        | exact hno _ t (by simp) hf
        | skip
      rename_i i
      dsimp only
      obtain ⟨h1, h2, h3, h4⟩ := hl (rc := .ok) (i := i) (t := t) rfl
      have hu : t.users = s.users := hf.1
      cases hact : (t.users i).active with
      | true => exact hno .authLoginFailed t (by simp) hf
      | false =>
        have := hyes i t h1 h2 (by rw [← hu]; exact hact) h3 h4 (by simpa using hx)
          (by simpa using hup) hf
        have e : t.sess = s.sess := hf.2.1
        simpa [upd_self, hu, e] using this

/-! ## Sessions -/

/-- What a call does to the sessions. -/
theorem act_sess (cfg : Cfg) (s : St) (x : Nat) (c : Call) :
    (act cfg s x c).2.sess = s.sess ∨
    (act cfg s x c).2.sess = upd s.sess x Session.none ∨
    (∃ m name data i, c = .login m name data ∧ (act cfg s x c).1 = .ok ∧ i < maxUsers ∧
      (act cfg s x c).2.sess = upd s.sess x ⟨(s.users i).id, (s.users i).perms⟩) ∨
    (∃ p, c = .setPerms (s.sess x).id p ∧ (s.sess x).id ≠ 0 ∧ (act cfg s x c).1 = .ok ∧
      (act cfg s x c).2.sess = upd s.sess x { s.sess x with perms := p }) := by
  cases c with
  | login m name data =>
    refine login_frame cfg s x m name data (P := fun r => r.2.sess = s.sess ∨
      r.2.sess = upd s.sess x Session.none ∨
      (∃ m' name' data' i, (Call.login m name data) = .login m' name' data' ∧ r.1 = .ok ∧ i < maxUsers ∧
        r.2.sess = upd s.sess x ⟨(s.users i).id, (s.users i).perms⟩) ∨
      (∃ p, (Call.login m name data) = .setPerms (s.sess x).id p ∧ (s.sess x).id ≠ 0 ∧ r.1 = .ok ∧
        r.2.sess = upd s.sess x { s.sess x with perms := p })) ?_ ?_
    · intro rc t _ h; exact Or.inl h.2.1
    · intro i t hi _ _ _ _ _ _ _
      exact Or.inr (Or.inr (Or.inl ⟨m, name, data, i, rfl, rfl, hi, rfl⟩))
  | logout id =>
    refine logout_cases s x id (P := fun r => r.2.sess = s.sess ∨
      r.2.sess = upd s.sess x Session.none ∨ _ ∨ _) ?_ ?_
    · intro rc _; exact Or.inl rfl
    · intro se _ _ _ _ _ _ hse
      split at hse
      · exact Or.inr (Or.inl hse)
      · exact Or.inl hse
  | add name p m cred =>
    refine Or.inl ?_
    unfold act userAdd
    dsimp only
    (repeat' split) <;> first | rfl | exact baseAdd_sess _ _ _ _ _ _
  | delete id =>
    refine Or.inl ?_
    unfold act userDelete
    dsimp only
    split
    · rfl
    · exact baseDelete_sess _ _ _ _
  | setPerms id p =>
    unfold act setPerms
    dsimp only
    split
    · exact Or.inl rfl
    · have h := baseSetPerms_sess cfg s (s.sess x).id id p
      generalize baseSetPerms cfg s (s.sess x).id id p = r at *
      obtain ⟨rc, s'⟩ := r
      dsimp only at h
      cases rc <;> first
        | exact Or.inl h
        | (dsimp only
           by_cases hc : id = (s.sess x).id ∧ (s.sess x).id ≠ 0
           · rw [if_pos hc]
             refine Or.inr (Or.inr (Or.inr ⟨p, by rw [hc.1], hc.2, rfl, ?_⟩))
             dsimp only
             rw [h]
           · rw [if_neg hc]; exact Or.inl h)
  | provision name p m cred =>
    refine Or.inl ?_
    unfold act
    dsimp only
    split
    · rfl
    · exact baseAdd_sess _ _ _ _ _ _
  | get name => exact Or.inl rfl
  | setCred id m a b =>
    refine Or.inl ?_
    unfold act setCred
    dsimp only
    split
    · rfl
    · exact baseSetCred_sess _ _ _ _ _ _ _
  | disconnect =>
    unfold act
    dsimp only
    obtain ⟨us, h1⟩ := disconnect_eq s x
    cases h1 with
    | inl h1 => rw [h1.1]; exact Or.inr (Or.inl rfl)
    | inr h1 => rw [h1.1]; exact Or.inl rfl

end WolfHsm.Auth

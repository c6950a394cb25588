import Verif.Proofs.AuthRights

/-! # Logins whatever the NVM does -/

namespace WolfHsm.Auth

open NvmFlash (Meta Store withLen)

/-- Unused entries have no method. -/
def Unused (us : Nat → Slot) : Prop := ∀ i, (us i).id = 0 → (us i).method = mNone

theorem Unused.upd {us : Nat → Slot} (h : Unused us) {i : Nat} {v : Slot}
    (hv : v.id = 0 → v.method = mNone) : Unused (upd us i v) := by
  intro j hj
  by_cases e : j = i
  · subst e; rw [upd_self] at hj ⊢; exact hv hj
  · rw [upd_ne e] at hj ⊢; exact h j hj

theorem addCommit_unused {cfg : Cfg} {s : St} {i : Nat} (h : Unused s.users) :
    Unused (addCommit cfg s i).2.users := by
  unfold addCommit
  have h1 := persistIndex_frame cfg s
  generalize persistIndex cfg s = r at *
  obtain ⟨rc, s'⟩ := r
  have hu : s'.users = s.users := h1.1
  have h2 := destroyCred_frame cfg s' i
  cases rc <;> first
    | (dsimp only; rw [hu]; exact h)
    | (dsimp only
       split
       · refine Unused.upd ?_ (fun _ => rfl)
         rw [h2.1, hu]; exact h
       · refine Unused.upd ?_ (fun _ => rfl)
         rw [hu]; exact h)

theorem baseAdd_unused {cfg : Cfg} {s : St} (h : Unused s.users) (name : List UInt8) (p : Perms)
    (m : UInt16) (cred : List UInt8) : Unused (baseAdd cfg s name p m cred).2.users := by
  unfold baseAdd
  split
  · exact h
  · split
    · exact h
    · split
      · exact h
      · rename_i i hi
        have hlt := (freeSlot_some hi).1
        dsimp only
        split
        · exact addCommit_unused (h.upd (fun e => absurd e (ofNat_succ_ne_zero hlt)))
        · cases makeBlob cfg m cred with
          | error rc => exact h
          | ok blob =>
            dsimp only
            have h1 := persistCred_frame cfg s i m blob
            generalize persistCred cfg s i m blob = r at *
            obtain ⟨rc, s'⟩ := r
            have hu : s'.users = s.users := h1.1
            cases rc <;> first
              | (dsimp only; rw [hu]; exact h)
              | (refine addCommit_unused ?_
                 dsimp only
                 rw [hu]
                 exact h.upd (fun e => absurd e (ofNat_succ_ne_zero hlt)))

theorem baseDelete_unused {cfg : Cfg} {s : St} (h : Unused s.users) (cur id : UInt16) :
    Unused (baseDelete cfg s cur id).2.users := by
  unfold baseDelete
  split
  · exact h
  · split
    · exact h
    · split
      · exact h
      · dsimp only
        split
        · exact h
        · have h1 := persistIndex_frame cfg { s with users := upd s.users (slotOf id) Slot.empty }
          generalize persistIndex cfg { s with users := upd s.users (slotOf id) Slot.empty } = r at *
          obtain ⟨rc, s'⟩ := r
          have hu : s'.users = upd s.users (slotOf id) Slot.empty := h1.1
          have hU : Unused s'.users := by rw [hu]; exact h.upd (fun _ => rfl)
          cases rc <;> first
            | exact hU.upd (h _)
            | (dsimp only
               split
               · have h2 := destroyCred_frame cfg s' (slotOf id)
                 generalize destroyCred cfg s' (slotOf id) = r2 at *
                 obtain ⟨rc2, s2⟩ := r2
                 have hU2 : Unused s2.users := by rw [show s2.users = s'.users from h2.1]; exact hU
                 cases rc2 <;> first
                   | exact hU2
                   | (show Unused (persistIndex cfg _).2.users
                      rw [(persistIndex_frame cfg _).1]
                      exact hU2.upd (h _))
               · exact hU)

theorem baseSetPerms_unused {cfg : Cfg} {s : St} (h : Unused s.users) (cur id : UInt16) (p : Perms) :
    Unused (baseSetPerms cfg s cur id p).2.users := by
  unfold baseSetPerms
  split
  · exact h
  · split
    · exact h
    · split
      · exact h
      · dsimp only
        split
        · exact h
        · have h1 := persistIndex_frame cfg { s with users := (upd s.users (slotOf id)
            { s.users (slotOf id) with perms := p.clamp }) }
          generalize persistIndex cfg { s with users := (upd s.users (slotOf id)
            { s.users (slotOf id) with perms := p.clamp }) } = r at *
          obtain ⟨rc, s'⟩ := r
          have hU : Unused s'.users := by
            rw [show s'.users = _ from h1.1]
            exact h.upd (fun e => h (slotOf id) e)
          cases rc <;> first | exact hU | exact hU.upd (h _)

theorem baseSetCred_unused {cfg : Cfg} {s : St} (h : Unused s.users) (cur id m : UInt16)
    (a b : List UInt8) : Unused (baseSetCred cfg s cur id m a b).2.users := by
  unfold baseSetCred
  split
  · exact h
  · split
    · exact h
    · split
      · exact h
      · split
        · exact h
        · dsimp only
          by_cases hz : (s.users (slotOf id)).id = 0
          · rw [if_pos hz]; exact h
          · rw [if_neg hz]
            split
            · exact h
            · have h1 := checkCurrent_frame cfg s (slotOf id) a
              generalize checkCurrent cfg s (slotOf id) a = r at *
              obtain ⟨rc, s'⟩ := r
              have hu : s'.users = s.users := h1.1
              have hU : Unused s'.users := by rw [hu]; exact h
              cases rc <;> first
                | exact hU
                | (dsimp only
                   split
                   · cases makeBlob cfg m b with
                     | error rc => exact hU
                     | ok blob =>
                       dsimp only
                       have h2 := persistCred_frame cfg s' (slotOf id) m blob
                       generalize persistCred cfg s' (slotOf id) m blob = r2 at *
                       obtain ⟨rc2, s2⟩ := r2
                       have hu2 : s2.users = s.users := h2.1.trans hu
                       have hU2 : Unused s2.users := by rw [hu2]; exact h
                       cases rc2 <;> first
                         | exact hU2
                         | (refine hU2.upd (fun e => absurd e ?_); rw [hu2]; exact hz)
                   · split
                     · have h2 := destroyCred_frame cfg s' (slotOf id)
                       generalize destroyCred cfg s' (slotOf id) = r2 at *
                       obtain ⟨rc2, s2⟩ := r2
                       have hU2 : Unused s2.users := by rw [show s2.users = s'.users from h2.1]; exact hU
                       cases rc2 <;> first
                         | exact hU2
                         | exact hU2.upd (fun _ => rfl)
                     · exact hU)

theorem loadSlots_unused {n : Nvm} {buf : List UInt8} : ∀ (k : Nat) {us : Nat → Slot},
    loadSlots n buf k = .ok us → Unused us := by
  intro k
  induction k with
  | zero => intro us h; injection h with h; subst h; exact fun _ _ => rfl
  | succ k ih =>
    intro us h
    unfold loadSlots at h
    cases hl : loadSlots n buf k with
    | error rc => rw [hl] at h; cases h
    | ok vs =>
      rw [hl] at h
      cases hs : loadSlot n buf k with
      | error rc => rw [hs] at h; cases h
      | ok u =>
        rw [hs] at h
        injection h with h
        subst h
        refine (ih hl).upd (fun hz => ?_)
        unfold loadSlot at hs
        dsimp only at hs
        by_cases h1 : (decUser ((buf.drop (4 + userLen * k)).take userLen)).id = 0
        · rw [if_pos h1] at hs
          split at hs
          · cases hs
          · injection hs with hs; subst hs; rfl
        · rw [if_neg h1] at hs
          split at hs
          · cases hs
          · split at hs
            · split at hs
              · cases hs
              · injection hs with hs; subst hs; exact absurd hz h1
            · injection hs with hs; subst hs; rfl
            · cases hs

theorem init_unused (cfg : Cfg) (s : St) : Unused (init cfg s).users := by
  unfold init
  dsimp only
  split
  · split
    · rename_i us n h
      unfold loadFromNvm at h
      split at h
      · split at h
        · split at h
          · split at h
            · cases h
            · injection h with h1 _
              exact loadSlots_unused _ h1
          · cases h
        · cases h
      · injection h with h1 _
        injection h1 with h1
        subst h1
        exact fun _ _ => rfl
      · cases h
    · exact fun _ _ => rfl
  · exact fun _ _ => rfl

theorem act_unused {cfg : Cfg} {s : St} (h : Unused s.users) (x : Nat) (c : Call) :
    Unused (act cfg s x c).2.users := by
  cases c with
  | login m name data =>
    refine login_frame cfg s x m name data (P := fun r => Unused r.2.users) ?_ ?_
    · intro rc t _ hf; show Unused t.users; rw [hf.1]; exact h
    · intro i t _ _ _ _ _ _ _ _; exact h.upd (h i)
  | logout id =>
    refine logout_cases s x id (P := fun r => Unused r.2.users) ?_ ?_
    · intro rc _; exact h
    · intro se _ _ _ _ _ _ _; exact h.upd (h _)
  | add name p m cred =>
    unfold act userAdd
    dsimp only
    (repeat' split) <;> first | exact h | exact baseAdd_unused h _ _ _ _
  | provision name p m cred =>
    unfold act
    dsimp only
    (repeat' split) <;> first | exact h | exact baseAdd_unused h _ _ _ _
  | delete id =>
    unfold act userDelete
    dsimp only
    split
    · exact h
    · exact baseDelete_unused h _ _
  | setPerms id p =>
    unfold act setPerms
    dsimp only
    split
    · exact h
    · have h1 := baseSetPerms_unused (cfg := cfg) h (s.sess x).id id p
      generalize baseSetPerms cfg s (s.sess x).id id p = r at *
      obtain ⟨rc, s'⟩ := r
      cases rc <;> first | exact h1 | (dsimp only; split <;> exact h1)
  | get name => exact h
  | setCred id m a b =>
    unfold act setCred
    dsimp only
    split
    · exact h
    · exact baseSetCred_unused h _ _ _ _ _
  | disconnect =>
    unfold act
    dsimp only
    obtain ⟨us, h1⟩ := disconnect_eq s x
    cases h1 with
    | inl h1 =>
      rw [h1.1]
      cases h1.2 with
      | inl e => subst e; exact h
      | inr e => subst e; exact h.upd (h _)
    | inr h1 => rw [h1.1]; exact h

theorem run_unused {cfg : Cfg} (evs : List Ev) : ∀ {s : St}, Unused s.users →
    Unused (run cfg s evs).users := by
  induction evs with
  | nil => exact fun h => h
  | cons e es ih =>
    intro s h
    refine ih ?_
    cases e with
    | call x c => exact act_unused h x c
    | foreign f => unfold step; dsimp only; split <;> exact h
    | restart b => exact init_unused _ _

/-! ## What the credential checks compare with -/

theorem loadCred_stored {cfg : Cfg} {s : St} {i : Nat} {blob : List UInt8}
    (h : (loadCred cfg s i).1 = (.ok, blob)) : Stored cfg s i blob := by
  unfold loadCred at h
  unfold Stored
  by_cases hn : cfg.useNvm = true
  · rw [if_pos hn] at h ⊢
    unfold Nvm.metadata Store.info at h
    show ∃ md data, s.nvm.store (credId i) = some (md, data) ∧ _
    cases hs : s.nvm.store (credId i) with
    | none => rw [hs] at h; cases h
    | some e =>
      obtain ⟨md, data⟩ := e
      rw [hs] at h
      dsimp only at h
      split at h
      · dsimp only at h
        refine ⟨md, data, rfl, ?_⟩
        unfold Nvm.read at h
        split at h
        · split at h
          · have h : s.nvm.store.slice (credId i) 0 md.len.toNat = (.ok, blob) := h
            unfold Store.slice at h
            rw [hs] at h
            dsimp only at h
            split at h
            · rename_i hc
              injection h with _ h
              exact ⟨by omega, by rw [← h]; simp⟩
            · cases h
          · rename_i rc _ _
            cases rc <;> cases h
          · cases h
        · cases h
      · cases h
  · rw [if_neg hn] at h ⊢
    split at h
    · cases h
    · split at h
      · cases h
      · injection h with _ h; exact h.symm

theorem check_stored {cfg : Cfg} {s : St} {m : UInt16} {a b : List UInt8} {i : Nat} {t : St}
    (h : (if m = mPin then checkPin cfg s a b
      else if m = mCert ∧ cfg.certLogin = true then checkCert cfg s a b
      else ((.badargs, none), s)) = ((.ok, some i), t)) :
    ∃ blob, Stored cfg s i blob ∧ blob.length = (s.users i).credLen ∧
      ((m = mPin ∧ hashPin cfg b = .ok blob) ∨
       (m = mCert ∧ cfg.certLogin = true ∧ cfg.verify blob b = true)) := by
  split at h
  · rename_i hm
    unfold checkPin at h
    cases hh : hashPin cfg b with
    | error rc => rw [hh] at h; cases h
    | ok hs =>
      rw [hh] at h
      cases hf : findUser s a with
      | none => rw [hf] at h; cases h
      | some j =>
        rw [hf] at h
        dsimp only at h
        by_cases hc : (s.users j).method = mPin ∧ (s.users j).credLen = hs.length
        · rw [if_pos hc] at h
          have hst := @loadCred_stored cfg s j
          generalize loadCred cfg s j = r at *
          obtain ⟨⟨rc, d⟩, s'⟩ := r
          cases rc <;> dsimp only at h <;> first
            | (injection h with h1 h2; injection h1 with h3 h4; cases h4; done)
            | (injection h with h1 h2; injection h1 with h3 h4; cases h3; done)
            | skip
          by_cases hd : d = hs
          · rw [if_pos hd] at h
            injection h with h1 h2
            injection h1 with h3 h4
            injection h4 with h4
            subst h4
            subst hd
            exact ⟨d, hst rfl, hc.2.symm, Or.inl ⟨hm, rfl⟩⟩
          · rw [if_neg hd] at h; cases h
        · rw [if_neg hc] at h; cases h
  · split at h
    · rename_i hm
      unfold checkCert at h
      cases hf : findUser s a with
      | none => rw [hf] at h; cases h
      | some j =>
        rw [hf] at h
        dsimp only at h
        by_cases hc : (s.users j).method = mCert ∧ (s.users j).credLen > 0
        · rw [if_pos hc] at h
          have hst := @loadCred_stored cfg s j
          generalize loadCred cfg s j = r at *
          obtain ⟨⟨rc, d⟩, s'⟩ := r
          cases rc <;> dsimp only at h <;> first
            | (injection h with h1 h2; injection h1 with h3 h4; cases h4; done)
            | (injection h with h1 h2; injection h1 with h3 h4; cases h3; done)
            | skip
          by_cases hd : d.length = (s.users j).credLen ∧ cfg.verify d b = true
          · rw [if_pos hd] at h
            injection h with h1 h2
            injection h1 with h3 h4
            injection h4 with h4
            subst h4
            exact ⟨d, hst rfl, hd.1, Or.inr ⟨hm.1, hm.2, hd.2⟩⟩
          · rw [if_neg hd] at h; cases h
        · rw [if_neg hc] at h; cases h
    · cases h

/-- A successful login, whatever the NVM does. -/
theorem login_any {cfg : Cfg} {s : St} (hU : Unused s.users) {x : Nat} {m : UInt16} {name data : List UInt8}
    (hrc : (act cfg s x (.login m name data)).1 = .ok) :
    ∃ i blob, i < maxUsers ∧ (s.users i).id ≠ 0 ∧ (s.users i).name = name ∧ (s.users i).active = false ∧
      (s.users i).method = m ∧ (s.sess x).id = 0 ∧ Stored cfg s i blob ∧
      blob.length = (s.users i).credLen ∧
      ((m = mPin ∧ hashPin cfg data = .ok blob) ∨
       (m = mCert ∧ cfg.certLogin = true ∧ cfg.verify blob data = true)) ∧
      (act cfg s x (.login m name data)).2.sess = upd s.sess x ⟨(s.users i).id, (s.users i).perms⟩ ∧
      (act cfg s x (.login m name data)).2.users = upd s.users i { s.users i with active := true } := by
  revert hrc
  unfold act login
  dsimp only
  by_cases hup : s.up = false
  · rw [if_pos hup]; intro h; cases h
  · rw [if_neg hup]
    by_cases hx : (s.sess x).id ≠ 0
    · rw [if_pos hx]; intro h; cases h
    · rw [if_neg hx]
      unfold baseLogin
      dsimp only
      have hf := check_frame cfg s m name data
      have hl := @check_lt cfg s m name data
      have hs := @check_stored cfg s m name data
      generalize (if m = mPin then checkPin cfg s name data
        else if m = mCert ∧ cfg.certLogin = true then checkCert cfg s name data
        else ((.badargs, none), s)) = r at *
      obtain ⟨⟨rc, o⟩, t⟩ := r
      dsimp only at hf
      cases rc <;> cases o <;> first
        | (intro h; cases h; done)
        | skip
      rename_i i
      dsimp only
      obtain ⟨h1, h2, h3, h4⟩ := hl (rc := .ok) (i := i) (t := t) rfl
      obtain ⟨blob, h5, h6, h7⟩ := hs (i := i) (t := t) rfl
      have hu : t.users = s.users := hf.1
      have he : t.sess = s.sess := hf.2.1
      cases hact : (t.users i).active with
      | true => intro h; cases h
      | false =>
        intro _
        rw [hu] at hact
        refine ⟨i, blob, h1, ?_, h2, hact, h3, by simpa using hx, h5, h6, h7, ?_, ?_⟩
        · intro e
          have := hU i e
          rw [h3] at this
          cases h4 with
          | inl h4 => rw [h4] at this; exact absurd this (by decide)
          | inr h4 => rw [h4] at this; exact absurd this (by decide)
        · simp [upd_self, hu, he]
        · simp [hu]

/-- Accepted current credentials, whatever the NVM does. -/
theorem checkCurrent_any {cfg : Cfg} {s : St} {i : Nat} {current : List UInt8}
    (hrc : (checkCurrent cfg s i current).1 = .ok) :
    ((s.users i).credLen = 0 ∧ current = []) ∨
    ∃ blob, Stored cfg s i blob ∧ blob.length = (s.users i).credLen ∧ 0 < blob.length ∧
      if (s.users i).method = mPin ∧ cfg.noCrypto = false then hashPin cfg current = .ok blob
      else current = blob := by
  unfold checkCurrent at hrc
  dsimp only at hrc
  by_cases hc : (s.users i).credLen > 0
  · rw [if_pos hc] at hrc
    by_cases hcur : current = []
    · rw [if_pos hcur] at hrc; cases hrc
    · rw [if_neg hcur] at hrc
      have hst := @loadCred_stored cfg s i
      generalize loadCred cfg s i = r at *
      obtain ⟨⟨rc, d⟩, s'⟩ := r
      cases rc <;> first | (cases hrc; done) | skip
      dsimp only at hrc
      by_cases h0 : d.length ≠ (s.users i).credLen
      · rw [if_pos h0] at hrc; cases hrc
      · rw [if_neg h0] at hrc
        have h0 : d.length = (s.users i).credLen := by simpa using h0
        refine Or.inr ⟨d, hst rfl, h0, by omega, ?_⟩
        by_cases h1 : (s.users i).method = mPin ∧ cfg.noCrypto = false
        · rw [if_pos h1] at hrc ⊢
          cases hh : hashPin cfg current with
          | error rc => rw [hh] at hrc; exact absurd hrc (hashPin_err hh)
          | ok hs =>
            rw [hh] at hrc
            dsimp only at hrc
            by_cases h2 : (s.users i).credLen ≠ 32 ∨ d.take 32 ≠ hs
            · rw [if_pos h2] at hrc; cases hrc
            · rw [not_or] at h2
              have h3 : (s.users i).credLen = 32 := by simpa using h2.1
              have h4 : d.take 32 = hs := by simpa using h2.2
              rw [List.take_of_length_le (by omega)] at h4
              rw [h4]
        · rw [if_neg h1] at hrc ⊢
          by_cases h2 : (s.users i).credLen ≠ current.length ∨ d ≠ current
          · rw [if_pos h2] at hrc; cases hrc
          · rw [not_or] at h2
            have h4 : d = current := by simpa using h2.2
            exact h4.symm
  · rw [if_neg hc] at hrc
    by_cases hcur : current ≠ []
    · rw [if_pos hcur] at hrc; cases hrc
    · exact Or.inl ⟨by omega, by simpa using hcur⟩

theorem setCred_any {cfg : Cfg} {s : St} {x : Nat} {id m : UInt16} {current new : List UInt8}
    (hrc : (act cfg s x (.setCred id m current new)).1 = .ok) :
    (s.sess x).id ≠ 0 ∧ ((s.sess x).id = id ∨ tableAdmin s (s.sess x).id = true) ∧
    slotOf id < maxUsers ∧ (s.users (slotOf id)).id ≠ 0 ∧
    (((s.users (slotOf id)).credLen = 0 ∧ current = []) ∨
      ∃ blob, Stored cfg s (slotOf id) blob ∧ blob.length = (s.users (slotOf id)).credLen ∧
        0 < blob.length ∧
        if (s.users (slotOf id)).method = mPin ∧ cfg.noCrypto = false then hashPin cfg current = .ok blob
        else current = blob) := by
  unfold act setCred at hrc
  dsimp only at hrc
  by_cases hu : s.up = false
  · rw [if_pos hu] at hrc; cases hrc
  rw [if_neg hu] at hrc
  unfold baseSetCred at hrc
  by_cases hb : badId id = true
  · rw [if_pos hb] at hrc; cases hrc
  rw [if_neg hb] at hrc
  by_cases hc : badId (s.sess x).id = true
  · rw [if_pos hc] at hrc; cases hrc
  rw [if_neg hc] at hrc
  by_cases ha : (s.sess x).id ≠ id ∧ tableAdmin s (s.sess x).id = false
  · rw [if_pos ha] at hrc; cases hrc
  rw [if_neg ha] at hrc
  by_cases hm : cfg.methodOk m = false
  · rw [if_pos hm] at hrc; cases hrc
  rw [if_neg hm] at hrc
  dsimp only at hrc
  by_cases hz : (s.users (slotOf id)).id = 0
  · rw [if_pos hz] at hrc; cases hrc
  rw [if_neg hz] at hrc
  by_cases hlen : new.length > maxCred
  · rw [if_pos hlen] at hrc; cases hrc
  rw [if_neg hlen] at hrc
  have hck : (checkCurrent cfg s (slotOf id) current).1 = .ok := by
    generalize checkCurrent cfg s (slotOf id) current = r at *
    obtain ⟨rc, s'⟩ := r
    cases rc <;> first | rfl | exact hrc
  refine ⟨fun e => hc (by rw [e]; decide), ?_, slotOf_lt (by simpa using hb), hz, checkCurrent_any hck⟩
  by_cases e : (s.sess x).id = id
  · exact Or.inl e
  · refine Or.inr ?_
    cases ht : tableAdmin s (s.sess x).id with
    | true => rfl
    | false => exact absurd ⟨e, ht⟩ ha

end WolfHsm.Auth

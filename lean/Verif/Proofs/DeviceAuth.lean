import Verif.Proofs.DeviceNvm
import Verif.Proofs.AuthAny

/-!
# Which NVM objects the authentication manager writes
-/

namespace WolfHsm.Device

open Auth

/-- Names fit their fields. -/
def Names (us : Nat → Slot) : Prop := ∀ i, (us i).name.length ≤ 32

theorem Names.upd {us : Nat → Slot} (h : Names us) (i : Nat) {v : Slot} (hv : v.name.length ≤ 32) :
    Names (upd us i v) := by
  intro j
  by_cases e : j = i
  · subst e; rw [upd_self]; exact hv
  · rw [upd_ne e]; exact h j

theorem flatMap_le {α : Type} (f : Nat → List α) (k : Nat) (l : List Nat) (h : ∀ i ∈ l, (f i).length ≤ k) :
    (l.flatMap f).length ≤ k * l.length := by
  induction l with
  | nil => simp
  | cons a t ih =>
    rw [List.flatMap_cons, List.length_append, List.length_cons, Nat.mul_add]
    have := h a (by simp)
    have := ih fun i hi => h i (by simp [hi])
    omega

theorem encIndex_short {us : Nat → Slot} (h : Names us) : (encIndex us).length < 65536 := by
  have : ∀ i ∈ List.range maxUsers, ((fun i => encUser (us i)) i).length ≤ 508 := by
    intro i _
    have := h i
    have h3 := perms_bytes_length (us i).perms
    simp only [encUser, nameBytes, List.length_append, Auth.bytes16_length, List.length_replicate, List.length_singleton, h3]
    show _ + _ + 473 + 1 ≤ 508
    omega
  have := flatMap_le _ 508 _ this
  rw [encIndex, List.length_append, Auth.bytes32_length]
  simp only [List.length_range] at this
  have : maxUsers = 5 := rfl
  omega

/-- Names and NVM are in order. -/
structure AuthOk (s : St) : Prop where
  names : Names s.users
  tidy : Tidy s.nvm

/-- Ids of the authentication manager's objects. -/
def IsAuth (i : UInt16) : Prop := reserved i = true

/-- Good states lead to good states, and only the manager's own objects change. -/
def Step (s s' : St) : Prop := AuthOk s → AuthOk s' ∧ Only IsAuth s.nvm s'.nvm

theorem Step.refl (s : St) : Step s s := fun h => ⟨h, .refl _ _⟩
theorem Step.trans {a b c : St} (h : Step a b) (h' : Step b c) : Step a c := fun ha =>
  ⟨(h' (h ha).1).1, (h ha).2.trans (h' (h ha).1).2⟩

theorem Step.users {s t : St} (h1 : t.nvm = s.nvm) (h : Names s.users → Names t.users) : Step s t := fun hs =>
  ⟨⟨h hs.names, h1 ▸ hs.tidy⟩, h1 ▸ .refl _ _⟩

theorem Step.upd {s : St} (i : Nat) {v : Slot} (hv : Names s.users → v.name.length ≤ 32) :
    Step s { s with users := upd s.users i v } := Step.users rfl fun h => h.upd i (hv h)

theorem step_nvm {s : St} {n : Nvm} (h : Tidy s.nvm → Names s.users → Tidy n ∧ Only IsAuth s.nvm n) :
    Step s { s with nvm := n } := fun hs => ⟨⟨hs.names, (h hs.tidy hs.names).1⟩, (h hs.tidy hs.names).2⟩

theorem isAuth_index : IsAuth indexId := by unfold IsAuth; decide +kernel
theorem isAuth_cred {i : Nat} (h : i < maxUsers) : IsAuth (credId i) := by
  match i, h with
  | 0, _ => unfold IsAuth; decide +kernel
  | 1, _ => unfold IsAuth; decide +kernel
  | 2, _ => unfold IsAuth; decide +kernel
  | 3, _ => unfold IsAuth; decide +kernel
  | 4, _ => unfold IsAuth; decide +kernel
  | n + 5, h => exact absurd h (by simp [maxUsers])

theorem persistIndex_only (cfg : Auth.Cfg) (s : St) : Step s (persistIndex cfg s).2 := by
  unfold persistIndex
  split
  · exact step_nvm fun h hn => add_only h _ (encIndex_short hn) isAuth_index
  · exact .refl s

theorem persistCred_only (cfg : Auth.Cfg) (s : St) {i : Nat} (hi : i < maxUsers) (m : UInt16) {b : List UInt8}
    (hb : b.length ≤ maxCred) : Step s (persistCred cfg s i m b).2 := by
  have : b.length < 65536 := Nat.lt_of_le_of_lt hb (by decide)
  unfold persistCred
  (repeat' split)
  · exact step_nvm fun h _ => add_only h _ this (isAuth_cred hi)
  · exact .refl s
  · exact Step.users rfl id

theorem destroyCred_only (cfg : Auth.Cfg) (s : St) {i : Nat} (hi : i < maxUsers) : Step s (destroyCred cfg s i).2 := by
  unfold destroyCred
  split
  · exact step_nvm fun h _ => destroy_only h _ (isAuth_cred hi)
  · exact Step.users rfl id

theorem loadCred_only (cfg : Auth.Cfg) (s : St) (i : Nat) : Step s (loadCred cfg s i).2 := fun h => by
  obtain ⟨h1, h2, _⟩ := Server.loadCred_keeps cfg s i
  have hu := (loadCred_frame cfg s i).1
  have := same_only h.tidy h1 h2 IsAuth
  exact ⟨⟨by rw [hu]; exact h.names, this.1⟩, this.2⟩

theorem makeBlob_short {cfg : Auth.Cfg} {m : UInt16} {c b : List UInt8} (h : makeBlob cfg m c = .ok b) :
    b.length ≤ maxCred := by
  unfold makeBlob hashPin at h
  split at h
  · split at h
    · split at h
      · cases h
      · cases h; omega
    · split at h
      · cases h; simp [maxCred]
      · cases h
  · split at h
    · cases h
    · cases h; omega

theorem addCommit_only (cfg : Auth.Cfg) (s : St) {i : Nat} (hi : i < maxUsers) : Step s (addCommit cfg s i).2 := by
  unfold addCommit
  have h1 := persistIndex_only cfg s
  generalize persistIndex cfg s = r at h1
  obtain ⟨rc, s'⟩ := r
  cases rc <;> first
    | exact h1
    | (refine h1.trans ?_
       dsimp only
       split
       · exact (destroyCred_only cfg s' hi).trans (Step.upd i fun _ => by simp [Slot.empty])
       · exact Step.upd i fun _ => by simp [Slot.empty])

theorem baseAdd_only (cfg : Auth.Cfg) (s : St) (name : List UInt8) (p : Perms) (m : UInt16) (cred : List UInt8) :
    Step s (baseAdd cfg s name p m cred).2 := by
  have ht : (name.take maxName).length ≤ 32 := by rw [List.length_take]; simp only [maxName]; omega
  unfold baseAdd
  split
  · exact .refl s
  · split
    · exact .refl s
    · split
      · exact .refl s
      · rename_i i hi
        have hlt := (freeSlot_some hi).1
        dsimp only
        split
        · exact (Step.upd i fun _ => ht).trans (addCommit_only cfg _ hlt)
        · cases hb : makeBlob cfg m cred with
          | error rc => exact .refl s
          | ok blob =>
            dsimp only
            have h1 := persistCred_only cfg s hlt m (makeBlob_short hb)
            generalize persistCred cfg s i m blob = r at h1
            obtain ⟨rc, s'⟩ := r
            cases rc <;> first
              | exact h1
              | exact h1.trans ((Step.upd i fun _ => ht).trans (addCommit_only cfg _ hlt))

theorem slotOf_lt {id : UInt16} (h : ¬badId id = true) : Auth.slotOf id < maxUsers := by
  unfold badId at h
  simp only [Bool.or_eq_true, beq_iff_eq, decide_eq_true_eq, not_or] at h
  unfold Auth.slotOf
  have : id.toNat ≠ 0 := fun e => h.1 (by rw [← UInt16.toNat_inj]; exact e)
  omega

theorem baseDelete_only (cfg : Auth.Cfg) (s : St) (cur id : UInt16) : Step s (baseDelete cfg s cur id).2 := by
  unfold baseDelete
  split
  · exact .refl s
  · next hid =>
    have hlt := slotOf_lt hid
    split
    · exact .refl s
    · split
      · exact .refl s
      · dsimp only
        split
        · exact .refl s
        · intro hs
          refine (?_ : Step s _) hs
          have h1 := (Step.upd (s := s) (Auth.slotOf id) (v := Slot.empty) fun _ => by simp [Slot.empty]).trans
            (persistIndex_only cfg { s with users := upd s.users (Auth.slotOf id) Slot.empty })
          generalize persistIndex cfg { s with users := upd s.users (Auth.slotOf id) Slot.empty } = r at h1
          obtain ⟨rc, s'⟩ := r
          cases rc <;> first
            | exact h1.trans (Step.upd _ fun _ => hs.names _)
            | (dsimp only
               split
               · have h2 := destroyCred_only cfg s' hlt
                 generalize destroyCred cfg s' (Auth.slotOf id) = r2 at h2
                 obtain ⟨rc2, s2⟩ := r2
                 cases rc2 <;> first
                   | exact h1.trans h2
                   | exact (h1.trans h2).trans ((Step.upd _ fun _ => hs.names _).trans (persistIndex_only cfg _))
               · exact h1)

theorem baseSetPerms_only (cfg : Auth.Cfg) (s : St) (cur id : UInt16) (p : Perms) : Step s (baseSetPerms cfg s cur id p).2 := by
  unfold baseSetPerms
  split
  · exact .refl s
  · split
    · exact .refl s
    · split
      · exact .refl s
      · dsimp only
        split
        · exact .refl s
        · intro hs
          refine (?_ : Step s _) hs
          have h1 := (Step.upd (s := s) (Auth.slotOf id) (v := { s.users (Auth.slotOf id) with perms := p.clamp })
            fun h => h _).trans (persistIndex_only cfg _)
          generalize persistIndex cfg { s with users := (upd s.users (Auth.slotOf id)
            { s.users (Auth.slotOf id) with perms := p.clamp }) } = r at h1 ⊢
          obtain ⟨rc, s'⟩ := r
          cases rc <;> first | exact h1 | exact h1.trans (Step.upd _ fun _ => hs.names _)

theorem checkCurrent_only (cfg : Auth.Cfg) (s : St) (i : Nat) (c : List UInt8) : Step s (checkCurrent cfg s i c).2 := by
  unfold checkCurrent
  dsimp only
  have h1 := loadCred_only cfg s i
  generalize loadCred cfg s i = r at h1 ⊢
  obtain ⟨⟨rc, b⟩, s'⟩ := r
  split
  · split
    · exact .refl s
    · cases rc <;> first
        | exact h1
        | (dsimp only
           split
           · exact h1
           · split
             · split
               · exact h1
               · split <;> exact h1
             · split <;> exact h1)
  · split <;> exact .refl s

theorem baseSetCred_only (cfg : Auth.Cfg) (s : St) (cur id m : UInt16) (a b : List UInt8) :
    Step s (baseSetCred cfg s cur id m a b).2 := by
  unfold baseSetCred
  split
  · exact .refl s
  · next hid =>
    have hlt := slotOf_lt hid
    split
    · exact .refl s
    · split
      · exact .refl s
      · split
        · exact .refl s
        · dsimp only
          split
          · exact .refl s
          · split
            · exact .refl s
            · have h1 := checkCurrent_only cfg s (Auth.slotOf id) a
              generalize checkCurrent cfg s (Auth.slotOf id) a = r at h1 ⊢
              obtain ⟨rc, s'⟩ := r
              cases rc <;> first
                | exact h1
                | (dsimp only
                   split
                   · cases hb : makeBlob cfg m b with
                     | error rc => exact h1
                     | ok blob =>
                       dsimp only
                       have h2 := persistCred_only cfg s' hlt m (makeBlob_short hb)
                       generalize persistCred cfg s' (Auth.slotOf id) m blob = r2 at h2 ⊢
                       obtain ⟨rc2, s2⟩ := r2
                       cases rc2 <;> first
                         | exact h1.trans h2
                         | exact (h1.trans h2).trans (Step.upd _ fun h => h _)
                   · split
                     · have h2 := destroyCred_only cfg s' hlt
                       generalize destroyCred cfg s' (Auth.slotOf id) = r2 at h2 ⊢
                       obtain ⟨rc2, s2⟩ := r2
                       cases rc2 <;> first
                         | exact h1.trans h2
                         | exact (h1.trans h2).trans (Step.upd _ fun h => h _)
                     · exact h1)

theorem disconnect_only (s : St) (x : Nat) : Step s (disconnect s x) := by
  obtain ⟨us, h1⟩ := disconnect_eq s x
  cases h1 with
  | inl h1 =>
    rw [h1.1]
    cases h1.2 with
    | inl e => subst e; exact Step.users rfl id
    | inr e => subst e; exact Step.users rfl fun h => h.upd _ (h _)
  | inr h1 => rw [h1.1]; exact .refl s

theorem act_only (cfg : Auth.Cfg) (s : St) (x : Nat) (c : Call) : Step s (act cfg s x c).2 := by
  cases c with
  | login m name data =>
    intro h
    have hk := Server.login_keeps cfg s x m name data
    have hn : Names (act cfg s x (.login m name data)).2.users := by
      refine login_frame cfg s x m name data (P := fun r => Names r.2.users) ?_ ?_
      · intro rc t _ hf; show Names t.users; rw [hf.1]; exact h.names
      · intro i t _ _ _ _ _ _ _ _; exact h.names.upd _ (h.names i)
    have he := Server.act_login_state cfg s x m name data
    have := same_only h.tidy (n' := (act cfg s x (.login m name data)).2.nvm) (by rw [he]; exact hk.1) (by rw [he]; exact hk.2.1) IsAuth
    exact ⟨⟨hn, this.1⟩, this.2⟩
  | logout id =>
    refine logout_cases s x id (P := fun r => Step s r.2) ?_ ?_
    · intro rc _; exact .refl s
    · intro se _ _ _ _ _ _ _; exact Step.users rfl fun h => h.upd _ (h _)
  | add name p m cred =>
    unfold act userAdd
    dsimp only
    (repeat' split) <;> first | exact .refl s | exact baseAdd_only _ _ _ _ _ _
  | provision name p m cred =>
    unfold act
    dsimp only
    (repeat' split) <;> first | exact .refl s | exact baseAdd_only _ _ _ _ _ _
  | delete id =>
    unfold act userDelete
    dsimp only
    split
    · exact .refl s
    · exact baseDelete_only _ _ _ _
  | setPerms id p =>
    unfold act setPerms
    dsimp only
    split
    · exact .refl s
    · have h1 := baseSetPerms_only cfg s (s.sess x).id id p
      generalize baseSetPerms cfg s (s.sess x).id id p = r at h1 ⊢
      obtain ⟨rc, s'⟩ := r
      cases rc <;> first | exact h1 | (dsimp only; split <;> exact h1.trans (Step.users rfl fun h => h))
  | get name => exact .refl s
  | setCred id m a b =>
    unfold act setCred
    dsimp only
    split
    · exact .refl s
    · exact baseSetCred_only _ _ _ _ _ _ _
  | disconnect => exact disconnect_only s x

theorem nameOf_short (l : List UInt8) : (nameOf l).length ≤ 32 := by
  unfold nameOf
  refine Nat.le_trans (List.IsPrefix.length_le (List.takeWhile_prefix _)) ?_
  rw [List.length_take]; simp only [maxName]; omega

theorem loadSlots_names {n : Nvm} {buf : List UInt8} : ∀ (k : Nat) {us : Nat → Slot},
    loadSlots n buf k = .ok us → Names us := by
  intro k
  induction k with
  | zero => intro us h; injection h with h; subst h; intro i; simp [Slot.empty]
  | succ k ih =>
    intro us h
    unfold loadSlots at h
    cases hl : loadSlots n buf k with
    | error rc => rw [hl] at h; cases h
    | ok vs =>
      rw [hl] at h
      cases hs : loadSlot n buf k with
      | error rc => rw [hs] at h; cases h
      | ok u =>
        rw [hs] at h
        injection h with h
        subst h
        refine (ih hl).upd _ ?_
        have hd : ∀ l, (decUser l).name.length ≤ 32 := fun l => nameOf_short _
        unfold loadSlot at hs
        dsimp only at hs
        (repeat' split at hs) <;> first
          | (cases hs; done)
          | (injection hs with hs; subst hs; exact hd _)

theorem init_only (cfg : Auth.Cfg) (s : St) (h : Tidy s.nvm) :
    AuthOk (init cfg s) ∧ (init cfg s).nvm.store = s.nvm.store ∧ (init cfg s).nvm.pending = s.nvm.pending := by
  have he : Names fun _ => Slot.empty := fun _ => by simp [Slot.empty]
  have hk : (loadFromNvm s.nvm).2.store = s.nvm.store ∧ (loadFromNvm s.nvm).2.pending = s.nvm.pending := by
    have hr := Nvm.read_store s.nvm indexId 0 indexLen
    unfold loadFromNvm
    generalize s.nvm.read indexId 0 indexLen = q at hr
    obtain ⟨⟨rc, b⟩, n'⟩ := q
    split
    · split
      · cases rc <;> first | exact hr | (dsimp only; split <;> exact hr)
      · exact ⟨rfl, rfl⟩
    · exact ⟨rfl, rfl⟩
    · exact ⟨rfl, rfl⟩
  unfold init
  dsimp only
  split
  · split
    · rename_i us n e
      rw [e] at hk
      refine ⟨⟨?_, (same_only h hk.1 hk.2 IsAuth).1⟩, hk⟩
      unfold loadFromNvm at e
      split at e
      · split at e
        · split at e
          · split at e
            · cases e
            · injection e with h1 _
              exact loadSlots_names _ h1
          · cases e
        · cases e
      · injection e with h1 _
        injection h1 with h1
        subst h1
        exact he
      · cases e
    · rename_i n e
      rw [e] at hk
      exact ⟨⟨he, (same_only h hk.1 hk.2 IsAuth).1⟩, hk⟩
  · exact ⟨⟨he, h⟩, rfl, rfl⟩

end WolfHsm.Device

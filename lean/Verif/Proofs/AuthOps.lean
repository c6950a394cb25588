import Verif.Proofs.AuthStore

/-! # What the calls of the authentication manager do to the database -/

namespace WolfHsm.Auth

open NvmFlash (Meta Store withLen)

/-- Outcome of a call whose success has the effect `E` on the database: done, refused, or
cut short by a power loss with the old or the new database in NVM. -/
structure Res (E : (Nat → Option Rec) → Prop) (s : St) (r : Rc × St) : Prop where
  up : r.2.up = s.up
  safe : Safe r.2.nvm
  outs : r.2.nvm.outs = s.nvm.outs
  body : (r.2.nvm.powered = true ∧ Match r.2.nvm.store r.2.users ∧
      ((r.1 = .ok ∧ E (view r.2)) ∨ (r.1 ≠ .ok ∧ view r.2 = view s))) ∨
    (r.2.nvm.powered = false ∧ ∃ us, Match r.2.nvm.store us ∧
      (viewOf r.2.nvm.store us = view s ∨ E (viewOf r.2.nvm.store us)))

/-- A running device whose RAM and NVM agree. -/
structure Live (cfg : Cfg) (s : St) : Prop where
  nvm : cfg.useNvm = true
  safe : Safe s.nvm
  powered : s.nvm.powered = true
  mat : Match s.nvm.store s.users

theorem Res.refuse {cfg : Cfg} {E : (Nat → Option Rec) → Prop} {s : St} {rc : Rc} (h : Live cfg s)
    (hrc : rc ≠ .ok) : Res E s (rc, s) :=
  ⟨rfl, h.safe, rfl, Or.inl ⟨h.powered, h.mat, Or.inr ⟨hrc, rfl⟩⟩⟩

/-- Refused, with only the NVM tick moved on. -/
theorem Res.refuse' {cfg : Cfg} {E : (Nat → Option Rec) → Prop} {s s' : St} {rc : Rc} (h : Live cfg s)
    (hu : s'.up = s.up) (hs : Safe s'.nvm) (ho : s'.nvm.outs = s.nvm.outs)
    (hst : s'.nvm.store = s.nvm.store) (hus : s'.users = s.users)
    (hrc : rc ≠ .ok) : Res E s (rc, s') := by
  refine ⟨hu, hs, ho, ?_⟩
  cases hp : s'.nvm.powered with
  | true =>
    refine Or.inl ⟨rfl, by rw [hst, hus]; exact h.mat, Or.inr ⟨hrc, ?_⟩⟩
    unfold view; rw [hst, hus]
  | false =>
    refine Or.inr ⟨rfl, s.users, by rw [hst]; exact h.mat, Or.inl ?_⟩
    unfold view; rw [hst]

theorem persistIndex_cases {cfg : Cfg} {s : St} (hn : cfg.useNvm = true) (hs : Safe s.nvm)
    (hp : s.nvm.powered = true) {P : Rc × St → Prop}
    (hok : ∀ n', Safe n' → n'.outs = s.nvm.outs → n'.powered = true →
      n'.store = s.nvm.store.set indexMeta (encIndex s.users) → P (.ok, { s with nvm := n' }))
    (hfail : ∀ rc n', rc ≠ .ok → Safe n' → n'.outs = s.nvm.outs → n'.powered = true →
      n'.store = s.nvm.store → Calm n' → ¬ Calm s.nvm → P (rc, { s with nvm := n' }))
    (hcut : ∀ n', Safe n' → n'.outs = s.nvm.outs → n'.powered = false →
      n'.store = s.nvm.store ∨ n'.store = s.nvm.store.set indexMeta (encIndex s.users) →
      P (.aborted, { s with nvm := n' })) :
    P (persistIndex cfg s) := by
  unfold persistIndex
  rw [if_pos hn]
  exact addWithReclaim_safe hs hp _ _ (P := fun r => P (r.1, { s with nvm := r.2 })) hok hfail hcut

theorem persistCred_cases {cfg : Cfg} {s : St} (hn : cfg.useNvm = true) (hs : Safe s.nvm)
    (hp : s.nvm.powered = true) (i : Nat) (m : UInt16) (buf : List UInt8) {P : Rc × St → Prop}
    (hok : ∀ n', Safe n' → n'.outs = s.nvm.outs → n'.powered = true →
      n'.store = s.nvm.store.set (credMeta i m buf.length) buf → P (.ok, { s with nvm := n' }))
    (hfail : ∀ rc n', rc ≠ .ok → Safe n' → n'.outs = s.nvm.outs → n'.powered = true →
      n'.store = s.nvm.store → Calm n' → ¬ Calm s.nvm → P (rc, { s with nvm := n' }))
    (hcut : ∀ n', Safe n' → n'.outs = s.nvm.outs → n'.powered = false →
      n'.store = s.nvm.store ∨ n'.store = s.nvm.store.set (credMeta i m buf.length) buf →
      P (.aborted, { s with nvm := n' })) :
    P (persistCred cfg s i m buf) := by
  unfold persistCred
  rw [if_pos hn]
  exact addWithReclaim_safe hs hp _ _ (P := fun r => P (r.1, { s with nvm := r.2 })) hok hfail hcut

theorem destroyCred_cases {cfg : Cfg} {s : St} (hn : cfg.useNvm = true) (hs : Safe s.nvm)
    (hp : s.nvm.powered = true) (i : Nat) {P : Rc × St → Prop}
    (hok : ∀ n', Safe n' → n'.outs = s.nvm.outs → n'.powered = true →
      n'.store = s.nvm.store.drop [credId i] → P (.ok, { s with nvm := n' }))
    (hfail : ∀ rc n', rc ≠ .ok → Safe n' → n'.outs = s.nvm.outs → n'.powered = true →
      n'.store = s.nvm.store → Calm n' → ¬ Calm s.nvm → P (rc, { s with nvm := n' }))
    (hcut : ∀ n', Safe n' → n'.outs = s.nvm.outs → n'.powered = false →
      n'.store = s.nvm.store ∨ n'.store = s.nvm.store.drop [credId i] →
      P (.aborted, { s with nvm := n' })) :
    P (destroyCred cfg s i) := by
  unfold destroyCred
  rw [if_pos hn]
  exact destroy_safe hs hp _ (P := fun r => P (r.1, { s with nvm := r.2 }))
    (fun n' a b c _ d => hok n' a b c d) hfail hcut

/-- Reading a credential leaves table and store alone; it answers the stored bytes or an
error. -/
theorem loadCred_cases {cfg : Cfg} {s : St} (h : Live cfg s) {i : Nat} (hi : i < maxUsers)
    (hz : (s.users i).id ≠ 0) {P : (Rc × List UInt8) × St → Prop}
    (hok : ∀ n' data, Safe n' → n'.outs = s.nvm.outs → n'.powered = true →
      n'.store = s.nvm.store → (s.users i).credLen ≠ 0 →
      s.nvm.store (credId i) = some (credMeta i (s.users i).method (s.users i).credLen, data) →
      data.length = (s.users i).credLen → P ((.ok, data), { s with nvm := n' }))
    (herr : ∀ rc n', rc ≠ .ok → Safe n' → n'.outs = s.nvm.outs → n'.store = s.nvm.store →
      P ((rc, []), { s with nvm := n' })) :
    P (loadCred cfg s i) := by
  have hs := h.mat.wf i hi
  unfold loadCred
  rw [if_pos h.nvm]
  by_cases hc : (s.users i).credLen = 0
  · rw [Nvm.metadata_none (hs.bare hz hc).2]
    exact herr .notfound s.nvm (by simp) h.safe rfl rfl
  · obtain ⟨c1, c2, data, c3, c4⟩ := hs.cred hz hc
    rw [Nvm.metadata_some c4]
    have hlen : (credMeta i (s.users i).method (s.users i).credLen).len.toNat = (s.users i).credLen := by
      simp only [credMeta, UInt16.toNat_ofNat']
      have : (s.users i).credLen ≤ 2048 := c1
      omega
    dsimp only
    rw [hlen, if_pos ⟨by omega, c1⟩]
    refine read_safe h.safe h.powered _ _ _ (P := fun r => P (r.1, { s with nvm := r.2 })) ?_ ?_ ?_
    · intro n' a b c d
      have : s.nvm.store.slice (credId i) 0 (s.users i).credLen = (.ok, data) := by
        unfold NvmFlash.Store.slice
        rw [c4]
        dsimp only
        rw [if_pos (by omega), List.drop_zero, ← c3, List.take_length]
      rw [this]
      exact hok n' data a b c d hc c4 c3
    · intro rc n' a b c _ e; exact herr rc n' a b c e
    · intro n' a b _ d; exact herr .aborted n' (by simp) a b d

/-! ## Adding a user -/

theorem findUser_none {s : St} {name : List UInt8} (h : findUser s name = none) {i : Nat}
    (hi : i < maxUsers) : (s.users i).name ≠ name := by
  unfold findUser at h
  rw [List.find?_eq_none] at h
  have := h i (by simpa using hi)
  simpa using this

theorem findUser_some {s : St} {name : List UInt8} {i : Nat} (h : findUser s name = some i) :
    i < maxUsers ∧ (s.users i).name = name := by
  unfold findUser at h
  have h1 := List.mem_of_find?_eq_some h
  have h2 := List.find?_some h
  exact ⟨by simpa using h1, by simpa using h2⟩

theorem freeSlot_some {s : St} {i : Nat} (h : freeSlot s = some i) :
    i < maxUsers ∧ (s.users i).id = 0 := by
  unfold freeSlot at h
  have h1 := List.mem_of_find?_eq_some h
  have h2 := List.find?_some h
  exact ⟨by simpa using h1, by simpa using h2⟩

theorem ofNat_succ_ne_zero {i : Nat} (h : i < maxUsers) : UInt16.ofNat (i + 1) ≠ 0 := by
  intro e
  have : i < 5 := h
  have := congrArg UInt16.toNat e
  rw [UInt16.toNat_ofNat', show (0 : UInt16).toNat = 0 from rfl] at this
  omega

theorem clamp_count (p : Perms) : p.clamp.keyIdCount.toNat ≤ maxKeyIds := by
  unfold Perms.clamp
  dsimp only
  split
  · decide
  · omega

theorem makeBlob_length {cfg : Cfg} {m : UInt16} {cred blob : List UInt8}
    (h : makeBlob cfg m cred = .ok blob) (hc : cred ≠ []) : 0 < blob.length ∧ blob.length ≤ maxCred := by
  have hpos : 0 < cred.length := List.length_pos_iff.mpr hc
  unfold makeBlob hashPin at h
  split at h
  · split at h
    · split at h
      · simp at h
      · cases h; exact ⟨hpos, by omega⟩
    · split at h
      · cases h
        rename_i v _
        simp only [Vector.length_toList]
        exact ⟨by decide, by decide⟩
      · simp at h
  · split at h
    · simp at h
    · cases h; exact ⟨hpos, by omega⟩

theorem methodOk_cases {cfg : Cfg} {m : UInt16} (h : cfg.methodOk m = true) : m = mPin ∨ m = mCert := by
  unfold Cfg.methodOk at h
  simp only [Bool.or_eq_true, Bool.and_eq_true, beq_iff_eq] at h
  cases h with
  | inl h => exact Or.inl h
  | inr h => exact Or.inr h.1

/-- The last step of an addition: `s` is the state before the call, `t` the state with the
new entry `u` in RAM and, if it has credentials, its credential object in NVM. -/
theorem addCommit_res {cfg : Cfg} {s t : St} {i : Nat} {u : Slot} {E : (Nat → Option Rec) → Prop}
    (h : Live cfg s) (hi : i < maxUsers) (hfree : (s.users i).id = 0)
    (hu : t.users = upd s.users i u) (hup : t.up = s.up) (hsafe : Safe t.nvm)
    (houts : t.nvm.outs = s.nvm.outs) (hpow : t.nvm.powered = true)
    (hidx : t.nvm.store indexId = s.nvm.store indexId)
    (hoth : ∀ j, j < maxUsers → j ≠ i → t.nvm.store (credId j) = s.nvm.store (credId j))
    (hok : SlotOk t.nvm.store i u)
    (hE : ∀ st' : Store, st' (credId i) = t.nvm.store (credId i) →
      (∀ j, j < maxUsers → j ≠ i → st' (credId j) = s.nvm.store (credId j)) →
      E (viewOf st' (upd s.users i u))) :
    Res E s (((addCommit cfg t i).1.1, (addCommit cfg t i).2)) := by
  have hm : Match t.nvm.store s.users := h.mat.free hfree hidx hoth
  have hview : ∀ st' : Store, (∀ j, j < maxUsers → j ≠ i → st' (credId j) = s.nvm.store (credId j)) →
      viewOf st' s.users = view s := by
    intro st' ho
    apply viewOf_congr
    intro j hj
    refine ⟨rfl, fun hz => ⟨rfl, rfl, rfl, rfl, ho j hj ?_⟩⟩
    rintro rfl
    exact hz hfree
  have hwf : Wf t.nvm.store t.users := by rw [hu]; exact hm.wf.upd hok
  have hback : upd t.users i Slot.empty = s.users := by
    rw [hu, upd_upd]; exact upd_eq ((h.mat.wf i hi).free hfree)
  unfold addCommit
  refine persistIndex_cases h.nvm hsafe hpow (P := fun r => Res E s
    ((match r with
      | (.ok, s') => ((.ok, UInt16.ofNat (i + 1)), s')
      | (rc, s') => ((rc, 0), { (if (t.users i).credLen > 0 then (destroyCred cfg s' i).2 else s') with
          users := upd (if (t.users i).credLen > 0 then (destroyCred cfg s' i).2 else s').users i
            Slot.empty }) : (Rc × UInt16) × St).1.1,
     (match r with
      | (.ok, s') => ((.ok, UInt16.ofNat (i + 1)), s')
      | (rc, s') => ((rc, 0), { (if (t.users i).credLen > 0 then (destroyCred cfg s' i).2 else s') with
          users := upd (if (t.users i).credLen > 0 then (destroyCred cfg s' i).2 else s').users i
            Slot.empty }) : (Rc × UInt16) × St).2)) ?_ ?_ ?_
  · intro n' a b c d
    refine ⟨hup, a, by rw [b, houts], Or.inl ⟨c, ?_, Or.inl ⟨rfl, ?_⟩⟩⟩
    · dsimp only; rw [d]; exact Match.writeIndex hwf
    · unfold view
      dsimp only
      rw [hu]
      apply hE
      · rw [d, set_index_cred hi]
      · intro j hj hne; rw [d, set_index_cred hj, hoth j hj hne]
  · intro rc n' hrc a b c d e f
    have key : Res E s (rc, { (if (t.users i).credLen > 0 then
        (destroyCred cfg { t with nvm := n' } i).2 else { t with nvm := n' }) with
        users := upd (if (t.users i).credLen > 0 then
          (destroyCred cfg { t with nvm := n' } i).2 else { t with nvm := n' }).users i
            Slot.empty }) := by
      split
      · refine destroyCred_cases (s := { t with nvm := n' }) h.nvm a c i (P := fun r => Res E s
          (rc, { r.2 with users := upd r.2.users i Slot.empty })) ?_ ?_ ?_
        · intro n'' a' b' c' d'
          refine ⟨hup, a', by dsimp only at b' ⊢; rw [b', b, houts], Or.inl ⟨c', ?_, Or.inr ⟨hrc, ?_⟩⟩⟩
          · dsimp only at d' ⊢
            rw [hback, d', d]
            exact hm.free hfree (drop_cred_index hi) (fun j hj hne => drop_cred_other hi hj hne)
          · unfold view
            dsimp only at d' ⊢
            rw [hback, d', d]
            exact hview _ (fun j hj hne => by rw [drop_cred_other hi hj hne, hoth j hj hne])
        · intro rc' n'' _ _ _ _ _ _ hc
          exact absurd e hc
        · intro n'' a' b' c' d'
          refine ⟨hup, a', by dsimp only at b' ⊢; rw [b', b, houts], Or.inr ⟨c', s.users, ?_⟩⟩
          dsimp only at d' ⊢
          cases d' with
          | inl d' =>
            rw [d', d]
            exact ⟨hm, Or.inl (hview _ hoth)⟩
          | inr d' =>
            rw [d', d]
            refine ⟨hm.free hfree (drop_cred_index hi) (fun j hj hne => drop_cred_other hi hj hne),
              Or.inl (hview _ (fun j hj hne => by rw [drop_cred_other hi hj hne, hoth j hj hne]))⟩
      · refine ⟨hup, a, by dsimp only; rw [b, houts], Or.inl ⟨c, ?_, Or.inr ⟨hrc, ?_⟩⟩⟩
        · dsimp only; rw [hback, d]; exact hm
        · unfold view; dsimp only; rw [hback, d]; exact hview _ hoth
    cases rc <;> first | exact absurd rfl hrc | exact key
  · intro n' a b c d
    -- power is lost: the rollback in RAM does not matter any more
    have hoff : ∀ w : St, w.nvm = n' → w.up = s.up → Res E s (.aborted, w) := by
      intro w hw hwu
      refine ⟨hwu, by dsimp only; rw [hw]; exact a, by dsimp only; rw [hw, b, houts],
        Or.inr ⟨by dsimp only; rw [hw]; exact c, ?_⟩⟩
      dsimp only
      rw [hw]
      cases d with
      | inl d => rw [d]; exact ⟨s.users, hm, Or.inl (hview _ hoth)⟩
      | inr d =>
        rw [d]
        refine ⟨t.users, Match.writeIndex hwf, Or.inr ?_⟩
        rw [hu]
        apply hE
        · rw [set_index_cred hi]
        · intro j hj hne; rw [set_index_cred hj, hoth j hj hne]
    have hdes : ∀ w : St, w.nvm = n' → (destroyCred cfg w i).2.nvm = n' ∧
        (destroyCred cfg w i).2.up = w.up := by
      intro w hw
      unfold destroyCred
      rw [if_pos h.nvm]
      dsimp only
      unfold Nvm.destroy
      rw [hw, c]
      exact ⟨rfl, rfl⟩
    dsimp only
    split
    · exact hoff _ (hdes _ rfl).1 (by dsimp only; rw [(hdes { t with nvm := n' } rfl).2]; exact hup)
    · exact hoff _ rfl hup

theorem credOf_zero {st : Store} {u : Slot} {i : Nat} (h : u.credLen = 0) : credOf st u i = [] := by
  unfold credOf; rw [if_pos h]

theorem credOf_some {st : Store} {u : Slot} {i : Nat} {md : Meta} {data : List UInt8}
    (h : u.credLen ≠ 0) (hd : st (credId i) = some (md, data)) : credOf st u i = data := by
  unfold credOf; rw [if_neg h, hd]

theorem take_name_ok {name : List UInt8} (h : ∀ b ∈ name, b ≠ 0) : NameOk (name.take maxName) :=
  ⟨by rw [List.length_take]; omega, fun b hb => h b (List.mem_of_mem_take hb)⟩

/-- The entry written by `wh_Auth_BaseUserAdd`. -/
abbrev newSlot (i : Nat) (name : List UInt8) (p : Perms) (m : UInt16) (len : Nat) : Slot :=
  ⟨UInt16.ofNat (i + 1), name.take maxName, p.clamp, false, m, len⟩

/-- `wh_Auth_BaseUserAdd`. -/
theorem baseAdd_res {cfg : Cfg} {s : St} (h : Live cfg s) (name : List UInt8) (p : Perms)
    (m : UInt16) (cred : List UInt8) (hname : ∀ b ∈ name, b ≠ 0) (ht : cred = [] → Tidy s) :
    Res (Effect cfg (.add name p m cred) (view s)) s
      ((baseAdd cfg s name p m cred).1.1, (baseAdd cfg s name p m cred).2) := by
  unfold baseAdd
  by_cases h1 : cred ≠ [] ∧ cfg.methodOk m = false
  · rw [if_pos h1]; exact Res.refuse h (by simp)
  · rw [if_neg h1]
    by_cases h2 : (findUser s name).isSome
    · rw [if_pos h2]; exact Res.refuse h (by simp)
    · rw [if_neg h2]
      have hnone : findUser s name = none := by
        cases hf : findUser s name with
        | none => rfl
        | some _ => rw [hf] at h2; simp at h2
      cases hfs : freeSlot s with
      | none => exact Res.refuse h (by simp)
      | some i =>
        dsimp only
        obtain ⟨hi, hfree⟩ := freeSlot_some hfs
        have hemp := (h.mat.wf i hi).free hfree
        have hne : name ≠ [] := by
          intro e
          have := findUser_none hnone hi
          rw [hemp] at this
          exact this (by rw [e]; rfl)
        have hne' : name.take maxName ≠ [] := by
          cases name with
          | nil => exact absurd rfl hne
          | cons a l => simp
        by_cases hc : cred = []
        · rw [if_pos hc]
          have hslot : SlotOk s.nvm.store i (newSlot i name p mNone 0) :=
            ⟨take_name_ok hname, fun e => absurd e (ofNat_succ_ne_zero hi),
              fun _ => ⟨rfl, hne', clamp_count p⟩, fun _ _ => ⟨rfl, ht hc i hi hfree⟩,
              fun _ e => absurd rfl e⟩
          refine addCommit_res (s := s) (t := { s with users := upd s.users i (newSlot i name p mNone 0) }) h hi hfree rfl
            rfl h.safe rfl h.powered rfl (fun _ _ _ => rfl) hslot ?_
          intro st' hst hoth
          refine ⟨i, hi, viewOf_none hfree, Or.inl ⟨hc, ?_⟩⟩
          refine viewOf_upd ?_ (fun j hj hne => ⟨upd_ne hne, hoth j hj hne⟩)
          rw [viewOf_some hi (by rw [upd_self]; exact ofNat_succ_ne_zero hi), upd_self,
            credOf_zero rfl]
        · rw [if_neg hc]
          have hmeth : m = mPin ∨ m = mCert := by
            apply methodOk_cases (cfg := cfg)
            cases hx : cfg.methodOk m with
            | true => rfl
            | false => exact absurd ⟨hc, hx⟩ h1
          cases hb : makeBlob cfg m cred with
          | error rc =>
            dsimp only
            refine Res.refuse h ?_
            unfold makeBlob hashPin at hb
            rintro rfl
            repeat' (split at hb)
            all_goals simp at hb
          | ok blob =>
            dsimp only
            obtain ⟨l1, l2⟩ := makeBlob_length hb hc
            refine persistCred_cases h.nvm h.safe h.powered i m blob (P := fun r =>
              Res (Effect cfg (.add name p m cred) (view s)) s
              ((match r with
                | (.ok, s') => addCommit cfg { s' with users := upd s'.users i (newSlot i name p m blob.length) } i
                | (rc, s') => ((rc, 0), s')).1.1,
               (match r with
                | (.ok, s') => addCommit cfg { s' with users := upd s'.users i (newSlot i name p m blob.length) } i
                | (rc, s') => ((rc, 0), s')).2)) ?_ ?_ ?_
            · intro n' a b c d
              dsimp only
              have hst : n'.store (credId i) = some (credMeta i m blob.length, blob) := by
                rw [d, set_cred_self]
              refine addCommit_res (s := s) (t := { s with nvm := n', users := upd s.users i (newSlot i name p m blob.length) })
                h hi hfree rfl rfl a b c (by dsimp only; rw [d, set_cred_index hi])
                (fun j hj hne => by dsimp only; rw [d, set_cred_other hi hj hne]) ?_ ?_
              · exact ⟨take_name_ok hname, fun e => absurd e (ofNat_succ_ne_zero hi),
                  fun _ => ⟨rfl, hne', clamp_count p⟩, fun _ e => absurd e (by dsimp only; omega),
                  fun _ _ => ⟨l2, hmeth, blob, rfl, hst⟩⟩
              · intro st' hst' hoth
                refine ⟨i, hi, viewOf_none hfree, Or.inr ⟨blob, hc, hb, ?_⟩⟩
                refine viewOf_upd ?_ (fun j hj hne => ⟨upd_ne hne, hoth j hj hne⟩)
                rw [viewOf_some hi (by rw [upd_self]; exact ofNat_succ_ne_zero hi), upd_self,
                  credOf_some (by dsimp only; omega) (by rw [hst']; exact hst)]
            · intro rc n' hrc a b c d e f
              cases rc <;> first
                | exact absurd rfl hrc
                | exact Res.refuse' h rfl a b d rfl (by simp)
            · intro n' a b c d
              dsimp only
              refine ⟨rfl, a, b, Or.inr ⟨c, s.users, ?_⟩⟩
              dsimp only
              cases d with
              | inl d => rw [d]; exact ⟨h.mat, Or.inl rfl⟩
              | inr d =>
                rw [d]
                refine ⟨h.mat.free hfree (set_cred_index hi m blob)
                  (fun j hj hne => set_cred_other hi hj hne m blob), Or.inl ?_⟩
                apply viewOf_congr
                intro j hj
                refine ⟨rfl, fun hz => ⟨rfl, rfl, rfl, rfl, set_cred_other hi hj ?_ m blob⟩⟩
                rintro rfl
                exact hz hfree

end WolfHsm.Auth

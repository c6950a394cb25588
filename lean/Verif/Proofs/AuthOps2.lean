import Verif.Proofs.AuthOps

/-! # Deletion, permissions and credentials -/

namespace WolfHsm.Auth

open NvmFlash (Meta Store withLen)

theorem slotOf_lt {id : UInt16} (h : badId id = false) : slotOf id < maxUsers := by
  unfold badId at h
  simp only [Bool.or_eq_false_iff, beq_eq_false_iff_ne, decide_eq_false_iff_not] at h
  have h1 : id.toNat ≠ 0 := fun e => h.1 (UInt16.toNat_inj.mp e)
  have h2 : ¬ id.toNat > 5 := h.2
  unfold slotOf
  show id.toNat - 1 < 5
  omega

/-- `wh_Auth_BaseUserDelete`. -/
theorem baseDelete_res {cfg : Cfg} {s : St} (h : Live cfg s) (cur id : UInt16) :
    Res (Effect cfg (.delete id) (view s)) s (baseDelete cfg s cur id) := by
  unfold baseDelete
  cases hb : badId id with
  | true => exact Res.refuse h (by simp)
  | false =>
    cases hc : badId cur with
    | true => exact Res.refuse h (by simp)
    | false =>
      by_cases ha : tableAdmin s cur = false
      · simp only [ha]; exact Res.refuse h (by simp)
      · rw [if_neg (by simp), if_neg (by simp), if_neg ha]
        have hi := slotOf_lt hb
        unfold Effect
        dsimp only
        generalize slotOf id = i at *
        by_cases hz : (s.users i).id = 0
        · rw [if_pos hz]; exact Res.refuse h (by simp)
        · rw [if_neg hz]
          have hwf : Wf s.nvm.store (upd s.users i Slot.empty) := h.mat.wf.upd (SlotOk.empty _ _)
          have hback : ∀ st : Store, (∀ j, j < maxUsers → st (credId j) = s.nvm.store (credId j)) →
              viewOf st s.users = view s := by
            intro st he
            apply viewOf_congr
            intro j hj
            exact ⟨rfl, fun _ => ⟨rfl, rfl, rfl, rfl, he j hj⟩⟩
          have hnew : ∀ st : Store, (∀ j, j < maxUsers → j ≠ i → st (credId j) = s.nvm.store (credId j)) →
              viewOf st (upd s.users i Slot.empty) = upd (view s) i none := by
            intro st he
            refine viewOf_upd (viewOf_none (by rw [upd_self]; rfl)) ?_
            intro j hj hne
            exact ⟨upd_ne hne, he j hj hne⟩
          have hundo : upd (upd s.users i Slot.empty) i (s.users i) = s.users := by
            rw [upd_upd]; exact upd_eq rfl
          refine persistIndex_cases (s := { s with users := upd s.users i Slot.empty }) h.nvm h.safe
            h.powered (P := fun r => Res (fun v => v = upd (view s) i none) s (match r with
              | (.ok, s') =>
                if (s.users i).credLen > 0 then
                  match destroyCred cfg s' i with
                  | (.ok, s'') => (.ok, s'')
                  | (rc, s'') =>
                    (rc, (persistIndex cfg { s'' with users := upd s''.users i (s.users i) }).2)
                else (.ok, s')
              | (rc, s') => (rc, { s' with users := upd s'.users i (s.users i) }))) ?_ ?_ ?_
          · intro n' a b c d
            dsimp only at d ⊢
            have hm1 : Match n'.store (upd s.users i Slot.empty) := by
              rw [d]; exact Match.writeIndex hwf
            have hc1 : ∀ j, j < maxUsers → n'.store (credId j) = s.nvm.store (credId j) := by
              intro j hj; rw [d, set_index_cred hj]
            split
            · refine destroyCred_cases (s := { s with users := upd s.users i Slot.empty, nvm := n' })
                h.nvm a c i (P := fun r => Res (fun v => v = upd (view s) i none) s (match r with
                  | (.ok, s'') => (.ok, s'')
                  | (rc, s'') =>
                    (rc, (persistIndex cfg { s'' with users := upd s''.users i (s.users i) }).2))) ?_ ?_ ?_
              · intro n2 a2 b2 c2 d2
                dsimp only at b2 d2 ⊢
                refine ⟨rfl, a2, by dsimp only; rw [b2, b], Or.inl ⟨c2, ?_, Or.inl ⟨rfl, ?_⟩⟩⟩
                · dsimp only
                  rw [d2]
                  exact hm1.free (by rw [upd_self]; rfl) (drop_cred_index hi)
                    (fun j hj hne => drop_cred_other hi hj hne)
                · unfold view
                  dsimp only
                  rw [d2]
                  exact hnew _ (fun j hj hne => by rw [drop_cred_other hi hj hne, hc1 j hj])
              · intro rc n2 hrc a2 b2 c2 d2 e2 f2
                dsimp only at b2 d2
                have key : Res (fun v => v = upd (view s) i none) s
                    (rc, (persistIndex cfg { s with users := upd (upd s.users i Slot.empty) i (s.users i),
                                                    nvm := n2 }).2) := by
                  rw [hundo]
                  refine persistIndex_cases (s := { s with nvm := n2 }) h.nvm a2 c2
                    (P := fun r => Res (fun v => v = upd (view s) i none) s (rc, r.2)) ?_ ?_ ?_
                  · intro n3 a3 b3 c3 d3
                    dsimp only at b3 d3
                    refine ⟨rfl, a3, by dsimp only; rw [b3, b2, b], Or.inl ⟨c3, ?_, Or.inr ⟨hrc, ?_⟩⟩⟩
                    · dsimp only
                      rw [d3]
                      refine Match.writeIndex ?_
                      intro j hj
                      refine (h.mat.wf j hj).store ?_
                      rw [d2, hc1 j hj]
                    · unfold view
                      dsimp only
                      refine hback _ ?_
                      intro j hj
                      rw [d3, set_index_cred hj, d2, hc1 j hj]
                  · intro rc3 n3 _ _ _ _ _ _ hcalm
                    exact absurd e2 hcalm
                  · intro n3 a3 b3 c3 d3
                    dsimp only at b3 d3
                    refine ⟨rfl, a3, by dsimp only; rw [b3, b2, b], Or.inr ⟨c3, ?_⟩⟩
                    dsimp only
                    cases d3 with
                    | inl d3 =>
                      rw [d3, d2]
                      exact ⟨_, hm1, Or.inr (hnew _ (fun j hj _ => hc1 j hj))⟩
                    | inr d3 =>
                      rw [d3, d2]
                      refine ⟨s.users, Match.writeIndex ?_, Or.inl (hback _ ?_)⟩
                      · intro j hj
                        exact (h.mat.wf j hj).store (hc1 j hj)
                      · intro j hj
                        rw [set_index_cred hj, hc1 j hj]
                cases rc <;> first | exact absurd rfl hrc | exact key
              · intro n2 a2 b2 c2 d2
                dsimp only at b2 d2 ⊢
                have hoff : ∀ w : St, (persistIndex cfg w).2.nvm = w.nvm ∨ w.nvm.powered = true := by
                  intro w
                  unfold persistIndex
                  rw [if_pos h.nvm]
                  cases hw : w.nvm.powered with
                  | true => exact Or.inr rfl
                  | false =>
                    refine Or.inl ?_
                    unfold Nvm.addWithReclaim Nvm.destroy
                    rw [hw]
                    rfl
                have hup : ∀ w : St, (persistIndex cfg w).2.up = w.up := by
                  intro w; unfold persistIndex; split <;> rfl
                have hn : (persistIndex cfg { s with users := upd (upd s.users i Slot.empty) i (s.users i),
                                                     nvm := n2 }).2.nvm = n2 := by
                  cases hoff { s with users := upd (upd s.users i Slot.empty) i (s.users i), nvm := n2 } with
                  | inl e => exact e
                  | inr e => rw [c2] at e; exact absurd e (by simp)
                refine ⟨by dsimp only; rw [hup], by dsimp only; rw [hn]; exact a2,
                  by dsimp only; rw [hn, b2, b],
                  Or.inr ⟨by dsimp only; rw [hn]; exact c2, ?_⟩⟩
                dsimp only
                rw [hn]
                cases d2 with
                | inl d2 =>
                  rw [d2]
                  exact ⟨_, hm1, Or.inr (hnew _ (fun j hj _ => hc1 j hj))⟩
                | inr d2 =>
                  rw [d2]
                  refine ⟨_, hm1.free (i := i) (by rw [upd_self]; rfl) (drop_cred_index hi)
                    (fun j hj hne => drop_cred_other hi hj hne), Or.inr (hnew _ ?_)⟩
                  intro j hj hne
                  rw [drop_cred_other hi hj hne, hc1 j hj]
            · refine ⟨rfl, a, b, Or.inl ⟨c, hm1, Or.inl ⟨rfl, ?_⟩⟩⟩
              exact hnew _ (fun j hj _ => hc1 j hj)
          · intro rc n' hrc a b c d e f
            have key : Res (fun v => v = upd (view s) i none) s
                (rc, { s with nvm := n', users := upd (upd s.users i Slot.empty) i (s.users i) }) := by
              rw [hundo]
              exact Res.refuse' h rfl a b d rfl hrc
            cases rc <;> first | exact absurd rfl hrc | exact key
          · intro n' a b c d
            dsimp only at d ⊢
            refine ⟨rfl, a, b, Or.inr ⟨c, ?_⟩⟩
            dsimp only
            cases d with
            | inl d => rw [d]; exact ⟨s.users, h.mat, Or.inl rfl⟩
            | inr d =>
              rw [d]
              exact ⟨_, Match.writeIndex hwf, Or.inr (hnew _ (fun j hj _ => set_index_cred hj _))⟩

/-- `wh_Auth_BaseUserSetPermissions`. -/
theorem baseSetPerms_res {cfg : Cfg} {s : St} (h : Live cfg s) (cur id : UInt16) (p : Perms) :
    Res (Effect cfg (.setPerms id p) (view s)) s (baseSetPerms cfg s cur id p) := by
  unfold baseSetPerms
  cases hb : badId id with
  | true => exact Res.refuse h (by simp)
  | false =>
    cases hc : badId cur with
    | true => exact Res.refuse h (by simp)
    | false =>
      by_cases ha : tableAdmin s cur = false
      · simp only [ha]; exact Res.refuse h (by simp)
      · rw [if_neg (by simp), if_neg (by simp), if_neg ha]
        have hi := slotOf_lt hb
        unfold Effect
        dsimp only
        generalize slotOf id = i at *
        by_cases hz : (s.users i).id = 0
        · rw [if_pos hz]; exact Res.refuse h (by simp)
        · rw [if_neg hz]
          have hs := h.mat.wf i hi
          have hslot : SlotOk s.nvm.store i { s.users i with perms := p.clamp } :=
            ⟨hs.name, fun e => absurd e hz,
              fun e => ⟨(hs.used e).1, (hs.used e).2.1, clamp_count p⟩, hs.bare, hs.cred⟩
          have hwf := h.mat.wf.upd hslot
          have hundo : upd (upd s.users i { s.users i with perms := p.clamp }) i (s.users i) = s.users := by
            rw [upd_upd]; exact upd_eq rfl
          have hnew : ∀ st : Store, (∀ j, j < maxUsers → st (credId j) = s.nvm.store (credId j)) →
              ∃ r, view s i = some r ∧
                viewOf st (upd s.users i { s.users i with perms := p.clamp }) =
                  upd (view s) i (some { r with perms := p.clamp }) := by
            intro st he
            refine ⟨_, viewOf_some hi hz, viewOf_upd ?_ (fun j hj hne => ⟨upd_ne hne, he j hj⟩)⟩
            rw [viewOf_some hi (by rw [upd_self]; exact hz), upd_self]
            simp only [credOf, he i hi]
          refine persistIndex_cases (s := { s with users := upd s.users i { s.users i with perms := p.clamp } })
            h.nvm h.safe h.powered (P := fun r => Res (fun v => ∃ r, view s i = some r ∧
              v = upd (view s) i (some { r with perms := p.clamp })) s (match r with
              | (.ok, s') => (.ok, s')
              | (rc, s') => (rc, { s' with users := upd s'.users i (s.users i) }))) ?_ ?_ ?_
          · intro n' a b c d
            dsimp only at d ⊢
            refine ⟨rfl, a, b, Or.inl ⟨c, ?_, Or.inl ⟨rfl, ?_⟩⟩⟩
            · dsimp only; rw [d]; exact Match.writeIndex hwf
            · unfold view
              dsimp only
              rw [d]
              exact hnew _ (fun j hj => set_index_cred hj _)
          · intro rc n' hrc a b c d e f
            have key : Res (fun v => ∃ r, view s i = some r ∧
                v = upd (view s) i (some { r with perms := p.clamp })) s
                (rc, { s with nvm := n', users := upd (upd s.users i { s.users i with perms := p.clamp }) i (s.users i) }) := by
              rw [hundo]
              exact Res.refuse' h rfl a b d rfl hrc
            cases rc <;> first | exact absurd rfl hrc | exact key
          · intro n' a b c d
            dsimp only at d ⊢
            refine ⟨rfl, a, b, Or.inr ⟨c, ?_⟩⟩
            dsimp only
            cases d with
            | inl d => rw [d]; exact ⟨s.users, h.mat, Or.inl rfl⟩
            | inr d =>
              rw [d]
              exact ⟨_, Match.writeIndex hwf, Or.inr (hnew _ (fun j hj => set_index_cred hj _))⟩

theorem hashPin_err {cfg : Cfg} {d : List UInt8} {rc : Rc} (h : hashPin cfg d = .error rc) :
    rc ≠ .ok := by
  unfold hashPin at h
  rintro rfl
  repeat' (split at h)
  all_goals simp at h

theorem makeBlob_err {cfg : Cfg} {m : UInt16} {d : List UInt8} {rc : Rc}
    (h : makeBlob cfg m d = .error rc) : rc ≠ .ok := by
  unfold makeBlob at h
  split at h
  · exact hashPin_err h
  · split at h
    · cases h; simp
    · simp at h

/-- The check of the current credentials changes nothing; if it passes, the credentials
presented are the stored ones. -/
theorem checkCurrent_cases {cfg : Cfg} {s : St} (h : Live cfg s) {i : Nat} (hi : i < maxUsers)
    (hz : (s.users i).id ≠ 0) (current : List UInt8) {P : Rc × St → Prop}
    (hok : ∀ n', Safe n' → n'.outs = s.nvm.outs → n'.powered = true → n'.store = s.nvm.store →
      P (.ok, { s with nvm := n' }))
    (herr : ∀ rc n', rc ≠ .ok → Safe n' → n'.outs = s.nvm.outs → n'.store = s.nvm.store →
      P (rc, { s with nvm := n' })) :
    P (checkCurrent cfg s i current) := by
  unfold checkCurrent
  dsimp only
  by_cases hc : (s.users i).credLen > 0
  · rw [if_pos hc]
    by_cases hcur : current = []
    · rw [if_pos hcur]; exact herr .access s.nvm (by simp) h.safe rfl rfl
    · rw [if_neg hcur]
      refine loadCred_cases h hi hz (P := fun r => P (match r with
        | ((.ok, stored), s') =>
          if stored.length ≠ (s.users i).credLen then (.access, s')
          else if (s.users i).method = mPin ∧ cfg.noCrypto = false then
            match hashPin cfg current with
            | .error rc => (rc, s')
            | .ok h => if (s.users i).credLen ≠ 32 ∨ stored.take 32 ≠ h then (.access, s') else (.ok, s')
          else if (s.users i).credLen ≠ current.length ∨ stored ≠ current then (.access, s')
          else (.ok, s')
        | ((_, _), s') => (.access, s'))) ?_ ?_
      · intro n' data a b c d _ _ _
        dsimp only
        split
        · exact herr _ n' (by simp) a b d
        · split
          · split
            · rename_i rc hh
              exact herr _ n' (hashPin_err hh) a b d
            · split
              · exact herr _ n' (by simp) a b d
              · exact hok n' a b c d
          · split
            · exact herr _ n' (by simp) a b d
            · exact hok n' a b c d
      · intro rc n' hrc a b d
        cases rc <;> first | exact absurd rfl hrc | exact herr .access n' (by simp) a b d
  · rw [if_neg hc]
    split
    · exact herr _ s.nvm (by simp) h.safe rfl rfl
    · exact hok s.nvm h.safe rfl h.powered rfl

/-- `wh_Auth_BaseUserSetCredentials`. -/
theorem baseSetCred_res {cfg : Cfg} {s : St} (h : Live cfg s) (cur id m : UInt16)
    (current new : List UInt8) :
    Res (Effect cfg (.setCred id m current new) (view s)) s (baseSetCred cfg s cur id m current new) := by
  unfold baseSetCred
  cases hb : badId id with
  | true => exact Res.refuse h (by simp)
  | false =>
  cases hc : badId cur with
  | true => exact Res.refuse h (by simp)
  | false =>
  rw [if_neg (by simp), if_neg (by simp)]
  by_cases ha : cur ≠ id ∧ tableAdmin s cur = false
  · rw [if_pos ha]; exact Res.refuse h (by simp)
  · rw [if_neg ha]
    by_cases hmo : cfg.methodOk m = false
    · rw [if_pos hmo]; exact Res.refuse h (by simp)
    · rw [if_neg hmo]
      have hi := slotOf_lt hb
      have hmeth : m = mPin ∨ m = mCert := methodOk_cases (cfg := cfg) (by
        cases hx : cfg.methodOk m with
        | true => rfl
        | false => exact absurd hx hmo)
      unfold Effect
      dsimp only
      generalize slotOf id = i at *
      by_cases hz : (s.users i).id = 0
      · rw [if_pos hz]; exact Res.refuse h (by simp)
      · rw [if_neg hz]
        have hs := h.mat.wf i hi
        by_cases hlen : new.length > maxCred
        · rw [if_pos hlen]; exact Res.refuse h (by simp)
        · rw [if_neg hlen]
          generalize hE : (fun v => ∃ r, view s i = some r ∧
            ((new = [] ∧ v = upd (view s) i (some { r with method := mNone, cred := [] })) ∨
             ∃ blob, new ≠ [] ∧ makeBlob cfg m new = .ok blob ∧
               v = upd (view s) i (some { r with method := m, cred := blob }))) = E
          refine checkCurrent_cases h hi hz current (P := fun r => Res E s (match r with
            | (.ok, s1) =>
              if new ≠ [] then
                match makeBlob cfg m new with
                | .error rc => (rc, s1)
                | .ok blob =>
                  match persistCred cfg s1 i m blob with
                  | (.ok, s2) =>
                    (.ok, { s2 with users := upd s2.users i { s2.users i with method := m, credLen := blob.length } })
                  | (rc, s2) => (rc, s2)
              else if (s.users i).credLen > 0 then
                match destroyCred cfg s1 i with
                | (.ok, s2) =>
                  (.ok, { s2 with users := upd s2.users i { s2.users i with method := mNone, credLen := 0 } })
                | (rc, s2) => (rc, s2)
              else (.ok, s1)
            | (rc, s1) => (rc, s1))) ?_ ?_
          · intro n1 a1 b1 c1 d1
            dsimp only
            by_cases hnew : new = []
            · rw [if_neg (by simp [hnew])]
              by_cases hcl : (s.users i).credLen > 0
              · rw [if_pos hcl]
                obtain ⟨_, _, data, hdl, hdat⟩ := hs.cred hz (by omega)
                have hmat : ∀ st : Store, st (credId i) = none → st indexId = s.nvm.store indexId →
                    (∀ j, j < maxUsers → j ≠ i → st (credId j) = s.nvm.store (credId j)) →
                    Match st (upd s.users i { s.users i with method := mNone, credLen := 0 }) ∧
                    E (viewOf st (upd s.users i { s.users i with method := mNone, credLen := 0 })) := by
                  intro st h1 h2 h3
                  refine ⟨⟨h.mat.idx.congr h2 ?_, ?_⟩, ?_⟩
                  · intro j hj
                    by_cases e : j = i
                    · subst e; rw [upd_self]; exact ⟨rfl, rfl, rfl⟩
                    · rw [upd_ne e]; exact ⟨rfl, rfl, rfl⟩
                  · intro j hj
                    by_cases e : j = i
                    · subst e
                      rw [upd_self]
                      exact ⟨hs.name, fun e => absurd e hz, hs.used, fun _ _ => ⟨rfl, h1⟩,
                        fun _ e => absurd rfl e⟩
                    · rw [upd_ne e]; exact (h.mat.wf j hj).store (h3 j hj e)
                  · rw [← hE]
                    refine ⟨_, viewOf_some hi hz, Or.inl ⟨hnew, viewOf_upd ?_ ?_⟩⟩
                    · rw [viewOf_some hi (by rw [upd_self]; exact hz), upd_self, credOf_zero rfl]
                    · intro j hj e; exact ⟨upd_ne e, h3 j hj e⟩
                refine destroyCred_cases (s := { s with nvm := n1 }) h.nvm a1 c1 i
                  (P := fun r => Res E s (match r with
                    | (.ok, s2) =>
                      (.ok, { s2 with users := upd s2.users i { s2.users i with method := mNone, credLen := 0 } })
                    | (rc, s2) => (rc, s2))) ?_ ?_ ?_
                · intro n2 a2 b2 c2 d2
                  dsimp only at b2 d2 ⊢
                  have := hmat (s.nvm.store.drop [credId i]) (drop_cred_self _ _) (drop_cred_index hi)
                    (fun j hj hne => drop_cred_other hi hj hne)
                  refine ⟨rfl, a2, by dsimp only; rw [b2, b1], Or.inl ⟨c2, ?_, Or.inl ⟨rfl, ?_⟩⟩⟩
                  · dsimp only; rw [d2, d1]; exact this.1
                  · unfold view; dsimp only; rw [d2, d1]; exact this.2
                · intro rc n2 hrc a2 b2 c2 d2 _ _
                  dsimp only at b2 d2
                  cases rc <;> first
                    | exact absurd rfl hrc
                    | exact Res.refuse' h rfl a2 (by dsimp only; rw [b2, b1]) (by dsimp only; rw [d2, d1]) rfl (by simp)
                · intro n2 a2 b2 c2 d2
                  dsimp only at b2 d2 ⊢
                  refine ⟨rfl, a2, by dsimp only; rw [b2, b1], Or.inr ⟨c2, ?_⟩⟩
                  dsimp only
                  cases d2 with
                  | inl d2 => rw [d2, d1]; exact ⟨s.users, h.mat, Or.inl rfl⟩
                  | inr d2 =>
                    rw [d2, d1]
                    have := hmat (s.nvm.store.drop [credId i]) (drop_cred_self _ _) (drop_cred_index hi)
                      (fun j hj hne => drop_cred_other hi hj hne)
                    exact ⟨_, this.1, Or.inr this.2⟩
              · rw [if_neg hcl]
                refine ⟨rfl, a1, b1, Or.inl ⟨c1, by dsimp only; rw [d1]; exact h.mat, Or.inl ⟨rfl, ?_⟩⟩⟩
                rw [← hE]
                have hc0 : (s.users i).credLen = 0 := by omega
                refine ⟨_, viewOf_some hi hz, Or.inl ⟨hnew, ?_⟩⟩
                unfold view
                dsimp only
                rw [d1]
                symm
                apply upd_eq
                rw [viewOf_some hi hz, credOf_zero hc0, (hs.bare hz hc0).1]
            · rw [if_pos (by simpa using hnew)]
              cases hbl : makeBlob cfg m new with
              | error rc =>
                dsimp only
                exact Res.refuse' h rfl a1 b1 d1 rfl (makeBlob_err hbl)
              | ok blob =>
                dsimp only
                obtain ⟨l1, l2⟩ := makeBlob_length hbl hnew
                have hmat : Match (s.nvm.store.set (credMeta i m blob.length) blob)
                      (upd s.users i { s.users i with method := m, credLen := blob.length }) ∧
                    E (viewOf (s.nvm.store.set (credMeta i m blob.length) blob)
                      (upd s.users i { s.users i with method := m, credLen := blob.length })) := by
                  have hst := set_cred_self s.nvm.store i m blob
                  refine ⟨⟨h.mat.idx.congr (set_cred_index hi m blob) ?_, ?_⟩, ?_⟩
                  · intro j hj
                    by_cases e : j = i
                    · subst e; rw [upd_self]; exact ⟨rfl, rfl, rfl⟩
                    · rw [upd_ne e]; exact ⟨rfl, rfl, rfl⟩
                  · intro j hj
                    by_cases e : j = i
                    · subst e
                      rw [upd_self]
                      exact ⟨hs.name, fun e => absurd e hz, hs.used, fun _ e => absurd e (by dsimp only; omega),
                        fun _ _ => ⟨l2, hmeth, blob, rfl, hst⟩⟩
                    · rw [upd_ne e]; exact (h.mat.wf j hj).store (set_cred_other hi hj e m blob)
                  · rw [← hE]
                    refine ⟨_, viewOf_some hi hz, Or.inr ⟨blob, hnew, hbl, viewOf_upd ?_ ?_⟩⟩
                    · rw [viewOf_some hi (by rw [upd_self]; exact hz), upd_self,
                        credOf_some (by dsimp only; omega) hst]
                    · intro j hj e; exact ⟨upd_ne e, set_cred_other hi hj e m blob⟩
                refine persistCred_cases (s := { s with nvm := n1 }) h.nvm a1 c1 i m blob
                  (P := fun r => Res E s (match r with
                    | (.ok, s2) =>
                      (.ok, { s2 with users := upd s2.users i { s2.users i with method := m, credLen := blob.length } })
                    | (rc, s2) => (rc, s2))) ?_ ?_ ?_
                · intro n2 a2 b2 c2 d2
                  dsimp only at b2 d2 ⊢
                  refine ⟨rfl, a2, by dsimp only; rw [b2, b1], Or.inl ⟨c2, ?_, Or.inl ⟨rfl, ?_⟩⟩⟩
                  · dsimp only; rw [d2, d1]; exact hmat.1
                  · unfold view; dsimp only; rw [d2, d1]; exact hmat.2
                · intro rc n2 hrc a2 b2 c2 d2 _ _
                  dsimp only at b2 d2
                  cases rc <;> first
                    | exact absurd rfl hrc
                    | exact Res.refuse' h rfl a2 (by dsimp only; rw [b2, b1]) (by dsimp only; rw [d2, d1]) rfl (by simp)
                · intro n2 a2 b2 c2 d2
                  dsimp only at b2 d2 ⊢
                  refine ⟨rfl, a2, by dsimp only; rw [b2, b1], Or.inr ⟨c2, ?_⟩⟩
                  dsimp only
                  cases d2 with
                  | inl d2 => rw [d2, d1]; exact ⟨s.users, h.mat, Or.inl rfl⟩
                  | inr d2 => rw [d2, d1]; exact ⟨_, hmat.1, Or.inr hmat.2⟩
          · intro rc n1 hrc a1 b1 d1
            cases rc <;> first
              | exact absurd rfl hrc
              | exact Res.refuse' h rfl a1 b1 d1 rfl (by simp)

end WolfHsm.Auth

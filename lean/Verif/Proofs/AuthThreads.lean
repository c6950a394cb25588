import Verif.Spec.AuthThreads
import Verif.Proofs.Lock

/-!
# Proofs about logins in threads
-/

namespace WolfHsm.AuthThreads

open Auth Lock

theorem guarded_disciplined (fail : Rc → Ans) {body : Prog St Ans} (h : Inside body) : Disciplined (Prog.guarded fail body) := by
  refine ⟨h, ?_⟩
  intro rc hrc
  cases rc <;> first | exact absurd rfl hrc | exact ⟨_, rfl⟩

theorem addEnd_inside (cfg : Cfg) (i : Nat) : Inside (addEnd cfg i) := by
  intro s s'
  dsimp only
  split
  · exact ⟨_, rfl⟩
  · split
    · exact fun _ _ => ⟨_, rfl⟩
    · exact fun _ => ⟨_, rfl⟩

theorem disciplined (cfg : Cfg) (x : Nat) (r : Req) : Disciplined (prog cfg x r) := by
  cases r with
  | login m n d =>
    refine guarded_disciplined _ fun s => ?_
    dsimp only
    split
    · exact ⟨_, rfl⟩
    split
    · exact ⟨_, rfl⟩
    intro s
    dsimp only
    split
    · intro s
      dsimp only
      split
      · exact ⟨_, rfl⟩
      · exact fun _ _ => ⟨_, rfl⟩
    · exact ⟨_, rfl⟩
  | logout id =>
    refine guarded_disciplined _ fun s => ?_
    dsimp only
    split
    · exact ⟨_, rfl⟩
    intro s
    dsimp only
    split
    · exact fun _ => ⟨_, rfl⟩
    · exact ⟨_, rfl⟩
  | delete id =>
    refine guarded_disciplined _ fun s => ?_
    dsimp only
    iterate 5 (split; · exact ⟨_, rfl⟩)
    intro _ s
    dsimp only
    split
    · split
      · intro s
        dsimp only
        split
        · exact ⟨_, rfl⟩
        · exact fun _ _ => ⟨_, rfl⟩
      · exact ⟨_, rfl⟩
    · exact fun _ => ⟨_, rfl⟩
  | setPerms id p =>
    refine guarded_disciplined _ fun s => ?_
    dsimp only
    iterate 5 (split; · exact ⟨_, rfl⟩)
    intro _ s
    dsimp only
    split
    · exact fun _ => ⟨_, rfl⟩
    · exact fun _ => ⟨_, rfl⟩
  | setCred id m c n =>
    refine guarded_disciplined _ fun s => ?_
    dsimp only
    iterate 7 (split; · exact ⟨_, rfl⟩)
    intro s
    dsimp only
    split
    · split
      · split
        · exact ⟨_, rfl⟩
        · intro s
          dsimp only
          split
          · exact fun _ => ⟨_, rfl⟩
          · exact ⟨_, rfl⟩
      · split
        · intro s
          dsimp only
          split
          · exact fun _ => ⟨_, rfl⟩
          · exact ⟨_, rfl⟩
        · exact ⟨_, rfl⟩
    · exact ⟨_, rfl⟩
  | add n p m c =>
    refine guarded_disciplined _ fun s => ?_
    dsimp only
    iterate 4 (split; · exact ⟨_, rfl⟩)
    split
    · exact ⟨_, rfl⟩
    · split
      · exact fun _ => addEnd_inside cfg _
      · split
        · exact ⟨_, rfl⟩
        · intro s
          dsimp only
          split
          · exact fun _ => addEnd_inside cfg _
          · exact ⟨_, rfl⟩
  | get n =>
    refine guarded_disciplined _ fun s => ?_
    dsimp only
    split
    · exact ⟨_, rfl⟩
    split <;> exact ⟨_, rfl⟩
  | allowed g a => exact guarded_disciplined _ fun s => ⟨_, rfl⟩
  | keyAllowed k => exact guarded_disciplined _ fun s => ⟨_, rfl⟩
  | reset => exact guarded_disciplined _ fun s => ⟨_, rfl⟩

theorem alone_login (cfg : Cfg) (x : Nat) (m : UInt16) (n d : List UInt8) (s : St) :
    alone (loginProg cfg x m n d) .ok s = (((login cfg s x m n d).1.1, (login cfg s x m n d).1.2, none), (login cfg s x m n d).2) := by
  unfold loginProg login baseLogin
  simp only [Prog.guarded, alone, id_eq]
  by_cases h1 : s.up = false
  · simp only [h1, if_true, alone]
  · simp only [if_neg h1]
    by_cases h2 : (s.sess x).id ≠ 0
    · simp only [if_pos h2, alone]
    · simp only [if_neg h2, Prog.call, alone]
      change _ = (fun q : (Rc × Bool) × St => (((q.1.1, q.1.2, none), q.2) : Ans × St)) (match (match check cfg s m n d with
          | ((.ok, some i), s') => if (s'.users i).active then ((.ok, none), s')
              else ((.ok, some i), { s' with users := upd s'.users i { s'.users i with active := true } })
          | ((rc, _), s') => ((rc, none), s') : (Rc × Option Nat) × St) with
        | ((.ok, some i), s') => ((.ok, true), { s' with sess := upd s'.sess x ⟨(s'.users i).id, (s'.users i).perms⟩ })
        | ((rc, _), s') => ((rc, false), s') : (Rc × Bool) × St)
      generalize check cfg s m n d = q
      obtain ⟨⟨rc, o⟩, s'⟩ := q
      cases o with
      | none => cases rc <;> rfl
      | some i =>
        by_cases hr : rc = .ok
        · subst hr
          dsimp only
          by_cases ha : (s'.users i).active = true
          · simp only [alone, ha, if_true, id_eq]
          · simp only [alone, ha, if_false, id_eq, Bool.false_eq_true]
        · cases rc <;> first | exact absurd rfl hr | rfl

theorem baseLogout_sess (s : St) (c i : UInt16) : (baseLogout s c i).2.sess = s.sess := by
  unfold baseLogout
  repeat' split
  all_goals rfl

theorem alone_logout (x : Nat) (i : UInt16) (s : St) :
    alone (logoutProg x i) .ok s = (((logout s x i).1, false, none), (logout s x i).2) := by
  unfold logoutProg logout
  simp only [Prog.guarded, alone]
  by_cases h1 : s.up = false
  · simp only [h1, if_true, alone]
  · simp only [if_neg h1, Prog.call, alone]
    have hs := baseLogout_sess s (s.sess x).id i
    revert hs
    generalize baseLogout s (s.sess x).id i = q
    obtain ⟨rc, s'⟩ := q
    intro hs
    dsimp only at hs
    by_cases hr : rc = .ok
    · subst hr
      simp only [alone, hs]
    · cases rc <;> first | exact absurd rfl hr | rfl

theorem alone_delete (cfg : Cfg) (x : Nat) (i : UInt16) (s : St) :
    alone (deleteProg cfg x i) .ok s = (((userDelete cfg s x i).1, false, none), (userDelete cfg s x i).2) := by
  unfold deleteProg userDelete baseDelete
  simp only [Prog.guarded, alone]
  by_cases h1 : s.up = false
  · simp only [h1, if_true, alone]
  by_cases h2 : badId i = true
  · simp only [if_neg h1, h2, if_true, alone]
  by_cases h3 : badId (s.sess x).id = true
  · simp only [if_neg h1, if_neg h2, h3, if_true, alone]
  by_cases h4 : tableAdmin s (s.sess x).id = false
  · simp only [if_neg h1, if_neg h2, if_neg h3, h4, if_true, alone]
  by_cases h5 : (s.users (slotOf i)).id = 0
  · simp only [if_neg h1, if_neg h2, if_neg h3, if_neg h4, h5, if_true, alone]
  simp only [if_neg h1, if_neg h2, if_neg h3, if_neg h4, if_neg h5, Prog.call, alone]
  generalize persistIndex cfg { s with users := upd s.users (slotOf i) Slot.empty } = q
  obtain ⟨rc, s'⟩ := q
  by_cases hr : rc = .ok
  · subst hr
    dsimp only
    by_cases hc : (s.users (slotOf i)).credLen > 0
    · simp only [if_pos hc, alone]
      generalize destroyCred cfg s' (slotOf i) = q2
      obtain ⟨rc2, s2⟩ := q2
      cases rc2 <;> rfl
    · simp only [if_neg hc, alone]
  · cases rc <;> first | exact absurd rfl hr | rfl

theorem persistIndex_sess (cfg : Cfg) (s : St) : (persistIndex cfg s).2.sess = s.sess := by
  unfold persistIndex
  split <;> rfl

theorem alone_setPerms (cfg : Cfg) (x : Nat) (i : UInt16) (p : Perms) (s : St) :
    alone (setPermsProg cfg x i p) .ok s = (((setPerms cfg s x i p).1, false, none), (setPerms cfg s x i p).2) := by
  unfold setPermsProg setPerms baseSetPerms
  simp only [Prog.guarded, alone]
  by_cases h1 : s.up = false
  · simp only [h1, if_true, alone]
  by_cases h2 : badId i = true
  · simp only [if_neg h1, h2, if_true, alone]
  by_cases h3 : badId (s.sess x).id = true
  · simp only [if_neg h1, if_neg h2, h3, if_true, alone]
  by_cases h4 : tableAdmin s (s.sess x).id = false
  · simp only [if_neg h1, if_neg h2, if_neg h3, h4, if_true, alone]
  by_cases h5 : (s.users (slotOf i)).id = 0
  · simp only [if_neg h1, if_neg h2, if_neg h3, if_neg h4, h5, if_true, alone]
  simp only [if_neg h1, if_neg h2, if_neg h3, if_neg h4, if_neg h5, Prog.call, alone]
  have hs := persistIndex_sess cfg { s with users := upd s.users (slotOf i) { s.users (slotOf i) with perms := p.clamp } }
  revert hs
  generalize persistIndex cfg { s with users := upd s.users (slotOf i) { s.users (slotOf i) with perms := p.clamp } } = q
  obtain ⟨rc, s'⟩ := q
  intro hs
  dsimp only at hs
  by_cases hr : rc = .ok
  · subst hr
    simp only [alone, hs]
  · cases rc <;> first | exact absurd rfl hr | rfl

theorem alone_setCred (cfg : Cfg) (x : Nat) (i m : UInt16) (c n : List UInt8) (s : St) :
    alone (setCredProg cfg x i m c n) .ok s = (((setCred cfg s x i m c n).1, false, none), (setCred cfg s x i m c n).2) := by
  unfold setCredProg setCred baseSetCred
  simp only [Prog.guarded, alone]
  by_cases h1 : s.up = false
  · simp only [h1, if_true, alone]
  by_cases h2 : badId i = true
  · simp only [if_neg h1, h2, if_true, alone]
  by_cases h3 : badId (s.sess x).id = true
  · simp only [if_neg h1, if_neg h2, h3, if_true, alone]
  by_cases h4 : (s.sess x).id ≠ i ∧ tableAdmin s (s.sess x).id = false
  · simp only [if_neg h1, if_neg h2, if_neg h3, if_pos h4, alone]
  by_cases h5 : cfg.methodOk m = false
  · simp only [if_neg h1, if_neg h2, if_neg h3, if_neg h4, if_pos h5, alone]
  by_cases h6 : (s.users (slotOf i)).id = 0
  · simp only [if_neg h1, if_neg h2, if_neg h3, if_neg h4, if_neg h5, if_pos h6, alone]
  by_cases h7 : n.length > maxCred
  · simp only [if_neg h1, if_neg h2, if_neg h3, if_neg h4, if_neg h5, if_neg h6, if_pos h7, alone]
  simp only [if_neg h1, if_neg h2, if_neg h3, if_neg h4, if_neg h5, if_neg h6, if_neg h7, Prog.call, alone]
  generalize checkCurrent cfg s (slotOf i) c = q
  obtain ⟨rc, s1⟩ := q
  by_cases hr : rc = .ok
  · subst hr
    dsimp only
    by_cases hn : n ≠ []
    · simp only [if_pos hn]
      generalize makeBlob cfg m n = b
      cases b with
      | error rc => rfl
      | ok blob =>
        simp only [alone]
        generalize persistCred cfg s1 (slotOf i) m blob = q2
        obtain ⟨rc2, s2⟩ := q2
        cases rc2 <;> rfl
    · simp only [if_neg hn]
      by_cases hc : (s.users (slotOf i)).credLen > 0
      · simp only [if_pos hc, alone]
        generalize destroyCred cfg s1 (slotOf i) = q2
        obtain ⟨rc2, s2⟩ := q2
        cases rc2 <;> rfl
      · simp only [if_neg hc, alone]
  · cases rc <;> first | exact absurd rfl hr | rfl

/-- The answer to adding a user. -/
def added (r : (Rc × UInt16) × St) : Ans × St := ((r.1.1, false, if r.1.1 = .ok then some (r.1.2, none) else none), r.2)

theorem alone_addEnd (cfg : Cfg) (i : Nat) (s : St) : alone (addEnd cfg i) .ok s = added (addCommit cfg s i) := by
  unfold addEnd addCommit
  simp only [Prog.call, alone]
  generalize persistIndex cfg s = q
  obtain ⟨rc, s'⟩ := q
  by_cases hr : rc = .ok
  · subst hr; rfl
  · have h : ∀ t : St, added ((rc, 0), t) = ((rc, false, none), t) := fun t => by simp only [added, if_neg hr]
    by_cases hc : (s.users i).credLen > 0
    · cases rc <;> first | exact absurd rfl hr | simp only [if_pos hc, alone, h]
    · cases rc <;> first | exact absurd rfl hr | simp only [if_neg hc, alone, h]

theorem alone_baseAdd (cfg : Cfg) (x : Nat) (n : List UInt8) (p : Perms) (m : UInt16) (c : List UInt8) (s : St) (h1 : ¬ s.up = false)
    (h2 : ¬ ((s.sess x).perms.isAdmin = false ∧ (subsetOk (s.sess x).perms p = false ∨ c = []))) :
    alone (addProg cfg x n p m c) .ok s = added (baseAdd cfg s n p m c) := by
  unfold addProg baseAdd
  simp only [Prog.guarded, alone, if_neg h1, if_neg h2]
  by_cases h3 : c ≠ [] ∧ cfg.methodOk m = false
  · simp only [if_pos h3, alone]; rfl
  by_cases h4 : (findUser s n).isSome = true
  · simp only [if_neg h3, if_pos h4, alone]; rfl
  simp only [if_neg h3, if_neg h4]
  generalize freeSlot s = f
  cases f with
  | none => rfl
  | some i =>
    dsimp only
    by_cases h5 : c = []
    · simp only [if_pos h5, alone, alone_addEnd]
    · simp only [if_neg h5]
      generalize hb : makeBlob cfg m c = b
      cases b with
      | error rc =>
        have hr : rc ≠ .ok := by
          rintro rfl
          revert hb
          unfold makeBlob
          repeat' split
          all_goals (intro hb; first | cases hb | (unfold hashPin at hb; revert hb; repeat' split
                                                   all_goals (intro hb; cases hb)))
        simp only [alone, added, if_neg hr]
      | ok blob =>
        simp only [Prog.call, alone]
        generalize persistCred cfg s i m blob = q
        obtain ⟨rc, s'⟩ := q
        by_cases hr : rc = .ok
        · subst hr
          simp only [alone, alone_addEnd]
        · have h : ∀ t : St, added ((rc, 0), t) = ((rc, false, none), t) := fun t => by simp only [added, if_neg hr]
          cases rc <;> first | exact absurd rfl hr | simp only [alone, h]

theorem alone_add (cfg : Cfg) (x : Nat) (n : List UInt8) (p : Perms) (m : UInt16) (c : List UInt8) (s : St) :
    alone (addProg cfg x n p m c) .ok s = added (userAdd cfg s x n p m c) := by
  unfold userAdd
  by_cases h1 : s.up = false
  · simp only [addProg, Prog.guarded, alone, if_pos h1]; rfl
  by_cases ha : (s.sess x).perms.isAdmin = true
  · rw [alone_baseAdd cfg x n p m c s h1 (by simp [ha]), if_neg h1, if_pos ha]
  have ha' : (s.sess x).perms.isAdmin = false := by simpa using ha
  by_cases hs : subsetOk (s.sess x).perms p = false
  · simp only [addProg, Prog.guarded, alone, if_neg h1, if_neg ha, if_pos hs, if_pos (And.intro ha' (Or.inl hs : _ ∨ c = []))]; rfl
  by_cases hc : c = []
  · simp only [addProg, Prog.guarded, alone, if_neg h1, if_neg ha, if_neg hs, if_pos hc,
      if_pos (And.intro ha' (Or.inr hc : subsetOk (s.sess x).perms p = false ∨ _))]; rfl
  · rw [alone_baseAdd cfg x n p m c s h1 (fun h => h.2.elim hs hc), if_neg h1, if_neg ha, if_neg hs, if_neg hc]

theorem alone_get (x : Nat) (n : List UInt8) (s : St) :
    alone (getProg x n) .ok s = (((userGet s x n).1, false, (userGet s x n).2.map fun u => (u.1, some u.2)), s) := by
  unfold getProg userGet
  simp only [Prog.guarded, alone]
  by_cases h1 : s.up = false
  · simp only [if_pos h1, alone]; rfl
  simp only [if_neg h1]
  generalize baseGet s (s.sess x).id n = q
  obtain ⟨rc, o⟩ := q
  cases o <;> rfl

theorem alone_prog (cfg : Cfg) (x : Nat) (r : Req) (rc : Rc) (s : St) :
    alone (prog cfg x r) rc s = if rc = .ok then does cfg s x r else ((rc, false, none), s) := by
  by_cases h : rc = .ok
  · subst h
    rw [if_pos rfl]
    cases r with
    | login m n d => exact alone_login cfg x m n d s
    | logout i => exact alone_logout x i s
    | delete i => exact alone_delete cfg x i s
    | setPerms i p => exact alone_setPerms cfg x i p s
    | setCred i m c n => exact alone_setCred cfg x i m c n s
    | add n p m c => exact alone_add cfg x n p m c s
    | get n => exact alone_get x n s
    | allowed g a => rfl
    | keyAllowed k => rfl
    | reset => rfl
  · rw [if_neg h]
    cases r <;> cases rc <;> first | exact absurd rfl h | rfl

theorem serial_eq (cfg : Cfg) : ∀ (l : List (Nat × Req × Rc)) (s : St),
    (serialAnswers (prog cfg) s l, serialState (prog cfg) s l) = oneByOne cfg s l := by
  intro l
  induction l with
  | nil => intro s; rfl
  | cons e l ih =>
    obtain ⟨t, a, rc⟩ := e
    intro s
    simp only [serialAnswers, serialState, alone_prog]
    by_cases h : rc = .ok
    · subst h
      simp only [if_true]
      have := ih (does cfg s t a).2
      rw [oneByOne, ← this]
    · simp only [if_neg h]
      have := ih s
      rw [oneByOne, ← this]
      intro e
      exact h e

end WolfHsm.AuthThreads

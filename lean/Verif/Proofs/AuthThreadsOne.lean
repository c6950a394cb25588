import Verif.Proofs.AuthThreads

/-!
# Logins of one user, one after the other
-/

namespace WolfHsm.AuthThreads

open Auth

theorem loadCred_users (cfg : Cfg) (s : St) (i : Nat) : (loadCred cfg s i).2.users = s.users := by
  unfold loadCred
  repeat' split
  all_goals rfl

theorem checkPin_users (cfg : Cfg) (s : St) (n d : List UInt8) : (checkPin cfg s n d).2.users = s.users ∧
    ∀ i, (checkPin cfg s n d).1.2 = some i → findUser s n = some i := by
  unfold checkPin
  split
  · exact ⟨rfl, fun i h => by cases h⟩
  split
  · exact ⟨rfl, fun i h => by cases h⟩
  next i hf =>
  split
  · have hu := loadCred_users cfg s i
    split
    · next heq =>
      rw [heq] at hu
      refine ⟨hu, fun j h => ?_⟩
      dsimp only at h
      split at h
      · rw [hf]; exact h
      · cases h
    · next heq => rw [heq] at hu; exact ⟨hu, fun i h => by cases h⟩
    · next heq => rw [heq] at hu; exact ⟨hu, fun i h => by cases h⟩
  · exact ⟨rfl, fun i h => by cases h⟩

theorem checkCert_users (cfg : Cfg) (s : St) (n d : List UInt8) : (checkCert cfg s n d).2.users = s.users ∧
    ∀ i, (checkCert cfg s n d).1.2 = some i → findUser s n = some i := by
  unfold checkCert
  split
  · exact ⟨rfl, fun i h => by cases h⟩
  next i hf =>
  split
  · have hu := loadCred_users cfg s i
    split
    · next heq =>
      rw [heq] at hu
      refine ⟨hu, fun j h => ?_⟩
      dsimp only at h
      split at h
      · rw [hf]; exact h
      · cases h
    · next heq => rw [heq] at hu; exact ⟨hu, fun i h => by cases h⟩
    · next heq => rw [heq] at hu; exact ⟨hu, fun i h => by cases h⟩
  · exact ⟨rfl, fun i h => by cases h⟩

theorem check_users (cfg : Cfg) (s : St) (m : UInt16) (n d : List UInt8) : (check cfg s m n d).2.users = s.users ∧
    ∀ i, (check cfg s m n d).1.2 = some i → findUser s n = some i := by
  unfold check
  split
  · exact checkPin_users cfg s n d
  split
  · exact checkCert_users cfg s n d
  · exact ⟨rfl, fun i h => by cases h⟩

/-- Nobody's name changes, and nobody is marked as gone. -/
def Grows (s s' : St) : Prop :=
  ∀ i, (s'.users i).name = (s.users i).name ∧ ((s.users i).active = true → (s'.users i).active = true)

theorem Grows.find {s s' : St} (h : Grows s s') (n : List UInt8) : findUser s' n = findUser s n := by
  unfold findUser
  congr 1
  funext i
  rw [(h i).1]

/-- A login: names stay, marks stay; a success is for the user of that name, who was not marked and is now. -/
theorem login_grows (cfg : Cfg) (s : St) (x : Nat) (m : UInt16) (n d : List UInt8) :
    Grows s (login cfg s x m n d).2 ∧ ((login cfg s x m n d).1.2 = true → ∃ i, findUser s n = some i ∧
      (s.users i).active = false ∧ ((login cfg s x m n d).2.users i).active = true) := by
  have keep : ∀ s' : St, s'.users = s.users → Grows s s' := fun s' h i => by rw [h]; exact ⟨rfl, id⟩
  have e : login cfg s x m n d = (fun a : Ans × St => ((a.1.1, a.1.2.1), a.2)) (Lock.alone (loginProg cfg x m n d) .ok s) := by
    rw [alone_login]
  rw [e]
  dsimp only
  obtain ⟨hu, hf⟩ := check_users cfg s m n d
  unfold loginProg
  simp only [Lock.Prog.guarded, Lock.alone, id_eq]
  by_cases h1 : s.up = false
  · simp only [h1, if_true, Lock.alone]
    exact ⟨keep s rfl, fun h => by cases h⟩
  simp only [if_neg h1]
  by_cases h2 : (s.sess x).id ≠ 0
  · simp only [if_pos h2, Lock.alone]
    exact ⟨keep s rfl, fun h => by cases h⟩
  simp only [if_neg h2, Lock.Prog.call, Lock.alone]
  revert hu hf
  generalize check cfg s m n d = q
  obtain ⟨⟨rc, o⟩, s'⟩ := q
  intro hu hf
  dsimp only at hu hf ⊢
  split
  · next i heq =>
    obtain ⟨rfl, rfl⟩ := Prod.mk.inj heq
    simp only [Lock.alone, id_eq]
    by_cases ha : (s'.users i).active = true
    · simp only [ha, if_true, Lock.alone]
      exact ⟨keep s' hu, fun h => by cases h⟩
    · simp only [ha, if_false, Lock.alone, Bool.false_eq_true]
      refine ⟨fun j => ?_, fun _ => ⟨i, hf i rfl, ?_, by simp [upd]⟩⟩
      · dsimp only [upd]
        by_cases hj : j = i
        · subst hj
          rw [if_pos rfl, hu]
          exact ⟨rfl, fun _ => rfl⟩
        · rw [if_neg hj, hu]
          exact ⟨rfl, id⟩
      · rw [← hu]
        exact Bool.eq_false_iff.mpr ha
  · exact ⟨keep s' hu, fun h => by cases h⟩

/-- Is a login with this name. -/
def IsLogin (n : List UInt8) (r : Req) : Prop := ∃ m d, r = .login m n d

/-- Successful logins. -/
def wins (l : List (Nat × Ans)) : Nat := (l.filter fun a => a.2.2.1).length

theorem no_win (cfg : Cfg) (n : List UInt8) : ∀ (l : List (Nat × Req × Rc)) (s : St), (∀ e ∈ l, IsLogin n e.2.1) →
    (∀ i, findUser s n = some i → (s.users i).active = true) → wins (oneByOne cfg s l).1 = 0 := by
  intro l
  induction l with
  | nil => intro s _ _; rfl
  | cons e l ih =>
    intro s hl ha
    obtain ⟨x, r, rc⟩ := e
    have hl' := fun e he => hl e (List.mem_cons_of_mem _ he)
    obtain ⟨m, d, hr⟩ := hl _ (List.mem_cons_self ..)
    dsimp only at hr
    subst hr
    by_cases h : rc = .ok
    · subst h
      obtain ⟨g, hw⟩ := login_grows cfg s x m n d
      have hfalse : (login cfg s x m n d).1.2 = false := by
        refine Bool.eq_false_iff.mpr fun ht => ?_
        obtain ⟨i, h1, h2, -⟩ := hw ht
        rw [ha i h1] at h2
        cases h2
      have := ih (login cfg s x m n d).2 hl' (fun i hi => (g i).2 (ha i (by rw [← g.find]; exact hi)))
      simp only [oneByOne, does, wins, List.filter_cons, hfalse] at this ⊢
      simpa using this
    · have := ih s hl' ha
      rw [oneByOne]
      · simpa [wins, List.filter_cons] using this
      · intro e; exact h e

theorem one_win (cfg : Cfg) (n : List UInt8) : ∀ (l : List (Nat × Req × Rc)) (s : St), (∀ e ∈ l, IsLogin n e.2.1) →
    wins (oneByOne cfg s l).1 ≤ 1 := by
  intro l
  induction l with
  | nil => intro s _; exact Nat.zero_le _
  | cons e l ih =>
    intro s hl
    obtain ⟨x, r, rc⟩ := e
    have hl' := fun e he => hl e (List.mem_cons_of_mem _ he)
    obtain ⟨m, d, hr⟩ := hl _ (List.mem_cons_self ..)
    dsimp only at hr
    subst hr
    by_cases h : rc = .ok
    · subst h
      obtain ⟨g, hw⟩ := login_grows cfg s x m n d
      cases ht : (login cfg s x m n d).1.2 with
      | false =>
        have := ih (login cfg s x m n d).2 hl'
        simp only [oneByOne, does, wins, List.filter_cons, ht] at this ⊢
        simpa using this
      | true =>
        obtain ⟨i, h1, -, h3⟩ := hw ht
        have := no_win cfg n l (login cfg s x m n d).2 hl' (fun j hj => by
          rw [g.find, h1] at hj
          obtain rfl := Option.some.inj hj
          exact h3)
        simp only [oneByOne, does, wins, List.filter_cons, ht] at this ⊢
        simp only [if_true, List.length_cons]
        omega
    · have := ih s hl'
      rw [oneByOne]
      · simpa [wins, List.filter_cons] using this
      · intro e; exact h e

end WolfHsm.AuthThreads

import Verif.Proofs.Stack

/-! # The stack: what an accepted sequence looks like -/

namespace WolfHsm.Stack

variable {R : Type} {c : Cfg R} {le : Bool}

/-- Nothing of a new request, no response, no reply. -/
def Still (limit : Nat) (o : Obs R) : Prop := o.isAsked = false ∧ o.answers limit = false ∧ o.isReply = false

/-- What has happened when the turn is `t`. -/
def Story (c : Cfg R) (le : Bool) (d0 : Server.Dev R) (os : List (Obs R)) : Turn → Prop
  | .none => True
  | .asked kind data _ => ∃ a b, os = a ++ .asked kind data :: b ∧ ∀ o ∈ b, Still c.limit o
  | .done kind resp w => ∃ a b data d r d' b', os = a ++ .asked kind data :: (b ++ .ran d kind r resp d' :: b') ∧
      (∀ o ∈ b, Still c.limit o) ∧ (∀ o ∈ b', o.isAsked = false ∧ o.answers c.limit = false) ∧
      (w = true → ∀ o ∈ b', o.isReply = false) ∧ Carries c le kind data r ∧ Server.answer c.srv d c.x kind r = (resp, d') ∧
      resp.length ≤ c.limit ∧ d = devAfter d0 (a ++ .asked kind data :: b)

theorem devAfter_append (d : Server.Dev R) (as bs : List (Obs R)) : devAfter d (as ++ bs) = devAfter (devAfter d as) bs := by
  induction as generalizing d with
  | nil => rfl
  | cons o os ih => exact ih _

theorem next_dev {s s' : Turn × Server.Dev R} {o : Obs R} (h : Next c le s o s') : s'.2 = devNext s.2 o := by
  cases h <;> rfl

theorem accepts_dev {s s' : Turn × Server.Dev R} {os : List (Obs R)} (h : Accepts c le s os s') : s'.2 = devAfter s.2 os := by
  induction os generalizing s with
  | nil => cases h; rfl
  | cons o os ih =>
    obtain ⟨s1, h1, h2⟩ := h
    rw [ih h2, next_dev h1]; rfl

theorem story_next {d0 : Server.Dev R} {os : List (Obs R)} {s s' : Turn × Server.Dev R} {o : Obs R} (hd : s.2 = devAfter d0 os)
    (h : Story c le d0 os s.1) (hn : Next c le s o s') : Story c le d0 (os ++ [o]) s'.1 := by
  have keep : ∀ t : Turn, Still c.limit o → Story c le d0 os t → Story c le d0 (os ++ [o]) t := by
    intro t ho h
    cases t with
    | none => trivial
    | asked k d w =>
      obtain ⟨a, b, e, hb⟩ := h
      refine ⟨a, b ++ [o], by rw [e]; simp, ?_⟩
      intro o' ho'
      rcases List.mem_append.mp ho' with h' | h'
      · exact hb _ h'
      · rw [List.mem_singleton.mp h']; exact ho
    | done k resp w =>
      obtain ⟨a, b, data, d, r, d', b', e, h1, h2, h3, h4⟩ := h
      refine ⟨a, b, data, d, r, d', b' ++ [o], by rw [e]; simp, h1, ?_, ?_, h4⟩
      · intro o' ho'
        rcases List.mem_append.mp ho' with h' | h'
        · exact h2 _ h'
        · rw [List.mem_singleton.mp h']; exact ⟨ho.1, ho.2.1⟩
      · intro hw o' ho'
        rcases List.mem_append.mp ho' with h' | h'
        · exact h3 hw _ h'
        · rw [List.mem_singleton.mp h']; exact ho.2.2
  cases hn with
  | ask kind data _ => exact ⟨os, [], rfl, fun _ h => by cases h⟩
  | run r hc ha hl =>
    obtain ⟨a, b, e, hb⟩ := h
    refine ⟨a, b, _, _, r, _, [], by rw [e]; simp, hb, (fun _ h => by cases h), (fun _ _ h => by cases h), hc, ha, hl, ?_⟩
    rw [← e]; exact hd
  | again r hc ha hl => exact keep _ ⟨rfl, decide_eq_false (by omega), rfl⟩ h
  | reply g h1 h2 h3 =>
    obtain ⟨a, b, data, d, r, d', b', e, h1, h2, h3, h4⟩ := h
    refine ⟨a, b, data, d, r, d', b' ++ [.got g], by rw [e]; simp, h1, ?_, (fun h => by cases h), h4⟩
    intro o' ho'
    rcases List.mem_append.mp ho' with h' | h'
    · exact h2 _ h'
    · rw [List.mem_singleton.mp h']; exact ⟨rfl, rfl⟩
  | nothing g hg => exact keep _ ⟨rfl, rfl, by cases hx : g.rc <;> simp_all [Obs.isReply]⟩ h
  | refused rc _ => exact keep _ ⟨rfl, rfl, rfl⟩ h
  | @giveUp t d =>
    have h' := keep t ⟨rfl, rfl, rfl⟩ h
    cases t with
    | none => trivial
    | asked k d w => exact h'
    | done k resp w =>
      obtain ⟨a, b, data, d, r, d', b', e, h1, h2, h3, h4⟩ := h'
      exact ⟨a, b, data, d, r, d', b', e, h1, h2, (fun h => by cases h), h4⟩
  | change d' => exact keep _ ⟨rfl, rfl, rfl⟩ h

theorem story_accepts {d0 : Server.Dev R} {bs : List (Obs R)} : ∀ {as : List (Obs R)} {s s' : Turn × Server.Dev R},
    s.2 = devAfter d0 as → Story c le d0 as s.1 → Accepts c le s bs s' → Story c le d0 (as ++ bs) s'.1 := by
  induction bs with
  | nil => intro as s s' _ h ha; cases ha; rw [List.append_nil]; exact h
  | cons o os ih =>
    intro as s s' hd h ⟨s1, hn, ha⟩
    have := ih (as := as ++ [o]) (by rw [next_dev hn, devAfter_append, ← hd]; rfl) (story_next hd h hn) ha
    rwa [List.append_assoc] at this

/-- What precedes an observation. -/
theorem story_before {d0 : Server.Dev R} {pre post : List (Obs R)} {o : Obs R} {s' : Turn × Server.Dev R}
    (h : Accepts c le (.none, d0) (pre ++ o :: post) s') :
    ∃ t s1, Next c le (t, devAfter d0 pre) o s1 ∧ Story c le d0 pre t ∧ Accepts c le s1 post s' := by
  obtain ⟨⟨t, d⟩, ha, s1, hn, hp⟩ := accepts_append.mp h
  have hd : d = devAfter d0 pre := accepts_dev ha
  subst hd
  have := story_accepts (d0 := d0) (as := []) (s := (.none, d0)) rfl trivial ha
  exact ⟨t, s1, hn, this, hp⟩

end WolfHsm.Stack

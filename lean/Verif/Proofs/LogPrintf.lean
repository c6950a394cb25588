import Verif.Spec.LogPrintf
import Verif.Proofs.Log

/-!
# Proofs about the printed log
-/

namespace WolfHsm.LogPrintf

open Log

theorem split_at {c : UInt8} : ∀ {a b x y : List UInt8}, c ∉ a → c ∉ b → a ++ c :: x = b ++ c :: y → a = b ∧ x = y := by
  intro a
  induction a with
  | nil =>
    intro b x y _ hb h
    cases b with
    | nil => exact ⟨rfl, (List.cons.inj h).2⟩
    | cons d b =>
      have := (List.cons.inj h).1
      subst this
      exact absurd (List.mem_cons_self ..) hb
  | cons d a ih =>
    intro b x y ha hb h
    cases b with
    | nil =>
      have := (List.cons.inj h).1
      subst this
      exact absurd (List.mem_cons_self ..) ha
    | cons d' b =>
      obtain ⟨h1, h2⟩ := List.cons.inj h
      obtain ⟨h3, h4⟩ := ih (fun hx => ha (List.mem_cons_of_mem _ hx)) (fun hx => hb (List.mem_cons_of_mem _ hx)) h2
      exact ⟨by rw [h1, h3], h4⟩

theorem dec_free {n : Nat} (h : n < 2 ^ 64) {c : UInt8} (hc : isDigit c = false) : c ∉ dec n := fun hm => by
  rw [(dec_ok h).1 c hm] at hc
  cases hc

theorem dec_inj {n m : Nat} (hn : n < 2 ^ 64) (hm : m < 2 ^ 64) (h : dec n = dec m) : n = m := by
  rw [← (dec_ok hn).2.1, h, (dec_ok hm).2.1]

theorem level_free (l : Nat) : (93 : UInt8) ∉ levelName l := by
  unfold levelName
  repeat' split
  all_goals decide

theorem level_inj {l m : Nat} (hl : l ≤ 2) (hm : m ≤ 2) (h : levelName l = levelName m) : l = m := by
  have : ∀ a : Fin 3, ∀ b : Fin 3, levelName a.1 = levelName b.1 → a = b := by decide
  exact congrArg Fin.val (this ⟨l, by omega⟩ ⟨m, by omega⟩ h)

theorem text_eq {max : Nat} {e : Entry} (h : Clear max e) (x : List UInt8) : text max e ++ x =
    91 :: (dec e.timestamp.toNat ++ 93 :: (32 :: 91 :: (levelName e.level ++ 93 :: (32 :: 91 :: ((shown e).file ++ 58 ::
      (dec e.line.toNat ++ 32 :: ((shown e).function ++ 93 :: (32 :: ((shown e).message ++ 10 :: x))))))))) := by
  unfold text shown
  rw [if_pos h.fits]
  simp

theorem text_inj {max : Nat} {e f : Entry} (he : Clear max e) (hf : Clear max f) {x y : List UInt8}
    (h : text max e ++ x = text max f ++ y) : shown e = shown f ∧ x = y := by
  rw [text_eq he, text_eq hf] at h
  have b1 := e.timestamp.toNat_lt
  have b2 := f.timestamp.toNat_lt
  have b3 : e.line.toNat < 2 ^ 64 := Nat.lt_trans e.line.toNat_lt (by decide)
  have b4 : f.line.toNat < 2 ^ 64 := Nat.lt_trans f.line.toNat_lt (by decide)
  obtain ⟨t, h⟩ := split_at (dec_free b1 (by decide)) (dec_free b2 (by decide)) (List.cons.inj h).2
  obtain ⟨l, h⟩ := split_at (level_free _) (level_free _) (List.cons.inj (List.cons.inj h).2).2
  obtain ⟨a, h⟩ := split_at he.file hf.file (List.cons.inj (List.cons.inj h).2).2
  obtain ⟨n, h⟩ := split_at (dec_free b3 (by decide)) (dec_free b4 (by decide)) h
  obtain ⟨g, h⟩ := split_at he.function hf.function h
  obtain ⟨m, h⟩ := split_at he.message hf.message (List.cons.inj h).2
  refine ⟨?_, h⟩
  have t' : e.timestamp = f.timestamp := UInt64.toNat_inj.mp (dec_inj b1 b2 t)
  have n' : e.line = f.line := UInt32.toNat_inj.mp (dec_inj b3 b4 n)
  have l' := level_inj he.level hf.level l
  unfold shown at a g m ⊢
  dsimp only at a g m ⊢
  rw [t', n', l', a, g, m]

theorem texts_inj {max : Nat} : ∀ {es fs : List Entry}, (∀ e ∈ es, Clear max e) → (∀ e ∈ fs, Clear max e) →
    (es.map (text max)).flatten = (fs.map (text max)).flatten → es.map shown = fs.map shown := by
  intro es
  induction es with
  | nil =>
    intro fs _ _ h
    cases fs with
    | nil => rfl
    | cons f fs => simp [text] at h
  | cons e es ih =>
    intro fs he hf h
    cases fs with
    | nil => simp [text] at h
    | cons f fs =>
      simp only [List.map_cons, List.flatten_cons] at h
      obtain ⟨h1, h2⟩ := text_inj (he e (List.mem_cons_self ..)) (hf f (List.mem_cons_self ..)) h
      rw [List.map_cons, List.map_cons, h1, ih (fun x hx => he x (List.mem_cons_of_mem _ hx))
        (fun x hx => hf x (List.mem_cons_of_mem _ hx)) h2]

/-- The state of the context that belongs to what was asked last. -/
def after : Option (Option Bool) → Ctx
  | none => ⟨false, false⟩
  | some o => init o

theorem run_visible (max : Nat) (debug : Bool) : ∀ (ops : List Op) (st : Option (Option Bool)),
    (run max debug (after st) ops).2 = ((visible debug st ops).map (text max)).flatten := by
  intro ops
  induction ops with
  | nil => intro st; simp [run, visible]
  | cons op ops ih =>
    intro st
    cases op with
    | init o => simpa [run, visible, after] using ih (some o)
    | add e =>
      cases st with
      | none => simpa [run, visible, after, addEntry] using ih none
      | some o =>
        have := ih (some o)
        rcases o with _ | _ | _ <;> cases debug <;> simpa [run, visible, after, addEntry, init] using this

end WolfHsm.LogPrintf

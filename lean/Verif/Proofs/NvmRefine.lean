import Verif.Spec.NvmRefine
import Verif.Proofs.NvmInv

/-! # The flash NVM refines the object map -/

namespace WolfHsm.NvmRefine

open NvmFlash Flash

variable {c : Cfg} {Q A S : Type}

/-- The object map explains what the media would show after a restart. -/
def MediaOk (c : Cfg) (n : Nvm) (m : Mem) : Prop :=
  Boots c m n.store ∨ ∃ md d, n.pending = some (md, d) ∧ Boots c m (n.store.set md d)

/-- The object map explains the device. -/
def Rel (c : Cfg) (n : Nvm) (k : Nat) : PState → Prop
  | .off m => OffInv c k m ∧ MediaOk c n m
  | .on ctx m => OnInv c true k ctx m ∧ n.powered = true ∧ Shows c ctx m n.store ∧ MediaOk c n m

theorem OffInv.succ {k : Nat} {m : Mem} (h : OffInv c k m) : OffInv c (k + 1) m := by
  rcases h with h | ⟨b, e, slots, he, hg⟩
  · exact .inl h
  · exact .inr ⟨b, e, slots, Nat.le_succ_of_le he, hg⟩

theorem OnInv.off {k : Nat} {ctx : Ctx} {m : Mem} (h : OnInv c true k ctx m) : OffInv c k m := by
  obtain ⟨b, e, slots, tail, he, hg, -⟩ := h
  exact .inr ⟨b, e, _, he, hg⟩

theorem Rel.off {n : Nvm} {k : Nat} {s : PState} (h : Rel c n k s) :
    OffInv c k (memOf s) ∧ MediaOk c n (memOf s) := by
  cases s with
  | off m => exact h
  | on ctx m => exact ⟨OnInv.off h.1, h.2.2.2⟩

/-- What `Init` does, with failing write commands. -/
theorem init_full (hwf : c.WF) {k : Nat} {m : Mem} (h : OffInv c k m) {f : Store}
    (hf : Boots c m f) :
    wp c.dev (wrFaults true) (init c)
      (fun r m' => (r.1 = .ok → OnInv c true k r.2 m' ∧ Shows c r.2 m' f ∧ Boots c m' f) ∧
        (r.1 ≠ .ok → OffInv c k m' ∧ Boots c m' f))
      (fun m' => OffInv c k m' ∧ Boots c m' f) m := by
  rcases h with hn | ⟨b, e, slots, he, hg⟩
  · have he := (boots_blank hwf hn).unique hf
    subst he
    apply wp_init_blank hwf rfl hn
    · rintro m' (h | h)
      · exact ⟨.inl h, boots_blank hwf h⟩
      · exact ⟨.inr ⟨_, _, _, Nat.zero_le _, h⟩, boots_good hwf h⟩
    · intro ctx m' hg hctx _
      exact ⟨fun _ => ⟨⟨_, _, [], [], Nat.zero_le _, hg, hctx, fun _ => rfl, .inl rfl⟩,
        shows_of (slots' := []) hwf (by simpa using hg.rep) hctx, boots_good hwf hg⟩,
        fun h => absurd rfl h⟩
    · rintro - rc ctx m' hrc (h | h)
      · exact ⟨fun h' => absurd h' hrc, fun _ => ⟨.inl h, boots_blank hwf h⟩⟩
      · exact ⟨fun h' => absurd h' hrc, fun _ => ⟨.inr ⟨_, _, _, Nat.zero_le _, h⟩, boots_good hwf h⟩⟩
  · have hv := (boots_good hwf hg).unique hf
    subst hv
    apply wp_init_good hwf rfl hg
    · exact ⟨.inr ⟨b, e, slots, he, hg⟩, hf⟩
    · intro ctx hctx _
      exact ⟨fun _ => ⟨⟨b, e, slots, [], he, by simpa using hg, hctx, fun _ => rfl, .inl rfl⟩,
        shows_of (slots' := []) hwf (by simpa using hg.rep) hctx, hf⟩, fun h => absurd rfl h⟩

/-- What `Read` does, with failing driver calls. -/
theorem read_full (hwf : c.WF) {k : Nat} {ctx : Ctx} {m : Mem} (h : OnInv c true k ctx m)
    {f : Store} (hf : Shows c ctx m f) (id : UInt16) (off len : Nat) :
    wp c.dev ⟨true, true⟩ (readObject c ctx id off len)
      (fun r m' => m' = m ∧ (r = f.slice id off len ∨ r.1 ≠ .ok)) (fun m' => m' = m) m := by
  obtain ⟨b, e, slots, tail, he, hg, hctx, -, -⟩ := h
  have hfv : f = view slots := hf.unique (shows_of hwf hg.rep hctx)
  subst hfv
  apply wp_readObject hwf hg.rep hctx (C := fun m' => m' = m) rfl
  · intro h; exact ⟨rfl, .inr (by simp)⟩
  · intro md data h hl
    constructor
    · intro h1 h2; exact ⟨rfl, .inl (by simp [Store.slice, h, h1, h2])⟩
    · intro h1; exact ⟨rfl, .inr (by simp)⟩
  · intro _ rc bs hrc; exact ⟨rfl, .inr hrc⟩

/-- After a power loss nothing changes any more. -/
theorem onMap_off {α : Type} (p : NP α) : ∀ {n : Nvm}, n.powered = false → (p.onMap n).2 = n := by
  induction p with
  | ret a => intro n _; rfl
  | add md d k ih =>
    intro n h
    have e : n.add md d = (.aborted, n) := by simp [Nvm.add, h]
    simp only [NP.onMap, e]; exact ih _ h
  | addReclaim md d k ih =>
    intro n h
    have e : n.addWithReclaim md d = (.aborted, n) := by simp [Nvm.addWithReclaim, Nvm.destroy, h]
    simp only [NP.onMap, e]; exact ih _ h
  | destroy ids k ih =>
    intro n h
    have e : n.destroy ids = (.aborted, n) := by simp [Nvm.destroy, h]
    simp only [NP.onMap, e]; exact ih _ h
  | read id off len k ih =>
    intro n h
    have e : n.read id off len = ((.aborted, []), n) := by simp [Nvm.read, h]
    simp only [NP.onMap, e]; exact ih _ _ h
  | info id k ih => intro n h; simp only [NP.onMap]; exact ih _ _ h

/-- The map with other outcomes. -/
abbrev withOuts (n : Nvm) (outs : Nat → Out) : Nvm := { n with outs := outs }

/-- The outcomes agree with those of `n` for the calls already made. -/
def Agree (n : Nvm) (outs : Nat → Out) : Prop := ∀ i, i < n.tick → outs i = n.outs i

/-- Fix the outcome of the next call. -/
def force (n : Nvm) (x : Out) : Nat → Out := fun i => if i = n.tick then x else n.outs i

/-- The execution on the map explains an execution on the flash. -/
structure Sim (c : Cfg) {α : Type} (p : NP α) (n : Nvm) (o : Option α) (k : Nat) (s : PState)
    (outs : Nat → Out) : Prop where
  agree : Agree n outs
  ans : ∀ a, o = some a → (p.onMap (withOuts n outs)).1 = a ∧
    (p.onMap (withOuts n outs)).2.powered = true
  rel : Rel c (p.onMap (withOuts n outs)).2 k s
  outs_eq : (p.onMap (withOuts n outs)).2.outs = outs

/-- The call with outcome `x` leads to `n'`, with the answer `r`. -/
def Leads {ρ : Type} (op : Nvm → ρ × Nvm) (n : Nvm) (x : Out) (r : ρ) (n' : Nvm) : Prop :=
  n'.tick = n.tick + 1 ∧ n'.outs = force n x ∧
    ∀ outs, outs n.tick = x → op (withOuts n outs) = (r, withOuts n' outs)

theorem Leads.agree {ρ : Type} {op : Nvm → ρ × Nvm} {n n' : Nvm} {x : Out} {r : ρ}
    (h : Leads op n x r n') {outs : Nat → Out} (ha : Agree n' outs) :
    Agree n outs ∧ outs n.tick = x := by
  have h0 := ha n.tick (by rw [h.1]; omega)
  constructor
  · intro i hi
    rw [ha i (by rw [h.1]; omega), h.2.1]
    simp only [force]
    rw [if_neg (by omega)]
  · rw [h0, h.2.1]; simp [force]

theorem leads_add_ok {n : Nvm} (hp : n.powered = true) (md : Meta) (d : List UInt8) :
    Leads (·.add md d) n .ok .ok
      ⟨n.store.set md d, none, true, force n .ok, n.tick + 1⟩ := by
  refine ⟨rfl, rfl, fun outs h => ?_⟩
  simp [Nvm.add, hp, h]

theorem leads_add_fail {n : Nvm} (hp : n.powered = true) (md : Meta) (d : List UInt8) {rc : Rc}
    (hrc : rc ≠ .ok) (b : Bool) :
    Leads (·.add md d) n (.fail rc b) rc
      ⟨n.store, if b then some (md, d) else n.pending, true, force n (.fail rc b), n.tick + 1⟩ := by
  refine ⟨rfl, rfl, fun outs h => ?_⟩
  cases b <;> simp [Nvm.add, hp, h, errRc, hrc]

theorem leads_add_cut {n : Nvm} (hp : n.powered = true) (md : Meta) (d : List UInt8) (b : Bool) :
    Leads (·.add md d) n (.cut b) .aborted
      ⟨if b then n.store.set md d else n.store, if b then none else n.pending, false,
        force n (.cut b), n.tick + 1⟩ := by
  refine ⟨rfl, rfl, fun outs h => ?_⟩
  cases b <;> simp [Nvm.add, hp, h]

theorem leads_destroy_ok {n : Nvm} (hp : n.powered = true) (ids : List UInt16) :
    Leads (·.destroy ids) n .ok .ok
      ⟨n.store.drop ids, if ids.all (fun id => (n.store id).isNone) then n.pending else none, true,
        force n .ok, n.tick + 1⟩ := by
  refine ⟨rfl, rfl, fun outs h => ?_⟩
  simp only [Nvm.destroy, hp, if_true, h]
  split
  · rename_i ha
    have : n.store.drop ids = n.store := by
      funext id
      unfold Store.drop
      split
      · rename_i hi
        have := List.all_eq_true.mp ha id hi
        simp only [Option.isNone_iff_eq_none] at this
        exact this.symm
      · rfl
    simp [this, withOuts]
  · simp [withOuts]

theorem leads_destroy_fail {n : Nvm} (hp : n.powered = true) (ids : List UInt16) {rc : Rc}
    (hrc : rc ≠ .ok) (b : Bool) :
    Leads (·.destroy ids) n (.fail rc b) rc
      ⟨if b then n.store.drop ids else n.store, if b then none else n.pending, true,
        force n (.fail rc b), n.tick + 1⟩ := by
  refine ⟨rfl, rfl, fun outs h => ?_⟩
  cases b <;> simp [Nvm.destroy, hp, h, errRc, hrc]

theorem leads_destroy_cut {n : Nvm} (hp : n.powered = true) (ids : List UInt16) (b : Bool) :
    Leads (·.destroy ids) n (.cut b) .aborted
      ⟨if b then n.store.drop ids else n.store, if b then none else n.pending, false,
        force n (.cut b), n.tick + 1⟩ := by
  refine ⟨rfl, rfl, fun outs h => ?_⟩
  cases b <;> simp [Nvm.destroy, hp, h]

theorem leads_read_ok {n : Nvm} (hp : n.powered = true) (id : UInt16) (off len : Nat) :
    Leads (·.read id off len) n .ok (n.store.slice id off len)
      ⟨n.store, n.pending, true, force n .ok, n.tick + 1⟩ := by
  refine ⟨rfl, rfl, fun outs h => ?_⟩
  simp [Nvm.read, hp, h]

theorem leads_read_fail {n : Nvm} (hp : n.powered = true) (id : UInt16) (off len : Nat) {rc : Rc}
    (hrc : rc ≠ .ok) :
    Leads (·.read id off len) n (.fail rc false) (rc, [])
      ⟨n.store, n.pending, true, force n (.fail rc false), n.tick + 1⟩ := by
  refine ⟨rfl, rfl, fun outs h => ?_⟩
  simp [Nvm.read, hp, h, errRc, hrc]

/-! ## Combining steps -/

theorem Sim.lead {α ρ : Type} {p p' : NP α} {op : Nvm → ρ × Nvm} {n n' : Nvm} {x : Out} {r : ρ}
    {o : Option α} {k : Nat} {s : PState} {outs : Nat → Out} (hl : Leads op n x r n')
    (h : Sim c p' n' o k s outs)
    (he : ∀ N N', op N = (r, N') → p.onMap N = p'.onMap N') : Sim c p n o k s outs := by
  obtain ⟨h1, h2⟩ := hl.agree h.agree
  have e := he _ _ (hl.2.2 outs h2)
  exact ⟨h1, by rw [e]; exact h.ans, by rw [e]; exact h.rel, by rw [e]; exact h.outs_eq⟩

theorem Sim.cutOff {α : Type} {p : NP α} {n : Nvm} {k : Nat} {m : Mem} (hp : n.powered = false)
    (hr : OffInv c k m ∧ MediaOk c n m) : Sim c p n none k (.off m) n.outs := by
  have e : (p.onMap (withOuts n n.outs)).2 = n := onMap_off p hp
  exact ⟨fun _ _ => rfl, (fun _ h => by cases h), by rw [e]; exact hr, by rw [e]⟩

/-- Power is lost at the next call. -/
theorem cut_next {α : Type} (p : NP α) : ∀ {n : Nvm}, (∀ i, n.tick ≤ i → n.outs i = .cut false) →
    (p.onMap n).2.store = n.store ∧ (p.onMap n).2.pending = n.pending ∧
      (p.onMap n).2.outs = n.outs := by
  induction p with
  | ret a => intro n _; exact ⟨rfl, rfl, rfl⟩
  | add md d k ih =>
    intro n h
    by_cases hp : n.powered = true
    · have e : n.add md d = (.aborted, { n with powered := false, tick := n.tick + 1 }) := by
        simp [Nvm.add, hp, h n.tick (Nat.le_refl _)]
      simp only [NP.onMap, e]
      rw [onMap_off _ rfl]
      exact ⟨rfl, rfl, rfl⟩
    · rw [onMap_off _ (by simpa using hp)]
      exact ⟨rfl, rfl, rfl⟩
  | addReclaim md d k ih =>
    intro n h
    by_cases hp : n.powered = true
    · have e : n.addWithReclaim md d = (.aborted, { n with powered := false, tick := n.tick + 1 }) := by
        simp [Nvm.addWithReclaim, Nvm.destroy, hp, h n.tick (Nat.le_refl _)]
      simp only [NP.onMap, e]
      rw [onMap_off _ rfl]
      exact ⟨rfl, rfl, rfl⟩
    · rw [onMap_off _ (by simpa using hp)]
      exact ⟨rfl, rfl, rfl⟩
  | destroy ids k ih =>
    intro n h
    by_cases hp : n.powered = true
    · have e : n.destroy ids = (.aborted, { n with powered := false, tick := n.tick + 1 }) := by
        simp [Nvm.destroy, hp, h n.tick (Nat.le_refl _)]
      simp only [NP.onMap, e]
      rw [onMap_off _ rfl]
      exact ⟨rfl, rfl, rfl⟩
    · rw [onMap_off _ (by simpa using hp)]
      exact ⟨rfl, rfl, rfl⟩
  | read id off len k ih =>
    intro n h
    by_cases hp : n.powered = true
    · have e : n.read id off len =
          ((.aborted, []), { n with powered := false, tick := n.tick + 1 }) := by
        simp [Nvm.read, hp, h n.tick (Nat.le_refl _)]
      simp only [NP.onMap, e]
      rw [onMap_off _ rfl]
      exact ⟨rfl, rfl, rfl⟩
    · rw [onMap_off _ (by simpa using hp)]
      exact ⟨rfl, rfl, rfl⟩
  | info id k ih => intro n h; simp only [NP.onMap]; exact ih _ _ h

theorem MediaOk.congr {n n' : Nvm} {m : Mem} (h : MediaOk c n m) (h1 : n'.store = n.store)
    (h2 : n'.pending = n.pending) : MediaOk c n' m := by
  unfold MediaOk; rw [h1, h2]; exact h

theorem reclaim_unfold {α : Type} (md : Meta) (d : List UInt8) (k : Rc → NP α) (n : Nvm) :
    (NP.addReclaim md d k).onMap n =
      (NP.destroy [] fun rc => if rc = .ok then .add md d k else k rc).onMap n := by
  simp only [NP.onMap, Nvm.addWithReclaim]
  rcases h : n.destroy [] with ⟨rc, n'⟩
  cases rc <;> simp [NP.onMap]

/-- Every execution on the flash is explained by one on the map. -/
theorem sim (hwf : c.WF) {α : Type} {p : NP α} {k : Nat} {ctx : Ctx} {m : Mem} {o : Option α}
    {k' : Nat} {s : PState} (h : p.OnFlash c k ctx m o k' s) :
    ∀ {n : Nvm}, Rel c n k (.on ctx m) → ∃ outs, Sim c p n o k' s outs := by
  induction h with
  | ret =>
    intro n h
    exact ⟨n.outs, fun _ _ => rfl, fun a ha => ⟨by cases ha; rfl, h.2.1⟩, h, rfl⟩
  | @cut p k ctx m =>
    intro n h
    let outs : Nat → Out := fun i => if i < n.tick then n.outs i else .cut false
    obtain ⟨h1, h2, h3⟩ := cut_next p (n := withOuts n outs)
      (fun i hi => by
        show (if i < n.tick then n.outs i else .cut false) = _
        rw [if_neg (Nat.not_lt.mpr hi)])
    exact ⟨outs, fun i hi => if_pos hi, (fun _ h => by cases h),
      ⟨h.off.1, h.off.2.congr h1 h2⟩, h3⟩
  | @add md data f k ctx m rc ctx' m' o k' s hl hx _ ih =>
    intro n ⟨hi, hp, hs, hm⟩
    have key : ∀ fD, Boots c m fD → (fD = n.store ∨ ∃ md d, n.pending = some (md, d) ∧
        fD = n.store.set md d) → ∃ outs, Sim c (.add md data f) n o k' s outs := by
      intro fD hD hfD
      have hw := wp_adequate hx (add_wp hwf hi hl hs hD Shows.unique Boots.unique)
      dsimp only [Post] at hw
      by_cases hrc : rc = .ok
      · subst hrc
        obtain ⟨outs, h⟩ := ih (n := ⟨n.store.set md data, none, true, force n .ok, n.tick + 1⟩)
          ⟨hw.1, rfl, (hw.2.1 rfl).2.1, .inl (hw.2.1 rfl).2.2⟩
        exact ⟨outs, h.lead (leads_add_ok hp md data) fun N N' e => by simp only [NP.onMap, e]⟩
      · obtain ⟨h1, h2⟩ := hw.2.2.1 hrc
        have fin : ∀ b, MediaOk c ⟨n.store, if b then some (md, data) else n.pending, true,
            force n (.fail rc b), n.tick + 1⟩ m' → ∃ outs, Sim c (.add md data f) n o k' s outs := by
          intro b hb
          obtain ⟨outs, h⟩ := ih (n := ⟨n.store, if b then some (md, data) else n.pending, true,
            force n (.fail rc b), n.tick + 1⟩) ⟨hw.1, rfl, h1, hb⟩
          exact ⟨outs, h.lead (leads_add_fail hp md data hrc b) fun N N' e => by simp only [NP.onMap, e]⟩
        rcases h2 with h2 | ⟨h2, h3⟩
        · refine fin false ?_
          rcases hfD with rfl | ⟨md', d', hpd, rfl⟩
          · exact .inl h2
          · exact .inr ⟨md', d', hpd, h2⟩
        · subst h2
          exact fin true (.inr ⟨md, data, rfl, h3⟩)
    rcases hm with hm | ⟨md', d', hpd, hm⟩
    · exact key _ hm (.inl rfl)
    · exact key _ hm (.inr ⟨md', d', hpd, rfl⟩)
  | @addCut md data f k ctx m m' hl hx =>
    intro n ⟨hi, hp, hs, hm⟩
    have key : ∀ fD, Boots c m fD → (fD = n.store ∨ ∃ md d, n.pending = some (md, d) ∧
        fD = n.store.set md d) → ∃ outs, Sim c (.add md data f) n none k (.off m') outs := by
      intro fD hD hfD
      have hw := wp_adequate hx (add_wp hwf hi hl hs hD Shows.unique Boots.unique)
      dsimp only [Post] at hw
      have fin : ∀ b, MediaOk c ⟨if b then n.store.set md data else n.store,
          if b then none else n.pending, false, force n (.cut b), n.tick + 1⟩ m' →
          ∃ outs, Sim c (.add md data f) n none k (.off m') outs := by
        intro b hb
        exact ⟨_, (Sim.cutOff (p := f .aborted) rfl ⟨hw.1, hb⟩).lead (leads_add_cut hp md data b)
          fun N N' e => by simp only [NP.onMap, e]⟩
      rcases hw.2 with h2 | ⟨h2, h3⟩
      · refine fin false ?_
        rcases hfD with rfl | ⟨md', d', hpd, rfl⟩
        · exact .inl h2
        · exact .inr ⟨md', d', hpd, h2⟩
      · subst h2
        exact fin true (.inl h3)
    rcases hm with hm | ⟨md', d', hpd, hm⟩
    · exact key _ hm (.inl rfl)
    · exact key _ hm (.inr ⟨md', d', hpd, rfl⟩)
  | @addReclaim md data f k ctx m o k' s _ ih =>
    intro n h
    have hp := h.2.1
    rw [show NP.reclaiming c ctx md data f = _ from rfl] at ih
    have err : ∀ rc, rc ≠ .ok → (NP.reclaiming c ctx md data f = f rc) →
        ∃ outs, Sim c (.addReclaim md data f) n o k' s outs := by
      intro rc hrc he
      rw [he] at ih
      obtain ⟨outs, h⟩ := ih (n := ⟨n.store, n.pending, true, force n (.fail rc false), n.tick + 1⟩)
        ⟨h.1, rfl, h.2.2.1, h.2.2.2.congr rfl rfl⟩
      refine ⟨outs, h.lead (leads_destroy_fail hp [] hrc false) fun N N' e => ?_⟩
      rw [reclaim_unfold]
      simp only [NP.onMap, e, if_neg hrc]
    have pass : NP.reclaiming c ctx md data f = .add md data f →
        ∃ outs, Sim c (.addReclaim md data f) n o k' s outs := by
      intro he
      rw [he] at ih
      obtain ⟨outs, h⟩ := ih (n := ⟨n.store.drop [], if ([] : List UInt16).all
          (fun id => (n.store id).isNone) then n.pending else none, true, force n .ok, n.tick + 1⟩)
        (by
          have e : n.store.drop [] = n.store := by funext id; simp [Store.drop]
          rw [e]
          exact ⟨h.1, rfl, h.2.2.1, h.2.2.2.congr rfl rfl⟩)
      refine ⟨outs, h.lead (leads_destroy_ok hp []) fun N N' e => ?_⟩
      rw [reclaim_unfold]
      simp only [NP.onMap, e, if_true]
    rcases hg : NvmFlash.getAvailable c ctx with ⟨rc, a, b, d, e⟩
    have hu : NP.reclaiming c ctx md data f = (if rc ≠ .ok then f rc
        else if a < data.length ∨ b = 0 then
          if a + d ≥ data.length ∧ b + e > 0 then
            .destroy [] fun rc => if rc = .ok then .add md data f else f rc
          else f .nospace
        else .add md data f) := by
      unfold NP.reclaiming; rw [hg]
    by_cases hrc : rc = .ok
    · rw [if_neg (by simpa using hrc)] at hu
      by_cases h1 : a < data.length ∨ b = 0
      · rw [if_pos h1] at hu
        by_cases h2 : a + d ≥ data.length ∧ b + e > 0
        · rw [if_pos h2] at hu
          rw [hu] at ih
          obtain ⟨outs, h⟩ := ih h
          refine ⟨outs, h.agree, ?_, ?_, ?_⟩
          · rw [reclaim_unfold]; exact h.ans
          · rw [reclaim_unfold]; exact h.rel
          · rw [reclaim_unfold]; exact h.outs_eq
        · rw [if_neg h2] at hu
          exact err _ (by simp) hu
      · rw [if_neg h1] at hu
        exact pass hu
    · rw [if_pos hrc] at hu
      exact err _ hrc hu
  | @destroy ids f k ctx m ctx' m' o k' s hn hx _ ih =>
    intro n ⟨hi, hp, hs, hm⟩
    have key : ∀ fD, Boots c m fD → (fD = n.store ∨ ∃ md d, n.pending = some (md, d) ∧
        fD = n.store.set md d) → ∃ outs, Sim c (.destroy ids f) n o k' s outs := by
      intro fD hD hfD
      have hw := (wp_adequate hx (destroy_wp hwf hi hn hs hD Shows.unique Boots.unique)).1 rfl
      obtain ⟨outs, h⟩ := ih (n := ⟨n.store.drop ids, if ids.all (fun id => (n.store id).isNone)
          then n.pending else none, true, force n .ok, n.tick + 1⟩) (by
        refine ⟨hw.1, rfl, hw.2.1, ?_⟩
        rcases hw.2.2 with h | ⟨h, -, h0⟩
        · exact .inl h
        · have ha : ids.all (fun id => (n.store id).isNone) = true := by
            rw [List.all_eq_true]
            intro id hid
            simp [h0 id hid]
          have e : n.store.drop ids = n.store := by
            funext id
            unfold Store.drop
            split
            · rename_i hid; exact (h0 id hid).symm
            · rfl
          rw [e, if_pos ha]
          rcases hfD with rfl | ⟨md', d', hpd, rfl⟩
          · exact .inl h
          · exact .inr ⟨md', d', hpd, h⟩)
      exact ⟨outs, h.lead (leads_destroy_ok hp ids) fun N N' e => by simp only [NP.onMap, e]⟩
    rcases hm with hm | ⟨md', d', hpd, hm⟩
    · exact key _ hm (.inl rfl)
    · exact key _ hm (.inr ⟨md', d', hpd, rfl⟩)
  | @destroyFailed ids f k ctx m rc ctx' m' o hn hx hrc ho =>
    intro n ⟨hi, hp, hs, hm⟩
    have key : ∀ fD, Boots c m fD → (fD = n.store ∨ ∃ md d, n.pending = some (md, d) ∧
        fD = n.store.set md d) → ∃ outs, Sim c (.destroy ids f) n o (k + 1) (.off m') outs := by
      intro fD hD hfD
      have hw := (wp_adequate hx (destroy_wp hwf hi hn hs hD Shows.unique Boots.unique)).2 hrc
      have hmed : ∃ b : Bool, ∀ pw outs t, MediaOk c ⟨if b then n.store.drop ids else n.store,
          if b then none else n.pending, pw, outs, t⟩ m' := by
        rcases hw.2.2.2 with h | h
        · refine ⟨false, fun _ _ _ => ?_⟩
          rcases hfD with rfl | ⟨md', d', hpd, rfl⟩
          · exact .inl h
          · exact .inr ⟨md', d', hpd, h⟩
        · exact ⟨true, fun _ _ _ => .inl h⟩
      obtain ⟨b, hb⟩ := hmed
      cases o with
      | none =>
        exact ⟨_, (Sim.cutOff (p := f .aborted) rfl ⟨hw.2.1, hb _ _ _⟩).lead
          (leads_destroy_cut hp ids b) fun N N' e => by simp only [NP.onMap, e]⟩
      | some a =>
        refine ⟨force n (.fail rc b), Sim.lead (p' := f rc) (leads_destroy_fail hp ids hrc b) ?_
          fun N N' e => by simp only [NP.onMap, e]⟩
        rw [ho a rfl]
        exact ⟨fun _ _ => rfl, fun a' h => ⟨by cases h; rfl, rfl⟩, ⟨hw.2.1, hb _ _ _⟩, rfl⟩
    rcases hm with hm | ⟨md', d', hpd, hm⟩
    · exact key _ hm (.inl rfl)
    · exact key _ hm (.inr ⟨md', d', hpd, rfl⟩)
  | @destroyCut ids f k ctx m m' hn hx =>
    intro n ⟨hi, hp, hs, hm⟩
    have key : ∀ fD, Boots c m fD → (fD = n.store ∨ ∃ md d, n.pending = some (md, d) ∧
        fD = n.store.set md d) → ∃ outs, Sim c (.destroy ids f) n none (k + 1) (.off m') outs := by
      intro fD hD hfD
      have hw := wp_adequate hx (destroy_wp hwf hi hn hs hD Shows.unique Boots.unique)
      dsimp only [Post] at hw
      have fin : ∀ b, MediaOk c ⟨if b then n.store.drop ids else n.store,
          if b then none else n.pending, false, force n (.cut b), n.tick + 1⟩ m' →
          ∃ outs, Sim c (.destroy ids f) n none (k + 1) (.off m') outs := by
        intro b hb
        exact ⟨_, (Sim.cutOff (p := f .aborted) rfl ⟨hw.1, hb⟩).lead (leads_destroy_cut hp ids b)
          fun N N' e => by simp only [NP.onMap, e]⟩
      rcases hw.2 with h | h
      · refine fin false ?_
        rcases hfD with rfl | ⟨md', d', hpd, rfl⟩
        · exact .inl h
        · exact .inr ⟨md', d', hpd, h⟩
      · exact fin true (.inl h)
    rcases hm with hm | ⟨md', d', hpd, hm⟩
    · exact key _ hm (.inl rfl)
    · exact key _ hm (.inr ⟨md', d', hpd, rfl⟩)
  | @read id off len f k ctx m rc bs m' o k' s hx _ ih =>
    intro n ⟨hi, hp, hs, hm⟩
    have hw := wp_adequate hx (read_full hwf hi hs id off len)
    dsimp only [Post] at hw
    obtain ⟨rfl, hw⟩ := hw
    by_cases hrc : rc = .ok
    · subst hrc
      have e : (Rc.ok, bs) = n.store.slice id off len := by
        rcases hw with h | h
        · exact h
        · exact absurd rfl h
      rw [if_pos rfl] at ih
      obtain ⟨outs, h⟩ := ih (n := ⟨n.store, n.pending, true, force n .ok, n.tick + 1⟩)
        ⟨hi, rfl, hs, hm.congr rfl rfl⟩
      have hl := leads_read_ok hp id off len
      rw [← e] at hl
      exact ⟨outs, h.lead hl fun N N' e => by simp only [NP.onMap, e]⟩
    · rw [if_neg hrc] at ih
      obtain ⟨outs, h⟩ := ih (n := ⟨n.store, n.pending, true, force n (.fail rc false), n.tick + 1⟩)
        ⟨hi, rfl, hs, hm.congr rfl rfl⟩
      exact ⟨outs, h.lead (leads_read_fail hp id off len hrc) fun N N' e => by simp only [NP.onMap, e]⟩
  | @info id f k ctx m o k' s _ ih =>
    intro n h
    obtain ⟨outs, hs⟩ := ih h
    have e : (NP.info id f).onMap (withOuts n outs) =
        (f (NvmFlash.getMetadata ctx id).1 (NvmFlash.getMetadata ctx id).2).onMap (withOuts n outs) := by
      simp only [NP.onMap, Nvm.metadata]
      rw [h.2.2.1.info id]
    exact ⟨outs, hs.agree, by rw [e]; exact hs.ans, by rw [e]; exact hs.rel, by rw [e]; exact hs.outs_eq⟩

/-! ## Whole histories -/

/-- A call depends on the outcomes only up to the tick it ends with. -/
structure Local {ρ : Type} (op : Nvm → ρ × Nvm) : Prop where
  mono : ∀ n, n.tick ≤ (op n).2.tick
  outs : ∀ n, (op n).2.outs = n.outs
  ext : ∀ n outs, (∀ i, i < (op n).2.tick → outs i = n.outs i) →
    op (withOuts n outs) = ((op n).1, withOuts (op n).2 outs)

theorem local_add (md : Meta) (d : List UInt8) : Local (·.add md d) := by
  constructor
  · intro n; dsimp only [Nvm.add]; (repeat' split) <;> simp
  · intro n; dsimp only [Nvm.add]; (repeat' split) <;> rfl
  · intro n outs h
    by_cases hp : n.powered = true
    · have ht : outs n.tick = n.outs n.tick := h _ (by
        dsimp only [Nvm.add]; rw [if_pos hp]; split <;> simp)
      simp only [Nvm.add, hp, if_true, ht]
      split <;> rfl
    · simp [Nvm.add, hp]

theorem local_destroy (ids : List UInt16) : Local (·.destroy ids) := by
  constructor
  · intro n; dsimp only [Nvm.destroy]; (repeat' split) <;> simp
  · intro n; dsimp only [Nvm.destroy]; (repeat' split) <;> rfl
  · intro n outs h
    by_cases hp : n.powered = true
    · have ht : outs n.tick = n.outs n.tick := h _ (by
        dsimp only [Nvm.destroy]; rw [if_pos hp]; (repeat' split) <;> simp)
      simp only [Nvm.destroy, hp, if_true, ht]
      split
      · split <;> rfl
      all_goals rfl
    · simp [Nvm.destroy, hp]

theorem local_read (id : UInt16) (off len : Nat) : Local (·.read id off len) := by
  constructor
  · intro n; dsimp only [Nvm.read]; (repeat' split) <;> simp
  · intro n; dsimp only [Nvm.read]; (repeat' split) <;> rfl
  · intro n outs h
    by_cases hp : n.powered = true
    · have ht : outs n.tick = n.outs n.tick := h _ (by
        dsimp only [Nvm.read]; rw [if_pos hp]; split <;> simp)
      simp only [Nvm.read, hp, if_true, ht]
      split <;> rfl
    · simp [Nvm.read, hp]

/-- Sequencing keeps locality. -/
theorem Local.bind {ρ τ : Type} {op : Nvm → ρ × Nvm} {g : ρ → Nvm → τ × Nvm} (h : Local op)
    (hg : ∀ r, Local (g r)) : Local fun n => g (op n).1 (op n).2 := by
  constructor
  · intro n; exact Nat.le_trans (h.mono n) ((hg _).mono _)
  · intro n; rw [(hg _).outs, h.outs]
  · intro n outs hx
    have h1 := h.ext n outs fun i hi => hx i (Nat.lt_of_lt_of_le hi ((hg _).mono _))
    have h2 := (hg (op n).1).ext (op n).2 outs fun i hi => by rw [h.outs]; exact hx i hi
    rw [h1]
    exact h2

theorem local_ret {ρ : Type} (a : ρ) : Local fun n => (a, n) :=
  ⟨fun _ => Nat.le_refl _, fun _ => rfl, fun _ _ _ => rfl⟩

theorem local_addReclaim (md : Meta) (d : List UInt8) : Local (·.addWithReclaim md d) := by
  have h := (local_destroy []).bind (g := fun rc n => if rc = .ok then n.add md d else (rc, n))
    (fun rc => by
      by_cases h : rc = .ok
      · simp only [h, if_true]; exact local_add md d
      · simp only [h, if_false]; exact local_ret rc)
  have e : (fun n : Nvm => n.addWithReclaim md d) = fun n =>
      (fun rc n => if rc = .ok then n.add md d else (rc, n)) (n.destroy []).1 (n.destroy []).2 := by
    funext n
    simp only [Nvm.addWithReclaim]
    rcases n.destroy [] with ⟨rc, n'⟩
    cases rc <;> simp
  rw [show (·.addWithReclaim md d : Nvm → Rc × Nvm) = _ from e]
  exact h

theorem local_onMap {α : Type} (p : NP α) : Local p.onMap := by
  induction p with
  | ret a => exact local_ret a
  | add md d k ih => exact (local_add md d).bind ih
  | addReclaim md d k ih => exact (local_addReclaim md d).bind ih
  | destroy ids k ih => exact (local_destroy ids).bind ih
  | read id off len k ih =>
    exact (local_read id off len).bind (g := fun r => (k r.1 r.2).onMap) fun r => ih _ _
  | info id k ih =>
    constructor
    · intro n; exact (ih _ _).mono n
    · intro n; exact (ih _ _).outs n
    · intro n outs h; exact (ih _ _).ext n outs h

theorem onFlash_none {α : Type} {p : NP α} {k : Nat} {ctx : Ctx} {m : Mem} {o : Option α}
    {k' : Nat} {s : PState} (h : p.OnFlash c k ctx m o k' s) :
    o = none → ∃ m', s = .off m' := by
  induction h with
  | ret => intro h; cases h
  | cut => exact fun _ => ⟨_, rfl⟩
  | addCut => exact fun _ => ⟨_, rfl⟩
  | destroyFailed => exact fun _ => ⟨_, rfl⟩
  | destroyCut => exact fun _ => ⟨_, rfl⟩
  | add _ _ _ ih => exact ih
  | addReclaim _ ih => exact ih
  | destroy _ _ _ ih => exact ih
  | read _ _ ih => exact ih
  | info _ ih => exact ih

/-- The state of the device while it is on is the one of the map. -/
def RamOk (d : Device S) (s : S) : Prop := ∀ ctx m, d.dev = .on ctx m → d.ram = s

/-- A history on the map explaining a history of the device. -/
structure Story (V : Service Q A S) (c : Cfg) (n : Nvm) (s : S) (evs : List (Ev Q))
    (as : List (Option A)) (d : Device S) (outs : Nat → Out) (es : List (MEv Q)) : Prop where
  agree : Agree n outs
  seen : es.map MEv.seen = evs
  obs : Explained as (mrun V (s, withOuts n outs) es).1
  rel : Rel c (mrun V (s, withOuts n outs) es).2.2 d.count d.dev
  ram : RamOk d (mrun V (s, withOuts n outs) es).2.1
  outs_eq : (mrun V (s, withOuts n outs) es).2.2.outs = outs

theorem restart_outs (n : Nvm) (outs : Nat → Out) (b : Bool) :
    (withOuts n outs).restart b = withOuts (n.restart b) outs := by
  unfold Nvm.restart
  dsimp only [withOuts]
  split <;> rfl

theorem restart_tick (n : Nvm) (b : Bool) : (n.restart b).tick = n.tick ∧ (n.restart b).outs = n.outs := by
  unfold Nvm.restart
  split <;> exact ⟨rfl, rfl⟩

/-- Every history of a device is explained by one on the map. -/
theorem history (hwf : c.WF) (V : Service Q A S) {d : Device S} {evs : List (Ev Q)}
    {as : List (Option A)} {d' : Device S} (h : FRun V c d evs as d') :
    ∀ {n : Nvm} {s : S}, Rel c n d.count d.dev → RamOk d s →
      ∃ outs es, Story V c n s evs as d' outs es := by
  induction h with
  | @nil d =>
    intro n s h hr
    exact ⟨n.outs, [], fun _ _ => rfl, rfl, trivial, h, hr, rfl⟩
  | @req ram k ctx m q a ram' k' st evs as d hf _ ih =>
    intro n s h hr
    have hrs : ram = s := hr _ _ rfl
    subst hrs
    obtain ⟨o1, h1⟩ := sim hwf hf h
    obtain ⟨o2, es, h2⟩ := ih (n := ((V.serve q ram).onMap (withOuts n o1)).2) (s := ram') h1.rel
      (fun _ _ _ => rfl)
    have hl := local_onMap (V.serve q ram)
    have hx := hl.ext (withOuts n o1) o2 fun i hi => by rw [← hl.outs]; exact h2.agree i hi
    have hx' : (V.serve q ram).onMap (withOuts n o2) = _ := hx
    have hst : mstep V (ram, withOuts n o2) (.req q) =
        (some a, ram', withOuts ((V.serve q ram).onMap (withOuts n o1)).2 o2) := by
      obtain ⟨ha, hp⟩ := h1.ans _ rfl
      have hn : (withOuts n o2).powered = true := h.2.1
      simp only [mstep]
      rw [if_pos hn, hx', ha]
      simp only [hp, if_true]
    refine ⟨o2, .req q :: es, ?_, ?_, ?_, ?_, ?_, ?_⟩
    · intro i hi
      have := h2.agree i (Nat.lt_of_lt_of_le hi (hl.mono (withOuts n o1)))
      rw [this, h1.outs_eq]
      exact h1.agree i hi
    · simp [MEv.seen, h2.seen]
    · simp only [mrun, hst]
      exact ⟨fun _ h => h, h2.obs⟩
    · simp only [mrun, hst]; exact h2.rel
    · simp only [mrun, hst]; exact h2.ram
    · simp only [mrun, hst]; exact h2.outs_eq
  | @reqCut ram k ctx m q ram' k' st evs as d hf _ ih =>
    intro n s h hr
    have hrs : ram = s := hr _ _ rfl
    subst hrs
    obtain ⟨m', rfl⟩ := onFlash_none hf rfl
    obtain ⟨o1, h1⟩ := sim hwf hf h
    obtain ⟨o2, es, h2⟩ := ih (n := ((V.serve q ram).onMap (withOuts n o1)).2)
      (s := ((V.serve q ram).onMap (withOuts n o1)).1.2) h1.rel (fun _ _ h => by cases h)
    have hl := local_onMap (V.serve q ram)
    have hx := hl.ext (withOuts n o1) o2 fun i hi => by rw [← hl.outs]; exact h2.agree i hi
    have hx' : (V.serve q ram).onMap (withOuts n o2) = _ := hx
    have hst : ∃ o, mstep V (ram, withOuts n o2) (.req q) =
        (o, ((V.serve q ram).onMap (withOuts n o1)).1.2,
          withOuts ((V.serve q ram).onMap (withOuts n o1)).2 o2) :=
      ⟨_, by
        have hn : (withOuts n o2).powered = true := h.2.1
        simp only [mstep]
        rw [if_pos hn, hx']⟩
    obtain ⟨o, hst⟩ := hst
    refine ⟨o2, .req q :: es, ?_, ?_, ?_, ?_, ?_, ?_⟩
    · intro i hi
      have := h2.agree i (Nat.lt_of_lt_of_le hi (hl.mono (withOuts n o1)))
      rw [this, h1.outs_eq]
      exact h1.agree i hi
    · simp [MEv.seen, h2.seen]
    · simp only [mrun, hst]
      exact ⟨(fun _ h => by cases h), h2.obs⟩
    · simp only [mrun, hst]; exact h2.rel
    · simp only [mrun, hst]; exact h2.ram
    · simp only [mrun, hst]; exact h2.outs_eq
  | @bootFails ram k st rc ctx m' evs as d hx hrc _ ih =>
    intro n s h hr
    obtain ⟨ho, hm⟩ := h.off
    refine ih ?_ (fun _ _ h => by cases h)
    rcases hm with hm | ⟨md, d, hp, hm⟩
    · have := (wp_adequate hx (init_full hwf ho hm)).2 hrc
      exact ⟨this.1, .inl this.2⟩
    · have := (wp_adequate hx (init_full hwf ho hm)).2 hrc
      exact ⟨this.1, .inr ⟨md, d, hp, this.2⟩⟩
  | @bootCut ram k st m' evs as d hx _ ih =>
    intro n s h hr
    obtain ⟨ho, hm⟩ := h.off
    refine ih ?_ (fun _ _ h => by cases h)
    rcases hm with hm | ⟨md, d, hp, hm⟩
    · have := wp_adequate hx (init_full hwf ho hm)
      exact ⟨this.1, .inl this.2⟩
    · have := wp_adequate hx (init_full hwf ho hm)
      exact ⟨this.1, .inr ⟨md, d, hp, this.2⟩⟩
  | @restart ram k st ctx m' evs as d hx _ ih =>
    intro n s h hr
    obtain ⟨ho, hm⟩ := h.off
    have key : ∃ b, Rel c (n.restart b) k (.on ctx m') := by
      rcases hm with hm | ⟨md, d, hp, hm⟩
      · have := (wp_adequate hx (init_full hwf ho hm)).1 rfl
        refine ⟨false, this.1, ?_, ?_, .inl ?_⟩
        · unfold Nvm.restart; split <;> rfl
        · unfold Nvm.restart; split
          · rename_i h; cases h
          · exact this.2.1
        · unfold Nvm.restart; split
          · rename_i h; cases h
          · exact this.2.2
      · have := (wp_adequate hx (init_full hwf ho hm)).1 rfl
        refine ⟨true, ?_⟩
        unfold Nvm.restart
        rw [hp]
        exact ⟨this.1, rfl, this.2.1, .inl this.2.2⟩
    obtain ⟨b, hb⟩ := key
    obtain ⟨o2, es, h2⟩ := ih (n := n.restart b) (s := V.fresh) hb (fun _ _ _ => rfl)
    have hst : mstep V (s, withOuts n o2) (.restart b) =
        (none, V.fresh, withOuts (n.restart b) o2) := by
      simp only [mstep, restart_outs]
    refine ⟨o2, .restart b :: es, ?_, ?_, ?_, ?_, ?_, ?_⟩
    · intro i hi
      rw [h2.agree i (by rw [(restart_tick n b).1]; exact hi), (restart_tick n b).2]
    · simp [MEv.seen, h2.seen]
    · simp only [mrun, hst]
      exact ⟨(fun _ h => h), h2.obs⟩
    · simp only [mrun, hst]; exact h2.rel
    · simp only [mrun, hst]; exact h2.ram
    · simp only [mrun, hst]; exact h2.outs_eq

end WolfHsm.NvmRefine

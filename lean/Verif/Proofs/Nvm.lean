import Verif.Spec.NvmServer
import Verif.Proofs.Bits

/-! # Lemmas about the generic NVM layer -/

namespace WolfHsm

open NvmFlash (Meta Store withLen)

theorem errRc_ne_ok (rc : Rc) : errRc rc ≠ .ok := by
  unfold errRc; split <;> simp_all

namespace Nvm

/-- What an add can do to the state. -/
theorem add_cases (n : Nvm) (md : Meta) (data : List UInt8) {P : Rc × Nvm → Prop}
    (hok : ∀ n', n'.store = n.store.set md data → n'.pending = none → n'.powered = true →
      P (.ok, n'))
    (hcut : ∀ n', n'.store = n.store.set md data → n'.pending = none → n'.powered = false →
      P (.aborted, n'))
    (hpend : ∀ rc n', rc ≠ .ok → n'.store = n.store → n'.pending = some (md, data) →
      P (rc, n'))
    (hnop : ∀ rc n', rc ≠ .ok → n'.store = n.store → n'.pending = n.pending → P (rc, n')) :
    P (n.add md data) := by
  unfold add
  split
  · split
    · apply hok <;> simp_all
    · apply hpend <;> simp [errRc_ne_ok]
    · apply hnop <;> simp [errRc_ne_ok]
    · apply hcut <;> simp
    · apply hnop <;> simp
  · apply hnop <;> simp

/-- What a destroy can do to the state. -/
theorem destroy_cases (n : Nvm) (ids : List UInt16) {P : Rc × Nvm → Prop}
    (hok : ∀ n', n'.store = n.store.drop ids → n'.pending = none → P (.ok, n'))
    (hskip : ∀ n', (∀ id ∈ ids, n.store id = none) → n'.store = n.store →
      n'.pending = n.pending → P (.ok, n'))
    (herr : ∀ rc n', rc ≠ .ok → n'.store = n.store.drop ids → n'.pending = none → P (rc, n'))
    (hnop : ∀ rc n', rc ≠ .ok → n'.store = n.store → n'.pending = n.pending → P (rc, n')) :
    P (n.destroy ids) := by
  unfold destroy
  split
  · split
    · split
      · rename_i h
        refine hskip _ (fun id hi => ?_) rfl rfl
        have := List.all_eq_true.mp h id hi
        simpa using this
      · apply hok <;> simp
    · apply herr <;> simp [errRc_ne_ok]
    · apply hnop <;> simp [errRc_ne_ok]
    · apply herr <;> simp
    · apply hnop <;> simp
  · apply hnop <;> simp

theorem read_store (n : Nvm) (id : UInt16) (off len : Nat) :
    (n.read id off len).2.store = n.store ∧ (n.read id off len).2.pending = n.pending := by
  unfold read
  split
  · split <;> simp
  · simp

/-- A read reports either the specified answer or an error without bytes. -/
theorem read_result (n : Nvm) (id : UInt16) (off len : Nat) :
    (n.read id off len).1 = n.store.slice id off len ∨
    ((n.read id off len).1.1 ≠ .ok ∧ (n.read id off len).1.2 = []) := by
  unfold read
  split
  · split
    · exact Or.inl rfl
    · exact Or.inr ⟨errRc_ne_ok _, rfl⟩
    · exact Or.inr ⟨by simp, rfl⟩
  · exact Or.inr ⟨by simp, rfl⟩

theorem drop_nil (f : Store) : f.drop [] = f := by
  funext id; simp [NvmFlash.Store.drop]

/-- What an add with reclaim can do to the state. -/
theorem addWithReclaim_cases (n : Nvm) (md : Meta) (data : List UInt8) {P : Rc × Nvm → Prop}
    (hok : ∀ n', n'.store = n.store.set md data → n'.pending = none → n'.powered = true →
      P (.ok, n'))
    (hcut : ∀ n', n'.store = n.store.set md data → n'.pending = none → n'.powered = false →
      P (.aborted, n'))
    (hpend : ∀ rc n', rc ≠ .ok → n'.store = n.store → n'.pending = some (md, data) → P (rc, n'))
    (hnop : ∀ rc n', rc ≠ .ok → n'.store = n.store →
      n'.pending = n.pending ∨ n'.pending = none → P (rc, n')) :
    P (n.addWithReclaim md data) := by
  unfold addWithReclaim
  refine destroy_cases n [] (P := fun p => P (match p with
    | (.ok, n') => n'.add md data
    | (rc, n') => (rc, n'))) ?_ ?_ ?_ ?_
  · intro n1 h1 h2
    rw [drop_nil] at h1
    refine add_cases n1 md data ?_ ?_ ?_ ?_
    · intro n' a b c; exact hok n' (by rw [a, h1]) b c
    · intro n' a b c; exact hcut n' (by rw [a, h1]) b c
    · intro rc n' a b c; exact hpend rc n' a (by rw [b, h1]) c
    · intro rc n' a b c; exact hnop rc n' a (by rw [b, h1]) (Or.inr (by rw [c, h2]))
  · intro n1 _ h1 h2
    refine add_cases n1 md data ?_ ?_ ?_ ?_
    · intro n' a b c; exact hok n' (by rw [a, h1]) b c
    · intro n' a b c; exact hcut n' (by rw [a, h1]) b c
    · intro rc n' a b c; exact hpend rc n' a (by rw [b, h1]) c
    · intro rc n' a b c; exact hnop rc n' a (by rw [b, h1]) (Or.inl (by rw [c, h2]))
  · intro rc n' hrc h1 h2
    rw [drop_nil] at h1
    cases rc <;> first | exact absurd rfl hrc | exact hnop _ n' (by simp) h1 (Or.inr h2)
  · intro rc n' hrc h1 h2
    cases rc <;> first | exact absurd rfl hrc | exact hnop _ n' (by simp) h1 (Or.inl h2)

/-- What a restart can do to the state. -/
theorem restart_cases (n : Nvm) (b : Bool) {P : Nvm → Prop}
    (hplain : ∀ n', n'.store = n.store → n'.pending = none → n'.powered = true → P n')
    (hpend : ∀ md data n', n.pending = some (md, data) → n'.store = n.store.set md data →
      n'.pending = none → n'.powered = true → P n') : P (n.restart b) := by
  unfold restart
  split
  · rename_i md data h1
    exact hpend md data _ h1 rfl rfl rfl
  · exact hplain _ rfl rfl rfl

theorem metadata_some {n : Nvm} {id : UInt16} {md : Meta} {bs : List UInt8}
    (h : n.store id = some (md, bs)) : n.metadata id = (.ok, some md) := by
  simp [metadata, NvmFlash.Store.info, h]

theorem metadata_none {n : Nvm} {id : UInt16} (h : n.store id = none) :
    n.metadata id = (.notfound, none) := by
  simp [metadata, NvmFlash.Store.info, h]

/-- The metadata found is the stored one. -/
theorem metadata_ok {n : Nvm} {id : UInt16} {md : Meta} (h : n.metadata id = (.ok, some md)) :
    ∃ bs, n.store id = some (md, bs) := by
  rcases e : n.store id with _ | ⟨md', bs⟩
  · rw [metadata_none e] at h; simp at h
  · rw [metadata_some e] at h; simp at h; exact ⟨bs, by rw [h]⟩

theorem hasFlag_or_left {f a b : UInt16} (h : hasFlag f a = true) : hasFlag f (a ||| b) = true := by
  unfold hasFlag at *
  simp only [bne_iff_ne, ne_eq] at *
  intro hc
  apply h
  apply UInt16.eq_of_toBitVec_eq
  apply BitVec.eq_of_getLsbD_eq
  intro i hi
  have := congrArg (fun x => x.toBitVec.getLsbD i) hc
  simp only [UInt16.toBitVec_and, UInt16.toBitVec_or, BitVec.getLsbD_and, BitVec.getLsbD_or] at this ⊢
  revert this
  cases (f.toBitVec.getLsbD i) <;> cases (a.toBitVec.getLsbD i) <;> simp

theorem hasFlag_or_right {f a b : UInt16} (h : hasFlag f b = true) : hasFlag f (a ||| b) = true := by
  rw [UInt16.or_comm]; exact hasFlag_or_left h

/-- The policy refuses adding over a non-modifiable or trusted object. -/
theorem policy_add_refuses {n : Nvm} {id : UInt16} {md : Meta} {bs : List UInt8}
    (h : n.store id = some (md, bs))
    (hf : hasFlag md.flags Flag.nonModifiable = true ∨ hasFlag md.flags Flag.trusted = true) :
    n.checkPolicy .add id = .access := by
  unfold checkPolicy
  rw [metadata_some h]
  rcases hf with hf | hf <;> simp [hf]

/-- The policy refuses destroying a non-modifiable, non-destroyable or trusted object. -/
theorem policy_destroy_refuses {n : Nvm} {id : UInt16} {md : Meta} {bs : List UInt8}
    (h : n.store id = some (md, bs))
    (hf : hasFlag md.flags Flag.nonModifiable = true ∨ hasFlag md.flags Flag.nonDestroyable = true ∨
      hasFlag md.flags Flag.trusted = true) :
    n.checkPolicy .destroy id = .access := by
  unfold checkPolicy
  rw [metadata_some h]
  rcases hf with hf | hf | hf
  · simp [hasFlag_or_left (b := Flag.nonDestroyable) hf]
  · simp [hasFlag_or_right (a := Flag.nonModifiable) hf]
  · simp [hf]

theorem checkAll_refuses {n : Nvm} {id : UInt16} (h : n.checkPolicy .destroy id = .access) :
    ∀ ids : List UInt16, id ∈ ids → n.checkAll ids ≠ .ok
  | [], hm => absurd hm (by simp)
  | x :: xs, hm => by
    unfold checkAll
    rcases List.mem_cons.mp hm with rfl | hm
    · simp [h, passes]
    · by_cases hp : passes (n.checkPolicy .destroy x) = true
      · simp only [hp, if_true]; exact checkAll_refuses h xs hm
      · have hp' : passes (n.checkPolicy .destroy x) = false := by simpa using hp
        simp only [hp']
        intro hc
        simp at hc
        rw [hc] at hp
        simp [passes] at hp

/-- The policy lets only exportable, untrusted, existing objects be read. -/
theorem policy_read_ok {n : Nvm} {id : UInt16} (h : n.checkPolicy .read id = .ok) :
    ∃ md bs, n.store id = some (md, bs) ∧ hasFlag md.flags Flag.nonExportable = false ∧
      hasFlag md.flags Flag.trusted = false := by
  unfold checkPolicy at h
  rcases e : n.store id with _ | ⟨md, bs⟩
  · rw [metadata_none e] at h; simp at h
  · rw [metadata_some e] at h
    refine ⟨md, bs, rfl, ?_⟩
    by_cases h1 : hasFlag md.flags Flag.trusted = true
    · simp [h1] at h
    · by_cases h2 : hasFlag md.flags Flag.nonExportable = true
      · simp [h1, h2] at h
      · exact ⟨by simpa using h2, by simpa using h1⟩

theorem sanitize_not_trusted (md : Meta) : hasFlag (sanitize md).flags Flag.trusted = false := by
  unfold hasFlag sanitize serverOnly Flag.trusted
  simp only [bne_eq_false_iff_eq]
  apply UInt16.eq_of_toBitVec_eq
  apply BitVec.eq_of_getLsbD_eq
  intro i hi
  simp only [UInt16.toBitVec_and, UInt16.toBitVec_not, BitVec.getLsbD_and, BitVec.getLsbD_not]
  cases (md.flags.toBitVec.getLsbD i) <;> cases ((4096 : UInt16).toBitVec.getLsbD i) <;> simp [hi]

end Nvm

namespace NvmServer

theorem set_other {f : Store} {md : Meta} {data : List UInt8} {id : UInt16} (h : md.id ≠ id) :
    f.set md data id = f id := by
  simp [NvmFlash.Store.set, Ne.symm h]

theorem drop_other {f : Store} {ids : List UInt16} {id : UInt16} (h : id ∉ ids) :
    f.drop ids id = f id := by
  simp [NvmFlash.Store.drop, h]

/-- What a request does to the NVM state: nothing, a checked add, a checked destroy, or a
read. -/
theorem handle_cases (cfg : Cfg) (n : Nvm) (lock : Rc) (r : Req) {P : Nvm → Prop}
    (hid : P n)
    (hadd : ∀ first second data,
      r.Adds cfg first second data → P (n.addChecked first second data).2)
    (hdes : ∀ ids, ids = r.toDestroy → P (n.destroyChecked ids).2)
    (hread : ∀ id off len, P (n.read id off len).2) : P (handle cfg n lock r).2 := by
  have hrc : ∀ id off len, P (n.readChecked id off len).2 := by
    intro id off len
    unfold Nvm.readChecked
    split
    · exact hread _ _ _
    · exact hid
  cases r with
  | init c => exact hid
  | cleanup => exact hid
  | list a f s => cases lock <;> exact hid
  | getAvailable => cases lock <;> exact hid
  | getMetadata id => cases lock <;> exact hid
  | malformed => exact hid
  | unknown => exact hid
  | add md payload =>
    simp only [handle, handleAdd]
    split
    · split
      · exact hid
      · split
        · exact hadd _ _ _ (Or.inl ⟨rfl, rfl, by simp_all⟩)
        · exact hid
    · exact hid
  | destroy count ids =>
    simp only [handle, handleDestroy]
    split
    · split
      · exact hdes _ rfl
      · exact hid
    · exact hid
  | read id off len =>
    simp only [handle]
    split
    · simp only [handleRead]
      split
      · exact hid
      · split
        · split
          · exact hid
          · exact hrc _ _ _
        · exact hid
    · exact hid
  | addDma pm pd z m1 m2 peek data =>
    simp only [handle, handleAddDma]
    split
    · split
      · exact hid
      · split
        · exact hid
        · split
          · exact hadd _ _ _ (Or.inr ⟨_, _, _, _, rfl, by simp_all⟩)
          · exact hid
    · exact hid
    · exact hid
  | readDma id off len pre =>
    simp only [handle]
    split
    · simp only [handleReadDma]
      split
      · split
        · exact hid
        · split
          · exact hrc _ _ _
          · exact hid
      · exact hid
    · exact hid

/-- A policy-checked add leaves a protected object alone. -/
theorem addChecked_keeps {n : Nvm} {id : UInt16} {o : Meta × List UInt8}
    (h : n.store id = some o) (hs : Settled n id) (first second : Meta) (data : List UInt8)
    (hne : second.id ≠ id ∨ n.checkPolicy .add second.id = .access) (heq : second.id = first.id ∨ second.id ≠ id) :
    (n.addChecked first second data).2.store id = some o ∧
      Settled (n.addChecked first second data).2 id := by
  unfold Nvm.addChecked
  by_cases hid : second.id = id
  · have h1 : first.id = second.id := by
      rcases heq with h | h
      · exact h.symm
      · exact absurd hid h
    have h2 : n.checkPolicy .add first.id = .access := by
      rw [h1]; rcases hne with h | h
      · exact absurd hid h
      · exact h
    simp [h2, Nvm.passes, h, hs]
  · have hsan : (Nvm.sanitize second).id ≠ id := hid
    by_cases hp : Nvm.passes (n.checkPolicy .add first.id) = true
    · simp only [hp, if_true]
      refine Nvm.add_cases n (Nvm.sanitize second) data
        (P := fun p => p.2.store id = some o ∧ Settled p.2 id) ?_ ?_ ?_ ?_
      · intro n' a b _; exact ⟨by rw [a, set_other hsan, h], by intro _ _ hc; rw [b] at hc; cases hc⟩
      · intro n' a b _; exact ⟨by rw [a, set_other hsan, h], by intro _ _ hc; rw [b] at hc; cases hc⟩
      · intro rc n' _ a b
        refine ⟨by rw [a, h], ?_⟩
        intro md d hc
        rw [b] at hc
        cases hc
        exact hsan
      · intro rc n' _ a b; exact ⟨by rw [a, h], by intro md d hc; rw [b] at hc; exact hs md d hc⟩
    · have hp' : Nvm.passes (n.checkPolicy .add first.id) = false := by simpa using hp
      simp [hp', h, hs]

/-- A policy-checked destroy leaves an object alone that the policy protects. -/
theorem destroyChecked_keeps {n : Nvm} {id : UInt16} {o : Meta × List UInt8}
    (h : n.store id = some o) (hs : Settled n id)
    (hp : n.checkPolicy .destroy id = .access) (ids : List UInt16) :
    (n.destroyChecked ids).2.store id = some o ∧ Settled (n.destroyChecked ids).2 id := by
  unfold Nvm.destroyChecked
  split
  · rename_i heq
    have hni : id ∉ ids := fun hc => Nvm.checkAll_refuses hp ids hc heq
    refine Nvm.destroy_cases n ids (P := fun p => p.2.store id = some o ∧ Settled p.2 id) ?_ ?_ ?_ ?_
    · intro n' a b; exact ⟨by rw [a, drop_other hni, h], by intro _ _ hc; rw [b] at hc; cases hc⟩
    · intro n' _ a b; exact ⟨by rw [a, h], by intro md d hc; rw [b] at hc; exact hs md d hc⟩
    · intro _ n' _ a b; exact ⟨by rw [a, drop_other hni, h], by intro _ _ hc; rw [b] at hc; cases hc⟩
    · intro _ n' _ a b; exact ⟨by rw [a, h], by intro md d hc; rw [b] at hc; exact hs md d hc⟩
  · exact ⟨h, hs⟩

theorem restart_keeps {n : Nvm} {id : UInt16} {o : Meta × List UInt8}
    (h : n.store id = some o) (hs : Settled n id) (b : Bool) :
    (n.restart b).store id = some o ∧ Settled (n.restart b) id := by
  refine Nvm.restart_cases n b (P := fun n' => n'.store id = some o ∧ Settled n' id) ?_ ?_
  · intro n' a b _; exact ⟨by rw [a, h], by intro _ _ hc; rw [b] at hc; cases hc⟩
  · intro md d n' hpend a b _
    exact ⟨by rw [a, set_other (hs md d hpend), h], by intro _ _ hc; rw [b] at hc; cases hc⟩

/-- One event leaves a protected object alone. -/
theorem step_keeps (cfg : Cfg) {n : Nvm} {id : UInt16} {o : Meta × List UInt8}
    (h : n.store id = some o) (hs : Settled n id)
    (hpd : n.checkPolicy .destroy id = .access) (e : Ev)
    (he : (e.Stable ∧ n.checkPolicy .add id = .access) ∨ e.NotAdding id) :
    (step cfg n e).store id = some o ∧ Settled (step cfg n e) id := by
  cases e with
  | restart b => exact restart_keeps h hs b
  | req lock r =>
    refine handle_cases cfg n lock r (P := fun n' => n'.store id = some o ∧ Settled n' id)
      ⟨h, hs⟩ ?_ ?_ ?_
    · intro first second data hr
      apply addChecked_keeps h hs
      · by_cases hid : second.id = id
        · right
          rcases he with ⟨-, he⟩ | he
          · rw [hid]; exact he
          · rcases hr with ⟨rfl, rfl, _⟩ | ⟨pm, pd, z, peek, rfl, _⟩ <;> exact absurd hid he
        · exact Or.inl hid
      · rcases he with ⟨he, -⟩ | he
        · left
          rcases hr with ⟨rfl, rfl, _⟩ | ⟨pm, pd, z, peek, rfl, _⟩
          · rfl
          · simp only [Ev.Stable] at he; rw [he]
        · right
          rcases hr with ⟨rfl, rfl, _⟩ | ⟨pm, pd, z, peek, rfl, _⟩ <;> exact he
    · intro ids _; exact destroyChecked_keeps h hs hpd ids
    · intro id' off len
      have := n.read_store id' off len
      exact ⟨by rw [this.1, h], by intro md d hc; rw [this.2] at hc; exact hs md d hc⟩

end NvmServer

end WolfHsm

import Verif.Proofs.Nvm

/-!
# C09–C12: what clients can do to objects with policy flags through NVM requests

All theorems quantify over every history of NVM requests (any number, any clients, any
arguments, malformed ones included), media errors, lock failures, power losses and
restarts.
-/

namespace WolfHsm.Props

open NvmServer NvmFlash

variable (cfg : NvmServer.Cfg)

/-- C09.  Through any history of NVM requests and restarts, a NONMODIFIABLE object keeps
its bytes and its metadata. -/
theorem C09_nonmodifiable_immutable (n : Nvm) (id : UInt16) (md : Meta) (bs : List UInt8)
    (h : n.store id = some (md, bs)) (hf : hasFlag md.flags Flag.nonModifiable = true)
    (hs : Settled n id) (evs : List Ev) (hst : ∀ e ∈ evs, e.Stable) :
    (NvmServer.run cfg n evs).store id = some (md, bs) := by
  induction evs generalizing n with
  | nil => exact h
  | cons e evs ih =>
    have := step_keeps cfg h hs (Nvm.policy_destroy_refuses h (Or.inl hf)) e
      (Or.inl ⟨hst e (by simp), Nvm.policy_add_refuses h (Or.inl hf)⟩)
    exact ih _ this.1 this.2 (fun e' he' => hst e' (by simp [he']))

/-- C10.  Whatever bytes a NVM request returns to a client (in the response or by DMA)
are a slice of one stored object which is neither NONEXPORTABLE nor TRUSTED. -/
theorem C10_bytes_returned_are_exportable (n : Nvm) (lock : Rc) (r : Req) (rc : Rc)
    (data : List UInt8) (h : (handle cfg n lock r).1 = .bytes rc data) (hd : data ≠ []) :
    ∃ id off md bs, n.store id = some (md, bs) ∧
      hasFlag md.flags Flag.nonExportable = false ∧ hasFlag md.flags Flag.trusted = false ∧
      data = (bs.drop off).take data.length := by
  have key : ∀ id off len, (n.readChecked id off len).1.2 = data →
      ∃ id off md bs, n.store id = some (md, bs) ∧
        hasFlag md.flags Flag.nonExportable = false ∧ hasFlag md.flags Flag.trusted = false ∧
        data = (bs.drop off).take data.length := by
    intro id off len hr
    unfold Nvm.readChecked at hr
    split at hr
    · rename_i hp
      obtain ⟨md, bs, h1, h2, h3⟩ := Nvm.policy_read_ok hp
      refine ⟨id, off, md, bs, h1, h2, h3, ?_⟩
      rcases n.read_result id off len with h4 | ⟨-, h4⟩
      · rw [h4] at hr
        simp only [Store.slice, h1] at hr
        split at hr
        · subst hr; simp
        · exact absurd hr.symm hd
      · rw [h4] at hr; exact absurd hr.symm hd
    · exact absurd hr.symm hd
  have nil_absurd : ∀ {P : Prop} {rc' : Rc}, Resp.bytes rc' [] = .bytes rc data → P := by
    intro P rc' hc
    injection hc with _ hc
    exact absurd hc.symm hd
  cases r with
  | init c => simp [handle] at h
  | cleanup => simp [handle] at h
  | list a f s => cases lock <;> simp [handle] at h
  | getAvailable => cases lock <;> simp [handle] at h
  | getMetadata id => cases lock <;> simp [handle] at h
  | malformed => simp [handle] at h
  | unknown => simp [handle] at h
  | add md payload => simp [handle] at h
  | destroy count ids => simp [handle] at h
  | addDma pm pd z m1 m2 pk d => simp [handle] at h
  | read id off len =>
    simp only [handle] at h
    split at h
    · simp only [handleRead] at h
      split at h
      · exact nil_absurd h
      · split at h
        · split at h
          · exact nil_absurd h
          · injection h with _ h; exact key _ _ _ h
        · exact nil_absurd h
    · exact nil_absurd h
  | readDma id off len pre =>
    simp only [handle] at h
    split at h
    · simp only [handleReadDma] at h
      split at h
      · split at h
        · exact nil_absurd h
        · split at h
          · injection h with _ h; exact key _ _ _ h
          · exact nil_absurd h
      · exact nil_absurd h
    · exact nil_absurd h

/-- C10.  In particular a read of an object that carries NONEXPORTABLE is refused with
`WH_ERROR_ACCESS`, or with an earlier error, and returns nothing. -/
theorem C10_read_refused (n : Nvm) (lock : Rc) (id off len : UInt16) (md : Meta)
    (bs : List UInt8) (h : n.store id = some (md, bs))
    (hf : hasFlag md.flags Flag.nonExportable = true) :
    ∃ rc, (handle cfg n lock (.read id off len)).1 = .bytes rc [] ∧ rc ≠ .ok := by
  have hp : n.checkPolicy .read id = .access := by
    unfold Nvm.checkPolicy
    rw [Nvm.metadata_some h]
    by_cases ht : hasFlag md.flags Flag.trusted = true <;> simp [hf, ht]
  by_cases hl : lock = .ok
  · subst hl
    simp only [handle, handleRead, Nvm.metadata_some h, Nvm.readChecked, hp]
    split
    · exact ⟨_, rfl, by simp⟩
    · split
      · exact ⟨_, rfl, by simp⟩
      · exact ⟨_, rfl, by simp⟩
  · refine ⟨lock, ?_, hl⟩
    cases lock <;> simp_all [handle]

/-- C11 (NVM requests), no touching.  Through any history of NVM requests and restarts a
TRUSTED object keeps its bytes and metadata. -/
theorem C11_trusted_untouched (n : Nvm) (id : UInt16) (md : Meta) (bs : List UInt8)
    (h : n.store id = some (md, bs)) (hf : hasFlag md.flags Flag.trusted = true)
    (hs : Settled n id) (evs : List Ev) (hst : ∀ e ∈ evs, e.Stable) :
    (NvmServer.run cfg n evs).store id = some (md, bs) := by
  induction evs generalizing n with
  | nil => exact h
  | cons e evs ih =>
    have := step_keeps cfg h hs (Nvm.policy_destroy_refuses h (Or.inr (Or.inr hf))) e
      (Or.inl ⟨hst e (by simp), Nvm.policy_add_refuses h (Or.inr hf)⟩)
    exact ih _ this.1 this.2 (fun e' he' => hst e' (by simp [he']))

/-- Objects with the trusted flag, and pending ones, come from an earlier state. -/
private def NoNewTrusted (n0 n : Nvm) : Prop :=
  (∀ id md bs, n.store id = some (md, bs) → hasFlag md.flags Flag.trusted = true →
    n0.store id = some (md, bs)) ∧
  (∀ md d, n.pending = some (md, d) → hasFlag md.flags Flag.trusted = false)

private theorem NoNewTrusted.set {n0 n n' : Nvm} (h : NoNewTrusted n0 n) {md : Meta}
    {d : List UInt8} (hmd : hasFlag md.flags Flag.trusted = false)
    (hst : n'.store = n.store.set md d) (hp : n'.pending = none) : NoNewTrusted n0 n' := by
  constructor
  · intro id md' bs hs ht
    rw [hst] at hs
    unfold Store.set at hs
    split at hs
    · simp only [Option.some.injEq, Prod.mk.injEq] at hs
      obtain ⟨h1, -⟩ := hs
      subst h1
      simp [withLen, hmd] at ht
    · exact h.1 id md' bs hs ht
  · intro md' d' hc; rw [hp] at hc; cases hc

private theorem NoNewTrusted.step (cfg : NvmServer.Cfg) {n0 n : Nvm} (h : NoNewTrusted n0 n) (e : Ev) :
    NoNewTrusted n0 (step cfg n e) := by
  cases e with
  | restart b =>
    refine Nvm.restart_cases n b (P := NoNewTrusted n0) ?_ ?_
    · intro n' a b _
      exact ⟨fun id md bs => by rw [a]; exact h.1 id md bs, fun md d hc => by rw [b] at hc; cases hc⟩
    · intro md d n' hp a b _
      exact h.set (h.2 md d hp) a b
  | req lock r =>
    refine handle_cases cfg n lock r (P := NoNewTrusted n0) h ?_ ?_ ?_
    · intro first second data _
      unfold Nvm.addChecked
      by_cases hp : Nvm.passes (n.checkPolicy .add first.id) = true
      · simp only [hp, if_true]
        refine Nvm.add_cases n (Nvm.sanitize second) data (P := fun p => NoNewTrusted n0 p.2) ?_ ?_ ?_ ?_
        · intro n' a b _; exact h.set (Nvm.sanitize_not_trusted _) a b
        · intro n' a b _; exact h.set (Nvm.sanitize_not_trusted _) a b
        · intro _ n' _ a b
          refine ⟨fun id md bs => by rw [a]; exact h.1 id md bs, ?_⟩
          intro md d hc
          rw [b] at hc
          cases hc
          exact Nvm.sanitize_not_trusted _
        · intro _ n' _ a b
          exact ⟨fun id md bs => by rw [a]; exact h.1 id md bs, fun md d hc => by
            rw [b] at hc; exact h.2 md d hc⟩
      · have hp' : Nvm.passes (n.checkPolicy .add first.id) = false := by simpa using hp
        simp only [hp']
        exact h
    · intro ids _
      unfold Nvm.destroyChecked
      have hdrop : ∀ n' : Nvm, n'.store = n.store.drop ids → n'.pending = none →
          NoNewTrusted n0 n' := by
        intro n' a b
        refine ⟨?_, fun md d hc => by rw [b] at hc; cases hc⟩
        intro id md bs hs ht
        rw [a] at hs
        unfold Store.drop at hs
        split at hs
        · cases hs
        · exact h.1 id md bs hs ht
      split
      · refine Nvm.destroy_cases n ids (P := fun p => NoNewTrusted n0 p.2) ?_ ?_ ?_ ?_
        · intro n' a b; exact hdrop n' a b
        · intro n' _ a b
          exact ⟨fun id md bs => by rw [a]; exact h.1 id md bs, fun md d hc => by
            rw [b] at hc; exact h.2 md d hc⟩
        · intro _ n' _ a b; exact hdrop n' a b
        · intro _ n' _ a b
          exact ⟨fun id md bs => by rw [a]; exact h.1 id md bs, fun md d hc => by
            rw [b] at hc; exact h.2 md d hc⟩
      · exact h
    · intro id off len
      have := n.read_store id off len
      exact ⟨fun id md bs => by rw [this.1]; exact h.1 id md bs, fun md d hc => by
        rw [this.2] at hc; exact h.2 md d hc⟩

/-- C11 (NVM requests), no creating.  Every TRUSTED object found after any history of NVM
requests and restarts — even with client memory changing under the server's hands —
was there, byte for byte, before the history. -/
theorem C11_trusted_not_created (n : Nvm) (hp : n.pending = none) (evs : List Ev)
    (id : UInt16) (md : Meta) (bs : List UInt8)
    (h : (NvmServer.run cfg n evs).store id = some (md, bs))
    (hf : hasFlag md.flags Flag.trusted = true) : n.store id = some (md, bs) := by
  have key : ∀ (evs : List Ev) (m : Nvm), NoNewTrusted n m →
      NoNewTrusted n (NvmServer.run cfg m evs) := by
    intro evs
    induction evs with
    | nil => intro m h; exact h
    | cons e evs ih => intro m h; exact ih _ (h.step cfg e)
  exact (key evs n ⟨fun _ _ _ h _ => h, fun _ _ hc => by rw [hp] at hc; cases hc⟩).1 id md bs h hf

/-- C12, partial.  Through any history of NVM requests and restarts in which no client
adds an object under the same id, a NONDESTROYABLE object keeps its bytes and
metadata.  Missing: the statement for histories with such adds, which is false, see
`F_nondestroyable_lost`. -/
theorem C12_nondestroyable_stays_partial (n : Nvm) (id : UInt16) (md : Meta) (bs : List UInt8)
    (h : n.store id = some (md, bs)) (hf : hasFlag md.flags Flag.nonDestroyable = true)
    (hs : Settled n id) (evs : List Ev) (hna : ∀ e ∈ evs, e.NotAdding id) :
    (NvmServer.run cfg n evs).store id = some (md, bs) := by
  induction evs generalizing n with
  | nil => exact h
  | cons e evs ih =>
    have := step_keeps cfg h hs (Nvm.policy_destroy_refuses h (Or.inr (Or.inl hf))) e
      (Or.inr (hna e (by simp)))
    exact ih _ this.1 this.2 (fun e' he' => hna e' (by simp [he']))

/-- C12.  No single NVM request removes a NONDESTROYABLE object: an object is still bound
to the id afterwards (perhaps a client's replacement). -/
theorem C12_never_removed_directly (n : Nvm) (id : UInt16) (md : Meta) (bs : List UInt8)
    (h : n.store id = some (md, bs)) (hf : hasFlag md.flags Flag.nonDestroyable = true)
    (e : Ev) : ((step cfg n e).store id).isSome = true := by
  have hset : ∀ md' d, ((n.store.set md' d) id).isSome = true := by
    intro md' d; unfold Store.set; split <;> simp [h]
  cases e with
  | restart b =>
    refine Nvm.restart_cases n b (P := fun n' => (n'.store id).isSome = true) ?_ ?_
    · intro n' a _ _; simp [a, h]
    · intro md' d n' _ a _ _; rw [a]; exact hset _ _
  | req lock r =>
    refine handle_cases cfg n lock r (P := fun n' => (n'.store id).isSome = true) (by simp [h]) ?_ ?_ ?_
    · intro first second data _
      unfold Nvm.addChecked
      by_cases hp : Nvm.passes (n.checkPolicy .add first.id) = true
      · simp only [hp, if_true]
        refine Nvm.add_cases n (Nvm.sanitize second) data
          (P := fun p => (p.2.store id).isSome = true) ?_ ?_ ?_ ?_
        · intro n' a _ _; rw [a]; exact hset _ _
        · intro n' a _ _; rw [a]; exact hset _ _
        · intro _ n' _ a _; simp [a, h]
        · intro _ n' _ a _; simp [a, h]
      · have hp' : Nvm.passes (n.checkPolicy .add first.id) = false := by simpa using hp
        simp [hp', h]
    · intro ids _
      unfold Nvm.destroyChecked
      split
      · rename_i heq
        have hni : id ∉ ids := fun hc =>
          Nvm.checkAll_refuses (Nvm.policy_destroy_refuses h (Or.inr (Or.inl hf))) ids hc heq
        refine Nvm.destroy_cases n ids (P := fun p => (p.2.store id).isSome = true) ?_ ?_ ?_ ?_
        · intro n' a _; rw [a, drop_other hni]; simp [h]
        · intro n' _ a _; simp [a, h]
        · intro _ n' _ a _; rw [a, drop_other hni]; simp [h]
        · intro _ n' _ a _; simp [a, h]
      · simp [h]
    · intro id' off len
      simp [(n.read_store id' off len).1, h]

/-! ## The requests do work: an unprotected object can be added, read back and destroyed. -/

/-- A store with one object with the given flags under id 5, healthy backend. -/
def nvmWith (flags : UInt16) : Nvm :=
  { store := fun id =>
      if id = 5 then some (⟨5, 0, flags, 3, Vector.replicate 24 0⟩, [1, 2, 3]) else none
    pending := none, powered := true, outs := fun _ => .ok, tick := 0 }

/-- A handler configuration. -/
def demoCfg : NvmServer.Cfg :=
  { maxRead := 1276, statefulBlob := fun _ => false, list := fun _ _ _ _ => (.ok, 0, 0)
    avail := fun _ => (.ok, []) }

/-- A request that the lock lets through. -/
def rq (r : Req) : Ev := .req .ok r

example : (handle demoCfg (nvmWith 0) .ok (.read 5 1 9)).1 = .bytes .ok [2, 3] := by
  decide +kernel
example : (handle demoCfg (nvmWith Flag.nonExportable) .ok (.read 5 1 9)).1 = .bytes .access [] := by
  decide +kernel
example : ((NvmServer.run demoCfg (nvmWith 0)
    [rq (.add ⟨5, 0, 0, 1, Vector.replicate 24 0⟩ [9])]).store 5).map (·.2) = some [9] := by
  decide +kernel
example : ((NvmServer.run demoCfg (nvmWith 0)
    [rq (.destroy 1 (Vector.replicate 19 5))]).store 5).isNone = true := by decide +kernel

/-- C09's hypotheses are met, and the history really tries to overwrite and destroy. -/
example : ((NvmServer.run demoCfg (nvmWith Flag.nonModifiable)
    [rq (.add ⟨5, 0, 0, 1, Vector.replicate 24 0⟩ [9]), rq (.destroy 1 (Vector.replicate 19 5)),
     .restart true]).store 5).map (·.2) = some [1, 2, 3] := by
  rw [C09_nonmodifiable_immutable demoCfg (nvmWith Flag.nonModifiable) 5
    ⟨5, 0, Flag.nonModifiable, 3, Vector.replicate 24 0⟩ [1, 2, 3] rfl (by decide)
    (by intro md d h; cases h) _ (by simp [rq, Ev.Stable])]
  rfl

/-- C11's hypotheses are met. -/
example : ((NvmServer.run demoCfg (nvmWith Flag.trusted)
    [rq (.add ⟨5, 0, 0, 1, Vector.replicate 24 0⟩ [9]), rq (.destroy 1 (Vector.replicate 19 5)),
     rq (.read 5 0 3)]).store 5).map (·.2) = some [1, 2, 3] := by
  rw [C11_trusted_untouched demoCfg (nvmWith Flag.trusted) 5
    ⟨5, 0, Flag.trusted, 3, Vector.replicate 24 0⟩ [1, 2, 3] rfl (by decide)
    (by intro md d h; cases h) _ (by simp [rq, Ev.Stable])]
  rfl

/-- A client asking for the TRUSTED flag gets the object without it. -/
example : ((NvmServer.run demoCfg (nvmWith 0)
    [rq (.add ⟨6, 0, Flag.trusted ||| Flag.usageWrap, 1, Vector.replicate 24 0⟩ [9])]).store 6).map
      (·.1.flags) = some Flag.usageWrap := by decide +kernel

/-- C12's hypotheses are met. -/
example : ((NvmServer.run demoCfg (nvmWith Flag.nonDestroyable)
    [rq (.destroy 1 (Vector.replicate 19 5)),
     rq (.add ⟨6, 0, 0, 1, Vector.replicate 24 0⟩ [9]), .restart true]).store 5).map (·.2) =
      some [1, 2, 3] := by
  rw [C12_nondestroyable_stays_partial demoCfg (nvmWith Flag.nonDestroyable) 5
    ⟨5, 0, Flag.nonDestroyable, 3, Vector.replicate 24 0⟩ [1, 2, 3] rfl (by decide)
    (by intro md d h; cases h) _ (by simp [rq, Ev.NotAdding])]
  rfl

/-! ## Findings -/

/-- Finding: C12 as stated is false.  Overwriting a NONDESTROYABLE object with one
without the flag, then destroying that, removes it. -/
theorem F_nondestroyable_lost :
    ((nvmWith Flag.nonDestroyable).store 5).isSome = true ∧
    ((NvmServer.run demoCfg (nvmWith Flag.nonDestroyable)
      [rq (.add ⟨5, 0, 0, 1, Vector.replicate 24 0⟩ [9]),
       rq (.destroy 1 (Vector.replicate 19 5))]).store 5).isNone = true := by decide +kernel

/-- Finding: without the `Stable` hypothesis C09 is false.  `AddObjectDma` checks the policy
of the id found in client memory and then copies the metadata from client memory again;
a client that changes the id in between overwrites a NONMODIFIABLE object. -/
theorem F_add_dma_race :
    ((NvmServer.run demoCfg (nvmWith Flag.nonModifiable)
      [rq (.addDma .ok .ok false ⟨6, 0, 0, 1, Vector.replicate 24 0⟩
        ⟨5, 0, 0, 1, Vector.replicate 24 0⟩ [9] [9])]).store 5).map (·.2) = some [9] := by
  decide +kernel

/-- Finding: an ADDOBJECT request whose payload does not have the announced length is
answered with `WH_ERROR_OK` although nothing is stored. -/
theorem F_add_bad_length_reported_ok (n : Nvm) (lock : Rc) (md : Meta) (payload : List UInt8)
    (h : payload.length ≠ md.len.toNat) :
    handle cfg n lock (.add md payload) = (.simple .ok, n) := by
  simp [handle, handleAdd, h]

end WolfHsm.Props

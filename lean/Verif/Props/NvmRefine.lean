import Verif.Proofs.NvmServices
import Verif.Props.Counter
import Verif.Props.NvmFlashWitness

/-!
# C50: services on the flash NVM behave as on an atomic object map

See `Verif/Spec/NvmRefine.lean`: `FRun` are the histories of a device whose NVM is the flash
NVM, with power losses between any two flash writes, failing flash commands, and failed or
interrupted boots; `mrun` runs the same service on the object map that the models of the
request handlers use.
-/

namespace WolfHsm.Props

open NvmRefine NvmFlash Flash

variable {Q A S : Type}

/-- C50.  Whatever the clients of a device see, over any history from erased flash, they
would also see from the same requests and power cycles on the object map, for some outcomes
of the NVM calls; and at the end the device shows the objects of the map, or, if it is off,
will show them once it has booted.

Missing for the full claim: after a failed destroy the histories go on with a power cycle; going
on without one loses objects (`F_failed_destroy_then_add_lost`). -/
theorem C50_flash_behaves_as_map_partial {c : Cfg} (hwf : c.WF) (V : Service Q A S) {m0 : Mem}
    (h0 : Erased c m0) {ram0 : S} {evs : List (Ev Q)} {as : List (Option A)} {d : Device S}
    (h : FRun V c ⟨ram0, 0, .off m0⟩ evs as d) :
    ∃ outs es, es.map MEv.seen = evs ∧ Explained as (mrun V (ram0, emptyMap outs) es).1 ∧
      (∀ ctx m, d.dev = .on ctx m → d.ram = (mrun V (ram0, emptyMap outs) es).2.1 ∧
        Shows c ctx m (mrun V (ram0, emptyMap outs) es).2.2.store) ∧
      (∀ m, d.dev = .off m →
        ∃ b, Boots c m ((mrun V (ram0, emptyMap outs) es).2.2.restart b).store) := by
  obtain ⟨outs, es, hs⟩ := history hwf V h (n := emptyMap fun _ => .ok) (s := ram0)
    ⟨.inl (noUsed_erased hwf h0), .inl (C03_fresh hwf h0)⟩ (fun _ _ h => by cases h)
  refine ⟨outs, es, hs.seen, hs.obs, fun ctx m hd => ?_, fun m hd => ?_⟩
  · have := hs.rel
    rw [hd] at this
    exact ⟨hs.ram ctx m hd, this.2.2.1⟩
  · have := hs.rel
    rw [hd] at this
    rcases this.2 with hb | ⟨md, dt, hp, hb⟩
    · refine ⟨false, ?_⟩
      unfold Nvm.restart
      split
      · rename_i h; cases h
      · exact hb
    · refine ⟨true, ?_⟩
      unfold Nvm.restart
      change (mrun V (ram0, emptyMap outs) es).2.2.pending = _ at hp
      rw [hp]
      exact hb

/-- C50.  So a safety property of the histories on the object map holds on the flash: if
observations of the form `P` are impossible on the map, whatever the outcomes of its calls,
they are impossible on the device.  `P` must not get false when some observations get
lost. -/
theorem C50_safety {c : Cfg} (hwf : c.WF) (V : Service Q A S) {m0 : Mem} (h0 : Erased c m0)
    {ram0 : S} (P : List (Ev Q) → List (Option A) → Prop)
    (hlost : ∀ evs as bs, Explained as bs → P evs bs → P evs as)
    (hmap : ∀ outs es, P (es.map MEv.seen) (mrun V (ram0, emptyMap outs) es).1)
    {evs : List (Ev Q)} {as : List (Option A)} {d : Device S}
    (h : FRun V c ⟨ram0, 0, .off m0⟩ evs as d) : P evs as := by
  obtain ⟨outs, es, hs, ho, -⟩ := C50_flash_behaves_as_map_partial hwf V h0 h
  exact hlost _ _ _ ho (hs ▸ hmap outs es)

/-- C50.  The counter request handler is such a service: on the object map the program does
what the model of `wh_Server_HandleCounter` does. -/
theorem C50_counter_requests (n : Nvm) (client : UInt16) (lock : Rc) (r : Counter.Req) :
    ((counters.serve (client, lock, r) ()).onMap n) =
      (((Counter.handle n client lock r).1, ()), (Counter.handle n client lock r).2) := by
  rw [Counter.prog_eq]
  exact NP.onMap_bind _ _ _

/-- C50.  So is the NVM request handler, except for the two queries about the layout of the
flash. -/
theorem C50_nvm_requests (cfg : NvmServer.Cfg) (n : Nvm) (lock : Rc) (r : NvmServer.Req)
    (hr : r.Plain = true) :
    (((nvmRequests cfg).serve (lock, r) ()).onMap n) =
      (((NvmServer.handle cfg n lock r).1, ()), (NvmServer.handle cfg n lock r).2) := by
  rw [NvmServer.prog_eq cfg n lock r hr]
  exact NP.onMap_bind _ _ _

/-- C50.  Add-with-reclaim of the programs is `wh_Nvm_AddObjectWithReclaim` on the flash, in
executions without faults. -/
theorem C50_reclaim_is_code {c : Cfg} {md : Meta} {data : List UInt8} {k : Nat} {ctx : Ctx}
    {m : Mem} {rc : Rc} {k' : Nat} {ctx' : Ctx} {m' : Mem}
    (h : runFlash c (.addReclaim md data .ret) k ctx m = some (rc, k', ctx', m')) :
    run c.dev (addObjectWithReclaim c ctx md data) m = ((rc, ctx'), m') := by
  rcases heq : getAvailable c ctx with ⟨r, a, b, x, y⟩
  simp only [runFlash, heq] at h
  simp only [addObjectWithReclaim, heq]
  split at h
  · rw [if_pos ‹_›]; cases h; rfl
  · rw [if_neg ‹_›]
    split at h
    · rw [if_pos ‹_›]
      split at h
      · rw [if_pos ‹_›]
        split at h
        · rename_i hc
          cases h
          rw [run_bind]
          rcases hr : run c.dev (destroyObjects c ctx []) m with ⟨⟨rc1, ctx1⟩, m1⟩
          rw [hr] at hc
          dsimp only
          rw [if_pos hc.1]
        · cases h
      · rw [if_neg ‹_›]; cases h; rfl
    · rw [if_neg ‹_›]
      split at h
      · cases h; rfl
      · cases h

/-! ## C22 on the flash -/

/-- The event in the vocabulary of C22. -/
private def toEv : MEv (UInt16 × Rc × Counter.Req) → Counter.Ev
  | .req q => .req q.1 q.2.1 q.2.2
  | .restart b => .restart b

private theorem values_eq (x : Counter.Name) (es : List (MEv (UInt16 × Rc × Counter.Req))) :
    ∀ (n : Nvm), counterValues x (es.map MEv.seen) (mrun counters ((), n) es).1 =
      Counter.reports x n (es.map toEv) := by
  induction es with
  | nil => intro n; rfl
  | cons e es ih =>
    intro n
    cases e with
    | req q =>
      obtain ⟨client, lock, r⟩ := q
      have hs : mstep counters ((), n) (.req (client, lock, r)) =
          (if (Counter.handle n client lock r).2.powered then
              some (Counter.handle n client lock r).1 else none, (),
            (Counter.handle n client lock r).2) := by
        simp only [mstep, C50_counter_requests]
        by_cases hn : n.powered = true
        · rw [if_pos hn]
        · have e : (Counter.handle n client lock r).2 = n := by
            rw [Counter.prog_eq]; exact onMap_off _ (by simpa using hn)
          rw [if_neg hn, e, if_neg hn]
      simp only [List.map_cons, mrun, hs, MEv.seen, toEv, Counter.reports, Counter.report,
        Counter.step]
      by_cases hp : (Counter.handle n client lock r).2.powered = true
      · simp only [hp, if_true, counterValues, and_true]
        rw [ih]
        by_cases ht : r.target client = some x ∧ (Counter.handle n client lock r).1.rc = .ok
        · rw [if_pos ht, if_pos ht]; rfl
        · rw [if_neg ht, if_neg ht]; rfl
      · simp only [Bool.not_eq_true] at hp
        simp only [hp, Bool.false_eq_true, and_false, if_false, counterValues, Option.toList, List.nil_append]
        exact ih _
    | restart b =>
      simp only [List.map_cons, mrun, mstep, MEv.seen, toEv, Counter.reports, Counter.report,
        Counter.step, counterValues, Option.toList, List.nil_append]
      exact ih _

private theorem values_lost (x : Counter.Name) (evs : List (Ev (UInt16 × Rc × Counter.Req))) :
    ∀ (as bs : List (Option Counter.Resp)), Explained as bs →
      (counterValues x evs as).Sublist (counterValues x evs bs) := by
  induction evs with
  | nil => intro as bs _; simp [counterValues]
  | cons e evs ih =>
    intro as bs h
    match as, bs, h with
    | [], [], _ => exact List.Sublist.refl _
    | o :: as, o' :: bs, ⟨ho, h⟩ =>
      cases e with
      | restart => simp only [counterValues]; exact ih _ _ h
      | req q =>
        cases o with
        | none =>
          cases o' with
          | none => simp only [counterValues]; exact ih _ _ h
          | some a =>
            simp only [counterValues]
            exact (ih _ _ h).trans (List.sublist_append_right _ _)
        | some a =>
          rw [ho a rfl]
          simp only [counterValues]
          exact List.Sublist.append (List.Sublist.refl _) (ih _ _ h)

/-- C22 on the flash.  A device with flash NVM has been used in any way; then it is
switched on again.  From then on, as long as nobody resets the counter, the values clients
see of it never decrease, through flash errors and power losses. -/
theorem C50_counter_never_decreases {c : Cfg} (hwf : c.WF) {m0 : Mem} (h0 : Erased c m0)
    {evs0 evs : List (Ev (UInt16 × Rc × Counter.Req))} {as0 as : List (Option Counter.Resp)}
    {d d' : Device Unit} (hpast : FRun counters c ⟨(), 0, .off m0⟩ evs0 as0 d)
    (h : FRun counters c d (.restart :: evs) as d') (c0 i0 : UInt16)
    (hk : ∀ client lock r, Ev.req (client, lock, r) ∈ evs → r.resets = true →
      r.target client ≠ some ⟨c0.toNat % 16, i0.toNat % 256⟩) :
    List.Pairwise (· ≤ ·)
      (counterValues ⟨c0.toNat % 16, i0.toNat % 256⟩ (.restart :: evs) as) := by
  obtain ⟨o1, es1, hs1⟩ := history hwf counters hpast (n := emptyMap fun _ => .ok) (s := ())
    ⟨.inl (noUsed_erased hwf h0), .inl (C03_fresh hwf h0)⟩ (fun _ _ h => by cases h)
  have hid := idsOk_mrun counters es1 (s := ()) (n := withOuts (emptyMap fun _ => .ok) o1)
    (fun _ _ _ h => by cases h)
  obtain ⟨o2, es, hs⟩ := history hwf counters h hs1.rel (s := ()) (fun _ _ _ => rfl)
  obtain ⟨-, seen, obs, -, -, -⟩ := hs
  match es, seen with
  | .restart b :: es, seen =>
    have seen' : es.map MEv.seen = evs := by simpa [MEv.seen] using seen
    rw [← seen] at *
    refine List.Pairwise.sublist (values_lost _ _ _ _ obs) ?_
    rw [values_eq]
    simp only [List.map_cons, toEv, Counter.reports, Counter.report, Counter.step, Option.toList,
      List.nil_append]
    refine C22_reports_never_decrease _ ?_ (idsOk_restart (n := withOuts _ o2) hid b) c0 i0 _ ?_
    · unfold Nvm.restart; split <;> rfl
    · intro e he
      obtain ⟨e', he', rfl⟩ := List.mem_map.mp he
      cases e' with
      | restart b => trivial
      | req q =>
        intro hr
        exact hk q.1 q.2.1 q.2.2 (seen' ▸ List.mem_map.mpr ⟨_, he', rfl⟩) hr

/-! ## A concrete device

Two partitions of 30 units, 3 objects.  Client 2 creates its counter 7 and increments it until
the directory is full and has to be reclaimed; the device is restarted twice; another client's
counter is created and destroyed. -/

namespace RefineDemo

open NvmDemo

def past : List (Ev (UInt16 × Rc × Counter.Req)) := [.restart, .req (2, .ok, .init 7 0xFFFFFFFA)]

def future : List (Ev (UInt16 × Rc × Counter.Req)) :=
  [.req (2, .ok, .increment 7), .req (2, .ok, .increment 7), .req (2, .ok, .increment 7),
   .req (3, .ok, .init 7 1), .restart, .req (2, .locked, .read 7), .req (2, .ok, .read 7),
   .req (3, .ok, .destroy 7), .req (2, .ok, .increment 7), .req (2, .ok, .increment 7),
   .req (2, .ok, .increment 7)]

@[irreducible] def before := runHist counters c0 ⟨(), 0, .off m0⟩ past
@[irreducible] def dev := (before.map (·.2)).getD ⟨(), 0, .off m0⟩
@[irreducible] def after := runHist counters c0 dev (.restart :: future)

theorem before_ok : before.isSome = true := by decide +kernel
theorem after_ok : after.isSome = true := by decide +kernel

/-- What the clients see. -/
example : after.map (·.1) = some [none, some ⟨.ok, 0xFFFFFFFB⟩, some ⟨.ok, 0xFFFFFFFC⟩,
    some ⟨.ok, 0xFFFFFFFD⟩, some ⟨.ok, 1⟩, none, some ⟨.locked, 0⟩, some ⟨.ok, 0xFFFFFFFD⟩,
    some ⟨.ok, 0⟩, some ⟨.ok, 0xFFFFFFFE⟩, some ⟨.ok, 0xFFFFFFFF⟩, some ⟨.ok, 0xFFFFFFFF⟩] := by
  decide +kernel

/-- Both partitions were switched twice: by the destroy and by one reclaim. -/
example : after.map (·.2.count) = some 2 := by decide +kernel

/-- The hypotheses of `C50_counter_never_decreases` hold of this history. -/
example : ∃ as0 as d d', FRun counters c0 ⟨(), 0, .off m0⟩ past as0 d ∧
    FRun counters c0 d (.restart :: future) as d' ∧
    ∀ client lock r, Ev.req (client, lock, r) ∈ future → r.resets = true →
      r.target client ≠ some ⟨(2 : UInt16).toNat % 16, (7 : UInt16).toNat % 256⟩ := by
  obtain ⟨⟨as0, d⟩, h1⟩ := Option.isSome_iff_exists.mp before_ok
  obtain ⟨⟨as, d'⟩, h2⟩ := Option.isSome_iff_exists.mp after_ok
  have hd : dev = d := by unfold dev; rw [h1]; rfl
  unfold before at h1
  unfold after at h2
  rw [hd] at h2
  refine ⟨as0, as, d, d', runHist_sound _ _ h1, runHist_sound _ _ h2, ?_⟩
  intro client lock r h
  simp only [future, List.mem_cons, List.not_mem_nil, or_false, Ev.req.injEq, Prod.mk.injEq,
    reduceCtorEq, false_or] at h
  rcases h with h | h | h | h | h | h | h | h | h | h <;> obtain ⟨rfl, rfl, rfl⟩ := h <;> decide

/-- A power loss during the reclaim's flash writes is among the histories too: the request is
not answered, and the device is off. -/
example (ctx : Ctx) (m : Mem) : ∃ m', FRun counters c0 ⟨(), 0, .on ctx m⟩
    [.req (2, .ok, .increment 7)] [none] ⟨(), 0, .off m'⟩ :=
  ⟨m, .reqCut .cut .nil⟩

end RefineDemo

end WolfHsm.Props

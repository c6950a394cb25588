import Verif.Proofs.Locks
import Verif.Proofs.LockedRequests

/-!
# C69: requests that take several locks

Partial: that the handlers take locks only at the places of `site` is read from the code, not derived from models of all handlers,
and "can be answered" leaves open whether a mutex serves a waiting thread in time, which POSIX does not promise.
-/

namespace WolfHsm.Props

open Locks

variable {S A R : Type}

/-- **C69.** Whatever the requests do with the shared state, if they take locks only at the places of `site`: after any schedule,
with any failed attempts to lock, every server context can still answer all its requests, one answer each, if from then on
no attempt to lock fails. -/
theorem C69_all_answered_partial (prog : Nat → R → Work S A) (hp : ∀ t r, (prog t r).Conforms none) (s : S) (todo : Nat → List R)
    (es : List (Nat × Option Rc)) (t : Nat) :
    ∃ fs : List (Nat × Option Rc), (∀ e ∈ fs, e.2 = none) ∧
      ((run prog (start s todo) (es ++ fs)).threads t).cur = none ∧
      ((run prog (start s todo) (es ++ fs)).threads t).todo = [] ∧
      ((run prog (start s todo) (es ++ fs)).threads t).answers.length = (todo t).length ∧
      ((run prog (start s todo) es).threads t).answers <+: ((run prog (start s todo) (es ++ fs)).threads t).answers := by
  obtain ⟨fs, h1, as, h2, h3⟩ := finish_all hp t _ _ (inv_run hp es (inv_start s todo)) rfl
  have hn := counts prog es (start s todo : World R S A) t
  refine ⟨fs, h1, ?_⟩
  rw [run_append, h3]
  refine ⟨rfl, rfl, ?_, List.prefix_append _ _⟩
  simp only [List.length_append, h2]
  simp only [start, open_] at hn ⊢
  simpa [Nat.add_comm] using hn

/-- **C69.** After any schedule, if some server context has work to do then one of them can go on at once. -/
theorem C69_no_deadlock_partial (prog : Nat → R → Work S A) (hp : ∀ t r, (prog t r).Conforms none) (s : S) (todo : Nat → List R)
    (es : List (Nat × Option Rc)) (t : Nat) (hb : (run prog (start s todo) es).Busy t) :
    ∃ u, (run prog (start s todo) es).Busy u ∧ ¬ (run prog (start s todo) es).Waits u := by
  refine Classical.byContradiction fun hno => ?_
  obtain ⟨fs, h1, as, h2, h3⟩ := finish_all hp t _ _ (inv_run hp es (inv_start s todo)) rfl
  rw [stuck_run _ (fun u => Classical.byContradiction fun hu => hno ⟨u, ?_, ?_⟩) fs h1] at h3
  · rcases hb with hb | hb
    · exact hb (by rw [h3])
    · exact hb (by rw [h3])
  · exact Classical.byContradiction fun hx => hu (.inl hx)
  · exact fun hx => hu (.inr hx)

/-- **C69.** After any schedule, a context that is between requests holds no lock, and none waits for a lock it holds itself. -/
theorem C69_released_partial (prog : Nat → R → Work S A) (hp : ∀ t r, (prog t r).Conforms none) (s : S) (todo : Nat → List R)
    (es : List (Nat × Option Rc)) (t : Nat) :
    (((run prog (start s todo) es).threads t).cur = none → ∀ l, (run prog (start s todo) es).owner l ≠ some t) ∧
    ∀ l k, ((run prog (start s todo) es).threads t).cur = some (.lock l k) → (run prog (start s todo) es).owner l ≠ some t := by
  have h := inv_run hp es (inv_start s todo) t
  unfold ThreadInv at h
  refine ⟨fun hc => ?_, fun l k hc ho => ?_⟩
  · rw [hc] at h; exact h
  · rw [hc] at h
    obtain ⟨hh, ⟨h1, -, -⟩, -, h3⟩ := h
    exact absurd (h1 l ((h3 l).mp ho)) (Nat.lt_irrefl _)

/-- **C69.** The counter, storage, key and certificate handlers of C46, read as `Work`, take exactly the steps they have there. -/
theorem C69_handler_steps {E : Type} (cfg : Lock.Cfg E) (t n : Nat) (r : Lock.Req E) :
    (workOf ⟨.nvm, n⟩ ((Lock.handler cfg t r).map some)).steps .ret = ofProg ⟨.nvm, n⟩ ((Lock.handler cfg t r).map some) :=
  work_steps _ _ (Lock.disciplined_map _ (Lock.handler_disciplined cfg t r))

/-- **C69.** Server contexts that authorize each request under the lock of their authentication manager, with any check that may
use the NVM, and then run these handlers on one NVM: nothing has to be read from the code about the handlers' locks, and after
any schedule every context can answer all its requests, and if some context has work to do one can go on. -/
theorem C69_handlers {E : Type} (cfg : Lock.Cfg E) (auth : Nat → Nat) (nvm : Nat)
    (check : Nat → Lock.Req E → Work Lock.Shared (Option Lock.Ans)) (hc : ∀ t r, (check t r).Conforms (some .auth))
    (refuse : Rc → Lock.Ans) (s : Lock.Shared) (todo : Nat → List (Lock.Req E)) (es : List (Nat × Option Rc)) (t : Nat) :
    let prog := fun t r => request (auth t) nvm (check t r) refuse ((Lock.handler cfg t r).map some)
    (∃ fs : List (Nat × Option Rc), (∀ e ∈ fs, e.2 = none) ∧
      ((run prog (start s todo) (es ++ fs)).threads t).todo = [] ∧
      ((run prog (start s todo) (es ++ fs)).threads t).answers.length = (todo t).length) ∧
    ((run prog (start s todo) es).Busy t →
      ∃ u, (run prog (start s todo) es).Busy u ∧ ¬ (run prog (start s todo) es).Waits u) := by
  dsimp only
  refine ⟨?_, fun hb => ?_⟩
  · obtain ⟨fs, h1, -, h3, h4, -⟩ := C69_all_answered_partial
      (fun t r => request (auth t) nvm (check t r) refuse ((Lock.handler cfg t r).map some))
      (fun t r => request_conforms _ _ _ _ _ (hc t r)) s todo es t
    exact ⟨fs, h1, h3, h4⟩
  · exact C69_no_deadlock_partial _ (fun t r => request_conforms _ _ _ _ _ (hc t r)) s todo es t hb

/-- A check that meets the hypothesis: it looks up a user in the NVM, under its lock. -/
example : (Work.access id fun (_ : Nat) => .locked ⟨.nvm, 0⟩ (.access id fun _ => .done (some 1)) fun _ => .done none :
    Work Nat (Option Nat)).Conforms (some .auth) := by simp [Work.Conforms, site]

/-- **C69.** At the places of `site` the order is needed: a request that takes the authentication lock while it holds the NVM
lock, beside a login, can leave two contexts waiting for each other for good. -/
theorem C69_order_needed : ∃ (prog : Nat → Unit → Work Nat Nat) (es : List (Nat × Option Rc)),
    (prog 0 ()).Conforms none ∧ ¬ (prog 1 ()).Conforms none ∧ (∀ e ∈ es, e.2 = none) ∧
    (run prog (start 0 fun t => if t < 2 then [()] else []) es).Waits 0 ∧
    (run prog (start 0 fun t => if t < 2 then [()] else []) es).Waits 1 := by
  refine ⟨fun t _ => if t = 0
      then .locked ⟨.auth, 0⟩ (.locked ⟨.nvm, 0⟩ (.done 1) fun _ => .done 1) fun _ => .done 1
      else .locked ⟨.nvm, 0⟩ (.locked ⟨.auth, 0⟩ (.done 1) fun _ => .done 1) fun _ => .done 1,
    [(0, none), (1, none), (0, none), (1, none)], ?_, ?_, by decide, ?_, ?_⟩
  · simp [Work.Conforms, site]
  · simp [Work.Conforms, site]
  · exact waits_of (l := ⟨.nvm, 0⟩) (by decide +kernel) (by decide +kernel)
  · exact waits_of (l := ⟨.auth, 0⟩) (by decide +kernel) (by decide +kernel)

namespace LocksDemo

/-- Count an access. -/
def touch (w : Work Nat Nat) : Work Nat Nat := .access (· + 1) fun _ => w

/-- The authorization check of the dispatcher (src/wh_server.c:594), then: a login (authentication lock, NVM lock inside), a key
wrap (NVM, hardware key store inside), a certificate check (NVM, verify cache inside). -/
def prog (_ : Nat) (r : Nat) : Work Nat Nat :=
  .locked ⟨.auth, 0⟩ (touch (.done 0)) fun x => match x with
    | .error _ => .done 99
    | .ok _ => match r with
      | 0 => .locked ⟨.auth, 0⟩ (touch (.locked ⟨.nvm, 0⟩ (touch (.done 1)) fun _ => .done 1)) fun _ => .done 10
      | 1 => .locked ⟨.nvm, 0⟩ (touch (.locked ⟨.hw, 0⟩ (touch (.done 1)) fun _ => .done 1)) fun _ => .done 11
      | _ => .locked ⟨.nvm, 0⟩ (touch (.locked ⟨.cache, 0⟩ (touch (.done 1)) fun _ => .done 1)) fun _ => .done 12

theorem conforms (t r : Nat) : (prog t r).Conforms none := by
  refine ⟨rfl, fun _ => trivial, fun x => ?_⟩
  cases x with
  | error _ => trivial
  | ok _ => match r with
    | 0 => exact ⟨rfl, fun _ => ⟨rfl, fun _ => trivial, fun _ => trivial⟩, fun _ => trivial⟩
    | 1 => exact ⟨rfl, fun _ => ⟨rfl, fun _ => trivial, fun _ => trivial⟩, fun _ => trivial⟩
    | _ + 2 => exact ⟨rfl, fun _ => ⟨rfl, fun _ => trivial, fun _ => trivial⟩, fun _ => trivial⟩

def w0 : World Nat Nat Nat := start 0 fun t => if t < 3 then [t, 0] else []

/-- Context 1 is checked and takes the NVM lock; context 0 is checked, starts its login and waits for it. -/
def es : List (Nat × Option Rc) :=
  List.replicate 6 (1, none) ++ List.replicate 8 (0, none) ++ [(2, none), (2, some .aborted)]

/-- Three contexts are at work: one waits for the NVM lock and holds the authentication lock, one holds the NVM lock and is at the
hardware key store, and the attempt to lock of the third has failed. -/
example : (run prog w0 es).Waits 0 ∧ (run prog w0 es).owner ⟨.auth, 0⟩ = some 0 ∧ (run prog w0 es).owner ⟨.nvm, 0⟩ = some 1 ∧
    (run prog w0 es).Busy 1 ∧ (run prog w0 es).Busy 2 :=
  ⟨waits_of (l := ⟨.nvm, 0⟩) (by decide +kernel) (by decide +kernel), by decide +kernel, by decide +kernel, .inr (by decide +kernel), .inr (by decide +kernel)⟩

/-- And all of them get their answers: two logins in context 0, the wrap in context 1, the refusal in context 2. -/
example :
    let fs := es ++ List.replicate 40 (1, none) ++ List.replicate 40 (0, none) ++ List.replicate 40 (2, none)
    ((run prog w0 fs).threads 0).answers = [10, 10] ∧ ((run prog w0 fs).threads 1).answers = [11] ∧
    ((run prog w0 fs).threads 2).answers = [99, 10] := by decide +kernel

end LocksDemo

end WolfHsm.Props

import Verif.Proofs.HwKeystore

/-!
# C68: keys from the hardware key store
-/

namespace WolfHsm.Props

open HwKs
open Lock (Start run only inFlight)

variable {S : Type}

/-- **C68.** However threads that ask one key store for keys are scheduled, and whichever attempts to lock fail: no access to
the hardware overlaps the work of another thread, the answers of each thread are those of asking one after the other, in
an order that is each thread's own order, and so is the hardware when nobody holds the lock. -/
theorem C68_one_at_a_time (b : Ask → Backend S) {w0 : Lock.World Ask S Ans} (h0 : Start w0) (es : List (Nat × Option Rc)) :
    let w := run (fun _ => getKeyProg b) w0 es
    w.bad = false ∧
    (w.lock.owner = none → w.shared = (oneByOne b w0.shared w.log).2) ∧
    (∀ t, (w.threads t).answers <+: only t (oneByOne b w0.shared w.log).1) ∧
    (∀ t, (w.threads t).cur = none → (w.threads t).answers = only t (oneByOne b w0.shared w.log).1) ∧
    (∀ t, (only t w.log).map Prod.fst ++ inFlight (w.threads t) ++ (w.threads t).todo = (w0.threads t).todo) := by
  have h := Lock.run_inv (fun _ a => disciplined b a) es (Lock.start_inv h0)
  dsimp only
  rw [← serial_eq]
  refine ⟨h.good, h.shared, fun t => ?_, fun t hc => ?_, h.order⟩
  · have ht := h.thread t
    unfold Lock.ThreadInv at ht
    split at ht
    · exact ht.1 ▸ List.prefix_refl _
    · exact ht.1 ▸ List.prefix_refl _
    · obtain ⟨_, a, _, e⟩ := ht
      exact ⟨[a], e⟩
  · have ht := h.thread t
    unfold Lock.ThreadInv at ht
    rw [hc] at ht
    exact ht.1

/-- **C68.** A thread that has its answer does not hold the lock, and every thread that asks can get its answer. -/
theorem C68_released (b : Ask → Backend S) {w0 : Lock.World Ask S Ans} (h0 : Start w0) (es : List (Nat × Option Rc)) (t : Nat) :
    (((run (fun _ => getKeyProg b) w0 es).threads t).cur = none → (run (fun _ => getKeyProg b) w0 es).lock.owner ≠ some t) ∧
    (((run (fun _ => getKeyProg b) w0 es).threads t).cur ≠ none ∨ ((run (fun _ => getKeyProg b) w0 es).threads t).todo ≠ [] →
      ∃ fs : List (Nat × Option Rc), (∀ e ∈ fs, e.2 = none) ∧
        ((run (fun _ => getKeyProg b) w0 (es ++ fs)).threads t).answers.length =
          ((run (fun _ => getKeyProg b) w0 es).threads t).answers.length + 1) := by
  have h := Lock.run_inv (fun _ a => disciplined b a) es (Lock.start_inv h0)
  refine ⟨fun hidle => ?_, fun hw => ?_⟩
  · have ht := h.thread t
    unfold Lock.ThreadInv at ht
    rw [hidle] at ht
    exact ht.2
  · obtain ⟨fs, h1, h2⟩ := Lock.can_answer (fun _ a => disciplined b a) h t hw
    exact ⟨fs, h1, by rw [Lock.run_append]; exact h2⟩

/-- **C68.** Whatever calls one thread makes, in any order and with any failures of lock and backend: every call returns, with
the answer and the use of the backend that `Does` says. -/
theorem C68_story (b : Ask → Backend S) (hw : S) (errCheck : Bool) (es : List Ev) :
    ∃ as s o, calls b (fresh hw errCheck) es = some (as, s) ∧ as.length = es.length ∧
      Story b (false, hw) (es.zip as) s.used (o, s.hw) ∧ s.ctx.initialized = o := by
  obtain ⟨as, s, o, us, h1, h2, h3, h4, h5⟩ := calls_story (b := b) es (inv_fresh hw errCheck)
  have : s.used = us := by rw [h4]; rfl
  exact ⟨as, s, o, h1, h2, this ▸ h3, h5.ini⟩

/-- **C68.** The backend is asked and closed only between being opened and being closed, and never opened twice, as long as
the application does not call `Init` on a key store that is open.  When the key store is not initialized in the end, every
opening has been closed. -/
theorem C68_paired (b : Ask → Backend S) (hw : S) (errCheck : Bool) (es : List Ev) (as : List Ans) (s : State S)
    (h : calls b (fresh hw errCheck) es = some (as, s)) (hi : InitWhenClosed false (es.zip as)) :
    proper false s.used = some s.ctx.initialized := by
  obtain ⟨as', s', o, h1, -, h3, h4⟩ := C68_story b hw errCheck es
  rw [h] at h1
  cases h1
  rw [h4]
  exact story_proper h3 hi

/-! ## Concrete cases -/

namespace HwDemo

/-- A key store with a register for the key's number: a call writes it, waits, and reads the key of the number it finds. -/
def backend (a : Ask) : Backend UInt16 :=
  .access (fun _ => a.id) fun _ => .access id fun n =>
    if a.room < 2 then .done .bufferSize [] else .done .ok [n.toUInt8, 0xAA]

def world (l : Lock.Lock) : Lock.World Ask UInt16 Ans where
  shared := 0
  lock := l
  threads t := ⟨if t = 0 then [⟨5, 32⟩, ⟨6, 1⟩] else if t = 1 then [⟨7, 32⟩] else [], none, []⟩
  log := []
  bad := false

/-- The lock as `wh_HwKeystore_Init` sets it up. -/
def locked : Lock.Lock := (init (fresh (0 : UInt16) false) (some .ok) .ok true).2.ctx.lock

/-- The lock when none is configured. -/
def unlocked : Lock.Lock := (init (fresh (0 : UInt16) false) none .ok true).2.ctx.lock

theorem start : Start (world locked) := ⟨⟨rfl, rfl, rfl⟩, rfl, fun _ => ⟨rfl, rfl⟩, rfl, rfl⟩

/-- The threads take turns. -/
def turns (n : Nat) : List (Nat × Option Rc) := (List.replicate n [(0, none), (1, none)]).flatten

end HwDemo

open HwDemo in
/-- Two threads take turns; each gets its own key. -/
example : Start (world locked) ∧
    ((run (fun _ => getKeyProg backend) (world locked) (turns 24)).threads 0).answers = [⟨.ok, [5, 0xAA]⟩, ⟨.bufferSize, []⟩] ∧
    ((run (fun _ => getKeyProg backend) (world locked) (turns 24)).threads 1).answers = [⟨.ok, [7, 0xAA]⟩] :=
  ⟨start, by decide +kernel, by decide +kernel⟩

open HwDemo in
/-- What the lock is for: without one, a thread gets the key another one has asked for. -/
theorem F_C68_no_lock :
    ((run (fun _ => getKeyProg backend) (world unlocked) (turns 24)).threads 0).answers = [⟨.ok, [7, 0xAA]⟩, ⟨.bufferSize, []⟩] := by
  decide +kernel

open HwDemo in
/-- A history with failures of lock and backend, closing twice, and asking when closed; `Init` is called when closed only. -/
example : ∃ as s, calls backend (fresh 0 false) [.getKey ⟨1, 9⟩ none, .init (some .aborted) .ok true, .init (some .ok) .notfound true,
      .init (some .ok) .ok true, .getKey ⟨5, 32⟩ none, .getKey ⟨6, 32⟩ (some .aborted), .cleanup .locked false, .cleanup .locked true,
      .getKey ⟨1, 9⟩ none, .init (some .ok) .ok true, .getKey ⟨8, 32⟩ none] = some (as, s) ∧
    as.map Ans.rc = [.badargs, .aborted, .notfound, .ok, .ok, .aborted, .locked, .ok, .badargs, .ok, .ok] ∧
    s.used = [.opened, .asked ⟨5, 32⟩, .closed, .opened, .asked ⟨8, 32⟩] ∧
    InitWhenClosed false ([Ev.getKey ⟨1, 9⟩ none, .init (some .aborted) .ok true, .init (some .ok) .notfound true,
      .init (some .ok) .ok true, .getKey ⟨5, 32⟩ none, .getKey ⟨6, 32⟩ (some .aborted), .cleanup .locked false, .cleanup .locked true,
      .getKey ⟨1, 9⟩ none, .init (some .ok) .ok true, .getKey ⟨8, 32⟩ none].zip as) := by
  refine ⟨_, _, rfl, by decide +kernel, by decide +kernel, ?_⟩
  simp [InitWhenClosed, init, cleanup, fresh, Lock.Lock.start, Lock.Lock.zero, Ctx.zero, call, getKey, backend, Lock.Lock.acquire,
    Lock.Lock.release, Lock.Lock.cleanup, Backend.alone]

/-- Opening a key store that is open opens the backend twice and closes it once. -/
theorem F_C68_opened_twice :
    (calls HwDemo.backend (fresh 0 false) [.init none .ok true, .init none .ok true, .cleanup .ok true]).map (fun r => r.2.used) =
      some [.opened, .opened, .closed] := by
  decide +kernel

end WolfHsm.Props

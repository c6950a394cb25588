import Verif.Proofs.AuthThreadsOne
import Verif.Proofs.Locks
import Verif.Props.Auth

/-!
# C71: requests of the authentication manager in parallel threads

Partial: for connections that share one lock; that contexts do is not required of the configuration.
-/

namespace WolfHsm.Props

open AuthThreads
open Auth (Cfg St)
open Lock (Start run only inFlight)

/-- **C71.** Connections that share one lock for authentication: however their logins, logouts, additions, deletions and look-ups of
users, changes of permissions and credentials and checks of what is allowed are scheduled, and whichever attempts to lock fail, no
access to the users overlaps another connection's, the answers are those of the requests done one after the other, in an order that is
each connection's own order, and so are users and sessions when nobody holds the lock. -/
theorem C71_serial_partial (cfg : Cfg) {w0 : Lock.World Req St Ans} (h0 : Start w0) (es : List (Nat × Option Rc)) :
    let w := run (prog cfg) w0 es
    w.bad = false ∧
    (w.lock.owner = none → w.shared = (AuthThreads.oneByOne cfg w0.shared w.log).2) ∧
    (∀ t, (w.threads t).answers <+: only t (AuthThreads.oneByOne cfg w0.shared w.log).1) ∧
    (∀ t, (w.threads t).cur = none → (w.threads t).answers = only t (AuthThreads.oneByOne cfg w0.shared w.log).1) ∧
    (∀ t, (only t w.log).map Prod.fst ++ inFlight (w.threads t) ++ (w.threads t).todo = (w0.threads t).todo) := by
  have h := Lock.run_inv (fun x r => AuthThreads.disciplined cfg x r) es (Lock.start_inv h0)
  dsimp only
  rw [← AuthThreads.serial_eq]
  refine ⟨h.good, h.shared, fun t => ?_, fun t hc => ?_, h.order⟩
  · have ht := h.thread t
    unfold Lock.ThreadInv at ht
    split at ht
    · exact ht.1 ▸ List.prefix_refl _
    · exact ht.1 ▸ List.prefix_refl _
    · obtain ⟨_, a, _, e⟩ := ht
      exact ⟨[a], e⟩
  · have ht := h.thread t
    unfold Lock.ThreadInv at ht
    rw [hc] at ht
    exact ht.1

/-- **C71.** When connections that share one lock all try to log in as one user, with any credentials and methods, then under every
schedule at most one of them is told that it is logged in, and that once. -/
theorem C71_one_login (cfg : Cfg) {w0 : Lock.World Req St Ans} (h0 : Start w0) (name : List UInt8)
    (hr : ∀ t, ∀ r ∈ (w0.threads t).todo, ∃ m d, r = .login m name d) (es : List (Nat × Option Rc)) :
    (∀ t u, (∃ a ∈ ((run (prog cfg) w0 es).threads t).answers, a.2.1 = true) →
      (∃ a ∈ ((run (prog cfg) w0 es).threads u).answers, a.2.1 = true) → t = u) ∧
    ∀ t, (((run (prog cfg) w0 es).threads t).answers.filter fun a => a.2.1).length ≤ 1 := by
  obtain ⟨-, -, hpre, -, hord⟩ := C71_serial_partial cfg h0 es
  have hone := one_win cfg name (run (prog cfg) w0 es).log w0.shared fun e he => by
    obtain ⟨t, r, rc⟩ := e
    refine hr t r ?_
    rw [← hord t]
    refine List.mem_append_left _ (List.mem_append_left _ ?_)
    exact List.mem_map.mpr ⟨(r, rc), List.mem_map.mpr ⟨(t, r, rc), List.mem_filter.mpr ⟨he, by simp⟩, rfl⟩, rfl⟩
  revert hone hpre
  generalize (AuthThreads.oneByOne cfg w0.shared (run (prog cfg) w0 es).log).1 = l
  intro hpre hone
  unfold wins at hone
  refine ⟨fun t u ht hu => ?_, fun t => ?_⟩
  · have mem : ∀ t, (∃ a ∈ ((run (prog cfg) w0 es).threads t).answers, a.2.1 = true) → ∃ a, (t, a) ∈ l.filter fun a => a.2.2.1 := by
      rintro t ⟨a, ha, hat⟩
      obtain ⟨p, hp, rfl⟩ := List.mem_map.mp ((hpre t).subset ha)
      obtain ⟨hp1, hp2⟩ := List.mem_filter.mp hp
      have : p.1 = t := by simpa using hp2
      exact ⟨p.2, List.mem_filter.mpr ⟨by rw [← this]; exact hp1, hat⟩⟩
    obtain ⟨a, ha⟩ := mem t ht
    obtain ⟨b, hb⟩ := mem u hu
    revert ha hb hone
    generalize (l.filter fun a => a.2.2.1) = f
    intro hone ha hb
    match f, hone with
    | [], _ => cases ha
    | [p], _ =>
      rw [List.mem_singleton] at ha hb
      exact congrArg Prod.fst (ha.trans hb.symm)
    | _ :: _ :: _, h => simp at h
  · refine Nat.le_trans ?_ hone
    refine Nat.le_trans ((hpre t).filter _).length_le ?_
    unfold only
    rw [List.filter_map, List.length_map, List.filter_filter]
    have hcomm : (fun a : Nat × Ans => ((fun a => a.2.1) ∘ Prod.snd) a && (a.1 == t)) =
        fun a => (a.1 == t) && a.2.2.1 := by
      funext a
      exact Bool.and_comm ..
    rw [hcomm, ← List.filter_filter]
    exact List.length_filter_le ..

namespace AuthThreadsDemo

instance : DecidableEq Ans := inferInstance

/-- Users in RAM, PINs stored as they are. -/
def cfg : Cfg := { AuthDemo.cfg with useNvm := false }

/-- One user "a" with PIN "12". -/
def s0 : St := { AuthDemo.blank AuthDemo.fine with
  up := true
  users := fun i => if i = 0 then ⟨1, [97], Auth.Perms.zero, false, Auth.mPin, 2⟩ else Auth.Slot.empty
  ram := fun i => if i = 0 then [49, 50] else [] }

def req : Req := .login Auth.mPin [97] [49, 50]

/-- Two connections that log in as this user, with one lock. -/
def w0 : Lock.World Req St Ans := ⟨s0, ⟨true, true, true, true, none⟩, fun t => ⟨if t < 2 then [req] else [], none, []⟩, [], false⟩

example : Start w0 := ⟨⟨rfl, rfl, rfl⟩, rfl, fun _ => ⟨rfl, rfl⟩, rfl, rfl⟩

example : ∀ t, ∀ r ∈ (w0.threads t).todo, ∃ m d, r = .login m [97] d := by
  intro t r hr
  have : r = req := by
    by_cases h : t < 2
    · simpa [w0, h] using hr
    · simp [w0, h] at hr
  exact ⟨_, _, this⟩

/-- Their steps alternate; one is logged in and the other is not. -/
example :
    let es := (List.replicate 16 [(0, none), (1, none)]).flatten
    ((run (prog cfg) w0 es).threads 0).answers = [(.ok, true, none)] ∧ ((run (prog cfg) w0 es).threads 1).answers = [(.ok, false, none)] := by
  decide +kernel

/-- The user is an administrator with a session on connection 0; there is a second user "b" with PIN "12". -/
def s1 : St := { s0 with
  users := fun i => if i = 0 then ⟨1, [97], AuthDemo.full, true, Auth.mPin, 2⟩
    else if i = 1 then ⟨2, [98], Auth.Perms.zero, false, Auth.mPin, 2⟩ else Auth.Slot.empty
  ram := fun i => if i < 2 then [49, 50] else []
  sess := fun x => if x = 0 then ⟨1, AuthDemo.full⟩ else Auth.Session.none }

/-- The administrator changes the second user's permissions and deletes them, while they log in, with one lock. -/
def w1 : Lock.World Req St Ans := ⟨s1, ⟨true, true, true, true, none⟩, fun t => ⟨if t = 0 then [.setPerms 2 Auth.Perms.zero, .delete 2]
  else if t = 1 then [.login Auth.mPin [98] [49, 50]] else [], none, []⟩, [], false⟩

example : Start w1 := ⟨⟨rfl, rfl, rfl⟩, rfl, fun _ => ⟨rfl, rfl⟩, rfl, rfl⟩

/-- All three succeed. -/
example :
    let es := (List.replicate 40 [(0, none), (1, none)]).flatten
    ((run (prog cfg) w1 es).threads 0).answers = [(.ok, false, none), (.ok, false, none)] ∧
    ((run (prog cfg) w1 es).threads 1).answers = [(.ok, true, none)] := by
  decide +kernel

/-- The administrator adds a third user "c", looks them up, may use the NVM until the session is cleared, while the second user logs in, with one lock. -/
def w2 : Lock.World Req St Ans := ⟨s1, ⟨true, true, true, true, none⟩,
  fun t => ⟨if t = 0 then [.add [99] Auth.Perms.zero Auth.mPin [51], .get [99], .allowed 0x0200 1, .reset, .allowed 0x0200 1]
    else if t = 1 then [.login Auth.mPin [98] [49, 50]] else [], none, []⟩, [], false⟩

example : Start w2 := ⟨⟨rfl, rfl, rfl⟩, rfl, fun _ => ⟨rfl, rfl⟩, rfl, rfl⟩

example :
    let es := (List.replicate 40 [(0, none), (1, none)]).flatten
    ((run (prog cfg) w2 es).threads 0).answers =
      [(.ok, false, some (3, none)), (.ok, false, some (3, some Auth.Perms.zero)), (.ok, false, none),
        (.ok, false, none), (.access, false, none)] ∧
    ((run (prog cfg) w2 es).threads 1).answers = [(.ok, true, none)] := by
  decide +kernel

end AuthThreadsDemo

open AuthThreadsDemo in
/-- **C71, false for contexts with locks of their own.**  One after the other, in either order, only one of two logins of a user
succeeds; when each connection's context has its own lock (`whAuthContext.lock`), both can succeed, because the users are shared. -/
theorem F_C71_two_locks : ∃ es : List (Nat × Option Rc), (∀ e ∈ es, e.2 = none) ∧
    (let w := Locks.run (fun x r => Locks.workOf ⟨.auth, x⟩ (prog cfg x r)) (Locks.start s0 fun t => if t < 2 then [req] else []) es
     (w.threads 0).answers = [(.ok, true, none)] ∧ (w.threads 1).answers = [(.ok, true, none)] ∧
     (w.shared.sess 0).id = 1 ∧ (w.shared.sess 1).id = 1) ∧
    (AuthThreads.oneByOne cfg s0 [(0, req, .ok), (1, req, .ok)]).1 = [(0, .ok, true, none), (1, .ok, false, none)] ∧
    (AuthThreads.oneByOne cfg s0 [(1, req, .ok), (0, req, .ok)]).1 = [(1, .ok, true, none), (0, .ok, false, none)] ∧
    ∀ x, (Locks.workOf ⟨.auth, x⟩ (prog cfg x req)).steps .ret = Locks.ofProg ⟨.auth, x⟩ (prog cfg x req) :=
  ⟨(List.replicate 10 [(0, none), (1, none)]).flatten, by decide, by decide +kernel, by decide +kernel, by decide +kernel,
    fun x => Locks.work_steps _ _ (AuthThreads.disciplined cfg x req)⟩

end WolfHsm.Props

import Verif.Proofs.LockedRequests
import Verif.Proofs.KeystoreDemo

/-!
# C46: requests that share the NVM are executed as if one after the other

Server contexts run in parallel threads; their handlers are the programs of
`Verif.Model.LockedRequests` (counter, NVM, key and certificate requests, and the key accesses of
the crypto requests).  A schedule says which thread does its next step and whether
`pthread_mutex_lock` fails.  The vocabulary is in `Verif.Spec.Lock`.
-/

namespace WolfHsm.Props

open Lock

variable {E : Type}

/-- C46 (serialised).  After any schedule: nothing has accessed the shared state without the lock
and the mutex has not been misused; whenever no context holds the lock, the shared state is the one
the logged requests give when executed one after the other; the answers of every context are the ones
of this serial execution (the last one may not have been sent yet); and the order in the log is, for
every context, the order of its requests. -/
theorem C46_serialised (cfg : Cfg E) {w0 : World (Req E) Shared Ans} (h0 : Start w0)
    (es : List (Nat × Option Rc)) :
    let w := run (handler cfg) w0 es
    w.bad = false ∧
    (w.lock.owner = none → w.shared = serialState (handler cfg) w0.shared w.log) ∧
    (∀ t, (w.threads t).answers <+: only t (serialAnswers (handler cfg) w0.shared w.log)) ∧
    (∀ t, (w.threads t).cur = none →
      (w.threads t).answers = only t (serialAnswers (handler cfg) w0.shared w.log)) ∧
    (∀ t, (only t w.log).map Prod.fst ++ inFlight (w.threads t) ++ (w.threads t).todo =
      (w0.threads t).todo) := by
  have h := run_inv (handler_disciplined cfg) es (start_inv h0)
  refine ⟨h.good, h.shared, fun t => ?_, fun t hc => ?_, h.order⟩
  · have ht := h.thread t
    unfold ThreadInv at ht
    split at ht
    · exact ht.1 ▸ List.prefix_refl _
    · exact ht.1 ▸ List.prefix_refl _
    · obtain ⟨_, a, _, e⟩ := ht
      exact ⟨[a], e⟩
  · have ht := h.thread t
    unfold ThreadInv at ht
    rw [hc] at ht
    exact ht.1

/-- C46 (real time).  The serial order respects time: what happens later is only appended to it.  So
a request that has been answered comes before every request that is started after that answer. -/
theorem C46_order_is_final (cfg : Cfg E) (w0 : World (Req E) Shared Ans)
    (es fs : List (Nat × Option Rc)) :
    (run (handler cfg) w0 es).log <+: (run (handler cfg) w0 (es ++ fs)).log := by
  rw [run_append]; exact run_log fs _

/-- C46 (failed lock).  A request whose lock could not be taken is answered with an error of the
handler and has changed nothing. -/
theorem C46_failed_lock_changes_nothing (cfg : Cfg E) (t : Nat) (r : Req E) {rc : Rc} (h : rc ≠ .ok)
    (s : Shared) : (alone (handler cfg t r) rc s).2 = s :=
  alone_failed (handler_disciplined cfg t r) h s

/-- C46 (released).  A context that is not executing a request does not hold the lock. -/
theorem C46_released (cfg : Cfg E) {w0 : World (Req E) Shared Ans} (h0 : Start w0)
    (es : List (Nat × Option Rc)) (t : Nat)
    (hidle : ((run (handler cfg) w0 es).threads t).cur = none) :
    (run (handler cfg) w0 es).lock.owner ≠ some t := by
  have ht := (run_inv (handler_disciplined cfg) es (start_inv h0)).thread t
  unfold ThreadInv at ht
  rw [hidle] at ht
  exact ht.2

/-- C46 (no deadlock).  From every reachable state the lock becomes free by steps of its owner only,
without a lock error: the owner never waits while it holds the lock. -/
theorem C46_owner_never_waits (cfg : Cfg E) {w0 : World (Req E) Shared Ans} (h0 : Start w0)
    (es : List (Nat × Option Rc)) :
    ∃ fs : List (Nat × Option Rc),
      (∀ e ∈ fs, e.2 = none ∧ (run (handler cfg) w0 es).lock.owner = some e.1) ∧
      (run (handler cfg) w0 (es ++ fs)).lock.owner = none := by
  obtain ⟨fs, h1, h2⟩ := free_lock (handler_disciplined cfg)
    (run_inv (handler_disciplined cfg) es (start_inv h0))
  exact ⟨fs, h1, by rw [run_append]; exact h2⟩

/-- C46 (progress).  In every reachable state every context with a request can get it answered. -/
theorem C46_can_answer (cfg : Cfg E) {w0 : World (Req E) Shared Ans} (h0 : Start w0)
    (es : List (Nat × Option Rc)) (t : Nat)
    (hw : ((run (handler cfg) w0 es).threads t).cur ≠ none ∨
      ((run (handler cfg) w0 es).threads t).todo ≠ []) :
    ∃ fs : List (Nat × Option Rc), (∀ e ∈ fs, e.2 = none) ∧
      ((run (handler cfg) w0 (es ++ fs)).threads t).answers.length =
        ((run (handler cfg) w0 es).threads t).answers.length + 1 := by
  obtain ⟨fs, h1, h2⟩ := can_answer (handler_disciplined cfg)
    (run_inv (handler_disciplined cfg) es (start_inv h0)) t hw
  exact ⟨fs, h1, by rw [run_append]; exact h2⟩

/-! ## The serial execution is the sequential model

`alone` of a handler is the function the other properties (C01, C09 to C22, C28 …) are about. -/

/-- C46 (counters). -/
theorem C46_counter_alone (cfg : Cfg E) (t : Nat) (r : Counter.Req) (rc : Rc) (s : Shared) :
    alone (handler cfg t (.counter r)) rc s =
      (.counter (Counter.handle s.sys.nvm (cfg.client t) rc r).1,
        { s with sys := { s.sys with nvm := (Counter.handle s.sys.nvm (cfg.client t) rc r).2 } }) := by
  rw [handler, alone_map, counter_alone]; rfl

/-- C46 (NVM). -/
theorem C46_nvm_alone (cfg : Cfg E) (t : Nat) (r : NvmServer.Req) (rc : Rc) (s : Shared) :
    alone (handler cfg t (.nvm r)) rc s =
      (.nvm (NvmServer.handle cfg.nvm s.sys.nvm rc r).1,
        { s with sys := { s.sys with nvm := (NvmServer.handle cfg.nvm s.sys.nvm rc r).2 } }) := by
  rw [handler, alone_map, nvm_alone]; rfl

/-- C46 (keys).  The evict option of a crypto request is ignored when the lock fails; the
sequential model reports that failure. -/
theorem C46_key_alone (cfg : Cfg E) (t : Nat) (r : Keystore.Req) (rc : Rc) (s : Shared)
    (h : ∀ id, r = .evictOption id → rc = .ok) :
    alone (handler cfg t (.key r)) rc s =
      (.key (Keystore.handle cfg.cert.ks ⟨t, cfg.client t⟩ s.sys rc r).1,
        { s with sys := (Keystore.handle cfg.cert.ks ⟨t, cfg.client t⟩ s.sys rc r).2 }) := by
  rw [handler, alone_map, key_alone _ _ _ _ _ h]; rfl

/-! ## Examples -/

namespace LockDemo

/-- Certificates are not used here. -/
def x509 : Cert.X509 Unit where
  derLen _ := .error .badargs
  verify _ _ _ := .certVerify
  parse _ := .error .badargs
  loadCA _ _ := .badargs
  hashRc _ _ := .ok
  hash d := d
  pubKey _ := .error .badargs
  acert _ _ := .certVerify

/-- Two contexts that serve clients with the same id; a "public key" is the key with a 4 in front. -/
def cfg : Cfg Unit where
  nvm := Keystore.Demo.ncfg
  cert := ⟨{ Keystore.Demo.cfg with publicOf := fun _ k => (.ok, 4 :: k) }, x509, true, true, 4, 4, 64⟩
  client _ := 1

/-- The NVM with the lock set up by `wh_Lock_Init`, and the requests of contexts 0 and 1. -/
def world {R : Type} (todo : Nat → List R) : World R Shared Ans where
  shared := ⟨Keystore.Demo.boot Keystore.Demo.fine, fun _ => Cert.VCache.fresh 4⟩
  lock := ((Lock.Lock.zero false).start true .ok).2
  threads t := ⟨todo t, none, []⟩
  log := []
  bad := false

theorem start {R : Type} (todo : Nat → List R) : Start (world todo) :=
  ⟨⟨rfl, rfl, rfl⟩, rfl, fun _ => ⟨rfl, rfl⟩, rfl, rfl⟩

/-- Both contexts increment counter 3; context 0 has set it to 7 before. -/
def todo : Nat → List (Req Unit)
  | 0 => [.counter (.init 3 7), .counter (.increment 3)]
  | 1 => [.counter (.increment 3), .counter (.increment 3), .counter (.increment 3)]
  | _ => []

/-- A schedule: context 0 sets the counter, then both increment it, taking turns, with one lock
failure. -/
def sched : List (Nat × Option Rc) :=
  List.replicate 5 (0, none) ++ (List.replicate 9 [(1, none), (0, none)]).flatten ++
    List.replicate 5 (1, none) ++ [(1, some .aborted), (1, none)]

/-- Result code and value of a counter answer. -/
def counterOf : Ans → Option (Rc × UInt32)
  | .counter r => some (r.rc, r.value)
  | _ => none

/-- The public key in an answer. -/
def pubOf : Ans → Option (Rc × List UInt8)
  | .key (.pubKey rc b) => some (rc, b)
  | _ => none

/-- Context 0 asks for the public key of the global key 6; context 1 has cached that key, evicts it
and caches the global key 7. -/
def eccTodo : Nat → List (AnyReq Unit)
  | 0 => [.inr (0x0106, 1, false)]
  | 1 => [.inl (.key (.cache 0x0106 0 Keystore.Demo.label [6, 6, 6])), .inl (.key (.evict 0x0106)),
      .inl (.key (.cache 0x0107 0 Keystore.Demo.label [7, 7, 7]))]
  | _ => []

/-- Context 1 works between the two steps of context 0. -/
def eccSched : List (Nat × Option Rc) :=
  List.replicate 5 (1, none) ++ List.replicate 2 (0, none) ++ List.replicate 10 (1, none) ++
    List.replicate 2 (0, none)

/-- The possible serial orders. -/
def eccOrders : List (List (Nat × AnyReq Unit × Rc)) :=
  [0, 1, 2, 3].map fun i =>
    let l := (eccTodo 1).map fun r => (1, r, Rc.ok)
    l.take i ++ (eccTodo 0).map (fun r => (0, r, Rc.ok)) ++ l.drop i

end LockDemo

/-- The hypotheses are met by an interleaved execution with several requests per context and a lock
failure; no increment is lost. -/
example : Start (LockDemo.world LockDemo.todo) ∧
    (let w := run (handler LockDemo.cfg) (LockDemo.world LockDemo.todo) LockDemo.sched
    (w.threads 0).answers.map LockDemo.counterOf = [some (.ok, 7), some (.ok, 9)] ∧
    (w.threads 1).answers.map LockDemo.counterOf = [some (.ok, 8), some (.ok, 10), some (.aborted, 0)] ∧
    w.log.map (fun e => (e.1, e.2.2)) = [(0, .ok), (1, .ok), (0, .ok), (1, .ok), (1, .aborted)]) := by
  refine ⟨LockDemo.start _, ?_⟩
  decide +kernel

/-- In the middle of this execution both contexts are busy, one of them holding the lock. -/
example :
    let w := run (handler LockDemo.cfg) (LockDemo.world LockDemo.todo) (LockDemo.sched.take 10)
    w.lock.owner = some 1 ∧ (w.threads 0).cur.isSome = true ∧ (w.threads 1).cur.isSome = true := by
  decide +kernel

/-- F (C46): "make public key" does not lock.  With contexts 0 and 1 as above, context 0 asks for the
public key of key 6 and is told, with success, the public key of key 7, which another context has
cached in the meantime in the same slot.  No serial order of the requests gives this answer, and the
shared cache has been accessed without the lock. -/
theorem F_ecc_make_pub_unlocked :
    Start (LockDemo.world LockDemo.eccTodo) ∧
    (let w := run (anyHandler LockDemo.cfg) (LockDemo.world LockDemo.eccTodo) LockDemo.eccSched
    (w.threads 0).answers.map LockDemo.pubOf = [some (.ok, [4, 7, 7, 7])] ∧
    w.bad = true) ∧
    ∀ o ∈ LockDemo.eccOrders,
      (only 0 (serialAnswers (anyHandler LockDemo.cfg)
        (LockDemo.world LockDemo.eccTodo).shared o)).map LockDemo.pubOf ≠ [some (.ok, [4, 7, 7, 7])] := by
  refine ⟨LockDemo.start _, ?_, ?_⟩ <;> decide +kernel

/-- F (C46): it is not of the shape the other handlers have. -/
theorem F_ecc_make_pub_undisciplined (cfg : Keystore.Cfg) (v : Keystore.Srv) (id algo : UInt16)
    (evict : Bool) : ¬Disciplined (eccMakePubProg cfg v id algo evict) := fun h => h

end WolfHsm.Props

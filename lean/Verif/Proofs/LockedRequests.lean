import Verif.Model.LockedRequests
import Verif.Proofs.Lock

/-!
# The handlers keep the locking discipline and do what the sequential models say
-/

namespace WolfHsm.Lock

open Keystore (Sys Srv)

variable {S A B X E : Type}

theorem alone_guarded (fail : Rc → A) (body : Prog S A) (rc : Rc) (s : S) :
    alone (.guarded fail body) rc s = if rc = .ok then alone body .ok s else (fail rc, s) := by
  by_cases h : rc = .ok
  · subst h; rfl
  · rw [if_neg h]
    cases rc <;> first | exact (h rfl).elim | rfl

theorem alone_call (f : S → X × S) (k : X → Prog S A) (rc : Rc) (s : S) :
    alone (.call f k) rc s = alone (k (f s).1) rc (f s).2 := rfl

theorem alone_finish (a : A) (rc : Rc) (s : S) : alone (finish a) rc s = (a, s) := rfl

theorem disciplined_guarded (fail : Rc → A) {body : Prog S A} (h : Inside body) :
    Disciplined (.guarded fail body) :=
  ⟨h, fun rc hrc => by cases rc <;> first | exact (hrc rfl).elim | exact ⟨_, rfl⟩⟩

theorem inside_finish (a : A) : Inside (finish a : Prog S A) := ⟨a, rfl⟩

theorem inside_call {f : S → X × S} {k : X → Prog S A} (h : ∀ x, Inside (k x)) : Inside (.call f k) :=
  fun _ => h _

theorem inside_map (g : A → B) : ∀ {p : Prog S A}, Inside p → Inside (p.map g) := by
  intro p
  induction p with
  | ret a => exact fun h => h
  | lock k _ => exact fun h => h
  | unlock p _ => rintro ⟨a, rfl⟩; exact ⟨g a, rfl⟩
  | access f k ih => exact fun h s => ih s (h s)

theorem disciplined_map (g : A → B) {p : Prog S A} (h : Disciplined p) : Disciplined (p.map g) := by
  cases p with
  | ret a => trivial
  | lock k => exact ⟨inside_map g h.1, fun rc hrc => by
      obtain ⟨a, ha⟩ := h.2 rc hrc
      exact ⟨g a, by dsimp only; rw [ha]; rfl⟩⟩
  | unlock p => exact h
  | access f k => exact h

theorem alone_map (g : A → B) : ∀ (p : Prog S A) (rc : Rc) (s : S),
    alone (p.map g) rc s = (g (alone p rc s).1, (alone p rc s).2) := by
  intro p
  induction p with
  | ret a => intros; rfl
  | lock k ih => intro rc s; exact ih rc rc s
  | unlock p ih => exact ih
  | access f k ih => intro rc s; exact ih s rc (f s)

/-- Solve discipline goals: follow the program. -/
macro "discipline" : tactic => `(tactic| repeat' first
  | exact trivial
  | exact inside_finish _
  | refine disciplined_guarded _ ?_
  | refine inside_call fun _ => ?_
  | split)

theorem counter_disciplined (c : UInt16) (r : Counter.Req) : Disciplined (counterProg c r) := by
  cases r <;> (unfold counterProg; discipline)

theorem nvm_disciplined (cfg : NvmServer.Cfg) (r : NvmServer.Req) : Disciplined (nvmProg cfg r) := by
  cases r <;> (unfold nvmProg; discipline)

theorem store_inside (cfg : Keystore.Cfg) (v : Srv) (b : Bool) (md : NvmFlash.Meta)
    (k : NvmFlash.Meta → Sys → Rc × Sys) : Inside (storeProg cfg v b md k) := by
  unfold storeProg
  dsimp only
  discipline

theorem key_disciplined (cfg : Keystore.Cfg) (v : Srv) (r : Keystore.Req) :
    Disciplined (keyProg cfg v r) := by
  cases r <;> (unfold keyProg; dsimp only; discipline)
  all_goals exact store_inside _ _ _ _ _

theorem cert_disciplined (cfg : Cert.Cfg E) (t : Nat) (r : CertReq E) :
    Disciplined (certProg cfg t r) := by
  cases r <;> (unfold certProg; discipline)

theorem handler_disciplined (cfg : Cfg E) (t : Nat) (r : Req E) : Disciplined (handler cfg t r) := by
  cases r with
  | counter r => exact disciplined_map _ (counter_disciplined _ r)
  | nvm r => exact disciplined_map _ (nvm_disciplined _ r)
  | key r => exact disciplined_map _ (key_disciplined _ _ r)
  | cert r => exact disciplined_map _ (cert_disciplined _ _ r)

/-! ## Alone, the programs are the sequential handlers -/

/-- Case split on the lock's result; when it failed both sides answer with the code. -/
macro "lock_cases" rc:ident : tactic => `(tactic| (
  rw [alone_guarded]
  by_cases h : $rc ≠ Rc.ok
  · rw [if_neg h]
    (cases $rc:ident <;> first | exact (h rfl).elim | rfl)
  have h := Decidable.of_not_not h
  subst h
  rw [if_pos rfl]
  try rw [alone_call]))

theorem counter_alone (c : UInt16) (r : Counter.Req) (rc : Rc) (s : Shared) :
    alone (counterProg c r) rc s = onNvm (fun n => Counter.handle n c rc r) s := by
  cases r with
  | malformed => rfl
  | unknown => rfl
  | init cid v =>
    unfold counterProg
    lock_cases rc
    simp only [onNvm, Counter.handle, Counter.initCounter]
    generalize s.sys.nvm.addWithReclaim _ _ = r
    obtain ⟨rc, n⟩ := r
    cases rc <;> rfl
  | increment cid =>
    unfold counterProg
    lock_cases rc
    simp only [onNvm, Counter.handle, Counter.increment, Counter.bump]
    generalize s.sys.nvm.metadata _ = m
    obtain ⟨rc, md⟩ := m
    cases rc <;> cases md <;> try rfl
    rename_i md
    dsimp only
    split
    · rfl
    · rw [alone_call]
      simp only [onNvm]
      generalize s.sys.nvm.addWithReclaim _ _ = r
      obtain ⟨rc, n⟩ := r
      cases rc <;> rfl
  | read cid =>
    unfold counterProg
    lock_cases rc
    simp only [onNvm, Counter.handle, Counter.readCounter]
    split <;> simp_all [alone_finish]
  | destroy cid =>
    unfold counterProg
    lock_cases rc
    rfl

theorem nvm_alone (cfg : NvmServer.Cfg) (r : NvmServer.Req) (rc : Rc) (s : Shared) :
    alone (nvmProg cfg r) rc s = onNvm (fun n => NvmServer.handle cfg n rc r) s := by
  cases r with
  | init c => rfl
  | cleanup => rfl
  | malformed => rfl
  | unknown => rfl
  | list a f st =>
    unfold nvmProg
    lock_cases rc
    rfl
  | getAvailable =>
    unfold nvmProg
    lock_cases rc
    rfl
  | getMetadata id =>
    unfold nvmProg
    lock_cases rc
    rfl
  | add md payload =>
    simp only [nvmProg, onNvm, NvmServer.handle, NvmServer.handleAdd]
    split
    · split
      · rfl
      · lock_cases rc
        rfl
    · rfl
  | destroy count ids =>
    simp only [nvmProg, onNvm, NvmServer.handle, NvmServer.handleDestroy]
    split
    · lock_cases rc
      rfl
    · rfl
  | read id off len =>
    unfold nvmProg
    lock_cases rc
    simp only [onNvm, NvmServer.handle, NvmServer.handleRead]
    split
    · rfl
    · rw [alone_call]
      simp only [onNvm]
      generalize s.sys.nvm.metadata _ = m
      obtain ⟨rc, md⟩ := m
      cases rc <;> cases md <;> try rfl
      rename_i md
      dsimp only
      split <;> rfl
  | addDma pm pd z m1 m2 peek data =>
    simp only [nvmProg, onNvm, NvmServer.handle, NvmServer.handleAddDma]
    split
    · split
      · rfl
      · split
        · rfl
        · lock_cases rc
          rfl
    · simp_all [alone]
    · simp_all [alone]
  | readDma id off len pre =>
    unfold nvmProg
    lock_cases rc
    simp only [onNvm, NvmServer.handle, NvmServer.handleReadDma]
    generalize s.sys.nvm.metadata _ = m
    obtain ⟨rc, md⟩ := m
    cases rc <;> cases md <;> try rfl
    rename_i md
    dsimp only
    split
    · rfl
    · cases pre <;> rfl

theorem store_alone (cfg : Keystore.Cfg) (v : Srv) (b : Bool) (md : NvmFlash.Meta)
    (k : NvmFlash.Meta → Sys → Rc × Sys) (rc : Rc) (s : Shared) :
    alone (storeProg cfg v b md k) rc s =
      onSys (fun s => let r := Keystore.withId cfg v.ctx s b md fun md => k md s
        (Keystore.Resp.keyId r.1.1 r.1.2, r.2)) s := by
  unfold storeProg Keystore.withId
  simp only [onSys]
  split
  · rw [alone_call]
    simp only [onSys]
    generalize Keystore.getUniqueId _ _ _ _ = m
    obtain ⟨rc, id⟩ := m
    cases rc <;> rfl
  · rfl

theorem key_alone (cfg : Keystore.Cfg) (v : Srv) (r : Keystore.Req) (rc : Rc) (s : Shared)
    (h : ∀ id, r = .evictOption id → rc = .ok) :
    alone (keyProg cfg v r) rc s = onSys (fun s => Keystore.handle cfg v s rc r) s := by
  cases r with
  | malformed => rfl
  | cache id flags label key =>
    unfold keyProg
    dsimp only
    lock_cases rc
    simp only [onSys, Keystore.handle, Keystore.act, Keystore.handleCache]
    split
    · rfl
    · rw [store_alone]; rfl
  | cacheRandom id flags label sz rng =>
    unfold keyProg
    dsimp only
    lock_cases rc
    rw [store_alone]; rfl
  | cacheDma id flags label sz dma mem =>
    unfold keyProg
    dsimp only
    lock_cases rc
    rw [store_alone]; rfl
  | importKey id flags label cap der =>
    unfold keyProg
    dsimp only
    lock_cases rc
    rw [store_alone]; rfl
  | exportPublic id algo =>
    unfold keyProg
    dsimp only
    lock_cases rc
    simp only [onSys, Keystore.handle, Keystore.act, Keystore.handleExportPublic]
    generalize Keystore.policy _ _ _ _ _ = r
    cases r <;> try rfl
    dsimp only
    rw [alone_call]
    simp only [onSys]
    generalize Keystore.freshen _ _ _ _ = r
    obtain ⟨rc, k, s'⟩ := r
    cases rc <;> cases k <;> rfl
  | useKey id required outSz =>
    unfold keyProg
    dsimp only
    lock_cases rc
    simp only [onSys, Keystore.handle, Keystore.act, Keystore.readKeyEnforce]
    generalize Keystore.readKey _ _ _ _ _ = r
    obtain ⟨⟨rc, k⟩, s'⟩ := r
    cases rc <;> cases k <;> try rfl
    rename_i k
    obtain ⟨md, bs⟩ := k
    dsimp only
    generalize Keystore.enforceUsage _ _ = r
    cases r <;> rfl
  | loadKey id required =>
    unfold keyProg
    dsimp only
    lock_cases rc
    simp only [onSys, Keystore.handle, Keystore.act, Keystore.loadKey]
    generalize Keystore.freshen _ _ _ _ = r
    obtain ⟨rc, k, s'⟩ := r
    cases rc <;> cases k <;> try rfl
    rename_i k
    dsimp only
    generalize Keystore.enforceUsage _ _ = r
    cases r <;> rfl
  | evictOption id =>
    cases h id rfl
    unfold keyProg
    simp only [onSys, Keystore.handle, Keystore.act]
    split <;> rfl
  | _ =>
    unfold keyProg
    dsimp only
    lock_cases rc
    rfl

theorem alone_failed {S A : Type} {p : Prog S A} (hd : Disciplined p) {rc : Rc} (h : rc ≠ .ok) (s : S) :
    (alone p rc s).2 = s := by
  cases p with
  | ret a => rfl
  | lock k => obtain ⟨a, e⟩ := hd.2 rc h; show (alone (k rc) rc s).2 = s; rw [e]; rfl
  | unlock p => exact hd.elim
  | access f k => exact hd.elim

end WolfHsm.Lock

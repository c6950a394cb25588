import Verif.Model.NvmServices
import Verif.Spec.Counter

/-!
# Services over the object map and over the flash (C50)

A service answers requests by programs over the NVM API; between requests it keeps some
RAM.  The same service is run on the object map and on the flash NVM.
-/

namespace WolfHsm.NvmRefine

open NvmFlash Flash

/-- A service: what it does for a request `q` with RAM content `σ`, and its RAM after a
power cycle. -/
structure Service (Q A S : Type) where
  serve : Q → S → NP (A × S)
  fresh : S

variable {Q A S : Type}

/-- What happens to a service, as seen from outside: a request, or a power cycle. -/
inductive Ev (Q : Type)
  | req (q : Q)
  | restart

/-- Events of the service on the object map: the power cycle also says whether an object
pending on the media shows up. -/
inductive MEv (Q : Type)
  | req (q : Q)
  | restart (b : Bool)

/-- The event as seen from outside. -/
def MEv.seen : MEv Q → Ev Q
  | .req q => .req q
  | .restart _ => .restart

/-- One step on the object map: what the client observes, and the new state.  Nothing is
observed if power was lost on the way; without power nothing happens. -/
def mstep (V : Service Q A S) : S × Nvm → MEv Q → Option A × S × Nvm
  | (s, n), .req q =>
    if n.powered then
      let r := (V.serve q s).onMap n
      (if r.2.powered then some r.1.1 else none, r.1.2, r.2)
    else (none, s, n)
  | (_, n), .restart b => (none, V.fresh, n.restart b)

/-- A history on the object map: the observations, and the final state. -/
def mrun (V : Service Q A S) : S × Nvm → List (MEv Q) → List (Option A) × S × Nvm
  | x, [] => ([], x)
  | x, e :: es =>
    ((mstep V x e).1 :: (mrun V (mstep V x e).2 es).1, (mrun V (mstep V x e).2 es).2)

/-- A device with flash NVM: the service's RAM, the number of destroys so far, and the
flash NVM. -/
structure Device (S : Type) where
  ram : S
  count : Nat
  dev : PState

/-- The flash content of a device. -/
def memOf : PState → Mem
  | .off m => m
  | .on _ m => m

/-- All histories of a device: the events, with what the client observes.  A power cycle may
take any number of attempts to initialise the NVM, cut off or failing; requests are served
only while the device is on. -/
inductive FRun (V : Service Q A S) (c : Cfg) :
    Device S → List (Ev Q) → List (Option A) → Device S → Prop
  | nil {d} : FRun V c d [] [] d
  | req {ram n ctx m q a ram' n' s evs as d} :
      (V.serve q ram).OnFlash c n ctx m (some (a, ram')) n' s →
      FRun V c ⟨ram', n', s⟩ evs as d → FRun V c ⟨ram, n, .on ctx m⟩ (.req q :: evs) (some a :: as) d
  | reqCut {ram n ctx m q ram' n' s evs as d} :
      (V.serve q ram).OnFlash c n ctx m none n' s →
      FRun V c ⟨ram', n', s⟩ evs as d → FRun V c ⟨ram, n, .on ctx m⟩ (.req q :: evs) (none :: as) d
  | bootFails {ram n s rc ctx m' evs as d} :
      Exec c.dev (wrFaults true) (init c) (memOf s) (some (rc, ctx)) m' → rc ≠ .ok →
      FRun V c ⟨ram, n, .off m'⟩ evs as d → FRun V c ⟨ram, n, s⟩ evs as d
  | bootCut {ram n s m' evs as d} :
      Exec c.dev (wrFaults true) (init c) (memOf s) none m' →
      FRun V c ⟨ram, n, .off m'⟩ evs as d → FRun V c ⟨ram, n, s⟩ evs as d
  | restart {ram n s ctx m' evs as d} :
      Exec c.dev (wrFaults true) (init c) (memOf s) (some (.ok, ctx)) m' →
      FRun V c ⟨V.fresh, n, .on ctx m'⟩ evs as d →
      FRun V c ⟨ram, n, s⟩ (.restart :: evs) (none :: as) d

/-- The observations on the flash are among those on the map: whatever the client of the
device observes, the client of the map observes at the same place. -/
def Explained : List (Option A) → List (Option A) → Prop
  | [], [] => True
  | o :: as, o' :: bs => (∀ a, o = some a → o' = some a) ∧ Explained as bs
  | _, _ => False

/-- A function on the object map that is a program over the NVM API. -/
def Programmed {β : Type} (F : Nvm → β × Nvm) : Prop := ∃ p : NP β, ∀ n, F n = p.onMap n

/-- The empty object map, switched off, with the given outcomes of its calls. -/
def emptyMap (outs : Nat → Out) : Nvm := ⟨fun _ => none, none, false, outs, 0⟩

/-! ## Services -/

/-- A service without RAM. -/
def Service.plain (serve : Q → NP A) : Service Q A Unit :=
  ⟨fun q _ => (serve q).bind fun a => .ret (a, ()), ()⟩

/-- The counter requests: client id, result of taking the NVM lock, request. -/
def counters : Service (UInt16 × Rc × Counter.Req) Counter.Resp Unit :=
  .plain fun q => Counter.prog q.1 q.2.1 q.2.2

/-- The NVM requests: result of taking the NVM lock, request. -/
def nvmRequests (cfg : NvmServer.Cfg) : Service (Rc × NvmServer.Req) NvmServer.Resp Unit :=
  .plain fun q => NvmServer.prog cfg q.1 q.2

/-- The values of counter `x` a client has seen in a history. -/
def counterValues (x : Counter.Name) :
    List (Ev (UInt16 × Rc × Counter.Req)) → List (Option Counter.Resp) → List UInt32
  | .req q :: evs, some a :: as =>
    (if q.2.2.target q.1 = some x ∧ a.rc = .ok then [a.value] else []) ++ counterValues x evs as
  | _ :: evs, _ :: as => counterValues x evs as
  | _, _ => []

end WolfHsm.NvmRefine

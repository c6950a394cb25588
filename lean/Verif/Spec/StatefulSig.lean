import Verif.Model.StatefulSig
import Verif.Spec.Keystore

/-!
# Specification vocabulary for stateful signatures (C48)

A stateful signature key consists of one-time keys with indexes 0, 1, 2, …; using one of them
for two messages lets anyone forge signatures.
-/

namespace WolfHsm.StatefulSig

open NvmFlash (Meta)
open Keystore (Sys Srv)

/-- How to read private states and signatures: which key a private state belongs to and the index
it will use next; the key a signature verifies under and the index it used (both algorithms put
the index into the signature). -/
structure Meaning where
  key : List UInt8 → List UInt8
  next : List UInt8 → Nat
  owner : List UInt8 → List UInt8
  leaf : List UInt8 → Nat

/-- The contract of wolfCrypt's sign functions: the signature is by the key of the private state,
with the index that was next, and the new state belongs to the same key, has the same size, and
is past that index. -/
def Lib.Sound (l : Lib) (m : Meaning) : Prop :=
  ∀ pub priv msg cap sig priv', l.sign pub priv msg cap = .ok (sig, priv') →
    m.owner sig = m.key priv ∧ m.leaf sig = m.next priv ∧
    m.key priv' = m.key priv ∧ m.next priv < m.next priv' ∧ priv'.length = priv.length

/-- The bytes are private state of key `K` that a sign request would use. -/
def Holds (cfg : Cfg) (a : Alg) (m : Meaning) (K : List UInt8) (d : List UInt8) : Prop :=
  ∃ h pub priv, load cfg a d = .ok (h, pub, priv) ∧ m.key priv = K

/-- Events: those of the key store, key generation, sign, verify or signatures-left. -/
inductive Ev where
  | base (e : Keystore.Ev)
  | keyGen (v : Srv) (r : GenReq)
  | sign (v : Srv) (r : SignReq)
  | look (v : Srv) (lock lock2 : Rc) (id : UInt16) (evict : Bool)

/-- The fields of the request are within the ranges of their C types. -/
def Ev.Valid : Ev → Prop
  | .base e => e.Valid
  | .keyGen v _ | .sign v _ | .look v .. => v.client < 16

/-- What the client gets. -/
inductive Obs where
  | none
  | base (o : Keystore.Obs)
  | generated (rc : Rc) (id : UInt16)
  | signed (a : Alg) (rc : Rc) (sig : Option (List UInt8))
deriving DecidableEq

/-- One event.  A request during which power is lost is not answered. -/
def step (cfg : Cfg) (ncfg : NvmServer.Cfg) (s : Sys) : Ev → Obs × Sys
  | .base e => let p := Keystore.step cfg.ks ncfg s e; (.base p.1, p.2)
  | .keyGen v r =>
    if s.nvm.powered then
      let p := keyGen cfg v s r
      (if p.2.nvm.powered then .generated p.1.1 p.1.2 else .none, p.2)
    else (.none, s)
  | .sign v r =>
    if s.nvm.powered then
      let p := sign cfg v s r
      (if p.2.nvm.powered then .signed r.alg p.1.rc p.1.sig else .none, p.2)
    else (.none, s)
  | .look v lock lock2 id evict =>
    if s.nvm.powered then (.none, look cfg v s lock lock2 id evict) else (.none, s)

/-- State after a history. -/
def run (cfg : Cfg) (ncfg : NvmServer.Cfg) (s : Sys) (evs : List Ev) : Sys :=
  evs.foldl (fun s e => (step cfg ncfg s e).2) s

/-- The signatures clients got, in order. -/
def released (cfg : Cfg) (ncfg : NvmServer.Cfg) (s : Sys) : List Ev → List (Alg × List UInt8)
  | [] => []
  | e :: evs =>
    (match (step cfg ncfg s e).1 with
      | .signed a _ (some sig) => [(a, sig)]
      | _ => []) ++ released cfg ncfg (step cfg ncfg s e).2 evs

/-- No private state of `K` comes in from outside: not with a key or NVM request (what the server
recognises as private state and refuses does not count), and no key generation repeats `K`. -/
def Ev.Foreign (cfg : Cfg) (ncfg : NvmServer.Cfg) (a : Alg) (m : Meaning) (K : List UInt8) : Ev → Prop
  | .base (.key _ _ r) => ∀ md d, r.Brings cfg.ks md d → ¬Holds cfg a m K d
  | .base (.nvm _ r) => ∀ first second d, r.Adds ncfg first second d → ¬Holds cfg a m K d
  | .keyGen _ r => ∀ pub priv, r.made = .ok (pub, priv) → ¬Holds cfg a m K (encode cfg.le r.alg r.param pub priv)
  | _ => True

/-- Private state of `K` in a slot whose header says that there is none (`privLen` 0, as in the blob
of a public key). -/
def Disguised (cfg : Cfg) (a : Alg) (m : Meaning) (K : List UInt8) (d : List UInt8) : Prop :=
  ∃ h pub priv, load cfg a d = .ok (h, pub, priv) ∧ m.key priv = K ∧ h.privLen = 0

/-- The server makes up the key itself. -/
def _root_.WolfHsm.Keystore.Req.Generates : Keystore.Req → Prop
  | .cacheRandom .. | .importKey .. => True
  | _ => False

/-- Clients send no disguised private state of `K`, do not change their memory during a DMA add,
and no generated key is private state of `K`. -/
def Ev.Clean (cfg : Cfg) (ncfg : NvmServer.Cfg) (a : Alg) (m : Meaning) (K : List UInt8) : Ev → Prop
  | .base (.key _ _ r) => ∀ md d, r.Brings cfg.ks md d →
      ¬Disguised cfg a m K d ∧ (r.Generates → ¬Holds cfg a m K d)
  | .base (.nvm _ r) => ∀ first second d, r.Adds ncfg first second d →
      ¬Disguised cfg a m K d ∧
      ∀ pm pd z peek, r = .addDma pm pd z first second peek d → peek = d
  | .keyGen _ r => ∀ pub priv, r.made = .ok (pub, priv) → ¬Holds cfg a m K (encode cfg.le r.alg r.param pub priv)
  | _ => True

/-- A key or NVM request that at most relays bytes of the client (memory unchanged during a DMA
add), or a restart. -/
def Ev.Relays : Ev → Prop
  | .base (.key _ _ r) => ¬r.Generates
  | .base (.nvm _ (.addDma _ _ _ _ _ peek data)) => peek = data
  | .base _ => True
  | _ => False

/-- Nothing in the caches, in the NVM or in a failed add has the form of private state. -/
structure NoState (cfg : Cfg) (s : Sys) : Prop where
  cache : ∀ y i k, Keystore.cached cfg.ks y s i = some k → isPrivBlob cfg.le k.data = false
  store : ∀ i md d, s.nvm.store i = some (md, d) → isPrivBlob cfg.le d = false
  pending : ∀ md d, s.nvm.pending = some (md, d) → isPrivBlob cfg.le d = false

/-- States the system can be in. -/
inductive Reach (cfg : Cfg) (ncfg : NvmServer.Cfg) : Sys → Prop where
  | base {s : Sys} (h : Keystore.Reach cfg.ks ncfg s) : Reach cfg ncfg s
  | step {s : Sys} (e : Ev) (hv : e.Valid) (h : Reach cfg ncfg s) : Reach cfg ncfg (step cfg ncfg s e).2

/-- The client that owns key `id` is served by context `x` only. -/
def Ev.Served (cfg : Cfg) (x : Nat) (id : UInt16) : Ev → Prop
  | .base (.key v _ _) | .keyGen v _ | .sign v _ | .look v .. =>
    Keystore.isGlobal cfg.ks id = false → v.client = KeyId.userOf id → v.ctx = x
  | _ => True

/-- All private states of `K` in the caches, in the NVM, and in an add that failed and may still
show up, are under `id`; and no context but `x` has that key in its own cache. -/
structure OnlyUnder (cfg : Cfg) (a : Alg) (m : Meaning) (K : List UInt8) (id : UInt16) (x : Nat)
    (s : Sys) : Prop where
  cache : ∀ y i k, Keystore.cached cfg.ks y s i = some k → Holds cfg a m K k.data → i = id
  store : ∀ i md d, s.nvm.store i = some (md, d) → Holds cfg a m K d → i = id
  pending : ∀ md d, s.nvm.pending = some (md, d) → Holds cfg a m K d → md.id = id
  only : Keystore.OnlyAt cfg.ks x s id

end WolfHsm.StatefulSig

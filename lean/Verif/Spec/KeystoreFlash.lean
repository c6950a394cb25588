import Verif.Spec.NvmRefine
import Verif.Spec.Keystore

/-!
# The key store on the flash NVM (C50)

The key requests and NVM requests of all server contexts as a service over the NVM API, in the
sense of `Verif/Spec/NvmRefine.lean`.
-/

namespace WolfHsm.Keystore

open NvmRefine (Service MEv Device)

/-- Number of regular and of big slots of a cache. -/
def Cache.dims (c : Cache) : Nat × Nat := (c.reg.length, c.big.length)

/-- The sizes of the global cache and of the caches of the server contexts,
`WOLFHSM_CFG_SERVER_KEYCACHE_COUNT` and `..._BIGCOUNT`, wolfhsm/wh_keycache.h:49-59. -/
abbrev Shape := (Nat × Nat) × (Nat → Nat × Nat)

/-- The RAM of the key store: caches of these sizes. -/
def Ram (sh : Shape) : Type :=
  { r : Cache × (Nat → Cache) // r.1.dims = sh.1 ∧ ∀ x, (r.2 x).dims = sh.2 x }

/-- Caches and NVM together. -/
def toSys {sh : Shape} (r : Ram sh) (n : Nvm) : Sys := ⟨n, r.1.1, r.1.2⟩

/-- Empty caches. -/
def emptyRam (sh : Shape) : Ram sh :=
  ⟨(⟨List.replicate sh.1.1 none, List.replicate sh.1.2 none⟩,
    fun x => ⟨List.replicate (sh.2 x).1 none, List.replicate (sh.2 x).2 none⟩),
   by simp [Cache.dims], fun x => by simp [Cache.dims]⟩

/-- A request to the key store: a key request of client `v.client` at context `v.ctx`, or an
NVM request that does not ask for the layout of the flash. -/
inductive KReq where
  | key (v : Srv) (lock : Rc) (r : Req)
  | nvm (lock : Rc) (r : NvmServer.Req) (h : r.Plain = true)

/-- The service answers the requests as the models of the handlers do on the object map, and
starts with empty caches. -/
structure IsKeyServer (cfg : Cfg) (ncfg : NvmServer.Cfg) {sh : Shape}
    (V : Service KReq Obs (Ram sh)) : Prop where
  key : ∀ v lock r ram n,
    (((V.serve (.key v lock r) ram).onMap n).1.1,
      toSys ((V.serve (.key v lock r) ram).onMap n).1.2 ((V.serve (.key v lock r) ram).onMap n).2) =
    (Obs.key (handle cfg v (toSys ram n) lock r).1, (handle cfg v (toSys ram n) lock r).2)
  nvm : ∀ lock r h ram n, (V.serve (.nvm lock r h) ram).onMap n =
    ((.nvm (NvmServer.handle ncfg n lock r).1, ram), (NvmServer.handle ncfg n lock r).2)
  fresh : V.fresh = emptyRam sh

/-- The event in the vocabulary of the key store properties. -/
def toEv : MEv KReq → Ev
  | .req (.key v lock r) => .key v lock r
  | .req (.nvm lock r _) => .nvm lock r
  | .restart b => .restart b

/-- The requests are within the ranges of their C types, see `Ev.Valid`. -/
def KReq.Valid (q : KReq) : Prop := (toEv (.req q)).Valid

/-- Observations as the key store properties write them: no answer is `Obs.none`. -/
def obsOf : Option Obs → Obs
  | some o => o
  | none => .none

end WolfHsm.Keystore

import Verif.Model.Keystore
import Verif.Spec.NvmServer

/-!
# Specification vocabulary for the key store properties (C11, C14–C21)

Histories: any number of server contexts serving any clients, each event a key request
(or the key-store part of a crypto request), an NVM request, or a power cycle.
-/

namespace WolfHsm.Keystore

open NvmFlash (Meta Store)

/-- One event.  `key v lock r`: request `r` of client `v.client` arriving at server context
`v.ctx`, with the result of taking the NVM lock.  `nvm`: a request of the NVM group.
`restart b`: power cycle; `b`: an object whose add had failed shows up. -/
inductive Ev where
  | key (v : Srv) (lock : Rc) (r : Req)
  | nvm (lock : Rc) (r : NvmServer.Req)
  | restart (b : Bool)

/-- The fields of the request are within the ranges of their C types: client ids have four
bits (`wh_Server_HandleCommRequest`, src/wh_server.c:277-290), lengths 16. -/
def Ev.Valid : Ev → Prop
  | .key v _ _ => v.client < 16
  | .nvm _ (.add _ payload) => payload.length < 65536
  | .nvm _ (.addDma _ _ _ _ _ _ data) => data.length < 65536
  | _ => True

/-- An empty cache of the same shape. -/
def Cache.cleared (c : Cache) : Cache :=
  ⟨List.replicate c.reg.length none, List.replicate c.big.length none⟩

/-- What the client observes of an event: nothing once power is lost. -/
inductive Obs where
  | none
  | key (r : Resp)
  | nvm (r : NvmServer.Resp)
deriving DecidableEq

/-- One event.  Without power only the restart does anything; a request during which
power is lost is not answered. -/
def step (cfg : Cfg) (ncfg : NvmServer.Cfg) (s : Sys) : Ev → Obs × Sys
  | .key v lock r =>
    if s.nvm.powered then
      let p := handle cfg v s lock r
      (if p.2.nvm.powered then .key p.1 else .none, p.2)
    else (.none, s)
  | .nvm lock r =>
    if s.nvm.powered then
      let p := NvmServer.handle ncfg s.nvm lock r
      (if p.2.powered then .nvm p.1 else .none, { s with nvm := p.2 })
    else (.none, s)
  | .restart b =>
    (.none, ⟨s.nvm.restart b, s.global.cleared, fun x => (s.loc x).cleared⟩)

/-- State after a history. -/
def run (cfg : Cfg) (ncfg : NvmServer.Cfg) (s : Sys) (evs : List Ev) : Sys :=
  evs.foldl (fun s e => (step cfg ncfg s e).2) s

/-- States a server can be in: after boot with empty caches and any NVM content, after any
client request or restart, and after the server application itself has put a key in a
cache (`wh_Server_KeystoreCacheKey`, which checks nothing). -/
inductive Reach (cfg : Cfg) (ncfg : NvmServer.Cfg) : Sys → Prop where
  | boot (s : Sys) (hg : s.global = s.global.cleared) (hl : ∀ x, s.loc x = (s.loc x).cleared)
      (hp : s.nvm.pending = none)
      (hn : ∀ id md bs, s.nvm.store id = some (md, bs) → md.id = id ∧ md.len.toNat = bs.length) :
      Reach cfg ncfg s
  | step {s : Sys} (e : Ev) (hv : e.Valid) (h : Reach cfg ncfg s) :
      Reach cfg ncfg (step cfg ncfg s e).2
  | provision {s : Sys} (x : Nat) (md : Meta) (data : List UInt8)
      (hl : md.len.toNat = data.length) (h : Reach cfg ncfg s) :
      Reach cfg ncfg (cacheKey cfg x s false md data).2

/-- Observations of a history, in order. -/
def trace (cfg : Cfg) (ncfg : NvmServer.Cfg) (s : Sys) : List Ev → List Obs
  | [] => []
  | e :: evs => (step cfg ncfg s e).1 :: trace cfg ncfg (step cfg ncfg s e).2 evs

/-- Key ids client `c` may name: its own, and global ones if there are any. -/
def Reachable (cfg : Cfg) (client id : UInt16) : Prop :=
  KeyId.userOf id = client ∨ (cfg.ids.globalKeys = true ∧ KeyId.userOf id = KeyId.userGlobal)

/-- The key as the server context sees it: the cached copy, otherwise the stored one. -/
def view (cfg : Cfg) (x : Nat) (s : Sys) (id : UInt16) : Option (Meta × List UInt8) :=
  match cached cfg x s id with
  | some k => some (k.md, k.data)
  | none => s.nvm.store id

/-- Every cached copy marked as committed is what the NVM holds. -/
def Coherent (cfg : Cfg) (s : Sys) (id : UInt16) : Prop :=
  ∀ y k, cached cfg y s id = some k → k.committed = true → s.nvm.store id = some (k.md, k.data)

/-- No other context than `x` has the key in its own cache. -/
def OnlyAt (cfg : Cfg) (x : Nat) (s : Sys) (id : UInt16) : Prop :=
  isGlobal cfg id = false → ∀ y, y ≠ x → cached cfg y s id = none

/-- A key request of another client. -/
def Ev.ByOther (client : UInt16) : Ev → Prop
  | .key v _ _ => v.client ≠ client
  | _ => False

/-- The client that owns the key is served by context `x` only, and no NVM request adds or
destroys the object with the key's id. -/
def Ev.Tame (cfg : Cfg) (x : Nat) (id : UInt16) : Ev → Prop
  | .key v _ _ => isGlobal cfg id = false → v.client = KeyId.userOf id → v.ctx = x
  | .nvm lock r => (NvmServer.Ev.req lock r).NotAdding id ∧ id ∉ r.toDestroy
  | .restart _ => True

/-- The server-side id a client's request id stands for. -/
def ownId (cfg : Cfg) (v : Srv) (rid : UInt16) : UInt16 :=
  KeyId.fromClient cfg.ids KeyId.typeCrypto v.client rid

/-- The request names key `id` as the one to be stored, changed or removed.  (A request that
leaves the choice of the id to the server names no key.) -/
def Req.Names (cfg : Cfg) (v : Srv) (r : Req) (id : UInt16) : Prop :=
  match r with
  | .cache rid .. | .cacheRandom rid .. | .cacheDma rid .. | .importKey rid ..
  | .evict rid | .commit rid | .erase rid | .revoke rid | .evictOption rid =>
    id = ownId cfg v rid
  | .unwrapCache _ blob => ∃ kek pt, openBlob cfg kek true blob = (.ok, pt) ∧
      unwrapSheId cfg (Meta.deser (pt.take 32)).id = some id
  | _ => False

/-- The request leaves the choice of the id to the server: it carries id 0. -/
def Req.Picks (cfg : Cfg) (v : Srv) (r : Req) : Prop :=
  match r with
  | .cache rid .. | .cacheRandom rid .. | .cacheDma rid .. | .importKey rid .. =>
    KeyId.idOf (ownId cfg v rid) = 0
  | _ => False

/-- The event names key `id` as the one to be stored, changed or removed. -/
def Ev.Writes (cfg : Cfg) (id : UInt16) : Ev → Prop
  | .key v _ r => r.Names cfg v id
  | .nvm lock r => ¬(NvmServer.Ev.req lock r).NotAdding id ∨ id ∈ r.toDestroy
  | .restart _ => False

/-- The event may replace, revoke or erase key `id`, or write or destroy the object through
the NVM requests.  Committing and evicting the key are not included. -/
def Ev.Changes (cfg : Cfg) (id : UInt16) : Ev → Prop
  | .key _ _ (.evict _) | .key _ _ (.commit _) | .key _ _ (.evictOption _) => False
  | e => e.Writes cfg id

/-- The event may bring key `id` into existence: it names the id, or a client that may name it
leaves the choice of an id to the server. -/
def Ev.MayCreate (cfg : Cfg) (id : UInt16) : Ev → Prop
  | .key v _ r => r.Names cfg v id ∨ (r.Picks cfg v ∧ Reachable cfg v.client id)
  | e => e.Writes cfg id

/-- The event is a request to revoke key `id`. -/
def Ev.Revokes (cfg : Cfg) (id : UInt16) : Ev → Prop
  | .key v _ (.revoke rid) => id = ownId cfg v rid
  | _ => False

/-- The request brings in a key with metadata `md` and bytes `data`: from the message, from
client memory, from the random number generator, from a key generation, or from a
wrapped blob.  What looks like the private state of a stateful signature key is refused. -/
def Req.Brings (cfg : Cfg) (r : Req) (md : Meta) (data : List UInt8) : Prop :=
  match r with
  | .cache _ flags _ key => md.flags = flags &&& ~~~Nvm.serverOnly ∧ data = key ∧
      cfg.statefulBlob key = false
  | .cacheRandom _ flags _ sz rng => md.flags = flags &&& ~~~Nvm.serverOnly ∧
      ∃ f, rng = .ok f ∧ data = (List.range sz.toNat).map f
  | .cacheDma _ flags _ sz _ mem => md.flags = flags &&& ~~~Nvm.serverOnly ∧
      data = (List.range sz.toUInt16.toNat).map mem ∧ cfg.statefulBlob data = false
  | .importKey _ flags _ _ der => md.flags = flags &&& ~~~Nvm.serverOnly ∧ der = .ok data
  | .unwrapCache _ blob => ∃ kek pt, openBlob cfg kek true blob = (.ok, pt) ∧
      md.flags = (Meta.deser (pt.take 32)).flags &&& ~~~Nvm.serverOnly ∧
      data = (pt.drop 32).take (blob.length - 60) ∧ cfg.statefulBlob data = false
  | _ => False

end WolfHsm.Keystore

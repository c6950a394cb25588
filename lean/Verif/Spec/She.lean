import Verif.Model.She
import Verif.Spec.Keystore

/-!
# Specification vocabulary for the SHE properties (C33–C38)

Histories of a device: SHE requests of any clients at any server contexts, the requests of
`Spec/Keystore` (key, NVM and crypto groups), and power cycles.
-/

namespace WolfHsm.She

open NvmFlash (Meta)
open Keystore (Sys Srv cached view labelCount)
open Server (Req)
open Wire

/-- AES blocks and CMACs have 16 bytes. -/
structure Crypto.Sized (cr : Crypto) : Prop where
  enc : ∀ k b, (cr.enc k b).length = 16
  dec : ∀ k b, (cr.dec k b).length = 16
  cmac : ∀ k m, (cr.cmac k m).length = 16

/-- A device: the key store, and the SHE state of every server context. -/
structure World where
  sys : Sys
  she : Nat → St

/-- One event. -/
inductive Ev where
  | she (v : Srv) (env : Env) (r : Req)
  | other (e : Keystore.Ev)

/-- Fields within the range of their C types, and no more bytes received than the packet buffer
holds; taking the lock does not fail with the SHE code `NO_SECURE_BOOT`. -/
def Ev.Valid : Ev → Prop
  | .she v env r => v.client < 16 ∧ env.lock ≠ .sheNoSecureBoot ∧ r.size ≤ r.buf.length
  | .other e => e.Valid

/-- What is observed: nothing once power is lost; otherwise the return code of the handler and
the response packet. -/
inductive Obs where
  | none
  | she (rc : Rc) (packet : List UInt8)
  | other (o : Keystore.Obs)

/-- Replace the SHE state of one context. -/
def World.set (w : World) (x : Nat) (t : St) (s : Sys) : World :=
  ⟨s, fun y => if y = x then t else w.she y⟩

/-- One event. -/
def step (cfg : Cfg) (ncfg : NvmServer.Cfg) (w : World) : Ev → Obs × World
  | .she v env r =>
    if w.sys.nvm.powered then
      let p := handle cfg v env (w.she v.ctx) w.sys r
      (if p.2.2.nvm.powered then .she p.1.1 p.1.2 else .none, w.set v.ctx p.2.1 p.2.2)
    else (.none, w)
  | .other (.restart b) => (.none, ⟨(Keystore.step cfg.ks ncfg w.sys (.restart b)).2, fun _ => St.boot⟩)
  | .other e =>
    let p := Keystore.step cfg.ks ncfg w.sys e
    (.other p.1, { w with sys := p.2 })

/-- The device after a history. -/
def run (cfg : Cfg) (ncfg : NvmServer.Cfg) (w : World) (evs : List Ev) : World :=
  evs.foldl (fun w e => (step cfg ncfg w e).2) w

/-- A device that has just booted: cleared SHE contexts, empty key caches, any NVM content. -/
def Booted (w : World) : Prop :=
  (∀ x, w.she x = St.boot) ∧ w.sys.global = w.sys.global.cleared ∧
  (∀ x, w.sys.loc x = (w.sys.loc x).cleared) ∧ w.sys.nvm.pending = none ∧
  ∀ id md bs, w.sys.nvm.store id = some (md, bs) → md.id = id ∧ md.len.toNat = bs.length

/-- A device after any history. -/
def Reach (cfg : Cfg) (ncfg : NvmServer.Cfg) (w : World) : Prop :=
  ∃ w0 evs, Booted w0 ∧ (∀ e ∈ evs, Ev.Valid e) ∧ w = run cfg ncfg w0 evs

/-- The SHE request is answered, and the first field of the answer is the code. -/
def Answered (cfg : Cfg) (ncfg : NvmServer.Cfg) (w : World) (v : Srv) (env : Env) (r : Req) (rc : Rc) : Prop :=
  ∃ p, (step cfg ncfg w (.she v env r)).1 = .she .ok p ∧ 4 ≤ p.length ∧
    rd32 cfg.le r.magic p 0 = rc.code

/-- The power cycle. -/
def Ev.isRestart : Ev → Prop
  | .other (.restart _) => True
  | _ => False

/-- A secure boot command at context `x`. -/
def Ev.isBoot (x : Nat) : Ev → Prop
  | .she v _ r => v.ctx = x ∧ (r.action = 1 ∨ r.action = 2 ∨ r.action = 3)
  | _ => False

/-- In the history, since the last power cycle, context `x` accepted a `SET_UID`. -/
def UidGiven (cfg : Cfg) (ncfg : NvmServer.Cfg) (w : World) (evs : List Ev) (x : Nat) : Prop :=
  ∃ a v env r b, evs = a ++ .she v env r :: b ∧ v.ctx = x ∧ r.action = 0 ∧
    Answered cfg ncfg (run cfg ncfg w a) v env r .ok ∧ ∀ e ∈ b, ¬e.isRestart

/-- In the history, since the last power cycle and as the last boot command of context `x`: a
`SECURE_BOOT_FINISH` answered without error, or a `SECURE_BOOT_INIT` answered
`NO_SECURE_BOOT`. -/
def BootDone (cfg : Cfg) (ncfg : NvmServer.Cfg) (w : World) (evs : List Ev) (x : Nat) : Prop :=
  ∃ a v env r b, evs = a ++ .she v env r :: b ∧ v.ctx = x ∧
    (r.action = 3 ∧ Answered cfg ncfg (run cfg ncfg w a) v env r .ok ∨
      r.action = 1 ∧ Answered cfg ncfg (run cfg ncfg w a) v env r .sheNoSecureBoot) ∧
    ∀ e ∈ b, ¬e.isRestart ∧ ¬e.isBoot x

/-- The image bytes sent to context `x` with `SECURE_BOOT_UPDATE`, in order. -/
def chunks (cfg : Cfg) (x : Nat) (evs : List Ev) : List UInt8 :=
  evs.flatMap fun
    | .she v _ r =>
      if v.ctx = x ∧ r.action = 2 then rdBytes r.buf 8 (rd32 cfg.le r.magic r.buf 0).toNat else []
    | _ => []

/-- After the history `pre` and all through `b`: every secure boot command of context `x` is an
accepted `SECURE_BOOT_UPDATE`. -/
def OnlyUpdates (cfg : Cfg) (ncfg : NvmServer.Cfg) (w : World) (x : Nat) (pre b : List Ev) : Prop :=
  ∀ c v env r d, b = c ++ .she v env r :: d → v.ctx = x → (r.action = 1 ∨ r.action = 2 ∨ r.action = 3) →
    r.action = 2 ∧ Answered cfg ncfg (run cfg ncfg w (pre ++ c)) v env r .ok

/-- The size of the image announced with `SECURE_BOOT_INIT`. -/
def announced (cfg : Cfg) (r : Req) : UInt32 := rd32 cfg.le r.magic r.buf 0

/-- The key in a slot as the context sees it, if there is one of 16 bytes. -/
def slotKey (cfg : Cfg) (v : Srv) (s : Sys) (slot : UInt16) : Option (List UInt8) :=
  (view cfg.ks v.ctx s (sheId cfg v.client slot)).map (·.2)

/-- M1, M2 and M3 of a `LOAD_KEY` request. -/
def m1 (r : Req) : List UInt8 := rdBytes r.buf 0 16
def m2 (r : Req) : List UInt8 := rdBytes r.buf 16 32
def m3 (r : Req) : List UInt8 := rdBytes r.buf 48 16

/-- The key that authorises an update: the one in the slot M1 names; an empty MASTER_ECU_KEY
slot counts as a key of zeros. -/
def authKey (cfg : Cfg) (v : Srv) (s : Sys) (r : Req) : List UInt8 :=
  (slotKey cfg v s (popAuth (m1 r))).getD (zeros 16)

/-- The counter inside an update, as the holder of the authorising key reads it. -/
def updateCount (cfg : Cfg) (key : List UInt8) (r : Req) : Nat :=
  (popCount (cbcDec cfg.cr (mp16 cfg.cr (key ++ encC)) 2 (zeros 16) (m2 r))).toNat

/-- The slot an update is for. -/
def updateSlot (cfg : Cfg) (v : Srv) (r : Req) : UInt16 := sheId cfg v.client (popId (m1 r))

/-- The target slot of an update that should be accepted: it is empty, or holds a key that is not
write protected with a smaller counter. -/
def Updatable (cfg : Cfg) (v : Srv) (s : Sys) (slot : UInt16) (count : Nat) : Prop :=
  view cfg.ks v.ctx s (sheId cfg v.client slot) = none ∧ 0 < count ∨
  ∃ md key, view cfg.ks v.ctx s (sheId cfg v.client slot) = some (md, key) ∧ key.length = 16 ∧
    isWp md = false ∧ labelCount md.label < count

/-- The NVM is powered and none of its calls fails. -/
def Fine (n : Nvm) : Prop := n.powered = true ∧ ∀ k, n.outs k = .ok

/-- The NVM reports `NOTFOUND` only for objects that are not there. -/
def Honest (w : World) : Prop := ∀ k b, w.sys.nvm.outs k ≠ .fail .notfound b

/-- An event that is not a SHE request leaves the slot alone. -/
def Ev.Spares (cfg : Cfg) (id : UInt16) : Ev → Prop
  | .she _ _ _ => True
  | .other e => ¬e.Writes cfg.ks id

/-- Every copy of the slot the device may ever show satisfies `P`: the stored object, the cached
copies, and an object whose write was reported as failed but which may show up after a power
cycle; and there is a stored object. -/
def Everywhere (cfg : Cfg) (s : Sys) (id : UInt16) (P : Meta → List UInt8 → Prop) : Prop :=
  (∃ md d, s.nvm.store id = some (md, d) ∧ P md d) ∧
  (∀ y k, cached cfg.ks y s id = some k → P k.md k.data) ∧
  (∀ md d, s.nvm.pending = some (md, d) → md.id = id → P (NvmFlash.withLen md d) d)

/-! ## Sizes of requests (C44) -/

/-- The received bytes are as many as the command needs: `n` bytes of fields, and the variable
part the fields announce, as natural numbers. -/
def WellSized (cfg : Cfg) (r : Req) : Prop :=
  let field (off : Nat) : Nat := (rd32 cfg.le r.magic r.buf off).toNat
  if r.action = 0 ∨ r.action = 6 ∨ r.action = 10 then 16 ≤ r.size
  else if r.action = 1 then 8 ≤ r.size
  else if r.action = 2 then 8 ≤ r.size ∧ 8 + field 0 ≤ r.size
  else if r.action = 3 ∨ r.action = 4 ∨ r.action = 7 ∨ r.action = 8 ∨ r.action = 9 then r.size = 0
  else if r.action = 5 then 64 ≤ r.size
  else if r.action = 11 ∨ r.action = 13 then 8 ≤ r.size ∧ 8 + field 0 / 16 * 16 ≤ r.size
  else if r.action = 12 ∨ r.action = 14 then 24 ≤ r.size ∧ 24 + field 0 / 16 * 16 ≤ r.size
  else if r.action = 15 then 8 ≤ r.size ∧ 8 + field 4 ≤ r.size
  else if r.action = 16 then 16 ≤ r.size ∧ 16 + field 4 + field 8 ≤ r.size
  else False

end WolfHsm.She

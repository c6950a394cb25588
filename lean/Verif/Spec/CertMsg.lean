import Verif.Model.ClientCert
import Verif.Spec.Cert

/-!
# What the certificate calls of a client should do

In terms of the operations of `Model/Cert.lean`, whose own properties are C42.
-/

namespace WolfHsm.ClientCert

open CertMsg (Env)
open Cert (State)

variable {E : Type}

/-- A certificate object: the caller's id, access, flags and label (24 bytes, filled up with zeros).
The length is set by the server. -/
def object (id access flags : UInt16) (label : List UInt8) : NvmFlash.Meta :=
  ⟨id, access, flags, 0, Vector.ofFn fun i => label.getD i.val 0⟩

/-- Does the call verify a chain? -/
def Call.verifies : Call → Prop
  | .verify .. | .verifyMulti .. | .verifyDma .. | .verifyMultiDma .. => True
  | _ => False

/-- Does the server have what the call needs? -/
def Call.Offered (cfg : CertMsg.Cfg E) : Call → Prop
  | .clear | .enable _ => cfg.cert.caching = true
  | .addDma .. | .readDma .. | .verifyDma .. | .verifyMultiDma .. => cfg.dma = true
  | .acert .. => cfg.acert = true
  | .acertDma .. => cfg.acert = true ∧ cfg.dma = true
  | _ => True

/-- Do the sizes of client and server agree? -/
def Fit (cfg : CertMsg.Cfg E) (ccfg : Cfg) : Prop :=
  ccfg.dataLen = cfg.commLen ∧ ccfg.maxRoots = cfg.cert.maxRoots ∧ cfg.cert.maxRoots < 65536 ∧ cfg.commLen < 65536

/-- `Rc.other` stands for codes that are not wolfHSM's; this one has neither the value of OK nor that
of BUFFER_SIZE. -/
def Distinct (rc : Rc) : Prop := (rc.code = 0 → rc = .ok) ∧ (rc.code = Rc.bufferSize.code → rc = .bufferSize)

/-- Where the client tells result codes apart, they are different. -/
def Call.Distinct (cfg : CertMsg.Cfg E) (e : Env E) (s : State) : Call → Prop
  | .read id => ClientCert.Distinct (Cert.readChecked cfg.cert.maxCert s.sys.nvm e.nvmLock id (min cfg.cert.maxCert (cfg.commLen - 8))).1.1
  | _ => True

/-- An operation under the server's NVM lock: its result code, or that of the lock. -/
def locked (e : Env E) (s : State) (k : Result × State) : Result × State :=
  if e.nvmLock = .ok then k else (.code e.nvmLock.code, s)

/-- A chain verification for the client `client` of context `x`: result code and key id for the
caller. -/
def verification (cfg : CertMsg.Cfg E) (x : Nat) (client : UInt16) (e : Env E) (s : State) (mem : Nat → List UInt8) (len : Nat)
    (roots : List UInt16) (flags keyFlags keyId : UInt16) : Result × State :=
  if e.nvmLock = .ok then
    let a := Cert.verifyMulti cfg.cert s ⟨x, e.x509, e.sched, mem, roots, flags, keyFlags⟩ len
      (KeyId.fromClient cfg.cert.ks.ids KeyId.typeCrypto client keyId)
    (.verified a.1.1.code (KeyId.toClient cfg.cert.ks.ids a.1.2), a.2)
  else (.verified e.nvmLock.code 0, s)

/-- Result for the caller with a buffer of `cap` bytes, write to client memory, and state after the
call. -/
def expected (cfg : CertMsg.Cfg E) (x : Nat) (client : UInt16) (e : Env E) (cap : Nat) (s : State) :
    Call → (Result × Option (UInt64 × List UInt8)) × State
  | .init =>
    let a := Cert.certInit cfg.cert s e.cacheLock
    ((.code a.1.code, none), a.2)
  | .add id access flags label cert =>
    let a := Cert.addTrusted cfg.cert s e.cacheLock (object id access flags label) cert
    let q := locked e s (.code a.1.code, a.2)
    ((q.1, none), q.2)
  | .addDma id access flags label addr len =>
    if e.dmaRead addr len = .ok then
      let a := Cert.addTrusted cfg.cert s e.cacheLock (object id access flags label) ((List.range len.toNat).map (e.mem 0 addr))
      let q := locked e s (.code a.1.code, a.2)
      ((q.1, none), q.2)
    else ((.code (e.dmaRead addr len).code, none), s)
  | .erase id =>
    let a := Cert.eraseTrusted cfg.cert s e.cacheLock id
    let q := locked e s (.code a.1.code, a.2)
    ((q.1, none), q.2)
  | .read id =>
    let a := Cert.readChecked cfg.cert.maxCert s.sys.nvm e.nvmLock id (min cfg.cert.maxCert (cfg.commLen - 8))
    ((if a.1.1 = .ok then
        if cap < a.1.2.2.length then .tooLong (UInt32.ofNat a.1.2.2.length) else .cert a.1.2.2
      else if a.1.1 = .bufferSize then .tooLong (UInt32.ofNat a.1.2.1)
      else .code a.1.1.code, none), { s with sys := { s.sys with nvm := a.2 } })
  | .readDma id addr len =>
    if e.dmaWrite addr len = .ok then
      let a := Cert.readChecked cfg.cert.maxCert s.sys.nvm e.nvmLock id len.toNat
      ((.code a.1.1.code, if a.1.1 = .ok then some (addr, a.1.2.2) else none), { s with sys := { s.sys with nvm := a.2 } })
    else ((.code (e.dmaWrite addr len).code, none), s)
  | .verify root flags keyFlags keyId cert =>
    let q := verification cfg x client e s (fun _ => cert) cert.length [root] flags keyFlags keyId
    ((q.1, none), q.2)
  | .verifyMulti roots flags keyFlags keyId cert =>
    let q := verification cfg x client e s (fun _ => cert) cert.length roots flags keyFlags keyId
    ((q.1, none), q.2)
  | .verifyDma root flags keyFlags keyId addr len =>
    if e.dmaRead addr len = .ok then
      let q := verification cfg x client e s (fun k => (List.range len.toNat).map (e.mem k addr)) len.toNat [root] flags keyFlags keyId
      ((q.1, none), q.2)
    else ((.verified (e.dmaRead addr len).code 0, none), s)
  | .verifyMultiDma roots flags keyFlags keyId addr len =>
    if e.dmaRead addr len = .ok then
      let q := verification cfg x client e s (fun k => (List.range len.toNat).map (e.mem k addr)) len.toNat roots flags keyFlags keyId
      ((q.1, none), q.2)
    else ((.verified (e.dmaRead addr len).code 0, none), s)
  | .clear =>
    if cfg.cert.globalCache = true ∨ e.nvmLock = .ok then
      let a := s.vc.clear e.cacheLock
      ((.code a.1.code, none), { s with vc := a.2 })
    else ((.code e.nvmLock.code, none), s)
  | .enable b =>
    if cfg.cert.globalCache = true ∨ e.nvmLock = .ok then
      let a := s.vc.setEnabled e.cacheLock b
      ((.code a.1.code, none), { s with vc := a.2 })
    else ((.code e.nvmLock.code, none), s)
  | .acert root cert =>
    let a := Cert.verifyAcert cfg.cert s.sys.nvm root cert
    let q := locked e s (.code a.1.code, { s with sys := { s.sys with nvm := a.2 } })
    ((q.1, none), q.2)
  | .acertDma root addr len =>
    if e.dmaRead addr len = .ok then
      let a := Cert.verifyAcert cfg.cert s.sys.nvm root ((List.range len.toNat).map (e.mem 0 addr))
      let q := locked e s (.code a.1.code, { s with sys := { s.sys with nvm := a.2 } })
      ((q.1, none), q.2)
    else ((.code (e.dmaRead addr len).code, none), s)

end WolfHsm.ClientCert

namespace WolfHsm.CertMsg

open Cert (State)

variable {E : Type}

/-- A history of a verify cache as the server lives it: certificate packets on a context using this
cache, whatever their bytes; other requests; power-up. -/
inductive PEv (E : Type) where
  | packet (x : Nat) (client : UInt16) (e : Env E) (r : Server.Req)
  | other (sys : Keystore.Sys)
  | restart (sys : Keystore.Sys)

/-- The state after one of these. -/
def pstep (cfg : Cfg E) (s : State) : PEv E → State
  | .packet x client e r => (handle cfg x client e r s).2
  | .other sys => { s with sys := sys }
  | .restart sys => { s with sys := sys, vc := Cert.VCache.fresh cfg.cert.count }

/-- The state after a history. -/
def prun (cfg : Cfg E) (s : State) (evs : List (PEv E)) : State := evs.foldl (pstep cfg) s

/-- What a history has to respect for the root ids `P` (as `Cert.Respects`): the lock of the cache
works, client memory does not change while a request is served, the packet buffer holds as many
bytes as were received, and nothing but certificate requests replaces the root certificates. -/
def PGuarded (cfg : Cfg E) (P : UInt16 → Prop) : State → List (PEv E) → Prop
  | _, [] => True
  | s, .packet x client e r :: evs =>
    e.cacheLock = .ok ∧ (∀ k, e.mem k = e.mem 0) ∧ r.size ≤ r.buf.length ∧ PGuarded cfg P (pstep cfg s (.packet x client e r)) evs
  | s, .other sys :: evs =>
    (sys.nvm.powered = true → s.sys.nvm.powered = true) ∧
    (∀ r, P r → Cert.rootBytes sys.nvm r = none ∨ Cert.rootBytes sys.nvm r = Cert.rootBytes s.sys.nvm r) ∧
    PGuarded cfg P (pstep cfg s (.other sys)) evs
  | s, .restart sys :: evs => PGuarded cfg P (pstep cfg s (.restart sys)) evs

end WolfHsm.CertMsg

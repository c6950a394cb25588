import Verif.Model.ClientShe
import Verif.Spec.She

/-!
# Specification vocabulary for SHE calls (C58)

What a SHE call means, without bytes: `Call.does`.
-/

namespace WolfHsm.ClientShe

open Keystore (Sys Srv)
open She
open Wire
open ClientHash (Ret Reply)

/-- The outcome of a command: its code, its output if that is `ok`, and the states afterwards. -/
structure Outcome where
  rc : Rc
  out : List UInt8
  st : St
  sys : Sys

/-- A request without data. -/
def noData (action : UInt16) : Server.Req := ⟨Utils.magicNative, action, 0, [], 0⟩

/-- A command with the key in a slot: what it gives with a key of 16 bytes, `short` for other keys,
`cryptoErr` if the cipher fails, KEY_NOT_AVAILABLE if there is no key. -/
def withKey (cfg : She.Cfg) (v : Srv) (env : Env) (t : St) (s : Sys) (id : UInt8) (short : Rc) (f : List UInt8 → List UInt8) : Outcome :=
  match readSlot cfg v s id.toUInt16 with
  | ((.ok, some (_, key)), s1) =>
    if key.length ≠ 16 then ⟨short, [], t, s1⟩
    else if env.fault 0 then ⟨cryptoErr, [], t, s1⟩
    else ⟨.ok, f key, t, s1⟩
  | (_, s1) => ⟨.sheKeyNotAvailable, [], t, s1⟩

/-- Whole blocks only. -/
def blocks (l : List UInt8) : List UInt8 := l.take (l.length / 16 * 16)

/-- The command a call stands for, when the server is in a state in which it is allowed. -/
def Call.does (cfg : She.Cfg) (v : Srv) (env : Env) (t : St) (s : Sys) : Call → Outcome
  | .setUid uid => ⟨.ok, [], { t with uid := uid.take 15, uidSet := true }, s⟩
  | .getStatus => let x := She.getStatus t s (noData 4); ⟨x.ret, x.body, x.st, x.sys⟩
  | .loadKey m1 m2 m3 =>
    match openM2 cfg v env s m1 m2 m3 with
    | (.error e, s1) => ⟨e, [], t, s1⟩
    | (.ok m2, s1) =>
      match target cfg v s1 (popId m1) with
      | (.error e, s2) => ⟨e, [], t, s2⟩
      | (.ok (keyRet, md), s2) =>
        if accept t m1 m2 keyRet md = .ok then
          match store cfg v s2 (newMeta cfg v m1 m2 md) ((m2.drop 16).take 16) with
          | ((.ok, md', key), s3) =>
            let a := answer cfg env t m1 md' key
            ⟨a.1, a.2, if a.1 = .ok ∧ KeyId.idOf md'.id = 14 then { t with ramPlain := true } else t, s3⟩
          | (_, s3) => ⟨.sheKeyUpdateError, [], t, s3⟩
        else ⟨accept t m1 m2 keyRet md, [], t, s2⟩
  | .loadPlain key =>
    let p := Keystore.cacheKey cfg.ks v.ctx s false ⟨sheId cfg v.client 14, 0, 0, 16, Vector.replicate 24 0⟩ (key.take 16)
    ⟨p.1, [], if p.1 = .ok then { t with ramPlain := true } else t, p.2⟩
  | .exportRam => let x := She.exportRam cfg v env t s (noData 7); ⟨x.ret, x.body, x.st, x.sys⟩
  | .initRnd => let x := She.initRnd cfg v env t s (noData 8); ⟨x.ret, [], x.st, x.sys⟩
  | .rnd _ => let x := She.rnd cfg env t s (noData 9); ⟨x.ret, x.body, x.st, x.sys⟩
  | .extendSeed e =>
    let x := She.extendSeed cfg v env t s ⟨Utils.magicNative, 10, 0, e, 16⟩
    ⟨x.ret, [], x.st, x.sys⟩
  | .cipher m id iv input =>
    withKey cfg v env t s id (if m = .decCbc then .sheKeyNotAvailable else cryptoErr) fun key =>
      m.apply cfg.cr key (iv.take 16) (input.length / 16) (blocks input)
  | .genMac id input _ => withKey cfg v env t s id .sheKeyNotAvailable fun key => cfg.cr.cmac key input
  | .verifyMac id msg mac =>
    match readSlot cfg v s id.toUInt16 with
    | ((.ok, some (_, key)), s1) =>
      if key.length ≠ 16 then ⟨.sheKeyNotAvailable, [], t, s1⟩
      else ⟨.ok, [if env.fault 0 = false ∧ cfg.cr.cmacVerify key msg (mac.take 16) = true then 0 else 1], t, s1⟩
    | (_, s1) => ⟨.sheKeyNotAvailable, [], t, s1⟩

/-- The call takes the NVM lock. -/
def Call.locks : Call → Bool
  | .setUid _ | .getStatus | .rnd _ => false
  | _ => true

/-- The whole command: refused in the wrong state, not answered if the lock cannot be taken. -/
def Call.performed (cfg : She.Cfg) (v : Srv) (env : Env) (t : St) (s : Sys) (c : Call) : Option Outcome :=
  if refused t c.action then some ⟨.sheSequenceError, [], t, s⟩
  else if c.locks = true ∧ env.lock ≠ .ok then none
  else some (c.does cfg v env t s)

/-- What the caller gets: output or error code, or ABORTED without an answer. -/
def result : Option Outcome → Result
  | none => (Rc.aborted.code, none)
  | some o => if o.rc = .ok then (0, some o.out) else ((translate o.rc).code, none)

/-- The states afterwards. -/
def states (t : St) (s : Sys) : Option Outcome → St × Sys
  | none => (t, s)
  | some o => (o.st, o.sys)

/-- The three messages of a key update have their sizes. -/
def Call.Sane : Call → Prop
  | .loadKey m1 m2 m3 => m1.length = 16 ∧ m2.length = 32 ∧ m3.length = 16
  | _ => True

/-- The server at work on a packet of the client: its answer (empty if there is none), and its states
afterwards. -/
def served (cfg : She.Cfg) (cle : Bool) (v : Srv) (env : Env) (seq : UInt16) (junk : List UInt8) (t : St) (s : Sys)
    (action : UInt16) (body : List UInt8) : List UInt8 × St × Sys :=
  let q := handle cfg v env t s
    ⟨if cfg.le = cle then Utils.magicNative else Utils.magicSwap, action, seq, body ++ junk, body.length⟩
  (q.1.2, q.2)

/-- What happens to one request of a secure boot: it or its response is lost, or it is served, with
`sys` the key store it finds (others may have changed it in the meantime). -/
structure Step where
  lost : Option Ret
  env : Env
  seq : UInt16
  junk : List UInt8
  sys : Sys

/-- The server during a secure boot: the number of the request and the SHE state of the context. -/
def bootPeer (cfg : She.Cfg) (cle : Bool) (v : Srv) (step : Nat → Step) (w : Nat × St) (action : UInt16) (body : List UInt8) :
    Reply × (Nat × St) :=
  let e := step w.1
  match e.lost with
  | some rc => (.lost rc, (w.1 + 1, w.2))
  | none =>
    let q := served cfg cle v e.env e.seq e.junk w.2 e.sys action body
    (.got q.1, (w.1 + 1, q.2.1))

/-- The key or MAC in a slot, as the request `e` finds it. -/
def Step.holds (cfg : She.Cfg) (v : Srv) (e : Step) (slot : UInt16) (data : List UInt8) : Prop :=
  ∃ md, (readSlot cfg v e.sys slot).1 = (.ok, some (md, data))

/-- The stored MAC is that of the image: of 12 zeros, the length of the image and its bytes.  A stored
MAC shorter than 16 bytes is compared together with uninitialised memory. -/
def Genuine (cfg : She.Cfg) (e : Step) (key mac image : List UInt8) : Prop :=
  cfg.cr.cmac key (zeros 12 ++ Utils.bytes32 cfg.le (UInt32.ofNat image.length) ++ image) = put (e.env.bytes 0 16) 0 mac

/-- Number of packets for an image. -/
def packets (dataLen : Nat) (image : List UInt8) : Nat := (image.length + (dataLen - 8) - 1) / (dataLen - 8)

end WolfHsm.ClientShe

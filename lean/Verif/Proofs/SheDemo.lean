import Verif.Proofs.SheAccept
import Verif.Proofs.KeystoreDemo

/-!
# A small concrete device for the examples beside the SHE theorems

SHE keys are global; a toy block cipher and a toy MAC of the right sizes.
-/

namespace WolfHsm.She.Demo

open NvmFlash (Meta Store)
open Keystore (Sys Srv Cache)
open Server (Req)
open Utils (bytes32)

/-- Sixteen bytes. -/
def fit (l : List UInt8) : List UInt8 := (l ++ zeros 16).take 16

/-- The toy algorithms. -/
def cr : Crypto where
  enc k b := (xorBytes (fit b) (fit k)).map (· + 1)
  dec k b := xorBytes ((fit b).map (· - 1)) (fit k)
  cmac k m := xorBytes (fit (bytes32 true (m.foldl (fun h b => h * 31 + b.toUInt32) 7))) (fit k)
  cmacVerify k m mac :=
    mac == xorBytes (fit (bytes32 true (m.foldl (fun h b => h * 31 + b.toUInt32) 7))) (fit k)

theorem fit_length (l : List UInt8) : (fit l).length = 16 := by simp [fit, zeros]

theorem sized : cr.Sized := by
  refine ⟨?_, ?_, ?_⟩ <;> intro k b <;> simp [cr, xorBytes_length, fit_length]

/-- The configuration. -/
def cfg : Cfg := ⟨{ Keystore.Demo.cfg with sheGlobal := true }, cr, true⟩

/-- The NVM request group. -/
def ncfg : NvmServer.Cfg := Keystore.Demo.ncfg

theorem good : Keystore.GoodCfg cfg.ks := by intro _; rfl

/-- The SHE keys: the secret key, the boot MAC key, the boot MAC, and key 5 with counter 3. -/
def secretKey : List UInt8 := List.replicate 16 0xA0
def bootKey : List UInt8 := List.replicate 16 0xB0
def key5 : List UInt8 := List.replicate 16 0x50
/-- The boot loader. -/
def image : List UInt8 := [1, 2, 3, 4, 5]
def bootMac : List UInt8 := cr.cmac bootKey (zeros 12 ++ bytes32 true 5 ++ image)

/-- Metadata of a provisioned key. -/
def md (slot : UInt16) (count flags : UInt32) : Meta :=
  ⟨sheId cfg 1 slot, 0xFFFF, 0, 16, setLabel (Vector.replicate 24 0) count flags⟩

/-- NVM content at boot; `b`: with a boot MAC key. -/
def store (b : Bool) : Store := fun id =>
  if id = sheId cfg 1 0 then some (md 0 1 0, secretKey)
  else if id = sheId cfg 1 2 ∧ b = true then some (md 2 1 0, bootKey)
  else if id = sheId cfg 1 3 ∧ b = true then some (md 3 1 0, bootMac)
  else if id = sheId cfg 1 5 then some (md 5 3 0, key5)
  else if id = sheId cfg 1 15 then some (md 15 1 0, List.replicate 16 0xF0)
  else none

/-- The device at boot; `outs`: the outcomes of the NVM backend. -/
def dev (b : Bool) (outs : Nat → Out) : World :=
  ⟨⟨⟨store b, none, true, outs, 0⟩, Keystore.Demo.empty, fun _ => Keystore.Demo.empty⟩, fun _ => St.boot⟩

theorem bootMac_length : bootMac.length = 16 := sized.cmac ..

theorem booted (b : Bool) (outs : Nat → Out) : Booted (dev b outs) := by
  refine ⟨fun _ => rfl, rfl, fun _ => rfl, rfl, ?_⟩
  intro id m bs h
  change store b id = _ at h
  unfold store at h
  repeat' split at h
  · rename_i e; cases h; exact ⟨e.symm, rfl⟩
  · rename_i e; cases h; exact ⟨e.1.symm, rfl⟩
  · rename_i e; cases h; exact ⟨e.1.symm, bootMac_length.symm⟩
  · rename_i e; cases h; exact ⟨e.symm, rfl⟩
  · rename_i e; cases h; exact ⟨e.symm, rfl⟩
  · cases h

/-- The NVM never fails. -/
def fine : Nat → Out := fun _ => .ok

/-- Client 1 is served by context 0. -/
def one : Srv := ⟨0, 1⟩
/-- Nothing fails. -/
def calm : Env := ⟨.ok, fun _ => false, fun _ => 0xEE⟩
/-- The UID. -/
def uid : List UInt8 := List.replicate 15 0x1D

/-- A request. -/
def req (action : UInt16) (data : List UInt8) : Req := ⟨Utils.magicNative, action, 1, data, data.length⟩

def setUidR : Req := req 0 (uid ++ [0])
def initR : Req := req 1 (bytes32 true 5 ++ zeros 4)
def updR (l : List UInt8) : Req := req 2 (bytes32 true (UInt32.ofNat l.length) ++ zeros 4 ++ l)
def finR : Req := req 3 []
/-- A load of messages made by the generator. -/
def genR (k a : UInt8) (count flags : UInt32) (key auth : List UInt8) : Req :=
  match generate cr k a count flags uid key auth with
  | some u => req 5 (u.m1 ++ u.m2 ++ u.m3)
  | none => req 5 []
/-- A load that asks for write protection the way the loader reads it. -/
def wpR (k a : UInt8) (count : UInt32) (key auth : List UInt8) : Req :=
  let m1 := uid ++ [idByte k a]
  let m2 := cbcEnc cr (mp16 cr (auth ++ encC)) 2 (zeros 16) (bytes32 false (count <<< 4) ++ [0x80] ++ zeros 11 ++ key)
  req 5 (m1 ++ m2 ++ cr.cmac (mp16 cr (auth ++ macC)) (m1 ++ m2))

def ev (r : Req) : Ev := .she one calm r

/-- Boot with the boot loader in two pieces. -/
def goodBoot : List Ev := [ev setUidR, ev initR, ev (updR [1, 2, 3]), ev (updR [4, 5]), ev finR]
/-- Boot without a boot MAC key. -/
def openBoot : List Ev := [ev setUidR, ev initR]

/-- Is the request answered with the code? -/
def answeredB (w : World) (v : Srv) (env : Env) (r : Req) (rc : Rc) : Bool :=
  match (step cfg ncfg w (.she v env r)).1 with
  | .she .ok p => decide (4 ≤ p.length) && (Wire.rd32 cfg.le r.magic p 0 == rc.code)
  | _ => false

theorem answered {w : World} {v : Srv} {env : Env} {r : Req} {rc : Rc} (h : answeredB w v env r rc = true) :
    Answered cfg ncfg w v env r rc := by
  unfold answeredB at h
  split at h
  · rename_i p e
    simp only [Bool.and_eq_true, decide_eq_true_eq, beq_iff_eq] at h
    exact ⟨p, e, h.1, h.2⟩
  · cases h

instance (e : Ev) : Decidable e.Valid := by
  unfold Ev.Valid; split <;> infer_instance

theorem reach (b : Bool) (outs : Nat → Out) (evs : List Ev) (h : ∀ e ∈ evs, e.Valid) :
    Reach cfg ncfg (run cfg ncfg (dev b outs) evs) := ⟨_, _, booted b outs, h, rfl⟩

theorem honest (b : Bool) : Honest (dev b fine) := by intro k c h; cases h

end WolfHsm.She.Demo

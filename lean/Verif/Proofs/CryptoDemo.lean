import Verif.Proofs.KeystoreDemo
import Verif.Spec.Crypto

/-!
# A small concrete crypto server for the examples beside the crypto theorems

The demo key store with a toy crypto library that never writes more than the buffer it is given.
-/

namespace WolfHsm.Crypto.Demo

open Keystore (Srv Sys Ev Obs step run)

/-- Output that has to fit. -/
def fit (max : Nat) (b : List UInt8) : Except Rc (List UInt8) :=
  if b.length ≤ max then .ok b else .error .badargs

/-- The sum of some bytes, for toy results. -/
def sum (b : List UInt8) : UInt8 := b.foldl (· + ·) 0

/-- The toy library. -/
def lib : Lib where
  gen _ _ coins := .ok coins
  level _ _ := true
  privateDer _ max obj := fit max obj
  publicDer _ max obj := fit max [sum obj]
  rsa _ max key input _ := fit max (input.map (· + sum key))
  rsaSize key := .ok key.length
  secret _ _ max prv pub := fit max [sum prv + sum pub, 0x5E]
  sign _ _ max key msg _ _ := fit max [sum key + sum msg, 0x51]
  verify _ _ key sig msg _ := .ok (if sig = [sum key + sum msg, 0x51] then 1 else 0)
  publicFrom max key := fit max [sum key]
  makePub max key _ := fit max [sum key]
  checkPub key pub _ := if pub = [sum key] then .ok () else .error .badargs
  encaps _ key coins := .ok ([sum key + sum coins], [sum coins])
  decaps _ key ct := .ok [sum ct - sum key]
  hkdf _ _ ikm salt info outSz := .ok (List.replicate outSz (sum ikm + sum salt + sum info))
  cmacKdf _ salt z info outSz := .ok (List.replicate outSz (sum salt + sum z + sum info))
  aes _ _ _ key input extra := .ok (input.map (· + sum key), extra)
  cmac key input outSz := .ok (List.replicate outSz (sum key + sum input))
  cmacUpdate key state input := .ok (state ++ [sum key + sum input])
  cmacFinal key state input outSz := .ok (List.replicate outSz (sum key + sum state + sum input))

/-- The demo key store with room for 32-byte made keys. -/
def cfg : Cfg where
  ks := Keystore.Demo.cfg
  cap _ := 32
  kdfMax := 64

/-- A handler run with nothing in between and the lock always granted. -/
def alone (cfg : Keystore.Cfg) (ncfg : NvmServer.Cfg) (v : Srv) :
    Sys → Prog → List Ev × Option Resp
  | _, .done a => ([], some a)
  | s, .call _ r k =>
    match (step cfg ncfg s (.key v .ok r)).1 with
    | .key a =>
      let q := alone cfg ncfg v (step cfg ncfg s (.key v .ok r)).2 (k a)
      (.key v .ok r :: q.1, q.2)
    | _ => ([.key v .ok r], none)

theorem alone_exec (cfg : Keystore.Cfg) (ncfg : NvmServer.Cfg) (v : Srv) (p : Prog) (s : Sys) :
    Exec cfg ncfg v s p (alone cfg ncfg v s p).1 (alone cfg ncfg v s p).2 := by
  induction p generalizing s with
  | done a => exact .done s a
  | call locked r k ih =>
    unfold alone
    have hno : ∀ a, (step cfg ncfg s (.key v .ok r)).1 ≠ .nvm a := by
      intro a h
      unfold step at h
      dsimp only at h
      split at h
      · dsimp only at h; split at h <;> cases h
      · cases h
    cases h : (step cfg ncfg s (.key v .ok r)).1 with
    | key a => exact .call (fun _ => rfl) h (ih a _)
    | nvm a => exact absurd h (hno a)
    | none => exact .lost (fun _ => rfl) h

/-- An execution on the demo server after a history, nothing in between. -/
def on (evs : List Ev) (v : Srv) (r : Req) : List Ev × Option Resp :=
  alone cfg.ks Keystore.Demo.ncfg v (Keystore.Demo.after evs) (handler cfg lib v r)

theorem on_exec (evs : List Ev) (v : Srv) (r : Req) {a : Option Resp} (h : (on evs v r).2 = a) :
    Exec cfg.ks Keystore.Demo.ncfg v (Keystore.Demo.after evs) (handler cfg lib v r)
      (on evs v r).1 a := by
  rw [← h]; exact alone_exec _ _ _ _ _

/-- The same with one request of another context served first. -/
theorem on_exec_other (evs : List Ev) (e : Ev) (v : Srv) (r : Req) {a : Option Resp}
    (hv : e.Valid) (hf : Foreign v e) (h : (on (evs ++ [e]) v r).2 = a) :
    Exec cfg.ks Keystore.Demo.ncfg v (Keystore.Demo.after evs) (handler cfg lib v r)
      (e :: (on (evs ++ [e]) v r).1) a := by
  refine .other hv hf ?_
  have := on_exec (evs ++ [e]) v r h
  unfold Keystore.Demo.after run at this ⊢
  rw [List.foldl_append] at this
  exact this

end WolfHsm.Crypto.Demo

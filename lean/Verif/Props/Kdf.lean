import Verif.Proofs.Kdf
import Verif.Props.CryptoKeys

/-!
# Derived keys are those of the standards (C52)

`hL`: the library's key derivation is the block-wise one of `Model/Kdf.lean`, in the buffer request
and response share.  Proved when the context information is empty or is not reached by the output
before the last block is computed; `F_C52_…` shows that the key is another one otherwise.
-/

namespace WolfHsm.Props

open Crypto
open Keystore hiding Cfg Req Resp
open NvmFlash (Meta)
open Keystore.Demo (one two cache5 fresh2 label)

variable {cfg : Crypto.Cfg} {ncfg : NvmServer.Cfg} {L : Lib} {v : Srv} {s : Sys} {es : List Ev}
  {o : Crypto.Out}

/-- The blocks computed with unchanged information are those of RFC 5869. -/
theorem hkdfT_eq (hmac : List UInt8 → List UInt8 → List UInt8) (prk info : List UInt8) (n : Nat) :
    Kdf.T (fun prev info n => hmac prk (prev ++ info ++ [UInt8.ofNat n])) info n =
      Kdf.Spec.hkdfT hmac prk info n := by
  induction n with
  | zero => rfl
  | succ n ih => simp only [Kdf.T, Kdf.Spec.hkdfT, ih]

/-- **C52 (HKDF).** The output is the one of RFC 5869. -/
theorem C52_hkdf_partial {hmac : Nat → List UInt8 → List UInt8 → List UInt8} {h : Nat → Nat}
    {hash room : Nat} {ikm salt info : List UInt8} {outSz : Nat} {okm : List UInt8}
    (hh : 0 < h hash) (hlen : ∀ k m, (hmac hash k m).length = h hash)
    (hroom : info = [] ∨ ((outSz + h hash - 1) / h hash - 1) * h hash ≤ room)
    (hok : Kdf.hkdf hmac h hash room ikm salt info outSz = .ok okm) :
    okm = Kdf.Spec.hkdf (hmac hash) (h hash) ikm salt info outSz := by
  unfold Kdf.hkdf at hok
  split at hok
  · cases hok
  · simp only [Except.ok.injEq] at hok
    rw [← hok, Kdf.shared_ok hh (fun _ _ _ => hlen _ _) hroom]
    unfold Kdf.Spec.hkdf
    dsimp only
    congr 1
    unfold Kdf.Spec.concat
    rw [show Kdf.blocks (h hash) outSz = (outSz + h hash - 1) / h hash from rfl]
    congr 1
    funext i
    exact hkdfT_eq _ _ _ _

/-- **C52 (CMAC KDF).** The output is the one of SP 800-56C. -/
theorem C52_cmac_kdf_partial {cmac : List UInt8 → List UInt8 → List UInt8}
    {room : Nat} {salt z info : List UInt8} {outSz : Nat} {okm : List UInt8}
    (hlen : ∀ k m, (cmac k m).length = 16)
    (hroom : info = [] ∨ ((outSz + 15) / 16 - 1) * 16 ≤ room)
    (hok : Kdf.cmacKdf cmac room salt z info outSz = .ok okm) :
    okm = Kdf.Spec.cmacKdf cmac salt z info outSz := by
  unfold Kdf.cmacKdf at hok
  simp only [Except.ok.injEq] at hok
  rw [← hok, Kdf.shared_ok (by decide) (fun _ _ _ => hlen _ _) hroom]
  unfold Kdf.Spec.cmacKdf Kdf.Spec.concat
  congr 1

/-- Non-vacuity: a three-block output with information that just survives. -/
example : ∃ (hmac : List UInt8 → List UInt8 → List UInt8) (info : List UInt8) (okm : List UInt8),
    (∀ k m, (hmac k m).length = 2) ∧ info ≠ [] ∧ ((5 + 2 - 1) / 2 - 1) * 2 ≤ 4 ∧
    Kdf.hkdf (fun _ => hmac) (fun _ => 2) 0 4 [1] [2] info 5 = .ok okm ∧ okm.length = 5 :=
  ⟨fun k m => [Demo.sum k + Demo.sum m, 7], [3, 4], _, fun _ _ => rfl, by decide, by decide, rfl,
    by decide +kernel⟩

/-- **C52 (HKDF request).** A successful HKDF request whose result stays in the key store leaves there,
under the id it returns, exactly the key of RFC 5869 for the input key named or given - if the
information is empty or starts no earlier than the last output block does. -/
theorem C52_hkdf_request_partial (hsg : GoodCfg cfg.ks) (hs : Reach cfg.ks ncfg s)
    (hc : 0 < v.client ∧ v.client < 16)
    {hmac : Nat → List UInt8 → List UInt8 → List UInt8} {hsz : Nat → Nat}
    (hL : L.hkdf = Kdf.hkdf hmac hsz) {idIn idOut flags : UInt16} {label : Vector UInt8 24}
    {hash : Nat} {inKey salt info : List UInt8} {outSz : Nat}
    (hh : 0 < hsz hash) (hlen : ∀ k m, (hmac hash k m).length = hsz hash)
    (hroom : info = [] ∨
      ((outSz + hsz hash - 1) / hsz hash - 1) * hsz hash ≤ 48 + inKey.length + salt.length)
    (hfl : flags &&& Flag.ephemeral = 0)
    (h : Exec cfg.ks ncfg v s
      (handler cfg L v (.hkdf idIn idOut flags label hash inKey salt info outSz)) es (some (.ok o)))
    (hf : ∀ w lock q, .key w lock q ∈ es → w.ctx ≠ v.ctx →
      ¬q.Names cfg.ks w (ownId cfg.ks v o.keyId)) :
    ∃ ikm md,
      (ikm = inKey ∨ inKey = [] ∧ Held cfg ncfg v s es (idIn, [Flag.usageDerive]) ikm) ∧
      view cfg.ks v.ctx (run cfg.ks ncfg s es) (ownId cfg.ks v o.keyId) =
        some (md, Kdf.Spec.hkdf (hmac hash) (hsz hash) ikm salt info outSz) := by
  obtain ⟨keys, md, key, hheld, ⟨hmk, -⟩, hvw, -⟩ := C51_made_key hsg hs hc _
    (show (Crypto.Req.hkdf idIn idOut flags label hash inKey salt info outSz).stores =
      some (idOut, flags, label) by simp only [Req.stores]; rw [if_pos hfl]) h hf
  rw [hL] at hmk
  have hkey := C52_hkdf_partial hh hlen hroom hmk
  refine ⟨keys.head?.getD inKey, md, ?_, by rw [hvw, hkey]⟩
  simp only [Req.needs] at hheld
  split at hheld
  · rename_i hk
    match keys, hheld with
    | [k], ⟨hk1, _⟩ => exact .inr ⟨hk.1, hk1⟩
  · match keys, hheld with
    | [], _ => exact .inl rfl

/-- The demo library with a real expansion: toy HMAC of 32 bytes. -/
def kdfLib : Lib := { Demo.lib with
  hkdf := Kdf.hkdf (fun _ k m => List.replicate 32 (3 * Demo.sum k + Demo.sum m)) (fun _ => 32) }

/-- Client 1 caches key 5 for derivation. -/
def cacheDerive : Ev := .key one .ok (.cache 5 Flag.usageDerive label [1, 2, 3])

/-- Execution of an HKDF request on the demo server. -/
def kdfOn (outSz : Nat) : List Ev × Option Crypto.Resp :=
  Demo.alone Demo.cfg.ks Keystore.Demo.ncfg one (Keystore.Demo.after [cacheDerive])
    (handler Demo.cfg kdfLib one (.hkdf 5 12 Flag.usageSign label 0 [] [] [9] outSz))

/-- Non-vacuity: two blocks derived from a stored key. -/
example : ∃ es o,
    ((64 + 32 - 1) / 32 - 1) * 32 ≤ 48 + ([] : List UInt8).length + ([] : List UInt8).length ∧
    Exec Demo.cfg.ks Keystore.Demo.ncfg one (Keystore.Demo.after [cacheDerive])
      (handler Demo.cfg kdfLib one (.hkdf 5 12 Flag.usageSign label 0 [] [] [9] 64)) es
      (some (.ok o)) ∧ (∀ w lock q, .key w lock q ∈ es → w.ctx = one.ctx) := by
  have h := Demo.alone_exec Demo.cfg.ks Keystore.Demo.ncfg one
    (handler Demo.cfg kdfLib one (.hkdf 5 12 Flag.usageSign label 0 [] [] [9] 64))
    (Keystore.Demo.after [cacheDerive])
  refine ⟨(kdfOn 64).1, { fixed := 8, keyId := 12 }, by decide, ?_, ?_⟩
  · rw [show some (Except.ok { fixed := 8, keyId := 12 }) = (kdfOn 64).2 by decide +kernel]
    exact h
  · have hall : ((kdfOn 64).1.all fun e => match e with
        | .key w _ _ => w.ctx == 0
        | _ => true) = true := by decide +kernel
    intro w lock q hm
    have := List.all_eq_true.1 hall _ hm
    exact eq_of_beq this

theorem alone_of {p : Prog} {s : Sys} {a : Option Crypto.Resp}
    (h : (Demo.alone Demo.cfg.ks Keystore.Demo.ncfg one s p).2 = a) :
    Exec Demo.cfg.ks Keystore.Demo.ncfg one s p
      (Demo.alone Demo.cfg.ks Keystore.Demo.ncfg one s p).1 a := by
  rw [← h]; exact Demo.alone_exec _ _ _ _ _

/-- What the server delivers in the finding below. -/
def wrongKey : List UInt8 := List.replicate 32 74 ++ List.replicate 32 139 ++ List.replicate 32 46

/-- **Finding (C52).** A key derived from a stored key is not the one of RFC 5869 when the output
reaches the information before the last block: three SHA-256 sized blocks, no salt, one byte of
information (src/wh_server_crypto.c:2186-2226).  The library writes the second block over the
information and then computes the third from what is there now. -/
theorem F_C52_hkdf_overwrites_info : ∃ es o key,
    Exec Demo.cfg.ks Keystore.Demo.ncfg one (Keystore.Demo.after [cacheDerive])
      (handler Demo.cfg kdfLib one (.hkdf 5 12 Flag.ephemeral label 0 [] [] [9] 96)) es
      (some (.ok o)) ∧
    (view Demo.cfg.ks 0 (Keystore.Demo.after [cacheDerive]) (ownId Demo.cfg.ks one 5)).map (·.2) =
      some key ∧
    o.body.length = 96 ∧
    o.body ≠ Kdf.Spec.hkdf (fun k m => List.replicate 32 (3 * Demo.sum k + Demo.sum m)) 32
      key [] [9] 96 ∧
    o.body.take 64 = (Kdf.Spec.hkdf (fun k m => List.replicate 32 (3 * Demo.sum k + Demo.sum m)) 32
      key [] [9] 96).take 64 :=
  ⟨_, { fixed := 8, body := wrongKey }, [1, 2, 3], alone_of (by decide +kernel), by decide +kernel,
    by decide +kernel, by decide +kernel, by decide +kernel⟩

end WolfHsm.Props

import Verif.Proofs.CryptoExec
import Verif.Proofs.CryptoDemo
import Verif.Props.KeyMsg

/-!
# C27, C44 for the crypto request group
-/

namespace WolfHsm.Props

open Server (Req)
open CryptoMsg (Op Codes Complete Roomy)

/-! ## A concrete server -/

namespace CryptoMsgDemo

/-- Toy results of at most 64 bytes. -/
def fit (max : Nat) (b : List UInt8) : Except Rc (List UInt8) := Crypto.Demo.fit (min max 64) b

theorem fit_le {max : Nat} {b c : List UInt8} (h : fit max b = .ok c) : c.length ≤ 64 := by
  unfold fit Crypto.Demo.fit at h
  split at h
  · cases h; omega
  · cases h

open Crypto.Demo (sum) in
/-- The toy library with results that fit packets. -/
def lib : Crypto.Lib :=
  { Crypto.Demo.lib with
    privateDer := fun _ max obj => fit max obj
    publicDer := fun _ max obj => fit max [sum obj]
    rsa := fun _ max key input _ => fit max (input.map (· + sum key))
    secret := fun _ _ max prv pub => fit max [sum prv + sum pub, 0x5E]
    sign := fun _ _ max key msg _ _ => fit max [sum key + sum msg, 0x51]
    publicFrom := fun max key => fit max [sum key]
    makePub := fun max key _ => fit max [sum key]
    aes := fun mode enc _ key input extra =>
      if mode = .gcm ∧ 16 < CryptoMsg.gcmTag extra then .error .badargs
      else .ok (input.map (· + sum key), List.replicate (CryptoMsg.tailSize enc extra mode) (sum key))
    cmac := fun key input outSz => fit 16 (List.replicate outSz (sum key + sum input))
    cmacFinal := fun key state input outSz => fit 16 (List.replicate outSz (sum key + sum state + sum input)) }

theorem small {n : Nat} (hn : 64 ≤ n) : CryptoMsg.Small lib n where
  privateDer := fun _ _ _ _ h => Nat.le_trans (fit_le h) hn
  publicDer := fun _ _ _ _ h => Nat.le_trans (fit_le h) hn
  rsa := fun _ _ _ _ _ _ h => Nat.le_trans (fit_le h) hn
  secret := fun _ _ _ _ _ _ h => Nat.le_trans (fit_le h) hn
  sign := fun _ _ _ _ _ _ _ _ h => Nat.le_trans (fit_le h) hn
  publicFrom := fun _ _ _ h => Nat.le_trans (fit_le h) hn
  makePub := fun _ _ _ _ h => Nat.le_trans (fit_le h) hn
  encaps := by
    intro p k c ct ss h
    change Except.ok ([_], [_]) = _ at h
    cases h
    show 1 + 1 ≤ n
    omega
  decaps := by
    intro p k ct ss h
    change Except.ok [_] = _ at h
    cases h
    show 1 ≤ n
    omega
  hkdf := by
    intro _ _ _ _ _ z b h
    change Except.ok (List.replicate z _) = _ at h
    cases h
    exact List.length_replicate
  cmacKdf := by
    intro _ _ _ _ z b h
    change Except.ok (List.replicate z _) = _ at h
    cases h
    exact List.length_replicate
  aes := by
    intro mode e l k i x out tail h
    change (if mode = .gcm ∧ 16 < CryptoMsg.gcmTag x then _ else Except.ok (_, _)) = _ at h
    split at h
    · cases h
    · cases h
      exact ⟨List.length_map .., List.length_replicate⟩
  tag := by
    intro l k i x q h
    change (if Crypto.AesMode.gcm = .gcm ∧ 16 < CryptoMsg.gcmTag x then _ else Except.ok (_, _)) = _ at h
    split at h
    · cases h
    · rename_i hn; exact Nat.le_of_not_lt fun h => hn ⟨rfl, h⟩
  cmac := by
    intro k i z b h
    change Crypto.Demo.fit 16 _ = _ at h
    unfold Crypto.Demo.fit at h
    split at h
    · cases h; assumption
    · cases h
  cmacFinal := by
    intro k st i z b h
    change Crypto.Demo.fit 16 _ = _ at h
    unfold Crypto.Demo.fit at h
    split at h
    · cases h; assumption
    · cases h

/-- Ciphers are action 2, public keys 3, random numbers 4, hashes 1. -/
def codes : Codes where
  select a t _ :=
    if a = 2 then if t = 2 then .ok (.aes .cbc) else if t = 3 then .ok (.aes .gcm) else if t = 4 then .ok (.aes .ctr) else .error .nohandler
    else if a = 3 then
      if t = 1 then .ok .rsa else if t = 2 then .ok (.keyGen .ecc) else if t = 3 then .ok .signEcc
      else if t = 4 then .ok .verifyEcc else if t = 5 then .ok .decaps else .error .nohandler
    else if a = 4 then .ok .rng
    else if a = 1 then if t = 6 then .ok (.sha256 6) else .error .nohandler
    else .error .nohandler
  rsaOp i := if i = 0 then some .publicEncrypt else none
  badFuncArg := .badargs
  edPlain := 0xFFFFFFFF
  edCtx := 0
  edPh := 1
  sha512Type t := t

/-- A toy hash: it adds up the bytes. -/
def hashes : CryptoMsg.Hashes where
  update _ hi lo d i := .ok (hi, lo + UInt32.ofNat i.length, d.map (· + Crypto.Demo.sum i))
  final _ _ lo d i := .ok ((d.map (· + Crypto.Demo.sum i)) ++ [lo.toUInt8])
  update3 _ st _ := .ok st
  final3 _ _ i := .ok [Crypto.Demo.sum i]

/-- Little-endian server with packets of 1280 bytes. -/
def cfg : CryptoMsg.Cfg where
  crypto := { Crypto.Demo.cfg with ks := KeyMsgDemo.ks }
  lib := lib
  hashes := hashes
  codes := codes
  le := true

/-- Coins, random bytes, free locks. -/
def env : CryptoMsg.Env := ⟨[1, 2, 3], fun n => .ok (List.replicate n 4), fun _ => .ok⟩

theorem roomy : Roomy cfg 1280 := ⟨small (by decide), by decide, by decide, rfl⟩

theorem fair : env.Fair := by
  intro n b h
  change Except.ok (List.replicate n _) = _ at h
  cases h
  exact Nat.le_of_eq List.length_replicate

/-- A request of a little-endian client. -/
def req (action : UInt16) (body : List UInt8) : Req := ⟨Utils.magicNative, action, 1, body, body.length⟩

/-- ECC sign with key 7 of the hash 8, 9. -/
def sign : List UInt8 := [3, 0, 0, 0, 0, 0, 0, 0, 0, 0, 0, 0] ++ [0, 0, 0, 0, 7, 0, 0, 0, 2, 0, 0, 0] ++ [8, 9]
/-- An ECC key is made as key 5, with usage flags. -/
def gen : List UInt8 := [2, 0, 0, 0, 0, 0, 0, 0, 0, 0, 0, 0] ++
  [32, 0, 0, 0, 7, 0, 0, 0, 5, 0, 0, 0, 0, 4, 0, 0, 0, 0, 0, 0] ++ List.replicate 24 65
/-- A decapsulation with key 7 that announces five bytes and has one. -/
def cut : List UInt8 := [5, 0, 0, 0, 0, 0, 0, 0, 0, 0, 0, 0] ++ [1, 0, 0, 0, 1, 0, 0, 0, 7, 0, 0, 0, 5, 0, 0, 0] ++ [1]

/-- Key store at boot. -/
def sys : Keystore.Sys := KeyMsgDemo.sys

end CryptoMsgDemo

open CryptoMsgDemo in
/-- The server signs with the stored key 7 (bytes 5E C2 E7) and returns two bytes. -/
example : (CryptoMsg.handle cfg Keystore.Demo.one env (req 3 sign) sys).1 =
    [3, 0, 0, 0, 0, 0, 0, 0, 0, 0, 0, 0] ++ [2, 0, 0, 0] ++ [0x07 + 0x11, 0x51] := by decide +kernel

/-! ## C44 -/

/-- **C44**, crypto group: response and effect of a request depend on nothing behind the received
bytes, whatever they are. -/
theorem C44_crypto (cfg : CryptoMsg.Cfg) (v : Keystore.Srv) (e : CryptoMsg.Env) (s : Keystore.Sys) (r r' : Req)
    (hm : r'.magic = r.magic) (ha : r'.action = r.action) (hs : r'.size = r.size) (hd : r'.data = r.data) :
    CryptoMsg.handle cfg v e r' s = CryptoMsg.handle cfg v e r s := by
  refine CryptoMsg.handle_same ⟨hm, ha, hs, ?_⟩ v e s
  have := hd; unfold Req.data at this; rwa [hs] at this

open CryptoMsgDemo in
/-- The sign request in front of different leftovers of earlier packets. -/
example : (⟨Utils.magicNative, 3, 1, sign ++ [1, 2], 26⟩ : Req).data = (⟨Utils.magicNative, 3, 1, sign ++ [3], 26⟩ : Req).data ∧
    (CryptoMsg.handle cfg Keystore.Demo.one env ⟨Utils.magicNative, 3, 1, sign ++ [1, 2], 26⟩ sys).1 =
    (CryptoMsg.handle cfg Keystore.Demo.one env (req 3 sign) sys).1 := by decide +kernel

/-- **C44**, crypto group: a request that does not hold its structure or the data it announces
changes nothing, and the answer is the error and nothing else.  (Of decapsulation see below.) -/
theorem C44_crypto_refused (cfg : CryptoMsg.Cfg) (v : Keystore.Srv) (e : CryptoMsg.Env) (s : Keystore.Sys) (r : Req)
    (h12 : 12 ≤ r.size) {op : Op}
    (ho : cfg.codes.select r.action (Wire.rd32 cfg.le r.magic r.buf 0) (Wire.rd32 cfg.le r.magic r.buf 4) = .ok op)
    (hc : ¬ Complete cfg.le r op) (hd : op ≠ .decaps) :
    CryptoMsg.handle cfg v e r s =
      (Wire.w32 cfg.le r.magic (Wire.rd32 cfg.le r.magic r.buf 0) ++ Wire.w32 cfg.le r.magic Rc.badargs.code ++
        Wire.w32 cfg.le r.magic 0, s) := by
  unfold CryptoMsg.handle
  rw [if_neg (by omega), ho]
  dsimp only
  rw [CryptoMsg.decode_incomplete cfg.codes e.coins hc hd]
  rfl

open CryptoMsgDemo in
/-- The sign request without its last byte; key generation without the end of the label. -/
example : ¬ Complete cfg.le (req 3 sign.dropLast) .signEcc ∧ ¬ Complete cfg.le (req 3 gen.dropLast) (.keyGen .ecc) ∧
    Complete cfg.le (req 3 sign) .signEcc := by
  unfold Complete
  decide +kernel

/-- **C44**, crypto group: a request for an algorithm the server does not have changes nothing, and
the answer is the error and nothing else. -/
theorem C44_crypto_unknown (cfg : CryptoMsg.Cfg) (v : Keystore.Srv) (e : CryptoMsg.Env) (s : Keystore.Sys) (r : Req)
    (h12 : 12 ≤ r.size) {rc : Rc}
    (ho : cfg.codes.select r.action (Wire.rd32 cfg.le r.magic r.buf 0) (Wire.rd32 cfg.le r.magic r.buf 4) = .error rc) :
    CryptoMsg.handle cfg v e r s =
      (Wire.w32 cfg.le r.magic (Wire.rd32 cfg.le r.magic r.buf 0) ++ Wire.w32 cfg.le r.magic rc.code ++
        Wire.w32 cfg.le r.magic 0, s) := by
  unfold CryptoMsg.handle
  rw [if_neg (by omega), ho]
  rfl

open CryptoMsgDemo in
example : codes.select 9 0 0 = .error .nohandler := by decide

/-- **C44**, crypto group: a decapsulation request that does not hold the ciphertext it announces is
refused; if it asks to evict the key it names, that still happens, and nothing else. -/
theorem C44_crypto_refused_decaps (cfg : CryptoMsg.Cfg) (v : Keystore.Srv) (e : CryptoMsg.Env) (s : Keystore.Sys) (r : Req)
    (h12 : 12 ≤ r.size)
    (ho : cfg.codes.select r.action (Wire.rd32 cfg.le r.magic r.buf 0) (Wire.rd32 cfg.le r.magic r.buf 4) = .ok .decaps)
    (hc : ¬ Complete cfg.le r .decaps) :
    (CryptoMsg.handle cfg v e r s).2 = s ∨
    ∃ lock, (CryptoMsg.handle cfg v e r s).2 =
      (Keystore.handle cfg.crypto.ks v s lock (.evictOption (UInt16.ofNat (CryptoMsg.word cfg.le r 2)))).2 := by
  unfold CryptoMsg.handle
  rw [if_neg (by omega), ho]
  dsimp only
  rcases CryptoMsg.decode_decaps (le := cfg.le) cfg.codes e.coins hc with h | h
  · rw [h]; exact .inl rfl
  · rw [h]
    dsimp only
    have hid : CryptoMsg.half cfg.le r 2 = UInt16.ofNat (CryptoMsg.word cfg.le r 2) := by
      unfold CryptoMsg.half CryptoMsg.u32 CryptoMsg.word
      apply UInt16.toNat.inj
      simp
    rw [hid]
    have hh : Crypto.handler cfg.crypto cfg.lib v (.refused (UInt16.ofNat (CryptoMsg.word cfg.le r 2)) (CryptoMsg.opt cfg.le r 0 1)) =
        Crypto.evictOpt cfg.crypto v true (CryptoMsg.opt cfg.le r 0 1) (UInt16.ofNat (CryptoMsg.word cfg.le r 2)) (.done (.error .badargs)) := rfl
    rw [hh]
    unfold Crypto.evictOpt
    by_cases hb : (CryptoMsg.opt cfg.le r 0 1 && !KeyId.isErased (Crypto.own cfg.crypto v (UInt16.ofNat (CryptoMsg.word cfg.le r 2)))) = true
    · rw [if_pos hb]
      right
      refine ⟨e.locks 0, ?_⟩
      unfold CryptoMsg.exec
      dsimp only
      rw [if_pos rfl]
      by_cases hp : (Keystore.handle cfg.crypto.ks v s (e.locks 0) (.evictOption (UInt16.ofNat (CryptoMsg.word cfg.le r 2)))).2.nvm.powered = true
      · rw [if_pos hp]; rfl
      · rw [if_neg hp]
    · rw [if_neg hb]; exact .inl rfl

open CryptoMsgDemo in
/-- The request is answered with BADARGS. -/
example : codes.select 3 5 0 = .ok .decaps ∧ ¬ Complete cfg.le (req 3 cut) .decaps ∧
    (CryptoMsg.handle cfg Keystore.Demo.one env (req 3 cut) sys).1 =
      [5, 0, 0, 0] ++ Wire.w32 true Utils.magicNative Rc.badargs.code ++ [0, 0, 0, 0] := by
  unfold Complete
  decide +kernel

/-- A crypto request of less than twelve bytes changes nothing; it gets its own bytes back as the
answer, with no return code in it. -/
theorem F_crypto_short_echo (cfg : CryptoMsg.Cfg) (v : Keystore.Srv) (e : CryptoMsg.Env) (s : Keystore.Sys) (r : Req)
    (h : r.size < 12) : CryptoMsg.handle cfg v e r s = (r.data, s) := by
  unfold CryptoMsg.handle; rw [if_pos h]

example : (⟨Utils.magicNative, 3, 1, [3, 0, 0, 0], 4⟩ : Req).size < 12 := by decide

/-! ## Every packet is a handler run -/

/-- **C44**, crypto group: whatever the bytes of a packet, either the key store does not change, or
the packet is served by the handler of `Model/Crypto.lean` on some request.  So the theorems on
handler runs (C19, C20, C46, C51, C52) cover all packets; and the key store afterwards is one that
the histories of C11 to C21 and C47 range over. -/
theorem C44_crypto_packets_are_events (cfg : CryptoMsg.Cfg) (ncfg : NvmServer.Cfg) (v : Keystore.Srv) (hv : v.client < 16)
    (e : CryptoMsg.Env) (r : Req) (s : Keystore.Sys) (hp : s.nvm.powered = true) (hs : Keystore.Reach cfg.crypto.ks ncfg s) :
    Keystore.Reach cfg.crypto.ks ncfg (CryptoMsg.handle cfg v e r s).2 ∧
    ((CryptoMsg.handle cfg v e r s).2 = s ∨
      ∃ q es o, Crypto.Exec cfg.crypto.ks ncfg v s (Crypto.handler cfg.crypto cfg.lib v q) es o ∧
        Keystore.run cfg.crypto.ks ncfg s es = (CryptoMsg.handle cfg v e r s).2) := by
  have key : (CryptoMsg.handle cfg v e r s).2 = s ∨
      ∃ q, (CryptoMsg.handle cfg v e r s).2 = (CryptoMsg.exec cfg.crypto.ks v e.locks 0 (Crypto.handler cfg.crypto cfg.lib v q) s).2 := by
    unfold CryptoMsg.handle
    by_cases h12 : r.size < 12
    · rw [if_pos h12]; exact .inl rfl
    rw [if_neg h12]
    generalize cfg.codes.select r.action _ _ = x
    rcases x with rc | op
    · exact .inl rfl
    dsimp only
    generalize CryptoMsg.decode cfg.codes cfg.le e.coins r op = y
    rcases y with rc | q | _ | _ | _
    · exact .inl rfl
    · dsimp only
      right
      refine ⟨q, ?_⟩
      generalize CryptoMsg.exec cfg.crypto.ks v e.locks 0 (Crypto.handler cfg.crypto cfg.lib v q) s = z
      rcases z with ⟨_ | _, _⟩ <;> rfl
    all_goals exact .inl rfl
  rcases key with h | ⟨q, h⟩
  · exact ⟨by rw [h]; exact hs, .inl h⟩
  · obtain ⟨es, h1, h2, h3⟩ := CryptoMsg.exec_is_exec cfg.crypto.ks ncfg v e.locks (Crypto.handler cfg.crypto cfg.lib v q) 0 s hp
    refine ⟨?_, .inr ⟨q, es, _, h1, h2.trans h.symm⟩⟩
    rw [h, ← h2]
    refine Keystore.reach_run hs es fun ev he => ?_
    obtain ⟨lock, q, rfl⟩ := h3 ev he
    exact hv

open CryptoMsgDemo in
/-- A key generation packet on the demonstration server; the made key is cached. -/
example : Keystore.Demo.one.client < 16 ∧ sys.nvm.powered = true ∧
    (Keystore.cached KeyMsgDemo.ks 0 (CryptoMsg.handle cfg Keystore.Demo.one env (req 3 gen) sys).2
      (KeyId.make KeyId.typeCrypto 1 5)).map (·.data) = some [1, 2, 3] := by decide +kernel

/-! ## C27 -/

/-- **C27**, crypto group: every response fits the packet.  Partial: `Roomy` asks that the keys,
signatures and secrets of the algorithms built in leave room for headers, which is a matter of the
choice of packet size. -/
theorem C27_crypto_fits_partial (cfg : CryptoMsg.Cfg) {dataLen : Nat} (h : Roomy cfg dataLen) (v : Keystore.Srv) (e : CryptoMsg.Env)
    (he : e.Fair) (r : Req) (hr : r.size ≤ dataLen) (s : Keystore.Sys) :
    (CryptoMsg.handle cfg v e r s).1.length ≤ dataLen :=
  CryptoMsg.handle_fits h he hr s

/-- The demonstration server meets the hypotheses. -/
example : Roomy CryptoMsgDemo.cfg 1280 ∧ CryptoMsgDemo.env.Fair := ⟨CryptoMsgDemo.roomy, CryptoMsgDemo.fair⟩

end WolfHsm.Props

import Verif.Model.ClientCrypto
import Verif.Spec.ClientHash
import Verif.Spec.CryptoMsg

/-!
# Specification vocabulary for crypto calls (C56, C57)

What a call means, without bytes: `Call.asks` is the operation the server should carry out for the
arguments of the call, `Call.result` what the caller should get for the outcome of that operation.
-/

namespace WolfHsm.ClientCrypto

open ClientHash (Ret)
open CryptoMsg (Op)

/-- The state as the handler's argument: 32 bytes and two numbers. -/
def CmacState.flat (st : CmacState) : List UInt8 :=
  st.bytes ++ Utils.bytes32 true st.filled ++ Utils.bytes32 true st.total

/-- The operation on the server that the arguments of a call describe.  `coins`: random bytes drawn by
the server. -/
def Call.asks (coins : List UInt8) : Call → Crypto.Req
  | .aesCtr enc id key input reg tmp left => .aes .ctr enc id key input (reg ++ tmp) left.toNat 0
  | .aesEcb enc id key input => .aes .ecb enc id key input [] 0 0
  | .aesCbc enc id key input iv => .aes .cbc enc id key input iv 0 0
  | .gcmEncrypt id key input iv aad tagLen =>
    .aes .gcm true id key input
      (CryptoMsg.gcmExtra (UInt32.ofNat iv.length) (UInt32.ofNat aad.length) tagLen (iv ++ aad)) 0 tagLen.toNat
  | .gcmDecrypt id key input iv aad tag =>
    .aes .gcm false id key input
      (CryptoMsg.gcmExtra (UInt32.ofNat iv.length) (UInt32.ofNat aad.length) (UInt32.ofNat tag.length) (iv ++ aad ++ tag))
      0 tag.length
  | .rsaKeyGen id flags label size e => .keyGen .rsa id flags (NvmMsg.label label) [size.toNat, e.toNat] coins
  | .eccKeyGen id flags label size curve => .keyGen .ecc id flags (NvmMsg.label label) [size.toNat, curve.toNat] coins
  | .x25519KeyGen id flags label size => .keyGen .curve25519 id flags (NvmMsg.label label) [size.toNat] coins
  | .edKeyGen id flags label => .keyGen .ed25519 id flags (NvmMsg.label label) [] coins
  | .mlDsaKeyGen id flags label _ level => .keyGen .mldsa id flags (NvmMsg.label label) [level.toNat] coins
  | .mlKemKeyGen id flags label level => .keyGen .mlkem id flags (NvmMsg.label label) [level.toNat] coins
  | .rsa op id evict input room => .rsaFunction op id evict input room.toNat coins
  | .rsaGetSize id evict => .rsaGetSize id evict
  | .eccSecret prv pub evPrv evPub id flags label => .sharedSecret .ecc 0 prv pub evPrv evPub id flags (NvmMsg.label label)
  | .x25519Secret prv pub evPrv evPub id flags label endian =>
    .sharedSecret .curve25519 endian.toNat prv pub evPrv evPub id flags (NvmMsg.label label)
  | .eccSign _ id evict hash => .sign .ecc id evict 0 hash [] coins
  | .edSign id evict type msg ctx => .sign .ed25519 id evict type.toNat msg ctx coins
  | .mlDsaSign id evict _ preHash msg ctx => .sign .mldsa id evict preHash.toNat msg ctx coins
  | .eccVerify _ id evict exportPub sig hash => .verify .ecc id evict exportPub 0 sig hash []
  | .edVerify id evict type sig msg ctx => .verify .ed25519 id evict false type.toNat sig msg ctx
  | .mlDsaVerify id evict _ preHash sig msg ctx => .verify .mldsa id evict false preHash.toNat sig msg ctx
  | .makePub id evict => .makePub id evict coins
  | .checkPub id evict _ pub => .checkPub id evict pub coins
  | .encaps id evict level => .encaps [level.toNat] id evict coins none
  | .decaps id evict level ct => .decaps [level.toNat] id evict ct none
  | .hkdf idIn idOut flags label hash inKey salt info outSz =>
    .hkdf idIn idOut flags (NvmMsg.label label) hash.toNat inKey salt info outSz.toNat
  | .cmacKdf idSalt idZ idOut flags label salt z info outSz =>
    .cmacKdf idSalt idZ idOut flags (NvmMsg.label label) salt z info outSz.toNat
  | .cmacGenerate id key input outSz => .cmac id key CmacState.zero.flat input outSz.toNat
  | .cmacUpdate id key state input => .cmac id key state.flat input 0
  | .cmacFinal id key state => .cmac id key state.flat [] 16

/-- A number of 4 bytes, 0 if there are none. -/
def number (l : List UInt8) : UInt32 := (Utils.read32 true (l.take 4)).getD 0

/-- The state the handler gives back; all zero if it gives none. -/
def CmacState.ofFlat (l : List UInt8) : CmacState :=
  ⟨(l ++ List.replicate 32 0).take 32, number (l.drop 32), number (l.drop 36)⟩

/-- Output for a buffer of the caller: all of it, or an error and the room it needs. -/
def handed (w : Want) (body : List UInt8) : Result :=
  if w.room < body.length then (Rc.bufferSize.code, some { num := UInt32.ofNat body.length })
  else (0, some { num := UInt32.ofNat body.length, out := body })

/-- A key for an object of the caller: an error if there is one and the server sent no key. -/
def keyed (w : Want) (o : Crypto.Out) : Result :=
  if w.key then if o.body = [] then aborted else (0, some { id := o.keyId, out := o.body })
  else (0, some { id := o.keyId })

/-- A MAC, at most as long as the caller's buffer, and the state for the next call. -/
def macced (w : Want) (o : Crypto.Out) : Result :=
  let st := CmacState.ofFlat o.state
  if st.filled > 16 then (Rc.badargs.code, none)
  else if w.room = 0 ∨ (4 ≤ w.room ∧ w.room ≤ 16) then (0, some { out := o.body.take w.room, state := some st })
  else (Rc.bufferSize.code, some { state := some st })

/-- What the caller gets when the operation has succeeded with the outcome `o`. -/
def Call.result (w : Want) (c : Call) (o : Crypto.Out) : Result :=
  match c with
  | .aesCtr _ _ _ input _ _ _ =>
    (0, some { num := UInt32.ofNat o.res, out := o.body.take input.length, more := o.body.drop input.length })
  | .aesEcb .. | .gcmDecrypt .. => (0, some { out := o.body })
  | .aesCbc _ _ _ input _ | .gcmEncrypt _ _ input _ _ _ =>
    (0, some { out := o.body.take input.length, more := o.body.drop input.length })
  | .rsaKeyGen .. | .eccKeyGen .. | .edKeyGen .. | .x25519KeyGen .. | .mlDsaKeyGen .. | .mlKemKeyGen .. => keyed w o
  | .rsa .. | .eccSign .. | .edSign .. | .makePub .. | .mlDsaSign .. => handed w o.body
  | .rsaGetSize .. | .edVerify .. | .mlDsaVerify .. => (0, some { num := UInt32.ofNat o.res })
  | .eccVerify .. => (0, some { num := UInt32.ofNat o.res, out := if w.key then o.body else [] })
  | .eccSecret .. | .x25519Secret .. =>
    if w.key then
      if w.room < o.body.length then (Rc.bufferSize.code, some { id := o.keyId, num := UInt32.ofNat o.body.length })
      else (0, some { id := o.keyId, num := UInt32.ofNat o.body.length, out := o.body })
    else (0, some { id := o.keyId })
  | .checkPub .. => if o.res = 0 then aborted else (0, some {})
  | .encaps .. =>
    if w.room < o.res ∨ w.room2 < o.body.length - o.res then (Rc.badargs.code, none)
    else (0, some { out := o.body.take o.res, more := o.body.drop o.res })
  | .decaps .. => if w.room < o.body.length then (Rc.badargs.code, none) else (0, some { out := o.body })
  | .hkdf .. | .cmacKdf .. => (0, some { id := o.keyId, out := if w.key then o.body else [] })
  | .cmacUpdate .. =>
    if (CmacState.ofFlat o.state).filled > 16 then (Rc.badargs.code, none)
    else (0, some { state := some (CmacState.ofFlat o.state) })
  | .cmacGenerate .. | .cmacFinal .. => macced w o

/-- Client and server have the same numbers for what the call uses. -/
structure Agree (n : Numbers) (c : CryptoMsg.Codes) (op : Op) : Prop where
  select : c.select (n.code op).action (n.code op).type.toUInt32 (n.code op).sub.toUInt32 = .ok op
  rsa : ∀ o, c.rsaOp (n.rsaOp o) = some o
  plain : c.edPlain = n.edPlain
  ctx : c.edCtx = n.edCtx
  ph : c.edPh = n.edPh

/-- The buffers of fixed size in a key object have that size; an ML-DSA context has at most 255 bytes,
as FIPS 204 requires (the client does not check this, the server refuses longer ones). -/
def Call.Sane : Call → Prop
  | .aesCtr _ _ _ _ reg tmp _ => reg.length = 16 ∧ tmp.length = 16
  | .aesCbc _ _ _ _ iv => iv.length = 16
  | .cmacUpdate _ _ st _ | .cmacFinal _ _ st => st.bytes.length = 32
  | .mlDsaSign _ _ _ _ _ ctx | .mlDsaVerify _ _ _ _ _ _ ctx => ctx.length ≤ 255
  | _ => True

/-- Bytes of the packet of a call: header, structure and the caller's data. -/
def Call.bytes (c : Call) : Nat := 12 + CryptoMsg.structSize c.op + (trailer c).length

/-- The server at work on a packet of the client: its answer, and the key store afterwards. -/
def served (cfg : CryptoMsg.Cfg) (cle : Bool) (action seq : UInt16) (v : Keystore.Srv) (e : CryptoMsg.Env) (junk : List UInt8)
    (s : Keystore.Sys) (body : List UInt8) : List UInt8 × Keystore.Sys :=
  CryptoMsg.handle cfg v e
    ⟨if cfg.le = cle then Utils.magicNative else Utils.magicSwap, action, seq, body ++ junk, body.length⟩ s

/-- The operation itself: its outcome (none if power is lost), and the key store afterwards. -/
def performed (cfg : CryptoMsg.Cfg) (v : Keystore.Srv) (e : CryptoMsg.Env) (q : Crypto.Req) (s : Keystore.Sys) :
    Option Crypto.Resp × Keystore.Sys :=
  CryptoMsg.exec cfg.crypto.ks v e.locks 0 (Crypto.handler cfg.crypto cfg.lib v q) s

/-- Each request for random bytes fails on the way or is answered by the server, which finds the
environment `e k` at the `k`-th. -/
def RngPeer (cfg : CryptoMsg.Cfg) (cle : Bool) (action : UInt16) (e : Nat → CryptoMsg.Env)
    (peer : Nat → List UInt8 → ClientHash.Reply) : Prop :=
  ∀ k body, (∃ rc, rc ≠ 0 ∧ (peer k body = .unsent rc ∨ peer k body = .lost rc)) ∨
    ∃ seq v junk s, peer k body = .got (served cfg cle action seq v (e k) junk s body).1

/-- The generator gives as many bytes as it is asked for. -/
def Exact (e : Nat → CryptoMsg.Env) : Prop := ∀ k n b, (e k).random n = .ok b → b.length = n

end WolfHsm.ClientCrypto

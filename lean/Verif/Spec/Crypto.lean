import Verif.Model.Crypto
import Verif.Spec.Keystore

/-!
# Specification vocabulary for the crypto requests (C14–C17, C19, C20)

An execution of a crypto request is a history of the key store: the request's own key-store
operations in their order, with any requests of other server contexts in between.
-/

namespace WolfHsm.Crypto

open Keystore (Srv Sys Ev Obs step run view ownId)
open NvmFlash (Meta)

/-- A request served by another server context than `v.ctx`.  A power cycle is not among them:
it ends the execution. -/
def Foreign (v : Srv) : Ev → Prop
  | .key w _ _ => w.ctx ≠ v.ctx
  | .nvm _ _ => True
  | .restart _ => False

/-- `Exec cfg ncfg v s p es o`: started in state `s`, handler `p` working for client `v.client` at
context `v.ctx` ends with `o` after the events `es`; `none`: power was lost on the way.  An
operation that takes the NVM lock may fail to get it. -/
inductive Exec (cfg : Keystore.Cfg) (ncfg : NvmServer.Cfg) (v : Srv) :
    Sys → Prog → List Ev → Option Resp → Prop where
  | done (s : Sys) (a : Resp) : Exec cfg ncfg v s (.done a) [] (some a)
  | call {s : Sys} {locked : Bool} {r : Keystore.Req} {k : Keystore.Resp → Prog} {lock : Rc}
      {a : Keystore.Resp} {es : List Ev} {o : Option Resp}
      (hl : locked = false → lock = .ok)
      (ha : (step cfg ncfg s (.key v lock r)).1 = .key a)
      (h : Exec cfg ncfg v (step cfg ncfg s (.key v lock r)).2 (k a) es o) :
      Exec cfg ncfg v s (.call locked r k) (.key v lock r :: es) o
  | lost {s : Sys} {locked : Bool} {r : Keystore.Req} {k : Keystore.Resp → Prog} {lock : Rc}
      (hl : locked = false → lock = .ok)
      (ha : (step cfg ncfg s (.key v lock r)).1 = .none) :
      Exec cfg ncfg v s (.call locked r k) [.key v lock r] none
  | other {s : Sys} {p : Prog} {e : Ev} {es : List Ev} {o : Option Resp}
      (hv : e.Valid) (hf : Foreign v e)
      (h : Exec cfg ncfg v (step cfg ncfg s e).2 p es o) :
      Exec cfg ncfg v s p (e :: es) o

/-- The stored keys a request works with: the id in the request and the usages of which the key
must carry one.  Usage 0: none is asked for, since only the public part or the size matters. -/
def Req.needs (cfg : Cfg) (v : Srv) : Req → List (UInt16 × List UInt16)
  | .malformed | .refused .. | .keyGen .. | .keyGenDma .. => []
  | .rsaFunction .publicEncrypt id .. => [(id, [Flag.usageEncrypt])]
  | .rsaFunction .privateDecrypt id .. => [(id, [Flag.usageDecrypt])]
  | .rsaFunction .publicDecrypt id .. => [(id, [Flag.usageDecrypt, Flag.usageVerify])]
  | .rsaFunction .privateEncrypt id .. => [(id, [Flag.usageEncrypt, Flag.usageSign])]
  | .rsaGetSize id _ | .makePub id .. | .checkPub id .. => [(id, [0])]
  | .sharedSecret _ _ prv pub .. => [(prv, [Flag.usageDerive]), (pub, [0])]
  | .sign _ id .. | .signDma _ id .. => [(id, [Flag.usageSign])]
  | .verify _ id .. | .verifyDma _ id .. => [(id, [Flag.usageVerify])]
  | .encaps _ id .. | .decaps _ id .. => [(id, [Flag.usageDerive])]
  | .hkdf idIn _ _ _ _ inKey _ _ _ =>
    if inKey = [] ∧ KeyId.idOf (ownId cfg.ks v idIn) ≠ 0 then [(idIn, [Flag.usageDerive])] else []
  | .cmacKdf idSalt idZ _ _ _ salt z _ _ =>
    (if salt = [] then [(idSalt, [Flag.usageDerive])] else []) ++
    (if z = [] then [(idZ, [Flag.usageDerive])] else [])
  | .aes _ enc id _ _ _ _ _ =>
    if KeyId.idOf (ownId cfg.ks v id) ≠ 0 then
      [(id, [if enc then Flag.usageEncrypt else Flag.usageDecrypt])] else []
  | .aesDma _ enc id key _ _ _ _ _ =>
    if key = [] ∧ KeyId.idOf (ownId cfg.ks v id) ≠ 0 then
      [(id, [if enc then Flag.usageEncrypt else Flag.usageDecrypt])] else []
  | .cmac id key .. | .cmacDma id key .. =>
    if key = [] then [(id, [Flag.usageSign, Flag.usageVerify])] else []

/-- At some moment of the execution the server context sees a key with bytes `key` under the
client's id, and that key carries one of the usages. -/
def Held (cfg : Cfg) (ncfg : NvmServer.Cfg) (v : Srv) (s : Sys) (es : List Ev)
    (need : UInt16 × List UInt16) (key : List UInt8) : Prop :=
  ∃ n md, view cfg.ks v.ctx (run cfg.ks ncfg s (es.take n)) (ownId cfg.ks v need.1) = some (md, key) ∧
    ∃ m ∈ need.2, md.flags &&& m = m

/-- `Held` for each of the keys. -/
def AllHeld (cfg : Cfg) (ncfg : NvmServer.Cfg) (v : Srv) (s : Sys) (es : List Ev) :
    List (UInt16 × List UInt16) → List (List UInt8) → Prop
  | [], [] => True
  | n :: ns, k :: ks => Held cfg ncfg v s es n k ∧ AllHeld cfg ncfg v s es ns ks
  | _, _ => False

/-- Everything a successful response discloses. -/
def Out.disclosed (o : Out) : List UInt8 × List UInt8 × List UInt8 × Nat :=
  (o.body, o.dma, o.state, o.res)

/-- A made or derived secret is disclosed only if it was asked for as an ephemeral key. -/
def Delivered (flags : UInt16) (secret : List UInt8) (o : Out) : Prop :=
  (flags &&& Flag.ephemeral ≠ 0 ∧ o.disclosed = (secret, [], [], 0)) ∨
  (flags &&& Flag.ephemeral = 0 ∧ o.disclosed = ([], [], [], 0))

/-- What a successful response to the request discloses, given the bytes of the stored keys: a
result of the library function that belongs to the request, applied to those keys and the
request's own data.  48: bytes from the output of a key derivation to the end of the fixed part of
the request, in the buffer both share. -/
def Req.Computes (L : Lib) : Req → List (List UInt8) → Out → Prop
  | .keyGen alg _ flags _ params coins, [], o => ∃ obj, L.gen alg params coins = .ok obj ∧
      (flags &&& Flag.ephemeral ≠ 0 → ∃ max der, L.privateDer alg max obj = .ok der ∧
        o.disclosed = (der, [], [], 0)) ∧
      (flags &&& Flag.ephemeral = 0 → o.disclosed = ([], [], [], 0) ∨
        ∃ max pub, L.publicDer alg max obj = .ok pub ∧ o.disclosed = (pub, [], [], 0))
  | .keyGenDma alg _ flags _ params coins _ _ _, [], o => ∃ obj, L.gen alg params coins = .ok obj ∧
      (flags &&& Flag.ephemeral ≠ 0 → ∃ max der, L.privateDer alg max obj = .ok der ∧
        o.disclosed = ([], der, [], 0)) ∧
      (flags &&& Flag.ephemeral = 0 → ∃ max pub, L.publicDer alg max obj = .ok pub ∧
        o.disclosed = ([], pub, [], 0))
  | .rsaFunction op _ _ input _ coins, [k], o => ∃ max out, L.rsa op max k input coins = .ok out ∧
      o.disclosed = (out, [], [], 0)
  | .rsaGetSize _ _, [k], o => ∃ n, L.rsaSize k = .ok n ∧ o.disclosed = ([], [], [], n)
  | .sharedSecret alg opts _ _ _ _ _ flags _, [prv, pub], o =>
      ∃ max z, L.secret alg opts max prv pub = .ok z ∧ Delivered flags z o
  | .sign alg _ _ opts msg ctx coins, [k], o =>
      ∃ max sig, L.sign alg opts max k msg ctx coins = .ok sig ∧ o.disclosed = (sig, [], [], 0)
  | .signDma alg _ _ opts msg ctx coins _ _, [k], o =>
      ∃ max sig, L.sign alg opts max k msg ctx coins = .ok sig ∧ o.disclosed = ([], sig, [], 0)
  | .verify alg _ _ exportPub opts sig msg ctx, [k], o =>
      ∃ res pub, L.verify alg opts k sig msg ctx = .ok res ∧ o.disclosed = (pub, [], [], res) ∧
        (pub = [] ∨ exportPub = true ∧ ∃ max, L.publicFrom max k = .ok pub)
  | .verifyDma alg _ _ opts sig msg ctx _, [k], o =>
      ∃ res, L.verify alg opts k sig msg ctx = .ok res ∧ o.disclosed = ([], [], [], res)
  | .makePub _ _ coins, [k], o =>
      ∃ max pub, L.makePub max k coins = .ok pub ∧ o.disclosed = (pub, [], [], 0)
  | .checkPub _ _ pub coins, [k], o =>
      L.checkPub k pub coins = .ok () ∧ o.disclosed = ([], [], [], 1)
  | .encaps params _ _ coins dma, [k], o => ∃ ct ss, L.encaps params k coins = .ok (ct, ss) ∧
      o.disclosed = if dma.isSome then (ss, ct, [], 0) else (ct ++ ss, [], [], ct.length)
  | .decaps params _ _ ct _, [k], o => ∃ ss, L.decaps params k ct = .ok ss ∧
      o.disclosed = (ss, [], [], 0)
  | .hkdf _ _ flags _ hash inKey salt info outSz, keys, o => ∃ okm,
      L.hkdf hash (48 + inKey.length + salt.length) (keys.head?.getD inKey) salt info outSz =
        .ok okm ∧ Delivered flags okm o
  | .cmacKdf _ _ _ flags _ salt z info outSz, keys, o => ∃ okm s' z',
      keys = (if salt = [] then [s'] else []) ++ (if z = [] then [z'] else []) ∧
      (salt ≠ [] → s' = salt) ∧ (z ≠ [] → z' = z) ∧
      L.cmacKdf (48 + salt.length + z.length) s' z' info outSz = .ok okm ∧ Delivered flags okm o
  | .aes mode enc _ key input extra left _, keys, o => ∃ out tail,
      L.aes mode enc left (keys.head?.getD key) input extra = .ok (out, tail) ∧
      o.disclosed = (out ++ tail, [], [], if mode = .ctr then L.aesLeft left input.length else 0)
  | .aesDma mode enc _ key input extra left _ _, keys, o => ∃ out tail,
      L.aes mode enc left (keys.head?.getD key) input extra = .ok (out, tail) ∧
      o.disclosed = (tail, out, [], 0)
  | .cmac _ key state input outSz, keys, o =>
      (∃ t, (L.cmac (keys.head?.getD key) input outSz = .ok t ∨
        L.cmacFinal (keys.head?.getD key) state input outSz = .ok t) ∧
        outSz ≠ 0 ∧ o.disclosed = (t, [], [], 0)) ∨
      (∃ st, L.cmacUpdate (keys.head?.getD key) state input = .ok st ∧ outSz = 0 ∧
        o.disclosed = ([], [], st, 0))
  | .cmacDma _ key state inline mem outSz _, keys, o =>
      (∃ t, (L.cmac (keys.head?.getD key) mem outSz = .ok t ∨
        L.cmacFinal (keys.head?.getD key) state (inline ++ mem) outSz = .ok t) ∧
        outSz ≠ 0 ∧ o.disclosed = (t, [], [], 0)) ∨
      (∃ st, L.cmacUpdate (keys.head?.getD key) state (inline ++ mem) = .ok st ∧ outSz = 0 ∧
        o.disclosed = ([], [], st, 0))
  | _, _, _ => False

/-- The ids in the request under which a key may be stored or from which one may be evicted. -/
def Req.targets : Req → List UInt16
  | .keyGen _ id .. | .keyGenDma _ id .. => [id]
  | .rsaFunction _ id ev .. | .rsaGetSize id ev | .sign _ id ev .. | .signDma _ id ev ..
  | .verify _ id ev .. | .verifyDma _ id ev .. | .makePub id ev .. | .checkPub id ev ..
  | .encaps _ id ev .. | .decaps _ id ev .. | .refused id ev => if ev then [id] else []
  | .sharedSecret _ _ prv pub evPrv evPub id _ _ =>
    id :: (if evPrv then [prv] else []) ++ (if evPub then [pub] else [])
  | .hkdf _ idOut .. | .cmacKdf _ _ idOut .. => [idOut]
  | .malformed | .aes .. | .aesDma .. | .cmac .. | .cmacDma .. => []

/-- The id, flags and label under which the request is to store a key it makes: none if the key
is ephemeral. -/
def Req.stores : Req → Option (UInt16 × UInt16 × Vector UInt8 24)
  | .keyGen _ id flags label _ _ | .keyGenDma _ id flags label _ _ _ _ _
  | .sharedSecret _ _ _ _ _ _ id flags label | .hkdf _ id flags label _ _ _ _ _
  | .cmacKdf _ _ id flags label _ _ _ _ =>
    if flags &&& Flag.ephemeral = 0 then some (id, flags, label) else none
  | _ => none

/-- `key` is the key the request asks for, made from the bytes of the stored keys it names, and
what the successful response `o` discloses is at most the public part of it.  48: bytes from the
output to the end of the fixed part of the request in the buffer both share. -/
def Req.MakesFrom (L : Lib) : Req → List (List UInt8) → (key : List UInt8) → Out → Prop
  | .keyGen alg _ _ _ params coins, [], key, o =>
    ∃ obj max, L.gen alg params coins = .ok obj ∧ L.privateDer alg max obj = .ok key ∧
      (o.disclosed = ([], [], [], 0) ∨
        ∃ max pub, L.publicDer alg max obj = .ok pub ∧ o.disclosed = (pub, [], [], 0))
  | .keyGenDma alg _ _ _ params coins _ _ _, [], key, o =>
    ∃ obj max, L.gen alg params coins = .ok obj ∧ L.privateDer alg max obj = .ok key ∧
      ∃ max pub, L.publicDer alg max obj = .ok pub ∧ o.disclosed = ([], pub, [], 0)
  | .sharedSecret alg opts _ _ _ _ _ _ _, [prv, pub], key, o =>
    (∃ max, L.secret alg opts max prv pub = .ok key) ∧ o.disclosed = ([], [], [], 0)
  | .hkdf _ _ _ _ hash inKey salt info outSz, keys, key, o =>
    L.hkdf hash (48 + inKey.length + salt.length) (keys.head?.getD inKey) salt info outSz =
      .ok key ∧ o.disclosed = ([], [], [], 0)
  | .cmacKdf _ _ _ _ _ salt z info outSz, keys, key, o =>
    (∃ s' z', keys = (if salt = [] then [s'] else []) ++ (if z = [] then [z'] else []) ∧
      (salt ≠ [] → s' = salt) ∧ (z ≠ [] → z' = z) ∧
      L.cmacKdf (48 + salt.length + z.length) s' z' info outSz = .ok key) ∧
    o.disclosed = ([], [], [], 0)
  | _, _, _, _ => False

/-- Flags and bytes of the keys the request may store. -/
def Req.Makes (L : Lib) : Req → (flags : UInt16) → List UInt8 → Prop
  | .keyGen alg _ fl _ params coins, flags, key
  | .keyGenDma alg _ fl _ params coins _ _ _, flags, key =>
    flags = fl ∧ ∃ obj max, L.gen alg params coins = .ok obj ∧ L.privateDer alg max obj = .ok key
  | .sharedSecret alg opts _ _ _ _ _ fl _, flags, key =>
    flags = fl ∧ ∃ max prv pub, L.secret alg opts max prv pub = .ok key
  | .hkdf _ _ fl _ hash _ salt info outSz, flags, key =>
    flags = fl ∧ ∃ room ikm, L.hkdf hash room ikm salt info outSz = .ok key
  | .cmacKdf _ _ _ fl _ _ _ info outSz, flags, key =>
    flags = fl ∧ ∃ room s z, L.cmacKdf room s z info outSz = .ok key
  | _, _, _ => False

end WolfHsm.Crypto

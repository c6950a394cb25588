import Verif.Model.ClientKey

/-!
# What a key call of a client should do

On a key store `s`, for a connection `v`, with `e` the state of the lock, the client's memory and
the random generator.  Everything is in terms of the key store operations of
`Model/Keystore.lean`, whose own properties are C13 to C21, C47 and C51.
-/

namespace WolfHsm.ClientKey

open NvmFlash (Meta)
open KeyMsg (Env Answer)
open Keystore (Srv Sys)

/-- A label as the server keeps it: the first 24 bytes, filled up with zeros. -/
def kept (label : List UInt8) : Vector UInt8 24 := Vector.ofFn fun i => label.getD i.val 0

/-- The key store operation that a call asks for, or the server's refusal of the cipher. -/
def Call.req (cfg : KeyMsg.Cfg) (e : Env) : Call → Except Rc Keystore.Req
  | .cache id flags label key => .ok (.cache id flags.toUInt16 (kept label) key)
  | .cacheRandom id flags label sz => .ok (.cacheRandom id flags.toUInt16 (kept label) sz e.rng)
  | .evict id => .ok (.evict id)
  | .exportKey id => .ok (.exportKey id)
  | .exportPublic id algo => .ok (.exportPublic id algo)
  | .commit id => .ok (.commit id)
  | .erase id => .ok (.erase id)
  | .revoke id => .ok (.revoke id)
  | .cacheDma id flags label addr sz =>
    .ok (.cacheDma id flags.toUInt16 (kept label) sz.toUInt64 (e.dmaIn addr sz.toNat) (e.mem addr))
  | .exportDma id addr sz => .ok (.exportDma id sz.toUInt64 (e.dmaOut addr))
  | .exportPublicDma id algo _ _ => .ok (.exportPublic id algo)
  | .wrap cipher kek md key => if cipher = cfg.gcm then .ok (.wrap kek md key e.ivBytes) else .error .badargs
  | .wrapExport cipher id type kek => .ok (.wrapExport (cipher == cfg.gcm) kek type id e.ivBytes)
  | .unwrapExport cipher kek blob => if cipher = cfg.gcm then .ok (.unwrapExport kek blob) else .error .badargs
  | .unwrapCache cipher kek blob => if cipher = cfg.gcm then .ok (.unwrapCache kek blob) else .error .badargs
  | .dataWrap cipher kek data => if cipher = cfg.gcm then .ok (.dataWrap kek data e.ivBytes) else .error .badargs
  | .dataUnwrap cipher kek blob => if cipher = cfg.gcm then .ok (.dataUnwrap kek blob) else .error .badargs

/-- What the caller gets from the outcome `a` of that operation; `cap` is the size of its buffer. -/
def Call.result (cap : Nat) (a : Answer) (c : Call) : Result :=
  if a.rc.code ≠ 0 then .failed a.rc.code
  else match c with
    | .cache .. | .cacheRandom .. | .cacheDma .. | .unwrapCache .. => .keyId a.id
    | .evict _ | .commit _ | .erase _ | .revoke _ => .done
    | .exportKey _ | .exportPublic .. =>
      if cap < a.bytes.length then .err .aborted else .key a.label.toList a.bytes
    | .exportDma .. | .exportPublicDma .. => .dma (UInt16.ofNat a.bytes.length) a.label.toList
    | .wrap .. | .wrapExport .. | .dataWrap .. | .dataUnwrap .. =>
      if a.bytes.length > cap then .err .bufferSize else .bytes a.bytes
    | .unwrapExport .. => if a.bytes.length > cap then .err .bufferSize else .unwrapped a.md a.bytes

/-- The second half of an export by DMA: what was exported goes to the client's memory if it fits
there and can be written; nothing else does. -/
def Call.afterwards (e : Env) (a : Answer) : Call → Answer
  | .exportDma _ addr _ => if a.rc = .ok then { a with write := some (addr, a.bytes) } else a
  | .exportPublicDma _ _ addr sz =>
    if a.rc = .ok then
      if a.bytes.length > sz.toNat then { rc := .nospace }
      else if e.dmaOut addr a.bytes.length = .ok then { a with write := some (addr, a.bytes) }
      else { rc := e.dmaOut addr a.bytes.length }
    else a
  | _ => a

/-- Result of the call for the caller, the bytes put into client memory, and the key store after
it. -/
def expected (cfg : KeyMsg.Cfg) (v : Srv) (e : Env) (cap : Nat) (s : Sys) (c : Call) :
    (Result × Option (UInt64 × List UInt8)) × Sys :=
  if e.lock ≠ .ok then ((c.result cap { rc := e.lock }, none), s)
  else match c.req cfg e with
    | .error rc => ((c.result cap { rc := rc }, none), s)
    | .ok q =>
      let o := Keystore.act cfg.ks v s q
      let a := c.afterwards e (Answer.of (KeyMsg.labelOf cfg v q o.2) o.1)
      ((c.result cap a, a.write), o.2)

/-- Calls that need DMA support. -/
def Call.IsDma : Call → Prop
  | .cacheDma .. | .exportDma .. | .exportPublicDma .. => True
  | _ => False

/-- Calls of the key-wrap API, with their cipher. -/
def Call.cipher? : Call → Option UInt16
  | .wrap c .. | .wrapExport c .. | .unwrapExport c .. | .unwrapCache c .. | .dataWrap c .. | .dataUnwrap c .. => some c
  | _ => none

/-- The sizes of client and server fit together. -/
structure Fit (cfg : KeyMsg.Cfg) (kcfg : Cfg) : Prop where
  /-- room for every fixed-size message -/
  low : 52 ≤ cfg.ks.commLen
  high : cfg.ks.commLen < 65536
  same : kcfg.dataLen = cfg.ks.commLen
  key : kcfg.maxKey ≤ cfg.ks.maxWrapKey
  data : kcfg.maxData ≤ cfg.ks.maxWrapData

end WolfHsm.ClientKey

namespace WolfHsm.KeyMsg

/-- The cipher makes a tag of 16 bytes and keeps the length. -/
structure Lengths (cfg : Cfg) : Prop where
  enc : ∀ key dom iv pt ct tag, cfg.ks.aead.enc key dom iv pt = some (ct, tag) →
    ct.length = pt.length ∧ tag.length = 16
  dec : ∀ key dom iv ct tag pt, cfg.ks.aead.dec key dom iv ct tag = some pt → pt.length = ct.length

/-- The exporters of public keys keep to the space they are given. -/
def PublicFits (cfg : Cfg) : Prop := ∀ algo key, (cfg.ks.publicOf algo key).2.length ≤ cfg.ks.commLen - 36

end WolfHsm.KeyMsg

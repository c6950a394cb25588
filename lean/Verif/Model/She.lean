import Verif.Model.SheCrypto
import Verif.Model.Keystore
import Verif.Model.Server

/-!
# The SHE extension of the server: `src/wh_server_she.c`, `src/wh_she_common.c`

One request is the packet buffer and the received size, as in `Server`; the response is built in
the same buffer.  Each wolfCrypt call may fail (`Env.fault`); memory the C code uses without
initialising it holds arbitrary bytes (`Env.junk`).

Simplifications.  The three calls that set up and run AES count as one call that may fail.  A
call that fails leaves its output buffer undefined (`junk`) where the buffer is used afterwards,
except that a failing encryption in `_ExportRamKey` is taken to leave its buffer unchanged.
CBC input and output overlap in the packet buffer (the output is 16 bytes before the input); the
model computes on a copy.  The boot CMAC context and the one used for single-shot MACs are the
same memory; single-shot MACs are refused while a boot MAC is being computed, so the model keeps
them apart.  A server without NVM is not modelled.
-/

namespace WolfHsm.She

open NvmFlash (Meta)
open Keystore (Sys Srv readKey cacheKey evictKey labelCount cached)
open Server (Req)
open Wire
open Utils (bytes32 read32)

/-- `whServerSheContext.sbState`, wolfhsm/wh_server_she.h (`WH_SHE_SB_*`). -/
inductive Sb where
  | init | update | finish | success | failure
deriving DecidableEq, Repr

/-- `whServerSheContext`, wolfhsm/wh_server_she.h. -/
structure St where
  sb : Sb
  /-- `cmacKeyFound` -/
  keyFound : Bool
  /-- `ramKeyPlain` -/
  ramPlain : Bool
  uidSet : Bool
  rndInited : Bool
  blSize : UInt32
  /-- `blSizeReceived` -/
  blRecv : UInt32
  /-- `sheCmac`: the key and the bytes fed so far -/
  cmacKey : List UInt8
  cmacData : List UInt8
  prngState : List UInt8
  prngKey : List UInt8
  uid : List UInt8
deriving DecidableEq

/-- A context the application has cleared. -/
def St.boot : St :=
  ⟨.init, false, false, false, false, 0, 0, [], [], zeros 16, zeros 16, zeros 15⟩

/-- Build options. -/
structure Cfg where
  ks : Keystore.Cfg
  cr : Crypto
  /-- byte order of the server -/
  le : Bool

/-- What the environment contributes to one request: the result of taking the NVM lock, which
wolfCrypt calls fail, and the content of uninitialised memory. -/
structure Env where
  lock : Rc
  fault : Nat → Bool
  junk : Nat → UInt8

/-- `n` bytes of uninitialised memory. -/
def Env.bytes (env : Env) (off n : Nat) : List UInt8 := (List.range n).map fun i => env.junk (off + i)

/-- Copy `src` into `buf` at an offset (`memcpy`). -/
def put (buf : List UInt8) (off : Nat) (src : List UInt8) : List UInt8 :=
  buf.take off ++ src ++ buf.drop (off + src.length)

/-- An error of wolfCrypt. -/
def cryptoErr : Rc := .other 0xFFFFFF53

/-- `WH_SHE_MAKE_KEYID`, wolfhsm/wh_she_common.h:43-54. -/
def sheId (cfg : Cfg) (client slot : UInt16) : UInt16 :=
  KeyId.make KeyId.typeShe (if cfg.ks.sheGlobal then KeyId.userGlobal else client) slot

/-- `_TranslateSheReturnCode`, src/wh_server_she.c:135-160. -/
def translate (rc : Rc) : Rc :=
  match rc with
  | .ok | .sheSequenceError | .sheKeyNotAvailable | .sheKeyInvalid | .sheKeyEmpty
  | .sheNoSecureBoot | .sheWriteProtected | .sheKeyUpdateError | .sheRngSeed | .sheNoDebugging
  | .sheBusy | .sheMemoryFailure => rc
  | _ => .sheGeneralError

/-- What a command leaves: the code, the response after its first field, the size of the
response, and the new states.  What the response structure leaves unset is buffer content. -/
structure Res where
  ret : Rc
  body : List UInt8
  size : Nat
  st : St
  sys : Sys

/-- The response packet. -/
def Res.packet (cfg : Cfg) (r : Req) (x : Res) : List UInt8 :=
  over (w32 cfg.le r.magic (translate x.ret).code ++ x.body) r.buf x.size

/-- A status field: `NO_ERROR` or the given code. -/
def status (cfg : Cfg) (r : Req) (ret bad : Rc) : List UInt8 :=
  w32 cfg.le r.magic (if ret = .ok then (0 : UInt32) else bad.code)

/-- Read a slot with a 16-byte buffer. -/
def readSlot (cfg : Cfg) (v : Srv) (s : Sys) (slot : UInt16) : (Rc × Option (Meta × List UInt8)) × Sys :=
  readKey cfg.ks v.ctx s (sheId cfg v.client slot) 16

/-! ## The key label: `src/wh_she_common.c` -/

/-- The flags of a label, `wh_She_Label2Meta`, src/wh_she_common.c:40-58; the counter is
`Keystore.labelCount`. -/
def labelFlags (l : Vector UInt8 24) : Nat :=
  l[4].toNat * 2 ^ 24 + l[5].toNat * 2 ^ 16 + l[6].toNat * 2 ^ 8 + l[7].toNat

/-- `wh_She_Meta2Label`, src/wh_she_common.c:60-74. -/
def setLabel (l : Vector UInt8 24) (count flags : UInt32) : Vector UInt8 24 :=
  let h := bytes32 false count ++ bytes32 false flags
  Vector.ofFn fun i => if i.val < 8 then h.getD i.val 0 else l[i]

/-- `WH_SHE_FLAG_WRITE_PROTECT`, wolfhsm/wh_she_common.h:100. -/
def isWp (md : Meta) : Bool := labelFlags md.label % 2 == 1
/-- `WH_SHE_FLAG_WILDCARD`, wolfhsm/wh_she_common.h:104. -/
def isWild (md : Meta) : Bool := labelFlags md.label / 16 % 2 == 1

/-! ## UID and secure boot -/

/-- `_SetUid`, src/wh_server_she.c:193-224. -/
def setUid (_cfg : Cfg) (t : St) (s : Sys) (r : Req) : Res :=
  if r.size < 16 then ⟨.bufferSize, [], 8, t, s⟩
  else if t.uidSet then ⟨.sheSequenceError, [], 8, t, s⟩
  else ⟨.ok, [], 8, { t with uid := rdBytes r.buf 0 15, uidSet := true }, s⟩

/-- `_SecureBootInit`, src/wh_server_she.c:226-307. -/
def sbInit (cfg : Cfg) (v : Srv) (env : Env) (t : St) (s : Sys) (r : Req) : Res :=
  let done (ret : Rc) (t : St) (s : Sys) : Res := ⟨ret, status cfg r ret .sheGeneralError, 8, t, s⟩
  if r.size < 8 then done .bufferSize t s
  else if t.sb ≠ .init then done .sheSequenceError t s
  else
    let sz := rd32 cfg.le r.magic r.buf 0
    let t1 := { t with blSize := sz }
    match readSlot cfg v s 2 with
    | ((.ok, some (_, key)), s1) =>
      if key.length ≠ 16 then done .sheNoSecureBoot { t1 with sb := .success, keyFound := false } s1
      else
        let t2 := { t1 with keyFound := true }
        if env.fault 0 then done cryptoErr t2 s1
        else done .ok { t2 with sb := .update, cmacKey := key,
                                cmacData := zeros 12 ++ bytes32 cfg.le sz } s1
    | (_, s1) => done .sheNoSecureBoot { t1 with sb := .success, keyFound := false } s1

/-- `_SecureBootUpdate`, src/wh_server_she.c:309-369. -/
def sbUpdate (cfg : Cfg) (env : Env) (t : St) (s : Sys) (r : Req) : Res :=
  let done (ret : Rc) (t : St) : Res := ⟨ret, status cfg r ret .sheGeneralError, 8, t, s⟩
  if r.size < 8 then done .bufferSize t
  else if t.sb ≠ .update then done .sheSequenceError t
  else
    let sz := rd32 cfg.le r.magic r.buf 0
    if sz.toNat > cfg.ks.commLen ∨ r.size < 8 + sz.toNat then done .bufferSize t
    else
      let t1 := { t with blRecv := t.blRecv + sz }
      if t1.blRecv > t1.blSize then done .sheSequenceError t1
      else if env.fault 0 then done cryptoErr t1
      else
        let t2 := { t1 with cmacData := t1.cmacData ++ rdBytes r.buf 8 sz.toNat }
        if t2.blRecv = t2.blSize then done .ok { t2 with sb := .finish } else done .ok t2

/-- `_SecureBootFinish`, src/wh_server_she.c:371-431.  A stored MAC shorter than 16 bytes is
compared together with uninitialised memory. -/
def sbFinish (cfg : Cfg) (v : Srv) (env : Env) (t : St) (s : Sys) (r : Req) : Res :=
  let done (ret : Rc) (status : UInt32) (t : St) (s : Sys) : Res :=
    ⟨ret, w32 cfg.le r.magic status, 8, t, s⟩
  if r.size ≠ 0 then done .bufferSize 0 t s
  else if t.sb ≠ .finish then done .sheSequenceError 0 t s
  else if env.fault 0 then done cryptoErr 0 t s
  else
    match readSlot cfg v s 3 with
    | ((.ok, some (_, mac)), s1) =>
      if cfg.cr.cmac t.cmacKey t.cmacData = put (env.bytes 0 16) 0 mac then
        done .ok 0 { t with sb := .success } s1
      else done .sheGeneralError Rc.sheGeneralError.code { t with sb := .failure } s1
    | (_, s1) => done .sheKeyNotAvailable 0 t s1

/-- `_GetStatus`, src/wh_server_she.c:433-474. -/
def getStatus (t : St) (s : Sys) (r : Req) : Res :=
  if r.size > 0 then ⟨.bufferSize, [0], 12, t, s⟩
  else
    let a : UInt8 := if t.keyFound then 0x02 else 0
    let b : UInt8 := if t.sb = .success ∨ t.sb = .failure then 0x08 else 0
    let c : UInt8 := if t.sb = .success then 0x10 else 0
    let d : UInt8 := if t.rndInited then 0x20 else 0
    ⟨.ok, [a ||| b ||| c ||| d], 12, t, s⟩

/-! ## Key update -/

/-- `_PopAuthId`, src/wh_server_she.c:174-178. -/
def popAuth (m1 : List UInt8) : UInt16 := ((m1.getD 15 0) &&& 0x0f).toUInt16
/-- `_PopId`, src/wh_server_she.c:180-184. -/
def popId (m1 : List UInt8) : UInt16 := (((m1.getD 15 0) &&& 0xf0) >>> 4).toUInt16
/-- `_PopFlags`, src/wh_server_she.c:186-191. -/
def popFlags (m2 : List UInt8) : UInt32 :=
  (((m2.getD 3 0) &&& 0x0f).toUInt32 <<< 4) ||| (((m2.getD 4 0) &&& 0x80) >>> 7).toUInt32
/-- The counter of the clear M2, src/wh_server_she.c:613-615, 623. -/
def popCount (m2 : List UInt8) : UInt32 := ((read32 false (m2.take 4)).getD 0) >>> 4

/-- First part of `_LoadKey`, src/wh_server_she.c:505-572: authenticate M1 and M2 with the key
they name and decrypt M2. -/
def openM2 (cfg : Cfg) (v : Srv) (env : Env) (s : Sys) (m1 m2 m3 : List UInt8) :
    Except Rc (List UInt8) × Sys :=
  match readSlot cfg v s (popAuth m1) with
  | ((.ok, some (_, key)), s1) =>
    if key.length ≠ 16 then (.error .sheKeyInvalid, s1)
    else if env.fault 0 then (.error .sheGeneralError, s1)
    else if env.fault 1 then (.error cryptoErr, s1)
    else if m3 ≠ cfg.cr.cmac (mp16 cfg.cr (key ++ macC)) (m1 ++ m2) then (.error .sheKeyUpdateError, s1)
    else if env.fault 2 then (.error cryptoErr, s1)
    else (.ok (cbcDec cfg.cr (mp16 cfg.cr (key ++ encC)) 2 (zeros 16) m2), s1)
  | ((.nospace, _), s1) => (.error .sheKeyInvalid, s1)
  | ((rc, _), s1) => (.error (errRc rc), s1)

/-- What the `meta` structure of `_LoadKey` holds after a read that failed: the stored metadata
if the object was found, otherwise the zeros it was initialised with. -/
def metaLeft (cfg : Cfg) (v : Srv) (s : Sys) (slot : UInt16) : Meta :=
  match cached cfg.ks v.ctx s (sheId cfg v.client slot), s.nvm.metadata (sheId cfg v.client slot) with
  | none, (_, some md) => md
  | _, _ => ⟨0, 0, 0, 0, Vector.replicate 24 0⟩

/-- Second part of `_LoadKey`, src/wh_server_she.c:573-599: look at the target slot.  The result
is `keyRet` and `meta`. -/
def target (cfg : Cfg) (v : Srv) (s : Sys) (slot : UInt16) : Except Rc (Rc × Meta) × Sys :=
  match readSlot cfg v s slot with
  | ((.ok, some (md, key)), s1) =>
    if key.length ≠ 16 then (.error .sheKeyInvalid, s1)
    else if isWp md then (.error .sheWriteProtected, s1)
    else (.ok (.ok, md), s1)
  | ((.nospace, _), s1) => (.error .sheKeyInvalid, s1)
  | ((rc, _), s1) =>
    let md := metaLeft cfg v s slot
    if rc = .notfound ∨ isWp md = false then (.ok (rc, md), s1)
    else (.error .sheWriteProtected, s1)

/-- Third part of `_LoadKey`, src/wh_server_she.c:600-617: UID and counter. -/
def accept (t : St) (m1 m2 : List UInt8) (keyRet : Rc) (md : Meta) : Rc :=
  let u :=
    if m1.take 15 = zeros 15 then
      (if isWild md then Rc.ok else .sheKeyUpdateError)
    else if m1.take 15 = t.uid then .ok else .sheKeyUpdateError
  if u = .ok ∧ keyRet ≠ .notfound ∧ (popCount m2).toNat ≤ labelCount md.label then .sheKeyUpdateError
  else u

/-- The metadata of the updated key, src/wh_server_she.c:620-626. -/
def newMeta (cfg : Cfg) (v : Srv) (m1 m2 : List UInt8) (md : Meta) : Meta :=
  { md with id := sheId cfg v.client (popId m1),
            label := setLabel md.label (popCount m2) (popFlags m2), len := 16 }

/-- Fourth part of `_LoadKey`, src/wh_server_she.c:627-665: the code (before it is mapped to
`KEY_UPDATE_ERROR`), the metadata and the key as they are after the write, and the new state. -/
def store (cfg : Cfg) (v : Srv) (s : Sys) (md : Meta) (key : List UInt8) : (Rc × Meta × List UInt8) × Sys :=
  if KeyId.idOf md.id = 14 then
    let p := cacheKey cfg.ks v.ctx s false md key
    ((p.1, md, key), p.2)
  else
    match s.nvm.add md key with
    | (.ok, n1) =>
      let s1 := { s with nvm := n1 }
      let p := evictKey cfg.ks v.ctx s1 md.id
      if p.1 = .ok ∨ p.1 = .notfound then
        match readKey cfg.ks v.ctx p.2 md.id 16 with
        | ((.ok, some (md', key')), s3) => ((.ok, md', key'), s3)
        | ((rc, _), s3) => ((errRc rc, md, key), s3)
      else ((p.1, md, key), p.2)
    | (rc, n1) => ((rc, md, key), { s with nvm := n1 })

/-- The clear counter block of M4, src/wh_server_she.c:686-688. -/
def countBlock (count : UInt32) : List UInt8 :=
  let b := bytes32 false (count <<< 4)
  b.take 3 ++ [b.getD 3 0 ||| 0x08] ++ zeros 12

/-- Fifth part of `_LoadKey`, src/wh_server_she.c:666-719: the code, M4 and M5.  M4 is filled in
when the encryption key has been set up, M5 last. -/
def answer (cfg : Cfg) (env : Env) (t : St) (m1 : List UInt8) (md : Meta) (key : List UInt8) :
    Rc × List UInt8 :=
  let kdfE := (put key md.len.toNat encC).take (md.len.toNat + 16)
  let kdfM := (put key md.len.toNat macC).take (md.len.toNat + 16)
  if env.fault 3 then (cryptoErr, zeros 48)
  else
    let m4 := t.uid ++ [((popId m1) <<< 4 ||| popAuth m1).toUInt8] ++
      cfg.cr.enc (mp16 cfg.cr kdfE) (countBlock (UInt32.ofNat (labelCount md.label)))
    if env.fault 4 then (cryptoErr, m4 ++ zeros 16)
    else (.ok, m4 ++ cfg.cr.cmac (mp16 cfg.cr kdfM) m4)

/-- `_LoadKey`, src/wh_server_she.c:476-737. -/
def loadKey (cfg : Cfg) (v : Srv) (env : Env) (t : St) (s : Sys) (r : Req) : Res :=
  let m1 := rdBytes r.buf 0 16
  if r.size < 64 then ⟨.bufferSize, zeros 48, 52, t, s⟩
  else
    match openM2 cfg v env s m1 (rdBytes r.buf 16 32) (rdBytes r.buf 48 16) with
    | (.error e, s1) => ⟨e, zeros 48, 52, t, s1⟩
    | (.ok m2, s1) =>
      match target cfg v s1 (popId m1) with
      | (.error e, s2) => ⟨e, zeros 48, 52, t, s2⟩
      | (.ok (keyRet, md), s2) =>
        if accept t m1 m2 keyRet md = .ok then
          match store cfg v s2 (newMeta cfg v m1 m2 md) ((m2.drop 16).take 16) with
          | ((.ok, md', key), s3) =>
            let a := answer cfg env t m1 md' key
            ⟨a.1, a.2, 52,
              if a.1 = .ok ∧ KeyId.idOf md'.id = 14 then { t with ramPlain := true } else t, s3⟩
          | (_, s3) => ⟨.sheKeyUpdateError, zeros 48, 52, t, s3⟩
        else ⟨accept t m1 m2 keyRet md, zeros 48, 52, t, s2⟩

/-- `_LoadPlainKey`, src/wh_server_she.c:739-774. -/
def loadPlain (cfg : Cfg) (v : Srv) (t : St) (s : Sys) (r : Req) : Res :=
  if r.size < 16 then ⟨.bufferSize, [], 4, t, s⟩
  else
    let p := cacheKey cfg.ks v.ctx s false
      ⟨sheId cfg v.client 14, 0, 0, 16, Vector.replicate 24 0⟩ (rdBytes r.buf 0 16)
    if p.1 = .ok then ⟨.ok, [], 4, { t with ramPlain := true }, p.2⟩ else ⟨p.1, [], 4, t, p.2⟩

/-- The clear M2 of `_ExportRamKey`, src/wh_server_she.c:824-839: counter 1, no flags, the key. -/
def exportClear (key : List UInt8) : List UInt8 := put (bytes32 false 16 ++ zeros 28) 16 key

/-- `_ExportRamKey`, src/wh_server_she.c:777-940.  The `meta` of the second read replaces that of
the first, so K2 is derived with the length of the RAM key. -/
def exportRam (cfg : Cfg) (v : Srv) (env : Env) (t : St) (s : Sys) (r : Req) : Res :=
  let fail (ret : Rc) (s : Sys) : Res := ⟨ret, zeros 112, 116, t, s⟩
  if r.size ≠ 0 then fail .bufferSize s
  else if t.ramPlain = false then fail .sheKeyInvalid s
  else
    match readSlot cfg v s 0 with
    | ((.ok, some (md, secret)), s1) =>
      let m1 := t.uid ++ [0xE0]
      let buf1 := put (put (env.bytes 0 32) 0 secret) md.len.toNat encC
      let k1 := mp16 cfg.cr (buf1.take (md.len.toNat + 16))
      if env.fault 0 then ⟨cryptoErr, m1 ++ zeros 96, 116, t, s1⟩
      else
        match readSlot cfg v s1 14 with
        | ((.ok, some (md2, ram)), s2) =>
          let clear := exportClear ram
          let key := (clear.drop 16).take 16
          if env.fault 1 then ⟨cryptoErr, m1 ++ clear ++ zeros 64, 116, t, s2⟩
          else
            let m2 := cbcEnc cfg.cr k1 2 (zeros 16) clear
            let k2 := mp16 cfg.cr ((put buf1 md2.len.toNat macC).take (md2.len.toNat + 16))
            if env.fault 2 then ⟨cryptoErr, m1 ++ m2 ++ zeros 64, 116, t, s2⟩
            else
              let m3 := cfg.cr.cmac k2 (m1 ++ m2)
              if env.fault 3 then ⟨cryptoErr, m1 ++ m2 ++ m3 ++ zeros 48, 116, t, s2⟩
              else
                let m4 := t.uid ++ [0xE0] ++ cfg.cr.enc (mp16 cfg.cr (key ++ encC)) (countBlock 1)
                if env.fault 4 then ⟨cryptoErr, m1 ++ m2 ++ m3 ++ m4 ++ zeros 16, 116, t, s2⟩
                else ⟨.ok, m1 ++ m2 ++ m3 ++ m4 ++ cfg.cr.cmac (mp16 cfg.cr (key ++ macC)) m4,
                  116, t, s2⟩
        | (_, s2) => ⟨.sheKeyNotAvailable, m1 ++ (bytes32 false 16 ++ zeros 28) ++ zeros 64, 116, t, s2⟩
    | (_, s1) => fail .sheKeyNotAvailable s1

/-! ## Random numbers -/

/-- `_InitRnd`, src/wh_server_she.c:942-1053. -/
def initRnd (cfg : Cfg) (v : Srv) (env : Env) (t : St) (s : Sys) (r : Req) : Res :=
  let done (ret : Rc) (t : St) (s : Sys) : Res := ⟨ret, status cfg r ret .sheGeneralError, 8, t, s⟩
  if r.size ≠ 0 then done .bufferSize t s
  else if t.rndInited then done .sheSequenceError t s
  else
    match readSlot cfg v s 0 with
    | ((.ok, some (_, sec)), s1) =>
      let secret := put (env.bytes 0 16) 0 sec
      if env.fault 0 then done cryptoErr t s1
      else
        match readSlot cfg v s1 15 with
        | ((.ok, some (md, sd)), s2) =>
          if env.fault 1 then done cryptoErr t s2
          else
            let seed := cbcEnc cfg.cr (mp16 cfg.cr (secret ++ prngSeedC)) 1 (zeros 16)
              (put (env.bytes 16 16) 0 sd)
            match s2.nvm.add { md with id := sheId cfg v.client 15, len := 16 } seed with
            | (.ok, n) =>
              let t1 := { t with prngState := seed }
              if env.fault 2 then done cryptoErr { t1 with prngKey := env.bytes 32 16 } { s2 with nvm := n }
              else done .ok { t1 with prngKey := mp16 cfg.cr (secret ++ prngKeyC), rndInited := true }
                { s2 with nvm := n }
            | (_, n) => done .sheKeyUpdateError t { s2 with nvm := n }
        | (_, s2) => done .sheKeyNotAvailable t s2
    | (_, s1) => done .sheKeyNotAvailable t s1

/-- `_Rnd`, src/wh_server_she.c:1056-1104. -/
def rnd (cfg : Cfg) (env : Env) (t : St) (s : Sys) (r : Req) : Res :=
  if r.size ≠ 0 then ⟨.bufferSize, zeros 16, 20, t, s⟩
  else if t.rndInited = false then ⟨.sheRngSeed, zeros 16, 20, t, s⟩
  else if env.fault 0 then ⟨cryptoErr, zeros 16, 20, { t with prngState := env.bytes 0 16 }, s⟩
  else
    let st := cbcEnc cfg.cr t.prngKey 1 (zeros 16) t.prngState
    ⟨.ok, st, 20, { t with prngState := st }, s⟩

/-- `_ExtendSeed`, src/wh_server_she.c:1106-1179. -/
def extendSeed (cfg : Cfg) (v : Srv) (env : Env) (t : St) (s : Sys) (r : Req) : Res :=
  let done (ret : Rc) (t : St) (s : Sys) : Res := ⟨ret, status cfg r ret .sheRngSeed, 8, t, s⟩
  if r.size < 16 then done .bufferSize t s
  else if t.rndInited = false then done .sheRngSeed t s
  else
    let entropy := rdBytes r.buf 0 16
    if env.fault 0 then done cryptoErr { t with prngState := env.bytes 0 16 } s
    else
      let t1 := { t with prngState := mp16 cfg.cr (t.prngState ++ entropy) }
      match readSlot cfg v s 15 with
      | ((.ok, some (md, sd)), s1) =>
        if env.fault 1 then done cryptoErr t1 s1
        else
          let seed := mp16 cfg.cr (put t.prngState 0 sd ++ entropy)
          match s1.nvm.add { md with id := sheId cfg v.client 15, len := 16 } seed with
          | (.ok, n) => done .ok t1 { s1 with nvm := n }
          | (_, n) => done .sheKeyUpdateError t1 { s1 with nvm := n }
      | (_, s1) => done .sheKeyNotAvailable t1 s1

/-! ## Ciphers and MACs -/

/-- The four cipher commands, with their input offset. -/
inductive Mode where
  | encEcb | encCbc | decEcb | decCbc
deriving DecidableEq

/-- Size of the fixed part of the request (`sizeof(req)`). -/
def Mode.fixed : Mode → Nat
  | .encEcb | .decEcb => 8
  | .encCbc | .decCbc => 24

/-- The operation on `n` blocks. -/
def Mode.apply (cr : Crypto) (key iv : List UInt8) (n : Nat) (d : List UInt8) : Mode → List UInt8
  | .encEcb => ecbEnc cr key n d
  | .decEcb => ecbDec cr key n d
  | .encCbc => cbcEnc cr key n iv d
  | .decCbc => cbcDec cr key n iv d

/-- `_EncEcb`, `_EncCbc`, `_DecEcb`, `_DecCbc`, src/wh_server_she.c:1181-1503.  A key that has not
16 bytes is refused by `wc_AesSetKey`, in `_DecCbc` by the check before it. -/
def cipher (cfg : Cfg) (v : Srv) (env : Env) (t : St) (s : Sys) (r : Req) (m : Mode) : Res :=
  let fail (ret : Rc) (s : Sys) : Res := ⟨ret, w32 cfg.le r.magic 0, 8, t, s⟩
  if r.size < m.fixed then fail .bufferSize s
  else
    let sz := rd32 cfg.le r.magic r.buf 0
    let field := sz.toNat - sz.toNat % 16
    if field > cfg.ks.commLen ∨ r.size < m.fixed + field then fail .bufferSize s
    else if 8 + field > cfg.ks.commLen then fail .bufferSize s
    else
      match readSlot cfg v s (r.buf.getD 4 0).toUInt16 with
      | ((.ok, some (_, key)), s1) =>
        if m = .decCbc ∧ key.length ≠ 16 then fail .sheKeyNotAvailable s1
        else if key.length ≠ 16 ∨ env.fault 0 = true then fail cryptoErr s1
        else ⟨.ok, w32 cfg.le r.magic (UInt32.ofNat field) ++
            m.apply cfg.cr key (rdBytes r.buf 8 16) (field / 16) (rdBytes r.buf m.fixed field),
          8 + field, t, s1⟩
      | (_, s1) => fail .sheKeyNotAvailable s1

/-- `_GenerateMac`, src/wh_server_she.c:1505-1563. -/
def genMac (cfg : Cfg) (v : Srv) (env : Env) (t : St) (s : Sys) (r : Req) : Res :=
  let fail (ret : Rc) (s : Sys) : Res := ⟨ret, zeros 16, 20, t, s⟩
  if r.size < 8 then fail .bufferSize s
  else
    let sz := rd32 cfg.le r.magic r.buf 4
    if sz.toNat > cfg.ks.commLen ∨ r.size < 8 + sz.toNat then fail .bufferSize s
    else
      match readSlot cfg v s (rd32 cfg.le r.magic r.buf 0).toUInt16 with
      | ((.ok, some (_, key)), s1) =>
        if key.length ≠ 16 then fail .sheKeyNotAvailable s1
        else if env.fault 0 then fail cryptoErr s1
        else ⟨.ok, cfg.cr.cmac key (rdBytes r.buf 8 sz.toNat), 20, t, s1⟩
      | (_, s1) => fail .sheKeyNotAvailable s1

/-- `_VerifyMac`, src/wh_server_she.c:1565-1639.  A failing wolfCrypt call counts as a mismatch. -/
def verifyMac (cfg : Cfg) (v : Srv) (env : Env) (t : St) (s : Sys) (r : Req) : Res :=
  let fail (ret : Rc) (s : Sys) : Res := ⟨ret, [0], 12, t, s⟩
  if r.size < 16 then fail .bufferSize s
  else
    let ml := rd32 cfg.le r.magic r.buf 4
    let cl := rd32 cfg.le r.magic r.buf 8
    let total := ml + cl
    if total < ml ∨ total.toNat > cfg.ks.commLen ∨ r.size < 16 + total.toNat then fail .bufferSize s
    else
      match readSlot cfg v s (rd32 cfg.le r.magic r.buf 0).toUInt16 with
      | ((.ok, some (_, key)), s1) =>
        if key.length ≠ 16 then fail .sheKeyNotAvailable s1
        else if env.fault 0 = false ∧ cfg.cr.cmacVerify key (rdBytes r.buf 16 ml.toNat)
            (rdBytes r.buf (16 + ml.toNat) cl.toNat) = true then ⟨.ok, [0], 12, t, s1⟩
        else ⟨.ok, [1], 12, t, s1⟩
      | (_, s1) => fail .sheKeyNotAvailable s1

/-! ## The request handler -/

/-- The state check at the head of `_ReportInvalidSheState`, src/wh_server_she.c:1654-1674. -/
def refused (t : St) (action : UInt16) : Bool :=
  if action = 4 then false
  else if action = 0 then t.uidSet
  else if t.uidSet = false then true
  else if action ≠ 1 ∧ action ≠ 2 ∧ action ≠ 3 ∧ t.sb ≠ .success then true
  else false

/-- The responses of `_ReportInvalidSheState`, src/wh_server_she.c:1676-1818: the fields that are
copied from the response structure after `rc`, and the size; fields that are not set are
uninitialised memory. -/
def refusal (env : Env) (action : UInt16) : Option (List UInt8 × Nat) :=
  if action = 0 then some ([], 8)
  else if action = 1 ∨ action = 2 ∨ action = 3 ∨ action = 8 ∨ action = 10 ∨ action = 11 ∨
    action = 12 ∨ action = 13 ∨ action = 14 then some (env.bytes 0 4, 8)
  else if action = 4 then some ([0], 12)
  else if action = 5 then some (env.bytes 0 48, 52)
  else if action = 6 then some ([], 4)
  else if action = 7 then some (env.bytes 0 112, 116)
  else if action = 9 ∨ action = 15 then some (env.bytes 0 16, 20)
  else if action = 16 then some ([1], 12)
  else none

/-- The `switch` of `wh_Server_HandleSheRequest`, src/wh_server_she.c:1846-1970: `Sum.inl` a code
without response. -/
def command (cfg : Cfg) (v : Srv) (env : Env) (t : St) (s : Sys) (r : Req) : Rc ⊕ Res :=
  let locked (x : Res) : Rc ⊕ Res := if env.lock = .ok then .inr x else .inl env.lock
  if r.action = 0 then .inr (setUid cfg t s r)
  else if r.action = 1 then locked (sbInit cfg v env t s r)
  else if r.action = 2 then .inr (sbUpdate cfg env t s r)
  else if r.action = 3 then locked (sbFinish cfg v env t s r)
  else if r.action = 4 then .inr (getStatus t s r)
  else if r.action = 5 then locked (loadKey cfg v env t s r)
  else if r.action = 6 then locked (loadPlain cfg v t s r)
  else if r.action = 7 then locked (exportRam cfg v env t s r)
  else if r.action = 8 then locked (initRnd cfg v env t s r)
  else if r.action = 9 then .inr (rnd cfg env t s r)
  else if r.action = 10 then locked (extendSeed cfg v env t s r)
  else if r.action = 11 then locked (cipher cfg v env t s r .encEcb)
  else if r.action = 12 then locked (cipher cfg v env t s r .encCbc)
  else if r.action = 13 then locked (cipher cfg v env t s r .decEcb)
  else if r.action = 14 then locked (cipher cfg v env t s r .decCbc)
  else if r.action = 15 then locked (genMac cfg v env t s r)
  else if r.action = 16 then locked (verifyMac cfg v env t s r)
  else .inl .badargs

/-- The reset at the end of `wh_Server_HandleSheRequest`, src/wh_server_she.c:1972-1983. -/
def resetBoot (action : UInt16) (ret : Rc) (t : St) : St :=
  if (action = 1 ∨ action = 2 ∨ action = 3) ∧ ret ≠ .ok ∧ ret ≠ .sheNoSecureBoot then
    { t with sb := .init, blSize := 0, blRecv := 0, keyFound := false }
  else t

/-- `wh_Server_HandleSheRequest`, src/wh_server_she.c:1823-1986: return code and response packet
(empty if there is none), and the new states. -/
def handle (cfg : Cfg) (v : Srv) (env : Env) (t : St) (s : Sys) (r : Req) : (Rc × List UInt8) × St × Sys :=
  if refused t r.action then
    match refusal env r.action with
    | some (body, size) =>
      ((.ok, over (w32 cfg.le r.magic Rc.sheSequenceError.code ++ body) r.buf size), t, s)
    | none => ((.sheSequenceError, []), t, s)
  else
    match command cfg v env t s r with
    | .inl rc => ((rc, []), resetBoot r.action rc t, s)
    | .inr x => ((.ok, x.packet cfg r), resetBoot r.action x.ret x.st, x.sys)

end WolfHsm.She

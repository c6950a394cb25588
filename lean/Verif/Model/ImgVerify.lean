import Verif.Model.ImgMgr
import Verif.Model.Cert
import Verif.Spec.Keystore

/-!
# The image manager: which key and signature an image is verified with

Models the part of `src/wh_server_img_mgr.c` around the verification methods of
`Model/ImgMgr.lean`, over the key store, the NVM and the certificate manager.

A NULL key or signature is the empty list: every verification method of the repository refuses
both with `BADARGS` (:237-240, :320-333, :388-391, :908-911).  NULL contexts and result pointers
are not modelled.
-/

namespace WolfHsm.ImgMgr

open Keystore (Sys)

/-- `whServerImgMgrVerifyMethod`: those of the repository, or one of the application, which gets
the key and the signature. -/
inductive Method where
  | ecc | cmac | rsa | wolfBoot | wolfBootCert
  | custom (f : (key sig : List UInt8) → Rc)

/-- `whServerImgMgrVerifyAction`: `wh_Server_ImgMgrVerifyActionDefault`
(src/wh_server_img_mgr.c:1140-1149), or one of the application. -/
inductive Action where
  | default
  | custom (f : Rc → Rc)

/-- Call of the action. -/
def Action.run : Action → Rc → Rc
  | .default, rc => rc
  | .custom f, rc => f rc

/-- `whServerImgMgrImgType`, wolfhsm/wh_server_img_mgr.h:53-58; `other` is any other value. -/
inductive ImgType where
  | raw | wolfBoot | wolfBootCert | other
deriving DecidableEq

/-- `whServerImgMgrImg`, wolfhsm/wh_server_img_mgr.h:114-127; `mem` is what `addr`, `size`, `hdrAddr`
and `hdrSize` describe.  `none` is a NULL callback. -/
structure Img where
  mem : Image
  keyId : UInt16
  sigId : UInt16
  type : ImgType
  method : Option Method
  action : Option Action

/-- A zeroed `whServerImgMgrImg`. -/
def Img.zero : Img := ⟨⟨0, [], []⟩, 0, 0, .raw, none, none⟩

/-- What the outside does during one verification. -/
structure Turn (E : Type) where
  env : Env
  x509 : E
  sched : Cert.Sched

/-- Configuration of the server: key store and certificates, the primitives, the size of the signature
buffer (`WOLFHSM_CFG_SERVER_IMG_MGR_MAX_SIG_SIZE`), the size of the image table
(`WOLFHSM_CFG_SERVER_IMG_MGR_MAX_IMG_COUNT`). -/
structure Cfg (E : Type) where
  cert : Cert.Cfg E
  crypto : Crypto
  maxSig : Nat
  maxImg : Nat

/-- The call of `wh_Server_CertVerify`, src/wh_server_img_mgr.c:1089-1092. -/
def chainCall {E : Type} (x : Nat) (t : Turn E) (root : UInt16) (chain : List UInt8) : Cert.Call E :=
  ⟨x, t.x509, t.sched, fun _ => chain, [root], Cert.cacheLeafFlag, Flag.usageVerify⟩

/-- `wh_Server_ImgMgrVerifyMethodWolfBootCertChainRsa4096WithSha256` with the state it works on,
src/wh_server_img_mgr.c:993-1134. -/
def bootCert {E : Type} (cfg : Cfg E) (x : Nat) (t : Turn E) (s : Cert.State) (img : Img) :
    Out (Rc × Cert.State) := do
  match ← mapImage t.env img.mem with
  | .error rc => .val (rc, s)
  | .ok payload =>
    match ← validateAndHash cfg.crypto t.env img.mem.base img.mem.hdr payload with
    | .error rc => .val (rc, s)
    | .ok (hash, sig) =>
      let chain ← fieldAt img.mem.hdr (← find img.mem.base img.mem.hdr 0x23)
      if chain.length = 0 then .val (.notverified, s)
      else match Cert.verifyMulti cfg.cert s (chainCall x t img.sigId chain) chain.length 0 with
        | ((.ok, id), s1) =>
          let f := Keystore.freshen cfg.cert.ks x s1.sys id
          let s2 := { s1 with sys := (Keystore.evictKey cfg.cert.ks x f.2.2 id).2 }
          match f.1, f.2.1 with
          | .ok, some k => do
            let rc ← checkKey cfg.crypto t.env img.mem k.data hash sig
            .val (rc, s2)
          | rc, _ => .val (errRc rc, s2)
        | ((rc, _), s1) => .val (errRc rc, s1)

/-- Call of the verification method, src/wh_server_img_mgr.c:162-169. -/
def callMethod {E : Type} (cfg : Cfg E) (x : Nat) (t : Turn E) (s : Cert.State) (img : Img)
    (key sig : List UInt8) : Out (Rc × Cert.State) :=
  match img.method with
  | none => .val (.nohandler, s)
  | some .ecc => .val (rawEcc cfg.crypto t.env img.mem.payload key sig, s)
  | some .cmac => .val (rawCmac cfg.crypto t.env img.mem.payload key sig, s)
  | some .rsa => .val (rawRsa cfg.crypto t.env img.mem.payload key sig, s)
  | some .wolfBoot => do
    let rc ← wolfBootRsa cfg.crypto t.env img.mem key
    .val (rc, s)
  | some .wolfBootCert => bootCert cfg x t s img
  | some (.custom f) => .val (f key sig, s)

/-- `whServerImgMgrVerifyResult`, wolfhsm/wh_server_img_mgr.h:139-146. -/
structure Verdict where
  method : Rc
  action : Rc
deriving DecidableEq, Repr

/-- Lines 103-105 of src/wh_server_img_mgr.c: the result before anything is known. -/
def Verdict.unknown : Verdict := ⟨.aborted, .aborted⟩

/-- The key from the key store, src/wh_server_img_mgr.c:115-120, 131-136. -/
def loadKey {E : Type} (cfg : Cfg E) (x : Nat) (s : Cert.State) (img : Img) :
    (Rc × List UInt8) × Cert.State :=
  match Keystore.freshen cfg.cert.ks x s.sys img.keyId with
  | (.ok, some k, sys) => ((.ok, k.data), { s with sys := sys })
  | (rc, _, sys) => ((errRc rc, []), { s with sys := sys })

/-- The signature from the NVM, src/wh_server_img_mgr.c:138-155. -/
def loadSig {E : Type} (cfg : Cfg E) (s : Cert.State) (img : Img) : (Rc × List UInt8) × Cert.State :=
  match s.sys.nvm.metadata img.sigId with
  | (.ok, some md) =>
    if md.len.toNat > cfg.maxSig then ((.badargs, []), s)
    else
      let r := s.sys.nvm.read img.sigId 0 md.len.toNat
      (r.1, { s with sys := { s.sys with nvm := r.2 } })
  | (rc, _) => ((errRc rc, []), s)

/-- Lines 162-180 of src/wh_server_img_mgr.c: method, then action. -/
def judge {E : Type} (cfg : Cfg E) (x : Nat) (t : Turn E) (s : Cert.State) (img : Img)
    (key sig : List UInt8) : Out ((Rc × Verdict) × Cert.State) := do
  let (m, s) ← callMethod cfg x t s img key sig
  let a := match img.action with
    | some a => a.run m
    | none => .nohandler
  .val ((.ok, ⟨m, a⟩), s)

/-- `wh_Server_ImgMgrVerifyImg`, src/wh_server_img_mgr.c:83-181: return code and result. -/
def verifyImg {E : Type} (cfg : Cfg E) (x : Nat) (t : Turn E) (s : Cert.State) (img : Img) :
    Out ((Rc × Verdict) × Cert.State) :=
  match img.type with
  | .wolfBoot =>
    match loadKey cfg x s img with
    | ((.ok, key), s) => judge cfg x t s img key []
    | ((rc, _), s) => .val ((rc, .unknown), s)
  | .wolfBootCert => judge cfg x t s img [] []
  | .raw =>
    match loadKey cfg x s img with
    | ((.ok, key), s) =>
      match loadSig cfg s img with
      | ((.ok, sig), s) => judge cfg x t s img key sig
      | ((rc, _), s) => .val ((rc, .unknown), s)
    | ((rc, _), s) => .val ((rc, .unknown), s)
  | .other => .val ((.badargs, .unknown), s)

/-- `wh_Server_ImgMgrInit`, src/wh_server_img_mgr.c:54-81: the image table.  `images` is `none`
for a NULL pointer; it has `count` elements otherwise. -/
def init {E : Type} (cfg : Cfg E) (images : Option (List Img)) (count : Nat) : Rc × List Img :=
  if count > cfg.maxImg then (.badargs, [])
  else match images with
    | some l => (.ok, l.take count)
    | none => (.ok, List.replicate count .zero)

/-- `wh_Server_ImgMgrVerifyImgIdx`, src/wh_server_img_mgr.c:183-192; no result when the index is
out of range. -/
def verifyIdx {E : Type} (cfg : Cfg E) (x : Nat) (t : Turn E) (s : Cert.State) (imgs : List Img)
    (i : Nat) : Out ((Rc × Option Verdict) × Cert.State) :=
  match imgs[i]? with
  | none => .val ((.badargs, none), s)
  | some img => do
    let ((rc, v), s) ← verifyImg cfg x t s img
    .val ((rc, some v), s)

/-- The loop of `wh_Server_ImgMgrVerifyAll`, src/wh_server_img_mgr.c:209-218, from image `i` on. -/
def verifyLoop {E : Type} (cfg : Cfg E) (x : Nat) (t : Nat → Turn E) :
    List Img → Nat → List Verdict → Cert.State → Out ((Rc × Option Nat × List Verdict) × Cert.State)
  | [], _, out, s => .val ((.ok, none, out), s)
  | img :: imgs, i, out, s => do
    let ((rc, v), s) ← verifyImg cfg x (t i) s img
    if rc = .ok then verifyLoop cfg x t imgs (i + 1) (out.set i v) s
    else .val ((rc, some i, out.set i v), s)

/-- `wh_Server_ImgMgrVerifyAll`, src/wh_server_img_mgr.c:194-221.  `out`: the caller's array, with
what is in it before the call; the result also has `*outErrorIdx`, if it is written. -/
def verifyAll {E : Type} (cfg : Cfg E) (x : Nat) (t : Nat → Turn E) (imgs : List Img)
    (out : List Verdict) (s : Cert.State) : Out ((Rc × Option Nat × List Verdict) × Cert.State) :=
  if out.length < imgs.length then .val ((.badargs, none, out), s)
  else verifyLoop cfg x t imgs 0 out s

/-- What happens to a server that verifies images.  `cert`: a request of the certificate group;
its constructors `other` and `restart` stand for what `key` is here, and do nothing. -/
inductive Ev (E : Type) where
  /-- key and NVM requests, loss of power included, and the restart -/
  | key (e : Keystore.Ev)
  | cert (e : Cert.Ev E)
  /-- `wh_Server_ImgMgrVerifyImg` for an image by server context `x` -/
  | image (x : Nat) (t : Turn E) (img : Img)

/-- One event.  Without power only the restart does anything; it starts with an empty cache of
verified certificates (`wh_Server_Init`, `wh_Nvm_Init`).  An access outside a buffer ends the
verification (excluded by `C43_methods_safe`). -/
def step {E : Type} (cfg : Cfg E) (ncfg : NvmServer.Cfg) (s : Cert.State) : Ev E → Cert.State
  | .key (.restart b) =>
    Cert.step cfg.cert s (.restart (Keystore.step cfg.cert.ks ncfg s.sys (.restart b)).2)
  | .key e => Cert.step cfg.cert s (.other (Keystore.step cfg.cert.ks ncfg s.sys e).2)
  | .cert (.other _) => s
  | .cert (.restart _) => s
  | .cert e => if s.sys.nvm.powered then Cert.step cfg.cert s e else s
  | .image x t img =>
    if s.sys.nvm.powered then
      match verifyImg cfg x t s img with
      | .val (_, s') => s'
      | _ => s
    else s

/-- A history. -/
def run {E : Type} (cfg : Cfg E) (ncfg : NvmServer.Cfg) (s : Cert.State) (evs : List (Ev E)) :
    Cert.State := evs.foldl (step cfg ncfg) s

end WolfHsm.ImgMgr

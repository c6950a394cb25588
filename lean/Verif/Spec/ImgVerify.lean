import Verif.Model.ImgVerify
import Verif.Spec.ImgMgr
import Verif.Spec.Cert

/-!
# What it means that an image has been verified (C49)

* `KeyIs`, `SigIs`: the key and the signature the server has under the configured ids;
* `Genuine`: the image is what the configured method promises, about those;
* `Booted`, `Respects`, `Guarded`, `Stable`: the histories considered;
* `Sequence`: images verified one after the other, none of which ends with an error.
-/

namespace WolfHsm.ImgMgr

variable {E : Type}

/-- The bytes of the key under the image's key id, as server context `x` sees it. -/
def KeyIs (cfg : Cfg E) (x : Nat) (s : Cert.State) (img : Img) (key : List UInt8) : Prop :=
  ∃ md, Keystore.view cfg.cert.ks x s.sys img.keyId = some (md, key)

/-- The bytes of the object stored under the image's signature id. -/
def SigIs (s : Cert.State) (img : Img) (sig : List UInt8) : Prop :=
  ∃ md, s.sys.nvm.store img.sigId = some (md, sig)

/-- The image `img` is genuine with respect to what the server holds in state `s`; `log` are the
verifications the certificate library has made.  For a method of the application: the method
has accepted the key and the signature of the configured ids. -/
def Genuine (cfg : Cfg E) (x : Nat) (s : Cert.State) (log : List (List Cert.Der × Cert.Der))
    (img : Img) : Prop :=
  match img.method with
  | none => False
  | some .ecc => ∃ key sig, KeyIs cfg x s img key ∧ SigIs s img sig ∧
      cfg.crypto.eccVerify key sig (cfg.crypto.sha img.mem.payload) = true
  | some .cmac => ∃ key sig, KeyIs cfg x s img key ∧ SigIs s img sig ∧
      key.length = 16 ∧ cfg.crypto.cmac key img.mem.payload = sig
  | some .rsa => ∃ key sig, KeyIs cfg x s img key ∧ SigIs s img sig ∧
      cfg.crypto.rsaRecover key sig = some (cfg.crypto.sha img.mem.payload)
  | some .wolfBoot => ∃ key, KeyIs cfg x s img key ∧
      Acceptable cfg.crypto img.mem.hdr img.mem.payload key
  | some .wolfBootCert => ∃ p chain certs leaf key,
      Field img.mem.hdr 0x23 p chain ∧ Cert.Splits cfg.cert.x509.derLen chain certs ∧
      (∀ d ∈ certs, Cert.Anchored cfg.cert.x509 log
        ([img.sigId].filterMap (Cert.rootBytes s.sys.nvm)) (cfg.cert.x509.hash d)) ∧
      leaf ∈ certs ∧ cfg.cert.x509.pubKey leaf = .ok key ∧
      Acceptable cfg.crypto img.mem.hdr img.mem.payload key
  | some (.custom f) => match img.type with
    | .raw => ∃ key sig, KeyIs cfg x s img key ∧ SigIs s img sig ∧ f key sig = .ok
    | .wolfBoot => ∃ key, KeyIs cfg x s img key ∧ f key [] = .ok
    | .wolfBootCert => f [] [] = .ok
    | .other => False

/-- A server that has just started: empty caches, no verifications yet, and an NVM whose directory
is consistent. -/
structure Booted (s : Cert.State) : Prop where
  global : s.sys.global = s.sys.global.cleared
  loc : ∀ x, s.sys.loc x = (s.sys.loc x).cleared
  pending : s.sys.nvm.pending = none
  dir : ∀ id md bs, s.sys.nvm.store id = some (md, bs) → md.id = id ∧ md.len.toNat = bs.length
  fresh : Cert.Fresh s

/-- One event respects the root ids `P`: requests have fields within the ranges of their C types;
key and NVM requests do not replace root certificates (they may remove them); certificate requests
as in C42. -/
def Respects (cfg : Cfg E) (ncfg : NvmServer.Cfg) (P : UInt16 → Prop) (s : Cert.State) :
    Ev E → Prop
  | .key (.restart _) => True
  | .key e => e.Valid ∧ ∀ r, P r →
      Cert.rootBytes (Keystore.step cfg.cert.ks ncfg s.sys e).2.nvm r = none ∨
      Cert.rootBytes (Keystore.step cfg.cert.ks ncfg s.sys e).2.nvm r = Cert.rootBytes s.sys.nvm r
  | .cert (.other _) => True
  | .cert e => Cert.Respects P s e
  | .image _ _ _ => True

/-- All events of a history do. -/
def Guarded (cfg : Cfg E) (ncfg : NvmServer.Cfg) (P : UInt16 → Prop) : Cert.State → List (Ev E) → Prop
  | _, [] => True
  | s, e :: evs => Respects cfg ncfg P s e ∧ Guarded cfg ncfg P (step cfg ncfg s e) evs

/-- The client memory holding the metadata of a DMA add does not change while the server works
on the request. -/
def Stable : Ev E → Prop
  | .key (.nvm lock r) => (NvmServer.Ev.req lock r).Stable
  | _ => True

/-- The images are verified one after the other, from number `i` on; the state runs from the first to
the last, and none of the verifications returns an error. -/
inductive Sequence (cfg : Cfg E) (x : Nat) (t : Nat → Turn E) :
    Nat → List Img → Cert.State → List Verdict → Cert.State → Prop where
  | nil (i : Nat) (s : Cert.State) : Sequence cfg x t i [] s [] s
  | cons {i : Nat} {img : Img} {imgs : List Img} {s s1 s' : Cert.State} {v : Verdict} {vs : List Verdict} :
      verifyImg cfg x (t i) s img = .val ((.ok, v), s1) → Sequence cfg x t (i + 1) imgs s1 vs s' →
      Sequence cfg x t i (img :: imgs) s (v :: vs) s'

end WolfHsm.ImgMgr

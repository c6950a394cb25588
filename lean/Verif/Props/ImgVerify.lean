import Verif.Proofs.ImgVerifyTop
import Verif.Props.Cert

/-!
# C49: the verdicts of the image manager

`Genuine`, `KeyIs`, `SigIs` and the histories (`Booted`, `Guarded`, `Stable`) are in
Verif/Spec/ImgVerify.lean.
-/

namespace WolfHsm.Props
open ImgMgr
open NvmFlash (Meta)
open Keystore (GoodCfg)

variable {E : Type}

/-! ## A concrete server -/

namespace BootDemo

/-- The library of `CertDemo`, with public keys of four bytes. -/
def x509 : Cert.X509 Nat :=
  { CertDemo.x509 with pubKey := fun d => .ok [d.getD 5 0, d.getD 5 0, d.getD 5 0, d.getD 5 0] }

def cfg : Cfg Nat :=
  { cert := { CertDemo.cfg with x509 := x509 }, crypto := ImgDemo.c, maxSig := 64, maxImg := 4 }

def ncfg : NvmServer.Cfg := Keystore.Demo.ncfg

/-- Key 5 of client 1. -/
def keyId : UInt16 := KeyId.make KeyId.typeCrypto 1 5

/-- The boot key, as provisioned: NONMODIFIABLE and NONDESTROYABLE. -/
def keyMd : Meta := ⟨keyId, 0xFFFF, Flag.nonModifiable ||| Flag.nonDestroyable ||| Flag.usageVerify, 4,
  Keystore.Demo.label⟩

def sigMd : Meta := ⟨0x30, 0xFFFF, 0, 36, Keystore.Demo.label⟩

/-- An ECC signature of the toy scheme. -/
def sign (key payload : List UInt8) : List UInt8 := key ++ ImgDemo.sha payload

def store (md : Meta) : NvmFlash.Store := fun id =>
  if id = keyId then some (md, ImgDemo.key)
  else if id = 0x30 then some (sigMd, sign ImgDemo.key ImgDemo.payload)
  else if id = 0x20 then some (CertDemo.rootMd, CertDemo.rootA)
  else none

/-- The server with the boot key under `md` has just started. -/
def boot (md : Meta) : Cert.State :=
  ⟨⟨⟨store md, none, true, fun _ => .ok, 0⟩, Keystore.Demo.empty, fun _ => Keystore.Demo.empty⟩,
   Cert.VCache.fresh 4, []⟩

theorem booted (md : Meta) (h1 : md.id = keyId) (h2 : md.len = 4) : Booted (boot md) := by
  refine ⟨rfl, fun _ => rfl, rfl, ?_, ?_, rfl⟩
  · intro id m bs h
    change store md id = _ at h
    unfold store at h
    split at h
    · rename_i e; cases h; exact ⟨by rw [e, h1], by rw [h2]; rfl⟩
    · split at h
      · rename_i e; cases h; exact ⟨e.symm, by decide +kernel⟩
      · split at h
        · rename_i e; cases h; exact ⟨e.symm, by decide +kernel⟩
        · cases h
  · intro o ho
    change o ∈ List.replicate 4 none at ho
    exact (List.mem_replicate.1 ho).2

def turn : Turn Nat := ⟨ImgDemo.env, 10, CertDemo.calm⟩

/-- A raw image with an ECC signature. -/
def raw : Img := ⟨⟨0x1000, [], ImgDemo.payload⟩, keyId, 0x30, .raw, some .ecc, some .default⟩

/-- A wolfBoot image. -/
def wolf : Img := ⟨ImgDemo.img, keyId, 0, .wolfBoot, some .wolfBoot, some .default⟩

/-- The header of an image that brings its own chain: below root A, X, and the end certificate L. -/
def chainHead : List UInt8 :=
  ImgDemo.head ++ [0x23, 0, 16, 0] ++ CertDemo.interX ++ CertDemo.leafL

/-- An image that brings its own chain. -/
def chained : Img :=
  ⟨{ base := 0x1000,
     hdr := chainHead ++ [3, 0, 32, 0] ++ ImgDemo.sha (chainHead ++ ImgDemo.payload) ++ [0x10, 0, 32, 0] ++
       ImgDemo.sha [44, 44, 44, 44] ++ [0x20, 0, 0, 2] ++ ImgDemo.sha (chainHead ++ ImgDemo.payload) ++
       List.replicate 480 0 ++ [0, 0, 0, 0, 0],
     payload := ImgDemo.payload }, 0, 0x20, .wolfBootCert, some .wolfBootCert, some .default⟩

/-- Result of verifying one image. -/
def result (s : Cert.State) (img : Img) : Option (Rc × Verdict) :=
  match verifyImg cfg 0 turn s img with
  | .val (r, _) => some r
  | _ => none

/-- Client 1 tries to put another key in place of the boot key and to erase it; the certificate group
is used for the same; then images are verified. -/
def attack : List (Ev Nat) :=
  [.key (.key Keystore.Demo.one .ok (.cache 5 0 Keystore.Demo.label [9, 9, 9, 9])),
   .key (.key Keystore.Demo.one .ok (.erase 5)),
   .key (.nvm .ok (.add ⟨keyId, 0, 0, 4, Keystore.Demo.label⟩ [9, 9, 9, 9])),
   .cert (.erase .ok .ok keyId),
   .image 0 turn chained,
   .image 0 turn raw]

end BootDemo

example : BootDemo.result (BootDemo.boot BootDemo.keyMd) BootDemo.raw = some (.ok, ⟨.ok, .ok⟩) ∧
    BootDemo.result (BootDemo.boot BootDemo.keyMd) BootDemo.wolf = some (.ok, ⟨.ok, .ok⟩) ∧
    BootDemo.result (BootDemo.boot BootDemo.keyMd) BootDemo.chained = some (.ok, ⟨.ok, .ok⟩) := by
  refine ⟨?_, ?_, ?_⟩ <;> decide +kernel

theorem BootDemo.guarded : ImgMgr.Guarded BootDemo.cfg BootDemo.ncfg (fun r => r = 0x20)
    (BootDemo.boot BootDemo.keyMd) BootDemo.attack := by
  refine ⟨⟨by decide, ?_⟩, ⟨by decide, ?_⟩, ⟨by decide, ?_⟩, rfl, trivial, trivial, trivial⟩ <;>
    (rintro r rfl; exact .inr (by decide +kernel))

theorem BootDemo.stable : ∀ e ∈ BootDemo.attack, Stable e := by
  intro e he
  simp only [BootDemo.attack, List.mem_cons, List.not_mem_nil, or_false] at he
  rcases he with rfl | rfl | rfl | rfl | rfl | rfl <;> trivial

/-! ## Accepted images are genuine -/

/-- C49.  After any history of key, NVM, certificate and image events of a server, an image whose
verdict is "the method accepted it" is genuine with respect to the keys, signatures and root
certificates the server holds at that moment under the ids configured for the image; and the call has
returned OK.

Partial: root certificates as in C42 (`Guarded`).  The key is the one the server holds *at that
moment*: see `C49_provisioned_key_decides` for when that is the provisioned one, and
`F_C49_cached_key_replaces_boot_key` for when it is not. -/
theorem C49_accepted_image_is_genuine_partial (cfg : Cfg E) (ncfg : NvmServer.Cfg)
    (hg : GoodCfg cfg.cert.ks) (hb : cfg.cert.ks.bigBufSize < 65536) (P : UInt16 → Prop)
    (s0 : Cert.State) (h0 : Booted s0) (evs : List (Ev E)) (hr : ImgMgr.Guarded cfg ncfg P s0 evs)
    (hp : (run cfg ncfg s0 evs).sys.nvm.powered = true)
    (x : Nat) (t : Turn E) (img : Img) (hP : img.method = some .wolfBootCert → P img.sigId)
    (hlen : img.mem.hdr.length < 2 ^ 32 ∧ img.mem.payload.length < 2 ^ 32)
    (rc : Rc) (v : Verdict) (s' : Cert.State)
    (h : verifyImg cfg x t (run cfg ncfg s0 evs) img = .val ((rc, v), s')) (hv : v.method = .ok) :
    rc = .ok ∧ Genuine cfg x (run cfg ncfg s0 evs) s'.log img :=
  verifyImg_genuine hb ((run_inv hg hb evs s0 (booted_inv h0 hg ncfg) hr).good hp) hP hlen.1 hlen.2 h hv

example : Booted (BootDemo.boot BootDemo.keyMd) ∧
    ImgMgr.Guarded BootDemo.cfg BootDemo.ncfg (fun r => r = 0x20) (BootDemo.boot BootDemo.keyMd) BootDemo.attack ∧
    (run BootDemo.cfg BootDemo.ncfg (BootDemo.boot BootDemo.keyMd) BootDemo.attack).sys.nvm.powered = true ∧
    BootDemo.result (run BootDemo.cfg BootDemo.ncfg (BootDemo.boot BootDemo.keyMd) BootDemo.attack)
      BootDemo.chained = some (.ok, ⟨.ok, .ok⟩) ∧
    BootDemo.chained.mem.hdr.length < 2 ^ 32 ∧ GoodCfg BootDemo.cfg.cert.ks :=
  ⟨BootDemo.booted _ rfl rfl, BootDemo.guarded, by decide +kernel, by decide +kernel, by decide +kernel,
    Keystore.Demo.good⟩

/-! ## Nothing is accepted by default -/

/-- C49.  A verification that returns an error leaves a result that says neither that the method nor
that the action has succeeded; an image without a verification method, an image of a type the server does
not know, and the images of a table that has been initialised without a configuration are never accepted;
and the default action reports what the method has found. -/
theorem C49_fail_closed (cfg : Cfg E) (x : Nat) (t : Turn E) (s s' : Cert.State) (img : Img) (rc : Rc) (v : Verdict)
    (h : verifyImg cfg x t s img = .val ((rc, v), s')) :
    (rc ≠ .ok → v = ⟨.aborted, .aborted⟩) ∧
    (img.method = none → v.method ≠ .ok) ∧
    (img.type = .other → v.method ≠ .ok ∧ v.action ≠ .ok) ∧
    (∀ n, img ∈ (init cfg none n).2 → v.method ≠ .ok ∧ v.action ≠ .ok) ∧
    (img.action = some .default → v.action = v.method) ∧
    (img.action = none → v.action ≠ .ok) := by
  rcases verifyImg_ends h with ⟨h1, rfl⟩ | ⟨rfl, hty, s1, key, sig, hm, ha⟩
  · refine ⟨fun _ => rfl, fun _ => ?_, fun _ => ⟨?_, ?_⟩, fun _ _ => ⟨?_, ?_⟩, fun _ => rfl, fun _ => ?_⟩ <;>
      (intro hc; cases hc)
  · have hnone : img.method = none → v.method ≠ .ok := by
      intro hn hc
      unfold callMethod at hm
      rw [hn] at hm
      injection hm with hm
      injection hm with hm _
      rw [hc] at hm
      cases hm
    have hna : img.action = none → v.action ≠ .ok := by
      intro hn
      rw [ha, hn]
      intro hc
      cases hc
    refine ⟨fun hc => absurd rfl hc, hnone, ?_, ?_, ?_, hna⟩
    · exact fun hc => absurd hc hty
    · intro n hn
      unfold init at hn
      split at hn
      · cases hn
      · have := (List.mem_replicate.1 hn).2
        subst this
        exact ⟨hnone rfl, hna rfl⟩
    · intro hd
      rw [ha, hd]
      rfl

/-- An index outside the table is refused. -/
theorem C49_index (cfg : Cfg E) (x : Nat) (t : Turn E) (s : Cert.State) (imgs : List Img) (i : Nat)
    (h : imgs.length ≤ i) : verifyIdx cfg x t s imgs i = .val ((.badargs, none), s) := by
  unfold verifyIdx
  rw [List.getElem?_eq_none h]

example : BootDemo.result (BootDemo.boot BootDemo.keyMd) { BootDemo.raw with sigId := 0x99 } =
      some (.notfound, ⟨.aborted, .aborted⟩) ∧
    BootDemo.result (BootDemo.boot BootDemo.keyMd) { BootDemo.raw with method := none } =
      some (.ok, ⟨.nohandler, .nohandler⟩) ∧
    (init BootDemo.cfg none 3).2.length = 3 ∧ [BootDemo.raw].length ≤ 1 := by
  refine ⟨?_, ?_, rfl, ?_⟩ <;> decide +kernel

/-- C49.  Whatever the image, the keys and the objects are, a verification ends and accesses nothing
outside the header and the payload. -/
theorem C49_safe (cfg : Cfg E) (x : Nat) (t : Nat → Turn E) (imgs : List Img) (out : List Verdict)
    (s : Cert.State) (hlen : ∀ img ∈ imgs, img.mem.hdr.length < 2 ^ 32) :
    (∃ r, verifyAll cfg x t imgs out s = .val r) ∧
    ∀ img ∈ imgs, ∃ r, verifyImg cfg x (t 0) s img = .val r := by
  refine ⟨?_, fun img hi => verifyImg_val cfg x _ s img (hlen img hi)⟩
  unfold verifyAll
  split
  · exact ⟨_, rfl⟩
  · exact verifyLoop_val cfg x t imgs 0 out s hlen

example : ∀ img ∈ [BootDemo.raw, BootDemo.wolf, BootDemo.chained], img.mem.hdr.length < 2 ^ 32 := by
  intro img hi
  simp only [List.mem_cons, List.not_mem_nil, or_false] at hi
  rcases hi with rfl | rfl | rfl <;> decide +kernel

/-! ## All images -/

/-- C49.  Verifying all images: too small a result array is refused and left alone.  Otherwise the call
returns OK exactly if every image has been verified without an error, and then the results are the verdicts
of the images, in order.  If one of them returns an error, that error is returned with the number of the
image, whose result says that nothing is known; the results of the images before it are their verdicts,
and those after it are what was in the array before the call. -/
theorem C49_verify_all (cfg : Cfg E) (x : Nat) (t : Nat → Turn E) (imgs : List Img)
    (out res : List Verdict) (s s' : Cert.State) (rc : Rc) (idx : Option Nat)
    (h : verifyAll cfg x t imgs out s = .val ((rc, idx, res), s')) :
    (out.length < imgs.length ∧ rc = .badargs ∧ res = out) ∨
    (rc = .ok ∧ idx = none ∧ ∃ vs, Sequence cfg x t 0 imgs s vs s' ∧ res = vs ++ out.drop imgs.length) ∨
    (rc ≠ .ok ∧ ∃ i img vs s1, idx = some i ∧ imgs[i]? = some img ∧
      Sequence cfg x t 0 (imgs.take i) s vs s1 ∧
      verifyImg cfg x (t i) s1 img = .val ((rc, ⟨.aborted, .aborted⟩), s') ∧
      res = vs ++ ⟨.aborted, .aborted⟩ :: out.drop (i + 1)) := by
  unfold verifyAll at h
  split at h
  · next hl => cases h; exact .inl ⟨hl, rfl, rfl⟩
  · next hl =>
    rcases verifyLoop_spec x t imgs [] out s s' rc idx res (by omega) h with
      ⟨h1, h2, vs, h3, h4⟩ | ⟨h1, k, img, vs, s1, h2, h3, h4, h5, h6⟩
    · exact .inr (.inl ⟨h1, h2, vs, h3, by simpa using h4⟩)
    · refine .inr (.inr ⟨h1, k, img, vs, s1, by simpa using h2, h3, h4, ?_, ?_⟩)
      · simpa [Verdict.unknown] using h5
      · simpa [Verdict.unknown] using h6

/-- C49.  In such a sequence every image that is accepted is genuine, in the state in which its turn
comes. -/
theorem C49_all_accepted_genuine_partial (cfg : Cfg E) (ncfg : NvmServer.Cfg)
    (hg : GoodCfg cfg.cert.ks) (hb : cfg.cert.ks.bigBufSize < 65536) (P : UInt16 → Prop)
    (s0 : Cert.State) (h0 : Booted s0) (evs : List (Ev E)) (hr : ImgMgr.Guarded cfg ncfg P s0 evs)
    (hp : (run cfg ncfg s0 evs).sys.nvm.powered = true)
    (x : Nat) (t : Nat → Turn E) (imgs : List Img) (vs : List Verdict) (s' : Cert.State)
    (hP : ∀ img ∈ imgs, img.method = some .wolfBootCert → P img.sigId)
    (hlen : ∀ img ∈ imgs, img.mem.hdr.length < 2 ^ 32 ∧ img.mem.payload.length < 2 ^ 32)
    (h : Sequence cfg x t 0 imgs (run cfg ncfg s0 evs) vs s')
    (k : Nat) (img : Img) (v : Verdict) (hi : imgs[k]? = some img) (hk : vs[k]? = some v)
    (hv : v.method = .ok) :
    ∃ s1 s2, Sequence cfg x t 0 (imgs.take k) (run cfg ncfg s0 evs) (vs.take k) s1 ∧
      verifyImg cfg x (t k) s1 img = .val ((.ok, v), s2) ∧ Genuine cfg x s1 s2.log img := by
  have := seq_genuine hb h ((run_inv hg hb evs s0 (booted_inv h0 hg ncfg) hr).good hp) hP hlen k img v hi
    hk hv
  simpa using this

/-- What the demo server reports for a table of three images, one of which has no signature. -/
def BootDemo.all (imgs : List Img) : Option (Rc × Option Nat × List Verdict) :=
  match verifyAll BootDemo.cfg 0 (fun _ => BootDemo.turn) imgs
    [⟨.ok, .ok⟩, ⟨.ok, .ok⟩, ⟨.ok, .ok⟩, ⟨.ok, .ok⟩] (BootDemo.boot BootDemo.keyMd) with
  | .val (r, _) => some r
  | _ => none

example : BootDemo.all [BootDemo.raw, { BootDemo.raw with sigId := 0x99 }, BootDemo.chained] =
    some (.notfound, some 1, [⟨.ok, .ok⟩, ⟨.aborted, .aborted⟩, ⟨.ok, .ok⟩, ⟨.ok, .ok⟩]) ∧
    BootDemo.all [BootDemo.raw, BootDemo.wolf, BootDemo.chained] =
    some (.ok, none, [⟨.ok, .ok⟩, ⟨.ok, .ok⟩, ⟨.ok, .ok⟩, ⟨.ok, .ok⟩]) := by
  constructor <;> decide +kernel

/-! ## The provisioned key -/

/-- C49.  A verification key provisioned with the flags NONMODIFIABLE and NONDESTROYABLE decides about
the images configured for it: after any history of key requests of any clients, NVM requests, certificate
requests, image verifications, NVM failures, losses of power and restarts, an accepted image is signed
(authenticated) with exactly the provisioned bytes. -/
theorem C49_provisioned_key_decides (cfg : Cfg E) (ncfg : NvmServer.Cfg)
    (hg : GoodCfg cfg.cert.ks) (hb : cfg.cert.ks.bigBufSize < 65536)
    (s0 : Cert.State) (h0 : Booted s0) (evs : List (Ev E))
    (hr : ImgMgr.Guarded cfg ncfg (fun _ => False) s0 evs) (hst : ∀ e ∈ evs, Stable e)
    (hp : (run cfg ncfg s0 evs).sys.nvm.powered = true)
    (x : Nat) (t : Turn E) (img : Img) (md : Meta) (key : List UInt8)
    (hkey : s0.sys.nvm.store img.keyId = some (md, key))
    (hm : hasFlag md.flags Flag.nonModifiable = true) (hd : hasFlag md.flags Flag.nonDestroyable = true)
    (hty : KeyId.typeOf img.keyId ≠ KeyId.typeWrapped ∧ KeyId.typeOf img.keyId ≠ KeyId.typeShe)
    (hnc : img.method ≠ some .wolfBootCert)
    (hlen : img.mem.hdr.length < 2 ^ 32 ∧ img.mem.payload.length < 2 ^ 32)
    (rc : Rc) (v : Verdict) (s' : Cert.State)
    (h : verifyImg cfg x t (run cfg ncfg s0 evs) img = .val ((rc, v), s')) (hv : v.method = .ok) :
    (img.method = some .ecc → ∃ sig, SigIs (run cfg ncfg s0 evs) img sig ∧
      cfg.crypto.eccVerify key sig (cfg.crypto.sha img.mem.payload) = true) ∧
    (img.method = some .cmac → ∃ sig, SigIs (run cfg ncfg s0 evs) img sig ∧
      cfg.crypto.cmac key img.mem.payload = sig) ∧
    (img.method = some .rsa → ∃ sig, SigIs (run cfg ncfg s0 evs) img sig ∧
      cfg.crypto.rsaRecover key sig = some (cfg.crypto.sha img.mem.payload)) ∧
    (img.method = some .wolfBoot → Acceptable cfg.crypto img.mem.hdr img.mem.payload key) ∧
    (∀ f, img.method = some (.custom f) → img.type = .raw →
      ∃ sig, SigIs (run cfg ncfg s0 evs) img sig ∧ f key sig = .ok) := by
  have hi : ImgMgr.Inv cfg (fun _ => False) s0 := booted_inv h0 hg ncfg
  have hbooted : Keystore.Inv3 cfg.cert.ks (prof47 (md, key)) img.keyId s0.sys := by
    refine ⟨?_, ⟨md, key, hkey, rfl, .inl rfl⟩, ?_⟩
    · intro y k hk
      exfalso
      have : ∀ c : Keystore.Cache, c = c.cleared → c.find img.keyId = none := by
        intro c hc
        rw [hc]
        exact Keystore.cleared_find c _
      rw [Keystore.cached_eq] at hk
      unfold Keystore.cacheAt at hk
      split at hk
      · rw [this _ h0.global] at hk; cases hk
      · rw [this _ (h0.loc _)] at hk; cases hk
    · intro m d hpd
      rw [h0.pending] at hpd
      cases hpd
  have hfin := prof47_run (E := E) hg hb (o := (md, key)) hm hd (h0.dir _ _ _ hkey).2 hty evs s0 hi hbooted hr
    hst
  have huniq : ∀ key', KeyIs cfg x (run cfg ncfg s0 evs) img key' → key' = key := by
    rintro key' ⟨md', hv'⟩
    unfold Keystore.view at hv'
    split at hv'
    · rename_i k hk
      cases hv'
      exact (hfin.c x k hk).1
    · obtain ⟨m, d, h1, h2⟩ := hfin.n
      rw [h1] at hv'
      cases hv'
      exact h2.1
  obtain ⟨-, hgen⟩ := verifyImg_genuine hb ((run_inv hg hb evs s0 hi hr).good hp)
    (fun hc => absurd hc hnc) hlen.1 hlen.2 h hv
  unfold Genuine at hgen
  refine ⟨fun e => ?_, fun e => ?_, fun e => ?_, fun e => ?_, fun f e ety => ?_⟩
  · rw [e] at hgen
    obtain ⟨k, sig, h1, h2, h3⟩ := hgen
    exact ⟨sig, h2, huniq k h1 ▸ h3⟩
  · rw [e] at hgen
    obtain ⟨k, sig, h1, h2, _, h3⟩ := hgen
    exact ⟨sig, h2, huniq k h1 ▸ h3⟩
  · rw [e] at hgen
    obtain ⟨k, sig, h1, h2, h3⟩ := hgen
    exact ⟨sig, h2, huniq k h1 ▸ h3⟩
  · rw [e] at hgen
    obtain ⟨k, h1, h3⟩ := hgen
    exact huniq k h1 ▸ h3
  · rw [e, ety] at hgen
    obtain ⟨k, sig, h1, h2, h3⟩ := hgen
    exact ⟨sig, h2, huniq k h1 ▸ h3⟩

/-- The hypotheses are met by the demo server under attack, and the image is accepted. -/
example : ImgMgr.Guarded BootDemo.cfg BootDemo.ncfg (fun _ => False) (BootDemo.boot BootDemo.keyMd) BootDemo.attack ∧
    (∀ e ∈ BootDemo.attack, Stable e) ∧
    (BootDemo.boot BootDemo.keyMd).sys.nvm.store BootDemo.raw.keyId = some (BootDemo.keyMd, ImgDemo.key) ∧
    hasFlag BootDemo.keyMd.flags Flag.nonModifiable = true ∧
    hasFlag BootDemo.keyMd.flags Flag.nonDestroyable = true ∧
    KeyId.typeOf BootDemo.raw.keyId ≠ KeyId.typeWrapped ∧ KeyId.typeOf BootDemo.raw.keyId ≠ KeyId.typeShe ∧
    BootDemo.result (run BootDemo.cfg BootDemo.ncfg (BootDemo.boot BootDemo.keyMd) BootDemo.attack)
      BootDemo.raw = some (.ok, ⟨.ok, .ok⟩) := by
  refine ⟨⟨⟨by decide, ?_⟩, ⟨by decide, ?_⟩, ⟨by decide, ?_⟩, rfl, trivial, trivial, trivial⟩,
    BootDemo.stable, rfl, ?_, ?_, ?_, ?_, ?_⟩
  · exact fun _ h => h.elim
  · exact fun _ h => h.elim
  · exact fun _ h => h.elim
  all_goals decide +kernel

/-! ## Findings -/

/-- F (C49): `wh_Server_ImgMgrVerifyAll` returns OK although an image has been refused; only the
results tell. -/
theorem F_C49_verify_all_ok_although_refused :
    BootDemo.all [BootDemo.raw, { BootDemo.raw with mem := ⟨0x1000, [], [6, 6, 6]⟩ }] =
      some (.ok, none, [⟨.ok, .ok⟩, ⟨.notverified, .notverified⟩, ⟨.ok, .ok⟩, ⟨.ok, .ok⟩]) := by
  decide +kernel

/-- A forged image, signed with the key [9, 9, 9, 9]; the signature is under id 0x31. -/
def BootDemo.forged : Img := { BootDemo.raw with mem := ⟨0x1000, [], [6, 6, 6]⟩, sigId := 0x31 }

/-- The attacker stores the signature. -/
def BootDemo.forge : Ev Nat :=
  .key (.nvm .ok (.add ⟨0x31, 0, 0, 36, Keystore.Demo.label⟩ (BootDemo.sign [9, 9, 9, 9] [6, 6, 6])))

/-- Client 1 caches a key under the number of the boot key. -/
def BootDemo.plant : Ev Nat :=
  .key (.key Keystore.Demo.one .ok (.cache 5 0 Keystore.Demo.label [9, 9, 9, 9]))

/-- F (C49): if the boot key is NONDESTROYABLE only, a client caches another key under its number, without
storing it, and a forged image is accepted. -/
theorem F_C49_cached_key_replaces_boot_key :
    BootDemo.result (run BootDemo.cfg BootDemo.ncfg
        (BootDemo.boot { BootDemo.keyMd with flags := Flag.nonDestroyable ||| Flag.usageVerify })
        [BootDemo.forge, BootDemo.plant]) BootDemo.forged = some (.ok, ⟨.ok, .ok⟩) := by
  decide +kernel

/-- F (C49): if the boot key is NONMODIFIABLE only, the certificate group erases it for a client; then the
same attack works. -/
theorem F_C49_erased_boot_key_replaced :
    BootDemo.result (run BootDemo.cfg BootDemo.ncfg
        (BootDemo.boot { BootDemo.keyMd with flags := Flag.nonModifiable ||| Flag.usageVerify })
        [BootDemo.forge, BootDemo.plant]) BootDemo.forged ≠ some (.ok, ⟨.ok, .ok⟩) ∧
    BootDemo.result (run BootDemo.cfg BootDemo.ncfg
        (BootDemo.boot { BootDemo.keyMd with flags := Flag.nonModifiable ||| Flag.usageVerify })
        [BootDemo.forge, .cert (.erase .ok .ok BootDemo.keyId), BootDemo.plant]) BootDemo.forged =
      some (.ok, ⟨.ok, .ok⟩) := by
  constructor <;> decide +kernel

/-- F (C49, C19, C20): images are accepted with a key that has been revoked and has no usage left. -/
theorem F_C49_revoked_key_verifies :
    (Keystore.handle Keystore.Demo.cfg Keystore.Demo.one (BootDemo.boot BootDemo.keyMd).sys .ok
      (.revoke 5)).1 = .code .ok ∧
    BootDemo.result (run BootDemo.cfg BootDemo.ncfg (BootDemo.boot BootDemo.keyMd)
        [.key (.key Keystore.Demo.one .ok (.revoke 5))]) BootDemo.raw = some (.ok, ⟨.ok, .ok⟩) ∧
    ∃ md, Keystore.view Keystore.Demo.cfg 0 (run BootDemo.cfg BootDemo.ncfg (BootDemo.boot BootDemo.keyMd)
        [.key (.key Keystore.Demo.one .ok (.revoke 5))]).sys BootDemo.keyId = some (md, ImgDemo.key) ∧
      md.flags &&& Keystore.usageAny = 0 :=
  ⟨by decide +kernel, by decide +kernel, Keystore.revokeMeta BootDemo.keyMd, by decide +kernel,
    by decide +kernel⟩

end WolfHsm.Props

import Verif.Proofs.ImgMgr

/-!
# C43: wolfBoot images

`Field`, `Declares`, `Signed` and `Acceptable` (Verif/Spec/ImgMgr.lean) describe the header format
without reference to the scan.  An access outside a buffer is `Out.oob`, a loop that does not end is
`Out.hang`; both differ from every `Out.val`.
-/

namespace WolfHsm.Props
open ImgMgr

/-! ## A concrete image (toy hash and signature scheme) -/

namespace ImgDemo

/-- A toy hash of 32 bytes. -/
def sha (l : List UInt8) : List UInt8 :=
  List.replicate 30 0x5A ++ [UInt8.ofNat l.length, l.foldl (fun a b => a * 31 + b) 7]

/-- A toy signature scheme: the signed block is the beginning of the signature. -/
def c : Crypto :=
  { sha := sha, rsaKeyOk := fun k => decide (k.length = 4),
    rsaRecover := fun _ sig => some (sig.take 32),
    eccKeyOk := fun k => decide (k.length = 4), eccVerify := fun k s h => decide (s = k ++ h),
    cmac := fun k m => (k ++ m).take 16 }

def env : Env := { dma := true, preHdr := .ok, prePayload := .ok, post := .ok, hash1 := .ok, hash2 := .ok }

def key : List UInt8 := [1, 2, 3, 4]
def payload : List UInt8 := [0xAA, 0xBB, 0xCC, 0xDD, 0xEE]

/-- "WOLF", size 5, a version field of three bytes, padding, and the image type. -/
def head : List UInt8 :=
  [0x57, 0x4F, 0x4C, 0x46, 5, 0, 0, 0, 1, 0, 3, 0, 9, 9, 9, 0xFF, 0xFF, 0xFF, 4, 0, 2, 0, 1, 4]

/-- The rest: hash, key hint, signature, end. -/
def tail (hash : List UInt8) : List UInt8 :=
  [3, 0, 32, 0] ++ hash ++ [0x10, 0, 32, 0] ++ sha key ++ [0x20, 0, 0, 2] ++ hash ++
    List.replicate 480 0 ++ [0, 0, 0, 0, 0]

def hdr : List UInt8 := head ++ tail (sha (head ++ payload))

/-- The image; its buffer is longer than the payload. -/
def img : Image := { base := 0x1000, hdr := hdr, payload := payload ++ [1, 2, 3] }

theorem accepted : wolfBootRsa c env img key = .val .ok := by decide +kernel

end ImgDemo

/-! ## The scan -/

/-- For every header content and size, every address and every field type, the scan ends, reads only
inside the header, and a field it returns lies inside the header. -/
theorem C43_scan (base : Nat) (hdr : List UInt8) (t : Nat) :
    ∃ r, find base hdr t = .val r ∧
      ∀ off len, r = some (off, len) → 12 ≤ off ∧ off + len ≤ hdr.length :=
  find_safe base hdr t

/-- The scan returns the first field of the type, exactly if there is one with a value. -/
theorem C43_scan_field (base : Nat) (hb : base % 2 = 0) (hdr : List UInt8) (t : Nat) (ht : t ≠ 0)
    (off : Nat) (v : List UInt8) (hv : v ≠ []) :
    find base hdr t = .val (some (off + 4, v.length)) ∧ (hdr.drop (off + 4)).take v.length = v ↔
      Field hdr t off v := by
  constructor
  · rintro ⟨h, hv'⟩
    obtain ⟨r, hr, hf⟩ := find_found hb hdr ht
    rw [h] at hr
    cases hr
    obtain ⟨p, w, h1, h2, hF⟩ := hf
    have : off = p := by omega
    subst this
    have : v = w := by rw [← hv', h2]; exact hF.value
    rw [this]
    exact hF
  · intro hF
    exact ⟨find_field hb ht hv hF, hF.value⟩

example : find 0x1000 ImgDemo.hdr 0x04 = .val (some (22, 2)) := by decide +kernel
example : Field ImgDemo.hdr 0x04 18 [1, 4] :=
  (C43_scan_field 0x1000 rfl ImgDemo.hdr 0x04 (by decide) 18 [1, 4] (by decide)).1 (by decide +kernel)

/-! ## The methods -/

/-- Verification of a wolfBoot image never reads outside the header, the payload buffer or the
recovered signature block, and always ends. -/
theorem C43_methods_safe (c : Crypto) (env : Env) (img : Image) (key : List UInt8)
    (leaf : List UInt8 → Except Rc (List UInt8)) (hlen : img.hdr.length < 2 ^ 32) :
    (∃ rc, wolfBootRsa c env img key = .val rc) ∧ (∃ rc, wolfBootCert c env img leaf = .val rc) := by
  obtain ⟨rm, em, _⟩ := mapImage_val env img
  constructor
  · unfold wolfBootRsa
    split
    · exact ⟨_, rfl⟩
    rw [em, bind_val]
    match rm with
    | .error rc => exact ⟨_, rfl⟩
    | .ok payload =>
      obtain ⟨rv, ev, _⟩ := validate_val c env img.base img.hdr payload hlen
      dsimp only
      rw [ev, bind_val]
      match rv with
      | .error rc => exact ⟨_, rfl⟩
      | .ok (hash, sig) =>
        obtain ⟨rc, e, _⟩ := checkKey_val c env img key hash sig
        exact ⟨rc, e⟩
  · unfold wolfBootCert
    rw [em, bind_val]
    match rm with
    | .error rc => exact ⟨_, rfl⟩
    | .ok payload =>
      obtain ⟨rv, ev, _⟩ := validate_val c env img.base img.hdr payload hlen
      dsimp only
      rw [ev, bind_val]
      match rv with
      | .error rc => exact ⟨_, rfl⟩
      | .ok (hash, sig) =>
        obtain ⟨r, er, hr⟩ := find_safe img.base img.hdr 0x23
        have hf : ∃ chain, fieldAt img.hdr r = .val chain := by
          match r, hr with
          | none, _ => exact ⟨[], rfl⟩
          | some (off, len), hr => exact ⟨_, rdN_val (hr off len rfl).2⟩
        obtain ⟨chain, ef⟩ := hf
        dsimp only
        rw [er, bind_val, ef, bind_val]
        by_cases hc : chain.length = 0
        · rw [if_pos hc]; exact ⟨_, rfl⟩
        rw [if_neg hc]
        cases leaf chain with
        | error rc => exact ⟨_, rfl⟩
        | ok key =>
          obtain ⟨rc, e, _⟩ := checkKey_val c env img key hash sig
          exact ⟨rc, e⟩

example : ImgDemo.img.hdr.length < 2 ^ 32 := by decide +kernel

/-- A mapped payload has the same declared part. -/
theorem valid_mapped {c : Crypto} {env : Env} {img : Image} {payload hash sig : List UInt8}
    (hm : mapImage env img = .val (.ok payload)) (hv : Valid c img.hdr payload hash sig) :
    Valid c img.hdr img.payload hash sig := by
  obtain ⟨rm, em, hr⟩ := mapImage_val env img
  rw [hm] at em
  cases em
  rcases hr payload rfl with h | ⟨n', hD, hle, he⟩
  · exact h ▸ hv
  · obtain ⟨n, pT, ty, pS, pG, h1, h2, h3, h4, h5, h6, h7, h8, h9⟩ := hv
    have h12 : 12 ≤ img.hdr.length := by have := h6.inside; omega
    have hn : n = n' := by rw [((declares_iff h12 n).1 h1).2, ((declares_iff h12 n').1 (hD h12)).2]
    subst hn
    refine ⟨n, pT, ty, pS, pG, h1, hle, h3, h4, h5, h6, h7, ?_, h9⟩
    rw [h8, he, List.take_take, Nat.min_self]

theorem acceptable_of {c : Crypto} {hdr payload key hash sig : List UInt8}
    (hv : Valid c hdr payload hash sig) {p : Nat} (hk : Field hdr 0x10 p (c.sha key))
    (h32 : (c.sha key).length = 32) (hs : Signed c key sig hash) : Acceptable c hdr payload key := by
  obtain ⟨n, pT, ty, pS, pG, h1, h2, h3, h4, h5, h6, h7, h8, h9, _⟩ := hv
  exact ⟨n, pT, ty, pS, hash, pG, sig, p, h1, h2, h3, h4, h5, h6, h7, h8, hk, h32, h9, hs⟩

/-- An image accepted with a key is acceptable: the hash in its header covers everything before it
and the whole payload of the size the header declares, that payload is inside the buffer, and the
signature in the header is by the key over that hash. -/
theorem C43_accept (c : Crypto) (env : Env) (img : Image) (key : List UInt8)
    (hlen : img.hdr.length < 2 ^ 32) (h : wolfBootRsa c env img key = .val .ok) :
    Acceptable c img.hdr img.payload key := by
  obtain ⟨rm, em, _⟩ := mapImage_val env img
  unfold wolfBootRsa at h
  split at h
  · cases h
  rw [em, bind_val] at h
  match rm, em, h with
  | .error rc, em, h =>
    cases h
    exact absurd em (mapImage_err env img)
  | .ok payload, em, h =>
    obtain ⟨rv, ev, hv⟩ := validate_val c env img.base img.hdr payload hlen
    dsimp only at h
    rw [ev, bind_val] at h
    match rv, ev, hv, h with
    | .error rc, ev, hv, h =>
      cases h
      exact absurd ev (validate_err _ _ _ _ _)
    | .ok (hash, sig), ev, hv, h =>
      obtain ⟨hb, _, hV⟩ := (hv hash sig).1 rfl
      obtain ⟨rc, e, s⟩ := checkKey_val c env img key hash sig
      dsimp only at h
      rw [e] at h
      cases h
      obtain ⟨_, ⟨p, hF⟩, h32, hS⟩ := (s hb).1 rfl
      exact acceptable_of (valid_mapped em hV) hF h32 hS

example : Acceptable ImgDemo.c ImgDemo.hdr (ImgDemo.payload ++ [1, 2, 3]) ImgDemo.key :=
  C43_accept _ _ ImgDemo.img _ (by decide +kernel) ImgDemo.accepted

/-- Conversely every acceptable image is accepted, if the header is at an even address, the address
checks of the DMA layer pass and the hash engine works. -/
theorem C43_accept_iff (c : Crypto) (env : Env) (img : Image) (key : List UInt8)
    (hlen : img.hdr.length < 2 ^ 32) (hb : img.base % 2 = 0) (hkey : key ≠ [])
    (hpre : env.preHdr = .ok) (hprep : env.prePayload = .ok) (hh1 : env.hash1 = .ok)
    (hh2 : env.hash2 = .ok) :
    wolfBootRsa c env img key = .val .ok ↔ Acceptable c img.hdr img.payload key := by
  refine ⟨C43_accept c env img key hlen, ?_⟩
  rintro ⟨n, pT, ty, pS, sha, pG, sig, pK, hD, hle, hT, hT2, hT4, hS, hS32, hSe, hK, hK32, hG, hSig⟩
  have h12 : 12 ≤ img.hdr.length := by have := hS.inside; omega
  have hne : sig ≠ [] := fun h => by have := hSig.1; rw [h] at this; cases this
  obtain ⟨hm, hn⟩ := (declares_iff h12 n).1 hD
  have hmap : ∃ payload, mapImage env img = .val (.ok payload) ∧ n ≤ payload.length ∧
      payload.take n = img.payload.take n := by
    unfold mapImage
    by_cases hd : env.dma = false
    · rw [if_pos hd]; exact ⟨_, rfl, hle, rfl⟩
    rw [if_neg hd, if_neg (not_not_intro hpre)]
    unfold peekImgSize
    rw [if_neg (not_not_intro hb), if_neg (by omega), readLE32_val (by omega), bind_val,
      if_neg (not_not_intro hm), readLE32_val (by omega), bind_val, bind_val]
    dsimp only
    rw [← hn, if_neg (by omega), if_neg (not_not_intro hprep)]
    refine ⟨_, rfl, by rw [List.length_take]; omega, ?_⟩
    rw [List.take_take, Nat.min_self]
  obtain ⟨payload, hmp, hpl, htk⟩ := hmap
  unfold wolfBootRsa
  rw [if_neg (fun h => hkey (List.eq_nil_of_length_eq_zero h)), hmp, bind_val]
  dsimp only
  obtain ⟨rv, ev, hv⟩ := validate_val c env img.base img.hdr payload hlen
  have hrv := (hv sha sig).2 ⟨hb, hh1, n, pT, ty, pS, pG, hD, hpl, hT, hT2, hT4, hS, hS32,
    by rw [htk]; exact hSe, hG, hne⟩
  subst hrv
  rw [ev, bind_val]
  dsimp only
  obtain ⟨rc, e, s⟩ := checkKey_val c env img key sha sig
  rw [e, (s hb).2 ⟨hh2, ⟨pK, hK⟩, hK32, hSig⟩]

/-- The method with a certificate chain accepts only if the chain in the header leads to a trusted
leaf key and the image is acceptable with that key. -/
theorem C43_accept_cert (c : Crypto) (env : Env) (img : Image)
    (leaf : List UInt8 → Except Rc (List UInt8)) (hlen : img.hdr.length < 2 ^ 32)
    (h : wolfBootCert c env img leaf = .val .ok) :
    ∃ p chain key, Field img.hdr 0x23 p chain ∧ leaf chain = .ok key ∧
      Acceptable c img.hdr img.payload key := by
  unfold wolfBootCert at h
  obtain ⟨rm, em, h⟩ := bind_eq h
  match rm, em, h with
  | .error rc, em, h =>
    cases h
    exact absurd em (mapImage_err env img)
  | .ok payload, em, h =>
    obtain ⟨rv, ev, h⟩ := bind_eq h
    obtain ⟨rv', ev', hv⟩ := validate_val c env img.base img.hdr payload hlen
    rw [ev] at ev'
    cases ev'
    match rv, ev, hv, h with
    | .error rc, ev, hv, h =>
      cases h
      exact absurd ev (validate_err _ _ _ _ _)
    | .ok (hash, sig), ev, hv, h =>
      obtain ⟨hb, _, hV⟩ := (hv hash sig).1 rfl
      obtain ⟨r, er, h⟩ := bind_eq h
      obtain ⟨chain, ec, h⟩ := bind_eq h
      by_cases hc : chain.length = 0
      · rw [if_pos hc] at h; cases h
      rw [if_neg hc] at h
      have hF : ∃ p, Field img.hdr 0x23 p chain := by
        obtain ⟨r', er', fr⟩ := find_found hb img.hdr (t := 0x23) (by decide)
        rw [er] at er'
        cases er'
        match r, fr, ec with
        | none, _, ec => cases ec; exact absurd rfl hc
        | some (off, len), fr, ec =>
          obtain ⟨p, v, rfl, rfl, hF⟩ := fr
          have := field_read hF
          rw [show fieldAt img.hdr (some (p + 4, v.length)) = rdN img.hdr (p + 4) v.length from rfl,
            this] at ec
          cases ec
          exact ⟨p, hF⟩
      obtain ⟨p, hF⟩ := hF
      cases hl : leaf chain with
      | error rc =>
        rw [hl] at h
        dsimp only at h
        split at h
        · cases h
        · rename_i hne; cases h; exact absurd rfl hne
      | ok key =>
        rw [hl] at h
        obtain ⟨rc, e, s⟩ := checkKey_val c env img key hash sig
        dsimp only at h
        rw [e] at h
        cases h
        obtain ⟨_, ⟨pk, hK⟩, h32, hS⟩ := (s hb).1 rfl
        exact ⟨p, chain, key, hF, hl, acceptable_of (valid_mapped em hV) hK h32 hS⟩

/-! ## Accepted images with the same signature -/

/-- A signature determines the digest. -/
theorem signed_digest {c : Crypto} {key sig d d' : List UInt8} (h : Signed c key sig d)
    (h' : Signed c key sig d') (hl : d.length = d'.length) : d = d' := by
  obtain ⟨_, _, b, hb, ho⟩ := h
  obtain ⟨_, _, b', hb', ho'⟩ := h'
  rw [hb] at hb'
  cases hb'
  rcases ho with ho | ⟨hlt, ho⟩ <;> rcases ho' with ho' | ⟨hlt', ho'⟩
  · exact ho.symm.trans ho'
  · rw [ho] at hlt'; omega
  · rw [ho'] at hlt; omega
  · obtain ⟨j, e, hd⟩ := (lax_iff b d).1 ho
    obtain ⟨j', e', hd'⟩ := (lax_iff b d').1 ho'
    rw [e, hl] at e'
    have ej : j = j' := by injection e' with e'; injection e' with e'; injection e'
    subst ej
    rw [← hd, ← hd', hl]

/-- A signature is good for one image only: two images accepted with the same key and carrying the
same signature have the same header up to the hash and the same payload, unless the hash collides on
the two. -/
theorem C43_one_image (c : Crypto) (key sig h1 p1 h2 p2 : List UInt8) (pG1 pG2 : Nat)
    (hcol : ∀ a b, Hashed h1 p1 a → Hashed h2 p2 b → c.sha a = c.sha b → a = b) (ha1 : Acceptable c h1 p1 key)
    (ha2 : Acceptable c h2 p2 key) (hG1 : Field h1 0x20 pG1 sig) (hG2 : Field h2 0x20 pG2 sig) :
    ∃ n pS sha, Declares h1 n ∧ Declares h2 n ∧ p1.take n = p2.take n ∧
      Field h1 0x03 pS sha ∧ Field h2 0x03 pS sha ∧ h1.take pS = h2.take pS := by
  obtain ⟨n, pT, ty, pS, sha, pG, g, pK, hD, hle, _, _, _, hS, hS32, hSe, _, _, hG, hSig⟩ := ha1
  obtain ⟨n', pT', ty', pS', sha', pG', g', pK', hD', hle', _, _, _, hS', hS32', hSe', _, _, hG',
    hSig'⟩ := ha2
  have eg := (field_unique hG hG1).2
  have eg' := (field_unique hG' hG2).2
  subst eg
  subst eg'
  have ed := signed_digest hSig hSig' (by rw [hS32, hS32'])
  subst ed
  have hcat : h1.take pS ++ p1.take n = h2.take pS' ++ p2.take n' :=
    hcol _ _ ⟨n, pS, sha, hD, hS, rfl⟩ ⟨n', pS', sha, hD', hS', rfl⟩ (hSe ▸ hSe')
  have g1 := hS.inside
  have g2 := hS'.inside
  have c1 := chain_ge hS.chain
  have c2 := chain_ge hS'.chain
  have l1 : (h1.take pS).length = pS := by rw [List.length_take]; omega
  have l2 : (h2.take pS').length = pS' := by rw [List.length_take]; omega
  have hw : ∀ i, i < 8 → h1.getD i 0 = h2.getD i 0 := by
    intro i hi
    have := congrArg (fun l : List UInt8 => l.getD i 0) hcat
    have e1 : (h1.take pS ++ p1.take n).getD i 0 = h1.getD i 0 := by
      rw [List.getD_eq_getElem?_getD, List.getElem?_append_left (by omega),
        List.getElem?_take_of_lt (by omega), ← List.getD_eq_getElem?_getD]
    have e2 : (h2.take pS' ++ p2.take n').getD i 0 = h2.getD i 0 := by
      rw [List.getD_eq_getElem?_getD, List.getElem?_append_left (by omega),
        List.getElem?_take_of_lt (by omega), ← List.getD_eq_getElem?_getD]
    exact e1.symm.trans (this.trans e2)
  have hn : n = n' := by
    rw [hD.2, hD'.2]
    unfold word
    rw [hw 4 (by omega), hw (4 + 1) (by omega), hw 6 (by omega), hw (6 + 1) (by omega)]
  subst hn
  have hl : pS = pS' := by
    have := congrArg List.length hcat
    rw [List.length_append, List.length_append, l1, l2, List.length_take, List.length_take] at this
    omega
  subst hl
  obtain ⟨e1, e2⟩ := List.append_inj hcat (by rw [l1, l2])
  exact ⟨n, pS, sha, hD, hD', e2, hS, hS', e1⟩

example : ∃ n pS sha, Declares ImgDemo.hdr n ∧ Declares ImgDemo.hdr n ∧
    (ImgDemo.payload ++ [1, 2, 3]).take n = (ImgDemo.payload ++ [1, 2, 3]).take n ∧
    Field ImgDemo.hdr 0x03 pS sha ∧ Field ImgDemo.hdr 0x03 pS sha ∧
    ImgDemo.hdr.take pS = ImgDemo.hdr.take pS := by
  have ha := C43_accept _ _ ImgDemo.img _ (by decide +kernel) ImgDemo.accepted
  have hG : Field ImgDemo.hdr 0x20 96 ((ImgDemo.hdr.drop 100).take 512) :=
    (C43_scan_field 0 rfl ImgDemo.hdr 0x20 (by decide) 96 _ (by decide +kernel)).1 (by decide +kernel)
  refine C43_one_image _ _ _ _ _ _ _ 96 96 (fun a b h1 h2 _ => ?_) ha ha hG hG
  obtain ⟨n, p, v, hD, hF, rfl⟩ := h1
  obtain ⟨n', p', v', hD', hF', rfl⟩ := h2
  rw [(field_unique hF hF').1, hD.2, hD'.2]

/-! ## Images without a header -/

/-- A raw image is accepted only if the hash over it did not fail and, when it is read by
DMA, both DMA steps succeeded. -/
theorem C43_raw_steps (c : Crypto) (env : Env) (image key sig : List UInt8)
    (h : rawEcc c env image key sig = .ok ∨ rawCmac c env image key sig = .ok ∨
      rawRsa c env image key sig = .ok) :
    env.hash1 = .ok ∧ (env.dma = true → env.prePayload = .ok ∧ env.post = .ok) := by
  have hraw : rawRc env = .ok →
      env.hash1 = .ok ∧ (env.dma = true → env.prePayload = .ok ∧ env.post = .ok) := by
    intro h
    unfold rawRc at h
    split at h
    · next hn => exact absurd h hn.2
    next hn =>
    split at h
    · next hh => exact absurd h hh
    next hh =>
    refine ⟨Decidable.of_not_not hh, fun hd => ⟨Decidable.of_not_not fun hp => hn ⟨hd, hp⟩, ?_⟩⟩
    rw [if_pos hd] at h
    exact h
  rcases h with h | h | h
  · unfold rawEcc at h
    by_cases hr : rawRc env = .ok
    · exact hraw hr
    · repeat' split at h
      all_goals first
        | (cases h; done)
        | exact absurd h hr
        | exact absurd ‹¬rawRc env ≠ .ok› (not_not_intro hr)
  · apply hraw
    unfold rawCmac at h
    unfold rawRc
    split at h
    · cases h
    split at h
    · cases h
    split at h
    · next hn => exact absurd h hn.2
    next hn =>
    split at h
    · next hh => exact absurd h hh
    next hh =>
    split at h
    · cases h
    rw [if_neg hn, if_neg hh]
    exact h
  · unfold rawRsa at h
    by_cases hr : rawRc env = .ok
    · exact hraw hr
    · repeat' split at h
      all_goals first
        | (cases h; done)
        | exact absurd h hr
        | exact absurd ‹¬rawRc env ≠ .ok› (not_not_intro hr)

/-- A raw image below 4 GiB is accepted only if the signature (or MAC) is right for the whole image. -/
theorem C43_raw (c : Crypto) (env : Env) (image key sig : List UInt8) (hlen : image.length < 2 ^ 32) :
    (rawEcc c env image key sig = .ok → c.eccVerify key sig (c.sha image) = true) ∧
    (rawCmac c env image key sig = .ok → key.length = 16 ∧ c.cmac key image = sig) ∧
    (rawRsa c env image key sig = .ok → c.rsaRecover key sig = some (c.sha image)) := by
  have hr : rawBytes image = image := by
    unfold rawBytes; rw [Nat.mod_eq_of_lt hlen, List.take_length]
  refine ⟨fun h => ?_, fun h => ?_, fun h => ?_⟩
  · unfold rawEcc at h
    rw [hr] at h
    split at h
    · cases h
    split at h
    · cases h
    split at h
    · rename_i hn; exact absurd h hn
    split at h
    · assumption
    · cases h
  · unfold rawCmac at h
    rw [hr] at h
    split at h
    · cases h
    rename_i hk
    split at h
    · cases h
    split at h
    · rename_i hn; exact absurd h hn.2
    split at h
    · rename_i hn; exact absurd h hn
    split at h
    · cases h
    · rename_i hm; exact ⟨Decidable.not_not.1 hk, Decidable.not_not.1 hm⟩
  · unfold rawRsa at h
    rw [hr] at h
    split at h
    · cases h
    split at h
    · cases h
    split at h
    · rename_i hn; exact absurd h hn
    split at h
    · cases h
    · rename_i block hb
      split at h
      · cases h
      split at h
      · rename_i e; rw [hb, e]
      · cases h

example : rawEcc ImgDemo.c ImgDemo.env ImgDemo.payload [1, 2, 3, 4]
    ([1, 2, 3, 4] ++ ImgDemo.sha ImgDemo.payload) = .ok := by decide +kernel
example : rawCmac ImgDemo.c ImgDemo.env ImgDemo.payload (List.replicate 16 1) (List.replicate 16 1) =
    .ok := by decide +kernel
example : rawRsa ImgDemo.c ImgDemo.env ImgDemo.payload ImgDemo.key (ImgDemo.sha ImgDemo.payload) =
    .ok := by decide +kernel

/-! ## Findings -/

/-- From 4 GiB on a raw method looks at `size mod 2^32` bytes: two different images get the same
verdict whatever the key and signature. -/
theorem F_raw_size_truncated : ∃ i1 i2 : List UInt8, i1 ≠ i2 ∧
    ∀ c env key sig, rawEcc c env i1 key sig = rawEcc c env i2 key sig ∧
      rawCmac c env i1 key sig = rawCmac c env i2 key sig ∧
      rawRsa c env i1 key sig = rawRsa c env i2 key sig := by
  refine ⟨List.replicate (2 ^ 32) 0, List.replicate (2 ^ 32) 1, fun h => ?_, fun c env key sig => ?_⟩
  · have := congrArg (fun l : List UInt8 => l.head?) h
    simp only [List.head?_replicate] at this
    revert this
    decide
  · have h : ∀ b : UInt8, rawBytes (List.replicate (2 ^ 32) b) = [] := by
      intro b
      unfold rawBytes
      rw [List.length_replicate, Nat.mod_self, List.take_zero]
    unfold rawEcc rawCmac rawRsa
    rw [h 0, h 1]
    exact ⟨rfl, rfl, rfl⟩

/-- The signed block of a wolfBoot image may name any hash algorithm and may be followed by
anything: the padding check that rules out forgeries for small public exponents is missing. -/
theorem F_digest_info_garbage (hash algo garbage : List UInt8) (hh : hash.length = 32)
    (ha : algo.length < 200) :
    checkBlock ([0x30, 0, 0x30, UInt8.ofNat algo.length] ++ algo ++ [0x04, 32] ++ hash ++ garbage) hash =
      .val .ok := by
  obtain ⟨rc, e, s⟩ := checkBlock_val
    ([0x30, 0, 0x30, UInt8.ofNat algo.length] ++ algo ++ [0x04, 32] ++ hash ++ garbage) hash
  rw [e]
  refine congrArg Out.val (s.2 (Or.inr ⟨?_, 0, algo, garbage, by omega, by omega, ?_, ?_⟩))
  · simp; omega
  · simp
  · rw [hh]; rfl

/-- What follows the hash field is not covered by it: the same hash and signature are accepted with
another image type after them. -/
def tailTyped (ty : UInt8) : List UInt8 :=
  let head : List UInt8 := [0x57, 0x4F, 0x4C, 0x46, 5, 0, 0, 0]
  let hash := ImgDemo.sha (head ++ ImgDemo.payload)
  head ++ [3, 0, 32, 0] ++ hash ++ [0x10, 0, 32, 0] ++ ImgDemo.sha ImgDemo.key ++ [0x20, 0, 0, 2] ++
    hash ++ List.replicate 480 0 ++ [4, 0, 2, 0, ty, 4, 0, 0, 0, 0]

theorem F_header_tail_unsigned :
    wolfBootRsa ImgDemo.c ImgDemo.env ⟨0, tailTyped 1, ImgDemo.payload⟩ ImgDemo.key = .val .ok ∧
    wolfBootRsa ImgDemo.c ImgDemo.env ⟨0, tailTyped 2, ImgDemo.payload⟩ ImgDemo.key = .val .ok ∧
    tailTyped 1 ≠ tailTyped 2 := by
  decide +kernel

end WolfHsm.Props

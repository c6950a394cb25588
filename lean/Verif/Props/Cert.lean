import Verif.Proofs.Cert
import Verif.Proofs.CertCache
import Verif.Proofs.CertKeys
import Verif.Proofs.KeystoreDemo
import Verif.Proofs.Nvm

/-!
# C42: the certificate verify cache

Histories contain every certificate request, failing locks and media, power losses, cache
operations of other contexts in the middle of a verification, and arbitrary activity of
the rest of the server.
-/

namespace WolfHsm.Props

open Cert
open NvmFlash (Meta)

variable {E : Type}

/-! ## A concrete library and server for the examples

A toy certificate is `30 06 subject issuer ca key signature expiry`; a signature is the key of
the signer.  The environment is the date. -/

namespace CertDemo

/-- Is the toy certificate `d` signed by one of `store` and not expired? -/
def signed (date : Nat) (store : List Der) (d : Der) : Bool :=
  store.any (fun s => s.getD 2 0 == d.getD 3 0 && s.getD 5 0 == d.getD 6 0) &&
    decide (date ≤ (d.getD 7 0).toNat)

/-- The toy library. -/
def x509 : X509 Nat where
  derLen d := if d.getD 0 0 = 0x30 then .ok (d.getD 1 0).toNat else .error .badargs
  verify date store d := if signed date store d then .ok else .certVerify
  parse d := if d.length = 8 then .ok (d.getD 4 0 == 1) else .error .badargs
  loadCA _ d := if d.length = 8 ∧ d.getD 4 0 = 1 then .ok else .badargs
  hashRc _ _ := .ok
  hash d := d
  pubKey d := .ok [d.getD 5 0]
  acert root d := if root.getD 5 0 = d.getD 6 0 then .ok else .certVerify

/-- The configuration. -/
def cfg : Cfg Nat where
  ks := Keystore.Demo.cfg
  x509 := x509
  caching := true
  globalCache := true
  count := 4
  maxRoots := 4
  maxCert := 64

def rootA : Der := [0x30, 6, 1, 1, 1, 11, 11, 200]
/-- A different root with the same name. -/
def rootB : Der := [0x30, 6, 1, 1, 1, 22, 22, 200]
/-- CA below root A. -/
def interX : Der := [0x30, 6, 2, 1, 1, 33, 11, 50]
/-- CA below X. -/
def interY : Der := [0x30, 6, 4, 2, 1, 55, 33, 200]
/-- End certificate below X. -/
def leafL : Der := [0x30, 6, 3, 2, 0, 44, 33, 200]
/-- A CA nobody has signed. -/
def evil : Der := [0x30, 6, 66, 66, 1, 66, 66, 200]

def rootMd : Meta := ⟨0x20, 0xFFFF, 0, 8, Keystore.Demo.label⟩

/-- No interference, locks work. -/
def calm : Sched := ⟨fun _ => [], fun _ => .ok⟩

/-- Verify `chain` against the root 0x20 (and 0x21). -/
def call (date : Nat) (chain : List UInt8) : Call Nat :=
  ⟨0, date, calm, fun _ => chain, [0x20, 0x21], 0, 0⟩

def boot : State :=
  ⟨⟨⟨fun _ => none, none, true, fun _ => .ok, 0⟩, Keystore.Demo.empty, fun _ => Keystore.Demo.empty⟩,
   VCache.fresh 4, []⟩

def addA : Ev Nat := .add .ok .ok rootMd rootA
def verifyX : Ev Nat := .verify .ok (call 10 interX) 8 0
def verifyXL : Ev Nat := .verify .ok (call 10 (interX ++ leafL)) 16 0

/-- Root ids of the examples. -/
def P (r : UInt16) : Prop := r = 0x20 ∨ r = 0x21

/-- Result code of a verification after a history. -/
def verdict (cfg : Cfg Nat) (evs : List (Ev Nat)) (c : Call Nat) (n : Nat) : Rc :=
  (verifyMulti cfg (run cfg boot evs) c n 0).1.1

/-- The same server built without the cache. -/
def plain : Cfg Nat := { cfg with caching := false }

theorem guarded : Guarded cfg P boot [addA, verifyX, verifyXL] :=
  ⟨rfl, ⟨fun _ => rfl, by decide⟩, ⟨fun _ => rfl, by decide⟩, trivial⟩

end CertDemo

/-! ## The property -/

/-- C42.  After any history that respects the root ids `P`, a verification against roots
from `P` that answers OK has split the chain into certificates each of which is anchored
in the root certificates stored *now* under the given ids: the library has verified it,
in this call or in an earlier one, with a trust store made of those root certificates
and of CA certificates anchored in the same way.

Partial: `Guarded` asks that root certificates under ids of `P` are replaced or erased only by
the certificate requests, with the cache's lock working, and that the chain does not
change while it is read.  `F_root_replaced_by_nvm_add`, `F_root_replaced_lock_failed` and
`F_dma_plants_ca` below show that each is needed. -/
theorem C42_accepted_is_anchored_partial (cfg : Cfg E) (P : UInt16 → Prop) (s0 : State)
    (h0 : Fresh s0) (evs : List (Ev E)) (hg : Guarded cfg P s0 evs)
    (c : Call E) (n : Nat) (keyId : UInt16) (hm : ∀ k, c.mem k = c.mem 0)
    (hn : n ≤ (c.mem 0).length) (hP : ∀ r ∈ c.roots, P r)
    (hok : (verifyMulti cfg (run cfg s0 evs) c n keyId).1.1 = .ok) :
    ∃ certs, certs ≠ [] ∧ Splits cfg.x509.derLen ((c.mem 0).take n) certs ∧
      ∀ d ∈ certs, Anchored cfg.x509 (verifyMulti cfg (run cfg s0 evs) c n keyId).2.log
        (c.roots.filterMap (rootBytes (run cfg s0 evs).sys.nvm)) (cfg.x509.hash d) := by
  have hi := run_inv evs s0 (fresh_inv h0) hg
  by_cases hp : (run cfg s0 evs).sys.nvm.powered = true
  · exact (verifyMulti_inv n keyId (hi hp) hm hn).2.2 hok hP
  · exfalso
    have hp' : (run cfg s0 evs).sys.nvm.powered = false := by simpa using hp
    -- without power no root can be read
    have hoff : ∀ (ids : List UInt16) (n1 n2 : Nvm) (st st' : List Der) (ld : List UInt16),
        n1.powered = false → loadRoots cfg ids n1 st [] = ((.ok, st', ld), n2) → ld = [] := by
      intro ids
      induction ids with
      | nil =>
        intro n1 n2 st st' ld _ h
        simp only [loadRoots, Prod.mk.injEq] at h
        exact h.1.2.2.symm
      | cons r rs ih =>
        intro n1 n2 st st' ld hof h
        have hro := readTrusted_off cfg.maxCert r cfg.maxCert hof
        unfold loadRoots at h
        split at h
        · exact ih _ _ _ _ _ hof h
        · split at h
          · next he => rw [he] at hro; exact ih _ _ _ _ _ hro h
          · next he =>
            have : ∀ m id b, (readTrusted m n1 id b).1.1 ≠ .ok := by
              intro m id b
              unfold readTrusted Nvm.metadata NvmFlash.Store.info Nvm.read
              rw [hof]
              cases n1.store id with
              | none => dsimp only; split <;> simp
              | some o =>
                dsimp only
                split
                · simp
                · split <;> simp
            exact absurd (by rw [he]) (this cfg.maxCert r cfg.maxCert)
          · next hx he => exact ((by assumption : _ → False) (congrArg (fun p => p.1.1) h)).elim
    unfold verifyMulti at hok
    split at hok
    · cases hok
    · split at hok
      · next st ld n2 hlr =>
        dsimp only at hok
        rw [if_pos (hoff _ _ _ _ _ _ hp' hlr)] at hok
        cases hok
      · next hx hlr => exact ((by assumption : _ → False) hok).elim

/-- The root is stored, the chain X, L is accepted, and X comes from the cache. -/
example : CertDemo.verdict CertDemo.cfg [CertDemo.addA, CertDemo.verifyX, CertDemo.verifyXL]
    (CertDemo.call 10 (CertDemo.interX ++ CertDemo.leafL)) 16 = .ok := by decide +kernel
example : (run CertDemo.cfg CertDemo.boot
    [CertDemo.addA, CertDemo.verifyX, CertDemo.verifyXL]).log.length = 2 := by decide +kernel

/-- C42, about the certificate itself: if no other certificate the library has verified has
the digest of an accepted certificate, then the library has verified that certificate,
with a trust store of currently stored root certificates and of CA certificates. -/
theorem C42_accepted_was_verified_partial (cfg : Cfg E) (P : UInt16 → Prop) (s0 : State)
    (h0 : Fresh s0) (evs : List (Ev E)) (hg : Guarded cfg P s0 evs)
    (c : Call E) (n : Nat) (keyId : UInt16) (hm : ∀ k, c.mem k = c.mem 0)
    (hn : n ≤ (c.mem 0).length) (hP : ∀ r ∈ c.roots, P r)
    (hok : (verifyMulti cfg (run cfg s0 evs) c n keyId).1.1 = .ok) :
    ∃ certs, certs ≠ [] ∧ Splits cfg.x509.derLen ((c.mem 0).take n) certs ∧
      ∀ d ∈ certs,
        (∀ p ∈ (verifyMulti cfg (run cfg s0 evs) c n keyId).2.log,
          cfg.x509.hash p.2 = cfg.x509.hash d → p.2 = d) →
        ∃ store, (store, d) ∈ (verifyMulti cfg (run cfg s0 evs) c n keyId).2.log ∧
          ∀ s ∈ store, (∃ r ∈ c.roots, rootBytes (run cfg s0 evs).sys.nvm r = some s) ∨
            (cfg.x509.parse s = .ok true ∧
              Anchored cfg.x509 (verifyMulti cfg (run cfg s0 evs) c n keyId).2.log
                (c.roots.filterMap (rootBytes (run cfg s0 evs).sys.nvm)) (cfg.x509.hash s)) := by
  obtain ⟨certs, h1, h2, h3⟩ := C42_accepted_is_anchored_partial cfg P s0 h0 evs hg c n keyId hm hn hP hok
  refine ⟨certs, h1, h2, fun d hd hcol => ?_⟩
  have ha := h3 d hd
  generalize hh : cfg.x509.hash d = h at ha
  cases ha with
  | mk store d' hmem hp ha =>
    obtain rfl : d' = d := hcol _ hmem hh.symm
    refine ⟨store, hmem, fun s hs => ?_⟩
    by_cases hr : s ∈ c.roots.filterMap (rootBytes (run cfg s0 evs).sys.nvm)
    · obtain ⟨r, hr1, hr2⟩ := List.mem_filterMap.1 hr
      exact .inl ⟨r, hr1, hr2⟩
    · exact .inr ⟨hp s hs hr, ha s hs hr⟩

/-- The log is honest: every entry made by a history is a successful call of the library
during one of its verification requests, in that request's environment. -/
theorem C42_log_is_library_calls (cfg : Cfg E) (s0 : State) (h0 : s0.log = [])
    (evs : List (Ev E)) (store : List Der) (d : Der) (h : (store, d) ∈ (run cfg s0 evs).log) :
    ∃ c n k, Ev.verify .ok c n k ∈ evs ∧ cfg.x509.verify c.env store d = .ok := by
  rcases run_log evs s0 h with h | h
  · rw [h0] at h; cases h
  · exact h

/-- The cache never makes a good chain fail: when the server without cache accepts the chain,
the server with any cache contents, locks failing or not, accepts it with the same result:
same key id, same keys and objects. -/
theorem C42_cache_is_transparent (cfg : Cfg E) (s : State) (c : Call E) (n : Nat) (keyId : UInt16)
    (hh : ∀ d, cfg.x509.hashRc c.env d = .ok)
    (hok : (verifyMulti { cfg with caching := false } s c n keyId).1.1 = .ok) :
    (verifyMulti cfg s c n keyId).1 = (verifyMulti { cfg with caching := false } s c n keyId).1 ∧
    (verifyMulti cfg s c n keyId).2.sys =
      (verifyMulti { cfg with caching := false } s c n keyId).2.sys :=
  verifyMulti_sim hh hok

example : (∀ d, CertDemo.cfg.x509.hashRc 10 d = .ok) ∧
    CertDemo.verdict CertDemo.plain [CertDemo.addA]
      (CertDemo.call 10 (CertDemo.interX ++ CertDemo.leafL)) 16 = .ok :=
  ⟨fun _ => rfl, by decide +kernel⟩

/-- With the cache disabled (and left alone), verification is exactly that of a server
without cache. -/
theorem C42_disabled_is_plain (cfg : Cfg E) (s : State) (c : Call E) (n : Nat) (keyId : UInt16)
    (hb : ∀ k, c.sched.before k = []) (he : s.vc.enabled = false) :
    verifyMulti cfg s c n keyId = verifyMulti { cfg with caching := false } s c n keyId :=
  verifyMulti_disabled hb he

example : (run CertDemo.cfg CertDemo.boot
    [CertDemo.addA, CertDemo.verifyX, .enable .ok .ok false]).vc.enabled = false := by
  decide +kernel

/-- In every history a disabled cache is empty, also when it is disabled by another context in
the middle of a verification: nothing verified before (or while) it is disabled is taken
from the cache once it is enabled again. -/
theorem C42_disabled_is_empty (cfg : Cfg E) (s0 : State) (h0 : s0.vc.Empty) (evs : List (Ev E))
    (h : (run cfg s0 evs).vc.enabled = false) : (run cfg s0 evs).vc.Empty :=
  run_kept kept_disabled cfg evs s0 (fun _ => h0) h

/-- A chain verified while another context disables the cache after the lookup. -/
def CertDemo.disabledMidway : Call Nat :=
  { CertDemo.call 10 CertDemo.interX with
    sched := ⟨fun k => if k = 2 then [.enable false] else [], fun _ => .ok⟩ }

example : CertDemo.boot.vc.Empty ∧
    (run CertDemo.cfg CertDemo.boot
      [CertDemo.addA, .verify .ok CertDemo.disabledMidway 8 0]).vc.enabled = false := by
  refine ⟨?_, by decide +kernel⟩
  unfold VCache.Empty
  decide +kernel

/-- Clearing the cache and disabling it forget everything: what is accepted afterwards rests
on verifications made afterwards (`C42_accepted_is_anchored_partial` from the state after the
request, with the record of verifications started there). -/
theorem C42_clear_forgets (cfg : Cfg E) (s : State) :
    Fresh { step cfg s (.clear .ok .ok) with log := [] } ∧
    Fresh { step cfg s (.enable .ok .ok false) with log := [] } :=
  ⟨⟨wipe_empty s.vc, rfl⟩, ⟨wipe_empty s.vc, rfl⟩⟩

/-- A chain verification puts at most one kind of key into any key cache, and only when the
client asked for it: the public key of a certificate of the chain, with the flags the
client asked for without the server-only ones.  In particular no client obtains a TRUSTED
key this way, and no cached key changes its bytes or flags. -/
theorem C11_cert_leaf_key_not_trusted (cfg : Cfg E) (s : State) (c : Call E) (n : Nat) (id : UInt16)
    (k : Keystore.CKey) (h : InCache (verifyMulti cfg s c n id).2.sys k) :
    InCache s.sys k ∨
    (c.flags &&& 1 ≠ 0 ∧ hasFlag k.md.flags Flag.trusted = false ∧
      ∃ j off len, LeafKey cfg c.keyFlags (((c.mem j).drop off).take len) k) := by
  rcases verifyMulti_inCache h with h | ⟨hf, j, o, l, hk⟩
  · exact .inl h
  · refine .inr ⟨hf, ?_, j, o, l, hk⟩
    rw [hk.2.1]
    exact Nvm.sanitize_not_trusted ⟨0, 0, c.keyFlags, 0, pubKeyLabel⟩

/-- Such a key, asked for with all flags set. -/
example :
    let c : Call Nat := { CertDemo.call 10 (CertDemo.interX ++ CertDemo.leafL) with
      flags := 1, keyFlags := 0xFFFF, roots := [0x20] }
    let r := verifyMulti CertDemo.cfg (run CertDemo.cfg CertDemo.boot [CertDemo.addA]) c 16 0x1105
    r.1.1 = .ok ∧ ((Keystore.cached CertDemo.cfg.ks 0 r.2.sys 0x1105).map fun k =>
      (k.data, hasFlag k.md.flags Flag.trusted, hasFlag k.md.flags Flag.usageVerify))
      = some ([44], false, true) := by
  exact ⟨by decide +kernel, by decide +kernel⟩

/-- An attribute certificate is accepted only if the library has accepted it with the
certificate stored under the given id now. -/
theorem C42_acert_accepted_by_stored_root (cfg : Cfg E) (n : Nvm) (id : UInt16) (cert : Der)
    (h : (verifyAcert cfg n id cert).1 = .ok) :
    ∃ root, rootBytes n id = some root ∧ cfg.x509.acert root cert = .ok := by
  unfold verifyAcert at h
  split at h
  · next hr => exact ⟨_, readTrusted_ok hr, h⟩
  · next rc _ _ _ hne _ =>
    dsimp only at h
    subst h
    exact (hne rfl).elim

example :
    let n := (run CertDemo.cfg CertDemo.boot [CertDemo.addA]).sys.nvm
    (verifyAcert CertDemo.cfg n 0x20 CertDemo.interX).1 = .ok ∧
    (verifyAcert CertDemo.cfg n 0x20 CertDemo.evil).1 = .certVerify ∧
    (verifyAcert CertDemo.cfg n 0x21 CertDemo.interX).1 = .notfound := by
  exact ⟨by decide +kernel, by decide +kernel, by decide +kernel⟩

/-- What a certificate request can do to a protected object: nothing to a TRUSTED one; a
NONDESTROYABLE one is not erased; a NONMODIFIABLE one is not replaced. -/
theorem C11_cert_requests_keep_protected (cfg : Cfg E) (s : State) (ev : Ev E)
    (hev : (∀ sys, ev ≠ .other sys) ∧ ∀ sys, ev ≠ .restart sys)
    (id : UInt16) (md : Meta) (bs : List UInt8) (h : s.sys.nvm.store id = some (md, bs))
    (hf : hasFlag md.flags Flag.trusted = true ∨
      (hasFlag md.flags Flag.nonDestroyable = true ∧ ∀ nl l m d, ev ≠ .add nl l m d) ∨
      (hasFlag md.flags Flag.nonModifiable = true ∧ ∀ nl l i, ev ≠ .erase nl l i)) :
    (step cfg s ev).sys.nvm.store id = some (md, bs) := by
  cases ev with
  | init lock =>
    simp only [step, certInit]
    split <;> exact h
  | add nl lock m d =>
    simp only [step]
    split
    · unfold addTrusted
      split
      · exact h
      · dsimp only
        rw [evicting_nvm]
        dsimp only
        by_cases hid : id = m.id
        · have hp : s.sys.nvm.checkPolicy .add m.id = .access := by
            rw [← hid]
            refine Nvm.policy_add_refuses h ?_
            rcases hf with hf | hf | hf
            · exact .inr hf
            · exact absurd rfl (hf.2 nl lock m d)
            · exact .inl hf.1
          unfold Nvm.addChecked
          dsimp only
          rw [hp]
          exact h
        · rcases addChecked_cases s.sys.nvm { m with len := UInt16.ofNat d.length }
            (d.take (d.length % 65536)) with ha | ha
          · rw [ha.2 id hid]; exact h
          · unfold Nvm.addChecked Nvm.add
            dsimp only
            repeat' split
            all_goals first
              | exact h
              | (show (NvmFlash.Store.set _ _ _) id = _
                 unfold NvmFlash.Store.set
                 exact (if_neg hid).trans h)
    · exact h
  | erase nl lock i =>
    have go : (s.sys.nvm.destroy [i]).2.store id = some (md, bs) ∨ i = id := by
      by_cases hid : i = id
      · exact .inr hid
      · left
        unfold Nvm.destroy
        repeat' split
        all_goals first
          | exact h
          | (show (NvmFlash.Store.drop _ _) id = _
             unfold NvmFlash.Store.drop
             rw [if_neg (by simpa using fun h => hid h.symm)]; exact h)
    simp only [step]
    split
    · unfold eraseTrusted
      dsimp only
      rcases go with go | rfl
      · repeat' split
        all_goals first
          | exact h
          | (rw [evicting_nvm]; exact go)
      · have hm : s.sys.nvm.metadata i = (.ok, some md) := by
          simp only [Nvm.metadata, NvmFlash.Store.info, h]
        rw [hm]
        dsimp only
        have : hasFlag md.flags (Nvm.serverOnly ||| Flag.nonDestroyable) = true := by
          rcases hf with hf | hf | hf
          · exact Nvm.hasFlag_or_left hf
          · exact Nvm.hasFlag_or_right hf.1
          · exact absurd rfl (hf.2 nl lock i)
        rw [if_pos this]
        exact h
    · exact h
  | verify nl c n k =>
    simp only [step]
    split
    · have hl := loadRoots_store cfg c.roots s.sys.nvm [] []
      unfold verifyMulti
      split
      · exact h
      · split
        · next store loaded n1 hlr =>
          rw [hlr] at hl
          dsimp only at hl ⊢
          split
          · dsimp only; rw [hl]; exact h
          · have : ∀ w, (verifyChain cfg { c with roots := loaded } n w).2.st.sys.nvm
                = w.st.sys.nvm := by
              intro w
              unfold verifyChain
              split
              · rfl
              · exact walk_nvm ..
            have := this ⟨{ s with sys := { s.sys with nvm := n1 } }, store, k⟩
            split
            · next hw => rw [hw] at this; dsimp only at this ⊢; rw [this, hl]; exact h
            · next hw => rw [hw] at this; dsimp only at this ⊢; rw [this, hl]; exact h
        · next hlr => rw [hlr] at hl; dsimp only at hl ⊢; rw [hl]; exact h
    · exact h
  | clear nl lock =>
    simp only [step]
    split <;> exact h
  | enable nl lock b =>
    simp only [step]
    split <;> exact h
  | restart sys => exact absurd rfl (hev.2 sys)
  | other sys => exact absurd rfl (hev.1 sys)

/-- Reading a certificate returns bytes only of an object that is neither NONEXPORTABLE nor
TRUSTED, and returns that object's bytes. -/
theorem C10_cert_read_is_exportable (maxCert : Nat) (n : Nvm) (nvmLock : Rc) (id : UInt16)
    (bufLen : Nat) (h : (readChecked maxCert n nvmLock id bufLen).1.2.2 ≠ []) :
    ∃ md bs, n.store id = some (md, bs) ∧ hasFlag md.flags Flag.nonExportable = false ∧
      hasFlag md.flags Flag.trusted = false ∧ md.len.toNat ≤ bufLen ∧
      (readChecked maxCert n nvmLock id bufLen).1.2.2 = bs.take md.len.toNat := by
  unfold readChecked Nvm.metadata NvmFlash.Store.info at h ⊢
  split at h
  · exact absurd rfl h
  · next hl =>
    simp only [if_neg hl]
    cases hs : n.store id with
    | none => rw [hs] at h; exact absurd rfl h
    | some o =>
      obtain ⟨md, bs⟩ := o
      rw [hs] at h
      dsimp only at h ⊢
      split at h
      · exact absurd rfl h
      · next hfl =>
        simp only [if_neg hfl]
        refine ⟨md, bs, rfl, ?_, ?_, ?_⟩
        · cases hx : hasFlag md.flags Flag.nonExportable with
          | false => rfl
          | true => exact absurd (Nvm.hasFlag_or_left hx) hfl
        · cases hx : hasFlag md.flags Flag.trusted with
          | false => rfl
          | true => exact absurd (Nvm.hasFlag_or_right hx) hfl
        · unfold readTrusted Nvm.metadata NvmFlash.Store.info at h ⊢
          split at h
          · exact absurd rfl h
          · next hb =>
            simp only [if_neg hb, hs] at h ⊢
            split at h
            · exact absurd rfl h
            · next hle =>
              simp only [if_neg hle]
              refine ⟨by omega, ?_⟩
              dsimp only at h
              rcases n.read_result id 0 md.len.toNat with h4 | ⟨-, h4⟩
              · rw [h4] at h ⊢
                simp only [NvmFlash.Store.slice, hs] at h ⊢
                split at h
                · next hc => simp only [if_pos hc]; simp
                · exact absurd rfl h
              · rw [h4] at h; exact absurd rfl h

/-! ## Findings -/

/-- Finding.  A root replaced by an ordinary NVM add request (same ids, same permissions) is
not noticed: X, signed by the old root A, is still accepted although only the unrelated root
B is stored.  Without the cache it is refused. -/
theorem F_root_replaced_by_nvm_add :
    let s := run CertDemo.cfg CertDemo.boot [CertDemo.addA, CertDemo.verifyX]
    let r := NvmServer.handle Keystore.Demo.ncfg s.sys.nvm .ok (.add CertDemo.rootMd CertDemo.rootB)
    r.1 = .simple .ok ∧
    rootBytes r.2 0x20 = some CertDemo.rootB ∧
    CertDemo.verdict CertDemo.cfg
      [CertDemo.addA, CertDemo.verifyX, .other { s.sys with nvm := r.2 }]
      (CertDemo.call 10 CertDemo.interX) 8 = .ok ∧
    CertDemo.verdict CertDemo.plain
      [CertDemo.addA, CertDemo.verifyX, .other { s.sys with nvm := r.2 }]
      (CertDemo.call 10 CertDemo.interX) 8 = .certVerify := by
  refine ⟨by decide +kernel, by decide +kernel, by decide +kernel, by decide +kernel⟩

/-- Finding.  Without the global cache, a root replaced through another server context is
not noticed either: the add is answered OK, the other context's cache is untouched. -/
theorem F_root_replaced_by_other_context :
    let s := run CertDemo.cfg CertDemo.boot [CertDemo.addA, CertDemo.verifyX]
    let other : State := ⟨s.sys, VCache.fresh 4, []⟩
    let r := addTrusted CertDemo.cfg other .ok CertDemo.rootMd CertDemo.rootB
    r.1 = .ok ∧
    CertDemo.verdict CertDemo.cfg [CertDemo.addA, CertDemo.verifyX, .other r.2.sys]
      (CertDemo.call 10 CertDemo.interX) 8 = .ok ∧
    CertDemo.verdict CertDemo.plain [CertDemo.addA, CertDemo.verifyX, .other r.2.sys]
      (CertDemo.call 10 CertDemo.interX) 8 = .certVerify := by
  refine ⟨by decide +kernel, by decide +kernel, by decide +kernel⟩

/-- Finding.  When the cache's lock fails while a root is replaced, the request reports an
error, the root is replaced, and certificates below the old root stay accepted. -/
theorem F_root_replaced_lock_failed :
    let s := run CertDemo.cfg CertDemo.boot [CertDemo.addA, CertDemo.verifyX]
    let r := addTrusted CertDemo.cfg s .aborted CertDemo.rootMd CertDemo.rootB
    r.1 = .aborted ∧ rootBytes r.2.sys.nvm 0x20 = some CertDemo.rootB ∧
    (verifyMulti CertDemo.cfg r.2 (CertDemo.call 10 CertDemo.interX) 8 0).1.1 = .ok := by
  refine ⟨by decide +kernel, by decide +kernel, by decide +kernel⟩

/-- Finding.  A cached CA certificate stays accepted after it has expired (or has been
revoked, or would be refused by the verify callback). -/
theorem F_cached_after_expiry :
    CertDemo.verdict CertDemo.cfg [CertDemo.addA, CertDemo.verifyX]
      (CertDemo.call 60 CertDemo.interX) 8 = .ok ∧
    CertDemo.verdict CertDemo.plain [CertDemo.addA, CertDemo.verifyX]
      (CertDemo.call 60 CertDemo.interX) 8 = .certVerify := by
  exact ⟨by decide +kernel, by decide +kernel⟩

/-- Finding.  The verdict on a chain depends on earlier requests: once X, Y has been verified,
Y is accepted without its issuer X. -/
theorem F_missing_intermediate_accepted :
    CertDemo.verdict CertDemo.cfg
      [CertDemo.addA, .verify .ok (CertDemo.call 10 (CertDemo.interX ++ CertDemo.interY)) 16 0]
      (CertDemo.call 10 CertDemo.interY) 8 = .ok ∧
    CertDemo.verdict CertDemo.cfg [CertDemo.addA]
      (CertDemo.call 10 CertDemo.interY) 8 = .certVerify := by
  exact ⟨by decide +kernel, by decide +kernel⟩

/-- Client memory that shows `evil` when the first certificate is hashed and X at all other
times. -/
def CertDemo.swap (k : Nat) : List UInt8 := if k = 1 then CertDemo.evil else CertDemo.interX

/-- Finding.  The DMA requests hash, verify and parse the chain in client memory one after
the other.  A client that shows a CA of its own to the hash and a good CA to the
verification plants its CA in the cache: from then on the server accepts it, and
everything it signs, from everyone. -/
theorem F_dma_plants_ca :
    let plant : Call Nat := { CertDemo.call 10 [] with mem := CertDemo.swap }
    CertDemo.verdict CertDemo.cfg [CertDemo.addA]
      (CertDemo.call 10 CertDemo.evil) 8 = .certVerify ∧
    CertDemo.verdict CertDemo.cfg [CertDemo.addA, .verify .ok plant 8 0]
      (CertDemo.call 10 CertDemo.evil) 8 = .ok := by
  exact ⟨by decide +kernel, by decide +kernel⟩

/-- Finding.  The public key of an end certificate is put into the key cache before the rest
of the chain is looked at, and stays there when the verification fails. -/
theorem F_leaf_key_kept_on_failure :
    let c : Call Nat := { CertDemo.call 10 (CertDemo.interX ++ CertDemo.leafL ++ CertDemo.evil) with
      flags := 1, roots := [0x20] }
    let r := verifyMulti CertDemo.cfg (run CertDemo.cfg CertDemo.boot [CertDemo.addA]) c 24 0x1105
    r.1.1 = .certVerify ∧
    ((Keystore.cached CertDemo.cfg.ks 0 r.2.sys 0x1105).map fun k => k.data) = some [44] := by
  exact ⟨by decide +kernel, by decide +kernel⟩

/-- Finding.  ERASETRUSTED destroys any object that is not TRUSTED or NONDESTROYABLE: also
a NONMODIFIABLE key, which the NVM requests (C09) and the key requests (C47) protect. -/
theorem F_cert_erase_nonmodifiable :
    let md : Meta := ⟨0x1105, 0xFFFF, Flag.nonModifiable, 3, Keystore.Demo.label⟩
    let s : State := { CertDemo.boot with sys := { CertDemo.boot.sys with
      nvm := (CertDemo.boot.sys.nvm.add md [1, 2, 3]).2 } }
    rootBytes s.sys.nvm 0x1105 = some [1, 2, 3] ∧
    (NvmServer.handle Keystore.Demo.ncfg s.sys.nvm .ok
      (.destroy 1 (Vector.replicate 19 0x1105))).1 = .simple .access ∧
    (eraseTrusted CertDemo.cfg s .ok 0x1105).1 = .ok ∧
    rootBytes (eraseTrusted CertDemo.cfg s .ok 0x1105).2.sys.nvm 0x1105 = none := by
  refine ⟨by decide +kernel, by decide +kernel, by decide +kernel, by decide +kernel⟩

end WolfHsm.Props

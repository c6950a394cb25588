import Verif.Spec.ImgVerify
import Verif.Proofs.ImgMgr
import Verif.Proofs.Cert
import Verif.Proofs.CertKeys
import Verif.Proofs.StatefulSigInv
import Verif.Props.ImgMgr

/-!
# Proofs about the image manager

The leaf key of a verified chain; consistency of the key cache in every history; the invariant of
the cache of verified certificates.
-/

namespace WolfHsm.ImgMgr

open Keystore (Sys CKey WF GoodCfg cached ent)
open NvmFlash (Meta)

variable {E : Type} {k0 : UInt16}

/-! ## Consistency of keys and objects -/

/-- A change of the NVM that keeps the objects. -/
theorem wf_nvm {s : Sys} {n : Nvm} (hw : WF s) (hs : n.store = s.nvm.store)
    (hp : n.pending = s.nvm.pending) : WF { s with nvm := n } :=
  ⟨fun a => by rw [Keystore.cacheAt_nvm]; exact hw.uniq a,
    fun a i k hk => hw.clen a i k (by simpa using hk),
    fun id md bs h => hw.nvm id md bs (by rw [← hs]; exact h),
    fun md bs h => hw.pend md bs (by rw [← hp]; exact h)⟩

theorem read_pending (n : Nvm) (id : UInt16) (off len : Nat) :
    (n.read id off len).2.pending = n.pending := by
  unfold Nvm.read; repeat' split
  all_goals rfl

theorem read_store (n : Nvm) (id : UInt16) (off len : Nat) :
    (n.read id off len).2.store = n.store := by
  unfold Nvm.read; repeat' split
  all_goals rfl

theorem readTrusted_pending (m : Nat) (n : Nvm) (id : UInt16) (b : Nat) :
    (Cert.readTrusted m n id b).2.pending = n.pending := by
  unfold Cert.readTrusted
  repeat' split
  all_goals first | rfl | exact read_pending ..

theorem loadRoots_pending (cfg : Cert.Cfg E) : ∀ (ids : List UInt16) (n : Nvm) (store : List Cert.Der)
    (loaded : List UInt16), (Cert.loadRoots cfg ids n store loaded).2.pending = n.pending := by
  intro ids
  induction ids with
  | nil => intro n _ _; rfl
  | cons r rs ih =>
    intro n store loaded
    have hr := readTrusted_pending cfg.maxCert n r cfg.maxCert
    unfold Cert.loadRoots
    split
    · exact ih _ _ _
    · split
      · next he => rw [he] at hr; exact (ih _ _ _).trans hr
      · next he =>
        rw [he] at hr
        split
        · exact (ih _ _ _).trans hr
        · exact hr
      · next he => rw [he] at hr; exact hr

/-! ## The leaf key -/

/-- The key id of the walk is still `k0`, or it names the public key of a certificate that
satisfies `P`. -/
def Leaf (cfg : Cert.Cfg E) (k0 : UInt16) (x : Nat) (P : Cert.Der → Prop) (w : Cert.Walk) : Prop :=
  w.keyId = k0 ∨
  ∃ k d, P d ∧ cached cfg.ks x w.st.sys w.keyId = some k ∧ cfg.x509.pubKey d = .ok k.data

theorem cacheLeaf_leaf {cfg : Cert.Cfg E} (hb : cfg.ks.bigBufSize < 65536) {c : Cert.Call E}
    {cert : Cert.Der} {w : Cert.Walk} (hw : WF w.st.sys) :
    WF (Cert.cacheLeaf cfg c cert w).2.st.sys ∧
    ((Cert.cacheLeaf cfg c cert w).1 = .ok →
      ∃ k, cached cfg.ks c.ctx (Cert.cacheLeaf cfg c cert w).2.st.sys
          (Cert.cacheLeaf cfg c cert w).2.keyId = some k ∧ cfg.x509.pubKey cert = .ok k.data) := by
  unfold Cert.cacheLeaf
  rcases Keystore.getSlotChecked_or (F := Keystore.Par.any) (cfg := cfg.ks) (x := c.ctx) w.keyId
    cfg.ks.bigBufSize hw trivial with ⟨loc, s', _, hs, e⟩ | ⟨rc, s', hrc, ht, e⟩
  · have hw' : WF s' := hs.frame.wf hw hs.nvm fun k hk => by rw [hs.gone] at hk; cases hk
    rw [e]
    dsimp only
    split
    · next pk hpk =>
      split
      · exact ⟨hw', fun h => by cases h⟩
      · next hlen =>
        dsimp only
        have hf := Keystore.Slotted.filled (md := ⟨w.keyId, 0xFFFF, c.keyFlags &&& ~~~Nvm.serverOnly,
          UInt16.ofNat pk.length, Cert.pubKeyLabel⟩) hs pk
        refine ⟨hf.frame.wf hw hf.nvm fun k hk => ?_, fun _ => ⟨_, hf.entry, hpk⟩⟩
        have he := hf.entry
        dsimp only at he
        rw [he] at hk
        cases hk
        exact UInt16.toNat_ofNat_of_lt' (Nat.lt_of_le_of_lt (Nat.le_of_not_lt hlen) hb)
    · exact ⟨hw', fun h => absurd h (errRc_ne_ok _)⟩
  · rw [e]
    cases rc <;> first | exact absurd rfl hrc | exact ⟨ht.wf hw, fun h => by cases h⟩

theorem leaf_leaf {cfg : Cert.Cfg E} (hb : cfg.ks.bigBufSize < 65536) {c : Cert.Call E}
    {P : Cert.Der → Prop} {cert : Cert.Der} {w : Cert.Walk} (hw : WF w.st.sys) :
    WF (Cert.leaf cfg c cert w).2.st.sys ∧
    ((Cert.leaf cfg c cert w).1 = .ok → P cert → Leaf cfg k0 c.ctx P w →
      Leaf cfg k0 c.ctx P (Cert.leaf cfg c cert w).2) := by
  unfold Cert.leaf
  split
  · exact ⟨hw, fun _ _ h => h⟩
  · split
    · split
      · next id _ =>
        have := cacheLeaf_leaf (c := c) (cert := cert) (w := { w with keyId := id }) hb hw
        exact ⟨this.1, fun h hp _ => have ⟨k, h1, h2⟩ := this.2 h; .inr ⟨k, cert, hp, h1, h2⟩⟩
      · exact ⟨hw, fun h => absurd h (errRc_ne_ok _)⟩
    · have := cacheLeaf_leaf (c := c) (cert := cert) (w := w) hb hw
      exact ⟨this.1, fun h hp _ => have ⟨k, h1, h2⟩ := this.2 h; .inr ⟨k, cert, hp, h1, h2⟩⟩

theorem accepted_leaf {cfg : Cert.Cfg E} (hb : cfg.ks.bigBufSize < 65536) {c : Cert.Call E}
    {P : Cert.Der → Prop} {i off len : Nat} {h : Option (List UInt8)} {w : Cert.Walk}
    (hw : WF w.st.sys) :
    WF (Cert.accepted cfg c i off len h w).2.st.sys ∧
    ((Cert.accepted cfg c i off len h w).1 = .ok → P (c.bytes (5 * i + 4) off len) →
      Leaf cfg k0 c.ctx P w → Leaf cfg k0 c.ctx P (Cert.accepted cfg c i off len h w).2) := by
  unfold Cert.accepted
  split
  · exact ⟨hw, fun h => absurd h (errRc_ne_ok _)⟩
  · dsimp only
    split
    · split <;> exact ⟨hw, fun _ _ h => h⟩
    · exact ⟨hw, fun _ _ h => h⟩
  · exact leaf_leaf hb hw

theorem verifyBuffer_keyId (cfg : Cert.Cfg E) (c : Cert.Call E) (w : Cert.Walk) (d : Cert.Der) :
    (Cert.verifyBuffer cfg c w d).2.keyId = w.keyId := by
  unfold Cert.verifyBuffer; split <;> rfl

theorem checkCert_keyId (cfg : Cert.Cfg E) (c : Cert.Call E) (i off len : Nat) (w : Cert.Walk) :
    (Cert.checkCert cfg c i off len w).2.2.keyId = w.keyId := by
  unfold Cert.checkCert
  dsimp only
  repeat' split
  all_goals first
    | rfl
    | (rw [verifyBuffer_keyId])

theorem Leaf.congr {cfg : Cert.Cfg E} {x : Nat} {P : Cert.Der → Prop} {w w' : Cert.Walk}
    (h : Leaf cfg k0 x P w) (h1 : w'.st.sys = w.st.sys) (h2 : w'.keyId = w.keyId) : Leaf cfg k0 x P w' := by
  unfold Leaf at h ⊢
  rw [h1, h2]; exact h

theorem splits_inv {derLen : Cert.Der → Except Rc Nat} {b : List UInt8} {certs : List Cert.Der} {n : Nat}
    (h : Cert.Splits derLen b certs) (hne : b ≠ []) (hn : derLen b = .ok n) :
    ∃ cs, certs = b.take (n + 2) :: cs ∧ Cert.Splits derLen (b.drop (n + 2)) cs := by
  cases h with
  | nil => exact absurd rfl hne
  | cons _ hd _ hs =>
    rw [hn] at hd
    cases hd
    exact ⟨_, rfl, hs⟩

theorem walk_leaf {cfg : Cert.Cfg E} (hb : cfg.ks.bigBufSize < 65536) {c : Cert.Call E}
    (hm : ∀ k, c.mem k = c.mem 0) {P : Cert.Der → Prop} :
    ∀ (fuel i off rem : Nat) (w : Cert.Walk), WF w.st.sys → rem ≤ fuel →
    off + rem ≤ (c.mem 0).length →
    WF (Cert.walk cfg c fuel i off rem w).2.st.sys ∧
    ((Cert.walk cfg c fuel i off rem w).1 = .ok → ∀ certs, Cert.Splits cfg.x509.derLen (c.bytes 0 off rem) certs →
      (∀ d ∈ certs, P d) → Leaf cfg k0 c.ctx P w →
      Leaf cfg k0 c.ctx P (Cert.walk cfg c fuel i off rem w).2) := by
  intro fuel
  induction fuel with
  | zero => intro i off rem w hw _ _; exact ⟨hw, fun _ _ _ _ h => h⟩
  | succ fuel ih =>
    intro i off rem w hw hf ho
    unfold Cert.walk
    by_cases hr : rem = 0
    · rw [if_pos hr]; exact ⟨hw, fun _ _ _ _ h => h⟩
    · rw [if_neg hr]
      split
      · exact ⟨hw, fun h => absurd h (errRc_ne_ok _)⟩
      · next k hk =>
        have hk0 : cfg.x509.derLen (c.bytes 0 off rem) = .ok k := by
          rw [← hk]; simp only [Cert.Call.bytes, hm (5 * i)]
        split
        · exact ⟨hw, fun h => by cases h⟩
        · next hle =>
          have hs1 := Cert.checkCert_sys cfg c i off (k + 2) w
          have hk1 := checkCert_keyId cfg c i off (k + 2) w
          split
          · next d w1 hck =>
            rw [hck] at hs1 hk1
            dsimp only at hs1 hk1
            have hac := accepted_leaf (k0 := k0) (c := c) (P := P) (i := i) (off := off) (len := k + 2) (h := d)
              (w := w1) hb (by rw [hs1]; exact hw)
            split
            · next w2 haw =>
              rw [haw] at hac
              have := ih (i + 1) (off + (k + 2)) (rem - (k + 2)) w2 hac.1 (by omega) (by omega)
              refine ⟨this.1, fun he certs hsp hP hl => ?_⟩
              have hne : c.bytes 0 off rem ≠ [] := by
                intro he
                have := congrArg List.length he
                simp only [Cert.Call.bytes, List.length_take, List.length_drop, List.length_nil] at this
                omega
              obtain ⟨cs, rfl, hcs⟩ := splits_inv hsp hne hk0
              have hbyt : c.bytes (5 * i + 4) off (k + 2) = (c.bytes 0 off rem).take (k + 2) := by
                simp only [Cert.Call.bytes, hm (5 * i + 4)]
                rw [Cert.drop_take_take (by omega)]
              have hdr : (c.bytes 0 off rem).drop (k + 2)
                  = c.bytes 0 (off + (k + 2)) (rem - (k + 2)) := by
                simp only [Cert.Call.bytes]
                rw [List.drop_take, List.drop_drop]
              rw [hdr] at hcs
              exact this.2 he cs hcs (fun d hd => hP d (List.mem_cons_of_mem _ hd))
                (hac.2 rfl (by rw [hbyt]; exact hP _ (List.mem_cons_self ..)) (hl.congr hs1 hk1))
            · next w2 hne haw =>
              rw [haw] at hac
              exact ⟨hac.1, fun h => (hne h).elim⟩
          · next w1 hne hck =>
            rw [hck] at hs1
            dsimp only at hs1
            exact ⟨by rw [hs1]; exact hw, fun h => (hne h).elim⟩

theorem verifyMulti_leaf {cfg : Cert.Cfg E} (hb : cfg.ks.bigBufSize < 65536) {s : Cert.State}
    (hw : WF s.sys) {c : Cert.Call E} (hm : ∀ k, c.mem k = c.mem 0) {P : Cert.Der → Prop} {n : Nat}
    (hn : n ≤ (c.mem 0).length) {keyId : UInt16} :
    WF (Cert.verifyMulti cfg s c n keyId).2.sys ∧
    ((Cert.verifyMulti cfg s c n keyId).1.1 = .ok →
      ∀ certs, Cert.Splits cfg.x509.derLen ((c.mem 0).take n) certs → (∀ d ∈ certs, P d) →
      (Cert.verifyMulti cfg s c n keyId).1.2 = keyId ∨
      ∃ k d, P d ∧ cached cfg.ks c.ctx (Cert.verifyMulti cfg s c n keyId).2.sys
        (Cert.verifyMulti cfg s c n keyId).1.2 = some k ∧ cfg.x509.pubKey d = .ok k.data) := by
  have hls := Cert.loadRoots_store cfg c.roots s.sys.nvm [] []
  have hlp := loadRoots_pending cfg c.roots s.sys.nvm [] []
  unfold Cert.verifyMulti
  split
  · exact ⟨hw, fun h => by cases h⟩
  · next h0 =>
    split
    · next store loaded n' hlr =>
      rw [hlr] at hls hlp
      have hw1 := wf_nvm hw hls hlp
      dsimp only at hw1 ⊢
      split
      · exact ⟨hw1, fun h => by cases h⟩
      · next hne =>
        unfold Cert.verifyChain
        rw [if_neg (by rintro (h | h); exacts [h0 (.inl h), hne h])]
        have := walk_leaf (c := { c with roots := loaded }) hb hm (k0 := keyId) (P := P) n 0 0 n
          ⟨{ s with sys := { s.sys with nvm := n' } }, store, keyId⟩ hw1 (Nat.le_refl _)
          (by show 0 + n ≤ (c.mem 0).length; omega)
        split
        · next w e =>
          rw [e] at this
          refine ⟨this.1, fun _ certs hsp hP => ?_⟩
          exact this.2 rfl certs (by simpa only [Cert.Call.bytes, List.drop_zero] using hsp) hP (.inl rfl)
        · next e =>
          rw [e] at this
          exact ⟨this.1, fun h => by cases h⟩
    · next hx hlr =>
      rw [hlr] at hls hlp
      exact ⟨wf_nvm hw hls hlp, fun h => (hx h).elim⟩

/-! ## The certificate-chain method -/

theorem bind_inv {α β : Type} {x : Out α} {f : α → Out β} {b : β} (h : (x >>= f) = .val b) :
    ∃ a, x = .val a ∧ f a = .val b := by
  cases x with
  | val a => exact ⟨a, rfl, h⟩
  | oob => cases h
  | hang => cases h

theorem bootCert_split {cfg : Cfg E} {x : Nat} {t : Turn E} {s s' : Cert.State} {img : Img}
    (h : bootCert cfg x t s img = .val (.ok, s')) :
    ∃ chain id s1 k sys2,
      Cert.verifyMulti cfg.cert s (chainCall x t img.sigId chain) chain.length 0 = ((.ok, id), s1) ∧
      Keystore.freshen cfg.cert.ks x s1.sys id = (.ok, some k, sys2) ∧
      s' = { s1 with sys := (Keystore.evictKey cfg.cert.ks x sys2 id).2 } ∧
      wolfBootCert cfg.crypto t.env img.mem
        (fun c => if c = chain then .ok k.data else .error .aborted) = .val .ok := by
  unfold bootCert at h
  obtain ⟨rm, em, h⟩ := bind_inv h
  match rm, em, h with
  | .error rc, em, h =>
    cases h
    exact absurd em (mapImage_err t.env img.mem)
  | .ok payload, em, h =>
    dsimp only at h
    obtain ⟨rv, ev, h⟩ := bind_inv h
    match rv, ev, h with
    | .error rc, ev, h =>
      cases h
      exact absurd ev (validate_err _ _ _ _ _)
    | .ok (hash, sig), ev, h =>
      dsimp only at h
      obtain ⟨fl, ef, h⟩ := bind_inv h
      obtain ⟨chain, ec, h⟩ := bind_inv h
      split at h
      · cases h
      next hne =>
      split at h
      · next id s1 hv =>
        generalize hf : Keystore.freshen cfg.cert.ks x s1.sys id = f at h
        obtain ⟨frc, fk, fs⟩ := f
        dsimp only at h
        split at h
        · next k =>
          obtain ⟨rc, hc, h⟩ := bind_inv h
          cases h
          refine ⟨chain, id, s1, k, fs, hv, hf, rfl, ?_⟩
          unfold wolfBootCert
          rw [em]
          show (validateAndHash cfg.crypto t.env img.mem.base img.mem.hdr payload >>= _) = _
          rw [ev]
          show (find img.mem.base img.mem.hdr 0x23 >>= _) = _
          rw [ef]
          show (fieldAt img.mem.hdr fl >>= _) = _
          rw [ec]
          show (if chain.length = 0 then _ else _) = _
          rw [if_neg hne]
          show (match (if chain = chain then Except.ok k.data else Except.error Rc.aborted) with
            | Except.error rc => Out.val (if rc = Rc.ok then Rc.aborted else rc)
            | Except.ok key => checkKey cfg.crypto t.env img.mem key hash sig) = _
          rw [if_pos rfl]
          exact hc
        · injection h with h
          exact absurd (congrArg Prod.fst h) (errRc_ne_ok _)
      · injection h with h
        exact absurd (congrArg Prod.fst h) (errRc_ne_ok _)

theorem freshen_zero (ks : Keystore.Cfg) (x : Nat) (s : Sys) :
    (Keystore.freshen ks x s 0).1 ≠ .ok := by
  unfold Keystore.freshen
  rw [if_pos (by decide)]
  simp

theorem cacheInv_sys {cfg : Cert.Cfg E} {P : UInt16 → Prop} {s : Cert.State} {sys : Sys}
    (h : Cert.CacheInv cfg P s) (hs : sys.nvm.store = s.sys.nvm.store) :
    Cert.CacheInv cfg P { s with sys := sys } := by
  intro hc t ht
  exact (h hc t ht).mono (fun _ h => h) fun r _ _ => .inr (Cert.rootBytes_congr hs r)

theorem freshen_store (ks : Keystore.Cfg) (x : Nat) (s : Sys) (id : UInt16) (hw : WF s) :
    (Keystore.freshen ks x s id).2.2.nvm.store = s.nvm.store := by
  rcases Keystore.freshen_or (cfg := ks) (x := x) id hw with ⟨k, s', e, h⟩ | ⟨rc, s', _, e, h⟩
  · rw [e]
    rcases h with ⟨rfl, _⟩ | ⟨md, bs, _, h⟩
    · rfl
    · exact h.store
  · rw [e]; exact h.store

theorem freshen_wf (ks : Keystore.Cfg) (x : Nat) (s : Sys) (id : UInt16) (hw : WF s) :
    WF (Keystore.freshen ks x s id).2.2 := by
  rcases Keystore.freshen_or (cfg := ks) (x := x) id hw with ⟨k, s', e, h⟩ | ⟨rc, s', _, e, h⟩
  · rw [e]; exact (h.trs (F := .any)).wf hw
  · rw [e]; exact (h.tr (F := .any)).wf hw

theorem evictKey_wf (ks : Keystore.Cfg) (x : Nat) (s : Sys) (id : UInt16) (hw : WF s) :
    WF (Keystore.evictKey ks x s id).2 :=
  (Keystore.evictKey_trs (F := .any) hw trivial trivial).wf hw

/-- What every step preserves. -/
structure Good (cfg : Cfg E) (P : UInt16 → Prop) (s : Cert.State) : Prop where
  wf : WF s.sys
  cache : Cert.CacheInv cfg.cert P s

theorem bootCert_good {cfg : Cfg E} (hb : cfg.cert.ks.bigBufSize < 65536) {P : UInt16 → Prop} {x : Nat}
    {t : Turn E} {s : Cert.State} {img : Img} (h : Good cfg P s) {r : Rc × Cert.State}
    (he : bootCert cfg x t s img = .val r) : Good cfg P r.2 := by
  unfold bootCert at he
  obtain ⟨rm, em, he⟩ := bind_inv he
  split at he
  · cases he; exact h
  · obtain ⟨rv, ev, he⟩ := bind_inv he
    split at he
    · cases he; exact h
    · obtain ⟨fl, ef, he⟩ := bind_inv he
      obtain ⟨chain, ec, he⟩ := bind_inv he
      split at he
      · cases he; exact h
      · have h1 := (verifyMulti_leaf (P := fun _ => True) hb h.wf
          (c := chainCall x t img.sigId chain) (fun _ => rfl) (Nat.le_refl chain.length) (keyId := 0)).1
        have h2 := (Cert.verifyMulti_inv (c := chainCall x t img.sigId chain) chain.length 0 h.cache
          (fun _ => rfl) (Nat.le_refl chain.length)).1
        split at he
        · next id s1 hv =>
          rw [hv] at h1 h2
          dsimp only at he h1 h2
          have hw2 := freshen_wf cfg.cert.ks x s1.sys id h1
          have hg : Good cfg P { s1 with sys :=
              (Keystore.evictKey cfg.cert.ks x (Keystore.freshen cfg.cert.ks x s1.sys id).2.2 id).2 } :=
            ⟨evictKey_wf _ _ _ _ hw2, cacheInv_sys h2 (by
              rw [StatefulSig.evictKey_nvm, freshen_store _ _ _ _ h1])⟩
          split at he
          · obtain ⟨rc, hc, he⟩ := bind_inv he
            cases he; exact hg
          · cases he; exact hg
        · next hv =>
          rw [hv] at h1 h2
          cases he; exact ⟨h1, h2⟩

theorem callMethod_good {cfg : Cfg E} (hb : cfg.cert.ks.bigBufSize < 65536) {P : UInt16 → Prop} {x : Nat}
    {t : Turn E} {s : Cert.State} {img : Img} {key sig : List UInt8} (h : Good cfg P s)
    {r : Rc × Cert.State} (he : callMethod cfg x t s img key sig = .val r) : Good cfg P r.2 := by
  unfold callMethod at he
  split at he
  all_goals first
    | exact bootCert_good hb h he
    | (cases he; exact h)
    | (obtain ⟨_, _, he⟩ := bind_inv he; cases he; exact h)

theorem judge_good {cfg : Cfg E} (hb : cfg.cert.ks.bigBufSize < 65536) {P : UInt16 → Prop} {x : Nat}
    {t : Turn E} {s : Cert.State} {img : Img} {key sig : List UInt8} (h : Good cfg P s)
    {r : (Rc × Verdict) × Cert.State} (he : judge cfg x t s img key sig = .val r) : Good cfg P r.2 := by
  unfold judge at he
  obtain ⟨⟨m, s1⟩, hm, he⟩ := bind_inv he
  cases he
  exact callMethod_good hb h hm

theorem loadKey_state (cfg : Cfg E) (x : Nat) (s : Cert.State) (img : Img) :
    (loadKey cfg x s img).2 =
      { s with sys := (Keystore.freshen cfg.cert.ks x s.sys img.keyId).2.2 } := by
  unfold loadKey
  split
  · next e => rw [e]
  · next e => rw [e]

theorem loadKey_good {cfg : Cfg E} {P : UInt16 → Prop} {x : Nat} {s : Cert.State} {img : Img}
    (h : Good cfg P s) : Good cfg P (loadKey cfg x s img).2 := by
  rw [loadKey_state]
  exact ⟨freshen_wf _ _ _ _ h.wf, cacheInv_sys h.cache (freshen_store _ _ _ _ h.wf)⟩

theorem loadSig_good {cfg : Cfg E} {P : UInt16 → Prop} {s : Cert.State} {img : Img}
    (h : Good cfg P s) : Good cfg P (loadSig cfg s img).2 := by
  unfold loadSig
  split
  · split
    · exact h
    · exact ⟨wf_nvm h.wf (read_store ..) (read_pending ..), cacheInv_sys h.cache (read_store ..)⟩
  · exact h

theorem verifyImg_good {cfg : Cfg E} (hb : cfg.cert.ks.bigBufSize < 65536) {P : UInt16 → Prop} {x : Nat}
    {t : Turn E} {s : Cert.State} {img : Img} (h : Good cfg P s)
    {r : (Rc × Verdict) × Cert.State} (he : verifyImg cfg x t s img = .val r) : Good cfg P r.2 := by
  have hk := loadKey_good (x := x) (img := img) h
  unfold verifyImg at he
  split at he
  · split at he
    · next e => rw [e] at hk; exact judge_good hb hk he
    · next e => rw [e] at hk; cases he; exact hk
  · exact judge_good hb h he
  · split at he
    · next s1 e =>
      rw [e] at hk
      have hs := loadSig_good (img := img) hk
      split at he
      · next e => rw [e] at hs; exact judge_good hb hs he
      · next e => rw [e] at hs; cases he; exact hs
    · next e => rw [e] at hk; cases he; exact hk
  · cases he; exact h

/-! ## Histories -/

theorem add_wf {s : Sys} (hw : WF s) {md : Meta} {d : List UInt8} (hd : d.length < 65536) :
    WF { s with nvm := (s.nvm.addChecked md md d).2 } := by
  have key : (∀ id m bs, (s.nvm.addChecked md md d).2.store id = some (m, bs) →
        m.id = id ∧ m.len.toNat = bs.length) ∧
      ∀ m bs, (s.nvm.addChecked md md d).2.pending = some (m, bs) → bs.length < 65536 := by
    have hset : ∀ id m bs, (s.nvm.store.set (Nvm.sanitize md) d) id = some (m, bs) →
        m.id = id ∧ m.len.toNat = bs.length := by
      intro id m bs h
      unfold NvmFlash.Store.set at h
      split at h
      · next hi =>
        cases h
        exact ⟨hi.symm, UInt16.toNat_ofNat_of_lt' hd⟩
      · exact hw.nvm id m bs h
    unfold Nvm.addChecked
    dsimp only
    split
    · unfold Nvm.add
      split
      · split
        · exact ⟨hset, fun _ _ h => by cases h⟩
        · exact ⟨hw.nvm, fun _ _ h => by cases h; exact hd⟩
        · exact ⟨hw.nvm, hw.pend⟩
        · exact ⟨hset, fun _ _ h => by cases h⟩
        · exact ⟨hw.nvm, hw.pend⟩
      · exact ⟨hw.nvm, hw.pend⟩
    · exact ⟨hw.nvm, hw.pend⟩
  exact ⟨fun a => by rw [Keystore.cacheAt_nvm]; exact hw.uniq a,
    fun a i k hk => hw.clen a i k (by simpa using hk), key.1, key.2⟩

theorem destroy_wf {s : Sys} (hw : WF s) (ids : List UInt16) :
    WF { s with nvm := (s.nvm.destroy ids).2 } := by
  have hdrop : ∀ id m bs, (s.nvm.store.drop ids) id = some (m, bs) →
      m.id = id ∧ m.len.toNat = bs.length := by
    intro id m bs h
    unfold NvmFlash.Store.drop at h
    split at h
    · cases h
    · exact hw.nvm id m bs h
  have key : (∀ id m bs, (s.nvm.destroy ids).2.store id = some (m, bs) →
        m.id = id ∧ m.len.toNat = bs.length) ∧
      ∀ m bs, (s.nvm.destroy ids).2.pending = some (m, bs) → bs.length < 65536 := by
    unfold Nvm.destroy
    split
    · split
      · split
        · exact ⟨hw.nvm, hw.pend⟩
        · exact ⟨hdrop, fun _ _ h => by cases h⟩
      · exact ⟨hdrop, fun _ _ h => by cases h⟩
      · exact ⟨hw.nvm, hw.pend⟩
      · exact ⟨hdrop, fun _ _ h => by cases h⟩
      · exact ⟨hw.nvm, hw.pend⟩
    · exact ⟨hw.nvm, hw.pend⟩
  exact ⟨fun a => by rw [Keystore.cacheAt_nvm]; exact hw.uniq a,
    fun a i k hk => hw.clen a i k (by simpa using hk), key.1, key.2⟩

/-- Requests of the certificate group keep keys and objects consistent. -/
theorem cert_wf {cfg : Cert.Cfg E} (hb : cfg.ks.bigBufSize < 65536) {P : UInt16 → Prop}
    {s : Cert.State} (hw : WF s.sys) {e : Cert.Ev E} (hr : Cert.Respects P s e)
    (h1 : ∀ sys, e ≠ .other sys) (h2 : ∀ sys, e ≠ .restart sys) : WF (Cert.step cfg s e).sys := by
  cases e with
  | init lock => simp only [Cert.step, Cert.certInit]; split <;> exact hw
  | add nl lock md cert =>
    simp only [Cert.step]
    split
    · unfold Cert.addTrusted
      split
      · exact hw
      · dsimp only
        rw [Cert.evicting_nvm]
        exact add_wf hw (by rw [List.length_take]; omega)
    · exact hw
  | erase nl lock id =>
    simp only [Cert.step]
    split
    · unfold Cert.eraseTrusted
      dsimp only
      have : WF (Cert.evicting cfg { s with sys := { s.sys with nvm := (s.sys.nvm.destroy [id]).2 } }
          (s.sys.nvm.destroy [id]).1 lock id).2.sys := by
        rw [Cert.evicting_nvm]; exact destroy_wf hw [id]
      split
      · split
        · exact hw
        · exact this
      · exact this
      · exact hw
    · exact hw
  | verify nl c n k =>
    simp only [Cert.step]
    split
    · exact (verifyMulti_leaf (P := fun _ => True) hb hw hr.1 hr.2).1
    · exact hw
  | clear nl lock => simp only [Cert.step]; split <;> exact hw
  | enable nl lock b => simp only [Cert.step]; split <;> exact hw
  | restart sys => exact absurd rfl (h2 sys)
  | other sys => exact absurd rfl (h1 sys)

/-- The invariant of histories. -/
structure Inv (cfg : Cfg E) (P : UInt16 → Prop) (s : Cert.State) : Prop where
  wf : WF s.sys
  cache : Cert.Inv cfg.cert P s

theorem Inv.good {cfg : Cfg E} {P : UInt16 → Prop} {s : Cert.State} (h : Inv cfg P s)
    (hp : s.sys.nvm.powered = true) : Good cfg P s := ⟨h.wf, h.cache hp⟩

theorem key_off (ks : Keystore.Cfg) (ncfg : NvmServer.Cfg) (s : Sys) (e : Keystore.Ev)
    (hne : ∀ b, e ≠ .restart b) (hp : (Keystore.step ks ncfg s e).2.nvm.powered = true) :
    s.nvm.powered = true := by
  cases e with
  | restart b => exact absurd rfl (hne b)
  | key v lock r =>
    by_cases h : s.nvm.powered = true
    · exact h
    · simp only [Keystore.step, h] at hp; exact hp
  | nvm lock r =>
    by_cases h : s.nvm.powered = true
    · exact h
    · simp only [Keystore.step, h] at hp; exact hp

theorem step_inv {cfg : Cfg E} (hg : GoodCfg cfg.cert.ks) (hb : cfg.cert.ks.bigBufSize < 65536)
    {ncfg : NvmServer.Cfg} {P : UInt16 → Prop} {s : Cert.State} (h : Inv cfg P s) {e : Ev E}
    (hr : Respects cfg ncfg P s e) : Inv cfg P (step cfg ncfg s e) := by
  cases e with
  | key e =>
    by_cases hre : ∃ b, e = .restart b
    · obtain ⟨b, rfl⟩ := hre
      exact ⟨Keystore.step_wf hg ncfg h.wf (e := .restart b) trivial,
        Cert.step_inv (ev := .restart _) h.cache trivial⟩
    · have hne : ∀ b, e ≠ .restart b := fun b he => hre ⟨b, he⟩
      have hr' : e.Valid ∧ ∀ r, P r →
          Cert.rootBytes (Keystore.step cfg.cert.ks ncfg s.sys e).2.nvm r = none ∨
          Cert.rootBytes (Keystore.step cfg.cert.ks ncfg s.sys e).2.nvm r =
            Cert.rootBytes s.sys.nvm r := by
        cases e with
        | restart b => exact absurd rfl (hne b)
        | key _ _ _ => exact hr
        | nvm _ _ => exact hr
      have hst : step cfg ncfg s (.key e) =
          Cert.step cfg.cert s (.other (Keystore.step cfg.cert.ks ncfg s.sys e).2) := by
        cases e with
        | restart b => exact absurd rfl (hne b)
        | key _ _ _ => rfl
        | nvm _ _ => rfl
      rw [hst]
      exact ⟨Keystore.step_wf hg ncfg h.wf hr'.1,
        Cert.step_inv (ev := .other _) h.cache ⟨key_off _ _ _ _ hne, hr'.2⟩⟩
  | cert e =>
    by_cases ho : (∃ sys, e = .other sys) ∨ ∃ sys, e = .restart sys
    · rcases ho with ⟨sys, rfl⟩ | ⟨sys, rfl⟩ <;> exact h
    · have h1 : ∀ sys, e ≠ .other sys := fun y he => ho (.inl ⟨y, he⟩)
      have h2 : ∀ sys, e ≠ .restart sys := fun y he => ho (.inr ⟨y, he⟩)
      have hst : step cfg ncfg s (.cert e) =
          if s.sys.nvm.powered then Cert.step cfg.cert s e else s := by
        cases e <;> first | rfl | exact absurd rfl (h1 _) | exact absurd rfl (h2 _)
      have hr' : Cert.Respects P s e := by
        cases e <;> first | exact hr | exact absurd rfl (h1 _)
      rw [hst]
      split
      · exact ⟨cert_wf hb h.wf hr' h1 h2, Cert.step_inv h.cache hr'⟩
      · exact h
  | image x t img =>
    show Inv cfg P (if s.sys.nvm.powered then
      match verifyImg cfg x t s img with
      | .val (_, s') => s'
      | _ => s
    else s)
    split
    · next hp =>
      split
      · next r s' he =>
        have := verifyImg_good hb (h.good hp) he
        exact ⟨this.wf, fun _ => this.cache⟩
      · exact h
    · exact h

theorem run_inv {cfg : Cfg E} (hg : GoodCfg cfg.cert.ks) (hb : cfg.cert.ks.bigBufSize < 65536)
    {ncfg : NvmServer.Cfg} {P : UInt16 → Prop} : ∀ (evs : List (Ev E)) (s : Cert.State),
    Inv cfg P s → Guarded cfg ncfg P s evs → Inv cfg P (run cfg ncfg s evs)
  | [], _, h, _ => h
  | _ :: evs, _, h, hr => run_inv hg hb evs _ (step_inv hg hb h hr.1) hr.2

theorem booted_inv {cfg : Cfg E} {P : UInt16 → Prop} {s : Cert.State} (h : Booted s)
    (hg : GoodCfg cfg.cert.ks) (ncfg : NvmServer.Cfg) : Inv cfg P s :=
  ⟨(Keystore.Reach.boot (ncfg := ncfg) (cfg := cfg.cert.ks) s.sys h.global h.loc h.pending h.dir).wf hg,
    Cert.fresh_inv h.fresh⟩

/-! ## What an accepting verdict says -/

theorem loadKey_ok {cfg : Cfg E} {x : Nat} {s s1 : Cert.State} {img : Img} {key : List UInt8}
    (hw : WF s.sys) (h : loadKey cfg x s img = ((.ok, key), s1)) : KeyIs cfg x s img key := by
  unfold loadKey at h
  rcases Keystore.freshen_or (cfg := cfg.cert.ks) (x := x) img.keyId hw with
    ⟨k, s', e, hf⟩ | ⟨rc, s', hrc, e, _⟩
  · rw [e] at h
    cases h
    exact ⟨_, StatefulSig.fresh_view hf⟩
  · rw [e] at h
    cases rc <;> first | exact absurd rfl hrc | (cases h; done)

theorem loadSig_ok {cfg : Cfg E} {s s1 : Cert.State} {img : Img} {sig : List UInt8}
    (hw : WF s.sys) (h : loadSig cfg s img = ((.ok, sig), s1)) : SigIs s img sig := by
  unfold loadSig at h
  rcases hn : s.sys.nvm.store img.sigId with _ | ⟨md, bs⟩
  · rw [Nvm.metadata_none hn] at h; cases h
  · rw [Nvm.metadata_some hn] at h
    dsimp only at h
    split at h
    · cases h
    · have hl := (hw.nvm _ _ _ hn).2
      unfold Nvm.read at h
      split at h
      · split at h
        · unfold NvmFlash.Store.slice at h
          rw [hn] at h
          simp only [Prod.mk.injEq] at h
          obtain ⟨h, _⟩ := h
          split at h
          · cases h
            refine ⟨md, ?_⟩
            rw [List.drop_zero, hl, List.take_length]
            exact hn
          · cases h
        · injection h with h; injection h with h; exact absurd h (errRc_ne_ok _)
        · cases h
      · cases h

theorem bootCert_genuine {cfg : Cfg E} (hb : cfg.cert.ks.bigBufSize < 65536) {P : UInt16 → Prop} {x : Nat}
    {t : Turn E} {s s' : Cert.State} {img : Img} (h : Good cfg P s) (hP : P img.sigId)
    (hlen : img.mem.hdr.length < 2 ^ 32) (he : bootCert cfg x t s img = .val (.ok, s')) :
    ∃ p chain certs leaf key,
      Field img.mem.hdr 0x23 p chain ∧ Cert.Splits cfg.cert.x509.derLen chain certs ∧
      (∀ d ∈ certs, Cert.Anchored cfg.cert.x509 s'.log
        ([img.sigId].filterMap (Cert.rootBytes s.sys.nvm)) (cfg.cert.x509.hash d)) ∧
      leaf ∈ certs ∧ cfg.cert.x509.pubKey leaf = .ok key ∧
      Acceptable cfg.crypto img.mem.hdr img.mem.payload key := by
  obtain ⟨chain, id, s1, k, sys2, hv, hf, rfl, hc⟩ := bootCert_split he
  obtain ⟨p, chain', key, hfield, hl, hacc⟩ := Props.C43_accept_cert _ _ _ _ hlen hc
  split at hl
  · next heq =>
    subst heq
    cases hl
    have h1 := Cert.verifyMulti_inv (c := chainCall x t img.sigId chain') chain'.length 0 h.cache
      (fun _ => rfl) (Nat.le_refl chain'.length)
    rw [hv] at h1
    obtain ⟨certs, _, hsp, hanch⟩ := h1.2.2 rfl (by
      intro r hr
      cases hr with
      | head => exact hP
      | tail _ h => cases h)
    have h2 := verifyMulti_leaf (P := fun d => d ∈ certs) hb h.wf
      (c := chainCall x t img.sigId chain') (fun _ => rfl) (Nat.le_refl chain'.length) (keyId := 0)
    rw [hv] at h2
    have hsp' : Cert.Splits cfg.cert.x509.derLen chain' certs := by
      have : ((chainCall x t img.sigId chain').mem 0).take chain'.length = chain' :=
        List.take_length
      rw [this] at hsp; exact hsp
    rcases h2.2 rfl certs hsp (fun _ h => h) with h3 | ⟨k', d, hd, hcd, hpk⟩
    · dsimp only at h3
      subst h3
      exact absurd (by rw [hf]) (freshen_zero cfg.cert.ks x s1.sys)
    · refine ⟨p, chain', certs, d, k.data, hfield, hsp', hanch, hd, ?_, hacc⟩
      rcases Keystore.freshen_or (cfg := cfg.cert.ks) (x := x) id h2.1 with
        ⟨k2, s2, e, hfr⟩ | ⟨rc, s2, hrc, e, _⟩
      · dsimp only at e
        rw [hf] at e
        cases e
        have hv2 := StatefulSig.fresh_view hfr
        unfold Keystore.view at hv2
        have hcd' : cached cfg.cert.ks x s1.sys id = some k' := hcd
        rw [hcd'] at hv2
        injection hv2 with hv2
        injection hv2 with _ hv2
        rw [← hv2]; exact hpk
      · dsimp only at e
        rw [hf] at e
        cases e
  · cases hl

/-- The verdict of the method on the given key and signature. -/
theorem callMethod_genuine {cfg : Cfg E} (hb : cfg.cert.ks.bigBufSize < 65536) {P : UInt16 → Prop} {x : Nat}
    {t : Turn E} {s s1 s' : Cert.State} {img : Img} {key sig : List UInt8} (h : Good cfg P s1)
    (hst : s1.sys.nvm.store = s.sys.nvm.store)
    (hP : img.method = some .wolfBootCert → P img.sigId)
    (hlen : img.mem.hdr.length < 2 ^ 32) (hpl : img.mem.payload.length < 2 ^ 32)
    (hin : match img.type with
      | .raw => KeyIs cfg x s img key ∧ SigIs s img sig
      | .wolfBoot => KeyIs cfg x s img key ∧ sig = []
      | .wolfBootCert => key = [] ∧ sig = []
      | .other => False)
    (he : callMethod cfg x t s1 img key sig = .val (.ok, s')) : Genuine cfg x s s'.log img := by
  have hraw : sig ≠ [] → KeyIs cfg x s img key ∧ SigIs s img sig := by
    intro hne
    split at hin
    · exact hin
    · exact absurd hin.2 hne
    · exact absurd hin.2 hne
    · exact hin.elim
  have hkey : key ≠ [] → KeyIs cfg x s img key := by
    intro hne
    split at hin
    · exact hin.1
    · exact hin.1
    · exact absurd hin.1 hne
    · exact hin.elim
  unfold callMethod at he
  unfold Genuine
  split at he
  · cases he
  · next hm =>
    rw [hm]
    injection he with he; injection he with he _
    have hsig : sig ≠ [] := by
      rintro rfl; unfold rawEcc at he; rw [if_pos (.inr rfl)] at he; cases he
    exact ⟨key, sig, (hraw hsig).1, (hraw hsig).2, (Props.C43_raw _ _ _ _ _ hpl).1 he⟩
  · next hm =>
    rw [hm]
    injection he with he; injection he with he _
    have hsig : sig ≠ [] := by
      rintro rfl
      unfold rawCmac at he
      split at he
      · cases he
      · rw [if_pos (by simp)] at he; cases he
    exact ⟨key, sig, (hraw hsig).1, (hraw hsig).2, (Props.C43_raw _ _ _ _ _ hpl).2.1 he⟩
  · next hm =>
    rw [hm]
    injection he with he; injection he with he _
    have hsig : sig ≠ [] := by
      rintro rfl; unfold rawRsa at he; rw [if_pos (.inr rfl)] at he; cases he
    exact ⟨key, sig, (hraw hsig).1, (hraw hsig).2, (Props.C43_raw _ _ _ _ _ hpl).2.2 he⟩
  · next hm =>
    rw [hm]
    obtain ⟨rc, hc, he⟩ := bind_inv he
    cases he
    have hk : key ≠ [] := by
      rintro rfl; unfold wolfBootRsa at hc; rw [if_pos List.length_nil] at hc; cases hc
    exact ⟨key, hkey hk, Props.C43_accept _ _ _ _ hlen hc⟩
  · next hm =>
    rw [hm]
    obtain ⟨p, chain, certs, leaf, key, h1, h2, h3, h4, h5, h6⟩ :=
      bootCert_genuine hb h (hP hm) hlen he
    refine ⟨p, chain, certs, leaf, key, h1, h2, fun d hd => ?_, h4, h5, h6⟩
    have e : Cert.rootBytes s.sys.nvm = Cert.rootBytes s1.sys.nvm := by
      funext r; exact (Cert.rootBytes_congr hst r).symm
    rw [e]; exact h3 d hd
  · next f hm =>
    rw [hm]
    injection he with he; injection he with he _
    dsimp only
    split <;> rename_i ht <;> rw [ht] at hin
    · exact ⟨key, sig, hin.1, hin.2, he⟩
    · refine ⟨key, hin.1, ?_⟩
      rw [← hin.2]; exact he
    · rw [← hin.1]; rw [hin.1]; rw [hin.1, hin.2] at he; exact he
    · exact hin.elim

end WolfHsm.ImgMgr

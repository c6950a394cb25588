import Verif.Proofs.ImgVerify
import Verif.Props.KeystoreWitness

/-!
# A provisioned verification key stays in place

Certificate requests and image verifications are sequences of the elementary transitions of the key
store, so the invariant of C47 extends to them.
-/

namespace WolfHsm.ImgMgr

open Keystore (Sys CKey WF GoodCfg cached ent Trs Tr Par Inv3 revokeMeta)
open NvmFlash (Meta)

variable {E : Type}

/-- Transitions about which nothing is known but that the policy has been followed. -/
abbrev Moves (ks : Keystore.Cfg) (x : Nat) (s s' : Sys) : Prop := Trs Par.any ks x (fun _ => True) s s'

theorem moves_nvm {ks : Keystore.Cfg} {x : Nat} {s : Sys} {n : Nvm} (hw : WF s)
    (hs : n.store = s.nvm.store) (hp : n.pending = s.nvm.pending) :
    Moves ks x s { s with nvm := n } := by
  have hi : Keystore.Idle ks x 0 s { s with nvm := n } :=
    ⟨⟨fun a _ => by rw [Keystore.cacheAt_nvm], by rw [Keystore.cacheAt_nvm]; exact hw.uniq _,
      fun i _ => .inl (by rw [Keystore.cacheAt_nvm]), fun i _ => by rw [hs]⟩,
      by rw [Keystore.cached_eq, Keystore.cached_eq, Keystore.cacheAt_nvm], hs, hp⟩
  exact .one trivial hi.tr

theorem cacheLeaf_moves {cfg : Cert.Cfg E} (hb : cfg.ks.bigBufSize < 65536) {c : Cert.Call E}
    {cert : Cert.Der} {w : Cert.Walk} (hw : WF w.st.sys) :
    Moves cfg.ks c.ctx w.st.sys (Cert.cacheLeaf cfg c cert w).2.st.sys := by
  unfold Cert.cacheLeaf
  rcases Keystore.getSlotChecked_or (F := Keystore.Par.any) (cfg := cfg.ks) (x := c.ctx) w.keyId
    cfg.ks.bigBufSize hw trivial with ⟨loc, s', hmc, hs, e⟩ | ⟨rc, s', hrc, ht, e⟩
  · have hev : Moves cfg.ks c.ctx w.st.sys s' := .one trivial (hs.tr trivial (.inl hmc.evictOk))
    rw [e]
    dsimp only
    split
    · next pk hpk =>
      split
      · exact hev
      · next hlen =>
        exact .one trivial ((Keystore.Slotted.filled (md := ⟨w.keyId, 0xFFFF,
          c.keyFlags &&& ~~~Nvm.serverOnly, UInt16.ofNat pk.length, Cert.pubKeyLabel⟩) hs pk).tr
          trivial trivial (Keystore.clean_untrusted _)
          (UInt16.toNat_ofNat_of_lt' (Nat.lt_of_le_of_lt (Nat.le_of_not_lt hlen) hb)) hmc)
    · exact hev
  · rw [e]
    cases rc <;> first | exact absurd rfl hrc | exact .one trivial ht

theorem leaf_moves {cfg : Cert.Cfg E} (hb : cfg.ks.bigBufSize < 65536) {c : Cert.Call E}
    {cert : Cert.Der} {w : Cert.Walk} (hw : WF w.st.sys) :
    Moves cfg.ks c.ctx w.st.sys (Cert.leaf cfg c cert w).2.st.sys := by
  unfold Cert.leaf
  split
  · exact .nil _
  · split
    · split
      · next id _ => exact cacheLeaf_moves (w := { w with keyId := id }) hb hw
      · exact .nil _
    · exact cacheLeaf_moves hb hw

theorem accepted_moves {cfg : Cert.Cfg E} (hb : cfg.ks.bigBufSize < 65536) {c : Cert.Call E}
    {i off len : Nat} {h : Option (List UInt8)} {w : Cert.Walk} (hw : WF w.st.sys) :
    Moves cfg.ks c.ctx w.st.sys (Cert.accepted cfg c i off len h w).2.st.sys := by
  unfold Cert.accepted
  dsimp only
  repeat' split
  all_goals first
    | exact .nil _
    | exact leaf_moves hb hw

theorem walk_moves {cfg : Cert.Cfg E} (hb : cfg.ks.bigBufSize < 65536) {c : Cert.Call E} :
    ∀ (fuel i off rem : Nat) (w : Cert.Walk), WF w.st.sys →
    Moves cfg.ks c.ctx w.st.sys (Cert.walk cfg c fuel i off rem w).2.st.sys := by
  intro fuel
  induction fuel with
  | zero => intro i off rem w _; exact .nil _
  | succ fuel ih =>
    intro i off rem w hw
    unfold Cert.walk
    split
    · exact .nil _
    · split
      · exact .nil _
      · next k hk =>
        split
        · exact .nil _
        · have hs1 := Cert.checkCert_sys cfg c i off (k + 2) w
          split
          · next d w1 hck =>
            rw [hck] at hs1
            dsimp only at hs1
            have hm := accepted_moves (c := c) (i := i) (off := off) (len := k + 2) (h := d) (w := w1) hb
              (by rw [hs1]; exact hw)
            rw [hs1] at hm
            split
            · next haw => rw [haw] at hm; exact hm.trans (ih _ _ _ _ (hm.wf hw))
            · next haw => rw [haw] at hm; exact hm
          · next hck =>
            rw [hck] at hs1
            dsimp only at hs1 ⊢
            rw [hs1]; exact .nil _

theorem verifyMulti_moves {cfg : Cert.Cfg E} (hb : cfg.ks.bigBufSize < 65536) {s : Cert.State}
    (hw : WF s.sys) {c : Cert.Call E} {n : Nat} {keyId : UInt16} :
    Moves cfg.ks c.ctx s.sys (Cert.verifyMulti cfg s c n keyId).2.sys := by
  have hls := Cert.loadRoots_store cfg c.roots s.sys.nvm [] []
  have hlp := loadRoots_pending cfg c.roots s.sys.nvm [] []
  unfold Cert.verifyMulti
  split
  · exact .nil _
  · split
    · next store loaded n' hlr =>
      rw [hlr] at hls hlp
      have h1 : Moves cfg.ks c.ctx s.sys { s.sys with nvm := n' } := moves_nvm hw hls hlp
      dsimp only
      split
      · exact h1
      · unfold Cert.verifyChain
        split
        · next e =>
          split at e
          · cases e
          · have := walk_moves (c := { c with roots := loaded }) hb n 0 0 n
              ⟨{ s with sys := { s.sys with nvm := n' } }, store, keyId⟩ (wf_nvm hw hls hlp)
            rw [e] at this
            exact h1.trans this
        · next e =>
          split at e
          · cases e; exact h1
          · have := walk_moves (c := { c with roots := loaded }) hb n 0 0 n
              ⟨{ s with sys := { s.sys with nvm := n' } }, store, keyId⟩ (wf_nvm hw hls hlp)
            rw [e] at this
            exact h1.trans this
    · next hx hlr =>
      rw [hlr] at hls hlp
      exact moves_nvm hw hls hlp

theorem freshen_moves {ks : Keystore.Cfg} {x : Nat} {s : Sys} (id : UInt16) (hw : WF s) :
    Moves ks x s (Keystore.freshen ks x s id).2.2 := by
  rcases Keystore.freshen_or (cfg := ks) (x := x) id hw with ⟨k, s', e, h⟩ | ⟨rc, s', _, e, h⟩
  · rw [e]; exact (h.trs (F := .any)).mono fun _ _ => trivial
  · rw [e]; exact .one trivial (h.tr (F := .any))

theorem evictKey_moves {ks : Keystore.Cfg} {x : Nat} {s : Sys} (id : UInt16) (hw : WF s) :
    Moves ks x s (Keystore.evictKey ks x s id).2 :=
  (Keystore.evictKey_trs (F := .any) hw trivial trivial).mono fun _ _ => trivial

theorem bootCert_moves {cfg : Cfg E} (hb : cfg.cert.ks.bigBufSize < 65536) {x : Nat}
    {t : Turn E} {s : Cert.State} {img : Img} (hw : WF s.sys) {r : Rc × Cert.State}
    (he : bootCert cfg x t s img = .val r) : Moves cfg.cert.ks x s.sys r.2.sys := by
  unfold bootCert at he
  obtain ⟨rm, em, he⟩ := bind_inv he
  split at he
  · cases he; exact .nil _
  · obtain ⟨rv, ev, he⟩ := bind_inv he
    split at he
    · cases he; exact .nil _
    · obtain ⟨fl, ef, he⟩ := bind_inv he
      obtain ⟨chain, ec, he⟩ := bind_inv he
      split at he
      · cases he; exact .nil _
      · have h1 : Moves cfg.cert.ks x s.sys _ := verifyMulti_moves (c := chainCall x t img.sigId chain)
          (n := chain.length) (keyId := 0) hb hw
        split at he
        · next id s1 hv =>
          rw [hv] at h1
          dsimp only at he h1
          have h2 := freshen_moves (ks := cfg.cert.ks) (x := x) id (h1.wf hw)
          have h3 := h1.trans (h2.trans (evictKey_moves (ks := cfg.cert.ks) (x := x) id
            (h2.wf (h1.wf hw))))
          split at he
          · obtain ⟨rc, hc, he⟩ := bind_inv he
            cases he; exact h3
          · cases he; exact h3
        · next hv =>
          rw [hv] at h1
          cases he; exact h1

theorem callMethod_moves {cfg : Cfg E} (hb : cfg.cert.ks.bigBufSize < 65536) {x : Nat}
    {t : Turn E} {s : Cert.State} {img : Img} {key sig : List UInt8} (hw : WF s.sys)
    {r : Rc × Cert.State} (he : callMethod cfg x t s img key sig = .val r) :
    Moves cfg.cert.ks x s.sys r.2.sys := by
  unfold callMethod at he
  split at he
  all_goals first
    | exact bootCert_moves hb hw he
    | (cases he; exact .nil _)
    | (obtain ⟨_, _, he⟩ := bind_inv he; cases he; exact .nil _)

theorem judge_moves {cfg : Cfg E} (hb : cfg.cert.ks.bigBufSize < 65536) {x : Nat}
    {t : Turn E} {s : Cert.State} {img : Img} {key sig : List UInt8} (hw : WF s.sys)
    {r : (Rc × Verdict) × Cert.State} (he : judge cfg x t s img key sig = .val r) :
    Moves cfg.cert.ks x s.sys r.2.sys := by
  unfold judge at he
  obtain ⟨⟨m, s1⟩, hm, he⟩ := bind_inv he
  cases he
  exact callMethod_moves hb hw hm

theorem loadKey_moves {cfg : Cfg E} {x : Nat} {s : Cert.State} {img : Img} (hw : WF s.sys) :
    Moves cfg.cert.ks x s.sys (loadKey cfg x s img).2.sys := by
  rw [loadKey_state]; exact freshen_moves _ hw

theorem loadSig_moves {cfg : Cfg E} {x : Nat} {s : Cert.State} {img : Img} (hw : WF s.sys) :
    Moves cfg.cert.ks x s.sys (loadSig cfg s img).2.sys := by
  unfold loadSig
  split
  · split
    · exact .nil _
    · exact moves_nvm hw (read_store ..) (read_pending ..)
  · exact .nil _

theorem verifyImg_moves {cfg : Cfg E} (hb : cfg.cert.ks.bigBufSize < 65536) {x : Nat}
    {t : Turn E} {s : Cert.State} {img : Img} (hw : WF s.sys)
    {r : (Rc × Verdict) × Cert.State} (he : verifyImg cfg x t s img = .val r) :
    Moves cfg.cert.ks x s.sys r.2.sys := by
  have hk := loadKey_moves (cfg := cfg) (x := x) (img := img) hw
  unfold verifyImg at he
  split at he
  · split at he
    · next e => rw [e] at hk; exact hk.trans (judge_moves hb (hk.wf hw) he)
    · next e => rw [e] at hk; cases he; exact hk
  · exact judge_moves hb hw he
  · split at he
    · next s1 e =>
      rw [e] at hk
      have hs := loadSig_moves (cfg := cfg) (x := x) (img := img) (hk.wf hw)
      split at he
      · next e => rw [e] at hs; exact hk.trans (hs.trans (judge_moves hb (hs.wf (hk.wf hw)) he))
      · next e => rw [e] at hs; cases he; exact hk.trans hs
    · next e => rw [e] at hk; cases he; exact hk
  · cases he; exact .nil _

/-! ## The provisioned key -/

open Props (prof47 Same)

theorem revokeMeta_nonDestroyable {md : Meta} (h : hasFlag md.flags Flag.nonDestroyable = true) :
    hasFlag (revokeMeta md).flags Flag.nonDestroyable = true := by
  have e : (revokeMeta md).flags &&& Flag.nonDestroyable = md.flags &&& Flag.nonDestroyable := by
    have h1 : (Flag.nonModifiable &&& Flag.nonDestroyable) = 0 := by decide +kernel
    have h2 : (~~~Keystore.usageAny &&& Flag.nonDestroyable) = Flag.nonDestroyable := by decide +kernel
    show ((md.flags ||| Flag.nonModifiable) &&& ~~~Keystore.usageAny) &&& Flag.nonDestroyable = _
    rw [UInt16.and_assoc, h2]
    apply UInt16.eq_of_toBitVec_eq
    apply BitVec.eq_of_getLsbD_eq
    intro i hi
    have h3 := congrArg (fun x => x.toBitVec.getLsbD i) h1
    simp only [UInt16.toBitVec_and, UInt16.toBitVec_or, BitVec.getLsbD_and, BitVec.getLsbD_or] at h3 ⊢
    cases hm : md.flags.toBitVec.getLsbD i <;> cases hn : Flag.nonModifiable.toBitVec.getLsbD i <;>
      cases hd : Flag.nonDestroyable.toBitVec.getLsbD i <;> simp_all
  unfold hasFlag at *
  rw [e]
  exact h

theorem same_nonDestroyable {o : Meta × List UInt8} (ho : hasFlag o.1.flags Flag.nonDestroyable = true)
    {md : Meta} {d : List UInt8} (h : Same o md d) : hasFlag md.flags Flag.nonDestroyable = true := by
  rcases h.2 with rfl | rfl
  · exact ho
  · exact revokeMeta_nonDestroyable ho

/-- A flag together with others. -/
theorem hasFlag_or {f a b : UInt16} (h : hasFlag f b = true) : hasFlag f (a ||| b) = true := by
  unfold hasFlag at *
  simp only [bne_iff_ne, ne_eq] at *
  intro hc
  apply h
  apply UInt16.eq_of_toBitVec_eq
  apply BitVec.eq_of_getLsbD_eq
  intro i hi
  have h3 := congrArg (fun x => x.toBitVec.getLsbD i) hc
  simp only [UInt16.toBitVec_and, UInt16.toBitVec_or, BitVec.getLsbD_and, BitVec.getLsbD_or] at h3 ⊢
  revert h3
  cases f.toBitVec.getLsbD i <;> cases b.toBitVec.getLsbD i <;> simp

theorem prof47_nvm {ks : Keystore.Cfg} {o : Meta × List UInt8} {id : UInt16} {s : Sys} {n : Nvm}
    (h : Inv3 ks (prof47 o) id s) (hn : n.store id = s.nvm.store id)
    (hp : n.pending = none ∨ n.pending = s.nvm.pending ∨
      ∃ md d, n.pending = some (md, d) ∧ md.id ≠ id) :
    Inv3 ks (prof47 o) id { s with nvm := n } := by
  refine ⟨fun y k hk => h.c y k (by simpa [Keystore.cached_eq] using hk), by rw [hn]; exact h.n, ?_⟩
  intro md d hpd hid
  rcases hp with e | e | ⟨md', d', e, hne⟩
  · dsimp only at hpd; rw [e] at hpd; cases hpd
  · exact h.p md d (by rw [← e]; exact hpd) hid
  · dsimp only at hpd; rw [e] at hpd; cases hpd; exact absurd hid hne

/-- Requests of the certificate group leave the key alone. -/
theorem prof47_cert {cfg : Cert.Cfg E} (hb : cfg.ks.bigBufSize < 65536) {s : Cert.State} (hw : WF s.sys)
    {o : Meta × List UInt8} {id : UInt16}
    (ho : hasFlag o.1.flags Flag.nonModifiable = true)
    (hd : hasFlag o.1.flags Flag.nonDestroyable = true)
    (hty : KeyId.typeOf id ≠ KeyId.typeWrapped ∧ KeyId.typeOf id ≠ KeyId.typeShe)
    (h : Inv3 cfg.ks (prof47 o) id s.sys) {e : Cert.Ev E}
    (h1 : ∀ sys, e ≠ .other sys) (h2 : ∀ sys, e ≠ .restart sys) :
    Inv3 cfg.ks (prof47 o) id (Cert.step cfg s e).sys := by
  obtain ⟨nmd, nd, hn, hns⟩ := h.n
  have hm := hns.nonMod ho
  have hnd := same_nonDestroyable hd hns
  cases e with
  | init lock => simp only [Cert.step, Cert.certInit]; split <;> exact h
  | add nl lock md cert =>
    simp only [Cert.step]
    split
    · unfold Cert.addTrusted
      split
      · exact h
      · dsimp only
        rw [Cert.evicting_nvm]
        dsimp only
        by_cases hid : md.id = id
        · unfold Nvm.addChecked
          dsimp only
          rw [hid, Nvm.policy_add_refuses hn (Or.inl hm)]
          exact h
        · unfold Nvm.addChecked
          dsimp only
          split
          · have hset : ∀ d, (s.sys.nvm.store.set (Nvm.sanitize { md with len := UInt16.ofNat cert.length }) d) id
                = s.sys.nvm.store id := fun d => by
              unfold NvmFlash.Store.set
              exact if_neg (fun hc => hid hc.symm)
            refine Nvm.add_cases s.sys.nvm _ _
              (P := fun r => Inv3 cfg.ks (prof47 o) id { s.sys with nvm := r.2 }) ?_ ?_ ?_ ?_
            · intro n' e1 e2 _; exact prof47_nvm h (by rw [e1]; exact hset _) (.inl e2)
            · intro n' e1 e2 _; exact prof47_nvm h (by rw [e1]; exact hset _) (.inl e2)
            · intro _ n' _ e1 e2; exact prof47_nvm h (by rw [e1]) (.inr (.inr ⟨_, _, e2, hid⟩))
            · intro _ n' _ e1 e2; exact prof47_nvm h (by rw [e1]) (.inr (.inl e2))
          · exact h
    · exact h
  | erase nl lock i =>
    simp only [Cert.step]
    split
    · by_cases hid : i = id
      · rw [hid]
        unfold Cert.eraseTrusted
        rw [Nvm.metadata_some hn]
        dsimp only
        rw [if_pos (hasFlag_or hnd)]
        exact h
      · have go : Inv3 cfg.ks (prof47 o) id (Cert.evicting cfg
            { s with sys := { s.sys with nvm := (s.sys.nvm.destroy [i]).2 } } (s.sys.nvm.destroy [i]).1
            lock i).2.sys := by
          rw [Cert.evicting_nvm]
          dsimp only
          have hdrop : (s.sys.nvm.store.drop [i]) id = s.sys.nvm.store id := by
            unfold NvmFlash.Store.drop
            exact if_neg (by simpa using fun hc => hid hc.symm)
          refine Nvm.destroy_cases s.sys.nvm [i]
            (P := fun r => Inv3 cfg.ks (prof47 o) id { s.sys with nvm := r.2 }) ?_ ?_ ?_ ?_
          · intro n' e1 e2; exact prof47_nvm h (by rw [e1]; exact hdrop) (.inl e2)
          · intro n' _ e1 e2; exact prof47_nvm h (by rw [e1]) (.inr (.inl e2))
          · intro _ n' _ e1 e2; exact prof47_nvm h (by rw [e1]; exact hdrop) (.inl e2)
          · intro _ n' _ e1 e2; exact prof47_nvm h (by rw [e1]) (.inr (.inl e2))
        unfold Cert.eraseTrusted
        dsimp only
        split
        · split
          · exact h
          · exact go
        · exact go
        · exact h
    · exact h
  | verify nl c n k =>
    simp only [Cert.step]
    split
    · exact h.trs hw (verifyMulti_moves hb hw) (fun _ e e' he _ _ hE => Props.prof47_estep ho hty he hE)
    · exact h
  | clear nl lock => simp only [Cert.step]; split <;> exact h
  | enable nl lock b => simp only [Cert.step]; split <;> exact h
  | restart sys => exact absurd rfl (h2 _)
  | other sys => exact absurd rfl (h1 _)

theorem stable_key {e : Keystore.Ev} (h : Stable (E := E) (.key e)) : Props.StableEv e := by
  cases e <;> exact h

theorem prof47_step {cfg : Cfg E} (hg : GoodCfg cfg.cert.ks) (hb : cfg.cert.ks.bigBufSize < 65536)
    {ncfg : NvmServer.Cfg} {P : UInt16 → Prop} {s : Cert.State} (hw : WF s.sys)
    {o : Meta × List UInt8} {id : UInt16} (ho : hasFlag o.1.flags Flag.nonModifiable = true)
    (hd : hasFlag o.1.flags Flag.nonDestroyable = true) (hlen : o.1.len.toNat = o.2.length)
    (hty : KeyId.typeOf id ≠ KeyId.typeWrapped ∧ KeyId.typeOf id ≠ KeyId.typeShe)
    (h : Inv3 cfg.cert.ks (prof47 o) id s.sys) {e : Ev E} (hr : Respects cfg ncfg P s e)
    (hst : Stable e) : Inv3 cfg.cert.ks (prof47 o) id (step cfg ncfg s e).sys := by
  cases e with
  | key e =>
    have hv : e.Valid := by
      cases e with
      | restart b => exact trivial
      | key _ _ _ => exact hr.1
      | nvm _ _ => exact hr.1
    have := Props.prof47_step (ncfg := ncfg) hg ho hlen hty hw hv (stable_key hst) h
    cases e with
    | restart b => exact this
    | key _ _ _ => exact this
    | nvm _ _ => exact this
  | cert e =>
    by_cases hoth : (∃ sys, e = .other sys) ∨ ∃ sys, e = .restart sys
    · rcases hoth with ⟨sys, rfl⟩ | ⟨sys, rfl⟩ <;> exact h
    · have h1 : ∀ sys, e ≠ .other sys := fun y he => hoth (.inl ⟨y, he⟩)
      have h2 : ∀ sys, e ≠ .restart sys := fun y he => hoth (.inr ⟨y, he⟩)
      have hst : step cfg ncfg s (.cert e) =
          if s.sys.nvm.powered then Cert.step cfg.cert s e else s := by
        cases e <;> first | rfl | exact absurd rfl (h1 _) | exact absurd rfl (h2 _)
      rw [hst]
      split
      · exact prof47_cert hb hw ho hd hty h h1 h2
      · exact h
  | image x t img =>
    show Inv3 cfg.cert.ks (prof47 o) id (Cert.State.sys (if s.sys.nvm.powered then
      match verifyImg cfg x t s img with
      | .val (_, s') => s'
      | _ => s
    else s))
    split
    · split
      · next r s' he =>
        exact h.trs hw (verifyImg_moves hb hw he) (fun _ e e' he _ _ hE => Props.prof47_estep ho hty he hE)
      · exact h
    · exact h

theorem prof47_run {cfg : Cfg E} (hg : GoodCfg cfg.cert.ks) (hb : cfg.cert.ks.bigBufSize < 65536)
    {ncfg : NvmServer.Cfg} {P : UInt16 → Prop} {o : Meta × List UInt8} {id : UInt16}
    (ho : hasFlag o.1.flags Flag.nonModifiable = true)
    (hd : hasFlag o.1.flags Flag.nonDestroyable = true) (hlen : o.1.len.toNat = o.2.length)
    (hty : KeyId.typeOf id ≠ KeyId.typeWrapped ∧ KeyId.typeOf id ≠ KeyId.typeShe) :
    ∀ (evs : List (Ev E)) (s : Cert.State), Inv cfg P s → Inv3 cfg.cert.ks (prof47 o) id s.sys →
    Guarded cfg ncfg P s evs → (∀ e ∈ evs, Stable e) →
    Inv3 cfg.cert.ks (prof47 o) id (run cfg ncfg s evs).sys
  | [], _, _, h, _, _ => h
  | e :: evs, _, hi, h, hr, hs =>
    prof47_run hg hb ho hd hlen hty evs _ (step_inv hg hb hi hr.1)
      (prof47_step hg hb hi.wf ho hd hlen hty h hr.1 (hs e (List.mem_cons_self ..))) hr.2
      (fun e he => hs e (List.mem_cons_of_mem _ he))

end WolfHsm.ImgMgr

import Verif.Spec.Device
import Verif.Proofs.DeviceAuth
import Verif.Proofs.ImgVerifyKey
import Verif.Proofs.CertMsgSafe
import Verif.Proofs.KeyMsgSafe
import Verif.Proofs.CryptoDma
import Verif.Proofs.SheInv
import Verif.Proofs.SheMsg
import Verif.Proofs.StatefulSigInv
import Verif.Props.KeystoreWitness

/-!
# The device keeps its key store in order, and its protected objects
-/

namespace WolfHsm.Device

open CryptoMsg (exec)
open Keystore (Srv Sys WF Inv3 Trs Other)
open NvmFlash (Meta)
open Server (Req Group)
open Props (prof47)

variable {A E : Type} {cfg : Cfg A E}

/-- The object, and an id no part of the server writes without looking at the flags. -/
structure Target (o : Meta × List UInt8) (id : UInt16) : Prop where
  nonMod : hasFlag o.1.flags Flag.nonModifiable = true
  len : o.1.len.toNat = o.2.length
  wrapped : KeyId.typeOf id ≠ KeyId.typeWrapped
  she : KeyId.typeOf id ≠ KeyId.typeShe
  counter : KeyId.typeOf id ≠ KeyId.typeCounter

/-- A state change keeps the key store in order, and, if `K` holds, the object. -/
def Keeps (ks : Keystore.Cfg) (o : Meta × List UInt8) (id : UInt16) (K : Prop) (s s' : Sys) : Prop :=
  WF s → WF s' ∧ (K → Inv3 ks (prof47 o) id s → Inv3 ks (prof47 o) id s')

section
variable {ks : Keystore.Cfg} {o : Meta × List UInt8} {id : UInt16} {K : Prop}

theorem Keeps.refl (s : Sys) : Keeps ks o id K s s := fun h => ⟨h, fun _ h => h⟩
theorem Keeps.trans {a b c : Sys} (h : Keeps ks o id K a b) (h' : Keeps ks o id K b c) : Keeps ks o id K a c := fun ha =>
  ⟨(h' (h ha).1).1, fun k i => (h' (h ha).1).2 k ((h ha).2 k i)⟩

theorem Keeps.trs {F : Keystore.Par} {x : Nat} {T : UInt16 → Prop} {s s' : Sys} (ht : K → Target o id)
    (h : WF s → Trs F ks x T s s') : Keeps ks o id K s s' := fun hw =>
  ⟨(h hw).wf hw, fun k i => i.trs hw (h hw) (fun _ e e' he _ _ hE =>
    Props.prof47_estep (ht k).nonMod ⟨(ht k).wrapped, (ht k).she⟩ he hE)⟩

/-- A change of other objects. -/
theorem Keeps.only {P : UInt16 → Prop} {s : Sys} {n : Nvm} (hP : K → ¬P id)
    (h : Tidy s.nvm → Tidy n ∧ Only P s.nvm n) : Keeps ks o id K s { s with nvm := n } := fun hw => by
  obtain ⟨h1, h2⟩ := h ⟨hw.nvm, hw.pend⟩
  refine ⟨⟨fun a => by rw [Keystore.cacheAt_nvm]; exact hw.uniq a,
    fun a i k hk => hw.clen a i k (by simpa using hk), h1.nvm, h1.pend⟩, fun k i => ?_⟩
  refine i.other ⟨h2.store id (hP k), ?_, fun a => .inl (by rw [Keystore.cacheAt_nvm])⟩
  intro md d hp hid
  exact (h2.pend md d hp).resolve_right fun e => hP k (hid ▸ e)

/-- Nothing in NVM changes. -/
theorem Keeps.same {s : Sys} {n : Nvm} (h1 : n.store = s.nvm.store) (h2 : n.pending = s.nvm.pending) :
    Keeps ks o id K s { s with nvm := n } :=
  Keeps.only (P := fun _ => False) (fun _ h => h) fun h => same_only h h1 h2 _

end

/-! ## NVM group -/

theorem decode_cases {c : NvmMsg.Cfg} {e : NvmMsg.Env} {r : Req} {P : NvmServer.Req → Prop}
    (hadd : ∀ md bs, bs = Wire.rdBytes r.buf 32 (r.size - 32) → P (.add md bs))
    (hdma : ∀ a b z (ma da : UInt64) (n : UInt16), P (.addDma a b z (NvmMsg.rawMeta c.le (e.mem1 ma 32))
      (NvmMsg.rawMeta c.le (e.mem2 ma 32)) (e.mem1 da n.toNat) (e.mem2 da n.toNat)))
    (hrest : ∀ q, (∀ md bs, q ≠ .add md bs) → (∀ a b z m1 m2 d1 d2, q ≠ .addDma a b z m1 m2 d1 d2) → P q) :
    P (NvmMsg.decode c e r) := by
  have ht : ∀ {p : Prop} [Decidable p] {a b : NvmServer.Req}, P a → P b → P (if p then a else b) := by
    intro p _ a b ha hb; split <;> assumption
  have hr : ∀ q, (∀ md bs, q ≠ .add md bs) → (∀ a b z m1 m2 d1 d2, q ≠ .addDma a b z m1 m2 d1 d2) → P q := hrest
  unfold NvmMsg.decode
  dsimp only
  refine ht (ht (hr _ (by simp) (by simp)) (hr _ (by simp) (by simp))) ?_
  refine ht (ht (hr _ (by simp) (by simp)) (hr _ (by simp) (by simp))) ?_
  refine ht (ht (hr _ (by simp) (by simp)) (hr _ (by simp) (by simp))) ?_
  refine ht (ht (hr _ (by simp) (by simp)) (hadd _ _ rfl)) ?_
  refine ht (ht (hr _ (by simp) (by simp)) (hr _ (by simp) (by simp))) ?_
  refine ht (ht (hr _ (by simp) (by simp)) (hr _ (by simp) (by simp))) ?_
  refine ht (ht (hr _ (by simp) (by simp)) (hr _ (by simp) (by simp))) ?_
  refine ht (ht (hr _ (by simp) (by simp)) (hr _ (by simp) (by simp))) ?_
  refine ht (ht (hdma _ _ _ _ _ _) (hr _ (by simp) (by simp))) ?_
  exact ht (ht (hr _ (by simp) (by simp)) (hr _ (by simp) (by simp))) (hr _ (by simp) (by simp))

theorem nvm_valid (hs : Sound cfg) (k : Nat) {r : Req} (hr : r.size ≤ cfg.comm.dataLen) :
    (Keystore.Ev.nvm (cfg.world k).nvm.lock (NvmMsg.decode cfg.nvmMsg (cfg.world k).nvm r)).Valid := by
  have hm : cfg.comm.dataLen < 65536 := by have := hs.mtu; unfold Comm.Cfg.mtu at this; omega
  refine decode_cases (P := fun q => (Keystore.Ev.nvm (cfg.world k).nvm.lock q).Valid) ?_ ?_ ?_
  · intro md bs hb
    show bs.length < 65536
    rw [hb]; unfold Wire.rdBytes; rw [List.length_take]; omega
  · intro a b c ma da n
    show ((cfg.world k).nvm.mem2 _ _).length < 65536
    exact Nat.lt_of_le_of_lt (hs.mem _ _ _) (UInt16.toNat_lt _)
  · intro q h1 h2
    cases q <;> first | exact trivial | exact absurd rfl (h1 _ _) | exact absurd rfl (h2 _ _ _ _ _ _ _)

theorem nvm_stable (hst : Steady cfg) (k : Nat) (r : Req) :
    Props.StableEv (.nvm (cfg.world k).nvm.lock (NvmMsg.decode cfg.nvmMsg (cfg.world k).nvm r)) := by
  refine decode_cases (P := fun q => Props.StableEv (.nvm (cfg.world k).nvm.lock q)) ?_ ?_ ?_
  · intro md bs hb; exact trivial
  · intro a b c ma da n
    show NvmMsg.rawMeta _ _ = NvmMsg.rawMeta _ _
    rw [hst]
  · intro q h1 h2
    cases q <;> first | exact trivial | exact absurd rfl (h2 _ _ _ _ _ _ _)

theorem nvm_keeps (hs : Sound cfg) (k : Nat) {r : Req} (hr : r.size ≤ cfg.comm.dataLen) {o : Meta × List UInt8} {id : UInt16}
    {K : Prop} (ht : K → Target o id) (hst : K → Steady cfg) (s : Sys) (hp : s.nvm.powered = true) :
    Keeps cfg.ks o id K s { s with nvm := (NvmMsg.handle cfg.nvmMsg (cfg.world k).nvm r s.nvm).2 } := fun hw => by
  have hv := nvm_valid hs k hr
  have e : (Keystore.step cfg.ks cfg.nvm s (.nvm (cfg.world k).nvm.lock (NvmMsg.decode cfg.nvmMsg (cfg.world k).nvm r))).2 =
      { s with nvm := (NvmMsg.handle cfg.nvmMsg (cfg.world k).nvm r s.nvm).2 } := by
    unfold Keystore.step
    dsimp only
    rw [if_pos hp]
    rfl
  rw [← e]
  exact ⟨Keystore.step_wf hs.shared _ hw hv, fun kk i => Props.prof47_step hs.shared (ht kk).nonMod (ht kk).len
    ⟨(ht kk).wrapped, (ht kk).she⟩ hw hv (nvm_stable (hst kk) k r) i⟩

/-! ## Counter group -/

theorem counter_keeps {ks : Keystore.Cfg} (le : Bool) (client : UInt16) (lock : Rc) (r : Req) {o : Meta × List UInt8} {id : UInt16}
    {K : Prop} (ht : K → Target o id) (s : Sys) :
    Keeps ks o id K s { s with nvm := (CounterMsg.handle le client lock r s.nvm).2 } :=
  Keeps.only (P := IsCounter) (fun k hc => by
    obtain ⟨c, cid, rfl⟩ := hc
    exact (ht k).counter (by unfold Counter.keyOf; rw [KeyId.typeOf_make]; decide)) fun h => counter_only h client lock _

/-! ## Key group -/

theorem key_keeps (hs : Sound cfg) (v : Srv) (hv : v.client < 16) (e : KeyMsg.Env) (r : Req) {o : Meta × List UInt8} {id : UInt16}
    {K : Prop} (ht : K → Target o id) (s : Sys) : Keeps cfg.ks o id K s (KeyMsg.handle cfg.keyMsg v e r s).2 := by
  rcases KeyMsg.handle_state cfg.keyMsg v e r s with h | ⟨q, h⟩
  · rw [h]; exact .refl s
  · rw [h]; exact Keeps.trs ht fun hw => Keystore.handle_trs hw hv hs.shared e.lock q

/-! ## Crypto groups -/

theorem exec_keeps (hs : Sound cfg) (v : Srv) (hv : v.client < 16) (locks : Nat → Rc) {o : Meta × List UInt8} {id : UInt16}
    {K : Prop} (ht : K → Target o id) (p : Crypto.Prog) : ∀ (k : Nat) (s : Sys),
    Keeps cfg.ks o id K s (exec cfg.ks v locks k p s).2 := by
  induction p with
  | done a => intro k s; exact .refl s
  | call locked r f ih =>
    intro k s
    have h1 : Keeps cfg.ks o id K s (Keystore.handle cfg.ks v s (if locked then locks k else .ok) r).2 :=
      Keeps.trs ht fun hw => Keystore.handle_trs hw hv hs.shared _ r
    unfold exec
    dsimp only
    generalize Keystore.handle cfg.ks v s (if locked then locks k else .ok) r = q at h1 ⊢
    split
    · exact h1.trans (ih _ _ _)
    · exact h1

theorem typeOf_fromClient (c : KeyId.Cfg) (client rid : UInt16) :
    KeyId.typeOf (KeyId.fromClient c KeyId.typeCrypto client rid) = KeyId.typeCrypto ∨
    KeyId.typeOf (KeyId.fromClient c KeyId.typeCrypto client rid) = KeyId.typeWrapped ∨
    KeyId.typeOf (KeyId.fromClient c KeyId.typeCrypto client rid) = KeyId.typeHw := by
  unfold KeyId.fromClient
  dsimp only
  rw [KeyId.typeOf_make]
  (repeat' split) <;> decide

theorem signKey_keeps (hs : Sound cfg) (x : Nat) (i : UInt16) (r : StatefulSig.SignReq)
    {o : Meta × List UInt8} {id : UInt16} {K : Prop} (ht : K → Target o id)
    (hu : K → i = id → ∀ a q, StatefulSig.load cfg.sig a o.2 ≠ .ok q) (s : Sys) :
    Keeps cfg.ks o id K s (StatefulSig.signKey cfg.sig x s i r).2 := fun hw => by
  unfold StatefulSig.signKey
  rcases Keystore.freshen_or (cfg := cfg.ks) (x := x) i hw with ⟨k, s1, e, hf⟩ | ⟨rc, s1, hrc, e, hn⟩
  · have k1 : Keeps cfg.ks o id K s s1 := Keeps.trs ht fun _ => hf.trs (F := StatefulSig.inert)
    have w1 := (k1 hw).1
    have base := k1 hw
    have hk := hf.now
    have e' : Keystore.freshen cfg.sig.ks x s i = (.ok, some k, s1) := e
    rw [e']
    dsimp only
    split
    · split
      · exact base
      · rename_i hd pub priv hl
        split
        · split
          · split
            · exact base
            · rename_i sig priv' hsg
              have w5 := hs.sign _ _ _ _ _ _ _ hsg
              obtain ⟨np, ll⟩ := StatefulSig.load_iff.mp hl
              obtain ⟨o1, o2⟩ := ll.offLe
              have hdl : k.data.length < 65536 :=
                Keystore.len_lt (w1.clen _ _ _ (by rw [← Keystore.cached_eq]; exact hk))
              have hfit := ll.fits
              have hpl := ll.privLength
              have fin : ∀ s' k', StatefulSig.Written cfg.ks x i s1 s' k' →
                  WF s' ∧ (K → Inv3 cfg.ks (prof47 o) id s → Inv3 cfg.ks (prof47 o) id s') := by
                intro s' k' hwr
                refine ⟨hwr.wf w1, fun kk hi => ?_⟩
                have hi1 := base.2 kk hi
                by_cases hid : i = id
                · subst hid
                  have := (hi1.c x k hk).1
                  exact absurd hl (this ▸ hu kk rfl _ _)
                · exact hi1.other (hwr.other (Ne.symm hid))
              refine StatefulSig.writeCb_cases (cfg := cfg.sig) (priv := priv') (P := fun q => WF (match q with
                | (.ok, s2) => ((⟨.ok, some sig, some sig⟩ : StatefulSig.SignOut), s2)
                | (_, s2) => (⟨.aborted, .none, some sig⟩, s2)).2 ∧ (K → Inv3 cfg.ks (prof47 o) id s →
                  Inv3 cfg.ks (prof47 o) id (match q with
                | (.ok, s2) => ((⟨.ok, some sig, some sig⟩ : StatefulSig.SignOut), s2)
                | (_, s2) => (⟨.aborted, .none, some sig⟩, s2)).2)) w1 hk (by omega) o1 o2 ?_ ?_ ?_
              · intro s' k' _ _ hwr _ _ _; exact fin _ _ hwr
              · intro rc s' k' hrc _ hwr
                cases rc <;> first | exact absurd rfl hrc | exact fin _ _ hwr
              · exact base
          · exact base
        · exact base
    · exact base
  · have k1 : Keeps cfg.ks o id K s s1 := Keeps.trs ht fun _ => .one (T := (· = i)) rfl (hn.tr (F := StatefulSig.inert))
    have e' : Keystore.freshen cfg.sig.ks x s i = (rc, none, s1) := e
    rw [e']
    cases rc <;> first | exact absurd rfl hrc | exact k1 hw

theorem sign_keeps (hs : Sound cfg) (v : Srv) (r : StatefulSig.SignReq)
    {o : Meta × List UInt8} {id : UInt16} {K : Prop} (ht : K → Target o id) (hu : K → Unsignable cfg o id) (s : Sys) :
    Keeps cfg.ks o id K s (StatefulSig.sign cfg.sig v s r).2 := by
  have h1 := signKey_keeps hs v.ctx (KeyId.fromClient cfg.ks.ids KeyId.typeCrypto v.client r.id) r ht (fun k hi => by
    rcases hu k with h | ⟨h2, h3⟩
    · exact h
    · rcases typeOf_fromClient cfg.ks.ids v.client r.id with h | h | h <;> rw [hi] at h
      · exact absurd h h2
      · exact absurd h (ht k).wrapped
      · exact absurd h h3) s
  unfold StatefulSig.sign
  dsimp only
  split
  · exact .refl s
  · split
    · dsimp only
      split
      · exact h1.trans (Keeps.trs ht fun hw => Keystore.evictKey_trs (F := StatefulSig.inert) hw trivial trivial)
      · exact h1
    · exact .refl s

theorem look_keeps (v : Srv) (lock lock2 : Rc) (rid : UInt16) (ev : Bool)
    {o : Meta × List UInt8} {id : UInt16} {K : Prop} (ht : K → Target o id) (s : Sys) :
    Keeps cfg.ks o id K s (StatefulSig.look cfg.sig v s lock lock2 rid ev) := by
  have h1 : ∀ (c : Prop) [Decidable c] i, Keeps cfg.ks o id K s (if c then (Keystore.freshen cfg.sig.ks v.ctx s i).2.2 else s) := by
    intro c _ i
    split
    · exact Keeps.trs ht fun hw => Keystore.freshen_trs (F := StatefulSig.inert) i hw
    · exact .refl s
  unfold StatefulSig.look
  dsimp only
  split
  · exact .refl s
  · split
    · exact (h1 _ _).trans (Keeps.trs ht fun hw => Keystore.evictKey_trs (F := StatefulSig.inert) hw trivial trivial)
    · exact h1 _ _

theorem cryptoDma_keeps (hs : Sound cfg) (v : Srv) (hv : v.client < 16) (e : CryptoDma.Env) (r : Req)
    {o : Meta × List UInt8} {id : UInt16} {K : Prop} (ht : K → Target o id) (hu : K → Unsignable cfg o id) (s : Sys) :
    Keeps cfg.ks o id K s (CryptoDma.handle cfg.cryptoDma v e r s).2 := by
  unfold CryptoDma.handle
  by_cases h12 : r.size < 12
  · rw [if_pos h12]; exact .refl s
  rw [if_neg h12]
  generalize cfg.cryptoDma.select r.action _ _ = x
  rcases x with rc | op
  · exact .refl s
  dsimp only
  generalize CryptoDma.decode cfg.cryptoDma e r op = y
  rcases y with rc | t
  · exact .refl s
  cases t with
  | keys q =>
    have := exec_keeps hs v hv e.locks ht (Crypto.handler cfg.crypto cfg.lib v q) 0 s
    change Keeps cfg.ks o id K s (match CryptoMsg.exec cfg.ks v e.locks 0 (Crypto.handler cfg.crypto cfg.lib v q) s with
      | (some a, s') => (CryptoDma.encode cfg.cryptoDma e r op a, s')
      | (none, s') => (([], none), s')).2
    split <;> next e => rw [e] at this; exact this
  | sign q => exact sign_keeps hs v q ht hu s
  | gen q => exact Keeps.trs ht fun hw => StatefulSig.keyGen_trs (cfg := cfg.sig) hw hv
  | verify a i ev sg ms pre => exact look_keeps v _ _ i ev ht s
  | left a i => exact look_keeps v _ _ i false ht s
  | rng | sha2 | sha3 => exact .refl s

theorem cryptoMsg_keeps (hs : Sound cfg) (v : Srv) (hv : v.client < 16) (e : CryptoMsg.Env) (r : Req)
    {o : Meta × List UInt8} {id : UInt16} {K : Prop} (ht : K → Target o id) (s : Sys) :
    Keeps cfg.ks o id K s (CryptoMsg.handle cfg.cryptoMsg v e r s).2 := by
  unfold CryptoMsg.handle
  by_cases h12 : r.size < 12
  · rw [if_pos h12]; exact .refl s
  rw [if_neg h12]
  generalize cfg.cryptoMsg.codes.select r.action _ _ = x
  rcases x with rc | op
  · exact .refl s
  dsimp only
  generalize CryptoMsg.decode cfg.cryptoMsg.codes cfg.cryptoMsg.le e.coins r op = y
  rcases y with rc | q | _ | _ | _
  · exact .refl s
  · have := exec_keeps hs v hv e.locks ht (Crypto.handler cfg.crypto cfg.lib v q) 0 s
    change Keeps cfg.ks o id K s (match exec cfg.ks v e.locks 0 (Crypto.handler cfg.crypto cfg.lib v q) s with
      | (some a, s') => (CryptoMsg.encode cfg.cryptoMsg.le r op a, s')
      | (none, s') => ([], s')).2
    split <;> next e => rw [e] at this; exact this
  all_goals exact .refl s

/-! ## SHE group -/

theorem reads_keeps {v : Srv} {o : Meta × List UInt8} {id : UInt16} {K : Prop} (ht : K → Target o id) {s s' : Sys}
    (h : She.Reads cfg.she v.ctx s s') : Keeps cfg.ks o id K s s' := Keeps.trs ht fun _ => h

theorem wrote_keeps {x : Nat} {o : Meta × List UInt8} {id : UInt16} {K : Prop} (ht : K → Target o id) {s s' : Sys}
    {md : Meta} {data : List UInt8} {client slot : UInt16}
    (hid : md.id = She.sheId cfg.she client slot) (hl : md.len.toNat = data.length)
    (h : She.Wrote cfg.she x md data s s') : Keeps cfg.ks o id K s s' := fun hw =>
  ⟨h.wf hl hw, fun k i => i.other (h.other fun e => (ht k).she (by rw [e, hid]; exact She.typeOf_sheId ..))⟩

theorem she_keeps (hs : Sound cfg) (v : Srv) (e : She.Env) (t : She.St) {r : Req} (hb : r.size ≤ r.buf.length)
    {o : Meta × List UInt8} {id : UInt16} {K : Prop} (ht : K → Target o id) (s : Sys) :
    Keeps cfg.ks o id K s (She.handle cfg.she v e t s r).2.2 := fun hw => by
  have hz : cfg.she.cr.Sized := ⟨fun k b => (hs.aes k b).1, fun k b => (hs.aes k b).2.1, fun k b => (hs.aes k b).2.2⟩
  have hd := She.handle_did (cfg := cfg.she) (v := v) (env := e) (t := t) hw hz hb
  generalize (She.handle cfg.she v e t s r).2.2 = s' at hd ⊢
  cases hd with
  | reads h => exact reads_keeps ht h hw
  | ram h1 hid hl h2 => exact ((reads_keeps ht h1).trans (wrote_keeps ht hid hl h2)) hw
  | seed h1 hv h2 hl h3 =>
    exact (((reads_keeps ht h1).trans (reads_keeps ht h2)).trans (wrote_keeps ht rfl (by rw [hl]; rfl) h3)) hw
  | load ha h1 hk hh hc h2 hid hn hcnt hl h3 h4 =>
    exact ((((reads_keeps ht h1).trans (reads_keeps ht h2)).trans (wrote_keeps ht hid hl h3)).trans (reads_keeps ht h4)) hw

/-! ## Certificate group -/

theorem certStep_keeps (hs : Sound cfg) (s : Cert.State) (ev : Cert.Ev E) (h1 : ∀ sys, ev ≠ .other sys)
    (h2 : ∀ sys, ev ≠ .restart sys) {o : Meta × List UInt8} {id : UInt16} {K : Prop} (ht : K → Target o id)
    (hd : K → hasFlag o.1.flags Flag.nonDestroyable = true) :
    Keeps cfg.ks o id K s.sys (Cert.step cfg.cert s ev).sys := fun hw => by
  refine ⟨?_, fun k i => ImgMgr.prof47_cert (cfg := cfg.cert) hs.big hw (ht k).nonMod (hd k) ⟨(ht k).wrapped, (ht k).she⟩ i h1 h2⟩
  cases ev with
  | init lock => simp only [Cert.step, Cert.certInit]; split <;> exact hw
  | add nl lock md cert =>
    simp only [Cert.step]
    split
    · unfold Cert.addTrusted
      split
      · exact hw
      · dsimp only
        rw [Cert.evicting_nvm]
        exact ImgMgr.add_wf hw (by rw [List.length_take]; omega)
    · exact hw
  | erase nl lock i =>
    simp only [Cert.step]
    split
    · unfold Cert.eraseTrusted
      dsimp only
      have : WF (Cert.evicting cfg.cert { s with sys := { s.sys with nvm := (s.sys.nvm.destroy [i]).2 } }
          (s.sys.nvm.destroy [i]).1 lock i).2.sys := by
        rw [Cert.evicting_nvm]; exact ImgMgr.destroy_wf hw [i]
      split
      · split
        · exact hw
        · exact this
      · exact this
      · exact hw
    · exact hw
  | verify nl c n k =>
    simp only [Cert.step]
    split
    · exact (ImgMgr.verifyMulti_moves (cfg := cfg.cert) hs.big hw).wf hw
    · exact hw
  | clear nl lock => simp only [Cert.step]; split <;> exact hw
  | enable nl lock b => simp only [Cert.step]; split <;> exact hw
  | restart sys => exact absurd rfl (h2 _)
  | other sys => exact absurd rfl (h1 _)

theorem readChecked_pending (m : Nat) (n : Nvm) (nl : Rc) (i : UInt16) (b : Nat) :
    (Cert.readChecked m n nl i b).2.pending = n.pending := by
  unfold Cert.readChecked
  split
  · rfl
  · split
    · split
      · rfl
      · exact ImgMgr.readTrusted_pending ..
    · rfl

theorem verifyAcert_pending (c : Cert.Cfg E) (n : Nvm) (i : UInt16) (d : Cert.Der) :
    (Cert.verifyAcert c n i d).2.pending = n.pending := by
  have h := ImgMgr.readTrusted_pending c.maxCert n i c.maxCert
  unfold Cert.verifyAcert
  split
  · next he => rw [he] at h; exact h
  · next he => rw [he] at h; exact h

theorem cert_keeps (hs : Sound cfg) (x : Nat) (client : UInt16) (e : CertMsg.Env E) (r : Req) (s : Cert.State)
    {o : Meta × List UInt8} {id : UInt16} {K : Prop} (ht : K → Target o id)
    (hd : K → hasFlag o.1.flags Flag.nonDestroyable = true) :
    Keeps cfg.ks o id K s.sys (CertMsg.handle cfg.certMsg x client e r s).2.sys := by
  have st : ∀ ev, (∀ sys, ev ≠ .other sys) → (∀ sys, ev ≠ .restart sys) →
    Keeps cfg.ks o id K s.sys (Cert.step cfg.cert s ev).sys := fun ev h1 h2 => certStep_keeps hs s ev h1 h2 ht hd
  unfold CertMsg.handle CertMsg.serve
  cases hdec : CertMsg.decode cfg.certMsg e r with
  | unknown => exact .refl _
  | bad rc => exact .refl _
  | job j =>
    dsimp only
    cases j with
    | init => exact st (.init e.cacheLock) (by simp) (by simp)
    | add md cert =>
      have := st (.add e.nvmLock e.cacheLock md cert) (by simp) (by simp)
      simp only [CertMsg.perform]
      simp only [Cert.step] at this
      by_cases hn : e.nvmLock = .ok
      · rw [if_neg (not_not_intro hn)]; rw [if_pos hn] at this; exact this
      · rw [if_pos hn]; exact .refl _
    | erase i =>
      have := st (.erase e.nvmLock e.cacheLock i) (by simp) (by simp)
      simp only [CertMsg.perform]
      simp only [Cert.step] at this
      by_cases hn : e.nvmLock = .ok
      · rw [if_neg (not_not_intro hn)]; rw [if_pos hn] at this; exact this
      · rw [if_pos hn]; exact .refl _
    | read i => exact Keeps.same (CertMsg.readChecked_keeps ..).1 (readChecked_pending ..)
    | readDma i addr len => exact Keeps.same (CertMsg.readChecked_keeps ..).1 (readChecked_pending ..)
    | verify mem len roots f kf ki =>
      have := st (.verify e.nvmLock ⟨x, e.x509, e.sched, mem, roots, f, kf⟩ len
        (KeyId.fromClient cfg.cert.ks.ids KeyId.typeCrypto client ki)) (by simp) (by simp)
      simp only [CertMsg.perform]
      simp only [Cert.step] at this
      by_cases hn : e.nvmLock = .ok
      · rw [if_neg (not_not_intro hn)]; rw [if_pos hn] at this; exact this
      · rw [if_pos hn]; exact .refl _
    | clear =>
      simp only [CertMsg.perform]
      split <;> exact .refl _
    | enable b =>
      simp only [CertMsg.perform]
      split <;> exact .refl _
    | acert root cert =>
      simp only [CertMsg.perform]
      split
      · exact .refl _
      · exact Keeps.same (CertMsg.verifyAcert_keeps ..).1 (verifyAcert_pending ..)

end WolfHsm.Device

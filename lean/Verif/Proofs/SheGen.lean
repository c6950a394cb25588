import Verif.Proofs.SheAccept
import Verif.Proofs.Utils

/-! # Loading generated messages -/

namespace WolfHsm.She

open NvmFlash (Meta)
open Keystore hiding Req Ev Cfg step run Reach run_cons
open Server (Req)
open Wire
open Utils (bytes32 read32)

variable {cfg : Cfg} {ncfg : NvmServer.Cfg}

/-! ## Reading with a medium that works -/

theorem readSlot_view {v : Srv} {s : Sys} {slot : UInt16} {md : Meta} {key : List UInt8} (hw : WF s) (hf : Fine s.nvm)
    (hv : view cfg.ks v.ctx s (sheId cfg v.client slot) = some (md, key)) (hl : key.length = 16) :
    (readSlot cfg v s slot).1 = (.ok, some (md, key)) := by
  unfold readSlot
  cases hc : cached cfg.ks v.ctx s (sheId cfg v.client slot) with
  | none =>
    simp only [view, hc] at hv
    exact readKey_stored hf (typeOf_sheId ..) hc hv (hw.nvm _ _ _ hv).2 (by omega) (by omega)
  | some k =>
    simp only [view, hc, Option.some.injEq, Prod.mk.injEq] at hv
    obtain ⟨e1, e2⟩ := hv
    have h1 : KeyId.isUnassigned (sheId cfg v.client slot) = false := by
      unfold KeyId.isUnassigned; rw [typeOf_sheId]; simp
    have h2 : isHw cfg.ks (sheId cfg v.client slot) = false := by
      unfold isHw; rw [typeOf_sheId]; simp [KeyId.typeShe, KeyId.typeHw]
    have hcl : k.md.len.toNat = k.data.length := by
      rw [cached_eq] at hc; exact hw.clen _ _ _ hc
    unfold readKey
    simp only [h1, h2, hc, Bool.false_eq_true, if_false]
    rw [if_neg (by rw [hcl, e2, hl]; decide), e1, e2]

theorem readSlot_none {v : Srv} {s : Sys} {slot : UInt16}
    (hv : view cfg.ks v.ctx s (sheId cfg v.client slot) = none) :
    (readSlot cfg v s slot).1 = sheFallback cfg.ks (sheId cfg v.client slot) .notfound := by
  have h1 : KeyId.isUnassigned (sheId cfg v.client slot) = false := by
    unfold KeyId.isUnassigned; rw [typeOf_sheId]; simp
  have h2 : isHw cfg.ks (sheId cfg v.client slot) = false := by
    unfold isHw; rw [typeOf_sheId]; simp [KeyId.typeShe, KeyId.typeHw]
  have h3 : (KeyId.typeOf (sheId cfg v.client slot) == KeyId.typeWrapped) = false := by rw [typeOf_sheId]; decide
  cases hc : cached cfg.ks v.ctx s (sheId cfg v.client slot) with
  | some k => simp [view, hc] at hv
  | none =>
    simp only [view, hc] at hv
    unfold readSlot readKey
    simp only [h1, h2, h3, hc, Nvm.metadata_none hv, Bool.false_eq_true, if_false]

/-! ## The messages -/

theorem xor_xor {a iv : List UInt8} (h : a.length = iv.length) : xorBytes (xorBytes a iv) iv = a := by
  induction a generalizing iv with
  | nil => cases iv <;> simp [xorBytes]
  | cons x a ih =>
    cases iv with
    | nil => simp at h
    | cons y iv =>
      simp only [List.length_cons, Nat.add_right_cancel_iff] at h
      have := ih h
      simp only [xorBytes] at this ⊢
      simp only [List.zipWith_cons_cons, this, UInt8.xor_assoc, UInt8.xor_self, UInt8.xor_zero]

theorem cbc_inv (hs : cfg.cr.Sized) (hd : ∀ k b, b.length = 16 → cfg.cr.dec k (cfg.cr.enc k b) = b) (key : List UInt8) :
    ∀ (n : Nat) (iv d : List UInt8), iv.length = 16 → d.length = 16 * n →
      cbcDec cfg.cr key n iv (cbcEnc cfg.cr key n iv d) = d
  | 0, iv, d, _, h => by
    have : d = [] := List.eq_nil_of_length_eq_zero (by omega)
    subst this; rfl
  | n + 1, iv, d, hiv, h => by
    simp only [cbcEnc, cbcDec]
    have hl : (cfg.cr.enc key (xorBytes (d.take 16) iv)).length = 16 := hs.enc ..
    have e1 : List.take 16 (cfg.cr.enc key (xorBytes (d.take 16) iv) ++
        cbcEnc cfg.cr key n (cfg.cr.enc key (xorBytes (d.take 16) iv)) (d.drop 16)) =
        cfg.cr.enc key (xorBytes (d.take 16) iv) := List.take_left' hl
    have e2 : List.drop 16 (cfg.cr.enc key (xorBytes (d.take 16) iv) ++
        cbcEnc cfg.cr key n (cfg.cr.enc key (xorBytes (d.take 16) iv)) (d.drop 16)) =
        cbcEnc cfg.cr key n (cfg.cr.enc key (xorBytes (d.take 16) iv)) (d.drop 16) := List.drop_left' hl
    rw [e1, e2, hd _ _ (by rw [xorBytes_length]; simp; omega), xor_xor (by simp; omega),
      cbc_inv hs hd key n _ _ hl (by simp; omega), List.take_append_drop]

theorem popAuth_id {uid : List UInt8} {k a : UInt8} (hu : uid.length = 15) (ha : a.toNat ≤ 15) :
    popAuth (uid ++ [idByte k a]) = a.toUInt16 := by
  unfold popAuth
  have : (uid ++ [idByte k a]).getD 15 0 = idByte k a := by
    rw [List.getD_eq_getElem?_getD, List.getElem?_append_right (by omega)]; simp [hu]
  rw [this]
  unfold idByte
  apply UInt16.toNat_inj.1
  simp only [UInt8.toNat_toUInt16, UInt8.toNat_and, UInt8.toNat_or, UInt8.toNat_shiftLeft]
  apply Nat.eq_of_testBit_eq
  intro i
  have h15 : (15 : UInt8).toNat = 2 ^ 4 - 1 := rfl
  have h4 : (4 : UInt8).toNat % 8 = 4 := rfl
  rw [h15, h4, Nat.and_two_pow_sub_one_eq_mod, Nat.testBit_mod_two_pow, Nat.testBit_or, Nat.testBit_mod_two_pow,
    Nat.testBit_shiftLeft]
  by_cases hi : i < 4
  · simp [hi]
  · rw [Nat.testBit_lt_two_pow (x := a.toNat) (Nat.lt_of_lt_of_le (by omega : a.toNat < 2 ^ 4) (Nat.pow_le_pow_right (by decide) (by omega)))]
    simp [hi]

theorem popId_id {uid : List UInt8} {k a : UInt8} (hu : uid.length = 15) (hk : k.toNat ≤ 15) (ha : a.toNat ≤ 15) :
    popId (uid ++ [idByte k a]) = k.toUInt16 := by
  unfold popId
  have : (uid ++ [idByte k a]).getD 15 0 = idByte k a := by
    rw [List.getD_eq_getElem?_getD, List.getElem?_append_right (by omega)]; simp [hu]
  rw [this]
  unfold idByte
  have hh : ∀ k a : Fin 16, (((UInt8.ofNat k.val <<< 4 ||| UInt8.ofNat a.val) &&& 0xf0) >>> 4).toUInt16 = (UInt8.ofNat k.val).toUInt16 := by
    decide +kernel
  have := hh ⟨k.toNat, by omega⟩ ⟨a.toNat, by omega⟩
  simpa using this

theorem idByte_pop {k a : UInt8} (hk : k.toNat ≤ 15) (ha : a.toNat ≤ 15) :
    (k.toUInt16 <<< 4 ||| a.toUInt16).toUInt8 = idByte k a := by
  have hh : ∀ k a : Fin 16, ((UInt8.ofNat k.val).toUInt16 <<< 4 ||| (UInt8.ofNat a.val).toUInt16).toUInt8 =
      idByte (UInt8.ofNat k.val) (UInt8.ofNat a.val) := by decide +kernel
  have := hh ⟨k.toNat, by omega⟩ ⟨a.toNat, by omega⟩
  simpa using this

/-- The clear M2 of the generator. -/
def genClear (count flags : UInt32) (key : List UInt8) : List UInt8 :=
  bytes32 false ((count <<< 4) ||| flags) ++ zeros 12 ++ key

theorem genWord {count flags : UInt32} (hc : count.toNat < 2 ^ 28) (hf : flags.toNat < 16) :
    ((count <<< 4) ||| flags).toNat = count.toNat * 16 + flags.toNat := by
  rw [UInt32.toNat_or, UInt32.toNat_shiftLeft]
  have : (4 : UInt32).toNat % 32 = 4 := rfl
  rw [this, Nat.shiftLeft_eq, Nat.mod_eq_of_lt (by omega)]
  have := Nat.two_pow_add_eq_or_of_lt (i := 4) (b := flags.toNat) (by omega) count.toNat
  rw [Nat.mul_comm] at this
  omega

theorem popCount_gen {count flags : UInt32} {key : List UInt8} (hc : count.toNat < 2 ^ 28) (hf : flags.toNat < 16) :
    popCount (genClear count flags key) = count := by
  unfold popCount genClear
  have : List.take 4 (bytes32 false ((count <<< 4) ||| flags) ++ zeros 12 ++ key) = bytes32 false ((count <<< 4) ||| flags) := by
    rw [List.append_assoc, List.take_left' (by simp [bytes32])]
  rw [this, Utils.read32_bytes32, Option.getD_some]
  apply UInt32.toNat_inj.1
  rw [UInt32.toNat_shiftRight, genWord hc hf]
  have : (4 : UInt32).toNat % 32 = 4 := rfl
  rw [this, Nat.shiftRight_eq_div_pow]; omega

theorem popFlags_gen {count flags : UInt32} {key : List UInt8} (hc : count.toNat < 2 ^ 28) (hf : flags.toNat < 16) :
    popFlags (genClear count flags key) = flags <<< 4 := by
  unfold popFlags genClear
  have e1 : (bytes32 false ((count <<< 4) ||| flags) ++ zeros 12 ++ key).getD 3 0 = ((count <<< 4) ||| flags).toUInt8 := by
    simp [bytes32]
  have e2 : (bytes32 false ((count <<< 4) ||| flags) ++ zeros 12 ++ key).getD 4 0 = 0 := by
    simp [bytes32, zeros]
  rw [e1, e2]
  apply UInt32.toNat_inj.1
  have h4 : (4 : UInt32).toNat % 32 = 4 := rfl
  have h15 : (15 : UInt8).toNat = 2 ^ 4 - 1 := rfl
  rw [show (((0 : UInt8) &&& 0x80) >>> 7).toUInt32 = 0 from by decide, UInt32.or_zero, UInt32.toNat_shiftLeft, UInt32.toNat_shiftLeft,
    h4, UInt8.toNat_toUInt32, UInt8.toNat_and, UInt32.toNat_toUInt8, genWord hc hf, h15, Nat.and_two_pow_sub_one_eq_mod]
  congr 2
  omega

theorem countBlock_gen (c : UInt32) : countBlock c = bytes32 false ((c <<< 4) ||| 8) ++ zeros 12 := by
  unfold countBlock bytes32
  have hsh : ∀ (n : UInt32) (x : UInt32), n.toNat % 32 = n.toNat → 4 ≤ n.toNat → ((x ||| 8) >>> n).toUInt8 = (x >>> n).toUInt8 := by
    intro n x hn h
    apply UInt8.toNat_inj.1
    rw [UInt32.toNat_toUInt8, UInt32.toNat_toUInt8, UInt32.toNat_shiftRight, UInt32.toNat_shiftRight, UInt32.toNat_or, hn,
      Nat.shiftRight_or_distrib]
    have : (8 : UInt32).toNat >>> n.toNat = 0 := by
      rw [Nat.shiftRight_eq_div_pow]
      apply Nat.div_eq_of_lt
      exact Nat.lt_of_lt_of_le (by decide : (8 : UInt32).toNat < 2 ^ 4) (Nat.pow_le_pow_right (by decide) h)
    rw [this, Nat.or_zero]
  have h0 : ((c <<< 4) ||| 8).toUInt8 = (c <<< 4).toUInt8 ||| 8 := by
    apply UInt8.toNat_inj.1
    rw [UInt32.toNat_toUInt8, UInt8.toNat_or, UInt32.toNat_or, UInt32.toNat_toUInt8, Nat.or_mod_two_pow (n := 8)]
    rfl
  simp only [Bool.false_eq_true, if_false, List.reverse_cons, List.reverse_nil, List.nil_append, List.cons_append, List.take,
    List.getD_cons_succ, List.getD_cons_zero]
  rw [hsh 24 _ rfl (by decide), hsh 16 _ rfl (by decide), hsh 8 _ rfl (by decide), h0]

/-! ## The load -/

theorem openM2_good {v : Srv} {env : Env} {s : Sys} {a b c key : List UInt8} {amd : Meta}
    (hfa : ∀ k, env.fault k = false) (hr : (readSlot cfg v s (popAuth a)).1 = (.ok, some (amd, key)))
    (hk : key.length = 16) (hm : c = cfg.cr.cmac (mp16 cfg.cr (key ++ macC)) (a ++ b)) :
    openM2 cfg v env s a b c =
      (.ok (cbcDec cfg.cr (mp16 cfg.cr (key ++ encC)) 2 (zeros 16) b), (readSlot cfg v s (popAuth a)).2) := by
  rcases hq : readSlot cfg v s (popAuth a) with ⟨q, s1⟩
  rw [hq] at hr
  dsimp only at hr
  subst hr
  unfold openM2
  rw [hq]
  dsimp only
  rw [if_neg (by simp [hk]), hfa, hfa, hfa, if_neg (by simp), if_neg (by simp), if_neg (by simp [hm]), if_neg (by simp)]

theorem target_good {v : Srv} {s : Sys} {slot : UInt16} {count : Nat} (hw : WF s) (hf : Fine s.nvm)
    (h : Updatable cfg v s slot count) :
    ∃ rc md, target cfg v s slot = (.ok (rc, md), (readSlot cfg v s slot).2) ∧
      (rc = .notfound ∨ labelCount md.label < count) := by
  rcases h with ⟨hv, hc⟩ | ⟨md, key, hv, hk, hwp, hc⟩
  · have hr := readSlot_none (cfg := cfg) (v := v) hv
    rcases hq : readSlot cfg v s slot with ⟨q, s1⟩
    rw [hq] at hr
    dsimp only at hr
    unfold sheFallback at hr
    split at hr
    · subst hr
      refine ⟨.ok, (sheMasterZero (sheId cfg v.client slot)).1, ?_, Or.inr ?_⟩
      · unfold target; rw [hq]; dsimp only [sheMasterZero]
        rw [if_neg (by simp), if_neg (by simp [isWp, labelFlags])]
      · simpa [sheMasterZero, labelCount] using hc
    · subst hr
      refine ⟨.notfound, metaLeft cfg v s slot, ?_, Or.inl rfl⟩
      unfold target; rw [hq]; dsimp only
      rw [if_pos (Or.inl rfl)]
  · have hr := readSlot_view hw hf hv hk
    rcases hq : readSlot cfg v s slot with ⟨q, s1⟩
    rw [hq] at hr
    dsimp only at hr
    subst hr
    refine ⟨.ok, md, ?_, Or.inr hc⟩
    unfold target; rw [hq]; dsimp only
    rw [if_neg (by simp [hk]), if_neg (by simp [hwp])]

theorem accept_good {t : St} {m1 m2 : List UInt8} {rc : Rc} {md : Meta} (hz : m1.take 15 ≠ zeros 15)
    (hu : m1.take 15 = t.uid) (hc : rc = .notfound ∨ labelCount md.label < (popCount m2).toNat) :
    accept t m1 m2 rc md = .ok := by
  unfold accept
  dsimp only
  rw [if_neg hz, if_pos hu, if_neg]
  rintro ⟨_, h2, h3⟩
  rcases hc with h | h
  · exact h2 h
  · omega

theorem put_kdf {key c : List UInt8} (hk : key.length = 16) (hc : c.length = 16) :
    (put key 16 c).take (16 + 16) = key ++ c := by
  unfold put
  rw [List.take_of_length_le (by omega : key.length ≤ 16), List.drop_eq_nil_of_le (by omega), List.append_nil,
    List.take_of_length_le (by simp; omega)]

theorem answer_good {env : Env} {t : St} {m : List UInt8} {md : Meta} {key uid : List UInt8} {k a : UInt8} {count flags : UInt32}
    (hfa : ∀ k, env.fault k = false) (hm : m = uid ++ [idByte k a]) (hu : t.uid = uid) (hul : uid.length = 15)
    (hk : k.toNat ≤ 15) (ha : a.toNat ≤ 15) (hkl : key.length = 16) (hlen : md.len = 16)
    (hl : labelCount md.label = count.toNat) {ak : List UInt8} {u : Update}
    (hg : generate cfg.cr k a count flags uid key ak = some u) :
    answer cfg env t m md key = (.ok, u.m4 ++ u.m5) := by
  unfold generate at hg
  split at hg
  · cases hg
  dsimp only at hg
  cases hg
  unfold answer
  have e16 : md.len.toNat = 16 := by rw [hlen]; rfl
  dsimp only
  rw [hfa, hfa, if_neg (by simp), if_neg (by simp), e16, put_kdf hkl rfl, put_kdf hkl rfl, hl, UInt32.ofNat_toNat, countBlock_gen,
    hm, popId_id hul hk ha, popAuth_id hul ha, idByte_pop hk ha, hu]

/-- Loading what the generator made. -/
theorem loadKey_generated {v : Srv} {env : Env} {t : St} {s : Sys} {r : Req} (hw : WF s) (hs : cfg.cr.Sized)
    (hd : ∀ k b, b.length = 16 → cfg.cr.dec k (cfg.cr.enc k b) = b)
    (hf : Fine s.nvm) (hfa : ∀ k, env.fault k = false) {k a : UInt8} {count flags : UInt32} {uid key ak : List UInt8}
    {u : Update} (hg : generate cfg.cr k a count flags uid key ak = some u)
    (hsz : 64 ≤ r.size) (hm1 : m1 r = u.m1) (hm2 : m2 r = u.m2) (hm3 : m3 r = u.m3)
    (hu : t.uid = uid) (hul : uid.length = 15) (huz : uid ≠ zeros 15) (hkl : key.length = 16) (hal : ak.length = 16)
    (hc : count.toNat < 2 ^ 28) (hfl : flags.toNat < 16) (h14 : k ≠ 14)
    {amd : Meta} (hauth : (readSlot cfg v s a.toUInt16).1 = (.ok, some (amd, ak)))
    (htar : Updatable cfg v (readSlot cfg v s a.toUInt16).2 k.toUInt16 count.toNat) :
    ∃ md s', loadKey cfg v env t s r = ⟨.ok, u.m4 ++ u.m5, 52, t, s'⟩ ∧ Fine s'.nvm ∧
      s'.nvm.store = s.nvm.store.set md key ∧ md.id = sheId cfg v.client k.toUInt16 ∧ md.len = 16 ∧
      labelCount md.label = count.toNat ∧ labelFlags md.label = flags.toNat * 16 := by
  have hka : k.toNat ≤ 15 ∧ a.toNat ≤ 15 := by
    unfold generate at hg
    split at hg
    · cases hg
    · rename_i h
      simp only [gt_iff_lt, UInt8.lt_iff_toNat_lt, not_or, Nat.not_lt] at h
      exact h
  have hu1 : u.m1 = uid ++ [idByte k a] := by
    unfold generate at hg; split at hg
    · cases hg
    · cases hg; rfl
  have hu2 : u.m2 = cbcEnc cfg.cr (mp16 cfg.cr (ak ++ encC)) 2 (zeros 16) (genClear count flags key) := by
    unfold generate at hg; split at hg
    · cases hg
    · cases hg; rfl
  have hu3 : u.m3 = cfg.cr.cmac (mp16 cfg.cr (ak ++ macC)) (u.m1 ++ u.m2) := by
    unfold generate at hg; split at hg
    · cases hg
    · cases hg; rfl
  have hpa : popAuth (m1 r) = a.toUInt16 := by rw [hm1, hu1, popAuth_id hul hka.2]
  have hpi : popId (m1 r) = k.toUInt16 := by rw [hm1, hu1, popId_id hul hka.1 hka.2]
  have ho := openM2_good (cfg := cfg) (v := v) (env := env) (s := s) (a := m1 r) (b := m2 r) (c := m3 r) hfa
    (by rw [hpa]; exact hauth) hal (by rw [hm1, hm2, hm3, hu3])
  have hcl : cbcDec cfg.cr (mp16 cfg.cr (ak ++ encC)) 2 (zeros 16) (m2 r) = genClear count flags key := by
    rw [hm2, hu2]
    exact cbc_inv hs hd _ 2 _ _ (zeros_length 16) (by simp [genClear, bytes32, zeros, hkl])
  rw [hcl, hpa] at ho
  have hrd := readSlot_reads (cfg := cfg) (v := v) (s := s) a.toUInt16 hw
  have hf1 := readKey_fine (cfg := cfg) (x := v.ctx) (s := s) (id := sheId cfg v.client a.toUInt16) (n := 16) hf
  change Fine (readSlot cfg v s a.toUInt16).2.nvm at hf1
  generalize hs1 : (readSlot cfg v s a.toUInt16).2 = s1 at *
  have hw1 := hrd.wf hw
  obtain ⟨rc, md0, ht, hct⟩ := target_good hw1 hf1 htar
  have hrd2 := readSlot_reads (cfg := cfg) (v := v) (s := s1) k.toUInt16 hw1
  have hf2 := readKey_fine (cfg := cfg) (x := v.ctx) (s := s1) (id := sheId cfg v.client k.toUInt16) (n := 16) hf1
  change Fine (readSlot cfg v s1 k.toUInt16).2.nvm at hf2
  generalize hs2 : (readSlot cfg v s1 k.toUInt16).2 = s2 at *
  have hw2 := hrd2.wf hw1
  have hacc : accept t (m1 r) (genClear count flags key) rc md0 = .ok := by
    have : (m1 r).take 15 = uid := by rw [hm1, hu1]; exact List.take_left' hul
    refine accept_good (by rw [this]; exact huz) (by rw [this, hu]) ?_
    rw [popCount_gen hc hfl]; exact hct
  have hkey : (List.drop 16 (genClear count flags key)).take 16 = key := by
    unfold genClear
    rw [List.drop_left' (by simp [bytes32, zeros]), List.take_of_length_le (by omega)]
  have hid : KeyId.idOf (newMeta cfg v (m1 r) (genClear count flags key) md0).id = k.toUInt16 := by
    rw [show (newMeta cfg v (m1 r) (genClear count flags key) md0).id = sheId cfg v.client (popId (m1 r)) from rfl, idOf_popId, hpi]
  have hk14 : k.toUInt16 ≠ 14 := by
    intro h
    apply h14
    apply UInt8.toNat_inj.1
    have := congrArg UInt16.toNat h
    simpa using this
  obtain ⟨s3, hst, hf3, hstore⟩ := store_fine (cfg := cfg) (v := v) (s := s2)
    (md := newMeta cfg v (m1 r) (genClear count flags key) md0) (key := key) hw2 hf2 (by rw [hkl]; rfl) hkl
    (typeOf_sheId ..) (by rw [hid]; exact hk14)
  have hlc : labelCount (newMeta cfg v (m1 r) (genClear count flags key) md0).label = count.toNat := by
    show labelCount (setLabel md0.label _ _) = _
    rw [labelCount_setLabel, popCount_gen hc hfl]
  have hlf : labelFlags (newMeta cfg v (m1 r) (genClear count flags key) md0).label = flags.toNat * 16 := by
    show labelFlags (setLabel md0.label _ _) = _
    rw [labelFlags_setLabel, popFlags_gen hc hfl, UInt32.toNat_shiftLeft]
    have h4 : (4 : UInt32).toNat % 32 = 4 := rfl
    rw [h4, Nat.shiftLeft_eq, Nat.mod_eq_of_lt (by omega)]
  have hans := answer_good (cfg := cfg) (env := env) (t := t) (m := m1 r)
    (md := newMeta cfg v (m1 r) (genClear count flags key) md0) hfa (hm1.trans hu1) hu hul hka.1 hka.2 hkl rfl hlc hg
  refine ⟨newMeta cfg v (m1 r) (genClear count flags key) md0, s3, ?_, hf3, ?_, ?_, rfl, hlc, hlf⟩
  · unfold loadKey
    dsimp only
    rw [if_neg (by omega)]
    change (match openM2 cfg v env s (m1 r) (m2 r) (m3 r) with
      | (.error e, s1) => (⟨e, zeros 48, 52, t, s1⟩ : Res)
      | (.ok m2, s1) => _) = _
    rw [ho]
    dsimp only
    change (match target cfg v s1 (popId (m1 r)) with
      | (.error e, s2) => (⟨e, zeros 48, 52, t, s2⟩ : Res)
      | (.ok (keyRet, md), s2) => _) = _
    rw [hpi, ht]
    dsimp only
    rw [show rdBytes r.buf 0 16 = m1 r from rfl, if_pos hacc, hkey, hst]
    dsimp only
    rw [hans]
    dsimp only
    rw [if_neg]
    rintro ⟨_, h⟩
    rw [hid] at h; exact hk14 h
  · rw [hstore, Reads.store hrd2, Reads.store hrd]
  · show sheId cfg v.client (popId (m1 r)) = _
    rw [hpi]

end WolfHsm.She

import Verif.Spec.ClientStream
import Verif.Props.ClientCrypto

/-!
# Lemmas for ciphers and MACs in several calls (C64)
-/

namespace WolfHsm.ClientStream

open ClientCrypto
open ClientHash (Ret Reply)
open CryptoMsg (Roomy)
open Crypto (aesLen)

variable {cfg : CryptoMsg.Cfg} {f : Cfg} {ok : Keystore.Srv → Keystore.Sys → Prop} {t : Turn} {w : Want} {c : Call}

/-! ## One request -/

theorem ask_refused {rc : Rc} (h : refusal f.n f.dataLen c = some rc) : f.ask t w c = (rc.code, none) := by
  unfold Cfg.ask run send
  rw [h]

/-- A request that is sent fails or is carried out. -/
theorem ask_cases (hroom : Roomy cfg f.dataLen) (hag : Agree f.n cfg.codes c.op) (hc : c.Sane)
    (hr : refusal f.n f.dataLen c = none) (hi : idle c = false) (hw : width c = 0 ∨ c.bytes < width c)
    (hf : Fair cfg f ok t c) :
    (∃ rc, rc ≠ 0 ∧ f.ask t w c = (rc, none)) ∨
      ∃ v e s o, ok v s ∧ (performed cfg v e (c.asks e.coins) s).1 = some (.ok o) ∧ f.ask t w c = c.result w o := by
  have hlen := bytes_eq (n := f.n) (cle := f.le) (a := t.affinity) (pad := t.pad) hc
  by_cases hb : c.bytes ≤ f.dataLen
  · have hsend := send_whole (n := f.n) (cle := f.le) (a := t.affinity) (pad := t.pad) hc hr hi hb hroom.short
    have hrun : ∀ peer, run f.n f.le f.dataLen t.affinity t.pad w peer c =
        match peer (request f.n f.le t.affinity t.pad c) with
        | .unsent rc | .lost rc => (rc, none)
        | .got R => receive f.n f.le w c R := by
      intro peer
      unfold run
      rw [hsend]
      dsimp only
      rw [List.take_length]
      cases peer (request f.n f.le t.affinity t.pad c) <;> rfl
    rcases hf with ⟨rc, h0, hp | hp⟩ | ⟨seq, v, e, junk, s, hok, hp, hx⟩
    · exact .inl ⟨rc, h0, by unfold Cfg.ask; rw [hrun, hp]⟩
    · exact .inl ⟨rc, h0, by unfold Cfg.ask; rw [hrun, hp]⟩
    · obtain ⟨b, -, -, -, h1, h2⟩ := Props.C56_call_partial hroom f.le c hag hc hr hi hb t.affinity t.pad w v e seq junk s
      have hsame : f.ask t w c = run f.n f.le f.dataLen t.affinity t.pad w
          (fun b => .got (served cfg f.le (f.n.code c.op).action seq v e junk s b).1) c := by
        unfold Cfg.ask
        rw [hrun, hrun, hp]
      rcases hx with ⟨o, ho⟩ | ⟨rc, ho, hrc⟩
      · exact .inr ⟨v, e, s, o, hok, ho, hsame.trans (h1 o ho)⟩
      · exact .inl ⟨rc.code, (fun h => by rw [h] at hrc; exact absurd hrc (by decide)), hsame.trans (h2 rc ho hrc)⟩
  · refine .inl ⟨Rc.badargs.code, by decide, ?_⟩
    have hm : (request f.n f.le t.affinity t.pad c).length % width c = c.bytes := by
      rw [hlen]
      rcases hw with h | h
      · rw [h, Nat.mod_zero]
      · exact Nat.mod_eq_of_lt h
    unfold Cfg.ask run send
    rw [hr]
    dsimp only
    rw [hi, if_neg (by decide), if_neg (by rw [hm]; exact hb)]

/-! ## The server's key -/

theorem aesWith_ok {L : Crypto.Lib} {mode : Crypto.AesMode} {enc : Bool} {left : Nat} {input extra K : List UInt8}
    {g : List UInt8 × List UInt8 → Crypto.Out} {o : Crypto.Out}
    (h : (Crypto.aesWith L mode enc left input extra (.ok K)).map g = .ok o) :
    aesLen K.length = true ∧ ∃ out tail, L.aes mode enc left K input extra = .ok (out, tail) ∧ g (out, tail) = o := by
  unfold Crypto.aesWith at h
  dsimp only at h
  by_cases h1 : aesLen K.length = false
  · rw [if_pos h1] at h; cases h
  · rw [if_neg h1] at h
    refine ⟨by simpa using h1, ?_⟩
    by_cases h2 : mode = .ctr ∧ left > 16
    · rw [if_pos h2] at h; cases h
    · rw [if_neg h2] at h
      cases hx : L.aes mode enc left K input extra with
      | error rc => rw [hx] at h; cases h
      | ok q =>
        rw [hx] at h
        exact ⟨q.1, q.2, rfl, by cases h; rfl⟩

/-- An AES operation that succeeds is done with the key. -/
theorem aes_ok {v : Keystore.Srv} {e : CryptoMsg.Env} {s : Keystore.Sys} {mode : Crypto.AesMode} (hm : mode ≠ .gcm) {enc : Bool}
    {id : UInt16} {key input extra K : List UInt8} {left tagLen : Nat} {o : Crypto.Out} (hk : AesKey cfg id key K v s)
    (h : (performed cfg v e (.aes mode enc id key input extra left tagLen) s).1 = some (.ok o)) :
    aesLen K.length = true ∧ ∃ out tail, cfg.lib.aes mode enc left K input extra = .ok (out, tail) ∧ o.body = out ++ tail ∧
      o.res = if mode = .ctr then cfg.lib.aesLeft left input.length else 0 := by
  unfold performed Crypto.handler at h
  dsimp only at h
  unfold Crypto.aes at h
  rw [if_neg (fun h => hm h.1)] at h
  dsimp only at h
  unfold AesKey at hk
  by_cases he : KeyId.isErased (Crypto.own cfg.crypto v id) = true
  · rw [if_pos he] at h hk
    subst hk
    unfold CryptoMsg.exec at h
    obtain ⟨h1, out, tail, h2, h3⟩ := aesWith_ok (Option.some.inj h)
    exact ⟨h1, out, tail, h2, by rw [← h3], by rw [← h3]⟩
  · rw [if_neg he] at h hk
    unfold Crypto.read CryptoMsg.exec at h
    dsimp only at h
    rw [if_pos (show true = true from rfl)] at h
    split at h
    · cases hl : Crypto.loaded (Keystore.handle cfg.crypto.ks v s (e.locks 0) (.useKey id (Crypto.aesNeed enc) 32)).1 with
      | error rc =>
        rw [hl] at h
        unfold CryptoMsg.exec at h
        cases h
      | ok b =>
        have := hk _ _ _ hl
        subst this
        rw [hl] at h
        unfold CryptoMsg.exec at h
        obtain ⟨h1, out, tail, h2, h3⟩ := aesWith_ok (Option.some.inj h)
        exact ⟨h1, out, tail, h2, by rw [← h3], by rw [← h3]⟩
    · cases h

theorem bind_ok {r : Except Rc (List UInt8)} {g : List UInt8 → Crypto.Resp} {o : Crypto.Out} (h : r.bind g = .ok o) :
    ∃ b, r = .ok b ∧ g b = .ok o := by
  cases r with
  | error rc => cases h
  | ok b => exact ⟨b, rfl, h⟩

theorem chk_ok {r : Except Rc (List UInt8)} {b : List UInt8}
    (h : (r.bind fun b => if aesLen b.length then .ok b else .error Rc.aborted) = .ok b) : r = .ok b := by
  cases r with
  | error rc => cases h
  | ok a =>
    change (if aesLen a.length = true then Except.ok a else .error Rc.aborted) = .ok b at h
    split at h
    · exact h
    · cases h

/-- A CMAC operation that succeeds is done with the key. -/
theorem cmac_ok {v : Keystore.Srv} {e : CryptoMsg.Env} {s : Keystore.Sys} {id : UInt16} {key state input K : List UInt8}
    {outSz : Nat} {o : Crypto.Out} (hk : MacKey cfg id K v s) (hkey : key ≠ [] → key = K)
    (h : (performed cfg v e (.cmac id key state input outSz) s).1 = some (.ok o)) :
    Crypto.cmacWith cfg.lib id 48 state input outSz (input ≠ [] && outSz ≠ 0) K = .ok o := by
  unfold performed Crypto.handler at h
  dsimp only at h
  unfold Crypto.cmac Crypto.cmacKey at h
  dsimp only at h
  by_cases h0 : key ≠ []
  · rw [if_pos h0] at h
    have := hkey h0
    subst this
    exact Option.some.inj h
  · rw [if_neg h0] at h
    by_cases he : KeyId.isErased id = true
    · rw [if_pos he] at h
      cases Option.some.inj h
    · rw [if_neg he] at h
      obtain ⟨g1, g2⟩ := hk (by simpa using he)
      unfold Crypto.read CryptoMsg.exec at h
      dsimp only at h
      rw [if_pos (show true = true from rfl)] at h
      split at h
      · cases hl : Crypto.loaded (Keystore.handle cfg.crypto.ks v s (e.locks 0) (.useKey id Flag.usageSign 32)).1 with
        | ok b =>
          rw [hl] at h
          dsimp only at h
          obtain ⟨b', h1, h2⟩ := bind_ok (Option.some.inj h)
          have h3 := chk_ok h1
          cases h3
          rw [← g1 _ _ _ hl]
          exact h2
        | error rc =>
          rw [hl] at h
          by_cases hu : rc = .usage
          · subst hu
            dsimp only at h
            unfold CryptoMsg.exec at h
            dsimp only at h
            rw [if_pos (show true = true from rfl)] at h
            split at h
            · obtain ⟨b', h1, h2⟩ := bind_ok (Option.some.inj h)
              have h3 := chk_ok h1
              rw [← g2 _ _ _ _ _ h3]
              exact h2
            · cases h
          · cases rc <;> first | exact absurd rfl hu | cases Option.some.inj h
      · cases h

/-! ## Counter mode -/

theorem carry_length (l : List UInt8) : (carry l).length = l.length := by
  induction l with
  | nil => rfl
  | cons b l ih => unfold carry; split <;> simp [ih]

theorem count_length (iv : List UInt8) (i : Nat) : (count iv i).length = iv.length := by
  induction i with
  | zero => rfl
  | succ i ih => unfold count inc; rw [List.length_reverse, carry_length, List.length_reverse, ih]

theorem ctrText_length (E : List UInt8 → List UInt8) (iv : List UInt8) (p : Nat) (x : List UInt8) :
    (ctrText E iv p x).length = x.length := by simp [ctrText]

theorem ctrText_append (E : List UInt8 → List UInt8) (iv : List UInt8) (p : Nat) (x y : List UInt8) :
    ctrText E iv p (x ++ y) = ctrText E iv p x ++ ctrText E iv (p + x.length) y := by
  unfold ctrText
  rw [List.mapIdx_append]
  congr 1
  apply List.mapIdx_eq_mapIdx_iff.2
  intro i hi
  rw [Nat.add_comm i, Nat.add_assoc]

theorem ctrText_twice (E : List UInt8 → List UInt8) (iv : List UInt8) (p : Nat) (x : List UInt8) :
    ctrText E iv p (ctrText E iv p x) = x := by
  unfold ctrText
  apply List.ext_getElem
  · simp
  · intro i h1 h2
    simp only [List.getElem_mapIdx]
    rw [UInt8.xor_assoc, UInt8.xor_self, UInt8.xor_zero]

theorem ins_append (a b : List (List UInt8 × List UInt8)) : ins (a ++ b) = ins a ++ ins b := by simp [ins]
theorem outs_append (a b : List (List UInt8 × List UInt8)) : outs (a ++ b) = outs a ++ outs b := by simp [outs]

/-! ## CBC -/

theorem xor_length {a b : List UInt8} (h : a.length = b.length) : (xor a b).length = b.length := by
  unfold xor; rw [List.length_zipWith]; omega

theorem xor_twice : ∀ {a b : List UInt8}, a.length = b.length → xor (xor a b) b = a
  | [], [], _ => rfl
  | x :: a, y :: b, h => by
    unfold xor
    rw [List.zipWith_cons_cons, List.zipWith_cons_cons, UInt8.xor_assoc, UInt8.xor_self, UInt8.xor_zero]
    congr 1
    exact xor_twice (by simpa using h)

section
variable {E : List UInt8 → List UInt8} (hE : ∀ b, b.length = 16 → (E b).length = 16)
include hE

theorem cbcEnc_length : ∀ (n : Nat) (iv x : List UInt8), iv.length = 16 → x.length = 16 * n → (cbcEnc E n iv x).length = 16 * n
  | 0, _, _, _, _ => rfl
  | n + 1, iv, x, hiv, hx => by
    have h16 : (x.take 16).length = 16 := by rw [List.length_take]; omega
    have hb := hE (xor (x.take 16) iv) (by rw [xor_length (by omega), hiv])
    unfold cbcEnc
    rw [List.length_append, hb, cbcEnc_length n _ (x.drop 16) hb (by rw [List.length_drop]; omega)]
    omega

theorem lastBlock_append {iv a b : List UInt8} (hb : b ≠ [] → 16 ≤ b.length) : lastBlock iv (a ++ b) = lastBlock (lastBlock iv a) b := by
  by_cases h : b = []
  · subst h; simp [lastBlock]
  · have := hb h
    unfold lastBlock
    rw [if_neg (by simp [h]), if_neg h, List.length_append, List.drop_append, List.drop_eq_nil_of_le (by omega), List.nil_append]
    congr 1
    omega

end

theorem lastBlock_length {iv c : List UInt8} {n : Nat} (hiv : iv.length = 16) (hc : c.length = 16 * n) : (lastBlock iv c).length = 16 := by
  unfold lastBlock
  split
  · exact hiv
  · rename_i h
    have : c.length ≠ 0 := by simpa using h
    rw [List.length_drop]
    omega

theorem cbcEnc_succ (E : List UInt8 → List UInt8) (n : Nat) (iv x : List UInt8) :
    cbcEnc E (n + 1) iv x = E (xor (x.take 16) iv) ++ cbcEnc E n (E (xor (x.take 16) iv)) (x.drop 16) := rfl

theorem cbcDec_succ (D : List UInt8 → List UInt8) (n : Nat) (iv x : List UInt8) :
    cbcDec D (n + 1) iv x = xor (D (x.take 16)) iv ++ cbcDec D n (x.take 16) (x.drop 16) := rfl

theorem cbcEnc_append {E : List UInt8 → List UInt8} (hE : ∀ b, b.length = 16 → (E b).length = 16) :
    ∀ (n m : Nat) (iv x y : List UInt8), iv.length = 16 → x.length = 16 * n → y.length = 16 * m →
      cbcEnc E (n + m) iv (x ++ y) = cbcEnc E n iv x ++ cbcEnc E m (lastBlock iv (cbcEnc E n iv x)) y
  | 0, m, iv, x, y, hiv, hx, hy => by
    have : x = [] := List.eq_nil_of_length_eq_zero (by omega)
    subst this
    simp [cbcEnc, lastBlock]
  | n + 1, m, iv, x, y, hiv, hx, hy => by
    have h16 : (x.take 16).length = 16 := by rw [List.length_take]; omega
    have hb := hE (xor (x.take 16) iv) (by rw [xor_length (by omega), hiv])
    have hd : (x.drop 16).length = 16 * n := by rw [List.length_drop]; omega
    have ih := cbcEnc_append hE n m _ (x.drop 16) y hb hd hy
    have hl := cbcEnc_length hE n _ (x.drop 16) hb hd
    rw [show n + 1 + m = (n + m) + 1 by omega]
    rw [cbcEnc_succ, cbcEnc_succ, List.take_append_of_le_length (by omega), List.drop_append_of_le_length (by omega), ih, List.append_assoc]
    congr 2
    rw [lastBlock_append hE (fun h => by have : (cbcEnc E n (E (xor (x.take 16) iv)) (x.drop 16)).length ≠ 0 := by simpa using h
                                         omega)]
    congr 1
    unfold lastBlock
    have hne : E (xor (List.take 16 x) iv) ≠ [] := fun h => by rw [h] at hb; cases hb
    rw [if_neg hne, hb]
    simp

theorem cbcDec_append {D : List UInt8 → List UInt8} :
    ∀ (n m : Nat) (iv x y : List UInt8), x.length = 16 * n →
      cbcDec D (n + m) iv (x ++ y) = cbcDec D n iv x ++ cbcDec D m (lastBlock iv x) y
  | 0, m, iv, x, y, hx => by
    have : x = [] := List.eq_nil_of_length_eq_zero (by omega)
    subst this
    simp [cbcDec, lastBlock]
  | n + 1, m, iv, x, y, hx => by
    have hd : (x.drop 16).length = 16 * n := by rw [List.length_drop]; omega
    have h16 : (x.take 16).length = 16 := by rw [List.length_take]; omega
    have ih := cbcDec_append (D := D) n m (x.take 16) (x.drop 16) y hd
    rw [show n + 1 + m = (n + m) + 1 by omega]
    rw [cbcDec_succ, cbcDec_succ, List.take_append_of_le_length (by omega), List.drop_append_of_le_length (by omega), ih, List.append_assoc]
    congr 3
    unfold lastBlock
    have hx0 : x ≠ [] := fun h => by rw [h] at hx; simp at hx
    rw [if_neg hx0]
    split
    · rename_i h
      have h0 : (x.drop 16).length = 0 := by rw [h]; rfl
      rw [List.length_drop] at h0
      rw [show x.length - 16 = 0 by omega, List.drop_zero, List.take_of_length_le (by omega)]
    · rw [List.length_drop, List.drop_drop]
      rename_i h
      have h1 : (x.drop 16).length ≠ 0 := fun h2 => h (List.eq_nil_of_length_eq_zero h2)
      rw [List.length_drop] at h1
      rw [show 16 + (x.length - 16 - 16) = x.length - 16 by omega]

theorem cbc_round_trip {E D : List UInt8 → List UInt8} (hE : ∀ b, b.length = 16 → (E b).length = 16)
    (hD : ∀ b, b.length = 16 → D (E b) = b) :
    ∀ (n : Nat) (iv x : List UInt8), iv.length = 16 → x.length = 16 * n → cbcDec D n iv (cbcEnc E n iv x) = x
  | 0, _, x, _, hx => (List.eq_nil_of_length_eq_zero (by omega)).symm ▸ rfl
  | n + 1, iv, x, hiv, hx => by
    have h16 : (x.take 16).length = 16 := by rw [List.length_take]; omega
    have hx16 : (xor (x.take 16) iv).length = 16 := by rw [xor_length (by omega), hiv]
    have hb := hE _ hx16
    have hd : (x.drop 16).length = 16 * n := by rw [List.length_drop]; omega
    unfold cbcEnc cbcDec
    rw [List.take_append_of_le_length (by omega), List.take_of_length_le (by omega), List.drop_append_of_le_length (by omega),
      List.drop_eq_nil_of_le (by omega), List.nil_append, hD _ hx16, xor_twice (by omega), cbc_round_trip hE hD n _ _ hb hd,
      List.take_append_drop]

/-! ## The state of a MAC -/

theorem ofFlat_flat {st : CmacState} (h : st.bytes.length = 32) : CmacState.ofFlat st.flat = st := by
  have hb : ∀ v : UInt32, (Utils.bytes32 true v).length = 4 := fun v => by cases v; rfl
  obtain ⟨b, fl, tot⟩ := st
  change b.length = 32 at h
  have e1 : CmacState.flat ⟨b, fl, tot⟩ = b ++ (Utils.bytes32 true fl ++ Utils.bytes32 true tot) := by
    unfold CmacState.flat; rw [List.append_assoc]
  have d1 : List.drop 32 (b ++ (Utils.bytes32 true fl ++ Utils.bytes32 true tot)) = Utils.bytes32 true fl ++ Utils.bytes32 true tot := by
    rw [List.drop_append_of_le_length (by omega), List.drop_eq_nil_of_le (by omega), List.nil_append]
  have d2 : List.drop 36 (b ++ (Utils.bytes32 true fl ++ Utils.bytes32 true tot)) = Utils.bytes32 true tot := by
    rw [show 36 = 32 + 4 by rfl, ← List.drop_drop, d1, List.drop_append_of_le_length (by rw [hb]),
      List.drop_eq_nil_of_le (by rw [hb]), List.nil_append]
  unfold CmacState.ofFlat number
  rw [e1, d1, d2, List.append_assoc, List.take_append_of_le_length (by omega), List.take_of_length_le (by omega),
    List.take_append_of_le_length (by rw [hb]), List.take_of_length_le (by rw [hb]),
    List.take_of_length_le (by rw [hb]), Utils.read32_bytes32, Utils.read32_bytes32]
  rfl

theorem ofFlat_nil : CmacState.ofFlat [] = .zero := by decide +kernel

/-! ## Counter mode, one call -/

theorem aes_len_le {K : List UInt8} (h : aesLen K.length = true) : K.length ≤ 32 ∧ K ≠ [] := by
  unfold aesLen at h
  simp only [Bool.or_eq_true, beq_iff_eq] at h
  exact ⟨by omega, fun h0 => by subst h0; simp at h⟩

theorem ctr_step {E : List UInt8 → List UInt8 → List UInt8} (hroom : Roomy cfg f.dataLen) (hag : ∀ c, Agree f.n cfg.codes (Call.op c))
    (hL : CtrLib cfg.lib E) {K iv : List UInt8} (hiv : iv.length = 16) {a : Aes} {p : Nat}
    (ha : At (E K) iv p a.reg a.tmp a.left.toNat) (hkey : a.key.length ≤ 32) {enc : Bool} {input : List UInt8}
    (hf : Fair cfg f (AesKey cfg a.id a.key K) t (a.ctrCall enc input)) (hin : input.length < 2147483648) :
    ((ctr f t a enc input).1 ≠ 0 ∧ (ctr f t a enc input).2.2 = a) ∨
    ((ctr f t a enc input).1 = 0 ∧ (ctr f t a enc input).2.1 = ctrText (E K) iv p input ∧
      (ctr f t a enc input).2.2.id = a.id ∧ (ctr f t a enc input).2.2.key = a.key ∧
      At (E K) iv (p + input.length) (ctr f t a enc input).2.2.reg (ctr f t a enc input).2.2.tmp
        (ctr f t a enc input).2.2.left.toNat) := by
  have hreg : a.reg.length = 16 := by rw [ha.next, count_length, hiv]
  have hs : (a.ctrCall enc input).Sane := ⟨hreg, ha.len⟩
  have hbytes : (a.ctrCall enc input).bytes < 4294967296 := by
    show 12 + 20 + (input ++ a.key ++ a.reg ++ a.tmp).length < _
    rw [List.length_append, List.length_append, List.length_append, hreg, ha.len]
    omega
  unfold ctr
  rcases ask_cases (w := ⟨0, 0, false⟩) hroom (hag _) hs rfl rfl (.inr hbytes) hf with ⟨rc, h0, h⟩ | ⟨v, e, s, o, hk, ho, h⟩
  · rw [h]; exact .inl ⟨h0, rfl⟩
  · right
    rw [h]
    obtain ⟨hK, out, tail, h1, h2, h3⟩ := aes_ok (by decide) hk ho
    obtain ⟨reg', tmp', h4, h5⟩ := hL enc K iv p a.reg a.tmp a.left.toNat input hK hiv ha
    rw [h4] at h1
    cases h1
    have hlen := ctrText_length (E K) iv p input
    have hr' : reg'.length = 16 := by rw [h5.next, count_length, hiv]
    rw [if_pos rfl] at h3
    have hb : o.body.take input.length = ctrText (E K) iv p input := by
      rw [h2, ← hlen, List.take_left]
    have hm : o.body.drop input.length = reg' ++ tmp' := by
      rw [h2, ← hlen, List.drop_left]
    have hnum : (UInt32.ofNat o.res).toNat = cfg.lib.aesLeft a.left.toNat input.length := by
      rw [h3, UInt32.toNat_ofNat_of_lt' (by rw [h5.unused]; exact Nat.lt_of_lt_of_le (Nat.mod_lt _ (by decide)) (by decide))]
    show (0 : Ret) = 0 ∧ o.body.take input.length = _ ∧ a.id = a.id ∧ a.key = a.key ∧
      At (E K) iv (p + input.length) ((o.body.drop input.length).take 16) ((o.body.drop input.length).drop 16) (UInt32.ofNat o.res).toNat
    rw [hb, hm, hnum, ← hr', List.take_left, List.drop_left]
    exact ⟨rfl, rfl, rfl, rfl, h5⟩

/-! ## CBC, one call -/

theorem cbc_step (hroom : Roomy cfg f.dataLen) (hag : ∀ c, Agree f.n cfg.codes (Call.op c)) {K : List UInt8} {a : Aes}
    (hreg : a.reg.length = 16) (hkey : a.key.length ≤ 32) {enc : Bool} {input : List UInt8}
    (hf : Fair cfg f (AesKey cfg a.id a.key K) t (a.cbcCall enc input)) (hin : input.length < 2147483648) :
    ((cbc f t a enc input).1 ≠ 0 ∧ (cbc f t a enc input).2.2 = a) ∨
    ((cbc f t a enc input).1 = 0 ∧ input = [] ∧ (cbc f t a enc input).2 = ([], a)) ∨
    ((cbc f t a enc input).1 = 0 ∧ input.length % 16 = 0 ∧ aesLen K.length = true ∧
      ∃ out tail, cfg.lib.aes .cbc enc 0 K input a.reg = .ok (out, tail) ∧
        (cbc f t a enc input).2 = (out, { a with reg := tail })) := by
  unfold cbc
  by_cases h0 : input = []
  · rw [if_pos h0]
    exact .inr (.inl ⟨rfl, h0, rfl⟩)
  · rw [if_neg h0]
    by_cases hm : input.length % 16 = 0
    · by_cases hi : idle (a.cbcCall enc input) = true
      · rw [if_pos (by rw [hi, hm]; rfl)]
        exact .inl ⟨(by decide : Rc.notready.code ≠ 0), rfl⟩
      · rw [if_neg (by simp [hi])]
        have hs : (a.cbcCall enc input).Sane := hreg
        have hbytes : (a.cbcCall enc input).bytes < 4294967296 := by
          show 12 + 16 + (input ++ a.key ++ a.reg).length < _
          rw [List.length_append, List.length_append, hreg]
          omega
        have hr : refusal f.n f.dataLen (a.cbcCall enc input) = none := by
          show (if input.length % 16 = 0 then none else some Rc.badargs) = none
          rw [if_pos hm]
        rcases ask_cases (w := ⟨0, 0, false⟩) hroom (hag _) hs hr (by simpa using hi) (.inr hbytes) hf with
          ⟨rc, h1, h⟩ | ⟨v, e, s, o, hk, ho, h⟩
        · rw [h]; exact .inl ⟨h1, rfl⟩
        · obtain ⟨hK, out, tail, h1, h2, -⟩ := aes_ok (by decide) hk ho
          have hlen := (hroom.small.aes _ _ _ _ _ _ _ _ h1).1
          rw [h]
          refine .inr (.inr ⟨rfl, hm, hK, out, tail, h1, ?_⟩)
          show (o.body.take input.length, { a with reg := o.body.drop input.length }) = _
          rw [h2, ← hlen, List.take_left, List.drop_left]
    · rw [if_neg (by simp [hm]), ask_refused (rc := .badargs) (by
        show (if input.length % 16 = 0 then none else some Rc.badargs) = _
        rw [if_neg hm])]
      exact .inl ⟨(by decide : Rc.badargs.code ≠ 0), rfl⟩

/-! ## CMAC, one request -/

/-- What holds of a MAC object with the message `m`. -/
structure Has (K m : List UInt8) (st : List UInt8 → List UInt8 → CmacState) (c : Cmac) : Prop where
  st : c.st = st K m
  key : c.key = [] ∨ c.key = K
  len : m.length < 4294967280

variable {mac : List UInt8 → List UInt8 → List UInt8} {st : List UInt8 → List UInt8 → CmacState} {K m : List UInt8} {d : Cmac}

theorem Has.resolve (h : Has K m st d) {key : List UInt8} (hb : Brings d.id K key) : d.resolve key = [] ∨ d.resolve key = K := by
  unfold Cmac.resolve
  unfold Brings at hb
  split
  · exact h.key
  · split at hb
    · exact hb
    · exact .inl hb

theorem brings_nil {id : UInt16} : Brings id K [] := by unfold Brings; split <;> simp

theorem Has.keep (h : Has K m st d) {key : List UInt8} (hk : key = [] ∨ key = K) (went : Bool) :
    Has K m st (d.keep went key) ∧ (d.keep went key).id = d.id := by
  unfold Cmac.keep
  split
  · exact ⟨⟨h.st, hk, h.len⟩, rfl⟩
  · exact ⟨h, rfl⟩

theorem Has.next {m' : List UInt8} (h : Has K m st d) (hm : m'.length < 4294967280) : Has K m' st { d with st := st K m' } :=
  ⟨rfl, h.key, hm⟩

theorem short_key (hK : aesLen K.length = true) {key : List UInt8} (h : key = [] ∨ key = K) : ¬key.length > 32 := by
  have := (aes_len_le hK).1
  rcases h with rfl | rfl
  · simp
  · omega

theorem update_step (hroom : Roomy cfg f.dataLen) (hag : ∀ c, Agree f.n cfg.codes (Call.op c)) (hL : CmacLib cfg.lib mac st)
    (hK : aesLen K.length = true) (h : Has K m st d) {key input : List UInt8} (hb : Brings d.id K key)
    (hf : Fair cfg f (MacKey cfg d.id K) t (d.updateCall key input)) (hin : (m ++ input).length < 4294967280) :
    (update f t d key input).2.id = d.id ∧
    (((update f t d key input).1 ≠ 0 ∧ Has K m st (update f t d key input).2) ∨
     ((update f t d key input).1 = 0 ∧ Has K (m ++ input) st (update f t d key input).2)) := by
  have hres := h.resolve hb
  obtain ⟨hkeep, hid⟩ := h.keep hres (sent f t (d.updateCall key input))
  unfold update
  dsimp only
  by_cases hi : idle (d.updateCall key input) = true
  · have hr : refusal f.n f.dataLen (d.updateCall key input) = none := by
      show (if (d.resolve key).length > 32 then some Rc.badargs else none) = none
      rw [if_neg (short_key hK hres)]
    have hask : f.ask t ⟨0, 0, false⟩ (d.updateCall key input) = (0, some {}) := by
      unfold Cfg.ask run send
      rw [hr]
      dsimp only
      rw [if_pos hi]
    have h0 : input = [] := by
      have : (input.isEmpty && (d.resolve key).isEmpty) = true := hi
      simp at this
      exact this.1
    rw [hask]
    refine ⟨hid, .inr ⟨rfl, ?_⟩⟩
    have hmm : m ++ input = m := by rw [h0, List.append_nil]
    rw [hmm]
    exact hkeep
  · have hr : refusal f.n f.dataLen (d.updateCall key input) = none := by
      show (if (d.resolve key).length > 32 then some Rc.badargs else none) = none
      rw [if_neg (short_key hK hres)]
    have hs : (d.updateCall key input).Sane := by
      show d.st.bytes.length = 32
      rw [h.st, hL.bytes]
    rcases ask_cases (w := ⟨0, 0, false⟩) hroom (hag _) hs hr (by simpa using hi) (.inl rfl) hf with
      ⟨rc, h1, ha⟩ | ⟨v, e, s, o, hk, ho, ha⟩
    · rw [ha]; exact ⟨hid, .inl ⟨h1, hkeep⟩⟩
    · have hw := cmac_ok hk (fun h0 => hres.resolve_left h0) ho
      unfold Crypto.cmacWith at hw
      simp only [ne_eq, not_true_eq_false, decide_false, Bool.and_false, Bool.false_eq_true, if_false] at hw
      rw [h.st, hL.update K m input hK hin] at hw
      cases hw
      have hfl : ¬(st K (m ++ input)).filled > 16 := by
        have := hL.room K (m ++ input)
        exact UInt32.not_lt.2 this
      have hres' : f.ask t ⟨0, 0, false⟩ (d.updateCall key input) = (0, some { state := some (st K (m ++ input)) }) := by
        rw [ha]
        show (if (CmacState.ofFlat (st K (m ++ input)).flat).filled > 16 then _ else _) = _
        rw [ofFlat_flat (hL.bytes _ _), if_neg hfl]
      rw [hres']
      exact ⟨hid, .inr ⟨rfl, hkeep.next hin⟩⟩

theorem final_step (hroom : Roomy cfg f.dataLen) (hag : ∀ c, Agree f.n cfg.codes (Call.op c)) (hL : CmacLib cfg.lib mac st)
    (hK : aesLen K.length = true) (h : Has K m st d) {len : Nat} (hlen : tagLenOk len = true)
    (hf : Fair cfg f (MacKey cfg d.id K) t d.finalCall) :
    (final f t d len).2.2.id = d.id ∧
    (((final f t d len).1 ≠ 0 ∧ (final f t d len).2.2 = d) ∨
     ((final f t d len).1 = 0 ∧ (final f t d len).2.1 = (mac K m).take len ∧ Has K [] st (final f t d len).2.2)) := by
  have hres := h.resolve (key := []) brings_nil
  have hr : refusal f.n f.dataLen d.finalCall = none := by
    show (if (d.resolve []).length > 32 then some Rc.badargs else none) = none
    rw [if_neg (short_key hK hres)]
  have hs : d.finalCall.Sane := by
    show d.st.bytes.length = 32
    rw [h.st, hL.bytes]
  unfold final
  dsimp only
  rcases ask_cases (w := ⟨len, 0, false⟩) hroom (hag _) hs hr rfl (.inl rfl) hf with
    ⟨rc, h1, ha⟩ | ⟨v, e, s, o, hk, ho, ha⟩
  · rw [ha]; exact ⟨rfl, .inl ⟨h1, rfl⟩⟩
  · have hw := cmac_ok hk (fun h0 => hres.resolve_left h0) ho
    unfold Crypto.cmacWith at hw
    simp only [ne_eq, not_true_eq_false, decide_false, Bool.false_and, Bool.false_eq_true, if_false] at hw
    rw [if_pos (by decide), h.st, hL.final K m hK h.len] at hw
    cases hw
    have hres' : f.ask t ⟨len, 0, false⟩ d.finalCall = (0, some { out := (mac K m).take len, state := some .zero }) := by
      rw [ha]
      unfold Call.result Cmac.finalCall macced
      dsimp only
      rw [ofFlat_nil, if_neg (by decide), if_pos (by unfold tagLenOk at hlen; simpa using hlen)]
    rw [hres']
    refine ⟨rfl, .inr ⟨rfl, rfl, ?_⟩⟩
    exact ⟨(hL.zero K).symm, h.key, by decide⟩

theorem generate_step (hroom : Roomy cfg f.dataLen) (hag : ∀ c, Agree f.n cfg.codes (Call.op c)) (hL : CmacLib cfg.lib mac st)
    (hK : aesLen K.length = true) (h : Has K m st d) {key input : List UInt8} {len : Nat} (hb : Brings d.id K key)
    (hlen : tagLenOk len = true) (hf : Fair cfg f (MacKey cfg d.id K) t (d.generateCall key input len))
    (hin : input.length < 4294967280) :
    (generate f t d key input len).2.2.id = d.id ∧
    (((generate f t d key input len).1 ≠ 0 ∧ Has K m st (generate f t d key input len).2.2) ∨
     ((generate f t d key input len).1 = 0 ∧ (generate f t d key input len).2.1 = (mac K input).take len ∧
        Has K [] st (generate f t d key input len).2.2)) := by
  have hres := h.resolve hb
  obtain ⟨hkeep, hid⟩ := h.keep hres (sent f t (d.generateCall key input len))
  have hle : len ≤ 16 := by unfold tagLenOk at hlen; simp at hlen; omega
  have hto : (UInt32.ofNat len).toNat = len := UInt32.toNat_ofNat_of_lt' (by show len < 4294967296; omega)
  unfold generate
  dsimp only
  cases hr : refusal f.n f.dataLen (d.generateCall key input len) with
  | some rc =>
    have hcode : rc.code ≠ 0 := by
      unfold refusal Cmac.generateCall at hr
      dsimp only at hr
      repeat' split at hr
      all_goals first | (cases hr; decide) | cases hr
    rw [ask_refused hr]
    exact ⟨hid, .inl ⟨hcode, hkeep⟩⟩
  | none =>
    have hne : input ≠ [] ∧ UInt32.ofNat len ≠ 0 := by
      unfold refusal Cmac.generateCall at hr
      dsimp only at hr
      split at hr
      · cases hr
      · rename_i hh
        exact ⟨fun h => hh (.inl h), fun h => hh (.inr h)⟩
    have hl0 : len ≠ 0 := fun h0 => hne.2 (by rw [h0]; rfl)
    rcases ask_cases (w := ⟨len, 0, false⟩) hroom (hag _) (show (d.generateCall key input len).Sane from trivial) hr rfl (.inl rfl) hf with
      ⟨rc, h1, ha⟩ | ⟨v, e, s, o, hk, ho, ha⟩
    · rw [ha]; exact ⟨hid, .inl ⟨h1, hkeep⟩⟩
    · have hw := cmac_ok hk (fun h0 => hres.resolve_left h0) ho
      rw [hto] at hw
      unfold Crypto.cmacWith at hw
      rw [if_pos (by simp [hne.1, hl0]), hL.once K input len hK hin hne.1 hlen hl0] at hw
      cases hw
      have hres' : f.ask t ⟨len, 0, false⟩ (d.generateCall key input len) =
          (0, some { out := (mac K input).take len, state := some .zero }) := by
        rw [ha]
        unfold Call.result Cmac.generateCall macced
        dsimp only
        rw [ofFlat_nil, if_neg (by decide), if_pos (by unfold tagLenOk at hlen; simpa using hlen), List.take_take, Nat.min_self]
      rw [hres']
      refine ⟨hid, .inr ⟨rfl, rfl, ?_⟩⟩
      exact ⟨(hL.zero K).symm, hkeep.key, by decide⟩

end WolfHsm.ClientStream

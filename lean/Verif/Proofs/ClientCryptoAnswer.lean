import Verif.Proofs.ClientCryptoDecode

/-!
# Answers to crypto requests, as the client reads them
-/

namespace WolfHsm.ClientCrypto

open Wire Utils CryptoMsg
open Server (Req)
open ClientHash (Ret put32 get32 sized_eq fits_eq ofNat_len last_ne)
open Crypto (Prog)

/-! ## What an answer has beside its length -/

/-- Facts about the outcome of an operation the client's checks depend on. -/
def Fine (L : Crypto.Lib) (c : Call) (o : Crypto.Out) : Prop :=
  match c with
  | .aesCtr _ _ _ input _ _ _ => ∀ n, Small L n → o.body.length = input.length + 32
  | .aesEcb _ _ _ input => ∀ n, Small L n → o.body.length = input.length
  | .aesCbc _ _ _ input _ => ∀ n, Small L n → o.body.length = input.length + 16
  | .gcmEncrypt _ _ input _ _ tagLen => ∀ n, Small L n → o.body.length = input.length + tagLen.toNat
  | .gcmDecrypt _ _ input _ _ _ => ∀ n, Small L n → o.body.length = input.length
  | .checkPub .. => o.res = 1
  | .encaps .. => o.res ≤ o.body.length
  | .hkdf _ _ _ _ _ _ _ _ outSz | .cmacKdf _ _ _ _ _ _ _ _ outSz => ∀ n, Small L n → o.body.length ≤ outSz.toNat
  | _ => True

section fine

variable {cfg : Crypto.Cfg} {L : Crypto.Lib} {v : Keystore.Srv}

theorem yields_true : ∀ p : Prog, Yields (fun _ => True) p
  | .done (.ok _) => trivial
  | .done (.error _) => trivial
  | .call _ _ k => fun a => yields_true (k a)

theorem deliver_fine {id flags : UInt16} {label : Vector UInt8 24} {okm : Except Rc (List UInt8)} {z : Nat}
    (h : ∀ b, okm = .ok b → ∀ n, Small L n → b.length ≤ z) :
    Yields (fun o => ∀ n, Small L n → o.body.length ≤ z) (Crypto.deliver id flags label okm) := by
  unfold Crypto.deliver
  split
  · trivial
  · rename_i b
    split
    · exact h b rfl
    · refine yields_store fun x => yields_done fun o ho => ?_
      obtain ⟨_, _, rfl⟩ := map_ok ho
      exact fun _ _ => Nat.zero_le _

theorem hkdf_fine (idIn idOut flags : UInt16) (label : Vector UInt8 24) (hash : Nat) (inKey salt info : List UInt8) (outSz : Nat) :
    Yields (fun o => ∀ n, Small L n → o.body.length ≤ outSz)
      (Crypto.hkdf cfg L v idIn idOut flags label hash inKey salt info outSz) := by
  have go : ∀ ikm : List UInt8, Yields (fun o => ∀ n, Small L n → o.body.length ≤ outSz)
      (if outSz > cfg.ks.commLen - 20 then .done (.error .badargs)
      else Crypto.deliver idOut flags label (L.hkdf hash (48 + inKey.length + salt.length) ikm salt info outSz)) := by
    intro ikm
    split
    · trivial
    · exact deliver_fine fun b hb n hs => Nat.le_of_eq (hs.hkdf _ _ _ _ _ _ _ hb)
  unfold Crypto.hkdf
  dsimp only
  split
  · refine yields_read fun x => ?_
    cases x with
    | error e => trivial
    | ok b => exact go b
  · exact go inKey

theorem cmacKdf_fine (idS idZ idOut flags : UInt16) (label : Vector UInt8 24) (salt z info : List UInt8) (outSz : Nat) :
    Yields (fun o => ∀ n, Small L n → o.body.length ≤ outSz)
      (Crypto.cmacKdf cfg L v idS idZ idOut flags label salt z info outSz) := by
  refine yields_kdfInput fun s' => yields_kdfInput fun z' => ?_
  split
  · trivial
  · exact deliver_fine fun b hb n hs => Nat.le_of_eq (hs.cmacKdf _ _ _ _ _ _ hb)

theorem encaps_fine (params : List Nat) (id : UInt16) (ev : Bool) (coins : List UInt8) :
    Yields (fun o => o.res ≤ o.body.length) (Crypto.encaps cfg L v params id ev coins none) := by
  unfold Crypto.encaps
  split
  · exact yields_evict trivial
  · refine yields_useOne fun k o ho => ?_
    split at ho
    · cases ho
    · rename_i ct ss he
      dsimp only at ho
      split at ho
      · cases ho
      · injection ho with ho; subst ho
        show ct.length ≤ (ct ++ ss).length
        rw [List.length_append]; omega

theorem aes_fine {mode : Crypto.AesMode} {enc : Bool} {input extra : List UInt8} {k : Nat} {p : Prog}
    (h : ∀ n, Yields (AesShort L n cfg mode enc input extra) p) (hk : tailSize enc extra mode = k) :
    Yields (fun o => ∀ n, Small L n → o.body.length = input.length + k) p :=
  yields_mono (fun o ho n hs => by rw [((ho n).2 hs).1, hk]) _ (yields_all _ h)

theorem fine_handler (coins : List UInt8) (c : Call) (hl : (trailer c).length < 4294967296) :
    Yields (Fine L c) (Crypto.handler cfg L v (c.asks coins)) := by
  cases c with
  | aesCtr => exact aes_fine (mode := .ctr) (fun _ => yields_aes _ _ _ _ _ _ _ _ (by intro h; cases h)) rfl
  | aesEcb => exact aes_fine (mode := .ecb) (k := 0) (fun _ => yields_aes _ _ _ _ _ _ _ _ (by intro h; cases h)) rfl
  | aesCbc => exact aes_fine (mode := .cbc) (fun _ => yields_aes _ _ _ _ _ _ _ _ (by intro h; cases h)) rfl
  | gcmEncrypt => exact aes_fine (mode := .gcm) (fun _ => yields_aes _ _ _ _ _ _ _ _ fun _ => gcmTag_extra ..) (gcmTag_extra ..)
  | gcmDecrypt _ _ _ _ _ tag =>
    have h : tag.length < 4294967296 := by unfold trailer at hl; simp only [List.length_append] at hl; omega
    exact aes_fine (mode := .gcm) (k := 0)
      (fun _ => yields_aes _ _ _ _ _ _ _ _ fun _ => (gcmTag_extra ..).trans (ofNat_len h)) rfl
  | checkPub => exact yields_useOne fun k o ho => by obtain ⟨_, _, rfl⟩ := map_ok ho; rfl
  | encaps => exact encaps_fine ..
  | hkdf => exact hkdf_fine ..
  | cmacKdf => exact cmacKdf_fine ..
  | _ => exact yields_true _

end fine

/-! ## Reading an answer -/

section answer

variable {n : Numbers} {cle sle : Bool} {m : UInt16} {a : UInt32} {pad : UInt8 × UInt8} {r : Req} {c : Call} {junk : List UInt8}
variable {w : Want} {t : UInt16} {fixed : Nat} {f body R : List UInt8} {o : Crypto.Out}

/-- An answer with fields `f` in a structure of `fixed` bytes, and `body` behind it. -/
structure Back (cle : Bool) (t : UInt16) (fixed : Nat) (f body R : List UInt8) : Prop where
  type : get32 cle R 0 = t.toUInt32
  rc : get32 cle R 4 = 0
  rest : ∃ y, ∀ k, get32 cle R (k + 12) = rd32 cle magicNative (f ++ y) k ∧
    ∀ l, rdBytes R (k + 12) l = rdBytes (f ++ y) k l
  len : R.length = 12 + fixed + body.length
  tail : ∀ k l, rdBytes R (12 + fixed + k) l = rdBytes body k l

theorem header_type {rc : Rc} (hp : Paired cle sle magicNative m) (hm : r.magic = m) (h0 : rd32 sle r.magic r.buf 0 = t.toUInt32) {y : List UInt8} :
    get32 cle (header sle r rc ++ y) 0 = t.toUInt32 ∧ get32 cle (header sle r rc ++ y) 4 = rc.code := by
  unfold header get32
  rw [h0, hm]
  constructor
  · simp only [List.append_assoc, rd32_here hp]
  · simp only [List.append_assoc, rd32_w32, rd32_here hp]

theorem back_reply (hp : Paired cle sle magicNative m) (hm : r.magic = m) (h0 : rd32 sle r.magic r.buf 0 = t.toUInt32)
    (hf : f.length ≤ fixed) : Back cle t fixed f body (reply sle r f fixed body) := by
  have e : ∃ x : List UInt8, x.length = fixed - f.length ∧ reply sle r f fixed body = header sle r .ok ++ (f ++ (x ++ body)) := by
    refine ⟨((r.buf ++ List.replicate (12 + fixed) 0).drop (12 + f.length)).take (fixed - f.length), ?_, ?_⟩
    · rw [List.length_take, List.length_drop, List.length_append, List.length_replicate]; omega
    · unfold reply over
      rw [List.length_append, header_length, show 12 + fixed - (12 + f.length) = fixed - f.length by omega]
      simp only [List.append_assoc]
  obtain ⟨x, hx, e⟩ := e
  rw [e]
  refine ⟨(header_type hp hm h0).1, (header_type hp hm h0).2, ⟨x ++ body, fun k => ⟨rd32_skip (header_length ..), fun l => rdBytes_skip (header_length ..)⟩⟩,
    ?_, fun k l => ?_⟩
  · simp only [List.length_append, header_length, hx]; omega
  · rw [← List.append_assoc, ← List.append_assoc, show 12 + fixed + k = k + (12 + fixed) by omega]
    exact rdBytes_skip (by simp only [List.length_append, header_length, hx]; omega)

theorem Back.opened (h : Back cle t fixed f body R) (strict : Bool) (k : Ret → Result) : opened cle t strict R k = k 0 := by
  unfold ClientCrypto.opened
  rw [if_neg (fun q => q h.type)]
  dsimp only
  rw [h.rc, if_neg]
  rintro (q | q)
  · exact absurd q (by decide)
  · exact q.2 rfl

theorem need_eq {p : Prop} [Decidable p] {k : Result} (h : p) : need p k = k := if_pos h

theorem Back.one (h : Back cle t fixed f body R) (hp : Paired cle sle magicNative m) {v : UInt32} {z : List UInt8}
    (hf : f = w32 sle m v ++ z) : get32 cle R 12 = v := by
  obtain ⟨y, hy⟩ := h.rest
  rw [(hy 0).1, hf, List.append_assoc, rd32_here hp]

theorem Back.two (h : Back cle t fixed f body R) (hp : Paired cle sle magicNative m) {v v' : UInt32} {z : List UInt8}
    (hf : f = w32 sle m v ++ (w32 sle m v' ++ z)) : get32 cle R 16 = v' := by
  obtain ⟨y, hy⟩ := h.rest
  rw [(hy 4).1, hf, List.append_assoc, List.append_assoc, rd32_w32, rd32_here hp]

theorem Back.whole (h : Back cle t fixed f body R) : rdBytes R (12 + fixed) body.length = body := by
  have := h.tail 0 body.length
  rw [Nat.add_zero] at this
  rw [this]; unfold rdBytes; rw [List.drop_zero, List.take_length]

theorem Back.front (h : Back cle t fixed f body R) (l : Nat) : rdBytes R (12 + fixed) l = body.take l := by
  have := h.tail 0 l
  rw [Nat.add_zero] at this
  rw [this]; unfold rdBytes; rw [List.drop_zero]

theorem Back.back (h : Back cle t fixed f body R) {k l : Nat} (hl : body.length = k + l) : rdBytes R (12 + fixed + k) l = body.drop k := by
  rw [h.tail]; unfold rdBytes
  exact List.take_of_length_le (by rw [List.length_drop]; omega)

/-! The kinds of answers. -/

theorem get_keyed (hp : Paired cle sle magicNative m) (strict : Bool) (ho : o.body.length < 4294967296)
    (h : Back cle t 8 (w32 sle m o.keyId.toUInt32 ++ (w32 sle m (UInt32.ofNat o.body.length) ++ [])) o.body R) :
    (opened cle t false R fun rc =>
      let len := getLen cle R 16
      let id := (get32 cle R 12).toUInt16
      need (strict = true → 20 ≤ R.length ∧ len ≤ R.length - 20) <|
        if w.key then need (len ≠ 0 ∧ 20 ≤ R.length ∧ len ≤ R.length - 20) (rc, some { id := id, out := rdBytes R 20 len })
        else (rc, some { id := id })) = keyed w o := by
  rw [h.opened]
  dsimp only
  have hl := h.len
  unfold getLen
  rw [h.two hp rfl, h.one hp rfl, ofNat_len ho, half_id, need_eq (fun _ => ⟨by omega, by omega⟩)]
  unfold keyed
  by_cases hk : w.key = true
  · rw [if_pos hk, if_pos hk]
    by_cases hb : o.body = []
    · rw [if_pos hb]
      exact if_neg (fun q => q.1 (by rw [hb]; rfl))
    · rw [if_neg hb]
      have hw : rdBytes R 20 o.body.length = o.body := h.whole
      rw [hw]
      exact need_eq ⟨fun q => hb (List.length_eq_zero_iff.mp q), by omega, by omega⟩
  · rw [if_neg hk, if_neg hk]

theorem get_handed (hp : Paired cle sle magicNative m) (ho : o.body.length < 4294967296) {z : List UInt8}
    (h : Back cle t fixed (w32 sle m (UInt32.ofNat o.body.length) ++ z) o.body R) :
    (opened cle t false R fun rc =>
      let len := getLen cle R 12
      need (12 + fixed ≤ R.length ∧ len ≤ R.length - (12 + fixed)) <| sized w R (12 + fixed) len rc) = handed w o.body := by
  rw [h.opened]
  dsimp only
  have hl := h.len
  unfold getLen
  rw [h.one hp rfl, ofNat_len ho, need_eq ⟨by omega, by omega⟩]
  unfold sized handed
  rw [h.whole]

theorem get_verdict (hp : Paired cle sle magicNative m) {z : List UInt8}
    (h : Back cle t fixed (w32 sle m (UInt32.ofNat o.res) ++ z) o.body R) :
    (opened cle t false R fun rc => need (12 + fixed ≤ R.length) (rc, some { num := get32 cle R 12 })) =
      (0, some { num := UInt32.ofNat o.res }) := by
  rw [h.opened]
  rw [h.one hp rfl, need_eq (by have := h.len; omega)]

theorem get_secret (hp : Paired cle sle magicNative m) (ho : o.body.length < 4294967296)
    (h : Back cle t 8 (w32 sle m (UInt32.ofNat o.body.length) ++ (w32 sle m o.keyId.toUInt32 ++ [])) o.body R) :
    (opened cle t false R fun rc =>
      let len := getLen cle R 12
      let id := (get32 cle R 16).toUInt16
      need (20 ≤ R.length ∧ len ≤ R.length - 20) <|
        if w.key then
          if w.room < len then (Rc.bufferSize.code, some { id := id, num := UInt32.ofNat len })
          else (rc, some { id := id, num := UInt32.ofNat len, out := rdBytes R 20 len })
        else (rc, some { id := id })) =
      if w.key then
        if w.room < o.body.length then (Rc.bufferSize.code, some { id := o.keyId, num := UInt32.ofNat o.body.length })
        else (0, some { id := o.keyId, num := UInt32.ofNat o.body.length, out := o.body })
      else (0, some { id := o.keyId }) := by
  rw [h.opened]
  dsimp only
  have hl := h.len
  unfold getLen
  rw [h.two hp rfl, h.one hp rfl, ofNat_len ho, half_id, need_eq ⟨by omega, by omega⟩, show rdBytes R 20 o.body.length = o.body from h.whole]

theorem get_kdf (hp : Paired cle sle magicNative m) (ho : o.body.length < 4294967296) {z : UInt32} (hz : o.body.length ≤ z.toNat)
    (h : Back cle t 8 (w32 sle m o.keyId.toUInt32 ++ (w32 sle m (UInt32.ofNat o.body.length) ++ [])) o.body R) :
    (opened cle t true R fun rc =>
      let len := getLen cle R 16
      let id := (get32 cle R 12).toUInt16
      need (20 ≤ R.length ∧ len ≤ R.length - 20) <|
        if w.key then need (len ≤ z.toNat) (rc, some { id := id, out := rdBytes R 20 len })
        else (rc, some { id := id })) = (0, some { id := o.keyId, out := if w.key then o.body else [] }) := by
  rw [h.opened]
  dsimp only
  have hl := h.len
  unfold getLen
  rw [h.two hp rfl, h.one hp rfl, ofNat_len ho, half_id, need_eq ⟨by omega, by omega⟩]
  by_cases hk : w.key = true
  · rw [if_pos hk, if_pos hk, need_eq hz, show rdBytes R 20 o.body.length = o.body from h.whole]
  · rw [if_neg hk, if_neg hk]

theorem tagLenOk_iff {n : Nat} : tagLenOk n = true ↔ n = 0 ∨ (4 ≤ n ∧ n ≤ 16) := by
  unfold tagLenOk
  simp only [Bool.or_eq_true, Bool.and_eq_true, beq_iff_eq, decide_eq_true_eq]

theorem Back.state (hp : Paired cle sle magicNative m) (hm : r.magic = m) {z : List UInt8} {v : UInt32}
    (h : Back cle t 48 (stateOut sle r o.state ++ (w32 sle m v ++ z)) body R) :
    restore cle R = CmacState.ofFlat o.state ∧ get32 cle R 52 = v := by
  obtain ⟨y, hy⟩ := h.rest
  have h32 : ((o.state ++ List.replicate 32 0).take 32).length = 32 := by
    rw [List.length_take, List.length_append, List.length_replicate]; omega
  constructor
  · unfold restore CmacState.ofFlat number
    rw [(hy 0).2, (hy 32).1, (hy 36).1]
    unfold stateOut
    rw [hm]
    simp only [List.append_assoc, rdBytes_here h32, rd32_skip h32, rd32_w32, rd32_here hp]
  · rw [(hy 40).1]
    unfold stateOut
    rw [hm]
    simp only [List.append_assoc, rd32_skip h32, rd32_w32, rd32_here hp]

theorem get_macced (hp : Paired cle sle magicNative m) (hm : r.magic = m) (ho : o.body.length < 4294967296) {z : List UInt8}
    (h : Back cle t 48 (stateOut sle r o.state ++ (w32 sle m (UInt32.ofNat o.body.length) ++ z)) o.body R) :
    (opened cle t false R fun rc =>
      let len := getLen cle R 52
      need (60 ≤ R.length ∧ len ≤ R.length - 60) <|
        if (restore cle R).filled > 16 then (Rc.badargs.code, none)
        else if tagLenOk w.room = false then (Rc.bufferSize.code, some { state := some (restore cle R) })
        else (rc, some { out := rdBytes R 60 (min len w.room), state := some (restore cle R) })) = macced w o := by
  rw [h.opened]
  dsimp only
  have hl := h.len
  unfold getLen
  rw [(h.state hp hm).1, (h.state hp hm).2, ofNat_len ho, need_eq ⟨by omega, by omega⟩]
  unfold macced
  by_cases hs : (CmacState.ofFlat o.state).filled > 16
  · rw [if_pos hs, if_pos hs]
  · rw [if_neg hs, if_neg hs]
    by_cases ht : tagLenOk w.room = true
    · rw [if_neg (by rw [ht]; decide), if_pos (tagLenOk_iff.mp ht), h.front, Nat.min_comm, ← List.take_take, List.take_length]
    · rw [if_pos (by simpa using ht), if_neg (fun q => ht (tagLenOk_iff.mpr q))]

theorem get_ctr (hp : Paired cle sle magicNative m) {v : UInt32} {i : Nat} (ho : o.body.length = i + 32) (hl : o.body.length < 4294967296)
    {z : List UInt8} (h : Back cle t 20 (w32 sle m (UInt32.ofNat i) ++ (w32 sle m v ++ z)) o.body R) :
    (opened cle t true R fun rc =>
      let len := getLen cle R 12
      need (64 ≤ R.length ∧ len ≤ R.length - 64)
        (rc, some { num := get32 cle R 16, out := rdBytes R 32 len, more := rdBytes R (32 + len) 32 })) =
      (0, some { num := v, out := o.body.take i, more := o.body.drop i }) := by
  rw [h.opened]
  dsimp only
  have hR := h.len
  unfold getLen
  rw [h.two hp rfl, h.one hp rfl, ofNat_len (by omega), need_eq ⟨by omega, by omega⟩,
    show rdBytes R 32 i = _ from h.front i, show rdBytes R (32 + i) 32 = _ from h.back ho]

theorem get_ecb (hp : Paired cle sle magicNative m) {i : Nat} (ho : o.body.length = i) (hl : o.body.length < 4294967296)
    {z : List UInt8} (h : Back cle t 16 (w32 sle m (UInt32.ofNat i) ++ z) o.body R) :
    (opened cle t true R fun rc =>
      let len := getLen cle R 12
      need (28 ≤ R.length ∧ len ≤ R.length - 28) (rc, some { out := rdBytes R 28 len })) = (0, some { out := o.body }) := by
  rw [h.opened]
  dsimp only
  have hR := h.len
  unfold getLen
  rw [h.one hp rfl, ofNat_len (by omega), need_eq ⟨by omega, by omega⟩, ← ho, show rdBytes R 28 o.body.length = _ from h.whole]

theorem get_cbc (hp : Paired cle sle magicNative m) {i : Nat} (ho : o.body.length = i + 16) (hl : o.body.length < 4294967296)
    {z : List UInt8} (h : Back cle t 16 (w32 sle m (UInt32.ofNat i) ++ z) o.body R) :
    (opened cle t true R fun rc =>
      let len := getLen cle R 12
      need (44 ≤ R.length ∧ len ≤ R.length - 44) (rc, some { out := rdBytes R 28 len, more := rdBytes R (28 + len) 16 })) =
      (0, some { out := o.body.take i, more := o.body.drop i }) := by
  rw [h.opened]
  dsimp only
  have hR := h.len
  unfold getLen
  rw [h.one hp rfl, ofNat_len (by omega), need_eq ⟨by omega, by omega⟩, show rdBytes R 28 i = _ from h.front i,
    show rdBytes R (28 + i) 16 = _ from h.back ho]

theorem get_gcmEncrypt (hp : Paired cle sle magicNative m) {i : Nat} {tag : UInt32} (ho : o.body.length = i + tag.toNat)
    (hl : o.body.length < 4294967296) {z : List UInt8}
    (h : Back cle t 28 (w32 sle m (UInt32.ofNat i) ++ (w32 sle m tag ++ z)) o.body R) :
    (opened cle t true R fun rc =>
      let len := getLen cle R 12
      let tg := getLen cle R 16
      need (40 ≤ R.length ∧ len + tg < 4294967296 ∧ len + tg ≤ R.length - 40) <|
        need (len ≤ i ∧ tg ≤ tag.toNat) (rc, some { out := rdBytes R 40 len, more := rdBytes R (40 + len) tg })) =
      (0, some { out := o.body.take i, more := o.body.drop i }) := by
  rw [h.opened]
  dsimp only
  have hR := h.len
  unfold getLen
  rw [h.one hp rfl, h.two hp rfl, ofNat_len (by omega), need_eq ⟨by omega, by omega, by omega⟩, need_eq ⟨by omega, by omega⟩,
    show rdBytes R 40 i = _ from h.front i, show rdBytes R (40 + i) tag.toNat = _ from h.back ho]

theorem get_gcmDecrypt (hp : Paired cle sle magicNative m) {i : Nat} (ho : o.body.length = i)
    (hl : o.body.length < 4294967296) {z : List UInt8}
    (h : Back cle t 28 (w32 sle m (UInt32.ofNat i) ++ (w32 sle m 0 ++ z)) o.body R) :
    (opened cle t true R fun rc =>
      let len := getLen cle R 12
      let tg := getLen cle R 16
      need (40 ≤ R.length ∧ len + tg < 4294967296 ∧ len + tg ≤ R.length - 40) <|
        need (len ≤ i) (rc, some { out := rdBytes R 40 len })) = (0, some { out := o.body }) := by
  rw [h.opened]
  dsimp only
  have hR := h.len
  unfold getLen
  have h0 : (0 : UInt32).toNat = 0 := rfl
  rw [h.one hp rfl, h.two hp rfl, ofNat_len (by omega), need_eq ⟨by omega, by omega, by omega⟩, need_eq (by omega), ← ho,
    show rdBytes R 40 o.body.length = _ from h.whole]

theorem get_eccVerify (hp : Paired cle sle magicNative m) (hl : o.body.length < 4294967296) {z : List UInt8}
    (h : Back cle t 8 (w32 sle m (UInt32.ofNat o.res) ++ (w32 sle m (UInt32.ofNat o.body.length) ++ z)) o.body R) :
    (opened cle t false R fun rc =>
      let len := getLen cle R 16
      need (20 ≤ R.length ∧ len ≤ R.length - 20)
        (rc, some { num := get32 cle R 12, out := if w.key then rdBytes R 20 len else [] })) =
      (0, some { num := UInt32.ofNat o.res, out := if w.key then o.body else [] }) := by
  rw [h.opened]
  dsimp only
  have hR := h.len
  unfold getLen
  rw [h.one hp rfl, h.two hp rfl, ofNat_len hl, need_eq ⟨by omega, by omega⟩, show rdBytes R 20 o.body.length = _ from h.whole]

theorem get_checkPub (hp : Paired cle sle magicNative m) (ho : o.res = 1) {z : List UInt8}
    (h : Back cle t 4 (w32 sle m (UInt32.ofNat o.res) ++ z) o.body R) :
    (opened cle t false R fun rc => need (16 ≤ R.length ∧ get32 cle R 12 ≠ 0) (rc, some {})) =
      if o.res = 0 then aborted else (0, some {}) := by
  rw [h.opened]
  have hR := h.len
  rw [h.one hp rfl, ho, need_eq ⟨by omega, by decide⟩, if_neg (by decide)]

theorem get_encaps (hp : Paired cle sle magicNative m) (ho : o.res ≤ o.body.length) (hl : o.body.length < 4294967296) {z : List UInt8}
    (h : Back cle t 8 (w32 sle m (UInt32.ofNat o.res) ++ (w32 sle m (UInt32.ofNat (o.body.length - o.res)) ++ z)) o.body R) :
    (opened cle t false R fun rc =>
      let ct := getLen cle R 12
      let ss := getLen cle R 16
      need (20 ≤ R.length ∧ ct ≤ R.length - 20 ∧ ss ≤ R.length - 20 - ct) <|
        if w.room < ct ∨ w.room2 < ss then (Rc.badargs.code, none)
        else (rc, some { out := rdBytes R 20 ct, more := rdBytes R (20 + ct) ss })) =
      if w.room < o.res ∨ w.room2 < o.body.length - o.res then (Rc.badargs.code, none)
      else (0, some { out := o.body.take o.res, more := o.body.drop o.res }) := by
  rw [h.opened]
  dsimp only
  have hR := h.len
  unfold getLen
  rw [h.one hp rfl, h.two hp rfl, ofNat_len (by omega), ofNat_len (by omega), need_eq ⟨by omega, by omega, by omega⟩,
    show rdBytes R 20 o.res = _ from h.front _, show rdBytes R (20 + o.res) (o.body.length - o.res) = _ from h.back (by omega)]

theorem get_decaps (hp : Paired cle sle magicNative m) (hl : o.body.length < 4294967296) {z : List UInt8}
    (h : Back cle t 8 (w32 sle m (UInt32.ofNat o.body.length) ++ z) o.body R) :
    (opened cle t false R fun rc =>
      let ss := getLen cle R 12
      need (20 ≤ R.length ∧ ss ≤ R.length - 20) <|
        if w.room < ss then (Rc.badargs.code, none) else (rc, some { out := rdBytes R 20 ss })) =
      if w.room < o.body.length then (Rc.badargs.code, none) else (0, some { out := o.body }) := by
  rw [h.opened]
  dsimp only
  have hR := h.len
  unfold getLen
  rw [h.one hp rfl, ofNat_len hl, need_eq ⟨by omega, by omega⟩, show rdBytes R 20 o.body.length = _ from h.whole]

theorem get_cmacUpdate (hp : Paired cle sle magicNative m) (hm : r.magic = m) {z : List UInt8} {v : UInt32}
    (h : Back cle t 48 (stateOut sle r o.state ++ (w32 sle m v ++ z)) o.body R) :
    (opened cle t false R fun rc =>
      need (60 ≤ R.length) <|
        if (restore cle R).filled > 16 then (Rc.badargs.code, none) else (rc, some { state := some (restore cle R) })) =
      if (CmacState.ofFlat o.state).filled > 16 then (Rc.badargs.code, none)
      else (0, some { state := some (CmacState.ofFlat o.state) }) := by
  rw [h.opened]
  have hR := h.len
  rw [(h.state hp hm).1, need_eq (by omega)]

/-- The caller gets the outcome of the operation. -/
theorem receive_reply {L : Crypto.Lib} {N : Nat} (hp : Paired cle sle magicNative m)
    (h : Arrived n cle m a pad c junk r) (hc : c.Sane) (hz : r.size < 4294967296) (hf : Fine L c o) (hs : Small L N)
    (hfix : o.fixed = respSize c.op) (ho : o.body.length < 4294967296) :
    receive n cle w c (reply sle r (fieldsOf sle r c.op o) o.fixed o.body) = c.result w o := by
  have hp' := hp.symm
  have hb : ∀ f, fieldsOf sle r c.op o = f →
      Back cle (n.code c.op).type (respSize c.op) f o.body (reply sle r (fieldsOf sle r c.op o) o.fixed o.body) := by
    rintro f rfl
    rw [hfix]
    exact back_reply hp h.magic (h.head hp').1 (fieldsOf_length ..)
  have hi := h.inSize hc
  have hb' : inSize r < 4294967296 := by unfold CryptoMsg.inSize; omega
  cases c with
  | aesCtr enc id key input reg tmp left =>
    have e2 : len sle r 2 = (UInt32.ofNat input.length).toNat := by words h hp'
    simp only [trailer, List.length_append] at hi
    rw [ofNat_len (by omega)] at e2
    exact get_ctr (z := []) hp (hf N hs) ho (hb _ (by simp only [Call.op, fieldsOf, num, h.magic, e2, List.append_nil]))
  | aesEcb enc id key input =>
    have e2 : len sle r 2 = (UInt32.ofNat input.length).toNat := by words h hp'
    simp only [trailer, List.length_append] at hi
    rw [ofNat_len (by omega)] at e2
    exact get_ecb (z := []) hp (hf N hs) ho (hb _ (by simp only [Call.op, fieldsOf, num, h.magic, e2, List.append_nil]))
  | aesCbc enc id key input iv =>
    have e2 : len sle r 2 = (UInt32.ofNat input.length).toNat := by words h hp'
    simp only [trailer, List.length_append] at hi
    rw [ofNat_len (by omega)] at e2
    exact get_cbc (z := []) hp (hf N hs) ho (hb _ (by simp only [Call.op, fieldsOf, num, h.magic, e2, List.append_nil]))
  | gcmEncrypt id key input iv aad tagLen =>
    have e0 : u32 sle r 0 = 1 := by words h hp'
    have e2 : len sle r 2 = (UInt32.ofNat input.length).toNat := by words h hp'
    have e5 : len sle r 5 = tagLen.toNat := by words h hp'
    simp only [trailer, List.length_append] at hi
    rw [ofNat_len (by omega)] at e2
    exact get_gcmEncrypt (z := []) hp (hf N hs) ho
      (hb _ (by simp only [Call.op, fieldsOf, num, h.magic, e0, e2, e5, List.append_nil]; rw [if_pos (by decide), UInt32.ofNat_toNat]))
  | gcmDecrypt id key input iv aad tag =>
    have e0 : u32 sle r 0 = 0 := by words h hp'
    have e2 : len sle r 2 = (UInt32.ofNat input.length).toNat := by words h hp'
    simp only [trailer, List.length_append] at hi
    rw [ofNat_len (by omega)] at e2
    exact get_gcmDecrypt (z := []) hp (hf N hs) ho
      (hb _ (by simp only [Call.op, fieldsOf, num, h.magic, e0, e2, List.append_nil]; rw [if_neg (by decide)]; rfl))
  | rsaKeyGen | eccKeyGen | edKeyGen =>
    exact get_keyed hp true ho (hb _ (by simp only [Call.op, fieldsOf, num, h.magic, List.append_nil]))
  | x25519KeyGen | mlDsaKeyGen | mlKemKeyGen =>
    exact get_keyed hp false ho (hb _ (by simp only [Call.op, fieldsOf, num, h.magic, List.append_nil]))
  | rsa | eccSign | edSign | makePub =>
    exact get_handed (z := []) (fixed := 4) hp ho (hb _ (by simp only [Call.op, fieldsOf, num, h.magic, List.append_nil]))
  | mlDsaSign => exact get_handed (z := []) (fixed := 8) hp ho (hb _ (by simp only [Call.op, fieldsOf, num, h.magic, List.append_nil]))
  | rsaGetSize | edVerify =>
    exact get_verdict (z := []) (fixed := 4) hp (hb _ (by simp only [Call.op, fieldsOf, num, h.magic, List.append_nil]))
  | mlDsaVerify => exact get_verdict (z := []) (fixed := 8) hp (hb _ (by simp only [Call.op, fieldsOf, num, h.magic, List.append_nil]))
  | eccSecret | x25519Secret => exact get_secret hp ho (hb _ (by simp only [Call.op, fieldsOf, num, h.magic, List.append_nil]))
  | eccVerify => exact get_eccVerify (z := []) hp ho (hb _ (by simp only [Call.op, fieldsOf, num, h.magic, List.append_nil]))
  | checkPub => exact get_checkPub (z := []) hp hf (hb _ (by simp only [Call.op, fieldsOf, num, h.magic, List.append_nil]))
  | encaps => exact get_encaps (z := []) hp hf ho (hb _ (by simp only [Call.op, fieldsOf, num, h.magic, List.append_nil]))
  | decaps => exact get_decaps (z := []) hp ho (hb _ (by simp only [Call.op, fieldsOf, num, h.magic, List.append_nil]))
  | hkdf | cmacKdf => exact get_kdf hp ho (hf N hs) (hb _ (by simp only [Call.op, fieldsOf, num, h.magic, List.append_nil]))
  | cmacUpdate => exact get_cmacUpdate (r := r) hp h.magic (hb _ (by simp only [Call.op, fieldsOf, num, h.magic, List.append_assoc]; rfl))
  | cmacGenerate | cmacFinal => exact get_macced (r := r) hp h.magic ho (hb _ (by simp only [Call.op, fieldsOf, num, h.magic, List.append_assoc]; rfl))

end answer

end WolfHsm.ClientCrypto

import Verif.Proofs.KeyMsg
import Verif.Proofs.KeystoreInv

/-! # Client and server agree on the key messages: responses -/

namespace WolfHsm.ClientKey

open Utils (bytes16 bytes32 bytes64 magicNative)
open Wire
open NvmFlash (Meta)
open KeyMsg (Env Answer Reply)
open Keystore (Srv Sys)

variable {cle : Bool} {m : UInt16}

theorem over_shape {f : List UInt8} {n : Nat} (h : f.length ≤ n) (buf : List UInt8) :
    ∃ p : List UInt8, p.length = n - f.length ∧ over f buf n = f ++ p := by
  refine ⟨((buf ++ List.replicate n 0).drop f.length).take (n - f.length), ?_, rfl⟩
  rw [List.length_take, List.length_drop, List.length_append, List.length_replicate]
  omega

/-- A response as the client sees it. -/
def gotOf (a seq : UInt16) (b : List UInt8) : Comm.Got := ⟨.ok, magicNative, 0x0300 ||| a, seq, b⟩

theorem code_done {cfg : KeyMsg.Cfg} (hp : Paired cle cfg.le magicNative m) (cap : Nat) (ci seq : UInt16) (buf : List UInt8) (x : Answer)
    {a : UInt16} (ha : a = 1 ∨ a = 3 ∨ a = 4 ∨ a = 5) (body junk : List UInt8) :
    decode cle cap ci a (gotOf a seq ((KeyMsg.reply cfg (reqOf m a seq body junk) x).bytes buf)) = checked x.rc.code .done := by
  have h12 : ∀ {b : List UInt8}, b = (⟨w32 cfg.le m x.rc.code ++ w32 cfg.le m 0, 12, []⟩ : Reply).bytes buf →
      b.length = 12 ∧ rd32 cle magicNative b 0 = x.rc.code := by
    intro b hb
    obtain ⟨p, hl, h⟩ := over_shape (f := w32 cfg.le m x.rc.code ++ w32 cfg.le m 0) (n := 12)
      (by simp only [List.length_append, w32_length]; omega) buf
    simp only [List.length_append, w32_length] at hl
    subst hb
    unfold Reply.bytes
    dsimp only
    rw [h]
    simp only [List.append_assoc, List.append_nil, List.length_append, w32_length, rd32_here hp, hl]
    exact ⟨trivial, trivial⟩
  rcases ha with h | h | h | h <;> subst h
  · obtain ⟨h1, h2⟩ := h12 rfl
    show (if _ > 12 then _ else if _ < 12 then _ else _) = _
    refine (if_neg (show ¬ _ > 12 from ?_)).trans ((if_neg (show ¬ _ < 12 from ?_)).trans ?_)
    · exact Nat.not_lt.2 (Nat.le_of_eq h1)
    · exact Nat.not_lt.2 (Nat.le_of_eq h1.symm)
    · exact congrArg (checked · .done) h2
  · obtain ⟨h1, h2⟩ := h12 rfl
    show (if _ < 12 then _ else _) = _
    refine (if_neg (show ¬ _ < 12 from ?_)).trans ?_
    · exact Nat.not_lt.2 (Nat.le_of_eq h1.symm)
    · exact congrArg (checked · .done) h2
  · obtain ⟨h1, h2⟩ := h12 rfl
    show (if _ < 12 then _ else _) = _
    refine (if_neg (show ¬ _ < 12 from ?_)).trans ?_
    · exact Nat.not_lt.2 (Nat.le_of_eq h1.symm)
    · exact congrArg (checked · .done) h2
  · show (if (Reply.bytes ⟨w32 cfg.le m x.rc.code, 8, []⟩ buf).length < 8 then _ else
      checked (rd32 cle magicNative (Reply.bytes ⟨w32 cfg.le m x.rc.code, 8, []⟩ buf) 0) .done) = _
    obtain ⟨p, hl, h⟩ := over_shape (f := w32 cfg.le m x.rc.code) (n := 8) (by rw [w32_length]; omega) buf
    unfold Reply.bytes
    dsimp only
    rw [w32_length] at hl
    rw [h]
    simp only [List.append_nil, List.length_append, w32_length, rd32_here hp, hl]
    rfl

theorem key_id {cfg : KeyMsg.Cfg} (hp : Paired cle cfg.le magicNative m) (cap : Nat) (ci seq : UInt16) (buf : List UInt8) (x : Answer)
    {a : UInt16} (ha : a = 0 ∨ a = 15) (body junk : List UInt8) :
    decode cle cap ci a (gotOf a seq ((KeyMsg.reply cfg (reqOf m a seq body junk) x).bytes buf)) = checked x.rc.code (.keyId x.id) := by
  have key : (if (Reply.bytes ⟨w32 cfg.le m x.rc.code ++ w16 cfg.le m x.id, 12, []⟩ buf).length < 12 then Result.err .aborted else
      checked (rd32 cle magicNative (Reply.bytes ⟨w32 cfg.le m x.rc.code ++ w16 cfg.le m x.id, 12, []⟩ buf) 0)
        (.keyId (rd16 cle magicNative (Reply.bytes ⟨w32 cfg.le m x.rc.code ++ w16 cfg.le m x.id, 12, []⟩ buf) 4))) =
      checked x.rc.code (.keyId x.id) := by
    obtain ⟨p, hl, h⟩ := over_shape (f := w32 cfg.le m x.rc.code ++ w16 cfg.le m x.id) (n := 12)
      (by simp only [List.length_append, w32_length, w16_length]; omega) buf
    unfold Reply.bytes
    dsimp only
    simp only [List.length_append, w32_length, w16_length] at hl
    rw [h]
    simp only [List.append_assoc, List.append_nil, List.length_append, w32_length, w16_length, rd32_here hp, rd16_w32, rd16_here hp, hl]
    rfl
  rcases ha with h | h <;> subst h <;> exact key

theorem export_bytes {cfg : KeyMsg.Cfg} (hp : Paired cle cfg.le magicNative m) (cap : Nat) (ci seq : UInt16) (buf : List UInt8) (x : Answer)
    {a : UInt16} (ha : a = 2 ∨ a = 13) (body junk : List UInt8) (hx : x.bytes.length < 65536)
    (hr : x.bytes.length ≤ cfg.ks.commLen - 36) :
    decode cle cap ci a (gotOf a seq ((KeyMsg.reply cfg (reqOf m a seq body junk) x).bytes buf)) =
    checked x.rc.code (if cap < x.bytes.length then .err .aborted else .key x.label.toList x.bytes) := by
  have key : ∀ b, b = Reply.bytes ⟨w32 cfg.le m x.rc.code ++ (w32 cfg.le m (UInt32.ofNat (x.bytes.take (cfg.ks.commLen - 36)).length) ++
        x.label.toList), 36, x.bytes.take (cfg.ks.commLen - 36)⟩ buf →
      (if b.length < 36 then Result.err .aborted else
        checked (rd32 cle magicNative b 0) <|
          if (rd32 cle magicNative b 4).toNat > b.length - 36 then .err .aborted
          else if cap < (rd32 cle magicNative b 4).toNat then .err .aborted
          else .key (rdBytes b 8 24) (rdBytes b 36 (rd32 cle magicNative b 4).toNat)) =
      checked x.rc.code (if cap < x.bytes.length then .err .aborted else .key x.label.toList x.bytes) := by
    intro b hb
    rw [List.take_of_length_le hr] at hb
    obtain ⟨p, hl, h⟩ := over_shape (f := w32 cfg.le m x.rc.code ++ (w32 cfg.le m (UInt32.ofNat x.bytes.length) ++ x.label.toList)) (n := 36)
      (by simp only [List.length_append, w32_length, vec_length]; omega) buf
    simp only [List.length_append, w32_length, vec_length] at hl
    unfold Reply.bytes at hb
    dsimp only at hb
    rw [h] at hb
    simp only [List.append_assoc] at hb
    have h1 : b.length = 36 + x.bytes.length := by
      rw [hb]; simp only [List.length_append, w32_length, vec_length, hl]; omega
    have h2 : rd32 cle magicNative b 0 = x.rc.code := by rw [hb, rd32_here hp]
    have h3 : rd32 cle magicNative b 4 = UInt32.ofNat x.bytes.length := by rw [hb, rd32_w32, rd32_here hp]
    have h4 : rdBytes b 8 24 = x.label.toList := by rw [hb, rdBytes_w32, rdBytes_w32, rdBytes_here (vec_length _)]
    have h5 : rdBytes b 36 x.bytes.length = x.bytes := by
      rw [hb, rdBytes_w32, rdBytes_w32, show (28 : Nat) = 4 + 24 from rfl, rdBytes_skip (vec_length _),
        show (4 : Nat) = 0 + 4 from rfl, rdBytes_skip (by rw [hl])]
      unfold rdBytes
      exact List.take_of_length_le (Nat.le_refl _)
    rw [h1, h2, h3, h4, len32 hx, h5, if_neg (by omega), if_neg (by omega)]
  rcases ha with h | h <;> subst h <;> exact key _ rfl

theorem mine {a : UInt16} (ha : a = 6 ∨ a = 7 ∨ a = 8 ∨ a = 16 ∨ a = 9 ∨ a = 10 ∨ a = 11 ∨ a = 12) :
    (0x0300 ||| a) &&& 0xFF00 = 0x0300 ∧ (0x0300 ||| a) &&& 0x00FF = a := by
  rcases ha with h | h | h | h | h | h | h | h <;> subst h <;> decide

theorem dma_id {cfg : KeyMsg.Cfg} (hp : Paired cle cfg.le magicNative m) (cap : Nat) (ci seq : UInt16) (buf : List UInt8) (x : Answer)
    (body junk : List UInt8) :
    decode cle cap ci 6 (gotOf 6 seq ((KeyMsg.reply cfg (reqOf m 6 seq body junk) x).bytes buf)) = checked x.rc.code (.keyId x.id) := by
  have key : ∀ b, b = Reply.bytes ⟨w64 cfg.le m x.badAddr ++ (w64 cfg.le m x.badSz ++ (w32 cfg.le m x.rc.code ++ w16 cfg.le m x.id)), 24, []⟩ buf →
      (if ¬ (((0x0300 ||| 6 : UInt16) &&& 0xFF00 = 0x0300) ∧ ((0x0300 ||| 6 : UInt16) &&& 0x00FF = 6)) ∨ b.length ≠ 24 then Result.err .aborted else
      checked (rd32 cle magicNative b 16) (.keyId (rd16 cle magicNative b 20))) = checked x.rc.code (.keyId x.id) := by
    intro b hb
    obtain ⟨p, hl, h⟩ := over_shape (f := w64 cfg.le m x.badAddr ++ (w64 cfg.le m x.badSz ++ (w32 cfg.le m x.rc.code ++ w16 cfg.le m x.id)))
      (n := 24) (by simp only [List.length_append, w64_length, w32_length, w16_length]; omega) buf
    simp only [List.length_append, w64_length, w32_length, w16_length] at hl
    unfold Reply.bytes at hb
    dsimp only at hb
    rw [h] at hb
    simp only [List.append_assoc, List.append_nil] at hb
    have h1 : b.length = 24 := by
      rw [hb]; simp only [List.length_append, w64_length, w32_length, w16_length, hl]
    have h2 : rd32 cle magicNative b 16 = x.rc.code := by rw [hb, rd32_w64, rd32_w64, rd32_here hp]
    have h3 : rd16 cle magicNative b 20 = x.id := by rw [hb, rd16_w64, rd16_w64, rd16_w32, rd16_here hp]
    rw [h2, h3]
    exact if_neg (by rw [h1]; decide)
  exact key _ rfl

theorem trunc32 (n : Nat) : (UInt32.ofNat n).toUInt16 = UInt16.ofNat n := by
  apply UInt16.toNat_inj.1
  rw [UInt32.toNat_toUInt16, UInt32.toNat_ofNat', UInt16.toNat_ofNat']
  omega

theorem dma_len {cfg : KeyMsg.Cfg} (hp : Paired cle cfg.le magicNative m) (cap : Nat) (ci seq : UInt16) (buf : List UInt8) (x : Answer)
    {a : UInt16} (ha : a = 7 ∨ a = 14) (body junk : List UInt8) :
    decode cle cap ci a (gotOf a seq ((KeyMsg.reply cfg (reqOf m a seq body junk) x).bytes buf)) =
    checked x.rc.code (.dma (UInt16.ofNat x.bytes.length) x.label.toList) := by
  have shape : ∀ b, b = Reply.bytes ⟨w64 cfg.le m x.badAddr ++ (w64 cfg.le m x.badSz ++ (w32 cfg.le m x.rc.code ++
      (w32 cfg.le m (UInt32.ofNat x.bytes.length) ++ x.label.toList))), 48, []⟩ buf →
      b.length = 48 ∧ rd32 cle magicNative b 16 = x.rc.code ∧ (rd32 cle magicNative b 20).toUInt16 = UInt16.ofNat x.bytes.length ∧
      rdBytes b 24 24 = x.label.toList := by
    intro b hb
    obtain ⟨p, hl, h⟩ := over_shape (f := w64 cfg.le m x.badAddr ++ (w64 cfg.le m x.badSz ++ (w32 cfg.le m x.rc.code ++
      (w32 cfg.le m (UInt32.ofNat x.bytes.length) ++ x.label.toList))))
      (n := 48) (by simp only [List.length_append, w64_length, w32_length, vec_length]; omega) buf
    simp only [List.length_append, w64_length, w32_length, vec_length] at hl
    unfold Reply.bytes at hb
    dsimp only at hb
    rw [h] at hb
    simp only [List.append_assoc, List.append_nil] at hb
    refine ⟨?_, ?_, ?_, ?_⟩
    · rw [hb]; simp only [List.length_append, w64_length, w32_length, vec_length, hl]
    · rw [hb, rd32_w64, rd32_w64, rd32_here hp]
    · rw [hb, rd32_w64, rd32_w64, rd32_w32, rd32_here hp, trunc32]
    · rw [hb, rdBytes_w64, rdBytes_w64, rdBytes_w32, rdBytes_w32, rdBytes_here (vec_length _)]
  obtain ⟨h1, h2, h3, h4⟩ := shape _ rfl
  rcases ha with h | h <;> subst h
  · refine (if_neg ?_).trans ?_
    · intro hh
      rcases hh with hh | hh
      · exact hh (mine (Or.inr (Or.inl rfl)))
      · exact hh h1
    · refine (congrArg (fun c => checked c _) h2).trans ?_
      refine congrArg (checked x.rc.code) ?_
      exact congr (congrArg Result.dma h3) h4
  · refine (if_neg ?_).trans ?_
    · exact fun hh => hh h1
    · refine (congrArg (fun c => checked c _) h2).trans ?_
      refine congrArg (checked x.rc.code) ?_
      exact congr (congrArg Result.dma h3) h4

theorem wrapped_bytes {cfg : KeyMsg.Cfg} (hp : Paired cle cfg.le magicNative m) (cap : Nat) (seq : UInt16) (buf : List UInt8) (x : Answer)
    {a : UInt16} (ha : a = 8 ∨ a = 16) (body junk : List UInt8) (hx : x.bytes.length < 65536) :
    decode cle cap x.cipher a (gotOf a seq ((KeyMsg.reply cfg (reqOf m a seq body junk) x).bytes buf)) =
    checked x.rc.code (if x.bytes.length > cap then .err .bufferSize else .bytes x.bytes) := by
  have key : ∀ b, b = Reply.bytes ⟨w32 cfg.le m x.rc.code ++ (w16 cfg.le m (UInt16.ofNat x.bytes.length) ++ w16 cfg.le m x.cipher), 8, x.bytes⟩ buf →
      (if ¬ ((0x0300 ||| a) &&& 0xFF00 = 0x0300 ∧ (0x0300 ||| a) &&& 0x00FF = a) ∨ b.length < 8 ∨
          b.length < 8 + (rd16 cle magicNative b 4).toNat ∨ rd16 cle magicNative b 6 ≠ x.cipher then Result.err .aborted
      else checked (rd32 cle magicNative b 0) <|
        if (rd16 cle magicNative b 4).toNat > cap then .err .bufferSize else .bytes (rdBytes b 8 (rd16 cle magicNative b 4).toNat)) =
      checked x.rc.code (if x.bytes.length > cap then .err .bufferSize else .bytes x.bytes) := by
    intro b hb
    obtain ⟨p, hl, h⟩ := over_shape (f := w32 cfg.le m x.rc.code ++ (w16 cfg.le m (UInt16.ofNat x.bytes.length) ++ w16 cfg.le m x.cipher))
      (n := 8) (by simp only [List.length_append, w32_length, w16_length]; omega) buf
    simp only [List.length_append, w32_length, w16_length] at hl
    unfold Reply.bytes at hb
    dsimp only at hb
    rw [h, List.length_eq_zero_iff.1 hl, List.append_nil] at hb
    simp only [List.append_assoc] at hb
    have h1 : b.length = 8 + x.bytes.length := by
      rw [hb]; simp only [List.length_append, w32_length, w16_length]; omega
    have h2 : rd32 cle magicNative b 0 = x.rc.code := by rw [hb, rd32_here hp]
    have h3 : rd16 cle magicNative b 4 = UInt16.ofNat x.bytes.length := by rw [hb, rd16_w32, rd16_here hp]
    have h4 : rd16 cle magicNative b 6 = x.cipher := by rw [hb, rd16_w32, rd16_w16, rd16_here hp]
    have h5 : rdBytes b 8 x.bytes.length = x.bytes := by
      rw [hb, rdBytes_w32, rdBytes_w16, rdBytes_w16]
      unfold rdBytes
      exact List.take_of_length_le (Nat.le_refl _)
    rw [h1, h2, h3, h4, len16 hx, h5, if_neg]
    rintro (hh | hh | hh | hh)
    · exact hh (mine (by rcases ha with h | h <;> subst h <;> decide))
    · omega
    · omega
    · exact hh rfl
  rcases ha with h | h <;> subst h <;> exact key _ rfl

theorem unwrapped_key {cfg : KeyMsg.Cfg} (hp : Paired cle cfg.le magicNative m) (cap : Nat) (seq : UInt16) (buf : List UInt8) (x : Answer)
    (body junk : List UInt8) (hx : x.bytes.length < 65536) :
    decode cle cap x.cipher 9 (gotOf 9 seq ((KeyMsg.reply cfg (reqOf m 9 seq body junk) x).bytes buf)) =
    checked x.rc.code (if x.bytes.length > cap then .err .bufferSize else .unwrapped x.md x.bytes) := by
  have key : ∀ b, b = Reply.bytes ⟨w32 cfg.le m x.rc.code ++ (w16 cfg.le m (UInt16.ofNat x.bytes.length) ++ w16 cfg.le m x.cipher), 8,
      w16 cfg.le m x.md.id ++ (w16 cfg.le m x.md.access ++ (w16 cfg.le m x.md.flags ++ (w16 cfg.le m x.md.len ++ (x.md.label.toList ++ x.bytes))))⟩ buf →
      (if ¬ ((0x0300 ||| 9 : UInt16) &&& 0xFF00 = 0x0300 ∧ (0x0300 ||| 9 : UInt16) &&& 0x00FF = 9) ∨ b.length < 8 ∨
          b.length < 40 + (rd16 cle magicNative b 4).toNat ∨ rd16 cle magicNative b 6 ≠ x.cipher then Result.err .aborted
      else checked (rd32 cle magicNative b 0) <|
        if (rd16 cle magicNative b 4).toNat > cap then .err .bufferSize
        else .unwrapped (metaAt cle b 8) (rdBytes b 40 (rd16 cle magicNative b 4).toNat)) =
      checked x.rc.code (if x.bytes.length > cap then .err .bufferSize else .unwrapped x.md x.bytes) := by
    intro b hb
    obtain ⟨p, hl, h⟩ := over_shape (f := w32 cfg.le m x.rc.code ++ (w16 cfg.le m (UInt16.ofNat x.bytes.length) ++ w16 cfg.le m x.cipher))
      (n := 8) (by simp only [List.length_append, w32_length, w16_length]; omega) buf
    simp only [List.length_append, w32_length, w16_length] at hl
    unfold Reply.bytes at hb
    dsimp only at hb
    rw [h, List.length_eq_zero_iff.1 hl, List.append_nil] at hb
    simp only [List.append_assoc] at hb
    have h1 : b.length = 40 + x.bytes.length := by
      rw [hb]; simp only [List.length_append, w32_length, w16_length, vec_length]; omega
    have h2 : rd32 cle magicNative b 0 = x.rc.code := by rw [hb, rd32_here hp]
    have h3 : rd16 cle magicNative b 4 = UInt16.ofNat x.bytes.length := by rw [hb, rd16_w32, rd16_here hp]
    have h4 : rd16 cle magicNative b 6 = x.cipher := by rw [hb, rd16_w32, rd16_w16, rd16_here hp]
    have h5 : rdBytes b 40 x.bytes.length = x.bytes := by
      rw [hb]
      simp only [rdBytes_w32, rdBytes_w16]
      refine (rdBytes_skip (k := 0) (vec_length x.md.label)).trans ?_
      unfold rdBytes
      exact List.take_of_length_le (Nat.le_refl _)
    have h6 : metaAt cle b 8 = x.md := by
      rw [hb]
      unfold metaAt
      simp only [rd16_w32, rd16_w16, rd16_here hp, rdBytes_w32, rdBytes_w16, rdBytes_here (vec_length _), label_vec]
    rw [h1, h2, h3, h4, len16 hx, h5, h6, if_neg]
    rintro (hh | hh | hh | hh)
    · exact hh (by decide)
    · omega
    · omega
    · exact hh rfl
  exact key _ rfl

theorem unwrapped_id {cfg : KeyMsg.Cfg} (hp : Paired cle cfg.le magicNative m) (cap : Nat) (seq : UInt16) (buf : List UInt8) (x : Answer)
    (body junk : List UInt8) :
    decode cle cap x.cipher 10 (gotOf 10 seq ((KeyMsg.reply cfg (reqOf m 10 seq body junk) x).bytes buf)) =
    checked x.rc.code (.keyId x.id) := by
  have key : ∀ b, b = Reply.bytes ⟨w32 cfg.le m x.rc.code ++ (w16 cfg.le m x.id ++ w16 cfg.le m x.cipher), 8, []⟩ buf →
      (if ¬ ((0x0300 ||| 10 : UInt16) &&& 0xFF00 = 0x0300 ∧ (0x0300 ||| 10 : UInt16) &&& 0x00FF = 10) ∨ b.length < 8 ∨
          rd16 cle magicNative b 6 ≠ x.cipher then Result.err .aborted
      else checked (rd32 cle magicNative b 0) (.keyId (rd16 cle magicNative b 4))) = checked x.rc.code (.keyId x.id) := by
    intro b hb
    obtain ⟨p, hl, h⟩ := over_shape (f := w32 cfg.le m x.rc.code ++ (w16 cfg.le m x.id ++ w16 cfg.le m x.cipher))
      (n := 8) (by simp only [List.length_append, w32_length, w16_length]; omega) buf
    simp only [List.length_append, w32_length, w16_length] at hl
    unfold Reply.bytes at hb
    dsimp only at hb
    rw [h, List.length_eq_zero_iff.1 hl, List.append_nil, List.append_nil] at hb
    have h1 : b.length = 8 := by
      rw [hb]; simp only [List.length_append, w32_length, w16_length]
    have h2 : rd32 cle magicNative b 0 = x.rc.code := by rw [hb, rd32_here hp]
    have h3 : rd16 cle magicNative b 4 = x.id := by rw [hb, rd16_w32, rd16_here hp]
    have h4 : rd16 cle magicNative b 6 = x.cipher := by rw [hb, rd16_w32, rd16_w16, rd16_last hp]
    rw [h1, h2, h3, h4, if_neg]
    rintro (hh | hh | hh)
    · exact hh (by decide)
    · omega
    · exact hh rfl
  exact key _ rfl

theorem data_bytes {cfg : KeyMsg.Cfg} (hp : Paired cle cfg.le magicNative m) (cap : Nat) (seq : UInt16) (buf : List UInt8) (x : Answer)
    {a : UInt16} (ha : a = 11 ∨ a = 12) (body junk : List UInt8) (hx : x.bytes.length < 65536) :
    decode cle cap x.cipher a (gotOf a seq ((KeyMsg.reply cfg (reqOf m a seq body junk) x).bytes buf)) =
    checked x.rc.code (if x.bytes.length > cap then .err .bufferSize else .bytes x.bytes) := by
  have key : ∀ b, b = Reply.bytes ⟨w32 cfg.le m x.rc.code ++ (w32 cfg.le m (UInt32.ofNat x.bytes.length) ++ w16 cfg.le m x.cipher), 12, x.bytes⟩ buf →
      (if ¬ ((0x0300 ||| a) &&& 0xFF00 = 0x0300 ∧ (0x0300 ||| a) &&& 0x00FF = a) ∨ b.length < 12 ∨
          b.length < 12 + (rd32 cle magicNative b 4).toNat ∨ rd16 cle magicNative b 8 ≠ x.cipher then Result.err .aborted
      else checked (rd32 cle magicNative b 0) <|
        if (rd32 cle magicNative b 4).toNat > cap then .err .bufferSize else .bytes (rdBytes b 12 (rd32 cle magicNative b 4).toNat)) =
      checked x.rc.code (if x.bytes.length > cap then .err .bufferSize else .bytes x.bytes) := by
    intro b hb
    obtain ⟨p, hl, h⟩ := over_shape (f := w32 cfg.le m x.rc.code ++ (w32 cfg.le m (UInt32.ofNat x.bytes.length) ++ w16 cfg.le m x.cipher))
      (n := 12) (by simp only [List.length_append, w32_length, w16_length]; omega) buf
    simp only [List.length_append, w32_length, w16_length] at hl
    unfold Reply.bytes at hb
    dsimp only at hb
    rw [h] at hb
    simp only [List.append_assoc] at hb
    have h1 : b.length = 12 + x.bytes.length := by
      rw [hb]; simp only [List.length_append, w32_length, w16_length, hl]; omega
    have h2 : rd32 cle magicNative b 0 = x.rc.code := by rw [hb, rd32_here hp]
    have h3 : rd32 cle magicNative b 4 = UInt32.ofNat x.bytes.length := by rw [hb, rd32_w32, rd32_here hp]
    have h4 : rd16 cle magicNative b 8 = x.cipher := by rw [hb, rd16_w32, rd16_w32, rd16_here hp]
    have h5 : rdBytes b 12 x.bytes.length = x.bytes := by
      rw [hb, rdBytes_w32, rdBytes_w32, rdBytes_w16, show (2 : Nat) = 0 + 2 from rfl, rdBytes_skip (by rw [hl])]
      unfold rdBytes
      exact List.take_of_length_le (Nat.le_refl _)
    rw [h1, h2, h3, h4, len32 hx, h5, if_neg]
    rintro (hh | hh | hh | hh)
    · exact hh (mine (by rcases ha with h | h <;> subst h <;> decide))
    · omega
    · omega
    · exact hh rfl
  rcases ha with h | h <;> subst h <;> exact key _ rfl

/-! ## The result of a call -/

/-- Room for the bytes of an answer. -/
def Room (cfg : KeyMsg.Cfg) (a : UInt16) (x : Answer) : Prop :=
  x.bytes.length < 65536 ∧ (a = 2 ∨ a = 13 → x.bytes.length ≤ cfg.ks.commLen - 36)

theorem reply_result {cfg : KeyMsg.Cfg} (hp : Paired cle cfg.le magicNative m) {kcfg : Cfg} {stale : Nat → UInt8} {c : Call} {a : UInt16}
    {body : List UInt8} (he : encode cle kcfg stale c = .ok (a, body)) (cap : Nat) (ci seq : UInt16) (body' junk buf : List UInt8)
    {x : Answer} (hr : Room cfg a x) (hc : c.cipher? ≠ none → x.cipher = ci) :
    decode cle cap ci a (gotOf a seq ((KeyMsg.reply cfg (reqOf m a seq body' junk) x).bytes buf)) = c.result cap x := by
  obtain ⟨h1, h2⟩ := hr
  cases c with
  | cache id flags label key =>
    have ha : a = 0 := by
      unfold encode at he; dsimp only at he
      split at he
      · cases he
      · injection he with he; injection he with h _; exact h.symm
    subst ha
    exact key_id hp cap ci seq buf x (Or.inl rfl) body' junk
  | cacheRandom id flags label sz =>
    have ha : a = 15 := by
      unfold encode at he; dsimp only at he
      split at he
      · cases he
      · injection he with he; injection he with h _; exact h.symm
    subst ha
    exact key_id hp cap ci seq buf x (Or.inr rfl) body' junk
  | evict id =>
    have ha : a = 1 := by
      unfold encode idReq at he; dsimp only at he
      split at he
      · cases he
      · injection he with he; injection he with h _; exact h.symm
    subst ha
    exact code_done hp cap ci seq buf x (by decide) body' junk
  | exportKey id =>
    have ha : a = 2 := by
      unfold encode idReq at he; dsimp only at he
      split at he
      · cases he
      · injection he with he; injection he with h _; exact h.symm
    subst ha
    exact export_bytes hp cap ci seq buf x (Or.inl rfl) body' junk h1 (h2 (by decide))
  | exportPublic id algo =>
    have ha : a = 13 := by
      unfold encode at he; dsimp only at he
      split at he
      · cases he
      · injection he with he; injection he with h _; exact h.symm
    subst ha
    exact export_bytes hp cap ci seq buf x (Or.inr rfl) body' junk h1 (h2 (by decide))
  | commit id =>
    have ha : a = 3 := by
      unfold encode idReq at he; dsimp only at he
      split at he
      · cases he
      · injection he with he; injection he with h _; exact h.symm
    subst ha
    exact code_done hp cap ci seq buf x (by decide) body' junk
  | erase id =>
    have ha : a = 4 := by
      unfold encode idReq at he; dsimp only at he
      split at he
      · cases he
      · injection he with he; injection he with h _; exact h.symm
    subst ha
    exact code_done hp cap ci seq buf x (by decide) body' junk
  | revoke id =>
    have ha : a = 5 := by
      unfold encode idReq at he; dsimp only at he
      split at he
      · cases he
      · injection he with he; injection he with h _; exact h.symm
    subst ha
    exact code_done hp cap ci seq buf x (by decide) body' junk
  | cacheDma id flags label addr sz =>
    injection he with he; injection he with h _; subst h
    exact dma_id hp cap ci seq buf x body' junk
  | exportDma id addr sz =>
    have ha : a = 7 := by
      unfold encode at he; dsimp only at he
      split at he
      · cases he
      · injection he with he; injection he with h _; exact h.symm
    subst ha
    exact dma_len hp cap ci seq buf x (by decide) body' junk
  | exportPublicDma id algo addr sz =>
    have ha : a = 14 := by
      unfold encode at he; dsimp only at he
      split at he
      · cases he
      · injection he with he; injection he with h _; exact h.symm
    subst ha
    exact dma_len hp cap ci seq buf x (by decide) body' junk
  | wrap cipher kek md key =>
    have ha : a = 8 := by
      unfold encode at he; dsimp only at he
      split at he
      · cases he
      · injection he with he; injection he with h _; exact h.symm
    subst ha
    have hc := hc (by intro h; cases h)
    subst hc
    exact wrapped_bytes hp cap seq buf x (by decide) body' junk h1
  | wrapExport cipher id type kek =>
    injection he with he; injection he with h _; subst h
    have hc := hc (by intro h; cases h)
    subst hc
    exact wrapped_bytes hp cap seq buf x (by decide) body' junk h1
  | unwrapExport cipher kek blob =>
    have ha : a = 9 := by
      unfold encode at he; dsimp only at he
      split at he
      · cases he
      · injection he with he; injection he with h _; exact h.symm
    subst ha
    have hc := hc (by intro h; cases h)
    subst hc
    exact unwrapped_key hp cap seq buf x body' junk h1
  | unwrapCache cipher kek blob =>
    have ha : a = 10 := by
      unfold encode at he; dsimp only at he
      split at he
      · cases he
      · injection he with he; injection he with h _; exact h.symm
    subst ha
    have hc := hc (by intro h; cases h)
    subst hc
    exact unwrapped_id hp cap seq buf x body' junk
  | dataWrap cipher kek data =>
    have ha : a = 11 := by
      unfold encode at he; dsimp only at he
      split at he
      · cases he
      · injection he with he; injection he with h _; exact h.symm
    subst ha
    have hc := hc (by intro h; cases h)
    subst hc
    exact data_bytes hp cap seq buf x (by decide) body' junk h1
  | dataUnwrap cipher kek blob =>
    have ha : a = 12 := by
      unfold encode at he; dsimp only at he
      split at he
      · cases he
      · injection he with he; injection he with h _; exact h.symm
    subst ha
    have hc := hc (by intro h; cases h)
    subst hc
    exact data_bytes hp cap seq buf x (by decide) body' junk h1

end WolfHsm.ClientKey

import Verif.Proofs.ClientCrypto
import Mathlib.Tactic.ByContra

/-!
# Every crypto request of the client, as the server reads it
-/

namespace WolfHsm.ClientCrypto

open Wire Utils CryptoMsg
open Server (Req)
open ClientHash (Ret put32 get32 sized_eq fits_eq ofNat_len last_ne)

variable {n : Numbers} {cle sle : Bool} {m : UInt16} {a : UInt32} {pad : UInt8 × UInt8} {r : Req} {c : Call} {junk : List UInt8}

/-- Read the fields of the request structure. -/
macro "words" h:ident hp:ident : tactic =>
  `(tactic| simp only [half, opt, lab, u32, u16, len, CryptoMsg.str, ($h).magic, ($h).buf, request, ClientCrypto.head, fields, put32, putId, putLen, put16, List.append_assoc,
      rd32_here $hp, rd16_here $hp, rd32_w32, rd16_w32, rd32_w16, rdBytes_w32, rdBytes_w16, rdBytes_pad, rd32_pad,
      rdBytes_here (label24_length _), label_label24, half_id, room_id, bit_one, bit_ne, bits_one, bits_two])

set_option linter.unusedSimpArgs false
theorem decode_aesCtr {enc : Bool} {id : UInt16} {key input reg tmp : List UInt8} {left : UInt32}
    (coins : List UInt8) (codes : Codes) (hp : Paired sle cle m magicNative)
    (h : Arrived n cle m a pad (.aesCtr enc id key input reg tmp left) junk r) (hz : r.size < 4294967296)
    (hc : reg.length = 16 ∧ tmp.length = 16) :
    decode codes sle coins r (.aes .ctr) = .ok (.keys (Call.asks coins (.aesCtr enc id key input reg tmp left))) := by
  have hi := h.inSize hc
  have hs := h.str hc
  have e1 : len sle r 1 = (UInt32.ofNat key.length).toNat := by words h hp
  have e2 : len sle r 2 = (UInt32.ofNat input.length).toNat := by words h hp
  simp only [Call.op, structSize, trailer, List.length_append] at hi hs
  have hb : inSize r < 4294967296 := by unfold CryptoMsg.inSize; omega
  rw [ofNat_len (by omega)] at e1 e2
  have s0 : str r (20 + input.length) key.length = key := by
    simp only [Nat.add_assoc, hs]
    simp only [List.append_assoc, rdBytes_all, rdBytes_len0, rdBytes_len]
  have s1 : str r 20 input.length = input := by
    refine (hs 0 _).trans ?_
    simp only [List.append_assoc, rdBytes_all]
  have s2 : str r (20 + input.length + key.length) 32 = reg ++ tmp := by
    simp only [Nat.add_assoc, hs]
    simp only [List.append_assoc, rdBytes_len0, rdBytes_len]
    rw [← List.append_assoc]
    exact rdBytes_here (by rw [List.length_append, hc.1, hc.2])
  unfold decode decodeAes
  refine (sized_eq (by omega)).trans ?_
  dsimp only
  rw [e1, e2]
  refine (fits_eq (by omega)).trans ?_
  rw [s0, s1, s2]
  unfold Call.asks
  words h hp

theorem decode_aesEcb {enc : Bool} {id : UInt16} {key input : List UInt8}
    (coins : List UInt8) (codes : Codes) (hp : Paired sle cle m magicNative)
    (h : Arrived n cle m a pad (.aesEcb enc id key input) junk r) (hz : r.size < 4294967296) :
    decode codes sle coins r (.aes .ecb) = .ok (.keys (Call.asks coins (.aesEcb enc id key input))) := by
  have hi := h.inSize trivial
  have hs := h.str trivial
  have e1 : len sle r 1 = (UInt32.ofNat key.length).toNat := by words h hp
  have e2 : len sle r 2 = (UInt32.ofNat input.length).toNat := by words h hp
  simp only [Call.op, structSize, trailer, List.length_append] at hi hs
  have hb : inSize r < 4294967296 := by unfold CryptoMsg.inSize; omega
  rw [ofNat_len (by omega)] at e1 e2
  have s0 : str r (16 + input.length) key.length = key := by
    simp only [Nat.add_assoc, hs]
    simp only [List.append_assoc, rdBytes_all, rdBytes_len0, rdBytes_len]
  have s1 : str r 16 input.length = input := by
    refine (hs 0 _).trans ?_
    simp only [List.append_assoc, rdBytes_all]
  unfold decode decodeAes
  refine (sized_eq (by omega)).trans ?_
  dsimp only
  rw [e1, e2]
  refine (fits_eq (by omega)).trans ?_
  rw [s0, s1]
  unfold Call.asks
  words h hp

theorem decode_aesCbc {enc : Bool} {id : UInt16} {key input iv : List UInt8}
    (coins : List UInt8) (codes : Codes) (hp : Paired sle cle m magicNative)
    (h : Arrived n cle m a pad (.aesCbc enc id key input iv) junk r) (hz : r.size < 4294967296)
    (hc : iv.length = 16) :
    decode codes sle coins r (.aes .cbc) = .ok (.keys (Call.asks coins (.aesCbc enc id key input iv))) := by
  have hi := h.inSize hc
  have hs := h.str hc
  have e1 : len sle r 1 = (UInt32.ofNat key.length).toNat := by words h hp
  have e2 : len sle r 2 = (UInt32.ofNat input.length).toNat := by words h hp
  simp only [Call.op, structSize, trailer, List.length_append] at hi hs
  have hb : inSize r < 4294967296 := by unfold CryptoMsg.inSize; omega
  rw [ofNat_len (by omega)] at e1 e2
  have s0 : str r (16 + input.length) key.length = key := by
    simp only [Nat.add_assoc, hs]
    simp only [List.append_assoc, rdBytes_all, rdBytes_len0, rdBytes_len]
  have s1 : str r 16 input.length = input := by
    refine (hs 0 _).trans ?_
    simp only [List.append_assoc, rdBytes_all]
  have s2 : str r (16 + input.length + key.length) 16 = iv := by
    simp only [Nat.add_assoc, hs]
    simp only [List.append_assoc, rdBytes_len0, rdBytes_len]
    exact rdBytes_here hc
  unfold decode decodeAes
  refine (sized_eq (by omega)).trans ?_
  dsimp only
  rw [e1, e2]
  refine (fits_eq (by omega)).trans ?_
  rw [s0, s1, s2]
  unfold Call.asks
  words h hp

theorem decode_rsa {op : Crypto.RsaOp} {id : UInt16} {evict : Bool} {input : List UInt8} {room : UInt16}
    (coins : List UInt8) (codes : Codes) (hp : Paired sle cle m magicNative)
    (h : Arrived n cle m a pad (.rsa op id evict input room) junk r) (hz : r.size < 4294967296)
    (hr : codes.rsaOp (n.rsaOp op) = some op) :
    decode codes sle coins r (.rsa) = .ok (.keys (Call.asks coins (.rsa op id evict input room))) := by
  have hi := h.inSize trivial
  have hs := h.str trivial
  have e3 : len sle r 3 = (UInt32.ofNat input.length).toNat := by words h hp
  simp only [Call.op, structSize, trailer, List.length_append] at hi hs
  have hb : inSize r < 4294967296 := by unfold CryptoMsg.inSize; omega
  rw [ofNat_len (by omega)] at e3
  have s0 : str r 20 input.length = input := by
    refine (hs 0 _).trans ?_
    simp only [List.append_assoc, rdBytes_all]
  unfold decode
  refine (sized_eq (by omega)).trans ?_
  dsimp only
  rw [e3]
  refine (fits_eq (by omega)).trans ?_
  rw [show u32 sle r 0 = n.rsaOp op by words h hp, hr]
  dsimp only
  rw [s0]
  unfold Call.asks
  words h hp

theorem decode_eccSign {bl : Bool} {id : UInt16} {evict : Bool} {hash : List UInt8}
    (coins : List UInt8) (codes : Codes) (hp : Paired sle cle m magicNative)
    (h : Arrived n cle m a pad (.eccSign bl id evict hash) junk r) (hz : r.size < 4294967296) :
    decode codes sle coins r (.signEcc) = .ok (.keys (Call.asks coins (.eccSign bl id evict hash))) := by
  have hi := h.inSize trivial
  have hs := h.str trivial
  have e2 : len sle r 2 = (UInt32.ofNat hash.length).toNat := by words h hp
  simp only [Call.op, structSize, trailer, List.length_append] at hi hs
  have hb : inSize r < 4294967296 := by unfold CryptoMsg.inSize; omega
  rw [ofNat_len (by omega)] at e2
  have s0 : str r 12 hash.length = hash := by
    refine (hs 0 _).trans ?_
    simp only [List.append_assoc, rdBytes_all]
  unfold decode
  refine (sized_eq (by omega)).trans ?_
  dsimp only
  rw [e2]
  refine (fits_eq (by omega)).trans ?_
  rw [s0]
  unfold Call.asks
  words h hp

theorem decode_edSign {id : UInt16} {evict : Bool} {type : UInt32} {msg ctx : List UInt8}
    (coins : List UInt8) (codes : Codes) (hp : Paired sle cle m magicNative)
    (h : Arrived n cle m a pad (.edSign id evict type msg ctx) junk r) (hz : r.size < 4294967296)
    (hk : (type = codes.edPlain ∨ type = codes.edCtx ∨ type = codes.edPh) ∧ (type = codes.edPlain → ctx = []) ∧ ctx.length ≤ 255) :
    decode codes sle coins r (.signEd) = .ok (.keys (Call.asks coins (.edSign id evict type msg ctx))) := by
  have hi := h.inSize trivial
  have hs := h.str trivial
  have e2 : len sle r 2 = (UInt32.ofNat msg.length).toNat := by words h hp
  have e4 : len sle r 4 = (UInt32.ofNat ctx.length).toNat := by words h hp
  simp only [Call.op, structSize, trailer, List.length_append] at hi hs
  have hb : inSize r < 4294967296 := by unfold CryptoMsg.inSize; omega
  rw [ofNat_len (by omega)] at e2 e4
  have e3 : u32 sle r 3 = type := by words h hp
  have hk3 := hk.2.2
  have s0 : str r 20 msg.length = msg := by
    refine (hs 0 _).trans ?_
    simp only [List.append_assoc, rdBytes_all]
  have s1 : str r (20 + msg.length) ctx.length = ctx := by
    simp only [Nat.add_assoc, hs]
    simp only [List.append_assoc, rdBytes_all, rdBytes_len0, rdBytes_len]
  unfold decode
  refine (sized_eq (by omega)).trans ?_
  dsimp only
  rw [e2, e4]
  refine (fits_eq (by omega)).trans ?_
  refine (fits_eq (by omega)).trans ?_
  refine (fits_eq (by omega)).trans ?_
  refine (fits_eq (by rw [e3]; exact hk.1)).trans ?_
  refine (fits_eq (by rw [e3]; intro h0; rw [hk.2.1 h0]; rfl)).trans ?_
  rw [s0, s1]
  unfold Call.asks
  words h hp

theorem decode_mlDsaSign {id : UInt16} {evict : Bool} {level ph : UInt32} {msg ctx : List UInt8}
    (coins : List UInt8) (codes : Codes) (hp : Paired sle cle m magicNative)
    (h : Arrived n cle m a pad (.mlDsaSign id evict level ph msg ctx) junk r) (hz : r.size < 4294967296)
    (hk : ctx.length ≤ 255) :
    decode codes sle coins r (.signMlDsa) = .ok (.keys (Call.asks coins (.mlDsaSign id evict level ph msg ctx))) := by
  have hi := h.inSize hk
  have hs := h.str hk
  have e3 : len sle r 3 = (UInt32.ofNat msg.length).toNat := by words h hp
  have e4 : len sle r 4 = (UInt32.ofNat ctx.length).toNat := by words h hp
  simp only [Call.op, structSize, trailer, List.length_append] at hi hs
  have hb : inSize r < 4294967296 := by unfold CryptoMsg.inSize; omega
  rw [ofNat_len (by omega)] at e3 e4
  have s0 : str r 24 msg.length = msg := by
    refine (hs 0 _).trans ?_
    simp only [List.append_assoc, rdBytes_all]
  have s1 : str r (24 + msg.length) ctx.length = ctx := by
    simp only [Nat.add_assoc, hs]
    simp only [List.append_assoc, rdBytes_all, rdBytes_len0, rdBytes_len]
  unfold decode
  refine (sized_eq (by omega)).trans ?_
  dsimp only
  rw [e3, e4]
  refine (fits_eq (by omega)).trans ?_
  refine (fits_eq (by omega)).trans ?_
  refine (fits_eq (hk)).trans ?_
  rw [s0, s1]
  unfold Call.asks
  words h hp

theorem decode_eccVerify {bl : Bool} {id : UInt16} {evict ex : Bool} {sig hash : List UInt8}
    (coins : List UInt8) (codes : Codes) (hp : Paired sle cle m magicNative)
    (h : Arrived n cle m a pad (.eccVerify bl id evict ex sig hash) junk r) (hz : r.size < 4294967296) :
    decode codes sle coins r (.verifyEcc) = .ok (.keys (Call.asks coins (.eccVerify bl id evict ex sig hash))) := by
  have hi := h.inSize trivial
  have hs := h.str trivial
  have e2 : len sle r 2 = (UInt32.ofNat sig.length).toNat := by words h hp
  have e3 : len sle r 3 = (UInt32.ofNat hash.length).toNat := by words h hp
  simp only [Call.op, structSize, trailer, List.length_append] at hi hs
  have hb : inSize r < 4294967296 := by unfold CryptoMsg.inSize; omega
  rw [ofNat_len (by omega)] at e2 e3
  have s0 : str r 16 sig.length = sig := by
    refine (hs 0 _).trans ?_
    simp only [List.append_assoc, rdBytes_all]
  have s1 : str r (16 + sig.length) hash.length = hash := by
    simp only [Nat.add_assoc, hs]
    simp only [List.append_assoc, rdBytes_all, rdBytes_len0, rdBytes_len]
  unfold decode
  refine (sized_eq (by omega)).trans ?_
  dsimp only
  rw [e2, e3]
  refine (fits_eq (by omega)).trans ?_
  refine (fits_eq (by omega)).trans ?_
  rw [s0, s1]
  unfold Call.asks
  words h hp

theorem decode_edVerify {id : UInt16} {evict : Bool} {type : UInt32} {sig msg ctx : List UInt8}
    (coins : List UInt8) (codes : Codes) (hp : Paired sle cle m magicNative)
    (h : Arrived n cle m a pad (.edVerify id evict type sig msg ctx) junk r) (hz : r.size < 4294967296)
    (hk : (type = codes.edPlain ∨ type = codes.edCtx ∨ type = codes.edPh) ∧ ctx.length ≤ 255) :
    decode codes sle coins r (.verifyEd) = .ok (.keys (Call.asks coins (.edVerify id evict type sig msg ctx))) := by
  have hi := h.inSize trivial
  have hs := h.str trivial
  have e2 : len sle r 2 = (UInt32.ofNat sig.length).toNat := by words h hp
  have e3 : len sle r 3 = (UInt32.ofNat msg.length).toNat := by words h hp
  have e5 : len sle r 5 = (UInt32.ofNat ctx.length).toNat := by words h hp
  simp only [Call.op, structSize, trailer, List.length_append] at hi hs
  have hb : inSize r < 4294967296 := by unfold CryptoMsg.inSize; omega
  rw [ofNat_len (by omega)] at e2 e3 e5
  have e4' : u32 sle r 4 = type := by words h hp
  have hk3 := hk.2
  have s0 : str r 24 sig.length = sig := by
    refine (hs 0 _).trans ?_
    simp only [List.append_assoc, rdBytes_all]
  have s1 : str r (24 + sig.length) msg.length = msg := by
    simp only [Nat.add_assoc, hs]
    simp only [List.append_assoc, rdBytes_all, rdBytes_len0, rdBytes_len]
  have s2 : str r (24 + sig.length + msg.length) ctx.length = ctx := by
    simp only [Nat.add_assoc, hs]
    simp only [List.append_assoc, rdBytes_all, rdBytes_len0, rdBytes_len]
  unfold decode
  refine (sized_eq (by omega)).trans ?_
  dsimp only
  rw [e2, e3, e5]
  refine (fits_eq (by omega)).trans ?_
  refine (fits_eq (by omega)).trans ?_
  refine (fits_eq (by omega)).trans ?_
  refine (fits_eq (by omega)).trans ?_
  refine (fits_eq (by rw [e4']; exact hk.1)).trans ?_
  rw [s0, s1, s2]
  unfold Call.asks
  words h hp

theorem decode_mlDsaVerify {id : UInt16} {evict : Bool} {level ph : UInt32} {sig msg ctx : List UInt8}
    (coins : List UInt8) (codes : Codes) (hp : Paired sle cle m magicNative)
    (h : Arrived n cle m a pad (.mlDsaVerify id evict level ph sig msg ctx) junk r) (hz : r.size < 4294967296)
    (hk : ctx.length ≤ 255) :
    decode codes sle coins r (.verifyMlDsa) = .ok (.keys (Call.asks coins (.mlDsaVerify id evict level ph sig msg ctx))) := by
  have hi := h.inSize hk
  have hs := h.str hk
  have e3 : len sle r 3 = (UInt32.ofNat sig.length).toNat := by words h hp
  have e4 : len sle r 4 = (UInt32.ofNat msg.length).toNat := by words h hp
  have e5 : len sle r 5 = (UInt32.ofNat ctx.length).toNat := by words h hp
  simp only [Call.op, structSize, trailer, List.length_append] at hi hs
  have hb : inSize r < 4294967296 := by unfold CryptoMsg.inSize; omega
  rw [ofNat_len (by omega)] at e3 e4 e5
  have s0 : str r 32 sig.length = sig := by
    refine (hs 0 _).trans ?_
    simp only [List.append_assoc, rdBytes_all]
  have s1 : str r (32 + sig.length) msg.length = msg := by
    simp only [Nat.add_assoc, hs]
    simp only [List.append_assoc, rdBytes_all, rdBytes_len0, rdBytes_len]
  have s2 : str r (32 + sig.length + msg.length) ctx.length = ctx := by
    simp only [Nat.add_assoc, hs]
    simp only [List.append_assoc, rdBytes_all, rdBytes_len0, rdBytes_len]
  unfold decode
  refine (sized_eq (by omega)).trans ?_
  dsimp only
  rw [e3, e4, e5]
  refine (fits_eq (by omega)).trans ?_
  refine (fits_eq (by omega)).trans ?_
  refine (fits_eq (hk)).trans ?_
  rw [s0, s1, s2]
  unfold Call.asks
  words h hp

theorem decode_checkPub {id : UInt16} {evict : Bool} {curve : UInt32} {pub : List UInt8}
    (coins : List UInt8) (codes : Codes) (hp : Paired sle cle m magicNative)
    (h : Arrived n cle m a pad (.checkPub id evict curve pub) junk r) (hz : r.size < 4294967296) :
    decode codes sle coins r (.checkPub) = .ok (.keys (Call.asks coins (.checkPub id evict curve pub))) := by
  have hi := h.inSize trivial
  have hs := h.str trivial
  have e3 : len sle r 3 = (UInt32.ofNat pub.length).toNat := by words h hp
  simp only [Call.op, structSize, trailer, List.length_append] at hi hs
  have hb : inSize r < 4294967296 := by unfold CryptoMsg.inSize; omega
  rw [ofNat_len (by omega)] at e3
  have s0 : str r 16 pub.length = pub := by
    refine (hs 0 _).trans ?_
    simp only [List.append_assoc, rdBytes_all]
  unfold decode
  refine (sized_eq (by omega)).trans ?_
  dsimp only
  rw [e3]
  refine (fits_eq (by omega)).trans ?_
  rw [s0]
  unfold Call.asks
  words h hp

theorem decode_decaps {id : UInt16} {evict : Bool} {level : UInt32} {ct : List UInt8}
    (coins : List UInt8) (codes : Codes) (hp : Paired sle cle m magicNative)
    (h : Arrived n cle m a pad (.decaps id evict level ct) junk r) (hz : r.size < 4294967296) :
    decode codes sle coins r (.decaps) = .ok (.keys (Call.asks coins (.decaps id evict level ct))) := by
  have hi := h.inSize trivial
  have hs := h.str trivial
  have e3 : len sle r 3 = (UInt32.ofNat ct.length).toNat := by words h hp
  simp only [Call.op, structSize, trailer, List.length_append] at hi hs
  have hb : inSize r < 4294967296 := by unfold CryptoMsg.inSize; omega
  rw [ofNat_len (by omega)] at e3
  have s0 : str r 16 ct.length = ct := by
    refine (hs 0 _).trans ?_
    simp only [List.append_assoc, rdBytes_all]
  unfold decode
  refine (sized_eq (by omega)).trans ?_
  dsimp only
  rw [e3]
  rw [if_pos (by omega)]
  rw [s0]
  unfold Call.asks
  words h hp

theorem decode_hkdf {idIn idOut flags : UInt16} {label : List UInt8} {hash : UInt32} {inKey salt info : List UInt8} {outSz : UInt32}
    (coins : List UInt8) (codes : Codes) (hp : Paired sle cle m magicNative)
    (h : Arrived n cle m a pad (.hkdf idIn idOut flags label hash inKey salt info outSz) junk r) (hz : r.size < 4294967296) :
    decode codes sle coins r (.hkdf) = .ok (.keys (Call.asks coins (.hkdf idIn idOut flags label hash inKey salt info outSz))) := by
  have hi := h.inSize trivial
  have hs := h.str trivial
  have e4 : len sle r 4 = (UInt32.ofNat inKey.length).toNat := by words h hp
  have e5 : len sle r 5 = (UInt32.ofNat salt.length).toNat := by words h hp
  have e6 : len sle r 6 = (UInt32.ofNat info.length).toNat := by words h hp
  simp only [Call.op, structSize, trailer, List.length_append] at hi hs
  have hb : inSize r < 4294967296 := by unfold CryptoMsg.inSize; omega
  rw [ofNat_len (by omega)] at e4 e5 e6
  have s0 : str r 56 inKey.length = inKey := by
    refine (hs 0 _).trans ?_
    simp only [List.append_assoc, rdBytes_all]
  have s1 : str r (56 + inKey.length) salt.length = salt := by
    simp only [Nat.add_assoc, hs]
    simp only [List.append_assoc, rdBytes_all, rdBytes_len0, rdBytes_len]
  have s2 : str r (56 + inKey.length + salt.length) info.length = info := by
    simp only [Nat.add_assoc, hs]
    simp only [List.append_assoc, rdBytes_all, rdBytes_len0, rdBytes_len]
  unfold decode
  refine (sized_eq (by omega)).trans ?_
  dsimp only
  rw [e4, e5, e6]
  refine (fits_eq (by omega)).trans ?_
  refine (fits_eq (by omega)).trans ?_
  refine (fits_eq (by omega)).trans ?_
  rw [s0, s1, s2]
  unfold Call.asks
  words h hp

theorem decode_cmacKdf {idSalt idZ idOut flags : UInt16} {label salt z info : List UInt8} {outSz : UInt32}
    (coins : List UInt8) (codes : Codes) (hp : Paired sle cle m magicNative)
    (h : Arrived n cle m a pad (.cmacKdf idSalt idZ idOut flags label salt z info outSz) junk r) (hz : r.size < 4294967296) :
    decode codes sle coins r (.cmacKdf) = .ok (.keys (Call.asks coins (.cmacKdf idSalt idZ idOut flags label salt z info outSz))) := by
  have hi := h.inSize trivial
  have hs := h.str trivial
  have e4 : len sle r 4 = (UInt32.ofNat salt.length).toNat := by words h hp
  have e5 : len sle r 5 = (UInt32.ofNat z.length).toNat := by words h hp
  have e6 : len sle r 6 = (UInt32.ofNat info.length).toNat := by words h hp
  simp only [Call.op, structSize, trailer, List.length_append] at hi hs
  have hb : inSize r < 4294967296 := by unfold CryptoMsg.inSize; omega
  rw [ofNat_len (by omega)] at e4 e5 e6
  have s0 : str r 56 salt.length = salt := by
    refine (hs 0 _).trans ?_
    simp only [List.append_assoc, rdBytes_all]
  have s1 : str r (56 + salt.length) z.length = z := by
    simp only [Nat.add_assoc, hs]
    simp only [List.append_assoc, rdBytes_all, rdBytes_len0, rdBytes_len]
  have s2 : str r (56 + salt.length + z.length) info.length = info := by
    simp only [Nat.add_assoc, hs]
    simp only [List.append_assoc, rdBytes_all, rdBytes_len0, rdBytes_len]
  unfold decode
  refine (sized_eq (by omega)).trans ?_
  dsimp only
  rw [e4, e5, e6]
  refine (fits_eq (by omega)).trans ?_
  refine (fits_eq (by omega)).trans ?_
  refine (fits_eq (by omega)).trans ?_
  rw [s0, s1, s2]
  unfold Call.asks
  words h hp

theorem decode_rsaKeyGen {id flags : UInt16} {label : List UInt8} {size e : UInt32}
    (coins : List UInt8) (codes : Codes) (hp : Paired sle cle m magicNative)
    (h : Arrived n cle m a pad (.rsaKeyGen id flags label size e) junk r) :
    decode codes sle coins r (.keyGen .rsa) = .ok (.keys (Call.asks coins (.rsaKeyGen id flags label size e))) := by
  have hi := h.inSize trivial
  simp only [Call.op, structSize, trailer, List.length_nil] at hi
  unfold decode decodeKeyGen
  refine (sized_eq (by omega)).trans ?_
  unfold Call.asks
  words h hp

theorem decode_eccKeyGen {id flags : UInt16} {label : List UInt8} {size curve : UInt32}
    (coins : List UInt8) (codes : Codes) (hp : Paired sle cle m magicNative)
    (h : Arrived n cle m a pad (.eccKeyGen id flags label size curve) junk r) :
    decode codes sle coins r (.keyGen .ecc) = .ok (.keys (Call.asks coins (.eccKeyGen id flags label size curve))) := by
  have hi := h.inSize trivial
  simp only [Call.op, structSize, trailer, List.length_nil] at hi
  unfold decode decodeKeyGen
  refine (sized_eq (by omega)).trans ?_
  unfold Call.asks
  words h hp

theorem decode_x25519KeyGen {id flags : UInt16} {label : List UInt8} {size : UInt32}
    (coins : List UInt8) (codes : Codes) (hp : Paired sle cle m magicNative)
    (h : Arrived n cle m a pad (.x25519KeyGen id flags label size) junk r) :
    decode codes sle coins r (.keyGen .curve25519) = .ok (.keys (Call.asks coins (.x25519KeyGen id flags label size))) := by
  have hi := h.inSize trivial
  simp only [Call.op, structSize, trailer, List.length_nil] at hi
  unfold decode decodeKeyGen
  refine (sized_eq (by omega)).trans ?_
  unfold Call.asks
  words h hp

theorem decode_edKeyGen {id flags : UInt16} {label : List UInt8}
    (coins : List UInt8) (codes : Codes) (hp : Paired sle cle m magicNative)
    (h : Arrived n cle m a pad (.edKeyGen id flags label) junk r) :
    decode codes sle coins r (.keyGen .ed25519) = .ok (.keys (Call.asks coins (.edKeyGen id flags label))) := by
  have hi := h.inSize trivial
  simp only [Call.op, structSize, trailer, List.length_nil] at hi
  unfold decode decodeKeyGen
  refine (sized_eq (by omega)).trans ?_
  unfold Call.asks
  words h hp

theorem decode_mlDsaKeyGen {id flags : UInt16} {label : List UInt8} {size level : UInt32}
    (coins : List UInt8) (codes : Codes) (hp : Paired sle cle m magicNative)
    (h : Arrived n cle m a pad (.mlDsaKeyGen id flags label size level) junk r) :
    decode codes sle coins r (.keyGen .mldsa) = .ok (.keys (Call.asks coins (.mlDsaKeyGen id flags label size level))) := by
  have hi := h.inSize trivial
  simp only [Call.op, structSize, trailer, List.length_nil] at hi
  unfold decode decodeKeyGen
  refine (sized_eq (by omega)).trans ?_
  unfold Call.asks
  words h hp

theorem decode_mlKemKeyGen {id flags : UInt16} {label : List UInt8} {level : UInt32}
    (coins : List UInt8) (codes : Codes) (hp : Paired sle cle m magicNative)
    (h : Arrived n cle m a pad (.mlKemKeyGen id flags label level) junk r) :
    decode codes sle coins r (.keyGen .mlkem) = .ok (.keys (Call.asks coins (.mlKemKeyGen id flags label level))) := by
  have hi := h.inSize trivial
  simp only [Call.op, structSize, trailer, List.length_nil] at hi
  unfold decode decodeKeyGen
  refine (sized_eq (by omega)).trans ?_
  unfold Call.asks
  words h hp

theorem decode_rsaGetSize {id : UInt16} {evict : Bool}
    (coins : List UInt8) (codes : Codes) (hp : Paired sle cle m magicNative)
    (h : Arrived n cle m a pad (.rsaGetSize id evict) junk r) :
    decode codes sle coins r (.rsaGetSize) = .ok (.keys (Call.asks coins (.rsaGetSize id evict))) := by
  have hi := h.inSize trivial
  simp only [Call.op, structSize, trailer, List.length_nil] at hi
  unfold decode
  refine (sized_eq (by omega)).trans ?_
  unfold Call.asks
  words h hp

theorem decode_eccSecret {prv pub : UInt16} {evPrv evPub : Bool} {id flags : UInt16} {label : List UInt8}
    (coins : List UInt8) (codes : Codes) (hp : Paired sle cle m magicNative)
    (h : Arrived n cle m a pad (.eccSecret prv pub evPrv evPub id flags label) junk r) :
    decode codes sle coins r (.secretEcc) = .ok (.keys (Call.asks coins (.eccSecret prv pub evPrv evPub id flags label))) := by
  have hi := h.inSize trivial
  simp only [Call.op, structSize, trailer, List.length_nil] at hi
  unfold decode
  refine (sized_eq (by omega)).trans ?_
  unfold Call.asks
  words h hp

theorem decode_x25519Secret {prv pub : UInt16} {evPrv evPub : Bool} {id flags : UInt16} {label : List UInt8} {endian : UInt32}
    (coins : List UInt8) (codes : Codes) (hp : Paired sle cle m magicNative)
    (h : Arrived n cle m a pad (.x25519Secret prv pub evPrv evPub id flags label endian) junk r) :
    decode codes sle coins r (.secret25519) = .ok (.keys (Call.asks coins (.x25519Secret prv pub evPrv evPub id flags label endian))) := by
  have hi := h.inSize trivial
  simp only [Call.op, structSize, trailer, List.length_nil] at hi
  unfold decode
  refine (sized_eq (by omega)).trans ?_
  unfold Call.asks
  words h hp

theorem decode_makePub {id : UInt16} {evict : Bool}
    (coins : List UInt8) (codes : Codes) (hp : Paired sle cle m magicNative)
    (h : Arrived n cle m a pad (.makePub id evict) junk r) :
    decode codes sle coins r (.makePub) = .ok (.keys (Call.asks coins (.makePub id evict))) := by
  have hi := h.inSize trivial
  simp only [Call.op, structSize, trailer, List.length_nil] at hi
  unfold decode
  refine (sized_eq (by omega)).trans ?_
  unfold Call.asks
  words h hp

theorem decode_encaps {id : UInt16} {evict : Bool} {level : UInt32}
    (coins : List UInt8) (codes : Codes) (hp : Paired sle cle m magicNative)
    (h : Arrived n cle m a pad (.encaps id evict level) junk r) :
    decode codes sle coins r (.encaps) = .ok (.keys (Call.asks coins (.encaps id evict level))) := by
  have hi := h.inSize trivial
  simp only [Call.op, structSize, trailer, List.length_nil] at hi
  unfold decode
  refine (sized_eq (by omega)).trans ?_
  unfold Call.asks
  words h hp

theorem decode_gcmEncrypt {id : UInt16} {key input iv aad : List UInt8} {tagLen : UInt32}
    (coins : List UInt8) (codes : Codes) (hp : Paired sle cle m magicNative)
    (h : Arrived n cle m a pad (.gcmEncrypt id key input iv aad tagLen) junk r) (hz : r.size < 4294967296) :
    decode codes sle coins r (.aes .gcm) = .ok (.keys (Call.asks coins (.gcmEncrypt id key input iv aad tagLen))) := by
  have hi := h.inSize trivial
  have hs := h.str trivial
  have e0 : u32 sle r 0 = 1 := by words h hp
  have e1 : len sle r 1 = (UInt32.ofNat key.length).toNat := by words h hp
  have e2 : len sle r 2 = (UInt32.ofNat input.length).toNat := by words h hp
  have e3 : len sle r 3 = (UInt32.ofNat iv.length).toNat := by words h hp
  have e4 : len sle r 4 = (UInt32.ofNat aad.length).toNat := by words h hp
  simp only [Call.op, structSize, trailer, List.length_append] at hi hs
  have hb : inSize r < 4294967296 := by unfold CryptoMsg.inSize; omega
  rw [ofNat_len (by omega)] at e1 e2 e3 e4
  have s0 : str r (28 + input.length) key.length = key := by
    simp only [Nat.add_assoc, hs]
    simp only [List.append_assoc, rdBytes_all, rdBytes_len0, rdBytes_len]
  have s1 : str r 28 input.length = input := by
    refine (hs 0 _).trans ?_
    simp only [List.append_assoc, rdBytes_all]
  have s2 : str r (28 + input.length + key.length) (iv.length + aad.length + 0) = iv ++ aad := by
    simp only [Nat.add_assoc, hs]
    simp only [List.append_assoc, rdBytes_len0, rdBytes_len, Nat.add_zero]
    exact rdBytes_two
  unfold decode decodeAes
  refine (sized_eq (by omega)).trans ?_
  dsimp only
  rw [e1, e2, e3, e4, e0, if_pos (by decide)]
  refine (fits_eq (by omega)).trans ?_
  rw [s0, s1, s2]
  unfold Call.asks
  words h hp
  rfl

theorem decode_gcmDecrypt {id : UInt16} {key input iv aad tag : List UInt8}
    (coins : List UInt8) (codes : Codes) (hp : Paired sle cle m magicNative)
    (h : Arrived n cle m a pad (.gcmDecrypt id key input iv aad tag) junk r) (hz : r.size < 4294967296) :
    decode codes sle coins r (.aes .gcm) = .ok (.keys (Call.asks coins (.gcmDecrypt id key input iv aad tag))) := by
  have hi := h.inSize trivial
  have hs := h.str trivial
  have e0 : u32 sle r 0 = 0 := by words h hp
  have e1 : len sle r 1 = (UInt32.ofNat key.length).toNat := by words h hp
  have e2 : len sle r 2 = (UInt32.ofNat input.length).toNat := by words h hp
  have e3 : len sle r 3 = (UInt32.ofNat iv.length).toNat := by words h hp
  have e4 : len sle r 4 = (UInt32.ofNat aad.length).toNat := by words h hp
  have e5 : len sle r 5 = (UInt32.ofNat tag.length).toNat := by words h hp
  simp only [Call.op, structSize, trailer, List.length_append] at hi hs
  have hb : inSize r < 4294967296 := by unfold CryptoMsg.inSize; omega
  rw [ofNat_len (by omega)] at e1 e2 e3 e4 e5
  have s0 : str r (28 + input.length) key.length = key := by
    simp only [Nat.add_assoc, hs]
    simp only [List.append_assoc, rdBytes_all, rdBytes_len0, rdBytes_len]
  have s1 : str r 28 input.length = input := by
    refine (hs 0 _).trans ?_
    simp only [List.append_assoc, rdBytes_all]
  have s2 : str r (28 + input.length + key.length) (iv.length + aad.length + tag.length) = iv ++ aad ++ tag := by
    rw [Nat.add_assoc 28, hs]
    simp only [List.append_assoc, rdBytes_len0, rdBytes_len]
    exact rdBytes_three.trans (List.append_assoc ..)
  unfold decode decodeAes
  refine (sized_eq (by omega)).trans ?_
  dsimp only
  rw [e1, e2, e3, e4, e5, e0, if_neg (by decide)]
  refine (fits_eq (by omega)).trans ?_
  rw [s0, s1, s2]
  unfold Call.asks
  words h hp
  rfl

theorem cmac_decode {key input : List UInt8} {id : UInt16} {outSz : UInt32} {st : CmacState}
    (coins : List UInt8) (codes : Codes) (hi : inSize r = 56 + (input.length + key.length)) (hk : key.length ≤ 32)
    (e0 : len sle r 0 = outSz.toNat) (e1 : len sle r 1 = input.length) (e2 : len sle r 2 = key.length) (e3 : u16 sle r 12 = id)
    (s0 : str r (56 + input.length) key.length = key) (s1 : str r 56 input.length = input) (hst : cmacState sle r = st.flat) :
    decode codes sle coins r .cmac = .ok (.keys (.cmac id key st.flat input outSz.toNat)) := by
  unfold decode
  refine (sized_eq (by omega)).trans ?_
  dsimp only
  rw [e0, e1, e2, e3]
  refine (fits_eq (by omega)).trans ((fits_eq (by omega)).trans ((fits_eq hk).trans ?_))
  rw [s0, s1, hst]

/-- The same for CMAC, where a state of 32 bytes is in the way. -/
macro "cmac_words" h:ident hp:ident st:term : tactic =>
  `(tactic| simp only [half, opt, lab, u32, u16, len, CryptoMsg.str, ($h).magic, ($h).buf, request, ClientCrypto.head, fields, put32, putId, putLen, put16, List.append_assoc,
      rd32_here $hp, rd16_here $hp, rd32_w32, rd16_w32, rd32_w16, rdBytes_w32, rdBytes_w16, rdBytes_pad, rd32_pad,
      rdBytes_here $st, rd32_skip $st])

theorem decode_cmacGenerate {id : UInt16} {key input : List UInt8} {outSz : UInt32}
    (coins : List UInt8) (codes : Codes) (hp : Paired sle cle m magicNative)
    (h : Arrived n cle m a pad (.cmacGenerate id key input outSz) junk r) (hz : r.size < 4294967296) (hk : key.length ≤ 32) :
    decode codes sle coins r .cmac = .ok (.keys (Call.asks coins (.cmacGenerate id key input outSz))) := by
  have hi := h.inSize trivial
  have hs := h.str trivial
  have hst : (List.replicate 32 (0 : UInt8)).length = 32 := List.length_replicate
  simp only [Call.op, structSize, trailer, List.length_append] at hi hs
  have hb : inSize r < 4294967296 := by unfold CryptoMsg.inSize; omega
  refine cmac_decode (input := input) (key := key) (st := .zero) coins codes hi hk ?_ ?_ ?_ ?_ ?_ ?_ ?_
  · cmac_words h hp hst
  · exact Eq.trans (by cmac_words h hp hst) (ofNat_len (n := input.length) (by omega))
  · exact Eq.trans (by cmac_words h hp hst) (ofNat_len (n := key.length) (by omega))
  · cmac_words h hp hst
  · simp only [hs]
    simp only [List.append_assoc, rdBytes_all, rdBytes_len0]
  · refine (hs 0 _).trans ?_
    simp only [List.append_assoc, rdBytes_all]
  · unfold cmacState CmacState.flat CmacState.zero
    cmac_words h hp hst

theorem decode_cmacUpdate {id : UInt16} {key input : List UInt8} {st : CmacState}
    (coins : List UInt8) (codes : Codes) (hp : Paired sle cle m magicNative)
    (h : Arrived n cle m a pad (.cmacUpdate id key st input) junk r) (hz : r.size < 4294967296) (hk : key.length ≤ 32)
    (hst : st.bytes.length = 32) :
    decode codes sle coins r .cmac = .ok (.keys (Call.asks coins (.cmacUpdate id key st input))) := by
  have hi := h.inSize hst
  have hs := h.str hst
  simp only [Call.op, structSize, trailer, List.length_append] at hi hs
  have hb : inSize r < 4294967296 := by unfold CryptoMsg.inSize; omega
  refine cmac_decode (input := input) (key := key) (outSz := 0) coins codes hi hk ?_ ?_ ?_ ?_ ?_ ?_ ?_
  · cmac_words h hp hst
  · exact Eq.trans (by cmac_words h hp hst) (ofNat_len (n := input.length) (by omega))
  · exact Eq.trans (by cmac_words h hp hst) (ofNat_len (n := key.length) (by omega))
  · cmac_words h hp hst
  · simp only [hs]
    simp only [List.append_assoc, rdBytes_all, rdBytes_len0]
  · refine (hs 0 _).trans ?_
    simp only [List.append_assoc, rdBytes_all]
  · unfold cmacState CmacState.flat
    cmac_words h hp hst

theorem decode_cmacFinal {id : UInt16} {key : List UInt8} {st : CmacState}
    (coins : List UInt8) (codes : Codes) (hp : Paired sle cle m magicNative)
    (h : Arrived n cle m a pad (.cmacFinal id key st) junk r) (hz : r.size < 4294967296) (hk : key.length ≤ 32)
    (hst : st.bytes.length = 32) :
    decode codes sle coins r .cmac = .ok (.keys (Call.asks coins (.cmacFinal id key st))) := by
  have hi := h.inSize hst
  have hs := h.str hst
  simp only [Call.op, structSize, trailer, List.length_append] at hi hs
  have hb : inSize r < 4294967296 := by unfold CryptoMsg.inSize; omega
  refine cmac_decode (input := []) (key := key) (outSz := 16) coins codes (by rw [List.length_nil]; omega) hk ?_ ?_ ?_ ?_ ?_ ?_ ?_
  · cmac_words h hp hst
  · cmac_words h hp hst; rfl
  · exact Eq.trans (by cmac_words h hp hst) (ofNat_len (n := key.length) (by omega))
  · cmac_words h hp hst
  · refine (hs 0 _).trans ?_
    simp only [rdBytes_all]
  · exact rdBytes_nil
  · unfold cmacState CmacState.flat
    cmac_words h hp hst

/-- The server reads from the request what the caller asked for. -/
theorem decode_request {n : Numbers} {codes : Codes} {dataLen : Nat} (coins : List UInt8) (hp : Paired sle cle m magicNative)
    (hag : Agree n codes c.op) (hc : c.Sane) (hr : refusal n dataLen c = none) (h : Arrived n cle m a pad c junk r)
    (hz : r.size < 4294967296) :
    decode codes sle coins r c.op = .ok (.keys (c.asks coins)) := by
  have ed : ∀ {type : UInt32} {ctx : List UInt8} {rc : Rc},
      (if (type = n.edPlain ∨ type = n.edCtx ∨ type = n.edPh) ∧ (type = n.edPlain → ctx = []) ∧ ctx.length ≤ 255 then none
        else some rc) = (none : Option Rc) →
      (type = codes.edPlain ∨ type = codes.edCtx ∨ type = codes.edPh) ∧ (type = codes.edPlain → ctx = []) ∧ ctx.length ≤ 255 := by
    intro type ctx rc he
    rw [hag.plain, hag.ctx, hag.ph]
    by_cases hk : (type = n.edPlain ∨ type = n.edCtx ∨ type = n.edPh) ∧ (type = n.edPlain → ctx = []) ∧ ctx.length ≤ 255
    · exact hk
    · rw [if_neg hk] at he; cases he
  cases c with
  | aesCtr => exact decode_aesCtr coins codes hp h hz hc
  | aesEcb => exact decode_aesEcb coins codes hp h hz
  | aesCbc => exact decode_aesCbc coins codes hp h hz hc
  | gcmEncrypt => exact decode_gcmEncrypt coins codes hp h hz
  | gcmDecrypt => exact decode_gcmDecrypt coins codes hp h hz
  | rsaKeyGen => exact decode_rsaKeyGen coins codes hp h
  | eccKeyGen => exact decode_eccKeyGen coins codes hp h
  | x25519KeyGen => exact decode_x25519KeyGen coins codes hp h
  | edKeyGen => exact decode_edKeyGen coins codes hp h
  | mlDsaKeyGen => exact decode_mlDsaKeyGen coins codes hp h
  | mlKemKeyGen => exact decode_mlKemKeyGen coins codes hp h
  | rsa => exact decode_rsa coins codes hp h hz (hag.rsa _)
  | rsaGetSize => exact decode_rsaGetSize coins codes hp h
  | eccSecret => exact decode_eccSecret coins codes hp h
  | x25519Secret => exact decode_x25519Secret coins codes hp h
  | eccSign => exact decode_eccSign coins codes hp h hz
  | edSign => exact decode_edSign coins codes hp h hz (ed hr)
  | mlDsaSign => exact decode_mlDsaSign coins codes hp h hz hc
  | eccVerify => exact decode_eccVerify coins codes hp h hz
  | edVerify => exact decode_edVerify coins codes hp h hz ⟨(ed hr).1, (ed hr).2.2⟩
  | mlDsaVerify => exact decode_mlDsaVerify coins codes hp h hz hc
  | makePub => exact decode_makePub coins codes hp h
  | checkPub => exact decode_checkPub coins codes hp h hz
  | encaps => exact decode_encaps coins codes hp h
  | decaps => exact decode_decaps coins codes hp h hz
  | hkdf => exact decode_hkdf coins codes hp h hz
  | cmacKdf => exact decode_cmacKdf coins codes hp h hz
  | cmacGenerate id key input outSz =>
    refine decode_cmacGenerate coins codes hp h hz ?_
    unfold refusal at hr
    dsimp only at hr
    by_contra hk
    rw [if_pos (c := key.length > 32 ∨ _) (.inl (by omega))] at hr
    repeat' split at hr
    all_goals cases hr
  | cmacUpdate id key st input =>
    refine decode_cmacUpdate coins codes hp h hz ?_ hc
    by_contra hk
    unfold refusal at hr
    dsimp only at hr
    rw [if_pos (by omega)] at hr; cases hr
  | cmacFinal id key st =>
    refine decode_cmacFinal coins codes hp h hz ?_ hc
    by_contra hk
    unfold refusal at hr
    dsimp only at hr
    rw [if_pos (by omega)] at hr; cases hr

end WolfHsm.ClientCrypto

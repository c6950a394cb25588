import Verif.Spec.ClientCrypto
import Verif.Proofs.ClientHashServer

/-!
# The server's reading of the client's crypto requests
-/

namespace WolfHsm.ClientCrypto

open Wire Utils CryptoMsg
open Server (Req)
open ClientHash (Ret put32 get32 sized_eq fits_eq ofNat_len last_ne)

/-! ## Lengths -/

theorem label24_length (l : List UInt8) : (label24 l).length = 24 := by
  unfold label24; rw [List.length_take, List.length_append, List.length_replicate]; omega

theorem put32_length (cle : Bool) (v : UInt32) : (put32 cle v).length = 4 := w32_length ..
theorem put16_length (cle : Bool) (v : UInt16) : (put16 cle v).length = 2 := w16_length ..
theorem putId_length (cle : Bool) (v : UInt16) : (putId cle v).length = 4 := w32_length ..
theorem putLen_length (cle : Bool) (l : List UInt8) : (putLen cle l).length = 4 := w32_length ..

theorem head_length (cle : Bool) (k : Code) (a : UInt32) : (head cle k a).length = 12 := by
  unfold head; simp only [List.length_append, put32_length]

theorem fields_length {c : Call} (hc : c.Sane) (n : Numbers) (cle : Bool) (pad : UInt8 × UInt8) :
    (fields n cle pad c).length = structSize c.op := by
  cases c <;> unfold fields Call.op structSize <;> unfold Call.Sane at hc <;>
    simp only [List.length_append, put32_length, put16_length, putId_length, putLen_length, label24_length,
      List.length_cons, List.length_nil, List.length_replicate, *]

theorem request_length {c : Call} (hc : c.Sane) (n : Numbers) (cle : Bool) (a : UInt32) (pad : UInt8 × UInt8) :
    (request n cle a pad c).length = 12 + structSize c.op + (trailer c).length := by
  unfold request; simp only [List.length_append, head_length, fields_length hc]

/-! ## Small facts -/

theorem half_id (v : UInt16) : v.toUInt32.toUInt16 = v := by
  apply UInt16.toNat_inj.mp
  simp

theorem room_id (v : UInt16) : v.toUInt32.toNat = v.toNat := by simp

theorem bit_one (b : Bool) : (bit b 1 &&& 1 != 0) = b := by cases b <;> decide
theorem bit_ne (b : Bool) : (bit b 1 != 0) = b := by cases b <;> decide
theorem bits_one (a b : Bool) : ((bit a 1 ||| bit b 2) &&& 1 != 0) = a := by cases a <;> cases b <;> decide
theorem bits_two (a b : Bool) : ((bit a 1 ||| bit b 2) &&& 2 != 0) = b := by cases a <;> cases b <;> decide

theorem label24_getD (l : List UInt8) (i : Nat) (h : i < 24) : (label24 l).getD i 0 = l.getD i 0 := by
  unfold label24
  rw [List.getD_eq_getElem?_getD, List.getD_eq_getElem?_getD, List.getElem?_take_of_lt h]
  by_cases hl : i < l.length
  · rw [List.getElem?_append_left hl]
  · rw [List.getElem?_append_right (by omega), List.getElem?_replicate, if_pos (by omega), List.getElem?_eq_none (by omega)]
    rfl

theorem label_label24 (l : List UInt8) : NvmMsg.label (label24 l) = NvmMsg.label l := by
  unfold NvmMsg.label
  congr 1
  funext i
  exact label24_getD l i.val i.isLt

theorem rdBytes_pad {a b : UInt8} {rest : List UInt8} {k l : Nat} : rdBytes ([a, b] ++ rest) (k + 2) l = rdBytes rest k l :=
  rdBytes_skip rfl
theorem rd32_pad {x : Bool} {m : UInt16} {a b : UInt8} {rest : List UInt8} {k : Nat} :
    rd32 x m ([a, b] ++ rest) (k + 2) = rd32 x m rest k := rd32_skip rfl

theorem rdBytes_len {f rest : List UInt8} {k l : Nat} : rdBytes (f ++ rest) (f.length + k) l = rdBytes rest k l := by
  rw [Nat.add_comm]; exact rdBytes_skip rfl
theorem rdBytes_len0 {f rest : List UInt8} {l : Nat} : rdBytes (f ++ rest) f.length l = rdBytes rest 0 l := by
  have := rdBytes_len (f := f) (rest := rest) (k := 0) (l := l); rwa [Nat.add_zero] at this
theorem rdBytes_all {f rest : List UInt8} : rdBytes (f ++ rest) 0 f.length = f := rdBytes_here rfl
theorem rdBytes_nil {f : List UInt8} {k : Nat} : rdBytes f k 0 = [] := by unfold rdBytes; rw [List.take_zero]
theorem rdBytes_two {f g rest : List UInt8} : rdBytes (f ++ (g ++ rest)) 0 (f.length + g.length) = f ++ g := by
  rw [← List.append_assoc]; exact rdBytes_here (by rw [List.length_append])
theorem rdBytes_three {f g h rest : List UInt8} :
    rdBytes (f ++ (g ++ (h ++ rest))) 0 (f.length + g.length + h.length) = f ++ g ++ h := by
  rw [← List.append_assoc, ← List.append_assoc]; exact rdBytes_here (by rw [List.length_append, List.length_append])

section decode

variable {n : Numbers} {cle sle : Bool} {m : UInt16} {a : UInt32} {pad : UInt8 × UInt8} {r : Req} {c : Call} {junk : List UInt8}

/-- The packet as the server sees it. -/
structure Arrived (n : Numbers) (cle : Bool) (m : UInt16) (a : UInt32) (pad : UInt8 × UInt8) (c : Call) (junk : List UInt8)
    (r : Req) : Prop where
  magic : r.magic = m
  buf : r.buf = request n cle a pad c ++ junk
  size : r.size = (request n cle a pad c).length

theorem Arrived.inSize (h : Arrived n cle m a pad c junk r) (hc : c.Sane) :
    inSize r = structSize c.op + (trailer c).length := by
  unfold CryptoMsg.inSize; rw [h.size, request_length hc]; omega

/-- Reading behind the structure. -/
theorem Arrived.str (h : Arrived n cle m a pad c junk r) (hc : c.Sane) (x l : Nat) :
    str r (structSize c.op + x) l = rdBytes (trailer c ++ junk) x l := by
  unfold CryptoMsg.str
  rw [h.buf]
  unfold request
  rw [List.append_assoc, show 12 + (structSize c.op + x) = x + (12 + structSize c.op) by omega]
  exact rdBytes_skip (by rw [List.length_append, head_length, fields_length hc])

theorem Arrived.head (h : Arrived n cle m a pad c junk r) (hp : Paired sle cle m magicNative) :
    rd32 sle r.magic r.buf 0 = (n.code c.op).type.toUInt32 ∧ rd32 sle r.magic r.buf 4 = (n.code c.op).sub.toUInt32 := by
  rw [h.magic, h.buf]
  unfold request ClientCrypto.head put32
  constructor <;> simp only [List.append_assoc, rd32_here hp, rd32_w32]

end decode

end WolfHsm.ClientCrypto

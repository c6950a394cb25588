import Verif.Proofs.Wire
import Verif.Proofs.Comm

/-! # Field by field reading of written structures -/

namespace WolfHsm.Wire

open Utils

variable {a b : Bool} {ma mb m : UInt16}

/-- Dropping past a field of known length. -/
theorem drop_skip {f rest : List UInt8} {n k : Nat} (h : f.length = n) : (f ++ rest).drop (k + n) = rest.drop k := by
  rw [Nat.add_comm, ← List.drop_drop, List.drop_left' h]

theorem rd16_skip {f rest : List UInt8} {n k : Nat} (h : f.length = n) :
    rd16 a ma (f ++ rest) (k + n) = rd16 a ma rest k := by unfold rd16; rw [drop_skip h]
theorem rd32_skip {f rest : List UInt8} {n k : Nat} (h : f.length = n) :
    rd32 a ma (f ++ rest) (k + n) = rd32 a ma rest k := by unfold rd32; rw [drop_skip h]
theorem rd64_skip {f rest : List UInt8} {n k : Nat} (h : f.length = n) :
    rd64 a ma (f ++ rest) (k + n) = rd64 a ma rest k := by unfold rd64; rw [drop_skip h]
theorem rdBytes_skip {f rest : List UInt8} {n k l : Nat} (h : f.length = n) :
    rdBytes (f ++ rest) (k + n) l = rdBytes rest k l := by unfold rdBytes; rw [drop_skip h]

theorem rd16_w16 {v : UInt16} {rest : List UInt8} {k : Nat} :
    rd16 a ma (w16 b mb v ++ rest) (k + 2) = rd16 a ma rest k := rd16_skip (w16_length ..)
theorem rd16_w32 {v : UInt32} {rest : List UInt8} {k : Nat} :
    rd16 a ma (w32 b mb v ++ rest) (k + 4) = rd16 a ma rest k := rd16_skip (w32_length ..)
theorem rd16_w64 {v : UInt64} {rest : List UInt8} {k : Nat} :
    rd16 a ma (w64 b mb v ++ rest) (k + 8) = rd16 a ma rest k := rd16_skip (w64_length ..)
theorem rd32_w16 {v : UInt16} {rest : List UInt8} {k : Nat} :
    rd32 a ma (w16 b mb v ++ rest) (k + 2) = rd32 a ma rest k := rd32_skip (w16_length ..)
theorem rd32_w32 {v : UInt32} {rest : List UInt8} {k : Nat} :
    rd32 a ma (w32 b mb v ++ rest) (k + 4) = rd32 a ma rest k := rd32_skip (w32_length ..)
theorem rd64_w64 {v : UInt64} {rest : List UInt8} {k : Nat} :
    rd64 a ma (w64 b mb v ++ rest) (k + 8) = rd64 a ma rest k := rd64_skip (w64_length ..)
theorem rd64_w32 {v : UInt32} {rest : List UInt8} {k : Nat} :
    rd64 a ma (w32 b mb v ++ rest) (k + 4) = rd64 a ma rest k := rd64_skip (w32_length ..)
theorem rd64_w16 {v : UInt16} {rest : List UInt8} {k : Nat} :
    rd64 a ma (w16 b mb v ++ rest) (k + 2) = rd64 a ma rest k := rd64_skip (w16_length ..)
theorem rd32_w64 {v : UInt64} {rest : List UInt8} {k : Nat} :
    rd32 a ma (w64 b mb v ++ rest) (k + 8) = rd32 a ma rest k := rd32_skip (w64_length ..)
theorem rdBytes_w16 {v : UInt16} {rest : List UInt8} {k l : Nat} :
    rdBytes (w16 b mb v ++ rest) (k + 2) l = rdBytes rest k l := rdBytes_skip (w16_length ..)
theorem rdBytes_w32 {v : UInt32} {rest : List UInt8} {k l : Nat} :
    rdBytes (w32 b mb v ++ rest) (k + 4) l = rdBytes rest k l := rdBytes_skip (w32_length ..)
theorem rdBytes_w64 {v : UInt64} {rest : List UInt8} {k l : Nat} :
    rdBytes (w64 b mb v ++ rest) (k + 8) l = rdBytes rest k l := rdBytes_skip (w64_length ..)

theorem rd16_here (h : Paired a b ma mb) (v : UInt16) {rest : List UInt8} :
    rd16 a ma (w16 b mb v ++ rest) 0 = v := rd16_at (pre := []) h v rfl
theorem rd32_here (h : Paired a b ma mb) (v : UInt32) {rest : List UInt8} :
    rd32 a ma (w32 b mb v ++ rest) 0 = v := rd32_at (pre := []) h v rfl
theorem rd64_here (h : Paired a b ma mb) (v : UInt64) {rest : List UInt8} :
    rd64 a ma (w64 b mb v ++ rest) 0 = v := rd64_at (pre := []) h v rfl
theorem rd16_last (h : Paired a b ma mb) (v : UInt16) : rd16 a ma (w16 b mb v) 0 = v := by
  have := rd16_here h v (rest := []); rwa [List.append_nil] at this
theorem rd32_last (h : Paired a b ma mb) (v : UInt32) : rd32 a ma (w32 b mb v) 0 = v := by
  have := rd32_here h v (rest := []); rwa [List.append_nil] at this
theorem rd64_last (h : Paired a b ma mb) (v : UInt64) : rd64 a ma (w64 b mb v) 0 = v := by
  have := rd64_here h v (rest := []); rwa [List.append_nil] at this

theorem rdBytes_here {f rest : List UInt8} {n : Nat} (h : f.length = n) : rdBytes (f ++ rest) 0 n = f := by
  unfold rdBytes; rw [List.drop_zero, List.take_left' h]

theorem bytes16_eq (le : Bool) (v : UInt16) : bytes16 le v = w16 le magicNative v := by
  unfold w16; rw [Comm.translate16_native]
theorem bytes32_eq (le : Bool) (v : UInt32) : bytes32 le v = w32 le magicNative v := by
  unfold w32 translate32; rw [if_pos (by decide)]
theorem bytes64_eq (le : Bool) (v : UInt64) : bytes64 le v = w64 le magicNative v := by
  unfold w64 translate64; rw [if_pos (by decide)]

/-- Element `i` of an array of 16-bit fields. -/
theorem rd16_array (h : Paired a b ma mb) {post : List UInt8} : ∀ (l : List UInt16) (i : Nat) (hi : i < l.length),
    rd16 a ma (l.flatMap (w16 b mb) ++ post) (2 * i) = l[i]
  | [], i, hi => absurd hi (by simp)
  | v :: l, 0, hi => by
    rw [List.flatMap_cons, List.append_assoc]; exact rd16_here h v
  | v :: l, i + 1, hi => by
    rw [List.flatMap_cons, List.append_assoc, show 2 * (i + 1) = 2 * i + 2 by omega, rd16_w16,
      rd16_array h l i (by simpa using hi)]
    rfl

theorem flat16_length (l : List UInt16) : (l.flatMap (w16 b mb)).length = 2 * l.length := by
  induction l with
  | nil => rfl
  | cons v l ih => rw [List.flatMap_cons, List.length_append, w16_length, ih, List.length_cons]; omega

/-! ## Fields within a prefix of the buffer -/

theorem rdBytes_pre {buf : List UInt8} {k off n : Nat} (h : off + n ≤ k) :
    rdBytes (buf.take k) off n = rdBytes buf off n := by
  unfold rdBytes
  rw [List.drop_take, List.take_take, Nat.min_eq_left (by omega)]
theorem rd16_pre {buf : List UInt8} {k off : Nat} (h : off + 2 ≤ k) :
    rd16 a m (buf.take k) off = rd16 a m buf off := by
  have := rdBytes_pre (buf := buf) h
  unfold rdBytes at this; unfold rd16; rw [this]
theorem rd32_pre {buf : List UInt8} {k off : Nat} (h : off + 4 ≤ k) :
    rd32 a m (buf.take k) off = rd32 a m buf off := by
  have := rdBytes_pre (buf := buf) h
  unfold rdBytes at this; unfold rd32; rw [this]
theorem rd64_pre {buf : List UInt8} {k off : Nat} (h : off + 8 ≤ k) :
    rd64 a m (buf.take k) off = rd64 a m buf off := by
  have := rdBytes_pre (buf := buf) h
  unfold rdBytes at this; unfold rd64; rw [this]

/-- Buffers that agree in their first `k` bytes agree in the fields there. -/
theorem rdBytes_eq {b1 b2 : List UInt8} {k off n : Nat} (hb : b1.take k = b2.take k) (h : off + n ≤ k) :
    rdBytes b1 off n = rdBytes b2 off n := by rw [← rdBytes_pre h, hb, rdBytes_pre h]
theorem rd16_eq {b1 b2 : List UInt8} {k off : Nat} (hb : b1.take k = b2.take k) (h : off + 2 ≤ k) :
    rd16 a m b1 off = rd16 a m b2 off := by rw [← rd16_pre h, hb, rd16_pre h]
theorem rd32_eq {b1 b2 : List UInt8} {k off : Nat} (hb : b1.take k = b2.take k) (h : off + 4 ≤ k) :
    rd32 a m b1 off = rd32 a m b2 off := by rw [← rd32_pre h, hb, rd32_pre h]
theorem rd64_eq {b1 b2 : List UInt8} {k off : Nat} (hb : b1.take k = b2.take k) (h : off + 8 ≤ k) :
    rd64 a m b1 off = rd64 a m b2 off := by rw [← rd64_pre h, hb, rd64_pre h]

end WolfHsm.Wire

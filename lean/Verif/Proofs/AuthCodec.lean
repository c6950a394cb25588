import Verif.Model.Auth
import Verif.Proofs.Utils

/-! # Encoding and decoding of permission sets and of the user index -/

namespace WolfHsm.Auth

open Utils (bytes16 bytes32 read16 read32)

/-- Concatenations of equally long blocks: the block at an index. -/
theorem flatMap_block {α β : Type} (f : α → List β) (n : Nat) :
    ∀ (l : List α), (∀ a ∈ l, (f a).length = n) → ∀ (i : Nat) (h : i < l.length),
      ((l.flatMap f).drop (n * i)).take n = f l[i]
  | [], _, i, h => absurd h (by simp)
  | a :: l, hl, i, h => by
    have ha : (f a).length = n := hl a (by simp)
    cases i with
    | zero => simp [List.flatMap_cons, ← ha]
    | succ i =>
      have hi : i < l.length := by simpa using h
      have := flatMap_block f n l (fun b hb => hl b (by simp [hb])) i hi
      rw [List.flatMap_cons, Nat.mul_succ, Nat.add_comm, ← List.drop_drop]
      rw [List.drop_append_of_le_length (by omega), List.drop_of_length_le (l := f a) (by omega)]
      simpa using this

theorem flatMap_length {α β : Type} (f : α → List β) (n : Nat) :
    ∀ (l : List α), (∀ a ∈ l, (f a).length = n) → (l.flatMap f).length = n * l.length
  | [], _ => by simp
  | a :: l, hl => by
    have ha : (f a).length = n := hl a (by simp)
    have := flatMap_length f n l (fun b hb => hl b (by simp [hb]))
    rw [List.flatMap_cons, List.length_append, this, ha, List.length_cons, Nat.mul_succ]
    omega

theorem bytes32_length (v : UInt32) : (bytes32 true v).length = 4 := by simp [bytes32]
theorem bytes16_length (v : UInt16) : (bytes16 true v).length = 2 := by simp [bytes16]

theorem words_length (v : Vector UInt32 8) : (v.toList.flatMap (bytes32 true)).length = 32 := by
  rw [flatMap_length _ 4 _ (fun a _ => bytes32_length a)]; simp

theorem actions_length (v : Vector (Vector UInt32 8) 14) :
    (v.toList.flatMap (fun v => v.toList.flatMap (bytes32 true))).length = 448 := by
  rw [flatMap_length _ 32 _ (fun a _ => words_length a)]; simp

theorem keyIds_length (v : Vector UInt32 2) : (v.toList.flatMap (bytes32 true)).length = 8 := by
  rw [flatMap_length _ 4 _ (fun a _ => bytes32_length a)]; simp

theorem perms_bytes_length (p : Perms) : p.bytes.length = flatLen := by
  simp only [Perms.bytes, List.length_append, actions_length, bytes16_length, keyIds_length,
    Vector.length_toList]

/-- Reading inside the second of two concatenated lists. -/
theorem drop_skip {α : Type} {l : List α} {m : List α} {n k : Nat} (h : l.length = n) :
    (l ++ m).drop (n + k) = m.drop k := by
  rw [← List.drop_drop, List.drop_append_of_le_length (by omega),
    List.drop_of_length_le (l := l) (by omega)]
  simp

/-- Reading inside the first of two concatenated lists. -/
theorem drop_take_left {α : Type} {l m : List α} {k n : Nat} (h : k + n ≤ l.length) :
    ((l ++ m).drop k).take n = (l.drop k).take n := by
  rw [List.drop_append_of_le_length (by omega), List.take_append_of_le_length (by simp; omega)]

/-- A permission set is recovered from its bytes, whatever follows them. -/
theorem perms_roundtrip (p : Perms) (rest : List UInt8) : Perms.ofBytes (p.bytes ++ rest) = p := by
  obtain ⟨gs, acts, kc, ks⟩ := p
  have hg : gs.toList.length = 15 := by simp
  have ha := actions_length acts
  have hk := keyIds_length ks
  have hc := bytes16_length kc
  simp only [Perms.ofBytes, Perms.bytes, Perms.mk.injEq]
  refine ⟨?_, ?_, ?_, ?_⟩
  · apply Vector.ext
    intro i hi
    rw [Vector.getElem_ofFn]
    dsimp only
    rw [List.append_assoc, List.append_assoc, List.append_assoc, List.getD_eq_getElem?_getD,
      List.getElem?_append_left (by omega), List.getElem?_eq_getElem (by omega)]
    simp
  · apply Vector.ext
    intro g hgi
    rw [Vector.getElem_ofFn]
    apply Vector.ext
    intro w hw
    rw [Vector.getElem_ofFn]
    dsimp only
    unfold rd32
    have e1 : ((gs.toList ++ acts.toList.flatMap (fun v => v.toList.flatMap (bytes32 true)) ++
        bytes16 true kc ++ ks.toList.flatMap (bytes32 true) ++ rest).drop (15 + 32 * g + 4 * w)).take 4 =
        bytes32 true (acts[g]'hgi)[w] := by
      rw [List.append_assoc, List.append_assoc, List.append_assoc, Nat.add_assoc, drop_skip hg,
        drop_take_left (by omega), ← List.drop_drop]
      have hb := flatMap_block (fun v : Vector UInt32 8 => v.toList.flatMap (bytes32 true)) 32
        acts.toList (fun a _ => words_length a) g (by simpa using hgi)
      have hb2 := flatMap_block (bytes32 true) 4 (acts[g]'hgi).toList
        (fun a _ => bytes32_length a) w (by simpa using hw)
      simp only [Vector.getElem_toList] at hb hb2
      rw [← hb2, ← hb, List.drop_take, List.take_take]
      congr 1
      omega
    rw [e1, Utils.read32_bytes32]
    rfl
  · unfold rd16
    have e1 : ((gs.toList ++ acts.toList.flatMap (fun v => v.toList.flatMap (bytes32 true)) ++
        bytes16 true kc ++ ks.toList.flatMap (bytes32 true) ++ rest).drop 463).take 2 =
        bytes16 true kc := by
      have hl : (gs.toList ++ acts.toList.flatMap (fun v => v.toList.flatMap (bytes32 true))).length
        = 463 := by rw [List.length_append, hg, ha]
      rw [List.append_assoc, List.append_assoc]
      have := drop_skip (m := bytes16 true kc ++ (ks.toList.flatMap (bytes32 true) ++ rest))
        (k := 0) hl
      rw [Nat.add_zero, List.drop_zero] at this
      rw [this, List.take_append_of_le_length (by omega), List.take_of_length_le (by omega)]
    rw [e1, Utils.read16_bytes16]
    rfl
  · apply Vector.ext
    intro k hki
    rw [Vector.getElem_ofFn]
    dsimp only
    unfold rd32
    have e1 : ((gs.toList ++ acts.toList.flatMap (fun v => v.toList.flatMap (bytes32 true)) ++
        bytes16 true kc ++ ks.toList.flatMap (bytes32 true) ++ rest).drop (465 + 4 * k)).take 4 =
        bytes32 true ks[k] := by
      have hl : (gs.toList ++ acts.toList.flatMap (fun v => v.toList.flatMap (bytes32 true)) ++
        bytes16 true kc).length = 465 := by
        rw [List.length_append, List.length_append, hg, ha, hc]
      rw [List.append_assoc, drop_skip hl, drop_take_left (by omega)]
      have hb := flatMap_block (bytes32 true) 4 ks.toList
        (fun a _ => bytes32_length a) k (by simpa using hki)
      simpa using hb
    rw [e1, Utils.read32_bytes32]
    rfl

/-- A name as it can be stored: at most 31 bytes, none of them zero. -/
def NameOk (s : List UInt8) : Prop := s.length ≤ maxName ∧ ∀ b ∈ s, b ≠ 0

theorem nameBytes_length {s : List UInt8} (h : NameOk s) : (nameBytes s).length = 32 := by
  have : s.length ≤ 31 := h.1
  simp only [nameBytes, List.length_append, List.length_replicate]
  omega

theorem takeWhile_append_zero : ∀ (s t : List UInt8), (∀ b ∈ s, b ≠ 0) →
    (s ++ t).takeWhile (· ≠ 0) = s ++ t.takeWhile (· ≠ 0)
  | [], t, _ => rfl
  | a :: s, t, h => by
    have ha : a ≠ 0 := h a (by simp)
    have := takeWhile_append_zero s t (fun b hb => h b (by simp [hb]))
    rw [List.cons_append, List.takeWhile_cons]
    simp only [ha, ne_eq, not_false_eq_true, decide_true, if_true]
    rw [this]; rfl

theorem takeWhile_zeros (n : Nat) : (List.replicate n (0 : UInt8)).takeWhile (· ≠ 0) = [] := by
  cases n <;> simp [List.replicate_succ]

theorem nameOf_nameBytes {s : List UInt8} (h : NameOk s) : nameOf (nameBytes s) = s := by
  have hl := h.1
  unfold nameOf nameBytes
  rw [List.take_append, List.take_of_length_le (l := s) hl,
    takeWhile_append_zero _ _ h.2]
  rw [List.take_replicate, takeWhile_zeros, List.append_nil]

theorem encUser_length {s : Slot} (h : NameOk s.name) : (encUser s).length = userLen := by
  simp only [encUser, List.length_append, bytes16_length, nameBytes_length h, perms_bytes_length,
    List.length_singleton]
  rfl

/-- A user record is recovered from the index, without the fields that are not in it. -/
theorem decUser_encUser {s : Slot} (h : NameOk s.name) :
    decUser (encUser s) = { s with active := false, method := mNone, credLen := 0 } := by
  have h1 := bytes16_length s.id
  have h2 := nameBytes_length h
  have h3 := perms_bytes_length s.perms
  unfold decUser encUser
  simp only [Slot.mk.injEq, and_true]
  refine ⟨?_, ?_, ?_⟩
  · unfold rd16
    rw [List.drop_zero, List.append_assoc, List.append_assoc, List.take_append_of_le_length (by omega),
      List.take_of_length_le (by omega), Utils.read16_bytes16]
    rfl
  · have e : (bytes16 true s.id ++ nameBytes s.name ++ s.perms.bytes ++ [0]).drop 2 =
        nameBytes s.name ++ (s.perms.bytes ++ [0]) := by
      rw [List.append_assoc, List.append_assoc]
      have := drop_skip (m := nameBytes s.name ++ (s.perms.bytes ++ [0])) (k := 0) h1
      simpa using this
    rw [e, List.take_append_of_le_length (by omega), List.take_of_length_le (by omega),
      nameOf_nameBytes h]
  · have e : (bytes16 true s.id ++ nameBytes s.name ++ s.perms.bytes ++ [0]).drop 34 =
        s.perms.bytes ++ [0] := by
      rw [List.append_assoc]
      have := drop_skip (l := bytes16 true s.id ++ nameBytes s.name) (m := s.perms.bytes ++ [0])
        (n := 34) (k := 0) (by rw [List.length_append, h1, h2])
      simpa using this
    rw [e, List.take_append_of_le_length (by omega), List.take_of_length_le (by omega)]
    have := perms_roundtrip s.perms []
    rwa [List.append_nil] at this

theorem encIndex_length {us : Nat → Slot} (h : ∀ i, i < maxUsers → NameOk (us i).name) :
    (encIndex us).length = indexLen := by
  rw [encIndex, List.length_append, bytes32_length,
    flatMap_length _ userLen _ (fun i hi => encUser_length (h i (by simpa using hi)))]
  rfl

theorem encIndex_magic (us : Nat → Slot) : (read32 true ((encIndex us).take 4)).getD 0 = magic := by
  rw [encIndex, List.take_append_of_le_length (by rw [bytes32_length]),
    List.take_of_length_le (by rw [bytes32_length]), Utils.read32_bytes32]
  rfl

/-- Slot `i` of the index. -/
theorem encIndex_slot {us : Nat → Slot} (h : ∀ i, i < maxUsers → NameOk (us i).name) {i : Nat} (hi : i < maxUsers) :
    ((encIndex us).drop (4 + userLen * i)).take userLen = encUser (us i) := by
  rw [encIndex, drop_skip (bytes32_length magic)]
  have := flatMap_block (fun i => encUser (us i)) userLen (List.range maxUsers)
    (fun i hi => encUser_length (h i (by simpa using hi))) i (by simpa using hi)
  simpa using this

end WolfHsm.Auth

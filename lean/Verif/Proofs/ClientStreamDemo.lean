import Verif.Proofs.ClientStream
import Verif.Proofs.ClientStreamKey

/-!
# A library that meets the assumptions of C64
-/

namespace WolfHsm.ClientStream.Demo

open ClientCrypto
open Crypto (aesLen)

def sum (l : List UInt8) : UInt8 := l.foldr (· + ·) 0

theorem sum_append (a b : List UInt8) : sum (a ++ b) = sum a + sum b := by
  induction a with
  | nil => simp [sum]
  | cons x a ih =>
    show x + sum (a ++ b) = x + sum a + sum b
    rw [ih, UInt8.add_assoc]

/-- A toy block cipher. -/
def E (k b : List UInt8) : List UInt8 := b.map (· + sum k)
def D (k b : List UInt8) : List UInt8 := b.map (· - sum k)

theorem D_E (k b : List UInt8) : D k (E k b) = b := by
  unfold D E
  rw [List.map_map]
  conv => rhs; rw [← List.map_id b]
  apply List.map_congr_left
  intro x _
  exact UInt8.add_sub_cancel x _

/-! ## Counter mode, byte by byte as wolfCrypt does it -/

/-- The output, the counter block and the key stream after it. -/
def ctrRun (E : List UInt8 → List UInt8) : (input reg tmp : List UInt8) → (left : Nat) → List UInt8 × List UInt8 × List UInt8
  | [], reg, tmp, _ => ([], reg, tmp)
  | b :: l, reg, tmp, 0 =>
    let r := ctrRun E l (inc reg) (E reg) 15
    ((b ^^^ (E reg).getD 0 0) :: r.1, r.2)
  | b :: l, reg, tmp, n + 1 =>
    let r := ctrRun E l reg tmp n
    ((b ^^^ tmp.getD (15 - n) 0) :: r.1, r.2)

theorem inc_length (l : List UInt8) : (inc l).length = l.length := by
  unfold inc; rw [List.length_reverse, carry_length, List.length_reverse]

theorem ctrRun_lengths {E : List UInt8 → List UInt8} (hE : ∀ b, b.length = 16 → (E b).length = 16) :
    ∀ (input reg tmp : List UInt8) (left : Nat), reg.length = 16 → tmp.length = 16 →
      (ctrRun E input reg tmp left).1.length = input.length ∧ (ctrRun E input reg tmp left).2.1.length = 16 ∧
        (ctrRun E input reg tmp left).2.2.length = 16
  | [], _, _, _, h1, h2 => ⟨rfl, h1, h2⟩
  | _ :: l, reg, _, 0, h1, _ => by
    have ih := ctrRun_lengths hE l (inc reg) (E reg) 15 (by rw [inc_length, h1]) (hE _ h1)
    exact ⟨by show _ + 1 = _ + 1; rw [ih.1], ih.2⟩
  | _ :: l, reg, tmp, n + 1, h1, h2 => by
    have ih := ctrRun_lengths hE l reg tmp n h1 h2
    exact ⟨by show _ + 1 = _ + 1; rw [ih.1], ih.2⟩

theorem ctrRun_at {E : List UInt8 → List UInt8} (hE : ∀ b, b.length = 16 → (E b).length = 16) {iv : List UInt8} (hiv : iv.length = 16) :
    ∀ (input reg tmp : List UInt8) (left p : Nat), At E iv p reg tmp left →
      (ctrRun E input reg tmp left).1 = ctrText E iv p input ∧
        At E iv (p + input.length) (ctrRun E input reg tmp left).2.1 (ctrRun E input reg tmp left).2.2
          ((16 - (p + input.length) % 16) % 16)
  | [], reg, tmp, left, p, h => ⟨rfl, by have := h.unused; subst this; exact h⟩
  | b :: l, reg, tmp, 0, p, h => by
    have hu := h.unused
    have hp : p % 16 = 0 := by omega
    have hreg : reg = count iv (p / 16) := by rw [h.next]; congr 1; omega
    have hlen : reg.length = 16 := by rw [hreg, count_length, hiv]
    have hn : At E iv (p + 1) (inc reg) (E reg) 15 := by
      refine ⟨?_, by omega, hE _ hlen, fun _ => ?_⟩
      · rw [hreg, show (p + 1 + 15) / 16 = p / 16 + 1 by omega]; rfl
      · rw [hreg, show (p + 1) / 16 = p / 16 by omega]
    have ih := ctrRun_at hE hiv l (inc reg) (E reg) 15 (p + 1) hn
    refine ⟨?_, ?_⟩
    · show (b ^^^ (E reg).getD 0 0) :: (ctrRun E l (inc reg) (E reg) 15).1 = _
      rw [ih.1]
      have := ctrText_append E iv p [b] l
      rw [show b :: l = [b] ++ l from rfl, this]
      show _ :: _ = (b ^^^ stream E iv (p + 0)) :: _
      unfold stream
      rw [show (p + 0) % 16 = 0 by omega, show (p + 0) / 16 = p / 16 by omega, ← hreg]
      rfl
    · rw [List.length_cons, show p + (l.length + 1) = p + 1 + l.length by omega]
      exact ih.2
  | b :: l, reg, tmp, n + 1, p, h => by
    have hu := h.unused
    have hp : p % 16 = 15 - n := by omega
    have hn15 : n < 15 := by omega
    have hrest := h.rest (by omega)
    have hreg : reg.length = 16 := by rw [h.next, count_length, hiv]
    have hE16 : (E (count iv (p / 16))).length = 16 := hE _ (by rw [count_length, hiv])
    have hget : tmp.getD (15 - n) 0 = (E (count iv (p / 16))).getD (15 - n) 0 := by
      have h1 : (tmp.drop (16 - (n + 1))).getD 0 0 = ((E (count iv (p / 16))).drop (16 - (n + 1))).getD 0 0 := by rw [hrest]
      rw [show 16 - (n + 1) = 15 - n by omega] at h1
      simpa [List.getD_eq_getElem?_getD] using h1
    have hn : At E iv (p + 1) reg tmp n := by
      refine ⟨?_, by omega, h.len, fun h0 => ?_⟩
      · rw [h.next]; congr 1; omega
      · rw [show (p + 1) / 16 = p / 16 by omega]
        have h1 : (tmp.drop (16 - (n + 1))).drop 1 = ((E (count iv (p / 16))).drop (16 - (n + 1))).drop 1 := by rw [hrest]
        rw [List.drop_drop, List.drop_drop, show 16 - (n + 1) + 1 = 16 - n by omega] at h1
        exact h1
    have ih := ctrRun_at hE hiv l reg tmp n (p + 1) hn
    refine ⟨?_, ?_⟩
    · show (b ^^^ tmp.getD (15 - n) 0) :: (ctrRun E l reg tmp n).1 = _
      rw [ih.1, hget]
      have := ctrText_append E iv p [b] l
      rw [show b :: l = [b] ++ l from rfl, this]
      show _ :: _ = (b ^^^ stream E iv (p + 0)) :: _
      unfold stream
      rw [show (p + 0) % 16 = 15 - n by omega, show (p + 0) / 16 = p / 16 by omega]
      rfl
    · rw [List.length_cons, show p + (l.length + 1) = p + 1 + l.length by omega]
      exact ih.2

/-! ## The library -/

/-- The state of the toy MAC: its first byte has what the message adds up to, times the key. -/
def st (k m : List UInt8) : CmacState :=
  if m = [] then .zero else ⟨sum m * sum k :: List.replicate 31 0, 1, 0⟩

def mac (k m : List UInt8) : List UInt8 := List.replicate 16 (sum m * sum k + sum k)

def lib : Crypto.Lib :=
  { Props.CryptoMsgDemo.lib with
    aes := fun mode enc left key input extra =>
      if mode = .ctr then
        if extra.length = 32 then
          let r := ctrRun (E key) input (extra.take 16) (extra.drop 16) left
          .ok (r.1, r.2.1 ++ r.2.2)
        else .error .badargs
      else if mode = .cbc then
        if extra.length = 16 ∧ input.length % 16 = 0 then
          if enc then
            let c := cbcEnc (E key) (input.length / 16) extra input
            .ok (c, lastBlock extra c)
          else .ok (cbcDec (D key) (input.length / 16) extra input, lastBlock extra input)
        else .error .badargs
      else Props.CryptoMsgDemo.lib.aes mode enc left key input extra
    cmac := fun key input n => .ok ((mac key input).take n)
    cmacUpdate := fun key s x =>
      if x = [] then .ok s else .ok (CmacState.flat ⟨(s.headD 0 + sum x * sum key) :: List.replicate 31 0, 1, 0⟩)
    cmacFinal := fun key s x n => .ok ((List.replicate 16 (s.headD 0 + sum x * sum key + sum key)).take n) }

theorem E_len (k b : List UInt8) (h : b.length = 16) : (E k b).length = 16 := by unfold E; rw [List.length_map, h]

theorem ctrLib : CtrLib lib E := by
  intro enc k iv p reg tmp left input hk hiv h
  have hreg : reg.length = 16 := by rw [h.next, count_length, hiv]
  obtain ⟨h1, h2⟩ := ctrRun_at (E_len k) hiv input reg tmp left p h
  refine ⟨(ctrRun (E k) input reg tmp left).2.1, (ctrRun (E k) input reg tmp left).2.2, ?_, ?_⟩
  · show (if (reg ++ tmp).length = 32 then
        Except.ok ((ctrRun (E k) input ((reg ++ tmp).take 16) ((reg ++ tmp).drop 16) left).1, _) else _) = _
    rw [if_pos (by rw [List.length_append, hreg, h.len]), ← hreg, List.take_left, List.drop_left, h1]
  · have hu := h.unused
    have hl : lib.aesLeft left input.length = (16 - (p + input.length) % 16) % 16 := by
      show (if input.length ≤ left then left - input.length else (16 - (input.length - left) % 16) % 16) = _
      split <;> omega
    rw [hl]
    exact h2

theorem cbcLib : CbcLib lib E D where
  len := E_len
  enc := by
    intro k iv input n hk hiv hin
    show (if iv.length = 16 ∧ input.length % 16 = 0 then _ else _) = _
    rw [if_pos ⟨hiv, by omega⟩, show input.length / 16 = n by omega]
    rfl
  dec := by
    intro k iv input n hk hiv hin
    show (if iv.length = 16 ∧ input.length % 16 = 0 then _ else _) = _
    rw [if_pos ⟨hiv, by omega⟩, show input.length / 16 = n by omega]
    rfl

theorem st_bytes (k m : List UInt8) : (st k m).bytes.length = 32 := by
  unfold st; split <;> rfl

theorem st_head (k m : List UInt8) : (st k m).flat.headD 0 = sum m * sum k := by
  unfold st
  split
  · rename_i h
    subst h
    show (0 : UInt8) = 0 * sum k
    rw [UInt8.zero_mul]
  · rfl

theorem cmacLib : CmacLib lib mac st where
  zero := fun k => rfl
  fresh := by
    intro k m _ h
    left
    unfold st
    rw [if_neg h]
    exact (by decide : (1 : UInt32) ≠ 0)
  room := by intro k m; unfold st; split; exacts [by decide, (by decide : (1 : UInt32) ≤ 16)]
  bytes := st_bytes
  update := by
    intro k m x _ _
    show (if x = [] then _ else Except.ok (CmacState.flat ⟨((st k m).flat.headD 0 + sum x * sum k) :: List.replicate 31 0, 1, 0⟩)) = _
    split
    · rename_i h
      rw [h, List.append_nil]
    · rename_i h
      rw [st_head]
      congr 2
      rw [← UInt8.add_mul, ← sum_append]
      unfold st
      rw [if_neg (by simp [h])]
  final := by
    intro k m _ _
    show Except.ok ((List.replicate 16 ((st k m).flat.headD 0 + sum [] * sum k + sum k)).take 16) = _
    rw [st_head, List.take_of_length_le (by simp)]
    have : sum ([] : List UInt8) * sum k = 0 := UInt8.zero_mul
    rw [this, UInt8.add_zero]
    rfl
  once := by intros; rfl

theorem cbcDec_length (k : List UInt8) : ∀ (n : Nat) (iv x : List UInt8), iv.length = 16 → x.length = 16 * n →
    (cbcDec (D k) n iv x).length = 16 * n
  | 0, _, _, _, _ => rfl
  | n + 1, iv, x, hiv, hx => by
    have h16 : (x.take 16).length = 16 := by rw [List.length_take]; omega
    have hd : (D k (x.take 16)).length = 16 := by unfold D; rw [List.length_map, h16]
    rw [cbcDec_succ, List.length_append, xor_length (by omega), hiv,
      cbcDec_length k n _ (x.drop 16) h16 (by rw [List.length_drop]; omega)]
    omega

theorem small {n : Nat} (hn : 64 ≤ n) : CryptoMsg.Small lib n :=
  { Props.CryptoMsgDemo.small hn with
    aes := by
      intro mode e l k i x out tail h
      change (if mode = .ctr then _ else _) = _ at h
      split at h
      · rename_i hm
        subst hm
        split at h
        · rename_i hx
          cases h
          obtain ⟨h1, h2, h3⟩ := ctrRun_lengths (E_len k) i (x.take 16) (x.drop 16) l (by rw [List.length_take]; omega)
            (by rw [List.length_drop]; omega)
          refine ⟨h1, ?_⟩
          rw [List.length_append, h2, h3]
          rfl
        · cases h
      · split at h
        · rename_i hm
          subst hm
          split at h
          · rename_i hx
            have hi : i.length = 16 * (i.length / 16) := by omega
            split at h
            · cases h
              have hl := cbcEnc_length (E_len k) _ x i hx.1 hi
              exact ⟨by omega, lastBlock_length hx.1 hl⟩
            · cases h
              have hl := cbcDec_length k _ x i hx.1 hi
              exact ⟨by omega, lastBlock_length hx.1 hi⟩
          · cases h
        · exact (Props.CryptoMsgDemo.small hn).aes mode e l k i x out tail h
    tag := fun l k i x q h => (Props.CryptoMsgDemo.small hn).tag l k i x q h
    cmac := by
      intro k i z b h
      cases h
      show ((List.replicate 16 _).take z).length ≤ 16
      rw [List.length_take, List.length_replicate]
      omega
    cmacFinal := by
      intro k s i z b h
      cases h
      rw [List.length_take, List.length_replicate]
      omega }

end WolfHsm.ClientStream.Demo

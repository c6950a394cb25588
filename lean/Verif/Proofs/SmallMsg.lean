import Verif.Spec.SmallMsg
import Verif.Proofs.WireSimp
import Verif.Proofs.ServerClient
import Mathlib.Tactic.IntervalCases

/-! # Counter, connection and custom messages: helper lemmas -/

namespace WolfHsm

open Utils (bytes16 bytes32 bytes64 read32 read64 magicNative)
open Wire

/-- A refusal outside the NVM, authentication and certificate groups is a bare code. -/
theorem Server.refusal_bare {R : Type} (cfg : Server.Cfg R) {g : UInt16} (r : Server.Req) (h1 : g ≠ 0x0D00) (h2 : g ≠ 0x0200)
    (h3 : g ≠ 0x0C00) : Server.refusal cfg g r = w32 cfg.le r.magic Rc.authPermissionError.code := by
  unfold Server.refusal
  dsimp only
  rw [if_neg h1, if_neg h2, if_neg (fun h => h3 h.1)]
  rfl

theorem Wire.rd32_array {a b : Bool} {ma mb : UInt16} (h : Paired a b ma mb) {post : List UInt8} :
    ∀ (l : List UInt32) (i : Nat) (hi : i < l.length), rd32 a ma (l.flatMap (w32 b mb) ++ post) (4 * i) = l[i]
  | [], i, hi => absurd hi (by simp)
  | v :: l, 0, hi => by
    rw [List.flatMap_cons, List.append_assoc]; exact rd32_here h v
  | v :: l, i + 1, hi => by
    rw [List.flatMap_cons, List.append_assoc, show 4 * (i + 1) = 4 * i + 4 by omega, rd32_w32,
      rd32_array h l i (by simpa using hi)]
    rfl

theorem Wire.flat32_length {b : Bool} {mb : UInt16} (l : List UInt32) : (l.flatMap (w32 b mb)).length = 4 * l.length := by
  induction l with
  | nil => rfl
  | cons v l ih => rw [List.flatMap_cons, List.length_append, w32_length, ih, List.length_cons]; omega

/-- What a structure written over the packet has in its first `k` bytes depends only on those of the
packet. -/
theorem Wire.over_take {b b' : List UInt8} {k : Nat} (h : b'.take k = b.take k) (f : List UInt8) (n : Nat) :
    (over f b' n).take k = (over f b n).take k := by
  have hl : min k b'.length = min k b.length := by simpa using congrArg List.length h
  have hB : (b' ++ List.replicate n (0 : UInt8)).take k = (b ++ List.replicate n 0).take k := by
    rw [List.take_append, List.take_append, h, show k - b'.length = k - b.length by omega]
  unfold over
  rw [List.take_append, List.take_append, List.take_take, List.take_take]
  congr 1
  by_cases hk : f.length ≤ k
  · rw [List.take_drop, List.take_drop]
    congr 1
    have hle : f.length + min (k - f.length) (n - f.length) ≤ k := by omega
    have := congrArg (List.take (f.length + min (k - f.length) (n - f.length))) hB
    rwa [List.take_take, List.take_take, Nat.min_eq_left hle] at this
  · rw [show k - f.length = 0 by omega, Nat.zero_min, List.take_zero, List.take_zero]

namespace ClientCounter

theorem encode_fits {cle : Bool} {stale : Nat → UInt8} {c : Call} {a : UInt16} {body : List UInt8}
    (he : encode cle stale c = .ok (a, body)) : body.length = 8 ∧ (a = 0 ∨ a = 1 ∨ a = 2 ∨ a = 3) := by
  unfold encode at he
  by_cases h0 : c.id = 0
  · rw [if_pos h0] at he; cases he
  · rw [if_neg h0] at he
    cases c <;> injection he with he <;> injection he with h1 h2 <;> subst h1 <;> subst h2 <;>
      (simp only [List.length_append, bytes16_len, bytes32_len, List.length_map, List.length_range]) <;> decide

theorem dec_call {cle le : Bool} {m : UInt16} (hp : Paired cle le magicNative m) {stale : Nat → UInt8} {c : Call} {a : UInt16}
    {body : List UInt8} (he : encode cle stale c = .ok (a, body)) (seq : UInt16) (junk : List UInt8) :
    CounterMsg.decode le ⟨m, a, seq, body ++ junk, body.length⟩ = c.req := by
  have hl := (encode_fits he).1
  unfold CounterMsg.decode
  dsimp only
  rw [hl]
  unfold encode at he
  by_cases h0 : c.id = 0
  · rw [if_pos h0] at he; cases he
  · rw [if_neg h0] at he
    cases c with
    | init id v =>
      injection he with he; injection he with h1 h2; subst h1; subst h2
      rw [if_pos rfl, if_neg (by decide), bytes32_eq, bytes16_eq, List.append_assoc, List.append_assoc, rd32_here hp.symm,
        show (4 : Nat) = 0 + 4 from rfl, rd16_w32, rd16_here hp.symm]
      rfl
    | increment id =>
      injection he with he; injection he with h1 h2; subst h1; subst h2
      rw [if_neg (by decide), if_pos rfl, if_neg (by decide), bytes16_eq, List.append_assoc, rd16_here hp.symm]
      rfl
    | read id =>
      injection he with he; injection he with h1 h2; subst h1; subst h2
      rw [if_neg (by decide), if_neg (by decide), if_pos rfl, if_neg (by decide), bytes16_eq, List.append_assoc, rd16_here hp.symm]
      rfl
    | destroy id =>
      injection he with he; injection he with h1 h2; subst h1; subst h2
      rw [if_neg (by decide), if_neg (by decide), if_neg (by decide), if_pos rfl, if_neg (by decide), bytes16_eq, List.append_assoc,
        rd16_here hp.symm]
      rfl

theorem req_known (c : Call) : c.req ≠ .unknown := by cases c <;> intro h <;> cases h

/-- A complete call on packet bytes. -/
theorem handle_call {cle le : Bool} {m : UInt16} (hp : Paired cle le magicNative m) {stale : Nat → UInt8} {c : Call} {a : UInt16}
    {body : List UInt8} (he : encode cle stale c = .ok (a, body)) (client : UInt16) (lock : Rc) (n : Nvm) (seq : UInt16)
    (junk : List UInt8) (kind : UInt16) :
    let q := CounterMsg.handle le client lock ⟨m, a, seq, body ++ junk, body.length⟩ n
    (decode cle a ⟨.ok, magicNative, kind, seq, q.1⟩, q.2) = expected client lock n c := by
  have hd := dec_call hp he seq junk
  unfold CounterMsg.handle
  dsimp only
  rw [hd, if_neg (req_known c)]
  unfold expected
  dsimp only
  generalize Counter.handle n client lock c.req = o
  by_cases h3 : a = 3
  · rw [if_pos h3]
    subst h3
    have hc : ∃ id, c = .destroy id := by
      unfold encode at he
      by_cases h0 : c.id = 0
      · rw [if_pos h0] at he; cases he
      · rw [if_neg h0] at he
        cases c <;> injection he with he <;> injection he with h1 h2 <;> first | exact ⟨_, rfl⟩ | exact absurd h1 (by decide)
    obtain ⟨id, rfl⟩ := hc
    have hlen : (over (w32 le m o.1.rc.code) (body ++ junk) 8).length = 8 := over_length (by rw [w32_length]; omega)
    unfold decode
    dsimp only
    rw [if_neg (by omega)]
    have h0 : rd32 cle magicNative (over (w32 le m o.1.rc.code) (body ++ junk) 8) 0 = o.1.rc.code := by
      unfold over; exact rd32_here hp _
    rw [h0]
    by_cases hc : o.1.rc.code ≠ 0
    · rw [if_pos hc, if_pos hc]
    · rw [if_neg hc, if_neg hc, if_pos rfl]
  · rw [if_neg h3]
    have hc : ∀ id, c ≠ .destroy id := by
      rintro id rfl
      unfold encode at he
      by_cases h0 : (Call.destroy id).id = 0
      · rw [if_pos h0] at he; cases he
      · rw [if_neg h0] at he
        injection he with he; injection he with h1 h2
        exact h3 h1.symm
    unfold decode
    dsimp only
    rw [if_neg (by rw [List.length_append, w32_length, w32_length]; omega), rd32_here hp,
      show (4 : Nat) = 0 + 4 from rfl, rd32_w32, rd32_last hp, if_neg h3]
    by_cases hc' : o.1.rc.code ≠ 0
    · rw [if_pos hc', if_pos hc']
    · rw [if_neg hc', if_neg hc']
      cases c <;> first | rfl | exact absurd rfl (hc _)

end ClientCounter

namespace CustomMsg

theorem action_lt (q : CbReq) (cle : Bool) : (encode cle q).1.toNat = q.id.toNat % 256 := by
  unfold encode
  dsimp only
  rw [UInt16.toNat_and, show (0xFF : UInt16).toNat = 2 ^ 8 - 1 from rfl, Nat.and_two_pow_sub_one_eq_mod, UInt32.toNat_toUInt16]
  omega

theorem kind_ok (a : UInt16) (h : a.toNat < 256) : Server.groupOf (0x0A00 ||| a) = 0x0A00 ∧ Server.actionOf (0x0A00 ||| a) = a := by
  have h1 : a &&& 0xFF = a := by
    apply UInt16.toNat_inj.1
    rw [UInt16.toNat_and, show (0xFF : UInt16).toNat = 2 ^ 8 - 1 from rfl, Nat.and_two_pow_sub_one_eq_mod]
    omega
  constructor
  · unfold Server.groupOf
    rw [← h1]
    apply UInt16.eq_of_toBitVec_eq
    simp only [UInt16.toBitVec_and, UInt16.toBitVec_or]
    apply BitVec.eq_of_getLsbD_eq
    intro i hi
    simp only [BitVec.getLsbD_and, BitVec.getLsbD_or]
    cases a.toBitVec.getLsbD i
    · have : ∀ i : Fin 16, (((0x0A00#16).getLsbD i || false && (0xFF#16).getLsbD i) && (0xFF00#16).getLsbD i) = (0x0A00#16).getLsbD i := by decide
      exact this ⟨i, hi⟩
    · have : ∀ i : Fin 16, (((0x0A00#16).getLsbD i || true && (0xFF#16).getLsbD i) && (0xFF00#16).getLsbD i) = (0x0A00#16).getLsbD i := by decide
      exact this ⟨i, hi⟩
  · unfold Server.actionOf
    conv => lhs; rw [← h1]
    conv => rhs; rw [← h1]
    apply UInt16.eq_of_toBitVec_eq
    simp only [UInt16.toBitVec_and, UInt16.toBitVec_or]
    apply BitVec.eq_of_getLsbD_eq
    intro i hi
    simp only [BitVec.getLsbD_and, BitVec.getLsbD_or]
    cases a.toBitVec.getLsbD i
    · have : ∀ i : Fin 16, (((0x0A00#16).getLsbD i || false && (0xFF#16).getLsbD i) && (0x00FF#16).getLsbD i) = (false && (0xFF#16).getLsbD i) := by decide
      exact this ⟨i, hi⟩
    · have : ∀ i : Fin 16, (((0x0A00#16).getLsbD i || true && (0xFF#16).getLsbD i) && (0x00FF#16).getLsbD i) = (true && (0xFF#16).getLsbD i) := by decide
      exact this ⟨i, hi⟩

variable {cle : Bool} {cfg : Cfg} {m : UInt16}

theorem bytes32_read32 (le : Bool) (b0 b1 b2 b3 : UInt8) :
    bytes32 le ((read32 le [b0, b1, b2, b3]).getD 0) = [b0, b1, b2, b3] := by
  have h : ∀ b0 b1 b2 b3 : UInt8, bytes32 true (b0.toUInt32 ||| (b1.toUInt32 <<< 8) ||| (b2.toUInt32 <<< 16) ||| (b3.toUInt32 <<< 24)) =
      [b0, b1, b2, b3] := by
    intro b0 b1 b2 b3
    simp only [bytes32, if_true, List.cons.injEq, and_true]
    refine ⟨?_, ?_, ?_, ?_⟩ <;>
    · apply UInt8.eq_of_toBitVec_eq
      apply BitVec.eq_of_getLsbD_eq
      intro i hi
      simp only [UInt32.toBitVec_or, UInt32.toBitVec_shiftRight, UInt32.toBitVec_shiftLeft,
        UInt32.toBitVec_toUInt8, UInt8.toBitVec_toUInt32]
      interval_cases i <;> simp
  cases le
  · have h' := congrArg List.reverse (h b3 b2 b1 b0)
    exact h'
  · exact h b0 b1 b2 b3

theorem bytes64_read64 (le : Bool) (b0 b1 b2 b3 b4 b5 b6 b7 : UInt8) :
    bytes64 le ((read64 le [b0, b1, b2, b3, b4, b5, b6, b7]).getD 0) = [b0, b1, b2, b3, b4, b5, b6, b7] := by
  have h : ∀ b0 b1 b2 b3 b4 b5 b6 b7 : UInt8, bytes64 true ((read64 true [b0, b1, b2, b3, b4, b5, b6, b7]).getD 0) =
      [b0, b1, b2, b3, b4, b5, b6, b7] := by
    intro b0 b1 b2 b3 b4 b5 b6 b7
    simp only [bytes64, read64, if_true, List.cons.injEq, and_true, Option.getD_some]
    refine ⟨?_, ?_, ?_, ?_, ?_, ?_, ?_, ?_⟩ <;>
    · apply UInt8.eq_of_toBitVec_eq
      apply BitVec.eq_of_getLsbD_eq
      intro i hi
      simp only [UInt64.toBitVec_or, UInt64.toBitVec_shiftRight, UInt64.toBitVec_shiftLeft,
        UInt64.toBitVec_toUInt8, UInt8.toBitVec_toUInt64]
      interval_cases i <;> simp
  cases le
  · have h' := congrArg List.reverse (h b7 b6 b5 b4 b3 b2 b1 b0)
    exact h'
  · exact h b0 b1 b2 b3 b4 b5 b6 b7

theorem is32 (le : Bool) {l : List UInt8} (h : l.length = 4) : ∃ w, l = w32 le magicNative w ∧ (read32 le l).getD 0 = w := by
  match l, h with
  | [b0, b1, b2, b3], _ =>
    refine ⟨(read32 le [b0, b1, b2, b3]).getD 0, ?_, rfl⟩
    rw [← bytes32_eq]
    exact (bytes32_read32 le b0 b1 b2 b3).symm

theorem is64 (le : Bool) {l : List UInt8} (h : l.length = 8) : ∃ w, l = w64 le magicNative w ∧ (read64 le l).getD 0 = w := by
  match l, h with
  | [b0, b1, b2, b3, b4, b5, b6, b7], _ =>
    refine ⟨(read64 le [b0, b1, b2, b3, b4, b5, b6, b7]).getD 0, ?_, rfl⟩
    rw [← bytes64_eq]
    exact (bytes64_read64 le b0 b1 b2 b3 b4 b5 b6 b7).symm

theorem translate32_native (v : UInt32) : Utils.translate32 magicNative v = v := by unfold Utils.translate32; rw [if_pos (by decide)]
theorem translate64_native (v : UInt64) : Utils.translate64 magicNative v = v := by unfold Utils.translate64; rw [if_pos (by decide)]

/-- On the wire a word is as the client has it in memory. -/
theorem w32_client (hp : Paired cle cfg.le magicNative m) (v : UInt32) : w32 cfg.le m v = bytes32 cle v := by
  obtain ⟨w, h1, h2⟩ := is32 cle (w32_length cfg.le m v)
  have h := read_w32 hp v
  rw [h2, translate32_native] at h
  rw [h1, h, bytes32_eq]

theorem w64_client (hp : Paired cle cfg.le magicNative m) (v : UInt64) : w64 cfg.le m v = bytes64 cle v := by
  obtain ⟨w, h1, h2⟩ := is64 cle (w64_length cfg.le m v)
  have h := read_w64 hp v
  rw [h2, translate64_native] at h
  rw [h1, h, bytes64_eq]

/-- Word `off` of the client's data as the server reads it from the packet. -/
theorem word32 (hp : Paired cle cfg.le magicNative m) (data : List UInt8) {off : Nat} (h : off + 4 ≤ data.length) {junk : List UInt8} :
    rd32 cfg.le m (data ++ junk) off = rd32 cle magicNative data off := by
  have hs : ((data ++ junk).drop off).take 4 = (data.drop off).take 4 := by
    rw [List.drop_append_of_le_length (by omega), List.take_append_of_le_length (by rw [List.length_drop]; omega)]
  have hl : ((data.drop off).take 4).length = 4 := by rw [List.length_take, List.length_drop]; omega
  obtain ⟨w, h1, h2⟩ := is32 cle hl
  have h3 := read_w32 hp.symm w
  unfold rd32
  rw [hs, h2, translate32_native, h1, h3]

theorem word64 (hp : Paired cle cfg.le magicNative m) (data : List UInt8) {off : Nat} (h : off + 8 ≤ data.length) {junk : List UInt8} :
    rd64 cfg.le m (data ++ junk) off = rd64 cle magicNative data off := by
  have hs : ((data ++ junk).drop off).take 8 = (data.drop off).take 8 := by
    rw [List.drop_append_of_le_length (by omega), List.take_append_of_le_length (by rw [List.length_drop]; omega)]
  have hl : ((data.drop off).take 8).length = 8 := by rw [List.length_take, List.length_drop]; omega
  obtain ⟨w, h1, h2⟩ := is64 cle hl
  have h3 := read_w64 hp.symm w
  unfold rd64
  rw [hs, h2, translate64_native, h1, h3]

theorem dataIn_eq (hp : Paired cle cfg.le magicNative m) (type : UInt32) {data : List UInt8} (hd : data.length = cfg.len)
    (h32 : 32 ≤ cfg.len) (junk : List UInt8) :
    dataIn cfg m type (data ++ junk) = filled cfg.len (carried cle cfg.le cfg.len type data) := by
  unfold dataIn carried filled
  dsimp only
  by_cases h1 : type = 1
  · subst h1
    rw [if_pos (by decide), if_pos rfl, if_pos rfl]
    rw [word32 hp data (by omega), word32 hp data (by omega), word32 hp data (by omega), word32 hp data (by omega)]
    simp only [List.flatMap_cons, List.flatMap_nil, List.append_nil, List.append_assoc, List.length_append, bytes32_len]
  · by_cases h2 : type = 2
    · subst h2
      rw [if_pos (by decide), if_neg (by decide), if_pos rfl, if_neg (by decide), if_pos rfl]
      rw [word64 hp data (by omega), word64 hp data (by omega), word64 hp data (by omega), word64 hp data (by omega)]
      simp only [List.flatMap_cons, List.flatMap_nil, List.append_nil, List.append_assoc, List.length_append, bytes64_len]
    · rw [if_neg h1, if_neg h2, if_neg h1, if_neg h2]
      by_cases h8 : type.toNat < 8
      · rw [if_pos h8, if_pos h8]; rfl
      · rw [if_neg h8, if_neg h8, List.take_of_length_le (by omega), hd, Nat.sub_self, List.replicate_zero, List.append_nil]
        exact rdBytes_here hd

theorem dataOut_eq (hp : Paired cle cfg.le magicNative m) (type : UInt32) (mem : List UInt8) :
    dataOut cfg m type mem = carried cfg.le cle cfg.len type mem := by
  unfold dataOut carried
  dsimp only
  by_cases h1 : type = 1
  · subst h1
    rw [if_pos (by decide), if_pos rfl, if_pos rfl]
    simp only [w32_client hp, List.flatMap_cons, List.flatMap_nil, List.append_nil]
  · by_cases h2 : type = 2
    · subst h2
      rw [if_pos (by decide), if_neg (by decide), if_pos rfl, if_neg (by decide), if_pos rfl]
      simp only [w64_client hp, List.flatMap_cons, List.flatMap_nil, List.append_nil]
    · rw [if_neg h1, if_neg h2, if_neg h1, if_neg h2]
      by_cases h8 : type.toNat < 8
      · rw [if_pos h8, if_pos h8]
      · rw [if_neg h8, if_neg h8]; rfl

theorem carried_length (a b : Bool) {len : Nat} (h32 : 32 ≤ len) (type : UInt32) (data : List UInt8) :
    (carried a b len type data).length ≤ len := by
  unfold carried
  split
  · simp only [List.flatMap_cons, List.flatMap_nil, List.append_nil, List.length_append, bytes32_len]; omega
  · split
    · simp only [List.flatMap_cons, List.flatMap_nil, List.append_nil, List.length_append, bytes64_len]; omega
    · split
      · exact Nat.zero_le _
      · rw [List.length_take]; omega

theorem dataOut_length (h32 : 32 ≤ cfg.len) (type : UInt32) (mem : List UInt8) : (dataOut cfg m type mem).length ≤ cfg.len := by
  unfold dataOut
  dsimp only
  split
  · split
    · simp only [List.length_append, w32_length]; omega
    · split
      · simp only [List.length_append, w64_length]; omega
      · exact Nat.zero_le _
  · unfold rdBytes; rw [List.length_take]; omega

theorem handle_fits {S : Type} (h32 : 32 ≤ cfg.len) {n : Nat} (hn : 16 + cfg.len ≤ n) (table : Nat → Option (Callback S)) (r : Server.Req)
    (hr : r.size ≤ n) (s : S) : (handle cfg table r s).1.length ≤ n := by
  have hd : r.data.length ≤ n := by unfold Server.Req.data; rw [List.length_take]; omega
  have ho : ∀ (id type rc err : UInt32) (data : List UInt8), (over (w32 cfg.le r.magic id ++ (w32 cfg.le r.magic type ++ (w32 cfg.le r.magic rc ++
        (w32 cfg.le r.magic err ++ dataOut cfg r.magic type data)))) r.buf (16 + cfg.len)).length ≤ n := by
    intro id type rc err data
    rw [over_length]
    · exact hn
    · have := dataOut_length (m := r.magic) h32 type data
      simp only [List.length_append, w32_length]; omega
  unfold handle
  split
  · exact hd
  · split
    · exact hd
    · dsimp only
      split
      · split
        · exact ho ..
        · exact ho ..
      · exact ho ..

/-- The client on a response of the server. -/
theorem decode_sent (hp : Paired cle cfg.le magicNative m) (h32 : 32 ≤ cfg.len) (id type rc err : UInt32) (data buf : List UInt8)
    {kind : UInt16} (hk : kind &&& 0xFF00 = 0x0A00) (seq : UInt16) :
    ∃ stale, decode cle cfg.len ⟨.ok, magicNative, kind, seq, over (w32 cfg.le m id ++ (w32 cfg.le m type ++ (w32 cfg.le m rc ++
        (w32 cfg.le m err ++ dataOut cfg m type data)))) buf (16 + cfg.len)⟩ =
      .ok ⟨id, type, rc, err, carried cfg.le cle cfg.len type data ++ stale⟩ := by
  have hl := dataOut_length (m := m) h32 type data
  have hlen := over_length (f := w32 cfg.le m id ++ (w32 cfg.le m type ++ (w32 cfg.le m rc ++ (w32 cfg.le m err ++ dataOut cfg m type data))))
    (b := buf) (n := 16 + cfg.len) (by simp only [List.length_append, w32_length]; omega)
  rw [← dataOut_eq hp]
  unfold decode
  dsimp only
  rw [if_neg (by rw [hlen, hk]; exact fun h => h.elim (fun h => h rfl) (fun h => h rfl))]
  unfold over at hlen ⊢
  generalize hst : List.take _ _ = stale at hlen ⊢
  refine ⟨stale, ?_⟩
  simp only [List.append_assoc]
  rw [rd32_here hp, show (4 : Nat) = 0 + 4 from rfl, rd32_w32, rd32_here hp, show (8 : Nat) = 4 + 4 from rfl, rd32_w32,
    show (4 : Nat) = 0 + 4 from rfl, rd32_w32, rd32_here hp, show (12 : Nat) = 8 + 4 from rfl, rd32_w32, show (8 : Nat) = 4 + 4 from rfl, rd32_w32,
    show (4 : Nat) = 0 + 4 from rfl, rd32_w32, rd32_here hp]
  have hb : rdBytes (w32 cfg.le m id ++ (w32 cfg.le m type ++ (w32 cfg.le m rc ++ (w32 cfg.le m err ++ (dataOut cfg m type data ++ stale))))) 16 cfg.len =
      dataOut cfg m type data ++ stale := by
    rw [show (16 : Nat) = 12 + 4 from rfl, rdBytes_w32, show (12 : Nat) = 8 + 4 from rfl, rdBytes_w32, show (8 : Nat) = 4 + 4 from rfl, rdBytes_w32,
      show (4 : Nat) = 0 + 4 from rfl, rdBytes_w32]
    unfold rdBytes
    rw [List.drop_zero, List.take_of_length_le]
    simp only [List.length_append, w32_length] at hlen ⊢
    omega
  rw [hb]

theorem rd_call (hp : Paired cle cfg.le magicNative m) (q : CbReq) (junk : List UInt8) :
    rd32 cfg.le m ((encode cle q).2 ++ junk) 0 = q.id ∧ rd32 cfg.le m ((encode cle q).2 ++ junk) 4 = q.type ∧
      ((encode cle q).2 ++ junk).drop 8 = q.data ++ junk := by
  unfold encode
  dsimp only
  rw [bytes32_eq, bytes32_eq, List.append_assoc, List.append_assoc]
  refine ⟨rd32_here hp.symm _, ?_, ?_⟩
  · rw [show (4 : Nat) = 0 + 4 from rfl, rd32_w32, rd32_here hp.symm]
  · rw [show (8 : Nat) = 4 + 4 from rfl, ← List.drop_drop, List.drop_left' (w32_length ..), List.drop_left' (w32_length ..)]

theorem encode_length (q : CbReq) : (encode cle q).2.length = 8 + q.data.length := by
  unfold encode
  simp only [List.length_append, bytes32_len]; omega

/-- The client on its own request. -/
theorem decode_echo {kind seq : UInt16} {b : List UInt8} (h : b.length = 8 + cfg.len) :
    decode cle cfg.len ⟨.ok, magicNative, kind, seq, b⟩ = .error .aborted := by
  unfold decode
  dsimp only
  rw [if_pos (.inl (by omega))]

end CustomMsg

namespace ClientComm

theorem decode_call {R : Type} (cfg : Server.Cfg R) {cle : Bool} {m : UInt16} (hp : Paired cle cfg.le magicNative m) (d : Server.Dev R)
    (x : Nat) {c : Call} {a : UInt16} {body : List UInt8} {n : Nat} (he : encode cle n c = .ok (a, body)) (seq : UInt16) (junk : List UInt8) :
    let q := Server.handleComm cfg d x ⟨m, a, seq, body ++ junk, body.length⟩
    (decode cle a ⟨.ok, magicNative, 0x0100 ||| a, seq, q.1.2⟩, q.2) = expected cfg d x c := by
  cases c with
  | init c =>
    injection he with he; injection he with h1 h2; subst h1; subst h2
    unfold Server.handleComm expected
    dsimp only
    rw [if_pos rfl]
    have hr : rd32 cfg.le m (bytes32 cle c ++ junk) 0 = c := by rw [bytes32_eq]; exact rd32_here hp.symm _
    rw [hr]
    have hsmall : decode cle 1 ⟨.ok, magicNative, 0x0100 ||| 1, seq, []⟩ = .err .aborted := by
      unfold decode
      dsimp only
      rw [if_neg (by decide), if_neg (by decide), if_pos rfl, if_pos (by decide)]
    by_cases h1 : c.toNat > 15
    · rw [if_pos h1, if_pos (.inl h1)]
      dsimp only
      rw [hsmall]
    · rw [if_neg h1]
      by_cases h2 : cfg.globalKeys = true ∧ c = 0
      · rw [if_pos h2, if_pos (.inr h2)]
        dsimp only
        rw [hsmall]
      · rw [if_neg h2, if_neg (fun h => h.elim h1 h2)]
        unfold decode
        dsimp only
        rw [if_neg (by decide), if_neg (by decide), if_pos rfl, if_neg (by rw [List.length_append, w32_length, w32_length]; decide),
          rd32_here hp, show (4 : Nat) = 0 + 4 from rfl, rd32_w32, rd32_last hp]
  | info =>
    injection he with he; injection he with h1 h2; subst h1; subst h2
    unfold Server.handleComm expected
    dsimp only
    rw [if_neg (by decide), if_pos rfl]
    have hl12 : cfg.info.toList.length = 12 := by simp
    have hl18 : cfg.version.toList.length = 18 := by simp
    have hf := Wire.flat32_length (b := cfg.le) (mb := m) cfg.info.toList
    have hlen : (over (cfg.info.toList.flatMap (w32 cfg.le m) ++ cfg.version.toList) ([] ++ junk) 72).length = 72 :=
      over_length (by rw [List.length_append, hf, hl12, hl18]; omega)
    unfold decode
    dsimp only
    rw [if_neg (by decide), if_neg (by decide), if_neg (by decide), if_pos rfl, if_neg (by rw [hlen]; decide)]
    unfold over
    generalize List.take _ _ = st
    rw [List.append_assoc]
    have hw : ((List.range 12).map fun i => rd32 cle magicNative (cfg.info.toList.flatMap (w32 cfg.le m) ++ (cfg.version.toList ++ st)) (4 * i)) =
        cfg.info.toList := by
      apply List.ext_getElem
      · rw [List.length_map, List.length_range, hl12]
      · intro i h1 h2
        rw [List.getElem_map, List.getElem_range]
        exact Wire.rd32_array hp _ i h2
    have h48 : (cfg.info.toList.flatMap (w32 cfg.le m)).length = 48 := by rw [hf, hl12]
    have ha : rdBytes (cfg.info.toList.flatMap (w32 cfg.le m) ++ (cfg.version.toList ++ st)) 48 9 = cfg.version.toList.take 9 := by
      unfold rdBytes
      rw [List.drop_left' h48, List.take_append_of_le_length (by omega)]
    have hb : rdBytes (cfg.info.toList.flatMap (w32 cfg.le m) ++ (cfg.version.toList ++ st)) 57 9 = cfg.version.toList.drop 9 := by
      unfold rdBytes
      rw [show (57 : Nat) = 48 + 9 from rfl, ← List.drop_drop, List.drop_left' h48, List.drop_append_of_le_length (by omega),
        List.take_left' (by rw [List.length_drop]; omega)]
    rw [hw, ha, hb]
  | close =>
    injection he with he; injection he with h1 h2; subst h1; subst h2
    unfold Server.handleComm expected
    dsimp only
    rw [if_neg (by decide), if_neg (by decide), if_pos rfl]
    unfold decode
    dsimp only
    rw [if_neg (by decide), if_neg (by decide), if_neg (by decide), if_neg (by decide), if_neg (by decide)]
  | echo data =>
    unfold encode at he
    dsimp only at he
    split at he
    · cases he
    · injection he with he; injection he with h1 h2; subst h1; subst h2
      unfold Server.handleComm expected decode Server.Req.data
      dsimp only
      rw [if_neg (by decide), if_pos rfl, if_neg (by decide), if_neg (by decide), if_neg (by decide), if_pos rfl]
      dsimp only
      rw [List.take_left' rfl]

theorem encode_fits {cle : Bool} {n : Nat} (hn : 4 ≤ n) {c : Call} {a : UInt16} {body : List UInt8} (he : encode cle n c = .ok (a, body)) :
    body.length ≤ n ∧ ((∃ v, a = 1 ∧ c = .init v) ∨ (a = 4 ∧ c = .info) ∨ (a = 3 ∧ c = .close) ∨ (a = 5 ∧ c = .echo body)) := by
  cases c with
  | init c => injection he with he; injection he with h1 h2; subst h1; subst h2; exact ⟨by rw [bytes32_len]; exact hn, .inl ⟨c, rfl, rfl⟩⟩
  | info => injection he with he; injection he with h1 h2; subst h1; subst h2; exact ⟨Nat.zero_le _, .inr (.inl ⟨rfl, rfl⟩)⟩
  | close => injection he with he; injection he with h1 h2; subst h1; subst h2; exact ⟨Nat.zero_le _, .inr (.inr (.inl ⟨rfl, rfl⟩))⟩
  | echo data =>
    unfold encode at he
    dsimp only at he
    split at he
    · cases he
    · injection he with he; injection he with h1 h2; subst h1; subst h2; exact ⟨by omega, .inr (.inr (.inr ⟨rfl, rfl⟩))⟩

end ClientComm

end WolfHsm

import Verif.Proofs.ClientHash
import Verif.Proofs.CryptoMsg

/-!
# Requests for hashing at the server, and its answers at the client
-/

namespace WolfHsm.ClientHash

open Wire Utils CryptoMsg Server

variable {cle sle : Bool} {m : UInt16}

/-! ## Reading back -/

theorem response_short {α : Type} {type : UInt32} {size : Nat} (hz : 0 < size) {r : List UInt8} (hr : r.length = 12) (k : Option α) :
    (response cle type size r k).1 ≠ 0 := by
  unfold response
  by_cases h1 : get32 cle r 0 ≠ type
  · rw [if_pos h1]; exact (by decide : Rc.aborted.code ≠ 0)
  · rw [if_neg h1]
    dsimp only
    by_cases h2 : get32 cle r 4 ≥ 0x80000000
    · rw [if_pos h2]
      intro h
      rw [show get32 cle r 4 = 0 from h] at h2
      exact absurd h2 (by decide)
    · rw [if_neg h2, if_pos (by omega)]
      exact (by decide : Rc.aborted.code ≠ 0)

theorem response_ok {α : Type} {type : UInt32} {size : Nat} {r : List UInt8} (h0 : get32 cle r 0 = type)
    (h1 : get32 cle r 4 = 0) (hl : 12 + size ≤ r.length) (a : α) : response cle type size r (some a) = (0, some a) := by
  unfold response
  rw [if_neg (fun h => h h0)]
  dsimp only
  rw [h1, if_neg (by decide), if_neg (by omega)]

theorem over_exact {f b : List UInt8} {n : Nat} (h : f.length = n) : over f b n = f := by
  unfold over; rw [h, Nat.sub_self, List.take_zero, List.append_nil]

/-- A response whose fields fill the structure. -/
theorem reply_exact {r : Req} {f : List UInt8} {n : Nat} (h : f.length = n) :
    reply sle r f n [] = header sle r .ok ++ f := by
  unfold reply
  rw [over_exact (by rw [List.length_append, header_length, h]), List.append_nil]

theorem hash64_take {h : List UInt8} {n : Nat} (hn : n ≤ h.length) (h64 : n ≤ 64) : (CryptoMsg.hash64 h).take n = h.take n := by
  unfold CryptoMsg.hash64
  rw [List.take_take, Nat.min_eq_left h64, List.take_append_of_le_length hn]

theorem rdBytes_front {f rest : List UInt8} {n : Nat} (h : n ≤ f.length) : rdBytes (f ++ rest) 0 n = f.take n := by
  unfold rdBytes; rw [List.drop_zero, List.take_append_of_le_length h]

theorem rd32_hash64 {a : Bool} {ma : UInt16} {h rest : List UInt8} {k : Nat} :
    rd32 a ma (CryptoMsg.hash64 h ++ rest) (k + 64) = rd32 a ma rest k := rd32_skip (hash64_length h)

/-! ## SHA-2 -/

/-- The server's request for a body the client made. -/
def seen (m action seq : UInt16) (body junk : List UInt8) : Req := ⟨m, action, seq, body ++ junk, body.length⟩

theorem sha2_request_length (v : Sha2) (last : Bool) (c : UInt32 × UInt32 × List UInt8) (hc : c.2.2.length = v.words) (inp : List UInt8) :
    ((v.proto cle).request last c inp).length = 12 + v.struct + inp.length := by
  unfold Sha2.words at hc
  unfold Sha2.proto Sha2.struct head put32
  cases hw : v.wide <;> rw [hw] at hc <;>
    simp [List.length_append, w32_length, hc] <;> omega

theorem sized_eq {α : Type} {r : Req} {n : Nat} {k : Except Rc α} (h : n ≤ inSize r) : sized r n k = k := by
  unfold sized; rw [if_neg (by omega)]

theorem fits_eq {α : Type} {p : Prop} [Decidable p] {k : Except Rc α} (h : p) : fits p k = k := if_pos h

theorem last_ne (last : Bool) : ((if last then (1 : UInt32) else 0) != 0) = last := by cases last <;> decide

theorem ofNat_len {n : Nat} (h : n < 4294967296) : (UInt32.ofNat n).toNat = n := by
  simp only [UInt32.toNat_ofNat']; omega

/-- What the server does with a SHA-2 request. -/
theorem serve2 {cfg : CryptoMsg.Cfg} {v : Sha2} {action : UInt16} {t : UInt32} (hs : v.Served cfg action t)
    (hp : Paired cfg.le cle m magicNative) {last : Bool} {c : UInt32 × UInt32 × List UInt8} (hc : c.2.2.length = v.words)
    {inp : List UInt8} (hi : inp.length < 4294967296)
    (hf : if last then inp.length < v.block else inp.length % v.block = 0) (sv : Keystore.Srv) (e : Env) (seq : UInt16) (junk : List UInt8) (s : Keystore.Sys) :
    (CryptoMsg.handle cfg sv e (seen m action seq ((v.proto cle).request last c inp) junk) s).1 =
      sha2 cfg (seen m action seq ((v.proto cle).request last c inp) junk) t last c.1 c.2.1 c.2.2 inp ∧
    rd32 cfg.le m (seen m action seq ((v.proto cle).request last c inp) junk).buf 0 = v.type := by
  obtain ⟨-, op, hsel, hop⟩ := hs
  have hlen := sha2_request_length (cle := cle) v last c hc inp
  have hhead : ∀ x, rd32 cfg.le m ((v.proto cle).request last c inp ++ junk) 0 = v.type ∧
      rd32 cfg.le m ((v.proto cle).request last c inp ++ junk) (4 + 0 * x) = 0 := by
    intro x
    constructor <;>
      simp only [Sha2.proto, head, put32, List.append_assoc, rd32_here hp, rd32_w32, Nat.zero_mul, Nat.add_zero]
  have hsz : inSize (seen m action seq ((v.proto cle).request last c inp) junk) = v.struct + inp.length := by
    show ((v.proto cle).request last c inp).length - 12 = _
    omega
  refine ⟨?_, (hhead 0).1⟩
  unfold CryptoMsg.handle
  rw [if_neg (by show ¬ ((v.proto cle).request last c inp).length < 12; omega)]
  have e1 : rd32 cfg.le (seen m action seq ((v.proto cle).request last c inp) junk).magic
      (seen m action seq ((v.proto cle).request last c inp) junk).buf 0 = v.type := (hhead 0).1
  have e2 : rd32 cfg.le (seen m action seq ((v.proto cle).request last c inp) junk).magic
      (seen m action seq ((v.proto cle).request last c inp) junk).buf 4 = 0 := (hhead 0).2
  rw [e1, e2]
  rw [show (seen m action seq ((v.proto cle).request last c inp) junk).action = action from rfl, hsel]
  dsimp only
  have hd : decode cfg.codes cfg.le e.coins (seen m action seq ((v.proto cle).request last c inp) junk) op =
      .ok (.sha2 t last c.1 c.2.1 c.2.2 inp) := by
    cases hw : v.wide with
    | false =>
      have hb : v.block = 64 := by unfold Sha2.block; rw [hw]; rfl
      have hst : v.struct = 48 := by unfold Sha2.struct; rw [hw]; rfl
      have hcw : c.2.2.length = 32 := by rw [hc]; unfold Sha2.words; rw [hw]; rfl
      cases op <;> try exact False.elim hop
      case sha384 u => rw [hw] at hop; exact absurd hop.1 (by decide)
      case sha512 => rw [hw] at hop; exact absurd hop.1 (by decide)
      case sha256 u =>
        obtain ⟨-, rfl⟩ := hop
        have hbuf : (seen m action seq ((v.proto cle).request last c inp) junk).buf =
            w32 cle magicNative v.type ++ (w32 cle magicNative 0 ++ (w32 cle magicNative v.affinity ++ (w32 cle magicNative c.1 ++
            (w32 cle magicNative c.2.1 ++ (c.2.2 ++ (w32 cle magicNative (if last then 1 else 0) ++ (w32 cle magicNative (UInt32.ofNat inp.length) ++
            (inp ++ junk)))))))) := by
          show (v.proto cle).request last c inp ++ junk = _
          simp only [Sha2.proto, head, put32, hw, List.append_assoc, Bool.false_eq_true, if_false, List.nil_append]
        unfold decode
        refine (sized_eq (by rw [hsz, hst]; omega)).trans ?_
        rw [hsz, hst]
        simp only [u32, len, str, hbuf]
        generalize hM : (seen m action seq ((v.proto cle).request last c inp) junk).magic = M
        have : M = m := hM.symm
        subst this
        have k1 : ∀ (rest : List UInt8) (k : Nat), rd32 cfg.le M (c.2.2 ++ rest) (k + 32) = rd32 cfg.le M rest k := fun _ _ => rd32_skip hcw
        have k2 : ∀ (rest : List UInt8) (k l : Nat), rdBytes (c.2.2 ++ rest) (k + 32) l = rdBytes rest k l := fun _ _ _ => rdBytes_skip hcw
        simp only [rd32_here hp, rd32_w32, rdBytes_w32, rdBytes_here hcw, k1, k2, ofNat_len hi, rdBytes_here, last_ne]
        rw [fits_eq ⟨by omega, by rw [← hb]; exact hf⟩]
    | true =>
      have hb : v.block = 128 := by unfold Sha2.block; rw [hw]; rfl
      have hst : v.struct = 84 := by unfold Sha2.struct; rw [hw]; rfl
      have hcw : c.2.2.length = 64 := by rw [hc]; unfold Sha2.words; rw [hw]; rfl
      have hbuf : (seen m action seq ((v.proto cle).request last c inp) junk).buf =
          w32 cle magicNative v.type ++ (w32 cle magicNative 0 ++ (w32 cle magicNative v.affinity ++ (w32 cle magicNative c.1 ++
          (w32 cle magicNative c.2.1 ++ (c.2.2 ++ (w32 cle magicNative v.variant ++ (w32 cle magicNative (if last then 1 else 0) ++
          (w32 cle magicNative (UInt32.ofNat inp.length) ++ (inp ++ junk))))))))) := by
        show (v.proto cle).request last c inp ++ junk = _
        simp only [Sha2.proto, head, put32, hw, List.append_assoc, if_true]
      have k1 : ∀ (rest : List UInt8) (k : Nat), rd32 cfg.le m (c.2.2 ++ rest) (k + 64) = rd32 cfg.le m rest k := fun _ _ => rd32_skip hcw
      have k2 : ∀ (rest : List UInt8) (k l : Nat), rdBytes (c.2.2 ++ rest) (k + 64) l = rdBytes rest k l := fun _ _ _ => rdBytes_skip hcw
      generalize hM : (seen m action seq ((v.proto cle).request last c inp) junk).magic = M
      have hMm : M = m := hM.symm
      cases op <;> try exact False.elim hop
      case sha256 u => rw [hw] at hop; exact absurd hop.1 (by decide)
      case sha384 u =>
        obtain ⟨-, rfl⟩ := hop
        unfold decode
        refine (sized_eq (by rw [hsz, hst]; omega)).trans ?_
        rw [hsz, hst]
        simp only [u32, len, str, hbuf, hM, hMm]
        simp only [rd32_here hp, rd32_w32, rdBytes_w32, rdBytes_here hcw, k1, k2, ofNat_len hi, rdBytes_here, last_ne]
        rw [fits_eq ⟨by omega, by rw [← hb]; exact hf⟩]
      case sha512 =>
        obtain ⟨-, hu⟩ := hop
        unfold decode
        refine (sized_eq (by rw [hsz, hst]; omega)).trans ?_
        rw [hsz, hst]
        simp only [u32, len, str, hbuf, hM, hMm]
        simp only [rd32_here hp, rd32_w32, rdBytes_w32, rdBytes_here hcw, k1, k2, ofNat_len hi, rdBytes_here, last_ne, hu]
        rw [fits_eq ⟨by omega, by rw [← hb]; exact hf⟩]
  rw [hd]

/-- The client's reading of a SHA-2 response. -/
theorem read2 {v : Sha2} (hp : Paired cle sle magicNative m) {r : Req} (hm : r.magic = m) {t : UInt32}
    (h0 : rd32 sle m r.buf 0 = v.type) (ht : v.accepts t = true) (hi lo : UInt32) (h : List UInt8) :
    (v.words ≤ h.length → h.length ≤ 64 →
      (v.proto cle).chain (reply sle r (w32 sle r.magic hi ++ w32 sle r.magic lo ++ CryptoMsg.hash64 h ++ w32 sle r.magic t) 76 []) =
        (0, some (hi, lo, h.take v.words))) ∧
    (v.size ≤ h.length → h.length ≤ 64 →
      (v.proto cle).digest (reply sle r (w32 sle r.magic hi ++ w32 sle r.magic lo ++ CryptoMsg.hash64 h ++ w32 sle r.magic t) 76 []) =
        (0, some (h.take v.size))) := by
  subst hm
  have hl : (w32 sle r.magic hi ++ w32 sle r.magic lo ++ CryptoMsg.hash64 h ++ w32 sle r.magic t).length = 76 := by
    simp only [List.length_append, w32_length, hash64_length]
  rw [reply_exact hl]
  have g0 : get32 cle (header sle r .ok ++ (w32 sle r.magic hi ++ w32 sle r.magic lo ++ CryptoMsg.hash64 h ++ w32 sle r.magic t)) 0 = v.type := by
    simp only [get32, header, h0, List.append_assoc, rd32_here hp]
  have g1 : get32 cle (header sle r .ok ++ (w32 sle r.magic hi ++ w32 sle r.magic lo ++ CryptoMsg.hash64 h ++ w32 sle r.magic t)) 4 = 0 := by
    simp only [get32, header, List.append_assoc, rd32_here hp, rd32_w32, Rc.code]
  have g2 : get32 cle (header sle r .ok ++ (w32 sle r.magic hi ++ w32 sle r.magic lo ++ CryptoMsg.hash64 h ++ w32 sle r.magic t)) 84 = t := by
    simp only [get32, header, List.append_assoc, rd32_w32, rd32_hash64, rd32_last hp]
  have g3 : get32 cle (header sle r .ok ++ (w32 sle r.magic hi ++ w32 sle r.magic lo ++ CryptoMsg.hash64 h ++ w32 sle r.magic t)) 12 = hi := by
    simp only [get32, header, List.append_assoc, rd32_w32, rd32_here hp]
  have g4 : get32 cle (header sle r .ok ++ (w32 sle r.magic hi ++ w32 sle r.magic lo ++ CryptoMsg.hash64 h ++ w32 sle r.magic t)) 16 = lo := by
    simp only [get32, header, List.append_assoc, rd32_w32, rd32_here hp]
  have g5 : ∀ n, n ≤ h.length → n ≤ 64 →
      rdBytes (header sle r .ok ++ (w32 sle r.magic hi ++ w32 sle r.magic lo ++ CryptoMsg.hash64 h ++ w32 sle r.magic t)) 20 n = h.take n := by
    intro n h1 h2
    simp only [header, List.append_assoc, rdBytes_w32]
    rw [rdBytes_front (by rw [hash64_length]; exact h2), hash64_take h1 h2]
  have hlen : 12 + 76 ≤ (header sle r .ok ++ (w32 sle r.magic hi ++ w32 sle r.magic lo ++ CryptoMsg.hash64 h ++ w32 sle r.magic t)).length := by
    rw [List.length_append, header_length, hl]
  refine ⟨fun h1 h2 => ?_, fun h1 h2 => ?_⟩
  · unfold Sha2.proto
    dsimp only
    rw [g2, if_pos ht, response_ok g0 g1 hlen, g3, g4, g5 _ h1 (by omega)]
  · unfold Sha2.proto
    dsimp only
    rw [g2, if_pos ht, response_ok g0 g1 hlen, g5 _ h1 (by omega)]

/-- The client's reading of the server's answers. -/
theorem answer2 {cfg : CryptoMsg.Cfg} {v : Sha2} (hp : Paired cle cfg.le magicNative m) {r : Req} (hm : r.magic = m) {t : UInt32}
    (h0 : rd32 cfg.le m r.buf 0 = v.type) (ht : v.accepts t = true) (c : UInt32 × UInt32 × List UInt8) (b : List UInt8) :
    (∀ c', cfg.hashes.update t c.1 c.2.1 c.2.2 b = .ok c' → c'.2.2.length = v.words →
      (v.proto cle).chain (sha2 cfg r t false c.1 c.2.1 c.2.2 b) = (0, some c')) ∧
    (∀ rc, cfg.hashes.update t c.1 c.2.1 c.2.2 b = .error rc → ((v.proto cle).chain (sha2 cfg r t false c.1 c.2.1 c.2.2 b)).1 ≠ 0) ∧
    (∀ d, cfg.hashes.final t c.1 c.2.1 c.2.2 b = .ok d → v.size ≤ d.length → d.length ≤ 64 →
      (v.proto cle).digest (sha2 cfg r t true c.1 c.2.1 c.2.2 b) = (0, some (d.take v.size))) ∧
    (∀ rc, cfg.hashes.final t c.1 c.2.1 c.2.2 b = .error rc → ((v.proto cle).digest (sha2 cfg r t true c.1 c.2.1 c.2.2 b)).1 ≠ 0) := by
  unfold sha2
  rw [if_neg (by decide), if_pos rfl]
  refine ⟨fun c' h hw => ?_, fun rc h => ?_, fun d h h1 h2 => ?_, fun rc h => ?_⟩
  · rw [h]
    have h64 : v.words ≤ 64 := by unfold Sha2.words; split <;> decide
    refine ((read2 hp hm h0 ht _ _ _).1 (Nat.le_of_eq hw.symm) (by rw [hw]; exact h64)).trans ?_
    rw [← hw, List.take_length]
  · rw [h]; exact response_short (by decide) (header_length ..) _
  · rw [h]; exact (read2 hp hm h0 ht _ _ _).2 h1 h2
  · rw [h]; exact response_short (by decide) (header_length ..) _

/-! ## SHA-3 -/

theorem flat64_len (le : Bool) (mm : UInt16) (l : List UInt64) : (l.flatMap (w64 le mm)).length = 8 * l.length := flat64_length le mm l

theorem rd64_array {a b : Bool} {ma mb : UInt16} (h : Paired a b ma mb) {post : List UInt8} : ∀ (l : List UInt64) (i : Nat) (hi : i < l.length),
    rd64 a ma (l.flatMap (w64 b mb) ++ post) (8 * i) = l[i]
  | v :: l, 0, _ => by
    rw [List.flatMap_cons, List.append_assoc]; exact rd64_here h v
  | v :: l, i + 1, hi => by
    rw [List.flatMap_cons, List.append_assoc, Nat.mul_add, Nat.mul_one, rd64_w64]
    exact rd64_array h l i (Nat.lt_of_succ_lt_succ hi)

/-- Reading an array of 64-bit fields. -/
theorem rd64_all {a b : Bool} {ma mb : UInt16} (h : Paired a b ma mb) {pre post : List UInt8} {off : Nat} (hpre : pre.length = off) {l : List UInt64}
    {n : Nat} (hl : l.length = n) : (List.range n).map (fun i => rd64 a ma (pre ++ (l.flatMap (w64 b mb) ++ post)) (off + 8 * i)) = l := by
  apply List.ext_getElem
  · rw [List.length_map, List.length_range, hl]
  · intro i h1 h2
    rw [List.getElem_map, List.getElem_range, Nat.add_comm, rd64_skip hpre]
    exact rd64_array h l i h2

theorem sha3_request_length (v : Sha3) (last : Bool) (c : List UInt64) (hc : c.length = 25) (inp : List UInt8) :
    ((v.proto cle).request last c inp).length = 12 + 208 + inp.length := by
  unfold Sha3.proto head put32
  simp only [List.length_append, w32_length, flat64_len, hc]

/-- What the server does with a SHA-3 request. -/
theorem serve3 {cfg : CryptoMsg.Cfg} {v : Sha3} {action : UInt16} (hs : cfg.codes.select action v.type 0 = .ok (.sha3 v.block))
    (hp : Paired cfg.le cle m magicNative) {last : Bool} {c : List UInt64} (hc : c.length = 25)
    {inp : List UInt8} (hi : inp.length < 4294967296)
    (hf : if last then inp.length < v.block else inp.length % v.block = 0) (sv : Keystore.Srv) (e : Env) (seq : UInt16) (junk : List UInt8) (s : Keystore.Sys) :
    (CryptoMsg.handle cfg sv e (seen m action seq ((v.proto cle).request last c inp) junk) s).1 =
      sha3 cfg (seen m action seq ((v.proto cle).request last c inp) junk) v.block last c inp ∧
    rd32 cfg.le m (seen m action seq ((v.proto cle).request last c inp) junk).buf 0 = v.type := by
  have hlen := sha3_request_length (cle := cle) v last c hc inp
  have hsz : inSize (seen m action seq ((v.proto cle).request last c inp) junk) = 208 + inp.length := by
    show ((v.proto cle).request last c inp).length - 12 = _
    omega
  have hbuf : (seen m action seq ((v.proto cle).request last c inp) junk).buf =
      w32 cle magicNative v.type ++ (w32 cle magicNative 0 ++ (w32 cle magicNative v.affinity ++
      (w32 cle magicNative (if last then 1 else 0) ++ (w32 cle magicNative (UInt32.ofNat inp.length) ++
      (c.flatMap (w64 cle magicNative) ++ (inp ++ junk)))))) := by
    show (v.proto cle).request last c inp ++ junk = _
    simp only [Sha3.proto, head, put32, List.append_assoc]
  have hbuf2 : (seen m action seq ((v.proto cle).request last c inp) junk).buf =
      (w32 cle magicNative v.type ++ (w32 cle magicNative 0 ++ (w32 cle magicNative v.affinity ++
      (w32 cle magicNative (if last then 1 else 0) ++ w32 cle magicNative (UInt32.ofNat inp.length))))) ++
      (c.flatMap (w64 cle magicNative) ++ (inp ++ junk)) := by
    rw [hbuf]; simp only [List.append_assoc]
  have e0 : rd32 cfg.le m (seen m action seq ((v.proto cle).request last c inp) junk).buf 0 = v.type := by
    rw [hbuf, rd32_here hp]
  have e4 : rd32 cfg.le m (seen m action seq ((v.proto cle).request last c inp) junk).buf 4 = 0 := by
    rw [hbuf]; simp only [rd32_w32, rd32_here hp]
  have est : (List.range 25).map (fun i => rd64 cfg.le m (seen m action seq ((v.proto cle).request last c inp) junk).buf (20 + 8 * i)) = c := by
    rw [hbuf2]
    exact rd64_all hp (by simp only [List.length_append, w32_length]) hc
  have hfl : (c.flatMap (w64 cle magicNative)).length = 200 := by rw [flat64_len, hc]
  have ein : rdBytes (seen m action seq ((v.proto cle).request last c inp) junk).buf 220 inp.length = inp := by
    rw [hbuf]
    have k2 : ∀ (rest : List UInt8) (k l : Nat), rdBytes (c.flatMap (w64 cle magicNative) ++ rest) (k + 200) l = rdBytes rest k l := fun _ _ _ => rdBytes_skip hfl
    simp only [rdBytes_w32, k2, rdBytes_here]
  refine ⟨?_, e0⟩
  unfold CryptoMsg.handle
  rw [if_neg (by show ¬ ((v.proto cle).request last c inp).length < 12; omega)]
  have hM : (seen m action seq ((v.proto cle).request last c inp) junk).magic = m := rfl
  rw [hM, e0, e4, show (seen m action seq ((v.proto cle).request last c inp) junk).action = action from rfl, hs]
  dsimp only
  have hd : decode cfg.codes cfg.le e.coins (seen m action seq ((v.proto cle).request last c inp) junk) (.sha3 v.block) =
      .ok (.sha3 v.block last c inp) := by
    unfold decode
    refine (sized_eq (by rw [hsz]; omega)).trans ?_
    rw [hsz]
    have u0 : u32 cfg.le (seen m action seq ((v.proto cle).request last c inp) junk) 0 = if last then 1 else 0 := by
      unfold u32; rw [hM, hbuf]; simp only [rd32_w32, rd32_here hp]
    have u1 : len cfg.le (seen m action seq ((v.proto cle).request last c inp) junk) 1 = inp.length := by
      unfold len u32; rw [hM, hbuf]; simp only [rd32_w32, rd32_here hp, ofNat_len hi]
    dsimp only
    rw [u0, u1, last_ne, fits_eq ⟨by omega, hf⟩, hM, est]
    unfold str
    rw [ein]
  rw [hd]

/-- The client's reading of a SHA-3 response. -/
theorem read3 {v : Sha3} (hp : Paired cle sle magicNative m) {r : Req} (hm : r.magic = m)
    (h0 : rd32 sle m r.buf 0 = v.type) (st : List UInt64) (h : List UInt8) :
    (st.length = 25 →
      (v.proto cle).chain (reply sle r (((st ++ List.replicate 25 0).take 25).flatMap (w64 sle r.magic) ++ CryptoMsg.hash64 h) 264 []) =
        (0, some st)) ∧
    (v.size ≤ h.length → h.length ≤ 64 →
      (v.proto cle).digest (reply sle r (((st ++ List.replicate 25 0).take 25).flatMap (w64 sle r.magic) ++ CryptoMsg.hash64 h) 264 []) =
        (0, some (h.take v.size))) := by
  subst hm
  generalize hS : (st ++ List.replicate 25 0).take 25 = S
  have hSl : S.length = 25 := by
    rw [← hS, List.length_take, List.length_append, List.length_replicate]; omega
  have hfl : (S.flatMap (w64 sle r.magic)).length = 200 := by rw [flat64_len, hSl]
  have hl : (S.flatMap (w64 sle r.magic) ++ CryptoMsg.hash64 h).length = 264 := by
    rw [List.length_append, hfl, hash64_length]
  rw [reply_exact hl]
  have g0 : get32 cle (header sle r .ok ++ (S.flatMap (w64 sle r.magic) ++ CryptoMsg.hash64 h)) 0 = v.type := by
    simp only [get32, header, h0, List.append_assoc, rd32_here hp]
  have g1 : get32 cle (header sle r .ok ++ (S.flatMap (w64 sle r.magic) ++ CryptoMsg.hash64 h)) 4 = 0 := by
    simp only [get32, header, List.append_assoc, rd32_here hp, rd32_w32, Rc.code]
  have hlen : 12 + 264 ≤ (header sle r .ok ++ (S.flatMap (w64 sle r.magic) ++ CryptoMsg.hash64 h)).length := by
    rw [List.length_append, header_length, hl]
  refine ⟨fun h1 => ?_, fun h1 h2 => ?_⟩
  · unfold Sha3.proto
    dsimp only
    rw [response_ok g0 g1 hlen, rd64_all hp (header_length ..) hSl]
    rw [← hS, List.take_left' h1]
  · unfold Sha3.proto
    dsimp only
    rw [response_ok g0 g1 hlen]
    have k2 : ∀ (rest : List UInt8) (k l : Nat), rdBytes (S.flatMap (w64 sle r.magic) ++ rest) (k + 200) l = rdBytes rest k l := fun _ _ _ => rdBytes_skip hfl
    simp only [header, List.append_assoc, rdBytes_w32, k2]
    rw [show CryptoMsg.hash64 h = CryptoMsg.hash64 h ++ [] from (List.append_nil _).symm, rdBytes_front (by rw [hash64_length]; omega), hash64_take h1 (by omega)]

/-- The client's reading of the server's answers. -/
theorem answer3 {cfg : CryptoMsg.Cfg} {v : Sha3} (hp : Paired cle cfg.le magicNative m) {r : Req} (hm : r.magic = m)
    (h0 : rd32 cfg.le m r.buf 0 = v.type) (c : List UInt64) (b : List UInt8) :
    (∀ c', cfg.hashes.update3 v.block c b = .ok c' → c'.length = 25 →
      (v.proto cle).chain (sha3 cfg r v.block false c b) = (0, some c')) ∧
    (∀ rc, cfg.hashes.update3 v.block c b = .error rc → ((v.proto cle).chain (sha3 cfg r v.block false c b)).1 ≠ 0) ∧
    (∀ d, cfg.hashes.final3 v.block c b = .ok d → v.size ≤ d.length → d.length ≤ 64 →
      (v.proto cle).digest (sha3 cfg r v.block true c b) = (0, some (d.take v.size))) ∧
    (∀ rc, cfg.hashes.final3 v.block c b = .error rc → ((v.proto cle).digest (sha3 cfg r v.block true c b)).1 ≠ 0) := by
  unfold sha3
  rw [if_neg (by decide), if_pos rfl]
  refine ⟨fun c' h hw => ?_, fun rc h => ?_, fun d h h1 h2 => ?_, fun rc h => ?_⟩
  · rw [h]; exact (read3 hp hm h0 _ _).1 hw
  · rw [h]; exact response_short (by decide) (header_length ..) _
  · rw [h]; exact (read3 hp hm h0 _ _).2 h1 h2
  · rw [h]; exact response_short (by decide) (header_length ..) _

/-! ## The server as a peer -/

theorem sane2 {v : Sha2} (hd : 12 + v.struct + v.block ≤ v.dataLen) : Sane (v.proto cle) where
  block := by show 0 < v.block; unfold Sha2.block; split <;> decide
  whole := Nat.mul_mod_left ..
  room := by
    show v.block ≤ (v.dataLen - 12 - v.struct) / v.block * v.block
    have hb : 0 < v.block := by unfold Sha2.block; split <;> decide
    have : 1 ≤ (v.dataLen - 12 - v.struct) / v.block := (Nat.le_div_iff_mul_le hb).2 (by omega)
    calc v.block = 1 * v.block := (Nat.one_mul _).symm
      _ ≤ _ := Nat.mul_le_mul_right _ this

theorem sane3 {v : Sha3} (hb : 0 < v.block) (hd : 12 + 208 + v.block ≤ v.dataLen) : Sane (v.proto cle) where
  block := hb
  whole := Nat.mul_mod_left ..
  room := by
    show v.block ≤ (v.dataLen - 12 - 208) / v.block * v.block
    have : 1 ≤ (v.dataLen - 12 - 208) / v.block := (Nat.le_div_iff_mul_le hb).2 (by omega)
    calc v.block = 1 * v.block := (Nat.one_mul _).symm
      _ ≤ _ := Nat.mul_le_mul_right _ this

/-- The peer's reply, from what the server answers. -/
theorem peer_cases {cfg : CryptoMsg.Cfg} {action : UInt16} {peer : Nat → List UInt8 → Reply} (h : Peer cfg cle action peer)
    {k : Nat} {body : List UInt8} {Q : List UInt8 → Prop}
    (hq : ∀ sv e s seq junk, Q (CryptoMsg.handle cfg sv e
      (seen (if cfg.le = cle then magicNative else magicSwap) action seq body junk) s).1) :
    match peer k body with
    | .unsent rc => rc ≠ 0
    | .lost rc => rc ≠ 0
    | .got r => Q r := by
  rcases h k body with ⟨rc, h0, h1 | h1⟩ | ⟨sv, e, s, seq, junk, h1⟩
  · rw [h1]; exact h0
  · rw [h1]; exact h0
  · rw [h1]; exact hq sv e s seq junk

theorem div_mul_le {a b : Nat} : a / b * b ≤ a := Nat.div_mul_le_self a b

theorem keeps2 {cfg : CryptoMsg.Cfg} {v : Sha2} {action : UInt16} {t : UInt32} {peer : Nat → List UInt8 → Reply} {M : Md}
    (hd : 12 + v.struct + v.block ≤ v.dataLen) (h32 : v.dataLen < 4294967296) (hs : v.Served cfg action t) (hpeer : Peer cfg cle action peer)
    (hle : cfg.le = cle) (hM : M.Runs cfg.hashes cfg.le t v.block v.words v.size) (hiv : v.iv = M.state cle []) :
    Keeps (v.proto cle) peer (M.state cle) M.digest where
  init := hiv
  update := by
    intro k ms b h1 h2 h3
    have h3' : b.length ≤ (v.dataLen - 12 - v.struct) / v.block * v.block := h3
    have hdm := div_mul_le (a := v.dataLen - 12 - v.struct) (b := v.block)
    have hw : (M.state cle ms).2.2.length = v.words := by rw [← hle]; exact hM.width ms
    refine peer_cases (Q := fun r => (v.proto cle).chain r = (0, some (M.state cle (ms ++ b))) ∨ ((v.proto cle).chain r).1 ≠ 0) hpeer ?_
    intro sv e s seq junk
    have hp := paired_server cle cfg.le (m := if cfg.le = cle then magicNative else magicSwap) rfl
    obtain ⟨e1, e2⟩ := serve2 hs hp.symm (last := false) hw (inp := b) (by omega) h2 sv e seq junk s
    rw [e1]
    have e3 := (answer2 hp (rfl : (seen (if cfg.le = cle then magicNative else magicSwap) action seq ((v.proto cle).request false (M.state cle ms) b) junk).magic = _) e2 hs.1 (M.state cle ms) b)
    have hu := hM.update ms b h1 h2
    rw [hle] at hu
    rcases hu with hu | ⟨rc, hu⟩
    · exact Or.inl (e3.1 _ hu (by rw [← hle]; exact hM.width _))
    · exact Or.inr (e3.2.1 _ hu)
  final := by
    intro k ms b h1 h2
    have h2' : b.length < v.block := h2
    have hw : (M.state cle ms).2.2.length = v.words := by rw [← hle]; exact hM.width ms
    refine peer_cases (Q := fun r => (v.proto cle).digest r = (0, some (M.digest (ms ++ b))) ∨ ((v.proto cle).digest r).1 ≠ 0) hpeer ?_
    intro sv e s seq junk
    have hp := paired_server cle cfg.le (m := if cfg.le = cle then magicNative else magicSwap) rfl
    obtain ⟨e1, e2⟩ := serve2 hs hp.symm (last := true) hw (inp := b) (by omega) h2 sv e seq junk s
    rw [e1]
    have e3 := (answer2 hp (rfl : (seen (if cfg.le = cle then magicNative else magicSwap) action seq ((v.proto cle).request true (M.state cle ms) b) junk).magic = _) e2 hs.1 (M.state cle ms) b)
    have hu := hM.final ms b h1 h2
    rw [hle] at hu
    rcases hu with ⟨d, hu, d1, d2, d3⟩ | ⟨rc, hu⟩
    · left
      rw [e3.2.2.1 _ hu d1 d2, d3]
    · exact Or.inr (e3.2.2.2 _ hu)

theorem keeps3 {cfg : CryptoMsg.Cfg} {v : Sha3} {action : UInt16} {peer : Nat → List UInt8 → Reply} {K : Sponge}
    (hd : 12 + 208 + v.block ≤ v.dataLen) (h32 : v.dataLen < 4294967296)
    (hs : cfg.codes.select action v.type 0 = .ok (.sha3 v.block)) (hpeer : Peer cfg cle action peer)
    (hK : K.Runs cfg.hashes v.block v.size) : Keeps (v.proto cle) peer K.state K.digest where
  init := hK.blank.symm
  update := by
    intro k ms b h1 h2 h3
    have h3' : b.length ≤ (v.dataLen - 12 - 208) / v.block * v.block := h3
    have hdm := div_mul_le (a := v.dataLen - 12 - 208) (b := v.block)
    refine peer_cases (Q := fun r => (v.proto cle).chain r = (0, some (K.state (ms ++ b))) ∨ ((v.proto cle).chain r).1 ≠ 0) hpeer ?_
    intro sv e s seq junk
    have hp := paired_server cle cfg.le (m := if cfg.le = cle then magicNative else magicSwap) rfl
    obtain ⟨e1, e2⟩ := serve3 hs hp.symm (last := false) (hK.width ms) (inp := b) (by omega) h2 sv e seq junk s
    rw [e1]
    have e3 := (answer3 hp (rfl : (seen (if cfg.le = cle then magicNative else magicSwap) action seq ((v.proto cle).request false (K.state ms) b) junk).magic = _) e2 (K.state ms) b)
    rcases hK.update ms b h1 h2 with hu | ⟨rc, hu⟩
    · exact Or.inl (e3.1 _ hu (hK.width _))
    · exact Or.inr (e3.2.1 _ hu)
  final := by
    intro k ms b h1 h2
    have h2' : b.length < v.block := h2
    refine peer_cases (Q := fun r => (v.proto cle).digest r = (0, some (K.digest (ms ++ b))) ∨ ((v.proto cle).digest r).1 ≠ 0) hpeer ?_
    intro sv e s seq junk
    have hp := paired_server cle cfg.le (m := if cfg.le = cle then magicNative else magicSwap) rfl
    obtain ⟨e1, e2⟩ := serve3 hs hp.symm (last := true) (hK.width ms) (inp := b) (by omega) h2 sv e seq junk s
    rw [e1]
    have e3 := (answer3 hp (rfl : (seen (if cfg.le = cle then magicNative else magicSwap) action seq ((v.proto cle).request true (K.state ms) b) junk).magic = _) e2 (K.state ms) b)
    rcases hK.final ms b h1 h2 with ⟨d, hu, d1, d2, d3⟩ | ⟨rc, hu⟩
    · left
      rw [e3.2.2.1 _ hu d1 d2, d3]
    · exact Or.inr (e3.2.2.2 _ hu)

/-! ## Progress -/

/-- The reply of a peer that answers. -/
theorem peer_got {cfg : CryptoMsg.Cfg} {action : UInt16} {peer : Nat → List UInt8 → Reply} (h : Peer cfg cle action peer) {dataLen : Nat}
    (ha : Answers dataLen peer) {k : Nat} {body : List UInt8} (hb : body.length ≤ dataLen) : ∃ sv e s seq junk,
      peer k body = .got (CryptoMsg.handle cfg sv e
        (seen (if cfg.le = cle then magicNative else magicSwap) action seq body junk) s).1 := by
  obtain ⟨r, hr⟩ := ha k body hb
  rcases h k body with ⟨rc, h0, h1 | h1⟩ | h1
  · rw [hr] at h1; cases h1
  · rw [hr] at h1; cases h1
  · exact h1

theorem lively2 {cfg : CryptoMsg.Cfg} {v : Sha2} {action : UInt16} {t : UInt32} {peer : Nat → List UInt8 → Reply} {M : Md}
    (hd : 12 + v.struct + v.block ≤ v.dataLen) (h32 : v.dataLen < 4294967296) (hs : v.Served cfg action t) (hpeer : Peer cfg cle action peer)
    (hle : cfg.le = cle) (hM : M.Runs cfg.hashes cfg.le t v.block v.words v.size) (ha : Answers v.dataLen peer) (hn : Steady cfg.hashes) :
    Lively (v.proto cle) peer (M.state cle) := by
  have hp := paired_server cle cfg.le (m := if cfg.le = cle then magicNative else magicSwap) rfl
  refine ⟨fun k ms b h1 h2 h3 => ?_, fun k ms b h1 h2 => ?_⟩
  · have h3' : b.length ≤ (v.dataLen - 12 - v.struct) / v.block * v.block := h3
    have hdm := div_mul_le (a := v.dataLen - 12 - v.struct) (b := v.block)
    have hw : (M.state cle ms).2.2.length = v.words := by rw [← hle]; exact hM.width ms
    obtain ⟨sv, e, s, seq, junk, hr⟩ := peer_got hpeer ha (k := k) (body := (v.proto cle).request false (M.state cle ms) b)
      (by rw [sha2_request_length v _ _ hw]; omega)
    refine ⟨_, hr, ?_⟩
    obtain ⟨e1, e2⟩ := serve2 hs hp.symm (last := false) hw (inp := b) (by omega) h2 sv e seq junk s
    rw [e1]
    have e3 := (answer2 hp (rfl : (seen (if cfg.le = cle then magicNative else magicSwap) action seq ((v.proto cle).request false (M.state cle ms) b) junk).magic = _) e2 hs.1 (M.state cle ms) b)
    have hu := hM.update ms b h1 h2
    rw [hle] at hu
    rcases hu with hu | ⟨rc, hu⟩
    · rw [e3.1 _ hu (by rw [← hle]; exact hM.width _)]
    · exact absurd hu (hn.update _ _ _ _ _ _)
  · have h2' : b.length < v.block := h2
    have hw : (M.state cle ms).2.2.length = v.words := by rw [← hle]; exact hM.width ms
    obtain ⟨sv, e, s, seq, junk, hr⟩ := peer_got hpeer ha (k := k) (body := (v.proto cle).request true (M.state cle ms) b)
      (by rw [sha2_request_length v _ _ hw]; omega)
    refine ⟨_, hr, ?_⟩
    obtain ⟨e1, e2⟩ := serve2 hs hp.symm (last := true) hw (inp := b) (by omega) h2 sv e seq junk s
    rw [e1]
    have e3 := (answer2 hp (rfl : (seen (if cfg.le = cle then magicNative else magicSwap) action seq ((v.proto cle).request true (M.state cle ms) b) junk).magic = _) e2 hs.1 (M.state cle ms) b)
    have hu := hM.final ms b h1 h2
    rw [hle] at hu
    rcases hu with ⟨d, hu, d1, d2, d3⟩ | ⟨rc, hu⟩
    · rw [e3.2.2.1 _ hu d1 d2]
    · exact absurd hu (hn.final _ _ _ _ _ _)

theorem lively3 {cfg : CryptoMsg.Cfg} {v : Sha3} {action : UInt16} {peer : Nat → List UInt8 → Reply} {K : Sponge}
    (hd : 12 + 208 + v.block ≤ v.dataLen) (h32 : v.dataLen < 4294967296)
    (hs : cfg.codes.select action v.type 0 = .ok (.sha3 v.block)) (hpeer : Peer cfg cle action peer)
    (hK : K.Runs cfg.hashes v.block v.size) (ha : Answers v.dataLen peer) (hn : Steady cfg.hashes) :
    Lively (v.proto cle) peer K.state := by
  have hp := paired_server cle cfg.le (m := if cfg.le = cle then magicNative else magicSwap) rfl
  refine ⟨fun k ms b h1 h2 h3 => ?_, fun k ms b h1 h2 => ?_⟩
  · have h3' : b.length ≤ (v.dataLen - 12 - 208) / v.block * v.block := h3
    have hdm := div_mul_le (a := v.dataLen - 12 - 208) (b := v.block)
    obtain ⟨sv, e, s, seq, junk, hr⟩ := peer_got hpeer ha (k := k) (body := (v.proto cle).request false (K.state ms) b)
      (by rw [sha3_request_length v _ _ (hK.width ms)]; omega)
    refine ⟨_, hr, ?_⟩
    obtain ⟨e1, e2⟩ := serve3 hs hp.symm (last := false) (hK.width ms) (inp := b) (by omega) h2 sv e seq junk s
    rw [e1]
    have e3 := (answer3 hp (rfl : (seen (if cfg.le = cle then magicNative else magicSwap) action seq ((v.proto cle).request false (K.state ms) b) junk).magic = _) e2 (K.state ms) b)
    rcases hK.update ms b h1 h2 with hu | ⟨rc, hu⟩
    · rw [e3.1 _ hu (hK.width _)]
    · exact absurd hu (hn.update3 _ _ _ _)
  · have h2' : b.length < v.block := h2
    obtain ⟨sv, e, s, seq, junk, hr⟩ := peer_got hpeer ha (k := k) (body := (v.proto cle).request true (K.state ms) b)
      (by rw [sha3_request_length v _ _ (hK.width ms)]; omega)
    refine ⟨_, hr, ?_⟩
    obtain ⟨e1, e2⟩ := serve3 hs hp.symm (last := true) (hK.width ms) (inp := b) (by omega) h2 sv e seq junk s
    rw [e1]
    have e3 := (answer3 hp (rfl : (seen (if cfg.le = cle then magicNative else magicSwap) action seq ((v.proto cle).request true (K.state ms) b) junk).magic = _) e2 (K.state ms) b)
    rcases hK.final ms b h1 h2 with ⟨d, hu, d1, d2, d3⟩ | ⟨rc, hu⟩
    · rw [e3.2.2.1 _ hu d1 d2]
    · exact absurd hu (hn.final3 _ _ _ _)

end WolfHsm.ClientHash

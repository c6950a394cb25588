import Verif.Proofs.ClientHashDma

/-!
# DMA requests for hashing at the server, and its answers at the client
-/

namespace WolfHsm.ClientHash

open Wire Utils Server
open CryptoMsg (sized fits inSize u32 len str reply header header_length hash64_length)
open CryptoDma (Buf clear)

variable {cle sle : Bool} {m : UInt16} {pad : List UInt8}

/-! ## SHA-2 -/

theorem rd64_pair {a : Bool} {ma : UInt16} (hp : Paired a cle ma magicNative) (b : Buf) (rest : List UInt8) :
    rd64 a ma (putBuf cle b ++ rest) 0 = b.addr ∧ rd64 a ma (putBuf cle b ++ rest) 8 = b.sz := by
  unfold putBuf
  rw [List.append_assoc]
  exact ⟨rd64_here hp _, by rw [show (8 : Nat) = 0 + 8 from rfl, rd64_w64, rd64_here hp]⟩

theorem putBuf_length (b : Buf) : (putBuf cle b).length = 16 := by
  unfold putBuf; rw [List.length_append, w64_length, w64_length]

theorem lane2_length (v : Sha2) (hpad : pad.length = 4) (last : Bool) (c : UInt32 × UInt32 × List UInt8) (hc : c.2.2.length = v.words) (inp : List UInt8) (b : Buf) :
    ((v.lane cle pad).request last c inp b).length = 12 + v.dmaStruct + inp.length := by
  unfold Sha2.words at hc
  unfold Sha2.lane Sha2.dmaStruct head put32
  cases hw : v.wide <;> rw [hw] at hc <;>
    simp [List.length_append, w32_length, hc, putBuf_length, hpad] <;> omega

/-- What the server does with a SHA-2 request. -/
theorem serve2d {cfg : CryptoDma.Cfg} {v : Sha2} {action : UInt16} {t : UInt32} (hs : v.ServedDma cfg action t) (hpad : pad.length = 4)
    (hp : Paired cfg.le cle m magicNative) {last : Bool} {c : UInt32 × UInt32 × List UInt8} (hc : c.2.2.length = v.words)
    {inp : List UInt8} (hi : inp.length < 4294967296) {b : Buf}
    (hf : if last then inp.length < v.block else inp.length % v.block = 0) (hb : if last then b.sz = 0 else b.sz.toNat % v.block = 0)
    (sv : Keystore.Srv) (e : CryptoDma.Env) (seq : UInt16) (junk : List UInt8) (s : Keystore.Sys) :
    (CryptoDma.handle cfg sv e (seen m action seq ((v.lane cle pad).request last c inp b) junk) s).1.1 =
      CryptoDma.sha2 cfg e (seen m action seq ((v.lane cle pad).request last c inp b) junk) t last c.1 c.2.1 c.2.2 inp b ∧
    rd32 cfg.le m (seen m action seq ((v.lane cle pad).request last c inp b) junk).buf 0 = v.type := by
  obtain ⟨-, op, hsel, hop⟩ := hs
  have hlen := lane2_length (cle := cle) v hpad last c hc inp b
  have hhead : ∀ x, rd32 cfg.le m ((v.lane cle pad).request last c inp b ++ junk) 0 = v.type ∧
      rd32 cfg.le m ((v.lane cle pad).request last c inp b ++ junk) (4 + 0 * x) = 0 := by
    intro x
    constructor <;>
      simp only [Sha2.lane, head, put32, List.append_assoc, rd32_here hp, rd32_w32, Nat.zero_mul, Nat.add_zero]
  have hsz : inSize (seen m action seq ((v.lane cle pad).request last c inp b) junk) = v.dmaStruct + inp.length := by
    show ((v.lane cle pad).request last c inp b).length - 12 = _
    omega
  refine ⟨?_, (hhead 0).1⟩
  unfold CryptoDma.handle
  rw [if_neg (by show ¬ ((v.lane cle pad).request last c inp b).length < 12; omega)]
  have e1 : rd32 cfg.le (seen m action seq ((v.lane cle pad).request last c inp b) junk).magic
      (seen m action seq ((v.lane cle pad).request last c inp b) junk).buf 0 = v.type := (hhead 0).1
  have e2 : rd32 cfg.le (seen m action seq ((v.lane cle pad).request last c inp b) junk).magic
      (seen m action seq ((v.lane cle pad).request last c inp b) junk).buf 4 = 0 := (hhead 0).2
  rw [e1, e2]
  rw [show (seen m action seq ((v.lane cle pad).request last c inp b) junk).action = action from rfl, hsel]
  dsimp only
  have hd : CryptoDma.decode cfg e (seen m action seq ((v.lane cle pad).request last c inp b) junk) op =
      .ok (.sha2 t last c.1 c.2.1 c.2.2 inp b) := by
    cases hw : v.wide with
    | false =>
      have hbl : v.block = 64 := by unfold Sha2.block; rw [hw]; rfl
      have hst : v.dmaStruct = 64 := by unfold Sha2.dmaStruct; rw [hw]; rfl
      have hcw : c.2.2.length = 32 := by rw [hc]; unfold Sha2.words; rw [hw]; rfl
      rw [hbl] at hf hb
      cases op <;> try exact False.elim hop
      case sha384 u => rw [hw] at hop; exact absurd hop.1 (by decide)
      case sha512 => rw [hw] at hop; exact absurd hop.1 (by decide)
      case sha256 u =>
        obtain ⟨-, rfl⟩ := hop
        have hbuf : (seen m action seq ((v.lane cle pad).request last c inp b) junk).buf =
            w32 cle magicNative v.type ++ (w32 cle magicNative 0 ++ (w32 cle magicNative v.affinity ++ (w32 cle magicNative c.1 ++
            (w32 cle magicNative c.2.1 ++ (c.2.2 ++ (w64 cle magicNative b.addr ++ (w64 cle magicNative b.sz ++ (w32 cle magicNative (if last then 1 else 0) ++ (w32 cle magicNative (UInt32.ofNat inp.length) ++
            (inp ++ junk)))))))))) := by
          show (v.lane cle pad).request last c inp b ++ junk = _
          simp only [Sha2.lane, head, put32, putBuf, hw, List.append_assoc, Bool.false_eq_true, if_false, List.nil_append]
        unfold CryptoDma.decode
        refine (sized_eq (by rw [hsz, hst]; omega)).trans ?_
        rw [hsz, hst]
        simp only [u32, len, str, CryptoDma.buf, hbuf]
        generalize hM : (seen m action seq ((v.lane cle pad).request last c inp b) junk).magic = M
        have : M = m := hM.symm
        subst this
        have k1 : ∀ (rest : List UInt8) (k : Nat), rd32 cfg.le M (c.2.2 ++ rest) (k + 32) = rd32 cfg.le M rest k := fun _ _ => rd32_skip hcw
        have k2 : ∀ (rest : List UInt8) (k l : Nat), rdBytes (c.2.2 ++ rest) (k + 32) l = rdBytes rest k l := fun _ _ _ => rdBytes_skip hcw
        have k3 : ∀ (rest : List UInt8) (k : Nat), rd64 cfg.le M (c.2.2 ++ rest) (k + 32) = rd64 cfg.le M rest k := fun _ _ => rd64_skip hcw
        simp only [rd32_here hp, rd32_w32, rd32_w64, rd64_here hp, rd64_w32, rd64_w64, rdBytes_w32, rdBytes_w64, rdBytes_here hcw, k1, k2, k3, ofNat_len hi, rdBytes_here, last_ne]
        rw [fits_eq ⟨by omega, hf⟩, fits_eq hb]
    | true =>
      have hbl : v.block = 128 := by unfold Sha2.block; rw [hw]; rfl
      have hst : v.dmaStruct = 104 := by unfold Sha2.dmaStruct; rw [hw]; rfl
      have hcw : c.2.2.length = 64 := by rw [hc]; unfold Sha2.words; rw [hw]; rfl
      rw [hbl] at hf hb
      have hbuf : (seen m action seq ((v.lane cle pad).request last c inp b) junk).buf =
          w32 cle magicNative v.type ++ (w32 cle magicNative 0 ++ (w32 cle magicNative v.affinity ++ (w32 cle magicNative c.1 ++
          (w32 cle magicNative c.2.1 ++ (c.2.2 ++ (w32 cle magicNative v.variant ++ (pad ++ (w64 cle magicNative b.addr ++ (w64 cle magicNative b.sz ++
          (w32 cle magicNative (if last then 1 else 0) ++
          (w32 cle magicNative (UInt32.ofNat inp.length) ++ (inp ++ junk)))))))))))) := by
        show (v.lane cle pad).request last c inp b ++ junk = _
        simp only [Sha2.lane, head, put32, putBuf, hw, List.append_assoc, if_true]
      have k1 : ∀ (rest : List UInt8) (k : Nat), rd32 cfg.le m (c.2.2 ++ rest) (k + 64) = rd32 cfg.le m rest k := fun _ _ => rd32_skip hcw
      have k2 : ∀ (rest : List UInt8) (k l : Nat), rdBytes (c.2.2 ++ rest) (k + 64) l = rdBytes rest k l := fun _ _ _ => rdBytes_skip hcw
      have k3 : ∀ (rest : List UInt8) (k : Nat), rd64 cfg.le m (c.2.2 ++ rest) (k + 64) = rd64 cfg.le m rest k := fun _ _ => rd64_skip hcw
      have p1 : ∀ (rest : List UInt8) (k : Nat), rd32 cfg.le m (pad ++ rest) (k + 4) = rd32 cfg.le m rest k := fun _ _ => rd32_skip hpad
      have p2 : ∀ (rest : List UInt8) (k l : Nat), rdBytes (pad ++ rest) (k + 4) l = rdBytes rest k l := fun _ _ _ => rdBytes_skip hpad
      have p3 : ∀ (rest : List UInt8) (k : Nat), rd64 cfg.le m (pad ++ rest) (k + 4) = rd64 cfg.le m rest k := fun _ _ => rd64_skip hpad
      generalize hM : (seen m action seq ((v.lane cle pad).request last c inp b) junk).magic = M
      have hMm : M = m := hM.symm
      cases op <;> try exact False.elim hop
      case sha256 u => rw [hw] at hop; exact absurd hop.1 (by decide)
      case sha384 u =>
        obtain ⟨-, rfl⟩ := hop
        unfold CryptoDma.decode
        refine (sized_eq (by rw [hsz, hst]; omega)).trans ?_
        rw [hsz, hst]
        simp only [u32, len, str, CryptoDma.buf, hbuf, hM, hMm]
        simp only [rd32_here hp, rd32_w32, rd32_w64, rd64_here hp, rd64_w32, rd64_w64, rdBytes_w32, rdBytes_w64, rdBytes_here hcw, k1, k2, k3, p1, p2, p3, ofNat_len hi, rdBytes_here, last_ne]
        rw [fits_eq ⟨by omega, hf⟩, fits_eq hb]
      case sha512 =>
        obtain ⟨-, hu⟩ := hop
        unfold CryptoDma.decode
        refine (sized_eq (by rw [hsz, hst]; omega)).trans ?_
        rw [hsz, hst]
        simp only [u32, len, str, CryptoDma.buf, hbuf, hM, hMm]
        simp only [rd32_here hp, rd32_w32, rd32_w64, rd64_here hp, rd64_w32, rd64_w64, rdBytes_w32, rdBytes_w64, rdBytes_here hcw, k1, k2, k3, p1, p2, p3, ofNat_len hi, rdBytes_here, last_ne, hu]
        rw [fits_eq ⟨by omega, hf⟩, fits_eq hb]
  rw [hd]

theorem clear_length (r : Req) : (clear sle r).length = 16 := by
  unfold CryptoDma.clear CryptoDma.status; rw [List.length_append, w64_length]

/-- A response whose fields leave padding in the structure. -/
theorem reply_over {r : Req} {f : List UInt8} {n : Nat} (h : f.length ≤ n) : ∃ t : List UInt8,
    reply sle r f n [] = header sle r .ok ++ (f ++ t) ∧ (reply sle r f n []).length = 12 + n := by
  unfold CryptoMsg.reply
  rw [List.append_nil]
  have hl : (header sle r .ok ++ f).length ≤ 12 + n := by rw [List.length_append, header_length]; omega
  refine ⟨_, by unfold over; rw [List.append_assoc], over_length hl⟩

/-- The client's reading of a SHA-2 response. -/
theorem read2d {v : Sha2} (hp : Paired cle sle magicNative m) {r : Req} (hm : r.magic = m) {t : UInt32}
    (h0 : rd32 sle m r.buf 0 = v.type) (ht : v.accepts t = true) (hi lo : UInt32) (h : List UInt8) :
    (v.words ≤ h.length → h.length ≤ 64 →
      (v.lane cle pad).chain (reply sle r (clear sle r ++ CryptoMsg.hash64 h ++ w32 sle r.magic hi ++ w32 sle r.magic lo ++ w32 sle r.magic t) 96 []) =
        (0, some (hi, lo, h.take v.words))) ∧
    (v.size ≤ h.length → h.length ≤ 64 →
      (v.lane cle pad).digest (reply sle r (clear sle r ++ CryptoMsg.hash64 h ++ w32 sle r.magic hi ++ w32 sle r.magic lo ++ w32 sle r.magic t) 96 []) =
        (0, some (h.take v.size))) := by
  subst hm
  obtain ⟨tl, ht1, ht2⟩ := reply_over (sle := sle) (r := r) (n := 96)
    (f := clear sle r ++ CryptoMsg.hash64 h ++ w32 sle r.magic hi ++ w32 sle r.magic lo ++ w32 sle r.magic t)
    (by simp only [List.length_append, w32_length, hash64_length, clear_length]; decide)
  have c1 : ∀ (rest : List UInt8) (k : Nat), rd32 cle magicNative (clear sle r ++ rest) (k + 16) = rd32 cle magicNative rest k := fun _ _ => rd32_skip (clear_length r)
  have c2 : ∀ (rest : List UInt8) (k l : Nat), rdBytes (clear sle r ++ rest) (k + 16) l = rdBytes rest k l := fun _ _ _ => rdBytes_skip (clear_length r)
  have hr : reply sle r (clear sle r ++ CryptoMsg.hash64 h ++ w32 sle r.magic hi ++ w32 sle r.magic lo ++ w32 sle r.magic t) 96 [] =
      w32 sle r.magic v.type ++ (w32 sle r.magic 0 ++ (w32 sle r.magic 0 ++ (clear sle r ++ (CryptoMsg.hash64 h ++ (w32 sle r.magic hi ++
        (w32 sle r.magic lo ++ (w32 sle r.magic t ++ tl))))))) := by
    rw [ht1]
    simp only [header, h0, Rc.code, List.append_assoc]
  rw [hr] at ht2 ⊢
  generalize hR : w32 sle r.magic v.type ++ (w32 sle r.magic 0 ++ (w32 sle r.magic 0 ++ (clear sle r ++ (CryptoMsg.hash64 h ++ (w32 sle r.magic hi ++
        (w32 sle r.magic lo ++ (w32 sle r.magic t ++ tl))))))) = R at ht2 ⊢
  have g0 : get32 cle R 0 = v.type := by rw [← hR]; simp only [get32, rd32_here hp]
  have g1 : get32 cle R 4 = 0 := by rw [← hR]; simp only [get32, rd32_here hp, rd32_w32]
  have g2 : get32 cle R 100 = t := by rw [← hR]; simp only [get32, rd32_w32, c1, rd32_hash64, rd32_here hp]
  have g3 : get32 cle R 92 = hi := by rw [← hR]; simp only [get32, rd32_w32, c1, rd32_hash64, rd32_here hp]
  have g4 : get32 cle R 96 = lo := by rw [← hR]; simp only [get32, rd32_w32, c1, rd32_hash64, rd32_here hp]
  have g5 : ∀ n, n ≤ h.length → n ≤ 64 → rdBytes R 28 n = h.take n := by
    intro n h1 h2
    rw [← hR]
    simp only [rdBytes_w32, c2]
    rw [rdBytes_front (by rw [hash64_length]; exact h2), hash64_take h1 h2]
  have hlen : 12 + 96 ≤ R.length := by omega
  refine ⟨fun h1 h2 => ?_, fun h1 h2 => ?_⟩
  · unfold Sha2.lane
    dsimp only
    rw [g2, if_pos ht, response_ok g0 g1 hlen, g3, g4, g5 _ h1 (by omega)]
  · unfold Sha2.lane
    dsimp only
    rw [g2, if_pos ht, response_ok g0 g1 hlen, g5 _ h1 (by omega)]

/-- Feeding blocks to the library. -/
theorem feed_runs {M : Md} {H : CryptoMsg.Hashes} {le : Bool} {t : UInt32} {block width size : Nat} (hM : M.Runs H le t block width size)
    {ms b : List UInt8} (h1 : ms.length % block = 0) (h2 : b.length % block = 0) :
    CryptoDma.feed H t (M.state le ms) b = .ok (M.state le (ms ++ b)) ∨ ∃ rc, CryptoDma.feed H t (M.state le ms) b = .error rc := by
  unfold CryptoDma.feed
  by_cases hb : b = []
  · rw [if_pos hb, hb, List.append_nil]; exact Or.inl rfl
  · rw [if_neg hb]; exact hM.update ms b h1 h2

theorem feed_steady {H : CryptoMsg.Hashes} (hn : ClientHash.Steady H) {t : UInt32} {st : UInt32 × UInt32 × List UInt8} {b : List UInt8} {rc : Rc} :
    CryptoDma.feed H t st b ≠ .error rc := by
  unfold CryptoDma.feed
  by_cases hb : b = []
  · rw [if_pos hb]; intro h; cases h
  · rw [if_neg hb]; exact hn.update _ _ _ _ _ _

theorem add_mod_zero {a b n : Nat} (h1 : a % n = 0) (h2 : b % n = 0) : (a + b) % n = 0 := by
  rw [Nat.add_mod, h1, h2]; simp

/-- The client's reading of the server's answer to an update. -/
theorem answer2d {cfg : CryptoDma.Cfg} {v : Sha2} (hp : Paired cle cfg.le magicNative m) {r : Req} (hm : r.magic = m) {t : UInt32}
    (h0 : rd32 cfg.le m r.buf 0 = v.type) (ht : v.accepts t = true) {M : Md} (hM : M.Runs cfg.base.hashes cfg.le t v.block v.words v.size)
    {e : CryptoDma.Env} {ms b data : List UInt8} {u : Buf} (h1 : ms.length % v.block = 0) (h2 : b.length % v.block = 0)
    (h3 : data.length % v.block = 0) (hr : e.read u = data) :
    ((v.lane cle pad).chain (CryptoDma.sha2 cfg e r t false (M.state cfg.le ms).1 (M.state cfg.le ms).2.1 (M.state cfg.le ms).2.2 b u) =
        (0, some (M.state cfg.le (ms ++ b ++ data))) ∨
     ((v.lane cle pad).chain (CryptoDma.sha2 cfg e r t false (M.state cfg.le ms).1 (M.state cfg.le ms).2.1 (M.state cfg.le ms).2.2 b u)).1 ≠ 0) ∧
    (ClientHash.Steady cfg.base.hashes → e.readPre u = .ok →
     ((v.lane cle pad).chain (CryptoDma.sha2 cfg e r t false (M.state cfg.le ms).1 (M.state cfg.le ms).2.1 (M.state cfg.le ms).2.2 b u)).1 = 0) := by
  have hw : ∀ x, (M.state cfg.le x).2.2.length = v.words := hM.width
  have h64 : v.words ≤ 64 := by unfold Sha2.words; split <;> decide
  have bad : ∀ rc, ((v.lane cle pad).chain (header cfg.le r rc)).1 ≠ 0 := fun rc => response_short (by decide) (header_length ..) _
  have good : ∀ x, (v.lane cle pad).chain (reply cfg.le r (clear cfg.le r ++ CryptoMsg.hash64 (M.state cfg.le x).2.2 ++
      w32 cfg.le r.magic (M.state cfg.le x).1 ++ w32 cfg.le r.magic (M.state cfg.le x).2.1 ++ w32 cfg.le r.magic t) 96 []) = (0, some (M.state cfg.le x)) := by
    intro x
    refine ((read2d hp hm h0 ht _ _ _).1 (Nat.le_of_eq (hw x).symm) (by rw [hw]; exact h64)).trans ?_
    rw [← hw x, List.take_length]
  unfold CryptoDma.sha2
  rw [if_neg (by decide)]
  rcases feed_runs hM h1 h2 with f1 | ⟨rc, f1⟩
  · rw [show ((M.state cfg.le ms).1, (M.state cfg.le ms).2.1, (M.state cfg.le ms).2.2) = M.state cfg.le ms from rfl, f1]
    dsimp only
    by_cases hpre : CryptoDma.some? e.readPre u = .ok
    · rw [if_pos hpre, hr]
      rcases feed_runs hM (b := data) (by rw [List.length_append]; exact add_mod_zero h1 h2) h3 with f2 | ⟨rc, f2⟩
      · rw [f2]
        exact ⟨Or.inl (good _), fun _ _ => by rw [good]⟩
      · rw [f2]; exact ⟨Or.inr (bad _), fun hn _ => absurd f2 (feed_steady hn)⟩
    · rw [if_neg hpre]
      refine ⟨Or.inr (bad _), fun _ hx => absurd ?_ hpre⟩
      unfold CryptoDma.some?
      rw [hx]; split <;> rfl
  · rw [show ((M.state cfg.le ms).1, (M.state cfg.le ms).2.1, (M.state cfg.le ms).2.2) = M.state cfg.le ms from rfl, f1]
    exact ⟨Or.inr (bad _), fun hn _ => absurd f1 (feed_steady hn)⟩

/-- The same for the end. -/
theorem digest2d {cfg : CryptoDma.Cfg} {v : Sha2} (hp : Paired cle cfg.le magicNative m) {r : Req} (hm : r.magic = m) {t : UInt32}
    (h0 : rd32 cfg.le m r.buf 0 = v.type) (ht : v.accepts t = true) {M : Md} (hM : M.Runs cfg.base.hashes cfg.le t v.block v.words v.size)
    {e : CryptoDma.Env} {ms b : List UInt8} {u : Buf} (h1 : ms.length % v.block = 0) (h2 : b.length < v.block) :
    ((v.lane cle pad).digest (CryptoDma.sha2 cfg e r t true (M.state cfg.le ms).1 (M.state cfg.le ms).2.1 (M.state cfg.le ms).2.2 b u) =
        (0, some (M.digest (ms ++ b))) ∨
     ((v.lane cle pad).digest (CryptoDma.sha2 cfg e r t true (M.state cfg.le ms).1 (M.state cfg.le ms).2.1 (M.state cfg.le ms).2.2 b u)).1 ≠ 0) ∧
    (ClientHash.Steady cfg.base.hashes →
     ((v.lane cle pad).digest (CryptoDma.sha2 cfg e r t true (M.state cfg.le ms).1 (M.state cfg.le ms).2.1 (M.state cfg.le ms).2.2 b u)).1 = 0) := by
  have bad : ∀ rc, ((v.lane cle pad).digest (header cfg.le r rc)).1 ≠ 0 := fun rc => response_short (by decide) (header_length ..) _
  unfold CryptoDma.sha2
  rw [if_pos rfl]
  rcases hM.final ms b h1 h2 with ⟨g, hu, d1, d2, d3⟩ | ⟨rc, hu⟩
  · rw [hu]
    dsimp only
    rw [(read2d hp hm h0 ht _ _ _).2 d1 d2, d3]
    exact ⟨Or.inl rfl, fun _ => rfl⟩
  · rw [hu]
    exact ⟨Or.inr (bad _), fun hn => absurd hu (hn.final _ _ _ _ _ _)⟩

/-! ## SHA-3 -/

theorem lane3_length (v : Sha3) (last : Bool) (c : List UInt64) (hc : c.length = 25) (inp : List UInt8) (b : Buf) :
    ((v.lane cle).request last c inp b).length = 12 + 224 + inp.length := by
  unfold Sha3.lane head put32
  simp only [List.length_append, w32_length, flat64_len, hc, putBuf_length]

/-- What the server does with a SHA-3 request. -/
theorem serve3d {cfg : CryptoDma.Cfg} {v : Sha3} {action : UInt16} (hs : cfg.select action v.type 0 = .ok (.sha3 v.block))
    (hp : Paired cfg.le cle m magicNative) {last : Bool} {c : List UInt64} (hc : c.length = 25)
    {inp : List UInt8} (hi : inp.length < 4294967296) {b : Buf}
    (hf : if last then inp.length < v.block else inp.length % v.block = 0) (hb : if last then b.sz = 0 else b.sz.toNat % v.block = 0)
    (sv : Keystore.Srv) (e : CryptoDma.Env) (seq : UInt16) (junk : List UInt8) (s : Keystore.Sys) :
    (CryptoDma.handle cfg sv e (seen m action seq ((v.lane cle).request last c inp b) junk) s).1.1 =
      CryptoDma.sha3 cfg e (seen m action seq ((v.lane cle).request last c inp b) junk) v.block last c inp b ∧
    rd32 cfg.le m (seen m action seq ((v.lane cle).request last c inp b) junk).buf 0 = v.type := by
  have hlen := lane3_length (cle := cle) v last c hc inp b
  have hsz : inSize (seen m action seq ((v.lane cle).request last c inp b) junk) = 224 + inp.length := by
    show ((v.lane cle).request last c inp b).length - 12 = _
    omega
  have hbuf : (seen m action seq ((v.lane cle).request last c inp b) junk).buf =
      w32 cle magicNative v.type ++ (w32 cle magicNative 0 ++ (w32 cle magicNative v.affinity ++
      (w64 cle magicNative b.addr ++ (w64 cle magicNative b.sz ++
      (w32 cle magicNative (if last then 1 else 0) ++ (w32 cle magicNative (UInt32.ofNat inp.length) ++
      (c.flatMap (w64 cle magicNative) ++ (inp ++ junk)))))))) := by
    show (v.lane cle).request last c inp b ++ junk = _
    simp only [Sha3.lane, head, put32, putBuf, List.append_assoc]
  have hbuf2 : (seen m action seq ((v.lane cle).request last c inp b) junk).buf =
      (w32 cle magicNative v.type ++ (w32 cle magicNative 0 ++ (w32 cle magicNative v.affinity ++
      (w64 cle magicNative b.addr ++ (w64 cle magicNative b.sz ++
      (w32 cle magicNative (if last then 1 else 0) ++ w32 cle magicNative (UInt32.ofNat inp.length))))))) ++
      (c.flatMap (w64 cle magicNative) ++ (inp ++ junk)) := by
    rw [hbuf]; simp only [List.append_assoc]
  have hM : (seen m action seq ((v.lane cle).request last c inp b) junk).magic = m := rfl
  have hA : (seen m action seq ((v.lane cle).request last c inp b) junk).action = action := rfl
  generalize seen m action seq ((v.lane cle).request last c inp b) junk = R at *
  have e0 : rd32 cfg.le m R.buf 0 = v.type := by
    rw [hbuf, rd32_here hp]
  have e4 : rd32 cfg.le m R.buf 4 = 0 := by
    rw [hbuf]; simp only [rd32_w32, rd32_here hp]
  have est : (List.range 25).map (fun i => rd64 cfg.le m R.buf (36 + 8 * i)) = c := by
    rw [hbuf2]
    exact rd64_all hp (by simp only [List.length_append, w32_length, w64_length]) hc
  have hfl : (c.flatMap (w64 cle magicNative)).length = 200 := by rw [flat64_len, hc]
  have ein : rdBytes R.buf 236 inp.length = inp := by
    rw [hbuf]
    have k2 : ∀ (rest : List UInt8) (k l : Nat), rdBytes (c.flatMap (w64 cle magicNative) ++ rest) (k + 200) l = rdBytes rest k l := fun _ _ _ => rdBytes_skip hfl
    simp only [rdBytes_w32, rdBytes_w64, k2, rdBytes_here]
  refine ⟨?_, e0⟩
  unfold CryptoDma.handle
  have hsz12 : ¬ R.size < 12 := by
    intro hx
    unfold CryptoMsg.inSize at hsz
    omega
  rw [if_neg hsz12, hM, e0, e4, hA, hs]
  dsimp only
  have hd : CryptoDma.decode cfg e R (.sha3 v.block) = .ok (.sha3 v.block last c inp b) := by
    unfold CryptoDma.decode
    refine (sized_eq (by rw [hsz]; omega)).trans ?_
    rw [hsz]
    have u0 : u32 cfg.le R 4 = if last then 1 else 0 := by
      unfold CryptoMsg.u32; rw [hM, hbuf]; simp only [rd32_w32, rd32_w64, rd32_here hp]
    have u1 : len cfg.le R 5 = inp.length := by
      unfold CryptoMsg.len CryptoMsg.u32; rw [hM, hbuf]; simp only [rd32_w32, rd32_w64, rd32_here hp, ofNat_len hi]
    have u2 : CryptoDma.buf cfg.le R 0 = b := by
      unfold CryptoDma.buf; rw [hM, hbuf]; simp only [rd64_w32, rd64_w64, rd64_here hp]
    dsimp only
    rw [u0, u1, u2, last_ne, fits_eq ⟨by omega, hf⟩, fits_eq hb, hM, est]
    unfold CryptoMsg.str
    rw [ein]
  rw [hd]

/-- The client's reading of a SHA-3 response. -/
theorem read3d {v : Sha3} (hp : Paired cle sle magicNative m) {r : Req} (hm : r.magic = m)
    (h0 : rd32 sle m r.buf 0 = v.type) (st : List UInt64) (h : List UInt8) :
    (st.length = 25 →
      (v.lane cle).chain (reply sle r (((st ++ List.replicate 25 0).take 25).flatMap (w64 sle r.magic) ++ clear sle r ++ CryptoMsg.hash64 h) 280 []) =
        (0, some st)) ∧
    (v.size ≤ h.length → h.length ≤ 64 →
      (v.lane cle).digest (reply sle r (((st ++ List.replicate 25 0).take 25).flatMap (w64 sle r.magic) ++ clear sle r ++ CryptoMsg.hash64 h) 280 []) =
        (0, some (h.take v.size))) := by
  subst hm
  generalize hS : (st ++ List.replicate 25 0).take 25 = S
  have hSl : S.length = 25 := by
    rw [← hS, List.length_take, List.length_append, List.length_replicate]; omega
  have hfl : (S.flatMap (w64 sle r.magic)).length = 200 := by rw [flat64_len, hSl]
  have hl : (S.flatMap (w64 sle r.magic) ++ clear sle r ++ CryptoMsg.hash64 h).length = 280 := by
    rw [List.length_append, List.length_append, hfl, hash64_length, clear_length]
  rw [reply_exact hl]
  have g0 : get32 cle (header sle r .ok ++ (S.flatMap (w64 sle r.magic) ++ clear sle r ++ CryptoMsg.hash64 h)) 0 = v.type := by
    simp only [get32, header, h0, List.append_assoc, rd32_here hp]
  have g1 : get32 cle (header sle r .ok ++ (S.flatMap (w64 sle r.magic) ++ clear sle r ++ CryptoMsg.hash64 h)) 4 = 0 := by
    simp only [get32, header, List.append_assoc, rd32_here hp, rd32_w32, Rc.code]
  have hlen : 12 + 280 ≤ (header sle r .ok ++ (S.flatMap (w64 sle r.magic) ++ clear sle r ++ CryptoMsg.hash64 h)).length := by
    rw [List.length_append, header_length, hl]
  refine ⟨fun h1 => ?_, fun h1 h2 => ?_⟩
  · unfold Sha3.lane
    dsimp only
    rw [response_ok g0 g1 hlen, List.append_assoc, rd64_all hp (header_length ..) hSl]
    rw [← hS, List.take_left' h1]
  · unfold Sha3.lane
    dsimp only
    rw [response_ok g0 g1 hlen]
    have k2 : ∀ (rest : List UInt8) (k l : Nat), rdBytes (S.flatMap (w64 sle r.magic) ++ rest) (k + 200) l = rdBytes rest k l := fun _ _ _ => rdBytes_skip hfl
    have c2 : ∀ (rest : List UInt8) (k l : Nat), rdBytes (clear sle r ++ rest) (k + 16) l = rdBytes rest k l := fun _ _ _ => rdBytes_skip (clear_length r)
    simp only [header, List.append_assoc, rdBytes_w32, k2, c2]
    rw [show CryptoMsg.hash64 h = CryptoMsg.hash64 h ++ [] from (List.append_nil _).symm, rdBytes_front (by rw [hash64_length]; omega), hash64_take h1 (by omega)]

theorem feed3_runs {K : Sponge} {H : CryptoMsg.Hashes} {block size : Nat} (hK : K.Runs H block size)
    {ms b : List UInt8} (h1 : ms.length % block = 0) (h2 : b.length % block = 0) :
    CryptoDma.feed3 H block (K.state ms) b = .ok (K.state (ms ++ b)) ∨ ∃ rc, CryptoDma.feed3 H block (K.state ms) b = .error rc := by
  unfold CryptoDma.feed3
  by_cases hb : b = []
  · rw [if_pos hb, hb, List.append_nil]; exact Or.inl rfl
  · rw [if_neg hb]; exact hK.update ms b h1 h2

theorem feed3_steady {H : CryptoMsg.Hashes} (hn : ClientHash.Steady H) {block : Nat} {st : List UInt64} {b : List UInt8} {rc : Rc} :
    CryptoDma.feed3 H block st b ≠ .error rc := by
  unfold CryptoDma.feed3
  by_cases hb : b = []
  · rw [if_pos hb]; intro h; cases h
  · rw [if_neg hb]; exact hn.update3 _ _ _ _

theorem answer3d {cfg : CryptoDma.Cfg} {v : Sha3} (hp : Paired cle cfg.le magicNative m) {r : Req} (hm : r.magic = m)
    (h0 : rd32 cfg.le m r.buf 0 = v.type) {K : Sponge} (hK : K.Runs cfg.base.hashes v.block v.size)
    {e : CryptoDma.Env} {ms b data : List UInt8} {u : Buf} (h1 : ms.length % v.block = 0) (h2 : b.length % v.block = 0)
    (h3 : data.length % v.block = 0) (hr : e.read u = data) :
    ((v.lane cle).chain (CryptoDma.sha3 cfg e r v.block false (K.state ms) b u) = (0, some (K.state (ms ++ b ++ data))) ∨
     ((v.lane cle).chain (CryptoDma.sha3 cfg e r v.block false (K.state ms) b u)).1 ≠ 0) ∧
    (ClientHash.Steady cfg.base.hashes → e.readPre u = .ok →
     ((v.lane cle).chain (CryptoDma.sha3 cfg e r v.block false (K.state ms) b u)).1 = 0) := by
  have bad : ∀ rc, ((v.lane cle).chain (header cfg.le r rc)).1 ≠ 0 := fun rc => response_short (by decide) (header_length ..) _
  unfold CryptoDma.sha3
  rw [if_neg (by decide)]
  rcases feed3_runs hK h1 h2 with f1 | ⟨rc, f1⟩
  · rw [f1]
    dsimp only
    by_cases hpre : CryptoDma.some? e.readPre u = .ok
    · rw [if_pos hpre, hr]
      rcases feed3_runs hK (b := data) (by rw [List.length_append]; exact add_mod_zero h1 h2) h3 with f2 | ⟨rc, f2⟩
      · rw [f2]
        dsimp only
        rw [(read3d hp hm h0 _ _).1 (hK.width _)]
        exact ⟨Or.inl rfl, fun _ _ => rfl⟩
      · rw [f2]; exact ⟨Or.inr (bad _), fun hn _ => absurd f2 (feed3_steady hn)⟩
    · rw [if_neg hpre]
      refine ⟨Or.inr (bad _), fun _ hx => absurd ?_ hpre⟩
      unfold CryptoDma.some?
      rw [hx]; split <;> rfl
  · rw [f1]
    exact ⟨Or.inr (bad _), fun hn _ => absurd f1 (feed3_steady hn)⟩

theorem digest3d {cfg : CryptoDma.Cfg} {v : Sha3} (hp : Paired cle cfg.le magicNative m) {r : Req} (hm : r.magic = m)
    (h0 : rd32 cfg.le m r.buf 0 = v.type) {K : Sponge} (hK : K.Runs cfg.base.hashes v.block v.size)
    {e : CryptoDma.Env} {ms b : List UInt8} {u : Buf} (h1 : ms.length % v.block = 0) (h2 : b.length < v.block) :
    ((v.lane cle).digest (CryptoDma.sha3 cfg e r v.block true (K.state ms) b u) = (0, some (K.digest (ms ++ b))) ∨
     ((v.lane cle).digest (CryptoDma.sha3 cfg e r v.block true (K.state ms) b u)).1 ≠ 0) ∧
    (ClientHash.Steady cfg.base.hashes →
     ((v.lane cle).digest (CryptoDma.sha3 cfg e r v.block true (K.state ms) b u)).1 = 0) := by
  have bad : ∀ rc, ((v.lane cle).digest (header cfg.le r rc)).1 ≠ 0 := fun rc => response_short (by decide) (header_length ..) _
  unfold CryptoDma.sha3
  rw [if_pos rfl]
  rcases hK.final ms b h1 h2 with ⟨g, hu, d1, d2, d3⟩ | ⟨rc, hu⟩
  · rw [hu]
    dsimp only
    rw [(read3d hp hm h0 _ _).2 d1 d2, d3]
    exact ⟨Or.inl rfl, fun _ => rfl⟩
  · rw [hu]
    exact ⟨Or.inr (bad _), fun hn => absurd hu (hn.final3 _ _ _ _)⟩

/-! ## The server as surroundings -/

theorem buf_len {u : Buf} (h : u.sz.toNat < 4294967296) : u.len = u.sz.toNat := by
  unfold CryptoDma.Buf.len
  rw [UInt64.toNat_toUInt32]; omega

theorem host_cases {cfg : CryptoDma.Cfg} {action : UInt16} {h : Host} (hl : Linked cfg cle action h)
    {k : Nat} {mem : UInt64 → UInt8} {src : UInt64} {u : Buf} {body : List UInt8} {Q : List UInt8 → Prop}
    (hq : ∀ sv e s seq junk, e.read u = bytesOf mem src u.len → Q (CryptoDma.handle cfg sv e
      (seen (if cfg.le = cle then magicNative else magicSwap) action seq body junk) s).1.1) :
    match h.send k mem src u body with
    | .unsent rc => rc ≠ 0
    | .lost rc => rc ≠ 0
    | .got r => Q r := by
  rcases hl.send k mem src u body with ⟨rc, h0, h1 | h1⟩ | ⟨resp, h1, sv, e, s, seq, junk, hr, -, rfl⟩
  · rw [h1]; exact h0
  · rw [h1]; exact h0
  · rw [h1]; exact hq sv e s seq junk hr

theorem zero_len : (⟨0, 0⟩ : Buf).len = 0 := rfl

theorem keepsDma2 {cfg : CryptoDma.Cfg} {v : Sha2} {action : UInt16} {t : UInt32} {h : Host} {M : Md} (hpad : pad.length = 4)
    (hs : v.ServedDma cfg action t) (hl : Linked cfg cle action h)
    (hle : cfg.le = cle) (hM : M.Runs cfg.base.hashes cfg.le t v.block v.words v.size) (hiv : v.iv = M.state cle []) :
    KeepsDma (v.proto cle) (v.lane cle pad) h (M.state cle) M.digest where
  init := hiv
  pre := hl.pre
  update := by
    intro k mem src ms b u h1 h2 h3 h4 h5
    have h3' : b.length ≤ v.block := h3
    have hbl : v.block ≤ 128 := by unfold Sha2.block; split <;> decide
    have hw : (M.state cle ms).2.2.length = v.words := by rw [← hle]; exact hM.width ms
    refine host_cases (Q := fun r => (v.lane cle pad).chain r = (0, some (M.state cle (ms ++ b ++ bytesOf mem src u.sz.toNat))) ∨ ((v.lane cle pad).chain r).1 ≠ 0) hl ?_
    intro sv e s seq junk hr
    have hp := paired_server cle cfg.le (m := if cfg.le = cle then magicNative else magicSwap) rfl
    obtain ⟨e1, e2⟩ := serve2d hs hpad hp.symm (last := false) hw (inp := b) (by omega) (b := u) h2 h4 sv e seq junk s
    rw [e1]
    rw [buf_len h5] at hr
    have := (answer2d (cle := cle) (pad := pad) (r := seen (if cfg.le = cle then magicNative else magicSwap) action seq ((v.lane cle pad).request false (M.state cle ms) b u) junk)
      hp rfl e2 hs.1 hM h1 h2 (by rw [bytesOf_length]; exact h4) hr).1
    rw [hle] at this ⊢
    exact this
  final := by
    intro k mem ms b h1 h2
    have h2' : b.length < v.block := h2
    have hbl : v.block ≤ 128 := by unfold Sha2.block; split <;> decide
    have hw : (M.state cle ms).2.2.length = v.words := by rw [← hle]; exact hM.width ms
    refine host_cases (Q := fun r => (v.lane cle pad).digest r = (0, some (M.digest (ms ++ b))) ∨ ((v.lane cle pad).digest r).1 ≠ 0) hl ?_
    intro sv e s seq junk hr
    have hp := paired_server cle cfg.le (m := if cfg.le = cle then magicNative else magicSwap) rfl
    obtain ⟨e1, e2⟩ := serve2d hs hpad hp.symm (last := true) hw (inp := b) (by omega) (b := ⟨0, 0⟩) h2 rfl sv e seq junk s
    rw [e1]
    have := (digest2d (cle := cle) (pad := pad) (e := e) (u := ⟨0, 0⟩) (r := seen (if cfg.le = cle then magicNative else magicSwap) action seq ((v.lane cle pad).request true (M.state cle ms) b ⟨0, 0⟩) junk)
      hp rfl e2 hs.1 hM h1 h2).1
    rw [hle] at this ⊢
    exact this

theorem keepsDma3 {cfg : CryptoDma.Cfg} {v : Sha3} {action : UInt16} {h : Host} {K : Sponge} (h32 : v.block < 4294967296)
    (hs : cfg.select action v.type 0 = .ok (.sha3 v.block)) (hl : Linked cfg cle action h)
    (hK : K.Runs cfg.base.hashes v.block v.size) : KeepsDma (v.proto cle) (v.lane cle) h K.state K.digest where
  init := hK.blank.symm
  pre := hl.pre
  update := by
    intro k mem src ms b u h1 h2 h3 h4 h5
    have h3' : b.length ≤ v.block := h3
    refine host_cases (Q := fun r => (v.lane cle).chain r = (0, some (K.state (ms ++ b ++ bytesOf mem src u.sz.toNat))) ∨ ((v.lane cle).chain r).1 ≠ 0) hl ?_
    intro sv e s seq junk hr
    have hp := paired_server cle cfg.le (m := if cfg.le = cle then magicNative else magicSwap) rfl
    obtain ⟨e1, e2⟩ := serve3d hs hp.symm (last := false) (hK.width ms) (inp := b) (by omega) (b := u) h2 h4 sv e seq junk s
    rw [e1]
    rw [buf_len h5] at hr
    exact (answer3d (cle := cle) (r := seen (if cfg.le = cle then magicNative else magicSwap) action seq ((v.lane cle).request false (K.state ms) b u) junk)
      hp rfl e2 hK h1 h2 (by rw [bytesOf_length]; exact h4) hr).1
  final := by
    intro k mem ms b h1 h2
    have h2' : b.length < v.block := h2
    refine host_cases (Q := fun r => (v.lane cle).digest r = (0, some (K.digest (ms ++ b))) ∨ ((v.lane cle).digest r).1 ≠ 0) hl ?_
    intro sv e s seq junk hr
    have hp := paired_server cle cfg.le (m := if cfg.le = cle then magicNative else magicSwap) rfl
    obtain ⟨e1, e2⟩ := serve3d hs hp.symm (last := true) (hK.width ms) (inp := b) (by omega) (b := ⟨0, 0⟩) h2 rfl sv e seq junk s
    rw [e1]
    exact (digest3d (cle := cle) (e := e) (u := ⟨0, 0⟩) (r := seen (if cfg.le = cle then magicNative else magicSwap) action seq ((v.lane cle).request true (K.state ms) b ⟨0, 0⟩) junk)
      hp rfl e2 hK h1 h2).1

/-! ## Progress -/

theorem livelyDma2 {cfg : CryptoDma.Cfg} {v : Sha2} {action : UInt16} {t : UInt32} {h : Host} {M : Md} (hpad : pad.length = 4)
    (hd : 12 + v.dmaStruct + v.block ≤ v.dataLen) (hs : v.ServedDma cfg action t) (hl : Willing cfg cle action v.dataLen h)
    (hle : cfg.le = cle) (hM : M.Runs cfg.base.hashes cfg.le t v.block v.words v.size) (hn : ClientHash.Steady cfg.base.hashes) :
    LivelyDma (v.proto cle) (v.lane cle pad) h (M.state cle) where
  pre := hl.pre
  update := by
    intro k mem src ms b u h1 h2 h3 h4 h5
    have h3' : b.length ≤ v.block := h3
    have hbl : v.block ≤ 128 := by unfold Sha2.block; split <;> decide
    have hw : (M.state cle ms).2.2.length = v.words := by rw [← hle]; exact hM.width ms
    obtain ⟨resp, hr, sv, e, s, seq, junk, hm, ho, rfl⟩ := hl.send k mem src u ((v.lane cle pad).request false (M.state cle ms) b u)
      (by rw [lane2_length v hpad _ _ hw]; omega)
    refine ⟨_, hr, ?_⟩
    have hp := paired_server cle cfg.le (m := if cfg.le = cle then magicNative else magicSwap) rfl
    obtain ⟨e1, e2⟩ := serve2d hs hpad hp.symm (last := false) hw (inp := b) (by omega) (b := u) h2 h4 sv e seq junk s
    refine (congrArg (fun x => ((v.lane cle pad).chain x).1) e1).trans ?_
    rw [buf_len h5] at hm
    have := (answer2d (cle := cle) (pad := pad) (r := seen (if cfg.le = cle then magicNative else magicSwap) action seq ((v.lane cle pad).request false (M.state cle ms) b u) junk)
      hp rfl e2 hs.1 hM h1 h2 (by rw [bytesOf_length]; exact h4) hm).2 hn (ho rfl)
    rw [hle] at this ⊢
    exact this
  final := by
    intro k mem ms b h1 h2
    have h2' : b.length < v.block := h2
    have hbl : v.block ≤ 128 := by unfold Sha2.block; split <;> decide
    have hw : (M.state cle ms).2.2.length = v.words := by rw [← hle]; exact hM.width ms
    obtain ⟨resp, hr, sv, e, s, seq, junk, hm, ho, rfl⟩ := hl.send k mem 0 ⟨0, 0⟩ ((v.lane cle pad).request true (M.state cle ms) b ⟨0, 0⟩)
      (by rw [lane2_length v hpad _ _ hw]; omega)
    refine ⟨_, hr, ?_⟩
    have hp := paired_server cle cfg.le (m := if cfg.le = cle then magicNative else magicSwap) rfl
    obtain ⟨e1, e2⟩ := serve2d hs hpad hp.symm (last := true) hw (inp := b) (by omega) (b := ⟨0, 0⟩) h2 rfl sv e seq junk s
    refine (congrArg (fun x => ((v.lane cle pad).digest x).1) e1).trans ?_
    have := (digest2d (cle := cle) (pad := pad) (e := e) (u := ⟨0, 0⟩) (r := seen (if cfg.le = cle then magicNative else magicSwap) action seq ((v.lane cle pad).request true (M.state cle ms) b ⟨0, 0⟩) junk)
      hp rfl e2 hs.1 hM h1 h2).2 hn
    rw [hle] at this ⊢
    exact this

theorem livelyDma3 {cfg : CryptoDma.Cfg} {v : Sha3} {action : UInt16} {h : Host} {K : Sponge} (h32 : v.block < 4294967296)
    (hd : 12 + 224 + v.block ≤ v.dataLen)
    (hs : cfg.select action v.type 0 = .ok (.sha3 v.block)) (hl : Willing cfg cle action v.dataLen h)
    (hK : K.Runs cfg.base.hashes v.block v.size) (hn : ClientHash.Steady cfg.base.hashes) :
    LivelyDma (v.proto cle) (v.lane cle) h K.state where
  pre := hl.pre
  update := by
    intro k mem src ms b u h1 h2 h3 h4 h5
    have h3' : b.length ≤ v.block := h3
    obtain ⟨resp, hr, sv, e, s, seq, junk, hm, ho, rfl⟩ := hl.send k mem src u ((v.lane cle).request false (K.state ms) b u)
      (by rw [lane3_length v _ _ (hK.width ms)]; omega)
    refine ⟨_, hr, ?_⟩
    have hp := paired_server cle cfg.le (m := if cfg.le = cle then magicNative else magicSwap) rfl
    obtain ⟨e1, e2⟩ := serve3d hs hp.symm (last := false) (hK.width ms) (inp := b) (by omega) (b := u) h2 h4 sv e seq junk s
    refine (congrArg (fun x => ((v.lane cle).chain x).1) e1).trans ?_
    rw [buf_len h5] at hm
    exact (answer3d (cle := cle) (r := seen (if cfg.le = cle then magicNative else magicSwap) action seq ((v.lane cle).request false (K.state ms) b u) junk)
      hp rfl e2 hK h1 h2 (by rw [bytesOf_length]; exact h4) hm).2 hn (ho rfl)
  final := by
    intro k mem ms b h1 h2
    have h2' : b.length < v.block := h2
    obtain ⟨resp, hr, sv, e, s, seq, junk, hm, ho, rfl⟩ := hl.send k mem 0 ⟨0, 0⟩ ((v.lane cle).request true (K.state ms) b ⟨0, 0⟩)
      (by rw [lane3_length v _ _ (hK.width ms)]; omega)
    refine ⟨_, hr, ?_⟩
    have hp := paired_server cle cfg.le (m := if cfg.le = cle then magicNative else magicSwap) rfl
    obtain ⟨e1, e2⟩ := serve3d hs hp.symm (last := true) (hK.width ms) (inp := b) (by omega) (b := ⟨0, 0⟩) h2 rfl sv e seq junk s
    refine (congrArg (fun x => ((v.lane cle).digest x).1) e1).trans ?_
    exact (digest3d (cle := cle) (e := e) (u := ⟨0, 0⟩) (r := seen (if cfg.le = cle then magicNative else magicSwap) action seq ((v.lane cle).request true (K.state ms) b ⟨0, 0⟩) junk)
      hp rfl e2 hK h1 h2).2 hn

end WolfHsm.ClientHash

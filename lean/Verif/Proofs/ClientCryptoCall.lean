import Verif.Proofs.ClientCryptoAnswer

/-!
# Whole crypto calls, and random numbers
-/

namespace WolfHsm.ClientCrypto

open Wire Utils CryptoMsg
open Server (Req)
open ClientHash (Ret Reply put32 get32 sized_eq fits_eq ofNat_len last_ne)

section call

variable {n : Numbers} {cle : Bool} {a : UInt32} {pad : UInt8 × UInt8} {c : Call}

theorem bytes_eq (hc : c.Sane) : (request n cle a pad c).length = c.bytes := request_length hc ..

theorem width_cases (c : Call) : width c = 0 ∨ 65536 ≤ width c := by
  unfold width
  split <;> first | exact .inl rfl | exact .inr (by decide)

theorem send_whole {dataLen : Nat} (hc : c.Sane) (hr : refusal n dataLen c = none) (hi : idle c = false) (hd : c.bytes ≤ dataLen)
    (hw : dataLen < 65536) :
    send n cle dataLen a pad c = .packet (request n cle a pad c) (request n cle a pad c).length := by
  unfold send
  rw [hr]
  dsimp only
  rw [hi, if_neg (by decide)]
  have hm : (request n cle a pad c).length % width c = (request n cle a pad c).length := by
    have := bytes_eq (n := n) (cle := cle) (a := a) (pad := pad) hc
    rcases width_cases c with h | h
    · rw [h, Nat.mod_zero]
    · exact Nat.mod_eq_of_lt (by omega)
  rw [hm, if_pos (by rw [bytes_eq hc]; exact hd)]

theorem served_eq {cfg : CryptoMsg.Cfg} {v : Keystore.Srv} {e : CryptoMsg.Env} {r : Req} {m : UInt16} {junk : List UInt8} {dataLen : Nat}
    (hp : Paired cfg.le cle m magicNative) (h : Arrived n cle m a pad c junk r) (hact : r.action = (n.code c.op).action)
    (hag : Agree n cfg.codes c.op) (hc : c.Sane) (hr : refusal n dataLen c = none) (hz : r.size < 4294967296) (s : Keystore.Sys) :
    CryptoMsg.handle cfg v e r s =
      match performed cfg v e (c.asks e.coins) s with
      | (some x, s') => (encode cfg.le r c.op x, s')
      | (none, s') => ([], s') := by
  have hd := decode_request e.coins hp hag hc hr h hz
  have hh := h.head hp
  unfold CryptoMsg.handle
  rw [if_neg (by rw [h.size, request_length hc]; omega), hact, hh.1, hh.2, hag.select]
  dsimp only
  rw [hd]
  rfl

theorem receive_error {m : UInt16} {sle : Bool} {w : Want} {r : Req} (hp : Paired cle sle magicNative m) (hm : r.magic = m)
    (h0 : rd32 sle r.magic r.buf 0 = (n.code c.op).type.toUInt32) {rc : Rc} (hrc : 0x80000000 ≤ rc.code) :
    receive n cle w c (header sle r rc) = (rc.code, none) := by
  have ht := header_type (rc := rc) (y := []) hp hm h0
  rw [List.append_nil] at ht
  have ho : ∀ strict k, opened cle (n.code c.op).type strict (header sle r rc) k = (rc.code, none) := by
    intro strict k
    unfold opened
    rw [if_neg (fun q => q ht.1)]
    dsimp only
    rw [ht.2, if_pos (.inl hrc)]
  unfold receive
  cases c <;> exact ho _ _

end call

section rng

variable {n : Numbers} {cle : Bool} {a : UInt32}

theorem rngRequest_length (k : Nat) : (rngRequest n cle a k).length = 16 := by
  unfold rngRequest; rw [List.length_append, head_length, put32_length]

/-- What the server answers to a request for random bytes. -/
theorem rng_served {cfg : CryptoMsg.Cfg} {v : Keystore.Srv} {e : CryptoMsg.Env} {r : Req} {m : UInt16} {junk : List UInt8} {k : Nat}
    (hp : Paired cfg.le cle m magicNative) (hm : r.magic = m) (hb : r.buf = rngRequest n cle a k ++ junk) (hs : r.size = 16)
    (hact : r.action = (n.code .rng).action) (hag : Agree n cfg.codes .rng) (hk : k < 4294967296) (s : Keystore.Sys) :
    rd32 cfg.le r.magic r.buf 0 = (n.code .rng).type.toUInt32 ∧ (CryptoMsg.handle cfg v e r s).1 = CryptoMsg.rng cfg e r k := by
  have h0 : rd32 cfg.le r.magic r.buf 0 = (n.code .rng).type.toUInt32 := by
    rw [hm, hb]; unfold rngRequest ClientCrypto.head put32
    simp only [List.append_assoc, rd32_here hp]
  have h4 : rd32 cfg.le r.magic r.buf 4 = (n.code .rng).sub.toUInt32 := by
    rw [hm, hb]; unfold rngRequest ClientCrypto.head put32
    simp only [List.append_assoc, rd32_here hp, rd32_w32]
  have hl : len cfg.le r 0 = k := by
    unfold CryptoMsg.len CryptoMsg.u32
    rw [hm, hb]; unfold rngRequest ClientCrypto.head put32
    simp only [List.append_assoc, rd32_here hp, rd32_w32]
    exact ofNat_len hk
  refine ⟨h0, ?_⟩
  unfold CryptoMsg.handle
  rw [if_neg (by omega), hact, h0, h4, hag.select]
  dsimp only
  have hd : decode cfg.codes cfg.le e.coins r .rng = .ok (.rng k) := by
    unfold decode
    refine (sized_eq (by unfold CryptoMsg.inSize; omega)).trans ?_
    rw [hl]
  rw [hd]

/-- One round: a failure, or bytes from the generator. -/
theorem rng_round {cfg : CryptoMsg.Cfg} {e : CryptoMsg.Env} {r : Req} {m : UInt16} {k dataLen : Nat}
    (hp : Paired cle cfg.le magicNative m) (hm : r.magic = m) (h0 : rd32 cfg.le r.magic r.buf 0 = (n.code .rng).type.toUInt32)
    (hx : ∀ i b, e.random i = .ok b → b.length = i) (hk : k < 4294967296) {b : List UInt8}
    (h : rngResponse n cle dataLen k (CryptoMsg.rng cfg e r k) = (0, b)) : e.random b.length = .ok b ∧ b.length ≤ k := by
  unfold CryptoMsg.rng at h
  cases hr : e.random (min k (cfg.crypto.ks.commLen - 16)) with
  | error rc =>
    rw [hr] at h
    dsimp only at h
    exfalso
    have ht := header_type (rc := rc) (y := []) hp hm h0
    rw [List.append_nil] at ht
    unfold rngResponse at h
    rw [if_neg (fun q => q ht.1)] at h
    dsimp only at h
    rw [ht.2] at h
    by_cases hc : rc.code ≠ 0
    · rw [if_pos hc] at h
      injection h with h _
      exact hc h
    · rw [if_neg hc, if_pos (.inl (by rw [header_length]; decide))] at h
      injection h with h _
      exact absurd h (by decide)
  | ok x =>
    rw [hr] at h
    dsimp only at h
    have hl := hx _ _ hr
    have hb := back_reply (body := x) (fixed := 4) (f := num cfg.le r (min k (cfg.crypto.ks.commLen - 16))) hp hm h0 (by rw [num_length])
    generalize reply cfg.le r _ 4 x = R at hb h
    have h12 : get32 cle R 12 = UInt32.ofNat x.length := by
      refine hb.one (z := []) hp ?_
      unfold num; rw [hm, hl, List.append_nil]
    unfold rngResponse at h
    rw [if_neg (fun q => q hb.type)] at h
    dsimp only at h
    unfold getLen at h
    rw [hb.rc, if_neg (fun q => q rfl), h12, ofNat_len (by omega)] at h
    by_cases hc : R.length < 16 ∨ x.length > R.length - 16 ∨ x.length > dataLen - 16 ∨ x.length > k
    · rw [if_pos hc] at h
      injection h with h _
      exact absurd h (by decide)
    · rw [if_neg hc] at h
      injection h with _ h
      rw [show rdBytes R 16 x.length = x from hb.whole] at h
      subst h
      rw [← hl] at hr
      exact ⟨hr, by omega⟩

/-- A round that cannot fail. -/
theorem rng_round_ok {cfg : CryptoMsg.Cfg} {e : CryptoMsg.Env} {r : Req} {m : UInt16} {k dataLen : Nat}
    (hp : Paired cle cfg.le magicNative m) (hm : r.magic = m) (h0 : rd32 cfg.le r.magic r.buf 0 = (n.code .rng).type.toUInt32)
    (hk : k < 4294967296) (hd : k ≤ dataLen - 16) {b : List UInt8} (hc : k ≤ cfg.crypto.ks.commLen - 16) (hr : e.random k = .ok b) (hl : b.length = k) :
    rngResponse n cle dataLen k (CryptoMsg.rng cfg e r k) = (0, b) := by
  unfold CryptoMsg.rng
  rw [Nat.min_eq_left hc, hr]
  dsimp only
  have hb := back_reply (body := b) (fixed := 4) (f := num cfg.le r k) hp hm h0 (by rw [num_length])
  generalize reply cfg.le r _ 4 b = R at hb
  have h12 : get32 cle R 12 = UInt32.ofNat k := by
    refine hb.one (z := []) hp ?_
    unfold num; rw [hm, List.append_nil]
  have hR := hb.len
  unfold rngResponse
  rw [if_neg (fun q => q hb.type)]
  dsimp only
  unfold getLen
  rw [hb.rc, if_neg (fun q => q rfl), h12, ofNat_len hk, if_neg (by omega), ← hl]
  rw [show rdBytes R 16 b.length = b from hb.whole]

theorem rngLoop_draws {cfg : CryptoMsg.Cfg} {e : Nat → CryptoMsg.Env} {peer : Nat → List UInt8 → Reply} {dataLen : Nat}
    (hag : Agree n cfg.codes .rng) (hpe : RngPeer cfg cle (n.code .rng).action e peer) (hx : Exact e) :
    ∀ f k rem out, rem ≤ f → rem < 4294967296 → rngLoop n cle dataLen a peer f k rem = (0, out) →
      out.length = rem ∧ ∃ draws : List (List UInt8), out = draws.flatten ∧
        ∀ i (h : i < draws.length), (e (k + i)).random draws[i].length = .ok draws[i] := by
  intro f
  induction f with
  | zero =>
    intro k rem out hf _ h
    unfold rngLoop at h
    injection h with _ h
    subst h
    exact ⟨by simp; omega, [], rfl, fun i hi => absurd hi (by simp)⟩
  | succ f ih =>
    intro k rem out hf hlt h
    unfold rngLoop at h
    by_cases hr : rem = 0
    · rw [if_pos hr] at h
      injection h with _ h
      subst h
      exact ⟨hr.symm, [], rfl, fun i hi => absurd hi (by simp)⟩
    rw [if_neg hr] at h
    dsimp only at h
    by_cases h0 : min rem (dataLen - 16) = 0
    · rw [if_pos h0] at h
      injection h with h _
      exact absurd h (by decide)
    rw [if_neg h0] at h
    have hlt' : min rem (dataLen - 16) < 4294967296 := by omega
    generalize hck : min rem (dataLen - 16) = ck at h h0 hlt'
    have hle : ck ≤ rem := by omega
    rcases hpe k (rngRequest n cle a ck) with ⟨rc, hn, hl | hl⟩ | ⟨seq, v, junk, s, hg⟩
    · rw [hl] at h; injection h with h _; exact absurd h hn
    · rw [hl] at h; injection h with h _; exact absurd h hn
    rw [hg] at h
    dsimp only at h
    have hpair := paired_server cle cfg.le rfl
    have hsv := rng_served (v := v) (e := e k) (k := ck) (n := n) (a := a) (r := ⟨if cfg.le = cle then magicNative else magicSwap,
      (n.code .rng).action, seq, rngRequest n cle a ck ++ junk, (rngRequest n cle a ck).length⟩) hpair.symm rfl rfl (rngRequest_length ck) rfl hag hlt' s
    unfold served at h
    rw [hsv.2] at h
    generalize hq : rngResponse n cle dataLen ck (CryptoMsg.rng cfg (e k) _ ck) = q at h
    obtain ⟨q1, q2⟩ := q
    dsimp only at h
    by_cases hq1 : q1 ≠ 0
    · rw [if_pos hq1] at h
      injection h with h _
      exact absurd h hq1
    rw [if_neg hq1] at h
    have hq1 : q1 = 0 := by simpa using hq1
    subst hq1
    by_cases hq2 : q2.length = 0
    · rw [if_pos hq2] at h
      injection h with h _
      exact absurd h (by decide)
    rw [if_neg hq2] at h
    obtain ⟨hdraw, hql⟩ := rng_round hpair rfl hsv.1 (hx k) hlt' hq
    injection h with hz ho
    obtain ⟨hlen, ds, hds, hall⟩ := ih (k + 1) (rem - q2.length) _ (by omega) (by omega)
      (Prod.ext hz rfl : rngLoop n cle dataLen a peer f (k + 1) (rem - q2.length) = (0, (rngLoop n cle dataLen a peer f (k + 1) (rem - q2.length)).2))
    refine ⟨by rw [← ho, List.length_append, hlen]; omega, q2 :: ds, by rw [← ho, List.flatten_cons, ← hds], ?_⟩
    intro i hi
    cases i with
    | zero => exact hdraw
    | succ i =>
      have := hall i (by simpa using hi)
      rw [show k + 1 + i = k + (i + 1) by omega] at this
      exact this

theorem rngLoop_ok {cfg : CryptoMsg.Cfg} {e : Nat → CryptoMsg.Env} {peer : Nat → List UInt8 → Reply} {dataLen : Nat}
    (hag : Agree n cfg.codes .rng) (hx : Exact e) (hd : 16 < dataLen) (hc : cfg.crypto.ks.commLen = dataLen)
    (hr : ∀ k i, ∃ b, (e k).random i = .ok b)
    (hpe : ∀ k body, ∃ seq v junk s, peer k body = .got (served cfg cle (n.code .rng).action seq v (e k) junk s body).1) :
    ∀ f k rem, rem ≤ f → rem < 4294967296 → (rngLoop n cle dataLen a peer f k rem).1 = 0 := by
  intro f
  induction f with
  | zero => intro k rem _ _; unfold rngLoop; rfl
  | succ f ih =>
    intro k rem hf hlt
    unfold rngLoop
    by_cases h0 : rem = 0
    · rw [if_pos h0]
    rw [if_neg h0]
    dsimp only
    rw [if_neg (by omega)]
    have hlt' : min rem (dataLen - 16) < 4294967296 := by omega
    have hpos : min rem (dataLen - 16) ≠ 0 := by omega
    have hle : min rem (dataLen - 16) ≤ dataLen - 16 := Nat.min_le_right ..
    generalize min rem (dataLen - 16) = ck at hlt' hpos hle
    obtain ⟨seq, v, junk, s, hg⟩ := hpe k (rngRequest n cle a ck)
    rw [hg]
    dsimp only
    have hpair := paired_server cle cfg.le rfl
    have hsv := rng_served (v := v) (e := e k) (k := ck) (n := n) (a := a) (r := ⟨if cfg.le = cle then magicNative else magicSwap,
      (n.code .rng).action, seq, rngRequest n cle a ck ++ junk, (rngRequest n cle a ck).length⟩) hpair.symm rfl rfl (rngRequest_length ck) rfl hag hlt' s
    unfold served
    rw [hsv.2]
    obtain ⟨b, hb⟩ := hr k ck
    rw [rng_round_ok hpair rfl hsv.1 hlt' hle (by omega) hb (hx k _ _ hb)]
    have hbl := hx k _ _ hb
    dsimp only
    rw [if_neg (fun q => q rfl), if_neg (by omega)]
    exact ih (k + 1) (rem - b.length) (by omega) (by omega)

end rng

end WolfHsm.ClientCrypto

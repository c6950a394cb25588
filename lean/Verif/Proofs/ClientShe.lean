import Verif.Spec.ClientShe
import Verif.Proofs.SheMsg
import Verif.Proofs.WireSimp

/-!
# Proofs about SHE calls: the request as the server reads it, the response as the client reads it
-/

namespace WolfHsm.ClientShe

open Keystore (Sys Srv)
open She hiding refusal run step
open Wire hiding w32_length over_length
open Utils (bytes32 magicNative magicSwap)
open ClientHash (Ret Reply)
open Server (Req)

variable {cfg : She.Cfg} {v : Srv} {env : Env} {t : St} {s : Sys} {cle : Bool} {m : UInt16}

/-- The packet of the call is what the server finds in its buffer. -/
structure Arrived (cle : Bool) (m : UInt16) (pad : Fin 4 → UInt8) (c : Call) (junk : List UInt8) (r : Req) : Prop where
  magic : r.magic = m
  action : r.action = c.action
  buf : r.buf = request cle pad c ++ junk
  size : r.size = (request cle pad c).length

/-! ## Responses -/

theorem translate_ok {rc : Rc} : translate rc = .ok ↔ rc = .ok := by
  constructor
  · intro h; cases rc <;> first | rfl | (exact absurd h (by simp [translate]))
  · rintro rfl; rfl

theorem translate_code {rc : Rc} (h : rc ≠ .ok) : (translate rc).code ≠ 0 := by
  cases rc <;> first | exact absurd rfl h | (simp only [translate]; decide)

/-- Reading a response: length, code, and what follows. -/
theorem back (hp : Paired cle cfg.le magicNative m) {r : Req} (hm : r.magic = m) (x : Res) :
    x.size ≤ (x.packet cfg r).length ∧ rd32 cle magicNative (x.packet cfg r) 0 = (translate x.ret).code ∧
    (∀ off n, off + n ≤ x.body.length → rdBytes (x.packet cfg r) (4 + off) n = rdBytes x.body off n) ∧
    (∀ w rest, x.body = w32 cfg.le m w ++ rest → rd32 cle magicNative (x.packet cfg r) 4 = w) := by
  have he : x.packet cfg r = w32 cfg.le m (translate x.ret).code ++ (x.body ++
      ((r.buf ++ List.replicate x.size 0).drop (w32 cfg.le r.magic (translate x.ret).code ++ x.body).length).take
        (x.size - (w32 cfg.le r.magic (translate x.ret).code ++ x.body).length)) := by
    unfold Res.packet over
    rw [hm, List.append_assoc]
  refine ⟨?_, ?_, ?_, ?_⟩
  · unfold Res.packet
    rw [She.over_length]
    omega
  · rw [he, rd32_here hp]
  · intro off n h
    rw [he, Nat.add_comm 4 off, rdBytes_w32]
    unfold rdBytes
    rw [List.drop_append_of_le_length (by omega), List.take_append_of_le_length (by rw [List.length_drop]; omega)]
  · intro w rest hb
    rw [he, show (4 : Nat) = 0 + 4 from rfl, rd32_w32, hb, List.append_assoc, rd32_here hp]

/-- What the output of a call is in the response. -/
def Carries (cfg : She.Cfg) (m : UInt16) (c : Call) (x : Res) (out : List UInt8) : Prop :=
  match c with
  | .setUid _ | .initRnd | .extendSeed _ => 8 ≤ x.size ∧ out = []
  | .loadPlain _ => 4 ≤ x.size ∧ out = []
  | .getStatus | .verifyMac .. => 12 ≤ x.size ∧ x.body = out ∧ out.length = 1
  | .loadKey .. => 52 ≤ x.size ∧ x.body = out ∧ out.length = 48
  | .exportRam => 116 ≤ x.size ∧ x.body = out ∧ out.length = 112
  | .rnd _ | .genMac .. => 20 ≤ x.size ∧ x.body = out ∧ out.length = 16
  | .cipher _ _ _ input =>
    8 + out.length ≤ x.size ∧ x.body = w32 cfg.le m (UInt32.ofNat out.length) ++ out ∧ out.length ≤ input.length ∧
      out.length < 4294967296

/-- Fixed size of the response. -/
def Call.least : Call → Nat
  | .setUid _ | .initRnd | .extendSeed _ | .cipher .. => 8
  | .loadPlain _ => 4
  | .getStatus | .verifyMac .. => 12
  | .loadKey .. => 52
  | .exportRam => 116
  | .rnd _ | .genMac .. => 20

/-- The client gets the code of a command that failed. -/
theorem receive_error {c : Call} {R : List UInt8} {rc : Rc} (hl : c.least ≤ R.length) (hc : rd32 cle magicNative R 0 = rc.code)
    (h0 : rc.code ≠ 0) : receive cle c R = (rc.code, none) := by
  have ho : ∀ n k, n ≤ R.length → opened cle R n k = (rc.code, none) := by
    intro n k hn
    unfold opened
    rw [if_neg (by omega), hc, if_pos h0]
  cases c <;> exact ho _ _ hl

/-- The client gets the output of a command that succeeded. -/
theorem receive_ok (hp : Paired cle cfg.le magicNative m) {r : Req} (hm : r.magic = m) {c : Call} {x : Res} {out : List UInt8}
    (hret : x.ret = .ok) (hc : Carries cfg m c x out) : receive cle c (x.packet cfg r) = (0, some out) := by
  obtain ⟨h1, h2, h3, h4⟩ := back hp hm x
  rw [hret] at h2
  have ho : ∀ n k, n ≤ x.size → opened cle (x.packet cfg r) n k = k := by
    intro n k hn
    unfold opened
    rw [if_neg (by omega), h2, if_neg (by decide)]
  have hb : ∀ n, x.body.length = n → rdBytes (x.packet cfg r) 4 n = x.body := by
    intro n hn
    rw [h3 0 n (by omega), ← hn]
    unfold rdBytes
    rw [List.drop_zero, List.take_length]
  unfold Carries at hc
  unfold receive
  cases c with
  | setUid uid => exact (ho _ _ hc.1).trans (by rw [hc.2])
  | initRnd => exact (ho _ _ hc.1).trans (by rw [hc.2])
  | extendSeed e => exact (ho _ _ hc.1).trans (by rw [hc.2])
  | loadPlain k => exact (ho _ _ hc.1).trans (by rw [hc.2])
  | getStatus => exact (ho _ _ hc.1).trans (by rw [hb _ (by rw [hc.2.1]; exact hc.2.2), hc.2.1])
  | verifyMac id msg mac => exact (ho _ _ hc.1).trans (by rw [hb _ (by rw [hc.2.1]; exact hc.2.2), hc.2.1])
  | loadKey m1 m2 m3 => exact (ho _ _ hc.1).trans (by rw [hb _ (by rw [hc.2.1]; exact hc.2.2), hc.2.1])
  | exportRam => exact (ho _ _ hc.1).trans (by rw [hb _ (by rw [hc.2.1]; exact hc.2.2), hc.2.1])
  | rnd room => exact (ho _ _ hc.1).trans (by rw [hb _ (by rw [hc.2.1]; exact hc.2.2), hc.2.1])
  | genMac id input room => exact (ho _ _ hc.1).trans (by rw [hb _ (by rw [hc.2.1]; exact hc.2.2), hc.2.1])
  | cipher md id iv input =>
    obtain ⟨c1, c2, c3, c4⟩ := hc
    have h4' := h4 _ _ c2
    refine (ho _ _ (by omega)).trans ?_
    rw [h4', show (UInt32.ofNat out.length).toNat = out.length by rw [UInt32.toNat_ofNat']; exact Nat.mod_eq_of_lt c4,
      if_neg (by omega), if_neg (by omega)]
    have := h3 4 out.length (by rw [c2, List.length_append, She.w32_length])
    rw [this, c2, show (4 : Nat) = 0 + 4 from rfl, rdBytes_w32]
    unfold rdBytes
    rw [List.drop_zero, List.take_length]

/-! ## Commands -/

/-- The command the server carries out is the one the call stands for. -/
structure Does (cfg : She.Cfg) (m : UInt16) (c : Call) (x : Res) (o : Outcome) : Prop where
  ret : x.ret = o.rc
  st : x.st = o.st
  sys : x.sys = o.sys
  least : c.least ≤ x.size
  out : o.rc = .ok → Carries cfg m c x o.out

theorem len32 {l : List UInt8} (h : l.length < 4294967296) : (UInt32.ofNat l.length).toNat = l.length := by
  rw [UInt32.toNat_ofNat']; exact Nat.mod_eq_of_lt h

section
variable {pad : Fin 4 → UInt8} {junk : List UInt8} {r : Req}

theorem does_setUid {uid : List UInt8} (h : Arrived cle m pad (.setUid uid) junk r) (hu : 15 ≤ uid.length)
    (ht : t.uidSet = false) : Does cfg m (.setUid uid) (setUid cfg t s r) (Call.does cfg v env t s (.setUid uid)) := by
  have hl : (uid.take 15).length = 15 := by rw [List.length_take]; omega
  have hz : r.size = 16 := by rw [h.size]; unfold request; dsimp only; simp [hl]
  have hb : rdBytes r.buf 0 15 = uid.take 15 := by
    rw [h.buf]; unfold request; dsimp only; rw [List.append_assoc]; exact rdBytes_here hl
  unfold setUid Call.does
  rw [hz, if_neg (by decide), ht, if_neg (by decide), hb]
  exact ⟨rfl, rfl, rfl, Nat.le_refl _, fun _ => ⟨Nat.le_refl _, rfl⟩⟩

theorem does_getStatus (h : Arrived cle m pad .getStatus junk r) :
    Does cfg m .getStatus (getStatus t s r) (Call.does cfg v env t s .getStatus) := by
  have hz : r.size = 0 := h.size
  have : getStatus t s r = getStatus t s (noData 4) := by unfold getStatus; rw [hz]; rfl
  rw [this]
  exact ⟨rfl, rfl, rfl, Nat.le_refl _, fun _ => ⟨Nat.le_refl _, rfl, rfl⟩⟩

theorem does_loadPlain {key : List UInt8} (h : Arrived cle m pad (.loadPlain key) junk r) (hk : 16 ≤ key.length) :
    Does cfg m (.loadPlain key) (loadPlain cfg v t s r) (Call.does cfg v env t s (.loadPlain key)) := by
  have hl : (key.take 16).length = 16 := by rw [List.length_take]; omega
  have hz : r.size = 16 := by rw [h.size]; exact hl
  have hb : rdBytes r.buf 0 16 = key.take 16 := by rw [h.buf]; exact rdBytes_here hl
  unfold loadPlain Call.does
  rw [hz, if_neg (by decide), hb]
  dsimp only
  by_cases hr : (Keystore.cacheKey cfg.ks v.ctx s false ⟨sheId cfg v.client 14, 0, 0, 16, Vector.replicate 24 0⟩ (key.take 16)).1 = .ok
  · rw [if_pos hr, if_pos hr]
    exact ⟨hr.symm, rfl, rfl, Nat.le_refl _, fun _ => ⟨Nat.le_refl _, rfl⟩⟩
  · rw [if_neg hr, if_neg hr]
    exact ⟨rfl, rfl, rfl, Nat.le_refl _, fun _ => ⟨Nat.le_refl _, rfl⟩⟩

theorem answer_exact (hs : cfg.cr.Sized) (hu : t.uid.length = 15) {m1 : List UInt8} {md : NvmFlash.Meta} {key : List UInt8}
    (h : (answer cfg env t m1 md key).1 = .ok) : (answer cfg env t m1 md key).2.length = 48 := by
  unfold answer at h ⊢
  dsimp only at h ⊢
  split
  · simp [zeros_length]
  · split <;> simp [zeros_length, hs.enc, hs.cmac, hu]

theorem openM2_error {a b c : List UInt8} {e : Rc} {s1 : Sys} (h : openM2 cfg v env s a b c = (.error e, s1)) : e ≠ .ok := by
  unfold openM2 at h
  repeat' split at h
  all_goals
    first
      | (cases h; done)
      | (injection h with h1 h2; injection h1 with h1; rw [← h1]; first | exact errRc_ne_ok _ | simp [cryptoErr])

theorem target_error {slot : UInt16} {e : Rc} {s1 : Sys} (h : target cfg v s slot = (.error e, s1)) : e ≠ .ok := by
  unfold target at h
  dsimp only at h
  repeat' split at h
  all_goals
    first
      | (cases h; done)
      | (injection h with h1 h2; injection h1 with h1; rw [← h1]; simp)

theorem does_loadKey (hs : cfg.cr.Sized) (hu : t.uid.length = 15) {m1 m2 m3 : List UInt8}
    (h : Arrived cle m pad (.loadKey m1 m2 m3) junk r) (hc : (Call.loadKey m1 m2 m3).Sane) :
    Does cfg m (.loadKey m1 m2 m3) (loadKey cfg v env t s r) (Call.does cfg v env t s (.loadKey m1 m2 m3)) := by
  obtain ⟨l1, l2, l3⟩ := hc
  have t1 : m1.take 16 = m1 := by rw [← l1, List.take_length]
  have t2 : m2.take 32 = m2 := by rw [← l2, List.take_length]
  have t3 : m3.take 16 = m3 := by rw [← l3, List.take_length]
  have hq : request cle pad (.loadKey m1 m2 m3) = m1 ++ (m2 ++ m3) := by unfold request; dsimp only; rw [t1, t2, t3]
  have hb : r.buf = m1 ++ (m2 ++ (m3 ++ junk)) := by rw [h.buf, hq, List.append_assoc, List.append_assoc]
  have hz : r.size = 64 := by rw [h.size, hq]; simp [l1, l2, l3]
  have b1 : rdBytes r.buf 0 16 = m1 := by rw [hb]; exact rdBytes_here l1
  have b2 : rdBytes r.buf 16 32 = m2 := by
    rw [hb, show (16 : Nat) = 0 + 16 from rfl, rdBytes_skip l1]; exact rdBytes_here l2
  have b3 : rdBytes r.buf 48 16 = m3 := by
    rw [hb, show (48 : Nat) = 0 + 32 + 16 from rfl, rdBytes_skip l1, rdBytes_skip l2]; exact rdBytes_here l3
  unfold loadKey Call.does
  rw [hz, b1, b2, b3]
  dsimp only
  rw [if_neg (by decide)]
  have ha := fun md key => answer_exact (env := env) (m1 := m1) (md := md) (key := key) hs hu
  cases ho : openM2 cfg v env s m1 m2 m3 with
  | mk q s1 =>
  cases q with
  | error e => exact ⟨rfl, rfl, rfl, Nat.le_refl _, fun e => absurd e (openM2_error ho)⟩
  | ok c2 =>
  dsimp only
  cases ht : target cfg v s1 (popId m1) with
  | mk q s2 =>
  cases q with
  | error e => exact ⟨rfl, rfl, rfl, Nat.le_refl _, fun e => absurd e (target_error ht)⟩
  | ok q =>
  obtain ⟨keyRet, md⟩ := q
  dsimp only
  by_cases hac : accept t m1 c2 keyRet md = .ok
  · rw [if_pos hac, if_pos hac]
    cases store cfg v s2 (newMeta cfg v m1 c2 md) ((c2.drop 16).take 16) with
    | mk q s3 =>
    obtain ⟨rc, md', key⟩ := q
    cases rc <;> first
      | exact ⟨rfl, rfl, rfl, Nat.le_refl _, fun e => ⟨Nat.le_refl _, rfl, ha _ _ e⟩⟩
      | exact ⟨rfl, rfl, rfl, Nat.le_refl _, nofun⟩
  · rw [if_neg hac, if_neg hac]
    exact ⟨rfl, rfl, rfl, Nat.le_refl _, fun e => absurd e hac⟩

theorem does_exportRam (hs : cfg.cr.Sized) (hu : t.uid.length = 15) (h : Arrived cle m pad .exportRam junk r) :
    Does cfg m .exportRam (exportRam cfg v env t s r) (Call.does cfg v env t s .exportRam) := by
  have hz : r.size = 0 := h.size
  have hq : exportRam cfg v env t s r = exportRam cfg v env t s (noData 7) := by unfold exportRam; rw [hz]; rfl
  have hx : 116 ≤ (exportRam cfg v env t s (noData 7)).size ∧ ((exportRam cfg v env t s (noData 7)).ret = .ok →
      (exportRam cfg v env t s (noData 7)).body.length = 112) := by
    unfold exportRam
    dsimp only
    repeat' split
    all_goals refine ⟨Nat.le_refl _, ?_⟩
    all_goals first
      | (intro e; cases e; done)
      | (intro _; simp [cbcEnc_length hs, hs.cmac, hs.enc, hu])
  rw [hq]
  exact ⟨rfl, rfl, rfl, hx.1, fun e => ⟨hx.1, rfl, hx.2 e⟩⟩

/-- Equal but for the bytes of the response, which have 8 bytes with the code in front. -/
def Like (x y : Res) : Prop := x.ret = y.ret ∧ x.st = y.st ∧ x.sys = y.sys ∧ x.size = 8

theorem initRnd_like {r' : Req} (h : r.size = 0) (h' : r'.size = 0) : Like (initRnd cfg v env t s r) (initRnd cfg v env t s r') := by
  have hd : ∀ {rc : Rc} {t : St} {s : Sys} {b b' : List UInt8}, Like ⟨rc, b, 8, t, s⟩ ⟨rc, b', 8, t, s⟩ := ⟨rfl, rfl, rfl, rfl⟩
  unfold initRnd
  rw [h, h']
  dsimp only
  by_cases h1 : t.rndInited = true
  · simp only [h1, if_true]; exact hd
  simp only [h1]
  obtain ⟨⟨rc, q⟩, s1⟩ := readSlot cfg v s 0
  cases rc
  case ok =>
    cases q with
    | none => exact hd
    | some q =>
      dsimp only
      by_cases h1 : env.fault 0 = true
      · simp only [h1, if_true]; exact hd
      simp only [h1]
      obtain ⟨⟨rc, q2⟩, s2⟩ := readSlot cfg v s1 15
      cases rc
      case ok =>
        cases q2 with
        | none => exact hd
        | some q2 =>
          dsimp only
          by_cases h1 : env.fault 1 = true
          · simp only [h1, if_true]; exact hd
          simp only [h1]
          obtain ⟨rc, n⟩ := s2.nvm.add { q2.1 with id := sheId cfg v.client 15, len := 16 }
            (cbcEnc cfg.cr (mp16 cfg.cr (put (env.bytes 0 16) 0 q.2 ++ prngSeedC)) 1 (zeros 16) (put (env.bytes 16 16) 0 q2.2))
          cases rc
          case ok =>
            dsimp only
            by_cases h1 : env.fault 2 = true
            · simp only [h1, if_true]; exact hd
            simp only [h1]; exact hd
          all_goals exact hd
      all_goals exact hd
  all_goals exact hd

theorem does_initRnd (h : Arrived cle m pad .initRnd junk r) :
    Does cfg m .initRnd (initRnd cfg v env t s r) (Call.does cfg v env t s .initRnd) := by
  obtain ⟨a, b, c, d⟩ := initRnd_like (cfg := cfg) (v := v) (env := env) (t := t) (s := s) (r := r) (r' := noData 8) h.size rfl
  exact ⟨a, b, c, Nat.le_of_eq d.symm, fun _ => ⟨Nat.le_of_eq d.symm, rfl⟩⟩

theorem extendSeed_like {r' : Req} (h : r.size = 16) (h' : r'.size = 16) (hb : rdBytes r.buf 0 16 = rdBytes r'.buf 0 16) :
    Like (extendSeed cfg v env t s r) (extendSeed cfg v env t s r') := by
  have hd : ∀ {rc : Rc} {t : St} {s : Sys} {b b' : List UInt8}, Like ⟨rc, b, 8, t, s⟩ ⟨rc, b', 8, t, s⟩ := ⟨rfl, rfl, rfl, rfl⟩
  unfold extendSeed
  rw [h, h', hb]
  dsimp only
  by_cases h1 : t.rndInited = false
  · simp only [h1, if_true]; exact hd
  simp only [h1]
  by_cases h1 : env.fault 0 = true
  · simp only [h1, if_true]; exact hd
  simp only [h1]
  obtain ⟨⟨rc, q⟩, s1⟩ := readSlot cfg v s 15
  cases rc
  case ok =>
    cases q with
    | none => exact hd
    | some q =>
      dsimp only
      by_cases h1 : env.fault 1 = true
      · simp only [h1, if_true]; exact hd
      simp only [h1]
      obtain ⟨rc, n⟩ := s1.nvm.add { q.1 with id := sheId cfg v.client 15, len := 16 }
        (mp16 cfg.cr (put t.prngState 0 q.2 ++ rdBytes r'.buf 0 16))
      cases rc <;> exact hd
  all_goals exact hd

theorem does_rnd (hs : cfg.cr.Sized) {room : Nat} (h : Arrived cle m pad (.rnd room) junk r) :
    Does cfg m (.rnd room) (rnd cfg env t s r) (Call.does cfg v env t s (.rnd room)) := by
  have hz : r.size = 0 := h.size
  have hq : rnd cfg env t s r = rnd cfg env t s (noData 9) := by unfold rnd; rw [hz]; rfl
  have hx : 20 ≤ (rnd cfg env t s (noData 9)).size ∧ (rnd cfg env t s (noData 9)).body.length = 16 := by
    unfold rnd
    repeat' split
    all_goals first
      | exact ⟨Nat.le_refl _, zeros_length 16⟩
      | exact ⟨Nat.le_refl _, (cbcEnc_length hs _ 1 _ _).trans rfl⟩
  rw [hq]
  exact ⟨rfl, rfl, rfl, hx.1, fun _ => ⟨hx.1, rfl, hx.2⟩⟩

theorem does_extendSeed {e : List UInt8} (h : Arrived cle m pad (.extendSeed e) junk r) (he : e.length = 16) :
    Does cfg m (.extendSeed e) (extendSeed cfg v env t s r) (Call.does cfg v env t s (.extendSeed e)) := by
  have hq : request cle pad (.extendSeed e) = e := by unfold request; dsimp only; rw [← he, List.take_length]
  have hz : r.size = 16 := by rw [h.size, hq, he]
  have hb : rdBytes r.buf 0 16 = e := by rw [h.buf, hq]; exact rdBytes_here he
  have hb2 : rdBytes e 0 16 = e := by unfold rdBytes; rw [List.drop_zero, ← he, List.take_length]
  obtain ⟨a, b, c, d⟩ := extendSeed_like (cfg := cfg) (v := v) (env := env) (t := t) (s := s) (r := r)
    (r' := ⟨magicNative, 10, 0, e, 16⟩) hz rfl (hb.trans hb2.symm)
  exact ⟨a, b, c, Nat.le_of_eq d.symm, fun _ => ⟨Nat.le_of_eq d.symm, rfl⟩⟩

theorem cbcDec_exact (hs : cfg.cr.Sized) (key : List UInt8) (n : Nat) : ∀ iv d, iv.length = 16 → 16 * n ≤ d.length →
    (cbcDec cfg.cr key n iv d).length = 16 * n := by
  induction n with
  | zero => intro iv d _ _; rfl
  | succ n ih =>
    intro iv d hi hd
    unfold cbcDec
    rw [List.length_append, xorBytes_length, hs.dec, hi, ih _ _ (by rw [List.length_take]; omega) (by rw [List.length_drop]; omega)]
    omega

theorem apply_exact (hs : cfg.cr.Sized) (key iv : List UInt8) (n : Nat) (d : List UInt8) (md : Mode)
    (hi : md.fixed = 24 → iv.length = 16) (hd : 16 * n ≤ d.length) : (md.apply cfg.cr key iv n d).length = 16 * n := by
  cases md
  · exact (ecb_length hs key n d).1
  · exact cbcEnc_length hs key n iv d
  · exact (ecb_length hs key n d).2
  · exact cbcDec_exact hs key n iv d (hi rfl) hd

theorem apply_iv (cr : Crypto) (key iv iv' : List UInt8) (n : Nat) (d : List UInt8) {md : Mode} (h : md.fixed = 8) :
    md.apply cr key iv n d = md.apply cr key iv' n d := by
  cases md <;> first | rfl | (exact absurd h (by decide))

theorem does_cipher (hs : cfg.cr.Sized) (hp : Paired cfg.le cle m magicNative) {md : Mode} {id : UInt8} {iv input : List UInt8}
    (h : Arrived cle m pad (.cipher md id iv input) junk r) (hi : md.fixed = 24 → 16 ≤ iv.length)
    (hd : md.fixed + input.length ≤ cfg.ks.commLen) (h32 : input.length < 4294967296) :
    Does cfg m (.cipher md id iv input) (cipher cfg v env t s r md) (Call.does cfg v env t s (.cipher md id iv input)) := by
  have hf : md.fixed = 8 ∨ md.fixed = 24 := by cases md <;> simp [Mode.fixed]
  have hb : r.buf = w32 cle magicNative (UInt32.ofNat input.length) ++ ([id, pad 0, pad 1, pad 2] ++
      ((if md.fixed = 24 then iv.take 16 else []) ++ (input ++ junk))) := by
    rw [h.buf]; unfold request; dsimp only; rw [bytes32_eq]; simp only [List.append_assoc]
  have hlen : r.size = md.fixed + input.length := by
    rw [h.size]
    unfold request
    dsimp only
    rcases hf with hf | hf
    · rw [hf, if_neg (by decide)]; simp [bytes32_len]; omega
    · have := hi hf
      rw [hf, if_pos rfl]; simp [bytes32_len]; omega
  have r0 : rd32 cfg.le r.magic r.buf 0 = UInt32.ofNat input.length := by rw [h.magic, hb]; exact rd32_here hp _
  have r4 : r.buf.getD 4 0 = id := by
    have hl := Wire.w32_length cle magicNative (UInt32.ofNat input.length)
    rw [hb, List.getD_eq_getElem?_getD, List.getElem?_append_right (by omega), hl]
    rfl
  have hin : ∀ n, n ≤ input.length → rdBytes r.buf md.fixed n = input.take n := by
    intro n hn
    have : rdBytes r.buf md.fixed n = rdBytes (input ++ junk) 0 n := by
      rcases hf with hf | hf
      · rw [hb, hf, if_neg (by decide), List.nil_append, show (8 : Nat) = 0 + 4 + 4 from rfl, rdBytes_w32, rdBytes_skip (f := [id, pad 0, pad 1, pad 2]) (n := 4) rfl]
      · have := hi hf
        rw [hb, hf, if_pos rfl, show (24 : Nat) = 0 + 16 + 4 + 4 from rfl, rdBytes_w32, rdBytes_skip (f := [id, pad 0, pad 1, pad 2]) (n := 4) rfl,
          rdBytes_skip (f := iv.take 16) (n := 16) (by rw [List.length_take]; omega)]
    rw [this]
    unfold rdBytes
    rw [List.drop_zero, List.take_append_of_le_length hn]
  have hiv : md.fixed = 24 → rdBytes r.buf 8 16 = iv.take 16 := by
    intro hf
    have := hi hf
    rw [hb, hf, if_pos rfl, show (8 : Nat) = 0 + 4 + 4 from rfl, rdBytes_w32, rdBytes_skip (f := [id, pad 0, pad 1, pad 2]) (n := 4) rfl]
    exact rdBytes_here (by rw [List.length_take]; omega)
  have hfield : input.length - input.length % 16 = input.length / 16 * 16 := by omega
  unfold cipher Call.does withKey
  dsimp only
  rw [r0, len32 h32, r4, hlen, hfield]
  rw [if_neg (by omega), if_neg (by omega), if_neg (by rcases hf with hf | hf <;> omega), hin _ (by omega)]
  have hap : ∀ key : List UInt8, md.apply cfg.cr key (rdBytes r.buf 8 16) (input.length / 16 * 16 / 16) (input.take (input.length / 16 * 16)) =
      md.apply cfg.cr key (iv.take 16) (input.length / 16) (blocks input) := by
    intro key
    unfold blocks
    rw [Nat.mul_div_cancel _ (by decide)]
    rcases hf with hf | hf
    · exact apply_iv _ _ _ _ _ _ hf
    · rw [hiv hf]
  have hal : ∀ key : List UInt8, (md.apply cfg.cr key (iv.take 16) (input.length / 16) (blocks input)).length = input.length / 16 * 16 := by
    intro key
    rw [apply_exact hs _ _ _ _ _ (fun hf => by have := hi hf; rw [List.length_take]; omega)
      (by unfold blocks; rw [List.length_take]; omega)]
    omega
  cases readSlot cfg v s id.toUInt16 with
  | mk q s1 =>
  obtain ⟨rc, q⟩ := q
  have hfail : ∀ {e : Rc} {t : St} {s : Sys} {b : List UInt8}, e ≠ .ok →
      Does cfg m (.cipher md id iv input) ⟨e, b, 8, t, s⟩ ⟨e, [], t, s⟩ :=
    fun he => ⟨rfl, rfl, rfl, Nat.le_refl _, fun e => absurd e he⟩
  cases rc with
  | ok =>
    cases q with
    | none => exact hfail (by simp)
    | some q =>
      obtain ⟨mt, key⟩ := q
      dsimp only
      by_cases hk : key.length = 16
      · rw [if_neg (fun h => h.2 hk), if_neg (show ¬key.length ≠ 16 from fun h => h hk)]
        cases hfa : env.fault 0 with
        | true => rw [if_pos (Or.inr rfl), if_pos rfl]; exact hfail (by simp [cryptoErr])
        | false =>
          rw [if_neg (by simp [hk]), if_neg (by simp), hap]
          refine ⟨rfl, rfl, rfl, by show 8 ≤ 8 + _; omega, fun _ => ⟨?_, ?_, ?_, ?_⟩⟩
          · show 8 + List.length _ ≤ 8 + _; rw [hal]
          · show w32 _ _ _ ++ _ = w32 _ _ _ ++ _; rw [hal, h.magic]
          · show List.length _ ≤ _; rw [hal]; omega
          · show List.length _ < _; rw [hal]; omega
      · rw [if_pos hk]
        by_cases hm : md = .decCbc
        · rw [if_pos ⟨hm, hk⟩, if_pos hm]; exact hfail (by simp)
        · rw [if_neg (fun h => hm h.1), if_pos (Or.inl hk), if_neg hm]; exact hfail (by simp [cryptoErr])
  | _ => exact hfail (by simp)

theorem does_genMac (hs : cfg.cr.Sized) (hp : Paired cfg.le cle m magicNative) {id : UInt8} {input : List UInt8} {room : Nat}
    (h : Arrived cle m pad (.genMac id input room) junk r) (hd : 8 + input.length ≤ cfg.ks.commLen) (h32 : input.length < 4294967296) :
    Does cfg m (.genMac id input room) (genMac cfg v env t s r) (Call.does cfg v env t s (.genMac id input room)) := by
  have hb : r.buf = w32 cle magicNative id.toUInt32 ++ (w32 cle magicNative (UInt32.ofNat input.length) ++ (input ++ junk)) := by
    rw [h.buf]; unfold request; dsimp only; rw [bytes32_eq, bytes32_eq]; simp only [List.append_assoc]
  have hlen : r.size = 8 + input.length := by rw [h.size]; unfold request; dsimp only; simp [bytes32_len]; omega
  have r0 : rd32 cfg.le r.magic r.buf 0 = id.toUInt32 := by rw [h.magic, hb]; exact rd32_here hp _
  have r4 : rd32 cfg.le r.magic r.buf 4 = UInt32.ofNat input.length := by
    rw [h.magic, hb, show (4 : Nat) = 0 + 4 from rfl, rd32_w32]; exact rd32_here hp _
  have hin : rdBytes r.buf 8 input.length = input := by
    rw [hb, show (8 : Nat) = 0 + 4 + 4 from rfl, rdBytes_w32, rdBytes_w32]; exact rdBytes_here rfl
  have hid : id.toUInt32.toUInt16 = id.toUInt16 := by
    rw [← UInt16.toNat_inj]; have := id.toNat_lt; simp
  unfold genMac Call.does withKey
  dsimp only
  rw [r0, r4, len32 h32, hlen, hin, hid]
  rw [if_neg (by omega), if_neg (by omega)]
  cases readSlot cfg v s id.toUInt16 with
  | mk q s1 =>
  obtain ⟨rc, q⟩ := q
  have hfail : ∀ {e : Rc} {t : St} {s : Sys} {b : List UInt8}, e ≠ .ok →
      Does cfg m (.genMac id input room) ⟨e, b, 20, t, s⟩ ⟨e, [], t, s⟩ :=
    fun he => ⟨rfl, rfl, rfl, Nat.le_refl _, fun e => absurd e he⟩
  cases rc with
  | ok =>
    cases q with
    | none => exact hfail (by simp)
    | some q =>
      obtain ⟨mt, key⟩ := q
      dsimp only
      repeat' split
      · exact hfail (by simp)
      · exact hfail (by simp [cryptoErr])
      · exact ⟨rfl, rfl, rfl, Nat.le_refl _, fun _ => ⟨Nat.le_refl _, rfl, hs.cmac _ _⟩⟩
  | _ => exact hfail (by simp)

theorem does_verifyMac (hp : Paired cfg.le cle m magicNative) {id : UInt8} {msg mac : List UInt8}
    (h : Arrived cle m pad (.verifyMac id msg mac) junk r) (hm : 16 ≤ mac.length)
    (hd : 16 + msg.length + 16 ≤ cfg.ks.commLen) (h32 : cfg.ks.commLen < 4294967296) :
    Does cfg m (.verifyMac id msg mac) (verifyMac cfg v env t s r) (Call.does cfg v env t s (.verifyMac id msg mac)) := by
  have hml : (mac.take 16).length = 16 := by rw [List.length_take]; omega
  have hb : r.buf = w32 cle magicNative id.toUInt32 ++ (w32 cle magicNative (UInt32.ofNat msg.length) ++ (w32 cle magicNative 16 ++
      ([pad 0, pad 1, pad 2, pad 3] ++ (msg ++ (mac.take 16 ++ junk))))) := by
    rw [h.buf]; unfold request; dsimp only; rw [bytes32_eq, bytes32_eq, bytes32_eq]; simp only [List.append_assoc]
  have hlen : r.size = 16 + (msg.length + 16) := by rw [h.size]; unfold request; dsimp only; simp [bytes32_len, hml]; omega
  have r0 : rd32 cfg.le r.magic r.buf 0 = id.toUInt32 := by rw [h.magic, hb]; exact rd32_here hp _
  have r4 : rd32 cfg.le r.magic r.buf 4 = UInt32.ofNat msg.length := by
    rw [h.magic, hb]; refine (rd32_w32 (k := 0)).trans ?_; exact rd32_here hp _
  have r8 : rd32 cfg.le r.magic r.buf 8 = 16 := by
    rw [h.magic, hb]; refine (rd32_w32 (k := 4)).trans ((rd32_w32 (k := 0)).trans ?_); exact rd32_here hp _
  have hin : rdBytes r.buf 16 msg.length = msg := by
    rw [hb]; refine (rdBytes_w32 (k := 12)).trans ((rdBytes_w32 (k := 8)).trans ((rdBytes_w32 (k := 4)).trans ?_))
    rw [rdBytes_skip (f := [pad 0, pad 1, pad 2, pad 3]) (n := 4) rfl]
    exact rdBytes_here rfl
  have hmac : rdBytes r.buf (16 + msg.length) 16 = mac.take 16 := by
    rw [hb, show 16 + msg.length = 0 + msg.length + 4 + 4 + 4 + 4 by omega, rdBytes_w32, rdBytes_w32, rdBytes_w32,
      rdBytes_skip (f := [pad 0, pad 1, pad 2, pad 3]) (n := 4) rfl, rdBytes_skip rfl]
    exact rdBytes_here hml
  have hid : id.toUInt32.toUInt16 = id.toUInt16 := by
    rw [← UInt16.toNat_inj]; have := id.toNat_lt; simp
  have htot : (UInt32.ofNat msg.length + 16).toNat = msg.length + 16 := by
    rw [UInt32.toNat_add, len32 (by omega)]
    show (msg.length + 16) % 4294967296 = _
    omega
  have hlt : ¬(UInt32.ofNat msg.length + 16 < UInt32.ofNat msg.length) := by
    rw [UInt32.lt_iff_toNat_lt, htot, len32 (by omega)]; omega
  unfold verifyMac Call.does
  dsimp only
  rw [r0, r4, r8, hlen, hid]
  rw [htot, len32 (by omega), show (16 : UInt32).toNat = 16 from rfl, hin, hmac]
  rw [if_neg (by omega), if_neg (by
    rintro (h | h | h)
    · exact hlt h
    · omega
    · omega)]
  cases readSlot cfg v s id.toUInt16 with
  | mk q s1 =>
  obtain ⟨rc, q⟩ := q
  have hfail : ∀ {e : Rc} {t : St} {s : Sys} {b : List UInt8}, e ≠ .ok →
      Does cfg m (.verifyMac id msg mac) ⟨e, b, 12, t, s⟩ ⟨e, [], t, s⟩ :=
    fun he => ⟨rfl, rfl, rfl, Nat.le_refl _, fun e => absurd e he⟩
  cases rc with
  | ok =>
    cases q with
    | none => exact hfail (by simp)
    | some q =>
      obtain ⟨mt, key⟩ := q
      dsimp only
      by_cases hk : key.length = 16
      · rw [if_neg (show ¬key.length ≠ 16 from fun h => h hk), if_neg (show ¬key.length ≠ 16 from fun h => h hk)]
        split
        · exact ⟨rfl, rfl, rfl, Nat.le_refl _, fun _ => ⟨Nat.le_refl _, rfl, rfl⟩⟩
        · exact ⟨rfl, rfl, rfl, Nat.le_refl _, fun _ => ⟨Nat.le_refl _, rfl, rfl⟩⟩
      · rw [if_pos hk, if_pos hk]; exact hfail (by simp)
  | _ => exact hfail (by simp)

/-! ## Whole calls -/

theorem action_ne (c : Call) : c.action ≠ 1 ∧ c.action ≠ 2 ∧ c.action ≠ 3 := by
  cases c with
  | cipher md => cases md <;> exact ⟨by simp [Call.action], by simp [Call.action], by simp [Call.action]⟩
  | _ => exact ⟨by simp [Call.action], by simp [Call.action], by simp [Call.action]⟩

theorem resetBoot_call (c : Call) (rc : Rc) (t : St) : resetBoot c.action rc t = t := by
  obtain ⟨h1, h2, h3⟩ := action_ne c
  unfold resetBoot
  rw [if_neg (by rintro ⟨h | h | h, _⟩ <;> contradiction)]

/-- The command of a call that is not refused. -/
theorem command_call (hs : cfg.cr.Sized) (hu : t.uid.length = 15) (hp : Paired cfg.le cle m magicNative) {dataLen : Nat} {c : Call}
    (h : Arrived cle m pad c junk r) (hc : c.Sane) (hr : refusal dataLen c = none) (hd : cfg.ks.commLen = dataLen)
    (h16 : dataLen < 65536) (ha : refused t c.action = false) :
    (c.locks = true ∧ env.lock ≠ .ok ∧ command cfg v env t s r = .inl env.lock) ∨
    (¬(c.locks = true ∧ env.lock ≠ .ok) ∧ ∃ x, command cfg v env t s r = .inr x ∧ Does cfg m c x (c.does cfg v env t s)) := by
  have hl : ∀ (P : Prop) (x : Res), (P → c.locks = true) → P → Does cfg m c x (c.does cfg v env t s) →
      command cfg v env t s r = (if env.lock = .ok then .inr x else .inl env.lock) →
      (c.locks = true ∧ env.lock ≠ .ok ∧ command cfg v env t s r = .inl env.lock) ∨
      (¬(c.locks = true ∧ env.lock ≠ .ok) ∧ ∃ x, command cfg v env t s r = .inr x ∧ Does cfg m c x (c.does cfg v env t s)) := by
    intro P x hP p hx hcmd
    by_cases hk : env.lock = .ok
    · rw [if_pos hk] at hcmd; exact .inr ⟨fun h => h.2 hk, x, hcmd, hx⟩
    · rw [if_neg hk] at hcmd; exact .inl ⟨hP p, hk, hcmd⟩
  have hact := h.action
  cases c with
  | setUid uid =>
    refine .inr ⟨(fun h => absurd h.1 (by simp [Call.locks])), setUid cfg t s r, by unfold command; rw [hact]; rfl, does_setUid h ?_ ?_⟩
    · unfold refusal at hr; dsimp only at hr; split at hr
      · cases hr
      · omega
    · simpa [refused, Call.action] using ha
  | getStatus => exact .inr ⟨(fun h => absurd h.1 (by simp [Call.locks])), getStatus t s r, by unfold command; rw [hact]; rfl, does_getStatus h⟩
  | loadKey m1 m2 m3 => exact hl True _ (fun _ => rfl) trivial (does_loadKey hs hu h hc) (by unfold command; rw [hact]; rfl)
  | loadPlain key =>
    refine hl True _ (fun _ => rfl) trivial (does_loadPlain h ?_) (by unfold command; rw [hact]; rfl)
    unfold refusal at hr; dsimp only at hr; split at hr
    · cases hr
    · omega
  | exportRam => exact hl True _ (fun _ => rfl) trivial (does_exportRam hs hu h) (by unfold command; rw [hact]; rfl)
  | initRnd => exact hl True _ (fun _ => rfl) trivial (does_initRnd h) (by unfold command; rw [hact]; rfl)
  | rnd room => exact .inr ⟨(fun h => absurd h.1 (by simp [Call.locks])), rnd cfg env t s r, by unfold command; rw [hact]; rfl, does_rnd hs h⟩
  | extendSeed e =>
    refine hl True _ (fun _ => rfl) trivial (does_extendSeed h ?_) (by unfold command; rw [hact]; rfl)
    unfold refusal at hr; dsimp only at hr; split at hr
    · cases hr
    · omega
  | cipher md id iv input =>
    have hr' : ¬(input.length < 16 ∨ (md.fixed = 24 ∧ iv.length < 16) ∨ md.fixed + input.length > dataLen) := by
      unfold refusal at hr; dsimp only at hr; split at hr
      · cases hr
      · assumption
    refine hl True _ (fun _ => rfl) trivial
      (does_cipher hs hp h (fun hf => by
        apply Nat.le_of_not_lt; intro hlt; exact hr' (.inr (.inl ⟨hf, hlt⟩))) ?_ ?_) ?_
    · rw [hd]; exact Nat.le_of_not_lt fun h => hr' (.inr (.inr h))
    · have : ¬(md.fixed + input.length > dataLen) := fun h => hr' (.inr (.inr h))
      omega
    · unfold command; rw [hact]; cases md <;> rfl
  | genMac id input room =>
    have hr' : ¬(input.length < 16 ∨ 8 + input.length > dataLen) := by
      unfold refusal at hr; dsimp only at hr; split at hr
      · cases hr
      · assumption
    exact hl True _ (fun _ => rfl) trivial (does_genMac hs hp h (by omega) (by omega)) (by unfold command; rw [hact]; rfl)
  | verifyMac id msg mac =>
    have hr' : ¬(msg.length < 16 ∨ mac.length < 16 ∨ 16 + msg.length + 16 > dataLen) := by
      unfold refusal at hr; dsimp only at hr; split at hr
      · cases hr
      · assumption
    exact hl True _ (fun _ => rfl) trivial (does_verifyMac hp h (by omega) (by omega) (by omega)) (by unfold command; rw [hact]; rfl)

/-- The refusal of a call in the wrong state has the size the client expects. -/
theorem refusal_call (c : Call) (ha : refused t c.action = true) :
    ∃ body size, She.refusal env c.action = some (body, size) ∧ c.least ≤ size := by
  cases c with
  | cipher md => cases md <;> exact ⟨_, _, rfl, Nat.le_refl _⟩
  | getStatus => exact absurd ha (by simp [refused, Call.action])
  | _ => exact ⟨_, _, rfl, Nat.le_refl _⟩

theorem receive_empty (c : Call) : receive cle c [] = (Rc.aborted.code, none) := by
  cases c <;> rfl

end

theorem run_served {pad : Fin 4 → UInt8} {junk : List UInt8} {seq : UInt16} {dataLen : Nat} {c : Call}
    (hs : cfg.cr.Sized) (hu : t.uid.length = 15) (hc : c.Sane) (hr : refusal dataLen c = none) (hq : lateRefusal c = false)
    (hd : cfg.ks.commLen = dataLen) (h16 : dataLen < 65536) :
    run cle dataLen pad (fun a b => .got (served cfg cle v env seq junk t s a b).1) c = result (c.performed cfg v env t s) ∧
    (served cfg cle v env seq junk t s c.action (request cle pad c)).2 = states t s (c.performed cfg v env t s) := by
  have hp := paired_server cle cfg.le rfl
  have hrun : run cle dataLen pad (fun a b => .got (served cfg cle v env seq junk t s a b).1) c =
      receive cle c (served cfg cle v env seq junk t s c.action (request cle pad c)).1 := by
    unfold run; rw [hr]; dsimp only; rw [if_neg (by rw [hq]; decide)]
  rw [hrun]
  unfold served
  dsimp only
  generalize hr0 : (⟨if cfg.le = cle then magicNative else magicSwap, c.action, seq, request cle pad c ++ junk,
    (request cle pad c).length⟩ : Req) = r
  have h : Arrived cle (if cfg.le = cle then magicNative else magicSwap) pad c junk r := by
    rw [← hr0]; exact ⟨rfl, rfl, rfl, rfl⟩
  unfold handle Call.performed
  rw [h.action]
  by_cases ha : refused t c.action = true
  · rw [if_pos ha, if_pos ha]
    obtain ⟨body, size, hb, hsz⟩ := refusal_call (env := env) c ha
    rw [hb]
    refine ⟨?_, rfl⟩
    dsimp only [result]
    rw [if_neg (by simp)]
    refine receive_error (rc := .sheSequenceError) ?_ ?_ (by decide)
    · rw [She.over_length]; omega
    · unfold over
      rw [h.magic, List.append_assoc, rd32_here hp]
  · rw [if_neg ha, if_neg ha]
    rcases command_call (v := v) (env := env) (s := s) hs hu hp.symm h hc hr hd h16 (by simpa using ha) with ⟨h1, h2, h3⟩ | ⟨h1, x, h3, hx⟩
    · rw [h3, if_pos ⟨h1, h2⟩]
      exact ⟨receive_empty c, by dsimp only [states]; rw [resetBoot_call]⟩
    · rw [h3, if_neg h1]
      dsimp only [result, states]
      rw [resetBoot_call, hx.st, hx.sys]
      refine ⟨?_, rfl⟩
      by_cases ho : (c.does cfg v env t s).rc = .ok
      · rw [if_pos ho]
        exact receive_ok hp h.magic (hx.ret.trans ho) (hx.out ho)
      · rw [if_neg ho]
        have hb := back hp h.magic x
        rw [hx.ret] at hb
        exact receive_error (Nat.le_trans hx.least hb.1) hb.2.1 (translate_code ho)

theorem command_uid' {r : Req} {x : Res} (h : command cfg v env t s r = .inr x) (h0 : r.action ≠ 0) : x.st.uid = t.uid := by
  refine command_elim (P := fun x => x.st.uid = t.uid) h ?_ ?_ ?_ ?_ ?_ ?_ ?_ ?_ ?_ ?_ ?_ ?_ ?_ ?_
  · exact fun h => absurd h h0
  · intro _; unfold sbInit; dsimp only; repeat' split
    all_goals rfl
  · intro _; unfold sbUpdate; dsimp only; repeat' split
    all_goals rfl
  · intro _; unfold sbFinish; dsimp only; repeat' split
    all_goals rfl
  · intro _; rw [getStatus_st]
  · intro _; unfold loadKey; dsimp only; repeat' split
    all_goals rfl
  · intro _; unfold loadPlain; dsimp only; repeat' split
    all_goals rfl
  · intro _; rw [exportRam_st]
  · intro _; unfold initRnd; dsimp only; repeat' split
    all_goals rfl
  · intro _; unfold rnd; dsimp only; repeat' split
    all_goals rfl
  · intro _; unfold extendSeed; dsimp only; repeat' split
    all_goals rfl
  · intro _ _; rw [cipher_st]
  · intro _; rw [genMac_st]
  · intro _; rw [verifyMac_st]

/-- The UID has 15 bytes. -/
theorem handle_uid15 {r : Req} (hv : r.size ≤ r.buf.length) (h : t.uid.length = 15) : (handle cfg v env t s r).2.1.uid.length = 15 := by
  have hr : ∀ a rc u, (resetBoot a rc u).uid = u.uid := by
    intro a rc u; unfold resetBoot; split <;> rfl
  unfold handle
  split
  · split <;> exact h
  · cases hc : command cfg v env t s r with
    | inl rc => dsimp only; rw [hr]; exact h
    | inr x =>
      dsimp only; rw [hr]
      by_cases ha : r.action = 0
      · have : x = setUid cfg t s r := by
          unfold command at hc
          rw [if_pos ha] at hc
          injection hc with hc
          exact hc.symm
        subst this
        unfold setUid
        repeat' split
        · exact h
        · exact h
        · show (rdBytes r.buf 0 15).length = 15
          unfold rdBytes
          rw [List.length_take, List.drop_zero]
          omega
      · rw [command_uid' hc ha]; exact h

end WolfHsm.ClientShe

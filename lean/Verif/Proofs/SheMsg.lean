import Verif.Proofs.SheSeq

/-!
# SHE requests and the bytes they may use
-/

namespace WolfHsm.She

open Keystore (Sys Srv)
open Server (Req)
open Wire

/-- The same received bytes: the buffers may differ after them. -/
structure SameData (r r' : Req) : Prop where
  magic : r'.magic = r.magic
  action : r'.action = r.action
  size : r'.size = r.size
  data : r'.buf.take r.size = r.buf.take r.size

theorem rdBytes_take {b : List UInt8} {n off len : Nat} (h : off + len ≤ n) :
    rdBytes (b.take n) off len = rdBytes b off len := by
  unfold rdBytes
  rw [List.drop_take, List.take_take, Nat.min_eq_left (by omega)]

theorem rd32_take {le : Bool} {m : UInt16} {b : List UInt8} {n off : Nat} (h : off + 4 ≤ n) :
    rd32 le m (b.take n) off = rd32 le m b off := by
  have := rdBytes_take (b := b) h
  unfold rdBytes at this
  unfold rd32
  rw [this]

theorem SameData.bytes {r r' : Req} (h : SameData r r') {off n : Nat} (hn : off + n ≤ r.size) :
    rdBytes r'.buf off n = rdBytes r.buf off n := by
  rw [← rdBytes_take hn, h.data, rdBytes_take hn]

theorem SameData.word {r r' : Req} (h : SameData r r') {le : Bool} {m : UInt16} {off : Nat} (hn : off + 4 ≤ r.size) :
    rd32 le m r'.buf off = rd32 le m r.buf off := by
  rw [← rd32_take hn, h.data, rd32_take hn]

theorem SameData.byte {r r' : Req} (h : SameData r r') {off : Nat} (hn : off < r.size) :
    r'.buf.getD off 0 = r.buf.getD off 0 := by
  have := congrArg (fun l => l.getD off 0) h.data
  simpa [List.getD_eq_getElem?_getD, List.getElem?_take, hn] using this

variable {cfg : Cfg} {v : Srv} {env : Env} {t : St} {s : Sys} {r r' : Req}

theorem status_same (h : SameData r r') (a b : Rc) : status cfg r' a b = status cfg r a b := by
  unfold status; rw [h.magic]

theorem setUid_same (h : SameData r r') : setUid cfg t s r' = setUid cfg t s r := by
  unfold setUid
  rw [h.size]
  split
  · rfl
  · rw [h.bytes (by omega)]

theorem sbInit_same (h : SameData r r') : sbInit cfg v env t s r' = sbInit cfg v env t s r := by
  unfold sbInit
  simp only [status_same h, h.size, h.magic]
  split
  · rfl
  · rw [h.word (by omega)]

theorem sbUpdate_same (h : SameData r r') : sbUpdate cfg env t s r' = sbUpdate cfg env t s r := by
  unfold sbUpdate
  simp only [status_same h, h.size, h.magic]
  split
  · rfl
  · rw [h.word (by omega)]
    split
    · rfl
    · split
      · rfl
      · rename_i hn
        rw [h.bytes (by omega)]

theorem sbFinish_same (h : SameData r r') : sbFinish cfg v env t s r' = sbFinish cfg v env t s r := by
  unfold sbFinish
  simp only [h.size, h.magic]

theorem getStatus_same (h : SameData r r') : getStatus t s r' = getStatus t s r := by
  unfold getStatus
  rw [h.size]

theorem loadKey_same (h : SameData r r') : loadKey cfg v env t s r' = loadKey cfg v env t s r := by
  unfold loadKey
  simp only [h.size]
  by_cases h64 : r.size < 64
  · rw [if_pos h64, if_pos h64]
  · rw [if_neg h64, if_neg h64, h.bytes (by omega), h.bytes (by omega), h.bytes (by omega)]

theorem loadPlain_same (h : SameData r r') : loadPlain cfg v t s r' = loadPlain cfg v t s r := by
  unfold loadPlain
  simp only [h.size]
  by_cases h16 : r.size < 16
  · rw [if_pos h16, if_pos h16]
  · rw [if_neg h16, if_neg h16, h.bytes (by omega)]

theorem exportRam_same (h : SameData r r') : exportRam cfg v env t s r' = exportRam cfg v env t s r := by
  unfold exportRam
  simp only [h.size]

theorem initRnd_same (h : SameData r r') : initRnd cfg v env t s r' = initRnd cfg v env t s r := by
  unfold initRnd
  simp only [status_same h, h.size]

theorem rnd_same (h : SameData r r') : rnd cfg env t s r' = rnd cfg env t s r := by
  unfold rnd
  rw [h.size]

theorem extendSeed_same (h : SameData r r') : extendSeed cfg v env t s r' = extendSeed cfg v env t s r := by
  unfold extendSeed
  simp only [status_same h, h.size]
  by_cases h16 : r.size < 16
  · rw [if_pos h16, if_pos h16]
  · rw [if_neg h16, if_neg h16, h.bytes (by omega)]

theorem cipher_same (h : SameData r r') (m : Mode) : cipher cfg v env t s r' m = cipher cfg v env t s r m := by
  have hf : 8 ≤ m.fixed ∧ (m.fixed = 8 → ∀ cr k iv iv' n d, m.apply cr k iv n d = m.apply cr k iv' n d) := by
    cases m <;> exact ⟨by decide, fun h => by first | (intros; rfl) | cases h⟩
  have hf' : m.fixed = 8 ∨ m.fixed = 24 := by cases m <;> decide
  unfold cipher
  simp only [h.size, h.magic]
  split
  · rfl
  · rw [h.word (by omega)]
    split
    · rfl
    · split
      · rfl
      · rename_i hn _
        rw [h.byte (by omega), h.bytes (off := m.fixed) (by omega)]
        rcases hf' with e | e
        · simp only [hf.2 e _ _ (rdBytes r'.buf 8 16) (rdBytes r.buf 8 16)]
        · rw [h.bytes (off := 8) (by omega)]

theorem genMac_same (h : SameData r r') : genMac cfg v env t s r' = genMac cfg v env t s r := by
  unfold genMac
  simp only [h.size, h.magic]
  split
  · rfl
  · rw [h.word (off := 4) (by omega), h.word (off := 0) (by omega)]
    split
    · rfl
    · rw [h.bytes (by omega)]

theorem verifyMac_same (h : SameData r r') : verifyMac cfg v env t s r' = verifyMac cfg v env t s r := by
  unfold verifyMac
  simp only [h.size, h.magic]
  split
  · rfl
  · rw [h.word (off := 4) (by omega), h.word (off := 0) (by omega), h.word (off := 8) (by omega)]
    split
    · rfl
    · rename_i hn
      generalize rd32 cfg.le r.magic r.buf 4 = ml at *
      generalize rd32 cfg.le r.magic r.buf 8 = cl at *
      have hsum : ml.toNat + cl.toNat = (ml + cl).toNat := by
        have h1 : ¬(ml + cl).toNat < ml.toNat := fun hc => hn (Or.inl (UInt32.lt_iff_toNat_lt.2 hc))
        have := ml.toNat_lt
        have := cl.toNat_lt
        rw [UInt32.toNat_add] at h1 ⊢
        omega
      rw [h.bytes (off := 16) (by omega), h.bytes (off := 16 + ml.toNat) (by omega)]

/-- The commands use the received bytes only. -/
theorem command_same (h : SameData r r') : command cfg v env t s r' = command cfg v env t s r := by
  unfold command
  simp only [h.action, setUid_same h, sbInit_same h, sbUpdate_same h, sbFinish_same h, getStatus_same h,
    loadKey_same h, loadPlain_same h, exportRam_same h, initRnd_same h, rnd_same h, extendSeed_same h,
    cipher_same h, genMac_same h, verifyMac_same h]

/-! ## The UID and the size of the responses -/

theorem command_uid {x : Res} (h : command cfg v env t s r = .inr x) :
    x.st.uid = t.uid ∨ x.st.uid.length ≤ 15 := by
  refine command_elim (P := fun x => x.st.uid = t.uid ∨ x.st.uid.length ≤ 15) h ?_ ?_ ?_ ?_ ?_ ?_ ?_ ?_ ?_ ?_ ?_ ?_ ?_ ?_
  · intro _
    unfold setUid
    repeat' split
    · exact Or.inl rfl
    · exact Or.inl rfl
    · refine Or.inr ?_
      show (rdBytes r.buf 0 15).length ≤ 15
      unfold rdBytes
      rw [List.length_take]
      exact Nat.min_le_left _ _
  · intro _; left; unfold sbInit; dsimp only; repeat' split
    all_goals rfl
  · intro _; left; unfold sbUpdate; dsimp only; repeat' split
    all_goals rfl
  · intro _; left; unfold sbFinish; dsimp only; repeat' split
    all_goals rfl
  · intro _; left; rw [getStatus_st]
  · intro _; left; unfold loadKey; dsimp only; repeat' split
    all_goals rfl
  · intro _; left; unfold loadPlain; dsimp only; repeat' split
    all_goals rfl
  · intro _; left; rw [exportRam_st]
  · intro _; left; unfold initRnd; dsimp only; repeat' split
    all_goals rfl
  · intro _; left; unfold rnd; dsimp only; repeat' split
    all_goals rfl
  · intro _; left; unfold extendSeed; dsimp only; repeat' split
    all_goals rfl
  · intro _ _; left; rw [cipher_st]
  · intro _; left; rw [genMac_st]
  · intro _; left; rw [verifyMac_st]

theorem handle_uid (h : t.uid.length ≤ 15) : (handle cfg v env t s r).2.1.uid.length ≤ 15 := by
  have hr : ∀ a rc u, (resetBoot a rc u).uid = u.uid := by
    intro a rc u; unfold resetBoot; split <;> rfl
  unfold handle
  split
  · split <;> exact h
  · cases hc : command cfg v env t s r with
    | inl rc => dsimp only; rw [hr]; exact h
    | inr x =>
      dsimp only; rw [hr]
      rcases command_uid hc with e | e
      · rw [e]; exact h
      · exact e

variable {ncfg : NvmServer.Cfg}

theorem step_uid {w : World} (h : ∀ x, (w.she x).uid.length ≤ 15) (e : Ev) (x : Nat) :
    ((step cfg ncfg w e).2.she x).uid.length ≤ 15 := by
  by_cases he : e.isRestart
  · rw [restart_she he]; decide
  · by_cases hx : ∀ v env r, e = .she v env r → v.ctx ≠ x
    · rw [step_she_other he hx]; exact h x
    · simp only [Classical.not_forall, Classical.not_not] at hx
      obtain ⟨v, env, r, rfl, rfl⟩ := hx
      cases hp : w.sys.nvm.powered with
      | false => simp only [step, hp]; exact h _
      | true =>
        rw [step_she hp, set_ctx]
        exact handle_uid (h _)

theorem run_uid {w : World} (h : ∀ x, (w.she x).uid.length ≤ 15) (evs : List Ev) :
    ∀ x, ((run cfg ncfg w evs).she x).uid.length ≤ 15 := by
  induction evs using snoc_induction with
  | h0 => exact h
  | h1 evs e ih => rw [run_snoc]; exact step_uid ih e

theorem Reach.uid {w : World} (h : Reach cfg ncfg w) (x : Nat) : (w.she x).uid.length ≤ 15 := by
  obtain ⟨w0, evs, h0, _, rfl⟩ := h
  exact run_uid (fun x => by rw [h0.1 x]; decide) evs x

theorem over_length (f b : List UInt8) (n : Nat) : (over f b n).length = max f.length n := by
  unfold over
  simp only [List.length_append, List.length_take, List.length_drop, List.length_replicate]
  omega

theorem w32_length (le : Bool) (m : UInt16) (x : UInt32) : (w32 le m x).length = 4 := by
  unfold w32 Utils.bytes32; split <;> rfl

theorem status_length (a b : Rc) : (status cfg r a b).length = 4 := w32_length _ _ _

theorem put_length {b src : List UInt8} {off : Nat} (h : off + src.length ≤ b.length) :
    (put b off src).length = b.length := by
  unfold put
  simp only [List.length_append, List.length_take, List.length_drop]
  omega

theorem cbcDec_le (hs : cfg.cr.Sized) (key : List UInt8) (n : Nat) : ∀ iv d, (cbcDec cfg.cr key n iv d).length ≤ 16 * n := by
  induction n with
  | zero => intro iv d; exact Nat.le_refl _
  | succ n ih =>
    intro iv d
    unfold cbcDec
    have := ih (d.take 16) (d.drop 16)
    rw [List.length_append, xorBytes_length]
    have := hs.dec key (d.take 16)
    omega

theorem ecb_length (hs : cfg.cr.Sized) (key : List UInt8) (n : Nat) : ∀ d,
    (ecbEnc cfg.cr key n d).length = 16 * n ∧ (ecbDec cfg.cr key n d).length = 16 * n := by
  induction n with
  | zero => intro d; exact ⟨rfl, rfl⟩
  | succ n ih =>
    intro d
    obtain ⟨h1, h2⟩ := ih (d.drop 16)
    unfold ecbEnc ecbDec
    rw [List.length_append, List.length_append, hs.enc, hs.dec]
    omega

theorem apply_le (hs : cfg.cr.Sized) (key iv : List UInt8) (n : Nat) (d : List UInt8) (m : Mode) :
    (m.apply cfg.cr key iv n d).length ≤ 16 * n := by
  cases m
  · exact Nat.le_of_eq (ecb_length hs key n d).1
  · exact Nat.le_of_eq (cbcEnc_length hs key n iv d)
  · exact Nat.le_of_eq (ecb_length hs key n d).2
  · exact cbcDec_le hs key n iv d

/-- A response whose fields lie inside its declared size, which fits the packet. -/
def Fit (cfg : Cfg) (x : Res) : Prop := x.body.length + 4 ≤ x.size ∧ x.size ≤ max 116 cfg.ks.commLen

theorem answer_length (hs : cfg.cr.Sized) (hu : t.uid.length ≤ 15) (m1 : List UInt8) (md : NvmFlash.Meta) (key : List UInt8) :
    (answer cfg env t m1 md key).2.length ≤ 48 := by
  unfold answer
  dsimp only
  split
  · simp [zeros_length]
  · split <;> simp [zeros_length, hs.enc, hs.cmac] <;> omega

theorem loadKey_fit (hs : cfg.cr.Sized) (hu : t.uid.length ≤ 15) : Fit cfg (loadKey cfg v env t s r) := by
  have h : ∀ {rc : Rc} {b : List UInt8} {t' : St} {s' : Sys}, b.length ≤ 48 → Fit cfg ⟨rc, b, 52, t', s'⟩ := by
    intro rc b t' s' hb; exact ⟨by dsimp only; omega, by dsimp only; omega⟩
  have h0 : ∀ {rc : Rc} {t' : St} {s' : Sys}, Fit cfg ⟨rc, zeros 48, 52, t', s'⟩ :=
    h (by simp [zeros_length])
  unfold loadKey
  dsimp only
  split
  · exact h0
  split
  · exact h0
  split
  · exact h0
  split
  · split
    · exact h (answer_length hs hu _ _ _)
    · exact h0
  · exact h0

theorem exportRam_fit (hw : Keystore.WF s) (hs : cfg.cr.Sized) (hu : t.uid.length ≤ 15) :
    Fit cfg (exportRam cfg v env t s r) := by
  have h : ∀ {rc : Rc} {b : List UInt8} {t' : St} {s' : Sys}, b.length ≤ 112 → Fit cfg ⟨rc, b, 116, t', s'⟩ := by
    intro rc b t' s' hb; exact ⟨by dsimp only; omega, by dsimp only; omega⟩
  unfold exportRam
  dsimp only
  split
  · exact h (by simp [zeros_length])
  split
  · exact h (by simp [zeros_length])
  split
  · rename_i hrd
    split
    · exact h (by simp [zeros_length]; omega)
    split
    · rename_i hrd2
      have hl := (readSlot_ok ((readSlot_step hw hrd).wf hw) hrd2).2.1
      repeat' split
      all_goals refine h ?_
      · rename_i ram _ _
        have : (exportClear ram).length = 32 := put_length (b := Utils.bytes32 false 16 ++ zeros 28) (off := 16)
          (src := ram) (by simp [zeros_length, Utils.bytes32]; omega)
        simp only [List.length_append, this, zeros_length, List.length_cons, List.length_nil]
        omega
      all_goals
        simp only [List.length_append, cbcEnc_length hs, zeros_length, hs.cmac, hs.enc, List.length_cons, List.length_nil]
        omega
    · exact h (by simp [zeros_length, Utils.bytes32]; try omega)
  · exact h (by simp [zeros_length])

theorem cipher_fit (hs : cfg.cr.Sized) (m : Mode) : Fit cfg (cipher cfg v env t s r m) := by
  have h : ∀ {rc : Rc} {s' : Sys}, Fit cfg ⟨rc, w32 cfg.le r.magic 0, 8, t, s'⟩ := by
    intro rc s'; exact ⟨by simp [w32_length], by dsimp only; omega⟩
  unfold cipher
  dsimp only
  split
  · exact h
  split
  · exact h
  split
  · exact h
  split
  · split
    · exact h
    split
    · exact h
    · have := apply_le hs ‹_› (rdBytes r.buf 8 16) (((rd32 cfg.le r.magic r.buf 0).toNat - (rd32 cfg.le r.magic r.buf 0).toNat % 16) / 16)
        (rdBytes r.buf m.fixed ((rd32 cfg.le r.magic r.buf 0).toNat - (rd32 cfg.le r.magic r.buf 0).toNat % 16)) m
      constructor
      · dsimp only
        rw [List.length_append, w32_length]
        omega
      · dsimp only; omega
  · exact h

theorem command_fit (hw : Keystore.WF s) (hs : cfg.cr.Sized) (hu : t.uid.length ≤ 15) {x : Res}
    (h : command cfg v env t s r = .inr x) : Fit cfg x := by
  have h8 : ∀ {rc a b : Rc} {t' : St} {s' : Sys}, Fit cfg ⟨rc, status cfg r a b, 8, t', s'⟩ := by
    intro rc a b t' s'; exact ⟨by simp [status_length], by dsimp only; omega⟩
  have hg : ∀ {rc : Rc} {n m : Nat} {b : List UInt8} {t' : St} {s' : Sys}, b.length = n → n + 4 ≤ m → m ≤ 116 → Fit cfg ⟨rc, b, m, t', s'⟩ := by
    intro rc n m b t' s' h1 h2 h3; exact ⟨by dsimp only; omega, by dsimp only; omega⟩
  refine command_elim (P := Fit cfg) h ?_ ?_ ?_ ?_ ?_ ?_ ?_ ?_ ?_ ?_ ?_ ?_ ?_ ?_
  · intro _; unfold setUid; repeat' split
    all_goals exact hg (n := 0) rfl (by decide) (by decide)
  · intro _; unfold sbInit; dsimp only; repeat' split
    all_goals exact h8
  · intro _; unfold sbUpdate; dsimp only; repeat' split
    all_goals exact h8
  · intro _; unfold sbFinish; dsimp only; repeat' split
    all_goals exact hg (w32_length _ _ _) (by decide) (by decide)
  · intro _; unfold getStatus; dsimp only; split
    all_goals exact hg (n := 1) rfl (by decide) (by decide)
  · intro _; exact loadKey_fit hs hu
  · intro _; unfold loadPlain; dsimp only; repeat' split
    all_goals exact hg (n := 0) rfl (by decide) (by decide)
  · intro _; exact exportRam_fit hw hs hu
  · intro _; unfold initRnd; dsimp only; repeat' split
    all_goals exact h8
  · intro _; unfold rnd; dsimp only; repeat' split
    all_goals first
      | exact hg (zeros_length 16) (by decide) (by decide)
      | exact hg (cbcEnc_length hs _ 1 _ _) (by decide) (by decide)
  · intro _; unfold extendSeed; dsimp only; repeat' split
    all_goals exact h8
  · intro m _; exact cipher_fit hs m
  · intro _; unfold genMac; dsimp only; repeat' split
    all_goals first
      | exact hg (zeros_length 16) (by decide) (by decide)
      | exact hg (hs.cmac _ _) (by decide) (by decide)
  · intro _; unfold verifyMac; dsimp only; repeat' split
    all_goals exact hg (n := 1) rfl (by decide) (by decide)

theorem bytes_length (o n : Nat) : (env.bytes o n).length = n := by simp [Env.bytes]

/-- No response is longer than the packet buffer (of at least 116 bytes). -/
theorem handle_fits (hw : Keystore.WF s) (hs : cfg.cr.Sized) (hu : t.uid.length ≤ 15) :
    (handle cfg v env t s r).1.2.length ≤ max 116 cfg.ks.commLen := by
  unfold handle
  split
  · have : ∀ body size, refusal env r.action = some (body, size) → body.length + 4 ≤ size ∧ size ≤ 116 := by
      intro body size h
      unfold refusal at h
      repeat' split at h
      all_goals (cases h; try simp [bytes_length])
    cases hr : refusal env r.action with
    | none => exact Nat.zero_le _
    | some p =>
      obtain ⟨body, size⟩ := p
      obtain ⟨h1, h2⟩ := this _ _ hr
      dsimp only
      rw [over_length, List.length_append, w32_length]
      omega
  · cases hc : command cfg v env t s r with
    | inl rc => exact Nat.zero_le _
    | inr x =>
      obtain ⟨h1, h2⟩ := command_fit hw hs hu hc
      show (x.packet cfg r).length ≤ _
      unfold Res.packet
      rw [over_length, List.length_append, w32_length]
      omega

/-- Where two packets differ they hold what the buffers held. -/
theorem over_same (f b b' : List UInt8) (n i : Nat) :
    (over f b' n)[i]? = (over f b n)[i]? ∨
      f.length ≤ i ∧ (over f b n)[i]? = (b ++ List.replicate n 0)[i]? ∧
        (over f b' n)[i]? = (b' ++ List.replicate n 0)[i]? := by
  unfold over
  by_cases h : i < f.length
  · left; rw [List.getElem?_append_left h, List.getElem?_append_left h]
  · have h := Nat.le_of_not_lt h
    rw [List.getElem?_append_right h, List.getElem?_append_right h]
    by_cases hn : i < n
    · right
      refine ⟨h, ?_, ?_⟩ <;>
      · rw [List.getElem?_take, if_pos (by omega), List.getElem?_drop, Nat.add_sub_cancel' h]
    · left
      rw [List.getElem?_take, if_neg (by omega), List.getElem?_take, if_neg (by omega)]

/-- A badly sized request fails in its size check or before it. -/
theorem command_sized {x : Res} (h : command cfg v env t s r = .inr x) (hb : ¬WellSized cfg r) :
    x.sys = s ∧ x.ret ≠ .ok ∧ (x.st = t ∨ r.action = 2) := by
  unfold WellSized at hb
  extract_lets field at hb
  refine command_elim (P := fun x => x.sys = s ∧ x.ret ≠ .ok ∧ (x.st = t ∨ r.action = 2)) h
    ?_ ?_ ?_ ?_ ?_ ?_ ?_ ?_ ?_ ?_ ?_ ?_ ?_ ?_
  · intro a; simp [a] at hb; unfold setUid; rw [if_pos (by omega)]; exact ⟨rfl, nofun, Or.inl rfl⟩
  · intro a; simp [a] at hb; unfold sbInit; rw [if_pos (by omega)]; exact ⟨rfl, nofun, Or.inl rfl⟩
  · intro a
    simp only [a] at hb
    simp at hb
    unfold sbUpdate
    by_cases h8 : r.size < 8
    · rw [if_pos h8]; exact ⟨rfl, nofun, Or.inl rfl⟩
    · rw [if_neg h8]
      by_cases hu : t.sb ≠ .update
      · rw [if_pos hu]; exact ⟨rfl, nofun, Or.inl rfl⟩
      · have := hb (by omega)
        dsimp only [field] at this
        dsimp only
        rw [if_neg hu, if_pos (Or.inr (by omega))]; exact ⟨rfl, nofun, Or.inl rfl⟩
  · intro a; simp [a] at hb; unfold sbFinish; rw [if_pos (by omega)]; exact ⟨rfl, nofun, Or.inl rfl⟩
  · intro a; simp [a] at hb; unfold getStatus; rw [if_pos (by omega)]; exact ⟨rfl, nofun, Or.inl rfl⟩
  · intro a; simp [a] at hb; unfold loadKey; rw [if_pos (by omega)]; exact ⟨rfl, nofun, Or.inl rfl⟩
  · intro a; simp [a] at hb; unfold loadPlain; rw [if_pos (by omega)]; exact ⟨rfl, nofun, Or.inl rfl⟩
  · intro a; simp [a] at hb; unfold exportRam; rw [if_pos (by omega)]; exact ⟨rfl, nofun, Or.inl rfl⟩
  · intro a; simp [a] at hb; unfold initRnd; rw [if_pos (by omega)]; exact ⟨rfl, nofun, Or.inl rfl⟩
  · intro a; simp [a] at hb; unfold rnd; rw [if_pos (by omega)]; exact ⟨rfl, nofun, Or.inl rfl⟩
  · intro a; simp [a] at hb; unfold extendSeed; rw [if_pos (by omega)]; exact ⟨rfl, nofun, Or.inl rfl⟩
  · intro m hm
    have hk : m.fixed ≤ r.size → r.size < m.fixed + field 0 / 16 * 16 := by
      rcases hm with ⟨rfl, a⟩ | ⟨rfl, a⟩ | ⟨rfl, a⟩ | ⟨rfl, a⟩ <;>
      · simp only [a] at hb
        simp at hb
        intro h
        simp only [Mode.fixed] at h ⊢
        have := hb h
        omega
    unfold cipher
    by_cases h8 : r.size < m.fixed
    · rw [if_pos h8]; exact ⟨rfl, nofun, Or.inl rfl⟩
    · have := hk (by omega)
      dsimp only [field] at this
      dsimp only
      rw [if_neg h8, if_pos (Or.inr (by omega))]; exact ⟨rfl, nofun, Or.inl rfl⟩
  · intro a
    simp only [a] at hb
    simp at hb
    unfold genMac
    by_cases h8 : r.size < 8
    · rw [if_pos h8]; exact ⟨rfl, nofun, Or.inl rfl⟩
    · have := hb (by omega)
      dsimp only [field] at this
      dsimp only
      rw [if_neg h8, if_pos (Or.inr (by omega))]; exact ⟨rfl, nofun, Or.inl rfl⟩
  · intro a
    simp only [a] at hb
    simp at hb
    unfold verifyMac
    by_cases h8 : r.size < 16
    · rw [if_pos h8]; exact ⟨rfl, nofun, Or.inl rfl⟩
    · have := hb (by omega)
      dsimp only [field] at this
      dsimp only
      generalize rd32 cfg.le r.magic r.buf 4 = ml at *
      generalize rd32 cfg.le r.magic r.buf 8 = cl at *
      rw [if_neg h8, if_pos]
      · exact ⟨rfl, nofun, Or.inl rfl⟩
      · by_cases hlt : ml + cl < ml
        · exact Or.inl hlt
        · have h1 : ¬(ml + cl).toNat < ml.toNat := fun hc => hlt (UInt32.lt_iff_toNat_lt.2 hc)
          have := ml.toNat_lt
          have := cl.toNat_lt
          refine Or.inr (Or.inr ?_)
          rw [UInt32.toNat_add] at h1 ⊢
          omega

end WolfHsm.She

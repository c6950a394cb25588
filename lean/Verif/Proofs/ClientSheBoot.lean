import Verif.Proofs.ClientShe

/-!
# Proofs about the secure boot of an image in packets
-/

namespace WolfHsm.ClientShe

open Keystore (Sys Srv)
open She hiding refusal run step
open Wire hiding w32_length over_length
open Utils (bytes32 magicNative magicSwap)
open ClientHash (Ret Reply)
open Server (Req)

variable {cfg : She.Cfg} {v : Srv} {cle : Bool} {step : Nat → Step} {w : Nat × St}

/-- The request the server finds. -/
def req (cfg : She.Cfg) (cle : Bool) (e : Step) (a : UInt16) (body : List UInt8) : Req :=
  ⟨if cfg.le = cle then magicNative else magicSwap, a, e.seq, body ++ e.junk, body.length⟩

/-- An exchange of the secure boot that the client takes for done: the code it gets, and the state
afterwards. -/
theorem ask_done (hl : ∀ k rc, (step k).lost = some rc → rc ≠ 0) {a : UInt16} (ha : a = 1 ∨ a = 2 ∨ a = 3) {body : List UInt8}
    (h : (ask cle (bootPeer cfg cle v step) w a body).1.1 = 0) :
    (step w.1).lost = none ∧
    ((refused w.2 a = true ∧ ask cle (bootPeer cfg cle v step) w a body = ((0, Rc.sheSequenceError.code), (w.1 + 1, w.2))) ∨
     (refused w.2 a = false ∧ ∃ x, command cfg v (step w.1).env w.2 (step w.1).sys (req cfg cle (step w.1) a body) = .inr x ∧
      (ask cle (bootPeer cfg cle v step) w a body) = ((0, (translate x.ret).code), (w.1 + 1, resetBoot a x.ret x.st)))) := by
  have hp := paired_server cle cfg.le rfl
  unfold ask bootPeer at h ⊢
  dsimp only at h ⊢
  cases hlo : (step w.1).lost with
  | some rc =>
    rw [hlo] at h
    exact absurd h (hl _ _ hlo)
  | none =>
    rw [hlo] at h
    refine ⟨rfl, ?_⟩
    dsimp only at h ⊢
    unfold served at h ⊢
    dsimp only at h ⊢
    rw [show (⟨if cfg.le = cle then magicNative else magicSwap, a, (step w.1).seq, body ++ (step w.1).junk, body.length⟩ : Req) =
      req cfg cle (step w.1) a body from rfl] at h ⊢
    generalize hr0 : req cfg cle (step w.1) a body = r at h ⊢
    have hact : r.action = a := by rw [← hr0]; rfl
    have hm : r.magic = if cfg.le = cle then magicNative else magicSwap := by rw [← hr0]; rfl
    unfold handle at h ⊢
    rw [hact] at h ⊢
    by_cases hrf : refused w.2 a = true
    · left
      refine ⟨hrf, ?_⟩
      rw [if_pos hrf] at h ⊢
      have hre : She.refusal (step w.1).env a = some ((step w.1).env.bytes 0 4, 8) := by
        rcases ha with rfl | rfl | rfl <;> rfl
      rw [hre]
      dsimp only
      rw [if_neg (by rw [She.over_length]; omega)]
      unfold over
      rw [hm, List.append_assoc, rd32_here hp]
    · right
      rw [if_neg hrf] at h ⊢
      refine ⟨by simpa using hrf, ?_⟩
      cases hc : command cfg v (step w.1).env w.2 (step w.1).sys r with
      | inl rc =>
        rw [hc] at h
        exact absurd h (show Rc.aborted.code ≠ 0 by decide)
      | inr x =>
        rw [hc] at h
        dsimp only at h
        have hb := back hp hm x
        refine ⟨x, rfl, ?_⟩
        dsimp only
        split at h
        · exact absurd h (show Rc.aborted.code ≠ 0 by decide)
        · rename_i h8
          rw [if_neg h8, hb.2.1]

theorem translate_zero {rc : Rc} : (translate rc).code = 0 ↔ rc = .ok := by
  constructor
  · intro h; apply Classical.byContradiction; intro hne; exact translate_code hne h
  · rintro rfl; rfl

/-- State between two packets: `sent` has arrived of an image of `n` bytes. -/
structure Going (cfg : She.Cfg) (key : List UInt8) (n : Nat) (sent : List UInt8) (last : Bool) (t : St) : Prop where
  sb : t.sb = if last then .finish else .update
  size : t.blSize = UInt32.ofNat n
  recv : t.blRecv.toNat = sent.length
  hkey : t.cmacKey = key
  data : t.cmacData = zeros 12 ++ bytes32 cfg.le (UInt32.ofNat n) ++ sent

variable {key : List UInt8} {n : Nat}

theorem init_size (e : Step) {pad : List UInt8} (hp : pad.length = 4) :
    (req cfg cle e 1 (bytes32 cle (UInt32.ofNat n) ++ pad)).size = 8 ∧
    rd32 cfg.le (req cfg cle e 1 (bytes32 cle (UInt32.ofNat n) ++ pad)).magic (req cfg cle e 1 (bytes32 cle (UInt32.ofNat n) ++ pad)).buf 0 =
      UInt32.ofNat n := by
  have hpr := (paired_server cle cfg.le rfl).symm
  constructor
  · simp [req, bytes32_len, hp]
  · unfold req
    dsimp only
    rw [bytes32_eq, List.append_assoc]
    exact rd32_here hpr _

/-- `SECURE_BOOT_INIT`. -/
theorem init_ok {env : Env} {t : St} {s : Sys} {r : Req} (hr : r.size = 8 ∧ rd32 cfg.le r.magic r.buf 0 = UInt32.ofNat n)
    (h0 : t.sb = .init → t.blRecv = 0) (hok : (sbInit cfg v env t s r).ret = .ok) :
    ∃ md key, (readSlot cfg v s 2).1 = (.ok, some (md, key)) ∧ key.length = 16 ∧ Going cfg key n [] false (sbInit cfg v env t s r).st := by
  revert hok
  unfold sbInit
  rw [hr.1, hr.2]
  dsimp only
  rw [if_neg (by decide)]
  by_cases hi : t.sb = .init
  · rw [if_neg (show ¬t.sb ≠ .init from fun h => h hi)]
    obtain ⟨⟨rc, q⟩, s1⟩ := readSlot cfg v s 2
    cases rc
    case ok =>
      cases q with
      | none => exact nofun
      | some q =>
        dsimp only
        split
        · exact nofun
        · rename_i hk
          split
          · exact nofun
          · intro _
            refine ⟨q.1, q.2, rfl, by omega, rfl, rfl, ?_, rfl, ?_⟩
            · show t.blRecv.toNat = 0
              rw [h0 hi]; rfl
            · simp
    all_goals exact nofun
  · rw [if_pos hi]; exact nofun

/-- `SECURE_BOOT_UPDATE` with some of the bytes that are left. -/
theorem update_ok {env : Env} {t : St} {s : Sys} {r : Req} {sent part : List UInt8} (h32 : n < 4294967296)
    (hg : Going cfg key n sent false t) (hsz : r.size = 8 + part.length) (hn : rd32 cfg.le r.magic r.buf 0 = UInt32.ofNat part.length)
    (hb : rdBytes r.buf 8 part.length = part) (hle : sent.length + part.length ≤ n) (hc : part.length ≤ cfg.ks.commLen) :
    ((sbUpdate cfg env t s r).ret = .ok ↔ env.fault 0 = false) ∧ ((sbUpdate cfg env t s r).ret = .ok →
      Going cfg key n (sent ++ part) (decide (sent.length + part.length = n)) (sbUpdate cfg env t s r).st ∧
      (sbUpdate cfg env t s r).st.uidSet = t.uidSet) ∧
    (sbUpdate cfg env t s r).ret ≠ .sheNoSecureBoot := by
  have hpl := len32 (l := part) (by omega)
  have hrecv : (t.blRecv + UInt32.ofNat part.length).toNat = sent.length + part.length := by
    rw [UInt32.toNat_add, hg.recv, hpl]; exact Nat.mod_eq_of_lt (by omega)
  have hsize : t.blSize.toNat = n := by rw [hg.size, UInt32.toNat_ofNat']; exact Nat.mod_eq_of_lt h32
  unfold sbUpdate
  rw [hsz, hn, hpl, hb]
  dsimp only
  rw [if_neg (by omega), if_neg (by rw [hg.sb]; simp), if_neg (by omega),
    if_neg (by rw [gt_iff_lt, UInt32.lt_iff_toNat_lt, hrecv, hsize]; omega)]
  cases env.fault 0 with
  | true => exact ⟨⟨nofun, nofun⟩, nofun, nofun⟩
  | false =>
    rw [if_neg (by decide)]
    have heq : t.blRecv + UInt32.ofNat part.length = t.blSize ↔ sent.length + part.length = n := by
      rw [← UInt32.toNat_inj, hrecv, hsize]
    by_cases hf : sent.length + part.length = n
    · rw [if_pos (heq.2 hf)]
      refine ⟨⟨fun _ => rfl, fun _ => rfl⟩, fun _ => ⟨⟨?_, hg.size, ?_, hg.hkey, ?_⟩, rfl⟩, nofun⟩
      · rw [decide_eq_true hf]; rfl
      · rw [List.length_append]; exact hrecv
      · show t.cmacData ++ rdBytes r.buf 8 (UInt32.ofNat part.length).toNat = _; rw [hpl, hb, hg.data, List.append_assoc]
    · rw [if_neg (fun h => hf (heq.1 h))]
      refine ⟨⟨fun _ => rfl, fun _ => rfl⟩, fun _ => ⟨⟨?_, hg.size, ?_, hg.hkey, ?_⟩, rfl⟩, nofun⟩
      · rw [decide_eq_false hf]; exact hg.sb
      · rw [List.length_append]; exact hrecv
      · show t.cmacData ++ rdBytes r.buf 8 (UInt32.ofNat part.length).toNat = _; rw [hpl, hb, hg.data, List.append_assoc]

/-- `SECURE_BOOT_FINISH`. -/
theorem finish_ok {env : Env} {t : St} {s : Sys} {r : Req} (hok : (sbFinish cfg v env t s r).ret = .ok) :
    t.sb = .finish ∧ ∃ md mac, (readSlot cfg v s 3).1 = (.ok, some (md, mac)) ∧
      cfg.cr.cmac t.cmacKey t.cmacData = put (env.bytes 0 16) 0 mac ∧ (sbFinish cfg v env t s r).st.sb = .success := by
  revert hok
  unfold sbFinish
  dsimp only
  split
  · exact nofun
  split
  · exact nofun
  rename_i hf
  split
  · exact nofun
  obtain ⟨⟨rc, q⟩, s1⟩ := readSlot cfg v s 3
  cases rc
  case ok =>
    cases q with
    | none => exact nofun
    | some q =>
      dsimp only
      split
      · rename_i he
        exact fun _ => ⟨Classical.not_not.1 hf, q.1, q.2, rfl, he, rfl⟩
      · exact nofun
  all_goals exact nofun

theorem sb_reset {a : UInt16} {rc : Rc} {t : St} (ha : a = 1 ∨ a = 2 ∨ a = 3) (h1 : rc ≠ .ok) (h2 : rc ≠ .sheNoSecureBoot) :
    (resetBoot a rc t).sb = .init := by
  unfold resetBoot; rw [if_pos ⟨ha, h1, h2⟩]

theorem resetBoot_ok (a : UInt16) (t : St) : resetBoot a .ok t = t := by
  unfold resetBoot; rw [if_neg (fun h => h.2.1 rfl)]

theorem command_update {e : Step} {t : St} {body : List UInt8} {x : Res}
    (h : command cfg v e.env t e.sys (req cfg cle e 2 body) = .inr x) : x = sbUpdate cfg e.env t e.sys (req cfg cle e 2 body) := by
  have : command cfg v e.env t e.sys (req cfg cle e 2 body) = .inr (sbUpdate cfg e.env t e.sys (req cfg cle e 2 body)) := rfl
  rw [this] at h
  injection h with h
  exact h.symm

theorem command_locked {e : Step} {t : St} {a : UInt16} {body : List UInt8} {x y : Res}
    (hc : command cfg v e.env t e.sys (req cfg cle e a body) = if e.env.lock = .ok then .inr y else .inl e.env.lock)
    (h : command cfg v e.env t e.sys (req cfg cle e a body) = .inr x) : e.env.lock = .ok ∧ x = y := by
  rw [hc] at h
  split at h
  · rename_i hl
    injection h with h
    exact ⟨hl, h.symm⟩
  · cases h

theorem update_req (e : Step) {pad part : List UInt8} (hp : pad.length = 4) :
    (req cfg cle e 2 (bytes32 cle (UInt32.ofNat part.length) ++ (pad ++ part))).size = 8 + part.length ∧
    rd32 cfg.le (req cfg cle e 2 (bytes32 cle (UInt32.ofNat part.length) ++ (pad ++ part))).magic
      (req cfg cle e 2 (bytes32 cle (UInt32.ofNat part.length) ++ (pad ++ part))).buf 0 = UInt32.ofNat part.length ∧
    rdBytes (req cfg cle e 2 (bytes32 cle (UInt32.ofNat part.length) ++ (pad ++ part))).buf 8 part.length = part := by
  have hpr := (paired_server cle cfg.le rfl).symm
  refine ⟨?_, ?_, ?_⟩
  · simp [req, bytes32_len, hp]; omega
  · unfold req
    dsimp only
    rw [bytes32_eq, List.append_assoc]
    exact rd32_here hpr _
  · unfold req
    dsimp only
    rw [bytes32_eq, List.append_assoc, List.append_assoc, show (8 : Nat) = 0 + 4 + 4 from rfl, rdBytes_w32, rdBytes_skip hp]
    exact rdBytes_here rfl

/-- The loop ends without an error only after a successful `SECURE_BOOT_FINISH` over all the bytes. -/
theorem bootLoop_ok (hl : ∀ k rc, (step k).lost = some rc → rc ≠ 0) {pad : List UInt8} (hp : pad.length = 4) {dataLen : Nat}
    (hd : cfg.ks.commLen = dataLen) (h8 : 8 < dataLen) (h32 : n < 4294967296) :
    ∀ (fuel : Nat) (w : Nat × St) (rc : Ret) (sent image : List UInt8), image.length < fuel → sent.length + image.length = n →
      (rc = 0 → Going cfg key n sent (decide (image.length = 0)) w.2) → (rc ≠ 0 → image.length = 0 → w.2.sb ≠ .finish) →
      (bootLoop cle dataLen pad (bootPeer cfg cle v step) fuel w rc image).1 = 0 →
      ∃ k mac, (bootLoop cle dataLen pad (bootPeer cfg cle v step) fuel w rc image).2.1 = k + 1 ∧ (step k).lost = none ∧
        (step k).holds cfg v 3 mac ∧ Genuine cfg (step k) key mac (sent ++ image) ∧
        (bootLoop cle dataLen pad (bootPeer cfg cle v step) fuel w rc image).2.2.sb = .success := by
  intro fuel
  induction fuel with
  | zero => intro w rc sent image h; omega
  | succ fuel ih =>
    intro w rc sent image hf hn hgo hbad
    unfold bootLoop
    by_cases h0 : image.length = 0
    · rw [if_pos h0]
      dsimp only
      intro hres
      have hi : image = [] := List.eq_nil_of_length_eq_zero h0
      by_cases ha : (ask cle (bootPeer cfg cle v step) w 3 []).1.1 = 0
      · rw [if_neg (fun h => h ha)] at hres
        obtain ⟨hlo, hh | ⟨_, x, hx, hq⟩⟩ := ask_done hl (by decide) ha
        · rw [hh.2] at hres
          exact absurd hres (show Rc.sheSequenceError.code ≠ 0 by decide)
        · rw [hq] at hres ⊢
          have hok : x.ret = .ok := translate_zero.1 hres
          obtain ⟨_, rfl⟩ := command_locked (y := sbFinish cfg v (step w.1).env w.2 (step w.1).sys (req cfg cle (step w.1) 3 [])) rfl hx
          obtain ⟨hsb, md, mac, hrd, hmac, hsu⟩ := finish_ok hok
          have hr0 : rc = 0 := by
            apply Classical.byContradiction
            intro hne
            exact hbad hne h0 hsb
          have g := hgo hr0
          refine ⟨w.1, mac, rfl, hlo, ⟨md, hrd⟩, ?_, ?_⟩
          · unfold Genuine
            have hnl : (sent ++ image).length = n := by rw [List.length_append]; exact hn
            rw [hnl, ← hmac, g.hkey, g.data, hi, List.append_nil]
          · rw [hok, resetBoot_ok]; exact hsu
      · rw [if_pos ha] at hres
        exact absurd hres ha
    · rw [if_neg h0]
      by_cases hrc : rc ≠ 0
      · rw [if_pos hrc]
        exact fun h => absurd h hrc
      · rw [if_neg hrc]
        have hrc0 : rc = 0 := Classical.not_not.1 hrc
        dsimp only
        have hm : min image.length (dataLen - 8) ≤ image.length := Nat.min_le_left _ _
        have hm1 : 0 < min image.length (dataLen - 8) := by omega
        have hm2 : min image.length (dataLen - 8) ≤ dataLen := by omega
        generalize min image.length (dataLen - 8) = j at hm hm1 hm2 ⊢
        have hpl : (image.take j).length = j := by rw [List.length_take]; omega
        intro hres
        by_cases ha : (ask cle (bootPeer cfg cle v step) w 2 (bytes32 cle (UInt32.ofNat j) ++ (pad ++ image.take j))).1.1 = 0
        · rw [if_neg (fun h => h ha)] at hres ⊢
          have hst : ∃ t', (ask cle (bootPeer cfg cle v step) w 2 (bytes32 cle (UInt32.ofNat j) ++ (pad ++ image.take j))).2 = (w.1 + 1, t') ∧
              ((ask cle (bootPeer cfg cle v step) w 2 (bytes32 cle (UInt32.ofNat j) ++ (pad ++ image.take j))).1.2 = 0 →
                Going cfg key n (sent ++ image.take j) (decide ((image.drop j).length = 0)) t') ∧
              ((ask cle (bootPeer cfg cle v step) w 2 (bytes32 cle (UInt32.ofNat j) ++ (pad ++ image.take j))).1.2 ≠ 0 →
                t'.sb ≠ .finish) := by
            have g := hgo hrc0
            rw [decide_eq_false h0] at g
            obtain ⟨hlo, hh | ⟨_, x, hx, hq⟩⟩ := ask_done hl (by decide) ha
            · rw [hh.2]
              refine ⟨w.2, rfl, fun h => absurd h (show Rc.sheSequenceError.code ≠ 0 by decide), fun _ => ?_⟩
              rw [g.sb]; simp
            · rw [hq]
              refine ⟨_, rfl, ?_, ?_⟩
              · intro hz
                have hok : x.ret = .ok := translate_zero.1 hz
                obtain rfl := command_update hx
                have hu := update_req (cfg := cfg) (cle := cle) (step w.1) (pad := pad) (part := image.take j) hp
                rw [hpl] at hu
                have hup := update_ok (env := (step w.1).env) (s := (step w.1).sys) (sent := sent) (part := image.take j) h32 g
                  (by rw [hpl]; exact hu.1) (by rw [hpl]; exact hu.2.1) (by rw [hpl]; exact hu.2.2) (by rw [hpl]; omega) (by rw [hpl]; omega)
                rw [hok, resetBoot_ok]
                have := (hup.2.1 hok).1
                rw [show decide ((image.drop j).length = 0) = decide (sent.length + (image.take j).length = n) by
                  rw [hpl, List.length_drop]; congr 1; rw [eq_iff_iff]; omega]
                exact this
              · intro hz
                have hne : x.ret ≠ .ok := fun h => hz (translate_zero.2 h)
                obtain rfl := command_update hx
                have hu := update_req (cfg := cfg) (cle := cle) (step w.1) (pad := pad) (part := image.take j) hp
                rw [hpl] at hu
                have hup := update_ok (env := (step w.1).env) (s := (step w.1).sys) (sent := sent) (part := image.take j) h32 g
                  (by rw [hpl]; exact hu.1) (by rw [hpl]; exact hu.2.1) (by rw [hpl]; exact hu.2.2) (by rw [hpl]; omega) (by rw [hpl]; omega)
                rw [sb_reset (by decide) hne hup.2.2]; decide
          obtain ⟨t', ht, hg1, hg2⟩ := hst
          rw [ht] at hres ⊢
          have := ih (w.1 + 1, t') _ (sent ++ image.take j) (image.drop j) (by rw [List.length_drop]; omega)
            (by rw [List.length_append, hpl, List.length_drop]; omega) hg1 (fun h _ => hg2 h) hres
          rw [List.append_assoc, List.take_append_drop] at this
          exact this
        · rw [if_pos ha] at hres
          exact absurd hres ha

/-- The whole secure boot. -/
theorem secureBoot_ok (hl : ∀ k rc, (step k).lost = some rc → rc ≠ 0) {pad : List UInt8} (hp : pad.length = 4) {dataLen : Nat}
    (hd : cfg.ks.commLen = dataLen) (h8 : 8 < dataLen) {image : List UInt8} (h32 : image.length < 4294967296)
    (h0 : w.2.sb = .init → w.2.blRecv = 0)
    (hres : (secureBoot cle dataLen pad (bootPeer cfg cle v step) w image).1 = 0) :
    (step w.1).lost = none ∧ ∃ key k mac, (step w.1).holds cfg v 2 key ∧ key.length = 16 ∧
      (secureBoot cle dataLen pad (bootPeer cfg cle v step) w image).2.1 = k + 1 ∧ (step k).lost = none ∧
      (step k).holds cfg v 3 mac ∧ Genuine cfg (step k) key mac image ∧
      (secureBoot cle dataLen pad (bootPeer cfg cle v step) w image).2.2.sb = .success := by
  revert hres
  unfold secureBoot
  by_cases hz : image.length = 0
  · rw [if_pos hz]
    exact fun h => absurd h (show Rc.badargs.code ≠ 0 by decide)
  rw [if_neg hz]
  dsimp only
  intro hres
  by_cases ha : (ask cle (bootPeer cfg cle v step) w 1 (bytes32 cle (UInt32.ofNat image.length) ++ pad)).1.1 = 0
  · rw [if_neg (fun h => h ha)] at hres ⊢
    have hbad : ∀ {rc : Ret} {w' : Nat × St} {f : Nat}, rc ≠ 0 →
        (bootLoop cle dataLen pad (bootPeer cfg cle v step) (f + 1) w' rc image).1 ≠ 0 := by
      intro rc w' f hr
      unfold bootLoop
      rw [if_neg hz, if_pos hr]
      exact hr
    obtain ⟨hlo, hh | ⟨_, x, hx, hq⟩⟩ := ask_done hl (by decide) ha
    · rw [hh.2] at hres
      exact absurd hres (hbad (show Rc.sheSequenceError.code ≠ 0 by decide))
    · rw [hq] at hres ⊢
      by_cases hok : x.ret = .ok
      · obtain ⟨_, rfl⟩ := command_locked
          (y := sbInit cfg v (step w.1).env w.2 (step w.1).sys (req cfg cle (step w.1) 1 (bytes32 cle (UInt32.ofNat image.length) ++ pad))) rfl hx
        obtain ⟨md, key, hrd, hkl, g⟩ := init_ok (init_size (cfg := cfg) (cle := cle) (step w.1) (n := image.length) hp) h0 hok
        rw [hok] at hres ⊢
        rw [resetBoot_ok] at hres ⊢
        obtain ⟨k, mac, e1, e2, e3, e4, e5⟩ := bootLoop_ok (v := v) (cle := cle) hl hp hd h8 h32 (image.length + 1) _ _ [] image (by omega) (by simp)
          (fun _ => by rw [decide_eq_false hz]; exact g) (fun _ h => absurd h hz) hres
        exact ⟨hlo, key, k, mac, ⟨md, hrd⟩, hkl, e1, e2, e3, by simpa using e4, e5⟩
      · exact absurd hres (hbad (translate_code hok))
  · rw [if_pos ha] at hres
    exact absurd hres ha

/-! ## When nothing fails -/

theorem ask_served (hlo : (step w.1).lost = none) {a : UInt16} {body : List UInt8} (hr : refused w.2 a = false) {x : Res}
    (hc : command cfg v (step w.1).env w.2 (step w.1).sys (req cfg cle (step w.1) a body) = .inr x) (h8 : 8 ≤ x.size) :
    ask cle (bootPeer cfg cle v step) w a body = ((0, (translate x.ret).code), (w.1 + 1, resetBoot a x.ret x.st)) := by
  have hp := paired_server cle cfg.le rfl
  unfold ask bootPeer
  dsimp only
  rw [hlo]
  dsimp only
  unfold served
  dsimp only
  rw [show (⟨if cfg.le = cle then magicNative else magicSwap, a, (step w.1).seq, body ++ (step w.1).junk, body.length⟩ : Req) =
    req cfg cle (step w.1) a body from rfl]
  unfold handle
  rw [show (req cfg cle (step w.1) a body).action = a from rfl, hr, hc]
  dsimp only
  have hb := back hp (r := req cfg cle (step w.1) a body) rfl x
  rw [if_neg (show ¬false = true from nofun)]
  dsimp only
  rw [if_neg (by omega), hb.2.1]

theorem refused_boot {t : St} (hu : t.uidSet = true) {a : UInt16} (ha : a = 1 ∨ a = 2 ∨ a = 3) : refused t a = false := by
  unfold refused
  rcases ha with rfl | rfl | rfl <;> simp [hu]

theorem packets_zero {dataLen : Nat} (h8 : 8 < dataLen) {image : List UInt8} (h : image.length = 0) : packets dataLen image = 0 := by
  unfold packets
  rw [h, Nat.div_eq_of_lt (by omega)]

theorem packets_step {dataLen : Nat} (h8 : 8 < dataLen) {image : List UInt8} (h : image.length ≠ 0) :
    packets dataLen (image.drop (min image.length (dataLen - 8))) + 1 = packets dataLen image := by
  unfold packets
  rw [List.length_drop]
  rcases Nat.le_total image.length (dataLen - 8) with hle | hle
  · rw [Nat.min_eq_left hle, Nat.div_eq_of_lt (by omega),
      show image.length + (dataLen - 8) - 1 = (image.length - 1) + (dataLen - 8) by omega, Nat.add_div_right _ (by omega),
      Nat.div_eq_of_lt (by omega)]
  · rw [Nat.min_eq_right hle, show image.length - (dataLen - 8) + (dataLen - 8) - 1 = image.length - 1 by omega,
      show image.length + (dataLen - 8) - 1 = (image.length - 1) + (dataLen - 8) by omega, Nat.add_div_right _ (by omega)]

/-- No request is lost, the lock can be taken and no cipher fails. -/
def Smooth (step : Nat → Step) : Prop := ∀ k, (step k).lost = none ∧ (step k).env.lock = .ok ∧ ∀ i, (step k).env.fault i = false

theorem finish_served {env : Env} {t : St} {s : Sys} {r : Req} (hf : env.fault 0 = false) (hsb : t.sb = .finish) (hz : r.size = 0)
    {md : NvmFlash.Meta} {mac : List UInt8} (hrd : (readSlot cfg v s 3).1 = (.ok, some (md, mac))) :
    8 ≤ (sbFinish cfg v env t s r).size ∧
    ((sbFinish cfg v env t s r).ret = .ok ↔ cfg.cr.cmac t.cmacKey t.cmacData = put (env.bytes 0 16) 0 mac) := by
  unfold sbFinish
  rw [hz, hf]
  dsimp only
  rw [if_neg (by decide), if_neg (show ¬t.sb ≠ .finish from fun h => h hsb), if_neg (by decide)]
  generalize readSlot cfg v s 3 = p at hrd ⊢
  obtain ⟨q, s1⟩ := p
  dsimp only at hrd
  subst hrd
  dsimp only
  by_cases hm : cfg.cr.cmac t.cmacKey t.cmacData = put (env.bytes 0 16) 0 mac
  · rw [if_pos hm]; exact ⟨Nat.le_refl _, fun _ => hm, fun _ => rfl⟩
  · rw [if_neg hm]; exact ⟨Nat.le_refl _, nofun, fun h => absurd h hm⟩

theorem update_size {env : Env} {t : St} {s : Sys} {r : Req} : (sbUpdate cfg env t s r).size = 8 := by
  unfold sbUpdate
  dsimp only
  repeat' split
  all_goals rfl

theorem bootLoop_smooth (hsm : Smooth step) {pad : List UInt8} (hp : pad.length = 4) {dataLen : Nat}
    (hd : cfg.ks.commLen = dataLen) (h8 : 8 < dataLen) (h32 : n < 4294967296) {mac : List UInt8} :
    ∀ (fuel : Nat) (w : Nat × St) (sent image : List UInt8), image.length < fuel → sent.length + image.length = n →
      Going cfg key n sent (decide (image.length = 0)) w.2 → w.2.uidSet = true → (step (w.1 + packets dataLen image)).holds cfg v 3 mac →
      ((bootLoop cle dataLen pad (bootPeer cfg cle v step) fuel w 0 image).1 = 0 ↔
        Genuine cfg (step (w.1 + packets dataLen image)) key mac (sent ++ image)) := by
  intro fuel
  induction fuel with
  | zero => intro w sent image h; omega
  | succ fuel ih =>
    intro w sent image hf hn g hu hh
    unfold bootLoop
    obtain ⟨hlo, hlk, hfa⟩ := hsm w.1
    by_cases h0 : image.length = 0
    · rw [if_pos h0]
      rw [packets_zero h8 h0] at hh ⊢
      rw [Nat.add_zero] at hh ⊢
      obtain ⟨md, hrd⟩ := hh
      have hi : image = [] := List.eq_nil_of_length_eq_zero h0
      rw [decide_eq_true h0] at g
      have hfin := finish_served (cfg := cfg) (v := v) (env := (step w.1).env) (t := w.2) (s := (step w.1).sys)
        (r := req cfg cle (step w.1) 3 []) (hfa 0) g.sb rfl hrd
      have hc : command cfg v (step w.1).env w.2 (step w.1).sys (req cfg cle (step w.1) 3 []) =
          .inr (sbFinish cfg v (step w.1).env w.2 (step w.1).sys (req cfg cle (step w.1) 3 [])) := by
        have : command cfg v (step w.1).env w.2 (step w.1).sys (req cfg cle (step w.1) 3 []) =
          (if (step w.1).env.lock = .ok then .inr (sbFinish cfg v (step w.1).env w.2 (step w.1).sys (req cfg cle (step w.1) 3 []))
            else .inl (step w.1).env.lock) := rfl
        rw [this, if_pos hlk]
      rw [ask_served hlo (refused_boot hu (by decide)) hc hfin.1]
      dsimp only
      rw [if_neg (fun h => h rfl), translate_zero, hfin.2]
      unfold Genuine
      have hnl : (sent ++ image).length = n := by rw [List.length_append]; exact hn
      rw [hnl, g.hkey, g.data, hi, List.append_nil]
    · rw [if_neg h0, if_neg (fun h => h rfl)]
      dsimp only
      rw [← packets_step h8 h0] at hh ⊢
      have hm : min image.length (dataLen - 8) ≤ image.length := Nat.min_le_left _ _
      have hm1 : 0 < min image.length (dataLen - 8) := by omega
      have hm2 : min image.length (dataLen - 8) ≤ dataLen := by omega
      generalize min image.length (dataLen - 8) = j at hm hm1 hm2 hh ⊢
      have hpl : (image.take j).length = j := by rw [List.length_take]; omega
      rw [decide_eq_false h0] at g
      have hur := update_req (cfg := cfg) (cle := cle) (step w.1) (pad := pad) (part := image.take j) hp
      rw [hpl] at hur
      have hup := update_ok (env := (step w.1).env) (s := (step w.1).sys) (sent := sent) (part := image.take j) h32 g
        (by rw [hpl]; exact hur.1) (by rw [hpl]; exact hur.2.1) (by rw [hpl]; exact hur.2.2) (by rw [hpl]; omega) (by rw [hpl]; omega)
      have hok := hup.1.2 (hfa 0)
      have hgo := hup.2.1 hok
      rw [ask_served (x := sbUpdate cfg (step w.1).env w.2 (step w.1).sys
        (req cfg cle (step w.1) 2 (bytes32 cle (UInt32.ofNat j) ++ (pad ++ image.take j)))) hlo (refused_boot hu (by decide)) rfl
        (by rw [update_size])]
      dsimp only
      rw [if_neg (fun h => h rfl), hok, resetBoot_ok]
      rw [show w.1 + (packets dataLen (image.drop j) + 1) = w.1 + 1 + packets dataLen (image.drop j) by omega] at hh ⊢
      have := ih (w.1 + 1, _) (sent ++ image.take j) (image.drop j) (by rw [List.length_drop]; omega)
        (by rw [List.length_append, hpl, List.length_drop]; omega)
        (by
          rw [show decide ((image.drop j).length = 0) = decide (sent.length + (image.take j).length = n) by
            rw [hpl, List.length_drop]; congr 1; rw [eq_iff_iff]; omega]
          exact hgo.1)
        (hgo.2.trans hu) hh
      rw [List.append_assoc, List.take_append_drop] at this
      exact this

/-- `SECURE_BOOT_INIT` when nothing fails. -/
theorem init_served {env : Env} {t : St} {s : Sys} {r : Req} (hf : env.fault 0 = false) (hsb : t.sb = .init) (hz : r.size = 8)
    {md : NvmFlash.Meta} {key : List UInt8} (hrd : (readSlot cfg v s 2).1 = (.ok, some (md, key))) (hk : key.length = 16) :
    (sbInit cfg v env t s r).size = 8 ∧ (sbInit cfg v env t s r).ret = .ok ∧ (sbInit cfg v env t s r).st.uidSet = t.uidSet ∧
    (sbInit cfg v env t s r).st.cmacKey = key := by
  unfold sbInit
  rw [hz, hf]
  dsimp only
  rw [if_neg (by decide), if_neg (show ¬t.sb ≠ .init from fun h => h hsb)]
  generalize readSlot cfg v s 2 = p at hrd ⊢
  obtain ⟨q, s1⟩ := p
  dsimp only at hrd
  subst hrd
  dsimp only
  rw [if_neg (show ¬key.length ≠ 16 from fun h => h hk), if_neg (by decide)]
  exact ⟨rfl, rfl, rfl, rfl⟩

theorem secureBoot_smooth (hsm : Smooth step) {pad : List UInt8} (hp : pad.length = 4) {dataLen : Nat}
    (hd : cfg.ks.commLen = dataLen) (h8 : 8 < dataLen) {image : List UInt8} (hne : image ≠ []) (h32 : image.length < 4294967296)
    (hi : w.2.sb = .init) (h0 : w.2.blRecv = 0) (hu : w.2.uidSet = true) {key mac : List UInt8}
    (hk : (step w.1).holds cfg v 2 key) (hkl : key.length = 16) (hm : (step (w.1 + 1 + packets dataLen image)).holds cfg v 3 mac) :
    (secureBoot cle dataLen pad (bootPeer cfg cle v step) w image).1 = 0 ↔
      Genuine cfg (step (w.1 + 1 + packets dataLen image)) key mac image := by
  unfold secureBoot
  have hz : image.length ≠ 0 := fun h => hne (List.eq_nil_of_length_eq_zero h)
  rw [if_neg hz]
  dsimp only
  obtain ⟨hlo, hlk, hfa⟩ := hsm w.1
  obtain ⟨md, hrd⟩ := hk
  have hsz := init_size (cfg := cfg) (cle := cle) (step w.1) (n := image.length) hp
  obtain ⟨i1, i2, i3, i4⟩ := init_served (cfg := cfg) (v := v) (env := (step w.1).env) (t := w.2) (s := (step w.1).sys)
    (r := req cfg cle (step w.1) 1 (bytes32 cle (UInt32.ofNat image.length) ++ pad)) (hfa 0) hi hsz.1 hrd hkl
  obtain ⟨md', key', hrd', _, g⟩ := init_ok (env := (step w.1).env) hsz (fun _ => h0) i2
  rw [hrd] at hrd'
  injection hrd' with _ hrd'
  injection hrd' with hrd'
  injection hrd' with _ hkk
  subst hkk
  have hc : command cfg v (step w.1).env w.2 (step w.1).sys (req cfg cle (step w.1) 1 (bytes32 cle (UInt32.ofNat image.length) ++ pad)) =
      .inr (sbInit cfg v (step w.1).env w.2 (step w.1).sys (req cfg cle (step w.1) 1 (bytes32 cle (UInt32.ofNat image.length) ++ pad))) := by
    have : command cfg v (step w.1).env w.2 (step w.1).sys (req cfg cle (step w.1) 1 (bytes32 cle (UInt32.ofNat image.length) ++ pad)) =
      (if (step w.1).env.lock = .ok then .inr (sbInit cfg v (step w.1).env w.2 (step w.1).sys
        (req cfg cle (step w.1) 1 (bytes32 cle (UInt32.ofNat image.length) ++ pad))) else .inl (step w.1).env.lock) := rfl
    rw [this, if_pos hlk]
  rw [ask_served hlo (refused_boot hu (by decide)) hc (by rw [i1])]
  dsimp only
  rw [if_neg (fun h => h rfl), i2, resetBoot_ok]
  have := bootLoop_smooth (v := v) (cle := cle) hsm hp hd h8 h32 (image.length + 1) (w.1 + 1, _) [] image (by omega) (by simp)
    (by rw [decide_eq_false hz]; exact g) (i3.trans hu) hm
  rw [show (translate Rc.ok).code = 0 from rfl]
  simpa using this

end WolfHsm.ClientShe

import Verif.Proofs.CertMsg
import Verif.Proofs.Cert

/-! # Malformed certificate requests; certificate packets as events of the verify cache -/

namespace WolfHsm.CertMsg

open Wire
open Server (Req)
open Cert (State)

variable {E : Type}

section same

variable {r r' : Req} (hm : r'.magic = r.magic) (hs : r'.size = r.size) (hd : r'.buf.take r.size = r.buf.take r.size)
include hm hs hd

theorem decAdd_same (cfg : Cfg E) : decAdd cfg r' = decAdd cfg r := by
  unfold decAdd
  rw [hs]
  by_cases h : r.size < 36
  · rw [if_pos h, if_pos h]
  · rw [if_neg h, if_neg h, hm, rd32_eq hd (by omega), rd16_eq (off := 4) hd (by omega), rd16_eq (off := 6) hd (by omega),
      rd16_eq (off := 8) hd (by omega), rdBytes_eq (n := 24) hd (by omega)]
    dsimp only
    split
    · rfl
    · rw [rdBytes_eq hd (by omega)]

theorem decVerify_same (cfg : Cfg E) : decVerify cfg r' = decVerify cfg r := by
  unfold decVerify
  rw [hs]
  by_cases h : r.size < 12
  · rw [if_pos h, if_pos h]
  · rw [if_neg h, if_neg h, hm, rd32_eq hd (by omega), rd16_eq (off := 4) hd (by omega), rd16_eq (off := 6) hd (by omega),
      rd16_eq (off := 8) hd (by omega), rd16_eq (off := 10) hd (by omega)]
    dsimp only
    split
    · rfl
    · rw [rdBytes_eq hd (by omega)]

theorem decMulti_same (cfg : Cfg E) : decMulti cfg r' = decMulti cfg r := by
  unfold decMulti
  rw [hs]
  by_cases h : r.size < 16
  · rw [if_pos h, if_pos h]
  · rw [if_neg h, if_neg h, hm, rd32_eq hd (by omega), rd16_eq (off := 4) hd (by omega), rd16_eq (off := 6) hd (by omega),
      rd16_eq (off := 8) hd (by omega), rd16_eq (off := 10) hd (by omega)]
    dsimp only
    split
    · rfl
    · split
      · rfl
      · rw [rdBytes_eq hd (by omega)]
        congr 2
        refine List.map_congr_left fun i hi => rd16_eq hd ?_
        have := List.mem_range.1 hi
        omega

theorem decEnable_same : (decEnable r' : Decoded E) = decEnable r := by
  unfold decEnable
  rw [hs]
  by_cases h : r.size ≠ 8
  · rw [if_pos h, if_pos h]
  · have h8 : r.size = 8 := by omega
    have : r'.buf.getD 0 0 = r.buf.getD 0 0 := by
      have := congrArg (fun l => l.getD 0 0) hd
      rw [h8] at this
      simpa [List.getD_eq_getElem?_getD, List.getElem?_take] using this
    rw [this]

theorem decAddDma_same (cfg : Cfg E) (e : Env E) : decAddDma cfg e r' = decAddDma cfg e r := by
  unfold decAddDma
  rw [hs]
  by_cases h : r.size ≠ 48
  · rw [if_pos h, if_pos h]
  · rw [if_neg h, if_neg h, hm, rd64_eq hd (by omega), rd32_eq hd (by omega), rd16_eq (off := 12) hd (by omega), rd16_eq (off := 14) hd (by omega),
      rd16_eq (off := 16) hd (by omega), rdBytes_eq (n := 24) hd (by omega)]

theorem decReadDma_same (cfg : Cfg E) (e : Env E) : decReadDma cfg e r' = decReadDma cfg e r := by
  unfold decReadDma
  rw [hs]
  by_cases h : r.size ≠ 16
  · rw [if_pos h, if_pos h]
  · rw [if_neg h, if_neg h, hm, rd64_eq hd (by omega), rd32_eq hd (by omega), rd16_eq (off := 12) hd (by omega)]

theorem decVerifyDma_same (cfg : Cfg E) (e : Env E) : decVerifyDma cfg e r' = decVerifyDma cfg e r := by
  unfold decVerifyDma
  rw [hs]
  by_cases h : r.size ≠ 24
  · rw [if_pos h, if_pos h]
  · rw [if_neg h, if_neg h, hm, rd64_eq hd (by omega), rd32_eq hd (by omega), rd16_eq (off := 12) hd (by omega), rd16_eq (off := 14) hd (by omega),
      rd16_eq (off := 16) hd (by omega), rd16_eq (off := 18) hd (by omega)]

theorem decAcert_same (cfg : Cfg E) : decAcert cfg r' = decAcert cfg r := by
  unfold decAcert
  rw [hs]
  by_cases h : r.size < 8
  · rw [if_pos h, if_pos h]
  · rw [if_neg h, if_neg h, hm, rd32_eq hd (by omega), rd16_eq (off := 4) hd (by omega)]
    dsimp only
    split
    · rfl
    · rw [rdBytes_eq hd (by omega)]

theorem decAcertDma_same (cfg : Cfg E) (e : Env E) : decAcertDma cfg e r' = decAcertDma cfg e r := by
  unfold decAcertDma
  rw [hs]
  by_cases h : r.size ≠ 24
  · rw [if_pos h, if_pos h]
  · rw [if_neg h, if_neg h, hm, rd64_eq hd (by omega), rd32_eq hd (by omega), rd16_eq (off := 12) hd (by omega)]

/-- The ids of a VERIFY_MULTI_ROOT_DMA request are the same, or too many. -/
theorem decMultiDma_same (cfg : Cfg E) (e : Env E) :
    decMultiDma cfg e r' = decMultiDma cfg e r ∨
    ∃ mem len roots roots' f kf ki, decMultiDma cfg e r = .job (.verify mem len roots f kf ki) ∧
      decMultiDma cfg e r' = .job (.verify mem len roots' f kf ki) ∧ cfg.cert.maxRoots < roots.length ∧ cfg.cert.maxRoots < roots'.length := by
  unfold decMultiDma
  rw [hs]
  by_cases h : r.size ≠ multiDmaSize cfg.cert.maxRoots
  · rw [if_pos h, if_pos h]; exact .inl rfl
  · have hsz : r.size = 24 + (2 * cfg.cert.maxRoots + 7) / 8 * 8 := by unfold multiDmaSize at h; omega
    rw [if_neg h, if_neg h, hm, rd64_eq hd (by omega), rd32_eq hd (by omega), rd16_eq (off := 12) hd (by omega), rd16_eq (off := 14) hd (by omega),
      rd16_eq (off := 16) hd (by omega), rd16_eq (off := 18) hd (by omega)]
    dsimp only
    by_cases he : e.dmaRead (rd64 cfg.le r.magic r.buf 0) (rd32 cfg.le r.magic r.buf 8) ≠ .ok
    · rw [if_pos he, if_pos he]; exact .inl rfl
    · rw [if_neg he, if_neg he]
      by_cases hn : (rd16 cfg.le r.magic r.buf 12).toNat ≤ cfg.cert.maxRoots
      · left
        congr 2
        refine List.map_congr_left fun i hi => rd16_eq hd ?_
        have := List.mem_range.1 hi
        omega
      · right
        refine ⟨_, _, _, _, _, _, _, rfl, rfl, ?_, ?_⟩ <;> rw [List.length_map, List.length_range] <;> omega

theorem decode_same (cfg : Cfg E) (e : Env E) (ha : r'.action = r.action) (h34 : r.action = 3 ∨ r.action = 4 → 2 ≤ r.size) :
    decode cfg e r' = decode cfg e r ∨
    ∃ mem len roots roots' f kf ki, decode cfg e r = .job (.verify mem len roots f kf ki) ∧
      decode cfg e r' = .job (.verify mem len roots' f kf ki) ∧ cfg.cert.maxRoots < roots.length ∧ cfg.cert.maxRoots < roots'.length := by
  have h3 : r.action.toNat = 3 ∨ r.action.toNat = 4 → 2 ≤ r.size := by
    intro h
    apply h34
    rcases h with h | h
    · exact .inl (UInt16.toNat_inj.1 h)
    · exact .inr (UInt16.toNat_inj.1 h)
  unfold decode
  rw [ha]
  split
  · exact .inl rfl
  · exact .inl (decAdd_same hm hs hd cfg)
  · next he => rw [hm, rd16_eq hd (by have := h3 (.inl he); omega)]; exact .inl rfl
  · next he => rw [hm, rd16_eq hd (by have := h3 (.inr he); omega)]; exact .inl rfl
  · exact .inl (decVerify_same hm hs hd cfg)
  · exact .inl (decMulti_same hm hs hd cfg)
  · exact .inl rfl
  · rw [decEnable_same hm hs hd]; exact .inl rfl
  · rw [decAddDma_same hm hs hd cfg e]; exact .inl rfl
  · rw [decReadDma_same hm hs hd cfg e]; exact .inl rfl
  · rw [decVerifyDma_same hm hs hd cfg e]; exact .inl rfl
  · rw [decAcert_same hm hs hd cfg]; exact .inl rfl
  · rw [decAcertDma_same hm hs hd cfg e]; exact .inl rfl
  · by_cases hdm : cfg.dma = true
    · rw [if_pos hdm, if_pos hdm]; exact decMultiDma_same hm hs hd cfg e
    · rw [if_neg hdm, if_neg hdm]; exact .inl rfl
  · exact .inl rfl

theorem serve_same (cfg : Cfg E) (x : Nat) (client : UInt16) (e : Env E) (s : State) (ha : r'.action = r.action)
    (h34 : r.action = 3 ∨ r.action = 4 → 2 ≤ r.size) : serve cfg x client e r' s = serve cfg x client e r s := by
  unfold serve
  rcases decode_same hm hs hd cfg e ha h34 with h | ⟨mem, len, roots, roots', f, kf, ki, h, h', hl, hl'⟩
  · rw [h]
  · rw [h, h']
    have : ∀ {l : List UInt16}, cfg.cert.maxRoots < l.length → perform cfg x client e s (.verify mem len l f kf ki) =
        if e.nvmLock ≠ .ok then ({ rc := e.nvmLock }, s)
        else ({ rc := .badargs, keyId := KeyId.toClient cfg.cert.ks.ids (KeyId.fromClient cfg.cert.ks.ids KeyId.typeCrypto client ki) }, s) := by
      intro l hl
      simp only [perform]
      by_cases hn : e.nvmLock ≠ .ok
      · rw [if_pos hn, if_pos hn]
      · rw [if_neg hn, if_neg hn]
        unfold Cert.verifyMulti
        rw [if_pos (Or.inr (Or.inr hl))]
    dsimp only
    rw [this hl, this hl']

/-- The bytes of the packet that are not part of the response structure are all that differs. -/
theorem reply_same (cfg : Cfg E) (ha : r'.action = r.action) (a : Answer) (hf : r.action = 4 → a.rc = .ok → a.bytes.length = a.len)
    (hb : a.rc ≠ .ok → a.bytes = []) :
    (reply cfg r' a).length = (reply cfg r a).length ∧ (reply cfg r' a).take 4 = (reply cfg r a).take 4 ∧
    (8 ≤ r.size → reply cfg r' a = reply cfg r a) := by
  have gen : ∀ {f : List UInt8} {n : Nat}, 4 ≤ f.length → f.length ≤ n → n ≤ 8 ∨ n = f.length →
      (over f r'.buf n).length = (over f r.buf n).length ∧ (over f r'.buf n).take 4 = (over f r.buf n).take 4 ∧
      (8 ≤ r.size → over f r'.buf n = over f r.buf n) := by
    intro f n h4 hn h8
    refine ⟨by rw [over_length hn, over_length hn], ?_, fun hsz => ?_⟩
    · obtain ⟨p, _, hp⟩ := ClientKey.over_shape hn r'.buf
      obtain ⟨q, _, hq⟩ := ClientKey.over_shape hn r.buf
      rw [hp, hq, List.take_append_of_le_length h4, List.take_append_of_le_length h4]
    · rcases h8 with h8 | h8
      · have ht : r'.buf.take n = r.buf.take n := by
          have := congrArg (List.take n) hd
          rwa [List.take_take, List.take_take, Nat.min_eq_left (by omega)] at this
        rw [← List.take_of_length_le (l := over f r'.buf n) (i := n) (by rw [over_length hn]),
          ← List.take_of_length_le (l := over f r.buf n) (i := n) (by rw [over_length hn])]
        exact over_take ht _ n
      · obtain ⟨p, hp1, hp⟩ := ClientKey.over_shape hn r'.buf
        obtain ⟨q, hq1, hq⟩ := ClientKey.over_shape hn r.buf
        have : p = [] := List.length_eq_zero_iff.1 (by omega)
        have : q = [] := List.length_eq_zero_iff.1 (by omega)
        rw [hp, hq]; simp_all
  unfold reply
  rw [ha, hm]
  split
  · next h4 =>
    by_cases hok : a.rc = .ok
    · have hbl := hf (UInt16.toNat_inj.1 h4) hok
      rw [if_pos hok]
      refine gen ?_ ?_ (.inr ?_) <;> simp only [List.length_append, w32_length] <;> omega
    · rw [if_neg hok, hb hok]
      refine gen ?_ ?_ (.inl ?_) <;> (try simp only [List.length_append, w32_length, List.length_nil]) <;> omega
  all_goals refine gen ?_ ?_ (.inl ?_) <;> (try simp only [List.length_append, w32_length, w16_length]) <;> omega

end same

theorem perform_read (cfg : Cfg E) (x : Nat) (client : UInt16) (e : Env E) (s : State) (id : UInt16) :
    ((perform cfg x client e s (.read id)).1.rc = .ok →
      (perform cfg x client e s (.read id)).1.bytes.length = (perform cfg x client e s (.read id)).1.len ∧
      (perform cfg x client e s (.read id)).1.len ≤ readRoom cfg) := by
  intro h
  have hh : (Cert.readChecked cfg.cert.maxCert s.sys.nvm e.nvmLock id (readRoom cfg)).1.1 = .ok := h
  obtain ⟨h1, h2, h3, h4⟩ := ClientCert.readChecked_ok hh
  simp only [perform, hh, true_or, if_true]
  exact ⟨h1, h3⟩

theorem perform_bytes (cfg : Cfg E) (x : Nat) (client : UInt16) (e : Env E) (s : State) (j : Job E) :
    ((perform cfg x client e s j).1.rc ≠ .ok → (perform cfg x client e s j).1.bytes = []) := by
  cases j with
  | read id => intro h; exact if_neg h
  | _ => intro _; simp only [perform]; first | done | (split <;> rfl)

theorem decode_four {cfg : Cfg E} {e : Env E} {r : Req} (h : r.action = 4) : decode cfg e r = .job (.read (rd16 cfg.le r.magic r.buf 0)) := by
  unfold decode; rw [h]; rfl

theorem serve_shape (cfg : Cfg E) (x : Nat) (client : UInt16) (e : Env E) (r : Req) (s : State) {a : Answer} {s' : State}
    (h : serve cfg x client e r s = (some a, s')) :
    (r.action = 4 → a.rc = .ok → a.bytes.length = a.len ∧ a.len ≤ readRoom cfg) ∧ (a.rc ≠ .ok → a.bytes = []) := by
  unfold serve at h
  split at h
  · cases h
  · next hd =>
    cases h
    refine ⟨fun h4 => ?_, fun _ => rfl⟩
    rw [decode_four h4] at hd
    cases hd
  · next j hd =>
    cases h
    refine ⟨fun h4 => ?_, perform_bytes cfg x client e s j⟩
    rw [decode_four h4] at hd
    cases hd
    exact perform_read cfg x client e s _

theorem handle_same (cfg : Cfg E) (x : Nat) (client : UInt16) (e : Env E) (s : State) {r r' : Req} (hm : r'.magic = r.magic)
    (ha : r'.action = r.action) (hs : r'.size = r.size) (hd : r'.buf.take r.size = r.buf.take r.size)
    (h34 : r.action = 3 ∨ r.action = 4 → 2 ≤ r.size) :
    (handle cfg x client e r' s).2 = (handle cfg x client e r s).2 ∧ (handle cfg x client e r' s).1.2 = (handle cfg x client e r s).1.2 ∧
    (handle cfg x client e r' s).1.1.length = (handle cfg x client e r s).1.1.length ∧
    (handle cfg x client e r' s).1.1.take 4 = (handle cfg x client e r s).1.1.take 4 ∧
    (8 ≤ r.size → (handle cfg x client e r' s).1.1 = (handle cfg x client e r s).1.1) := by
  unfold handle
  rw [serve_same hm hs hd cfg x client e s ha h34]
  have hsh := fun a s' => serve_shape cfg x client e r s (a := a) (s' := s')
  rcases hq : serve cfg x client e r s with ⟨_ | a, s'⟩
  · exact ⟨rfl, rfl, rfl, rfl, fun _ => rfl⟩
  · obtain ⟨g1, g2⟩ := hsh a s' hq
    exact ⟨rfl, rfl, reply_same hm hs hd cfg ha a (fun h4 hok => (g1 h4 hok).1) g2⟩

theorem handle_fits (cfg : Cfg E) (h8 : 8 ≤ cfg.commLen) (x : Nat) (client : UInt16) (e : Env E) (r : Req) (s : State) :
    (handle cfg x client e r s).1.1.length ≤ cfg.commLen := by
  unfold handle
  rcases hq : serve cfg x client e r s with ⟨_ | a, s'⟩
  · exact Nat.zero_le _
  · obtain ⟨g1, g2⟩ := serve_shape cfg x client e r s hq
    dsimp only
    unfold reply
    split
    · next h4 =>
      by_cases hok : a.rc = .ok
      · obtain ⟨k1, k2⟩ := g1 (UInt16.toNat_inj.1 h4) hok
        unfold readRoom at k2
        rw [if_pos hok, over_length (by simp only [List.length_append, w32_length]; omega)]
        omega
      · rw [if_neg hok, g2 hok, over_length (by simp [w32_length])]
        omega
    all_goals rw [over_length (by simp [w32_length, w16_length])]; omega

/-- The size an action asks for, src/wh_server_cert.c:909-1535: that of its structure, with the
certificate it announces. -/
def WellSized (cfg : Cfg E) (r : Req) : Prop :=
  match r.action.toNat with
  | 1 | 3 | 4 => True
  | 2 => 36 ≤ r.size ∧ (rd32 cfg.le r.magic r.buf 0).toNat ≤ r.size - 36
  | 5 => 12 ≤ r.size ∧ (rd32 cfg.le r.magic r.buf 0).toNat ≤ r.size - 12
  | 6 => 16 + 2 * (rd16 cfg.le r.magic r.buf 4).toNat + (rd32 cfg.le r.magic r.buf 0).toNat ≤ r.size
  | 7 => cfg.cert.caching = true
  | 8 => cfg.cert.caching = true ∧ r.size = 8
  | 0x22 => cfg.dma = true ∧ r.size = 48
  | 0x24 => cfg.dma = true ∧ r.size = 16
  | 0x25 => cfg.dma = true ∧ r.size = 24
  | 0x26 => cfg.acert = true ∧ 8 ≤ r.size ∧ (rd32 cfg.le r.magic r.buf 0).toNat ≤ r.size - 8
  | 0x27 => cfg.acert = true ∧ cfg.dma = true ∧ r.size = 24
  | 0x28 => cfg.dma = true ∧ r.size = multiDmaSize cfg.cert.maxRoots
  | _ => False

theorem job_sized {cfg : Cfg E} {e : Env E} {r : Req} {j : Job E} (h : decode cfg e r = .job j) : WellSized cfg r := by
  unfold decode at h
  unfold WellSized
  generalize r.action.toNat = k at h ⊢
  split at h
  · trivial
  · unfold decAdd at h; dsimp only at h; split at h <;> first | (cases h; done) | skip
    split at h <;> first | (cases h; done) | (refine ⟨?_, ?_⟩ <;> omega) | omega
  · trivial
  · trivial
  · unfold decVerify at h; dsimp only at h; split at h <;> first | (cases h; done) | skip
    split at h <;> first | (cases h; done) | (refine ⟨?_, ?_⟩ <;> omega) | omega
  · unfold decMulti at h; dsimp only at h; split at h <;> first | (cases h; done) | skip
    split at h <;> first | (cases h; done) | skip
    split at h
    · cases h
    · next h2 => rw [not_or] at h2; obtain ⟨g1, g2⟩ := h2; show 16 + 2 * _ + _ ≤ _; omega
  · split at h <;> first | (cases h; done) | assumption
  · split at h <;> first | (cases h; done) | skip
    next hc =>
    unfold decEnable at h; split at h <;> first | (cases h; done) | exact ⟨hc, by omega⟩
  · split at h <;> first | (cases h; done) | skip
    next hc =>
    unfold decAddDma at h; split at h <;> first | (cases h; done) | exact ⟨hc, by omega⟩
  · split at h <;> first | (cases h; done) | skip
    next hc =>
    unfold decReadDma at h; split at h <;> first | (cases h; done) | exact ⟨hc, by omega⟩
  · split at h <;> first | (cases h; done) | skip
    next hc =>
    unfold decVerifyDma at h; split at h <;> first | (cases h; done) | exact ⟨hc, by omega⟩
  · split at h <;> first | (cases h; done) | skip
    next hc =>
    unfold decAcert at h; dsimp only at h; split at h <;> first | (cases h; done) | skip
    split at h <;> first | (cases h; done) | exact ⟨hc, by omega, by omega⟩
  · split at h <;> first | (cases h; done) | skip
    next hc =>
    have hc2 : cfg.acert = true ∧ cfg.dma = true := by simpa using hc
    unfold decAcertDma at h; split at h <;> first | (cases h; done) | exact ⟨hc2.1, hc2.2, by omega⟩
  · split at h <;> first | (cases h; done) | skip
    next hc =>
    unfold decMultiDma at h; split at h <;> first | (cases h; done) | exact ⟨hc, by omega⟩
  · cases h

theorem handle_refused (cfg : Cfg E) (x : Nat) (client : UInt16) (e : Env E) (r : Req) (s : State) (h : ¬ WellSized cfg r) :
    (handle cfg x client e r s).2 = s ∧ (handle cfg x client e r s).1.2 = none := by
  unfold handle serve
  cases hd : decode cfg e r with
  | unknown => exact ⟨rfl, rfl⟩
  | bad rc => exact ⟨rfl, rfl⟩
  | job j => exact absurd (job_sized hd) h

/-! ## Packets as events -/

theorem bytes_length (e : Env E) (k : Nat) (addr : UInt64) (len : UInt32) : (e.bytes k addr len).length = len.toNat := by
  rw [ClientCert.range_bytes, List.length_map, List.length_range]

/-- What a verification request gives the verifier: a chain that does not change and is as long as
announced. -/
theorem verify_steady {cfg : Cfg E} {e : Env E} {r : Req} (hmem : ∀ k, e.mem k = e.mem 0) (hb : r.size ≤ r.buf.length) {mem : Nat → List UInt8}
    {len : Nat} {roots : List UInt16} {f kf ki : UInt16} (h : decode cfg e r = .job (.verify mem len roots f kf ki)) :
    (∀ k, mem k = mem 0) ∧ len ≤ (mem 0).length := by
  have hd : ∀ addr l k, e.bytes k addr l = e.bytes 0 addr l := by
    intro addr l k
    rw [ClientCert.range_bytes, ClientCert.range_bytes, hmem k]
  unfold decode at h
  split at h
  · cases h
  · unfold decAdd at h; dsimp only at h; repeat' split at h
    all_goals cases h
  · cases h
  · cases h
  · unfold decVerify at h; dsimp only at h; split at h
    · cases h
    · split at h
      · cases h
      · cases h
        refine ⟨fun _ => rfl, ?_⟩
        unfold rdBytes
        rw [List.length_take, List.length_drop]
        omega
  · unfold decMulti at h; dsimp only at h; split at h
    · cases h
    · split at h
      · cases h
      · split at h
        · cases h
        · cases h
          refine ⟨fun _ => rfl, ?_⟩
          unfold rdBytes
          rw [List.length_take, List.length_drop]
          omega
  · split at h <;> cases h
  · split at h
    · unfold decEnable at h; split at h <;> cases h
    · cases h
  · split at h
    · unfold decAddDma at h; dsimp only at h; repeat' split at h
      all_goals cases h
    · cases h
  · split at h
    · unfold decReadDma at h; dsimp only at h; repeat' split at h
      all_goals cases h
    · cases h
  · split at h
    · unfold decVerifyDma at h; dsimp only at h; split at h
      · cases h
      · split at h
        · cases h
        · cases h
          exact ⟨fun k => hd _ _ k, by rw [bytes_length]⟩
    · cases h
  · split at h
    · unfold decAcert at h; dsimp only at h; repeat' split at h
      all_goals cases h
    · cases h
  · split at h
    · unfold decAcertDma at h; dsimp only at h; repeat' split at h
      all_goals cases h
    · cases h
  · split at h
    · unfold decMultiDma at h; dsimp only at h; split at h
      · cases h
      · split at h
        · cases h
        · cases h
          exact ⟨fun k => hd _ _ k, by rw [bytes_length]⟩
    · cases h
  · cases h

theorem readChecked_keeps (m : Nat) (n : Nvm) (nl : Rc) (id : UInt16) (b : Nat) :
    (Cert.readChecked m n nl id b).2.store = n.store ∧ ((Cert.readChecked m n nl id b).2.powered = true → n.powered = true) := by
  have hp : (Cert.readTrusted m n id b).2.powered = true → n.powered = true := by
    intro h
    cases hn : n.powered with
    | true => rfl
    | false => rw [Cert.readTrusted_off m id b hn] at h; cases h
  unfold Cert.readChecked
  split
  · exact ⟨rfl, fun h => h⟩
  · split
    · split
      · exact ⟨rfl, fun h => h⟩
      · exact ⟨Cert.readTrusted_store .., hp⟩
    · exact ⟨rfl, fun h => h⟩

theorem verifyAcert_keeps (c : Cert.Cfg E) (n : Nvm) (id : UInt16) (d : Cert.Der) :
    (Cert.verifyAcert c n id d).2.store = n.store ∧ ((Cert.verifyAcert c n id d).2.powered = true → n.powered = true) := by
  have h1 := Cert.readTrusted_store c.maxCert n id c.maxCert
  have hp : (Cert.readTrusted c.maxCert n id c.maxCert).2.powered = true → n.powered = true := by
    intro h
    cases hn : n.powered with
    | true => rfl
    | false => rw [Cert.readTrusted_off c.maxCert id c.maxCert hn] at h; cases h
  unfold Cert.verifyAcert
  split
  · next he => rw [he] at h1 hp; exact ⟨h1, hp⟩
  · next he => rw [he] at h1 hp; exact ⟨h1, hp⟩

/-- The event a packet is. -/
theorem handle_event {cfg : Cfg E} (P : UInt16 → Prop) (x : Nat) (client : UInt16) {e : Env E} {r : Req} (s : State)
    (hl : e.cacheLock = .ok) (hmem : ∀ k, e.mem k = e.mem 0) (hb : r.size ≤ r.buf.length) :
    ∃ ev, (handle cfg x client e r s).2 = Cert.step cfg.cert s ev ∧ Cert.Respects P s ev ∧ ∀ sys, ev ≠ .restart sys := by
  have quiet : ∃ ev, s = Cert.step cfg.cert s ev ∧ Cert.Respects P s ev ∧ ∀ sys, ev ≠ .restart sys :=
    ⟨.other s.sys, rfl, ⟨fun h => h, fun _ _ => .inr rfl⟩, fun _ h => by cases h⟩
  have nvm : ∀ n : Nvm, n.store = s.sys.nvm.store → (n.powered = true → s.sys.nvm.powered = true) →
      ∃ ev, { s with sys := { s.sys with nvm := n } } = Cert.step cfg.cert s ev ∧ Cert.Respects P s ev ∧ ∀ sys, ev ≠ .restart sys := by
    intro n h1 h2
    exact ⟨.other { s.sys with nvm := n }, rfl, ⟨h2, fun r _ => .inr (Cert.rootBytes_congr h1 r)⟩, fun _ h => by cases h⟩
  unfold handle serve
  cases hd : decode cfg e r with
  | unknown => exact quiet
  | bad rc => exact quiet
  | job j =>
    dsimp only
    cases j with
    | init => exact ⟨.init .ok, by simp only [perform, Cert.step, hl], trivial, fun _ h => by cases h⟩
    | add md cert =>
      refine ⟨.add e.nvmLock .ok md cert, ?_, rfl, fun _ h => by cases h⟩
      simp only [perform, Cert.step, hl]
      by_cases hn : e.nvmLock = .ok
      · rw [if_neg (not_not_intro hn), if_pos hn]
      · rw [if_pos hn, if_neg hn]
    | erase id =>
      refine ⟨.erase e.nvmLock .ok id, ?_, rfl, fun _ h => by cases h⟩
      simp only [perform, Cert.step, hl]
      by_cases hn : e.nvmLock = .ok
      · rw [if_neg (not_not_intro hn), if_pos hn]
      · rw [if_pos hn, if_neg hn]
    | read id => exact nvm _ (readChecked_keeps ..).1 (readChecked_keeps ..).2
    | readDma id addr len => exact nvm _ (readChecked_keeps ..).1 (readChecked_keeps ..).2
    | verify mem len roots f kf ki =>
      refine ⟨.verify e.nvmLock ⟨x, e.x509, e.sched, mem, roots, f, kf⟩ len (KeyId.fromClient cfg.cert.ks.ids KeyId.typeCrypto client ki), ?_,
        verify_steady hmem hb hd, fun _ h => by cases h⟩
      simp only [perform, Cert.step]
      by_cases hn : e.nvmLock = .ok
      · rw [if_neg (not_not_intro hn), if_pos hn]
      · rw [if_pos hn, if_neg hn]
    | clear =>
      simp only [perform]
      by_cases hn : cfg.cert.globalCache = false ∧ e.nvmLock ≠ .ok
      · rw [if_pos hn]; exact quiet
      · rw [if_neg hn]
        exact ⟨.clear .ok .ok, by simp only [Cert.step, hl, if_true], trivial, fun _ h => by cases h⟩
    | enable b =>
      simp only [perform]
      by_cases hn : cfg.cert.globalCache = false ∧ e.nvmLock ≠ .ok
      · rw [if_pos hn]; exact quiet
      · rw [if_neg hn]
        exact ⟨.enable .ok .ok b, by simp only [Cert.step, hl, if_true], trivial, fun _ h => by cases h⟩
    | acert root cert =>
      simp only [perform]
      by_cases hn : e.nvmLock ≠ .ok
      · rw [if_pos hn]; exact quiet
      · rw [if_neg hn]
        exact nvm _ (verifyAcert_keeps ..).1 (verifyAcert_keeps ..).2

/-- A history of packets is a history of events. -/
theorem prun_events {cfg : Cfg E} {P : UInt16 → Prop} : ∀ (evs : List (PEv E)) (s : State), PGuarded cfg P s evs →
    ∃ evs', Cert.run cfg.cert s evs' = prun cfg s evs ∧ Cert.Guarded cfg.cert P s evs' := by
  intro evs
  induction evs with
  | nil => intro s _; exact ⟨[], rfl, trivial⟩
  | cons ev evs ih =>
    intro s h
    cases ev with
    | packet x client e r =>
      obtain ⟨h1, h2, h3, h4⟩ := h
      obtain ⟨ev, g1, g2, _⟩ := handle_event P x client s h1 h2 h3
      obtain ⟨evs', k1, k2⟩ := ih _ h4
      have he : pstep cfg s (.packet x client e r) = Cert.step cfg.cert s ev := g1
      rw [he] at k1 k2
      refine ⟨ev :: evs', ?_, g2, k2⟩
      show Cert.run cfg.cert (Cert.step cfg.cert s ev) evs' = prun cfg (pstep cfg s (.packet x client e r)) evs
      rw [k1, he]
    | other sys =>
      obtain ⟨h1, h2, h3⟩ := h
      obtain ⟨evs', k1, k2⟩ := ih _ h3
      exact ⟨.other sys :: evs', k1, ⟨h1, h2⟩, k2⟩
    | restart sys =>
      obtain ⟨evs', k1, k2⟩ := ih _ h
      exact ⟨.restart sys :: evs', k1, trivial, k2⟩

end WolfHsm.CertMsg

namespace WolfHsm.ClientCert

open Utils (magicNative)
open Wire

variable {cle : Bool} {m : UInt16}

/-- What a refusal comes to. -/
theorem dec_refusal {sle : Bool} (hp : Paired cle sle magicNative m) (cap : Nat) {a : UInt16} (ha : known a) (seq : UInt16) (buf : List UInt8) :
    decode cle cap a (gotOf a seq (over (w32 sle m Rc.authPermissionError.code) buf 8)) =
    if a = 5 ∨ a = 6 ∨ a = 0x25 ∨ a = 0x28 then
      .verified Rc.authPermissionError.code (rd16 cle magicNative (over (w32 sle m Rc.authPermissionError.code) buf 8) 4)
    else .code Rc.authPermissionError.code := by
  by_cases hv : a = 5 ∨ a = 6 ∨ a = 0x25 ∨ a = 0x28
  · have hl : (w32 sle m Rc.authPermissionError.code).length ≤ 8 := by rw [w32_length]; omega
    have h4 : a ≠ 4 := by rcases hv with rfl | rfl | rfl | rfl <;> decide
    unfold decode gotOf
    dsimp only
    rw [(kind_ok ha).1, (kind_ok ha).2, if_neg (by simp), if_neg h4, if_neg (by rw [over_length hl]; simp), if_pos hv, if_pos hv]
    obtain ⟨p, hpl, ho⟩ := ClientKey.over_shape hl buf
    rw [ho, rd32_here hp]
  · rw [if_neg hv]
    by_cases h4 : a = 4
    · subst h4
      have hl : (w32 sle m Rc.authPermissionError.code).length ≤ 8 := by rw [w32_length]; omega
      unfold decode gotOf
      dsimp only
      rw [(kind_ok ha).1, (kind_ok ha).2, if_neg (by simp), if_pos rfl, if_neg (by rw [over_length hl]; simp)]
      obtain ⟨p, hpl, ho⟩ := ClientKey.over_shape hl buf
      rw [ho, rd32_here hp, if_neg (by decide), if_neg (by decide)]
    · exact got_simple hp cap ha h4 hv seq _ _

theorem encode_verifies {ccfg : Cfg} {c : Call} {a : UInt16} {body : List UInt8} (he : encode cle ccfg c = .ok (a, body)) :
    c.verifies ↔ (a = 5 ∨ a = 6 ∨ a = 0x25 ∨ a = 0x28) := by
  cases c <;> simp only [encode] at he <;> (try split at he) <;> first | (cases he; done) | skip
  all_goals (cases he; simp [Call.verifies])

/-- A call the server is not built for. -/
theorem not_offered {E : Type} {cfg : CertMsg.Cfg E} {ccfg : Cfg} {c : Call} (h : ¬ c.Offered cfg) {a : UInt16} {body : List UInt8}
    (he : encode cle ccfg c = .ok (a, body)) (e : CertMsg.Env E) (seq m : UInt16) (junk : List UInt8) :
    CertMsg.decode cfg e (reqOf m a seq body junk) = .unknown := by
  cases c <;> simp only [encode] at he <;> (try split at he) <;> first | (cases he; done) | skip
  all_goals cases he
  all_goals first
    | exact absurd trivial h
    | exact if_neg h
    | (refine if_neg ?_
       intro hc
       apply h
       show _ ∧ _
       first | exact hc | exact ⟨hc.2, hc.1⟩ | (simpa [and_comm] using hc))

/-- An empty response. -/
theorem decode_empty (cle : Bool) (cap : Nat) {a : UInt16} (ha : known a) (seq : UInt16) :
    decode cle cap a ⟨.ok, magicNative, 0x0C00 ||| a, seq, []⟩ = .err .aborted := by
  unfold decode
  dsimp only
  rw [(kind_ok ha).1, (kind_ok ha).2, if_neg (by simp)]
  by_cases h4 : a = 4
  · rw [if_pos h4, if_pos (by simp)]
  · rw [if_neg h4, if_pos (by simp)]

end WolfHsm.ClientCert

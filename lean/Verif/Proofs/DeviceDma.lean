import Verif.Spec.DeviceDma
import Verif.Proofs.DeviceInv
import Verif.Proofs.CryptoDmaMem

/-!
# Client memory and the whole device: lemmas
-/

namespace WolfHsm.Device

open Server (Req Group)
open Keystore (Sys Srv WF)

variable {A E : Type}

/-! ## The allow list -/

theorem agree_at {al : Dma.AllowList} (hz : Sized al) {m m' : UInt64 → UInt8} (ha : Agree al m m') {a : UInt64} {n : Nat}
    (hn : n < 2 ^ 64) (h : Dma.checkMemOper (2 ^ 64) (some al) .readPre a.toNat n = .ok) {i : Nat} (hi : i < n) :
    m' (a + UInt64.ofNat i) = m (a + UInt64.ofNat i) := by
  obtain ⟨-, h3, x, hx, h4, h5⟩ := ((Dma.C39_check_exact (2 ^ 64) al a.toNat n hn hz.1 hz.2).1).1 h
  have := ha x hx (a.toNat + i) (h5 _ (by omega) (by omega)).1 (h5 _ (by omega) (by omega)).2
  have e : UInt64.ofNat (a.toNat + i) = a + UInt64.ofNat i := by
    rw [UInt64.ofNat_add, UInt64.ofNat_toNat]
  rw [e] at this
  exact this

theorem agree_bytes {al : Dma.AllowList} (hz : Sized al) {m m' : UInt64 → UInt8} (ha : Agree al m m') {a : UInt64} {n : Nat}
    (hn : n < 2 ^ 64) (h : 0 < n → Dma.checkMemOper (2 ^ 64) (some al) .readPre a.toNat n = .ok) :
    bytesAt m' a n = bytesAt m a n := by
  unfold bytesAt
  refine List.map_congr_left fun i hi => ?_
  have hi := List.mem_range.mp hi
  exact agree_at hz ha hn (h (by omega)) hi

theorem allowed_write {al : Dma.AllowList} (hz : Sized al) {a : UInt64} {n k : Nat} (hn : n < 2 ^ 64) (hk : k ≤ n)
    (h : Dma.checkMemOper (2 ^ 64) (some al) .writePre a.toNat n = .ok) : Dma.Allowed al (.write a.toNat k) := by
  obtain ⟨-, -, x, hx, -, h5⟩ := ((Dma.C39_check_exact (2 ^ 64) al a.toNat n hn hz.1 hz.2).2).1 h
  exact ⟨x, hx, fun b h1 h2 => h5 b h1 (by omega)⟩

/-! ## Reading -/

theorem nvm_blind {cfg : NvmMsg.Cfg} {e : NvmMsg.Env} {mem1 mem2 : UInt64 → Nat → List UInt8}
    (h : ∀ a n, n < 2 ^ 64 → e.pre false a n = .ok → mem1 a n = e.mem1 a n ∧ mem2 a n = e.mem2 a n) (r : Req) (n : Nvm) :
    NvmMsg.handle cfg { e with mem1 := mem1, mem2 := mem2 } r n = NvmMsg.handle cfg e r n := by
  have key : NvmServer.handle cfg.nvm n e.lock (NvmMsg.decode cfg { e with mem1 := mem1, mem2 := mem2 } r) =
      NvmServer.handle cfg.nvm n e.lock (NvmMsg.decode cfg e r) := by
    by_cases hP : r.action = 0x24 ∧ cfg.dma = true
    · obtain ⟨h1, h2⟩ := hP
      unfold NvmMsg.decode
      simp +decide only [h1, h2, if_false, and_self, if_true]
      by_cases h3 : r.size = 24
      · simp only [h3, if_true, NvmServer.handle]
        unfold NvmServer.handleAddDma
        have k1 := h (Wire.rd64 cfg.le r.magic r.buf 0) 32 (by decide)
        have k2 := h (Wire.rd64 cfg.le r.magic r.buf 8) (Wire.rd16 cfg.le r.magic r.buf 16).toNat
          (Nat.lt_trans (UInt16.toNat_lt _) (by decide))
        generalize e.pre false (Wire.rd64 cfg.le r.magic r.buf 0) 32 = p1 at k1 ⊢
        generalize e.pre false (Wire.rd64 cfg.le r.magic r.buf 8) (Wire.rd16 cfg.le r.magic r.buf 16).toNat = p2 at k2 ⊢
        by_cases hp1 : p1 = .ok
        · by_cases hp2 : p2 = .ok
          · rw [(k1 hp1).1, (k1 hp1).2, (k2 hp2).1, (k2 hp2).2]
          · subst hp1; cases p2 <;> first | rfl | exact absurd rfl hp2
        · cases p1 <;> first | rfl | exact absurd rfl hp1
      · simp only [h3, if_false]
    · unfold NvmMsg.decode
      simp only [hP, if_false]
  unfold NvmMsg.handle
  dsimp only
  rw [key]

theorem cacheDma_blind {ks : Keystore.Cfg} {x : Nat} {s : Sys} {md : NvmFlash.Meta} {dma : Rc} {m m' : Nat → UInt8}
    (h : dma = .ok → ∀ i, i < md.len.toNat → m' i = m i) :
    Keystore.cacheKeyDma ks x s md dma m' = Keystore.cacheKeyDma ks x s md dma m := by
  unfold Keystore.cacheKeyDma
  by_cases hd : dma = .ok
  · have e : (List.range md.len.toNat).map m' = (List.range md.len.toNat).map m :=
      List.map_congr_left fun i hi => h hd i (List.mem_range.mp hi)
    rw [e]
  · simp only [hd, if_false]

theorem withId_congr {ks : Keystore.Cfg} {x : Nat} {s : Sys} {b : Bool} {md : NvmFlash.Meta}
    {k k' : NvmFlash.Meta → Rc × Sys} (h : ∀ i, k' { md with id := i } = k { md with id := i }) :
    Keystore.withId ks x s b md k' = Keystore.withId ks x s b md k := by
  unfold Keystore.withId
  simp only [h]

theorem handleCacheDma_blind {ks : Keystore.Cfg} {v : Srv} {s : Sys} {id flags : UInt16} {label : Vector UInt8 24} {sz : UInt64}
    {dma : Rc} {m m' : Nat → UInt8} (h : dma = .ok → ∀ i, i < sz.toUInt16.toNat → m' i = m i) :
    Keystore.handleCacheDma ks v s id flags label sz dma m' = Keystore.handleCacheDma ks v s id flags label sz dma m := by
  have hl : (Keystore.clientMeta ks v id flags label sz.toUInt16).len = sz.toUInt16 := rfl
  unfold Keystore.handleCacheDma
  generalize Keystore.clientMeta ks v id flags label sz.toUInt16 = md at hl ⊢
  exact withId_congr fun i => cacheDma_blind fun ho j hj => h ho j (hl ▸ hj)

theorem key_blind {cfg : KeyMsg.Cfg} {e : KeyMsg.Env} {mem : UInt64 → Nat → UInt8}
    (h : ∀ a n, n < 2 ^ 64 → e.dmaIn a n = .ok → ∀ i, i < n → mem a i = e.mem a i) (v : Srv) (r : Req) (s : Sys) :
    KeyMsg.handle cfg v { e with mem := mem } r s = KeyMsg.handle cfg v e r s := by
  have key : KeyMsg.serve cfg v { e with mem := mem } r s = KeyMsg.serve cfg v e r s := by
    by_cases h6 : r.action.toNat = 6
    · unfold KeyMsg.serve KeyMsg.decode KeyMsg.decCacheDma KeyMsg.sized KeyMsg.finish
      simp only [h6]
      by_cases hd : cfg.dma = true
      · simp only [hd, if_true]
        by_cases hz : r.size < 56
        · simp only [hz, if_true]
        · simp only [hz, if_false]
          have hh : ∀ (q q' : Keystore.Req), Keystore.handle cfg.ks v s e.lock q' = Keystore.handle cfg.ks v s e.lock q →
              Keystore.handle cfg.ks v s e.lock q' = Keystore.handle cfg.ks v s e.lock q := fun _ _ h => h
          have e1 := hh
            (.cacheDma (Wire.rd16 cfg.le r.magic r.buf 24) (Wire.rd32 cfg.le r.magic r.buf 16).toUInt16
              (KeyMsg.cutLabel (Wire.rd32 cfg.le r.magic r.buf 20) (Wire.rdBytes r.buf 26 24)) (Wire.rd64 cfg.le r.magic r.buf 8)
              (e.dmaIn (Wire.rd64 cfg.le r.magic r.buf 0) (Wire.rd64 cfg.le r.magic r.buf 8).toUInt16.toNat)
              (e.mem (Wire.rd64 cfg.le r.magic r.buf 0)))
            (.cacheDma (Wire.rd16 cfg.le r.magic r.buf 24) (Wire.rd32 cfg.le r.magic r.buf 16).toUInt16
              (KeyMsg.cutLabel (Wire.rd32 cfg.le r.magic r.buf 20) (Wire.rdBytes r.buf 26 24)) (Wire.rd64 cfg.le r.magic r.buf 8)
              (e.dmaIn (Wire.rd64 cfg.le r.magic r.buf 0) (Wire.rd64 cfg.le r.magic r.buf 8).toUInt16.toNat)
              (mem (Wire.rd64 cfg.le r.magic r.buf 0))) (by
            cases e.lock
            case ok =>
              unfold Keystore.handle
              dsimp only
              unfold Keystore.act
              dsimp only
              rw [handleCacheDma_blind fun ho j hj =>
                h _ _ (Nat.lt_trans (UInt16.toNat_lt _) (by decide)) ho j hj]
            all_goals rfl)
          rw [e1]
          rfl
      · simp only [hd]; rfl
    · have hd : KeyMsg.decode cfg { e with mem := mem } r = KeyMsg.decode cfg e r := by
        unfold KeyMsg.decode
        split <;> first | rfl | (next h => exact absurd h h6)
      unfold KeyMsg.serve
      rw [hd]
      rfl
  unfold KeyMsg.handle
  rw [key]

theorem cert_blind {cfg : CertMsg.Cfg E} {e : CertMsg.Env E} {mem : Nat → UInt64 → Nat → UInt8}
    (h : ∀ a (n : UInt32), e.dmaRead a n = .ok → ∀ j i, i < n.toNat → mem j a i = e.mem j a i) (x : Nat) (client : UInt16) (r : Req)
    (s : Cert.State) : CertMsg.handle cfg x client { e with mem := mem } r s = CertMsg.handle cfg x client e r s := by
  have hb : ∀ j a n, e.dmaRead a n = .ok → CertMsg.Env.bytes { e with mem := mem } j a n = e.bytes j a n := by
    intro j a n ho
    unfold CertMsg.Env.bytes
    exact List.map_congr_left fun i hi => h a n ho j i (List.mem_range.mp hi)
  have hd : CertMsg.decode cfg { e with mem := mem } r = CertMsg.decode cfg e r := by
    have g : ∀ (a : UInt64) (n : UInt32) (f : (Nat → List UInt8) → CertMsg.Decoded E),
        (if e.dmaRead a n ≠ .ok then .bad (e.dmaRead a n) else f fun j => CertMsg.Env.bytes { e with mem := mem } j a n) =
        (if e.dmaRead a n ≠ .ok then .bad (e.dmaRead a n) else f fun j => e.bytes j a n) := by
      intro a n f
      by_cases ho : e.dmaRead a n = .ok
      · rw [if_neg (by simp [ho]), if_neg (by simp [ho])]
        congr 1
        funext j
        exact hb j a n ho
      · rw [if_pos ho, if_pos ho]
    have d1 : CertMsg.decAddDma cfg { e with mem := mem } r = CertMsg.decAddDma cfg e r := by
      unfold CertMsg.decAddDma
      split
      · rfl
      · exact g _ _ fun b => .job (.add _ (b 0))
    have d2 : CertMsg.decVerifyDma cfg { e with mem := mem } r = CertMsg.decVerifyDma cfg e r := by
      unfold CertMsg.decVerifyDma
      split
      · rfl
      · exact g _ _ fun b => .job (.verify b _ _ _ _ _)
    have d3 : CertMsg.decMultiDma cfg { e with mem := mem } r = CertMsg.decMultiDma cfg e r := by
      unfold CertMsg.decMultiDma
      split
      · rfl
      · exact g _ _ fun b => .job (.verify b _ _ _ _ _)
    have d4 : CertMsg.decAcertDma cfg { e with mem := mem } r = CertMsg.decAcertDma cfg e r := by
      unfold CertMsg.decAcertDma
      split
      · rfl
      · exact g _ _ fun b => .job (.acert _ (b 0))
    unfold CertMsg.decode
    rw [d1, d2, d3, d4]
    rfl
  unfold CertMsg.handle CertMsg.serve
  rw [hd]
  rfl

theorem handler_blind {al : Dma.AllowList} (hz : Sized al) {cfg : Cfg A E} (hg : ∀ k, Guarded al (cfg.world k))
    {m m' : Nat → Nat → UInt64 → UInt8} (ha : ∀ k j, Agree al (m k j) (m' k j)) :
    handler (cfg.seeing m') = handler (cfg.seeing m) := by
  funext g x client r d
  have hg := hg d.2.tick
  have ha := ha d.2.tick
  cases g with
  | nvm =>
    have := nvm_blind (cfg := cfg.nvmMsg) (e := ((cfg.world d.2.tick).seeing (m d.2.tick)).nvm)
      (mem1 := bytesAt (m' d.2.tick 0)) (mem2 := bytesAt (m' d.2.tick 1))
      (fun a n hn ho => ⟨agree_bytes hz (ha 0) hn fun h0 => hg.nvmRead a n h0 ho,
        agree_bytes hz (ha 1) hn fun h0 => hg.nvmRead a n h0 ho⟩) r d.1
    show _ = _
    unfold handler
    dsimp only
    have e : NvmMsg.handle (cfg.seeing m').nvmMsg (((cfg.seeing m').world d.2.tick).nvm) r d.1 =
      NvmMsg.handle (cfg.seeing m).nvmMsg (((cfg.seeing m).world d.2.tick).nvm) r d.1 := this
    rw [e]
  | key =>
    have := key_blind (cfg := cfg.keyMsg) (e := ((cfg.world d.2.tick).seeing (m d.2.tick)).key)
      (mem := fun a i => m' d.2.tick 0 (a + UInt64.ofNat i))
      (fun a n hn ho i hi => agree_at hz (ha 0) hn (hg.keyRead a n (by omega) ho) hi) ⟨x, client.toUInt16⟩ r (sysOf d)
    unfold handler
    dsimp only
    have e : KeyMsg.handle (cfg.seeing m').keyMsg ⟨x, client.toUInt16⟩ (((cfg.seeing m').world d.2.tick).key) r (sysOf d) =
      KeyMsg.handle (cfg.seeing m).keyMsg ⟨x, client.toUInt16⟩ (((cfg.seeing m).world d.2.tick).key) r (sysOf d) := this
    rw [e]
  | cert =>
    have := cert_blind (cfg := cfg.certMsg) (e := ((cfg.world d.2.tick).seeing (m d.2.tick)).cert)
      (mem := fun j a i => m' d.2.tick j (a + UInt64.ofNat i))
      (fun a n ho j i hi => agree_at hz (ha j) (Nat.lt_trans (UInt32.toNat_lt _) (by decide))
        (hg.certRead a n (UInt32.lt_iff_toNat_lt.mpr (show 0 < n.toNat by omega)) ho) hi) x client.toUInt16 r
      ⟨sysOf d, d.2.vc (slotOf cfg x), d.2.log⟩
    unfold handler
    dsimp only
    have e : CertMsg.handle (cfg.seeing m').certMsg x client.toUInt16 (((cfg.seeing m').world d.2.tick).cert) r
        ⟨sysOf d, d.2.vc (slotOf (cfg.seeing m') x), d.2.log⟩ =
      CertMsg.handle (cfg.seeing m).certMsg x client.toUInt16 (((cfg.seeing m).world d.2.tick).cert) r
        ⟨sysOf d, d.2.vc (slotOf (cfg.seeing m) x), d.2.log⟩ := this
    rw [e]
    rfl
  | cryptoDma =>
    have := CryptoDma.handle_blind (cfg := cfg.cryptoDma) (v := ⟨x, client.toUInt16⟩)
      (e := ((cfg.world d.2.tick).seeing (m d.2.tick)).cryptoDma) (m' := m' d.2.tick 0) (r := r)
      (fun b ho i hi => agree_at hz (ha 0) (UInt64.toNat_lt _)
        (hg.cryptoRead b (UInt64.lt_iff_toNat_lt.mpr (show 0 < b.sz.toNat by omega)) ho) hi) (sysOf d)
    unfold handler
    dsimp only
    have e : CryptoDma.handle (cfg.seeing m').cryptoDma ⟨x, client.toUInt16⟩ (((cfg.seeing m').world d.2.tick).cryptoDma) r (sysOf d) =
      CryptoDma.handle (cfg.seeing m).cryptoDma ⟨x, client.toUInt16⟩ (((cfg.seeing m).world d.2.tick).cryptoDma) r (sysOf d) := this
    rw [e]
  | counter | crypto | she | custom => rfl

theorem step_blind {al : Dma.AllowList} (hz : Sized al) {cfg : Cfg A E} (hg : ∀ k, Guarded al (cfg.world k))
    {m m' : Nat → Nat → UInt64 → UInt8} (ha : ∀ k j, Agree al (m k j) (m' k j)) :
    step (cfg.seeing m') = step (cfg.seeing m) := by
  have e : (cfg.seeing m').server = (cfg.seeing m).server := by
    unfold Cfg.server
    rw [handler_blind hz hg ha]
    rfl
  funext d ev
  cases ev with
  | restart b => rfl
  | server ev =>
    unfold step
    dsimp only
    rw [e]
    rfl

theorem run_blind {al : Dma.AllowList} (hz : Sized al) {cfg : Cfg A E} (hg : ∀ k, Guarded al (cfg.world k))
    {m m' : Nat → Nat → UInt64 → UInt8} (ha : ∀ k j, Agree al (m k j) (m' k j)) (d : Dev A) (evs : List Ev) :
    run (cfg.seeing m') d evs = run (cfg.seeing m) d evs ∧ sent (cfg.seeing m') d evs = sent (cfg.seeing m) d evs := by
  have e := step_blind hz hg ha
  constructor
  · unfold run; rw [e]
  · induction evs generalizing d with
    | nil => rfl
    | cons ev evs ih => unfold sent; rw [e, ih]

/-! ## Writing -/

theorem slice_length {st : NvmFlash.Store} {id : UInt16} {off len : Nat} : (st.slice id off len).2.length ≤ len := by
  unfold NvmFlash.Store.slice
  repeat' split
  all_goals simp

theorem read_length {n : Nvm} {id : UInt16} {off len : Nat} : (n.read id off len).1.2.length ≤ len := by
  unfold Nvm.read
  split
  · split
    · exact slice_length
    · exact Nat.zero_le _
    · exact Nat.zero_le _
  · exact Nat.zero_le _

theorem nvm_lands {cfg : NvmMsg.Cfg} {e : NvmMsg.Env} {r : Req} {n : Nvm} {a : UInt64} {d : List UInt8}
    (h : (NvmMsg.handle cfg e r n).1.2 = some (a, d)) : ∃ k, k < 2 ^ 64 ∧ e.pre true a k = .ok ∧ d.length ≤ k := by
  unfold NvmMsg.handle at h
  dsimp only at h
  have h28 : r.action = 0x28 ∧ a = Wire.rd64 cfg.le r.magic r.buf 0 ∧
      (NvmServer.handle cfg.nvm n e.lock (NvmMsg.decode cfg e r)).1 = .bytes .ok d := by
    unfold NvmMsg.written at h
    split at h
    · next heq =>
      split at h
      · next h28 => cases h; exact ⟨h28, rfl, heq⟩
      · cases h
    · cases h
  obtain ⟨h1, rfl, h2⟩ := h28
  unfold NvmMsg.decode at h2
  simp +decide only [h1, if_false, false_and, true_and] at h2
  split at h2
  · split at h2
    · unfold NvmServer.handle at h2
      dsimp only at h2
      split at h2
      · unfold NvmServer.handleReadDma at h2
        split at h2
        · split at h2
          · cases h2
          · dsimp only at h2
            split at h2
            · next hp =>
              refine ⟨_, Nat.lt_trans (UInt16.toNat_lt _) (by decide), hp, ?_⟩
              unfold Nvm.readChecked at h2
              split at h2
              · injection h2 with _ h2
                rw [← h2]
                refine Nat.le_trans read_length ?_
                split
                · next hl => exact Nat.le_of_lt (UInt16.lt_iff_toNat_lt.mp hl)
                · exact Nat.le_refl _
              · next hne =>
                injection h2 with h2 _
                exact absurd h2 hne
            · next hne =>
              injection h2 with h2 _
              exact absurd h2 hne
        · rename_i rc o hne heq
          injection h2 with h2 _
          subst h2
          unfold Nvm.metadata NvmFlash.Store.info at heq
          split at heq
          · cases heq
          · cases heq
            exact (hne _ rfl rfl).elim
      · next hne => injection h2 with h2 _; exact absurd h2 hne
    · cases h2
  · cases h2

theorem exportDma_lands {ks : Keystore.Cfg} {x : Nat} {s : Sys} (hw : WF s) {id : UInt16} {sz : UInt64} {dma : Nat → Rc}
    {md : NvmFlash.Meta} {bs : List UInt8} {rc : Rc} (h : (Keystore.exportKeyDma ks x s id sz dma).1 = (rc, some (md, bs))) :
    bs.length < 2 ^ 64 ∧ dma bs.length = .ok := by
  have key : ∀ rc k s', Keystore.freshen ks x s id = (rc, some k, s') → k.md.len.toNat = k.data.length := by
    refine Keystore.freshen_cases (P := fun r => ∀ rc k s', r = (rc, some k, s') → k.md.len.toNat = k.data.length) hw ?_ ?_ ?_ ?_
    · intro k hk rc k' s' h
      injection h with _ h; injection h with h _; injection h with h
      rw [← h]
      rw [Keystore.cached_eq] at hk
      exact hw.clen _ _ _ hk
    · intro md bs s' _ hl rc k' s'' h
      injection h with _ h; injection h with h _; injection h with h
      rw [← h]
      exact (hw.nvm _ _ _ hl.stored).2
    · intro rc s' _ _ _ _ _ _ h; cases h
    · intro rc _ _ _ _ h; cases h
  unfold Keystore.exportKeyDma at h
  split at h
  · split at h
    · rename_i k s' hf
      split at h
      · cases h
      · split at h
        · next ho =>
          injection h with _ h; injection h with h; injection h with _ h
          rw [← h, ← key _ _ _ hf]
          exact ⟨Nat.lt_trans (UInt16.toNat_lt _) (by decide), ho⟩
        · cases h
    · cases h
  · cases h

theorem key_lands {cfg : KeyMsg.Cfg} {v : Srv} {e : KeyMsg.Env} {r : Req} {s : Sys} (hw : WF s) {a : UInt64} {d : List UInt8}
    (h : (KeyMsg.handle cfg v e r s).1.2 = some (a, d)) : d = [] ∨ (d.length < 2 ^ 64 ∧ e.dmaOut a d.length = .ok) := by
  have hs : ∃ q, (KeyMsg.serve cfg v e r s).1 = some q ∧ q.write = some (a, d) := by
    unfold KeyMsg.handle at h
    split at h
    · cases h
    · next q s' heq => exact ⟨q, by rw [heq], h⟩
  obtain ⟨q, h1, h2⟩ := hs
  unfold KeyMsg.serve at h1
  split at h1
  · cases h1
  · injection h1 with h1; subst h1; cases h2
  · split at h1 <;> (injection h1 with h1; subst h1; cases h2)
  · next q0 hdec =>
    split at h1
    swap
    · injection h1 with h1; subst h1; cases h2
    next hl =>
    injection h1 with h1
    have hnone : ∀ (l : Vector UInt8 24) (x : Keystore.Resp), (KeyMsg.Answer.of l x).write = none := by
      intro l x
      unfold KeyMsg.Answer.of
      repeat' split
      all_goals rfl
    subst h1
    unfold KeyMsg.finish at h2
    dsimp only at h2
    split at h2
    · split at h2 <;> (try dsimp only at h2) <;> (rw [hnone] at h2; cases h2)
    · next h7 =>
      split at h2
      · next hrc =>
        injection h2 with h2
        injection h2 with h3 h4
        subst h3
        unfold KeyMsg.decode at hdec
        simp only [h7] at hdec
        split at hdec
        swap
        · cases hdec
        unfold KeyMsg.decExportDma KeyMsg.sized at hdec
        split at hdec
        · cases hdec
        injection hdec with hdec
        subst hdec
        rw [hl] at hrc h4
        unfold Keystore.handle at hrc h4
        dsimp only at hrc h4
        unfold Keystore.act at hrc h4
        dsimp only at hrc h4
        generalize hx : (Keystore.exportKeyDma cfg.ks v.ctx s _ _ _).1 = x at hrc h4
        obtain ⟨rc, o⟩ := x
        cases o with
        | none =>
          left
          rw [← h4]
          unfold Keystore.keyResp
          split
          · next he => cases he
          · rfl
        | some o =>
          unfold Keystore.keyResp at h4
          split at h4
          · next he => cases he; right; rw [← h4]; exact exportDma_lands hw hx
          · left; rw [← h4]; rfl
      · dsimp only at h2; rw [hnone] at h2; cases h2
    · split at h2
      · split at h2
        · cases h2
        · next hle =>
          split at h2
          · next ho =>
            injection h2 with h2
            injection h2 with h3 h4
            subst h3
            rw [← h4]
            exact .inr ⟨Nat.lt_of_le_of_lt (Nat.le_of_not_lt hle) (UInt64.toNat_lt _), ho⟩
          · cases h2
      · rw [hnone] at h2; cases h2
    · dsimp only at h2; rw [hnone] at h2; cases h2

theorem certRead_length {mc : Nat} {n : Nvm} {l : Rc} {id : UInt16} {k : Nat} :
    (Cert.readChecked mc n l id k).1.2.2.length ≤ k := by
  unfold Cert.readChecked
  split
  · exact Nat.zero_le _
  split
  · split
    · exact Nat.zero_le _
    · unfold Cert.readTrusted
      split
      · exact Nat.zero_le _
      split
      · split
        · exact Nat.zero_le _
        · next hl => exact Nat.le_trans read_length (Nat.le_of_not_lt hl)
      · exact Nat.zero_le _
  · exact Nat.zero_le _

theorem cert_lands {cfg : CertMsg.Cfg E} {x : Nat} {client : UInt16} {e : CertMsg.Env E} {r : Req} {s : Cert.State} {a : UInt64}
    {d : List UInt8} (h : (CertMsg.handle cfg x client e r s).1.2 = some (a, d)) :
    ∃ n : UInt32, e.dmaWrite a n = .ok ∧ d.length ≤ n.toNat := by
  have hs : ∃ q, (CertMsg.serve cfg x client e r s).1 = some q ∧ q.write = some (a, d) := by
    unfold CertMsg.handle at h
    split at h
    · cases h
    · next q s' heq => exact ⟨q, by rw [heq], h⟩
  obtain ⟨q, h1, h2⟩ := hs
  unfold CertMsg.serve at h1
  split at h1
  · cases h1
  · injection h1 with h1; subst h1; cases h2
  · next j hj =>
    injection h1 with h1
    subst h1
    cases j with
    | readDma id addr len =>
      unfold CertMsg.perform at h2
      dsimp only at h2
      split at h2
      swap
      · cases h2
      next hok =>
      injection h2 with h2
      injection h2 with h3 h4
      subst h3
      refine ⟨len, ?_, ?_⟩
      · unfold CertMsg.decode CertMsg.decAdd CertMsg.decVerify CertMsg.decMulti CertMsg.decEnable CertMsg.decAddDma
          CertMsg.decVerifyDma CertMsg.decMultiDma CertMsg.decAcert CertMsg.decAcertDma CertMsg.decReadDma at hj
        repeat' (first | split at hj | (dsimp only at hj; split at hj))
        all_goals cases hj
        next hw => exact Decidable.not_not.mp hw
      · rw [← h4]
        exact certRead_length
    | _ =>
      unfold CertMsg.perform at h2
      dsimp only at h2
      repeat' split at h2
      all_goals cases h2

/-- The device wrote to client memory only where the list allows it. -/
def Added (al : Dma.AllowList) (m m' : Rest A) : Prop :=
  ∃ l, m'.sent = m.sent ++ l ∧ ∀ w ∈ l, w.2 ≠ [] → Dma.Allowed al (.write w.1.toNat w.2.length)

theorem Added.same {al : Dma.AllowList} {m m' : Rest A} (h : m'.sent = m.sent) : Added al m m' :=
  ⟨[], by rw [h, List.append_nil], fun _ h => by cases h⟩

theorem Added.trans {al : Dma.AllowList} {m m' m'' : Rest A} (h : Added al m m') (h' : Added al m' m'') : Added al m m'' := by
  obtain ⟨l, e, h⟩ := h
  obtain ⟨l', e', h'⟩ := h'
  refine ⟨l ++ l', by rw [e', e, List.append_assoc], fun w hw => ?_⟩
  rcases List.mem_append.mp hw with hw | hw
  · exact h w hw
  · exact h' w hw

theorem Added.one {al : Dma.AllowList} {m m' : Rest A} {w : Option (UInt64 × List UInt8)} (he : m'.sent = m.sent ++ w.toList)
    (h : ∀ a d, w = some (a, d) → d ≠ [] → Dma.Allowed al (.write a.toNat d.length)) : Added al m m' := by
  refine ⟨w.toList, he, fun w' hw => ?_⟩
  cases w with
  | none => cases hw
  | some w =>
    cases List.mem_singleton.mp hw
    exact h _ _ rfl

theorem handler_lands {al : Dma.AllowList} (hz : Sized al) {cfg : Cfg A E} (hg : ∀ k, Guarded al (cfg.world k))
    (hb : ∀ k, CryptoDma.Bounded cfg.cryptoDma (cfg.world k).cryptoDma) (g : Group) (x : Nat) (client : UInt32) (r : Req)
    (m : Nvm × Rest A) (hw : WF (sysOf m)) : Added al m.2 (handler cfg g x client r m).2.2 := by
  have hg := hg m.2.tick
  cases g with
  | nvm =>
    refine Added.one rfl fun a d h hne => ?_
    have hp := List.length_pos_iff.mpr hne
    obtain ⟨k, h1, h2, h3⟩ := nvm_lands h
    exact allowed_write hz h1 h3 (hg.nvmWrite _ _ (by omega) h2)
  | key =>
    refine Added.one rfl fun a d h hne => ?_
    have hp := List.length_pos_iff.mpr hne
    rcases key_lands hw h with h | ⟨h1, h2⟩
    · exact absurd h hne
    · exact allowed_write hz h1 (Nat.le_refl _) (hg.keyWrite _ _ hp h2)
  | cert =>
    refine Added.one rfl fun a d h hne => ?_
    have hp := List.length_pos_iff.mpr hne
    obtain ⟨k, h2, h3⟩ := cert_lands h
    exact allowed_write hz (Nat.lt_trans (UInt32.toNat_lt _) (by decide)) h3
      (hg.certWrite _ _ (UInt32.lt_iff_toNat_lt.mpr (show 0 < k.toNat by omega)) h2)
  | cryptoDma =>
    refine Added.one rfl fun a d h hne => ?_
    have hp := List.length_pos_iff.mpr hne
    obtain ⟨-, b, h2, rfl, h3⟩ := CryptoDma.handle_lands (hb _) h
    exact allowed_write hz (UInt64.toNat_lt _) h3
      (hg.cryptoWrite _ (UInt64.lt_iff_toNat_lt.mpr (show 0 < b.sz.toNat by omega)) h2)
  | counter | crypto | she | custom => exact Added.one (w := none) rfl fun _ _ h => by cases h

theorem handleComm_rest (cfg : Cfg A E) (d : Dev A) (x : Nat) (r : Req) : (Server.handleComm cfg.server d x r).2.rest = d.rest := by
  unfold Server.handleComm
  dsimp only
  repeat' split
  all_goals first | rfl | (unfold Server.drop; dsimp only; (repeat' split) <;> rfl)

theorem answer_lands {al : Dma.AllowList} (hz : Sized al) {cfg : Cfg A E} (hg : ∀ k, Guarded al (cfg.world k))
    (hb : ∀ k, CryptoDma.Bounded cfg.cryptoDma (cfg.world k).cryptoDma) (d : Dev A) (hw : WF (sys d)) (x : Nat) (kind : UInt16)
    (r : Req) : Added al d.rest (Server.answer cfg.server d x kind r).2.rest := by
  unfold Server.answer
  dsimp only
  split
  · exact .same rfl
  · unfold Server.dispatch
    split
    · rw [handleComm_rest]; exact .same rfl
    · split
      · split <;> exact .same rfl
      · split
        · exact .same rfl
        · split
          · exact handler_lands hz hg hb _ x _ r (d.auth.nvm, d.rest) hw
          · exact .same rfl

theorem step_lands {al : Dma.AllowList} (hz : Sized al) {cfg : Cfg A E} (hg : ∀ k, Guarded al (cfg.world k))
    (hb : ∀ k, CryptoDma.Bounded cfg.cryptoDma (cfg.world k).cryptoDma) (d : Dev A) (hw : WF (sys d)) (ev : Ev) :
    Added al d.rest (step cfg d ev).2.rest := by
  cases ev with
  | restart b => exact .same rfl
  | server e =>
    unfold step
    dsimp only
    split
    swap
    · exact .same rfl
    cases e with
    | start x b => exact .same rfl
    | connect x => exact .same rfl
    | drop x => exact .same (by unfold Server.step Server.drop; dsimp only)
    | request x rx aux txs =>
      show Added al d.rest (Server.handle cfg.server d x rx aux txs).2.rest
      by_cases h : (d.ctx x).connected = true ∧ (Server.received cfg.server rx).rc = .ok
      · rw [Server.handle_received cfg.server d x rx aux txs h.1 h.2]
        exact answer_lands hz hg hb d hw x _ _
      · rw [(Server.handle_nothing cfg.server d x rx aux txs ?_).2]
        · exact .same rfl
        · by_cases hc : (d.ctx x).connected = true
          · exact Or.inr fun e => h ⟨hc, e⟩
          · exact Or.inl (by simpa using hc)

theorem run_lands {al : Dma.AllowList} (hz : Sized al) {cfg : Cfg A E} (hs : Sound cfg) (hg : ∀ k, Guarded al (cfg.world k))
    (hb : ∀ k, CryptoDma.Bounded cfg.cryptoDma (cfg.world k).cryptoDma) : ∀ (evs : List Ev) (d : Dev A), DevInv d →
    Added al d.rest (run cfg d evs).rest
  | [], _, _ => .same rfl
  | ev :: evs, d, h => by
    show Added al d.rest (run cfg (step cfg d ev).2 evs).rest
    exact (step_lands hz hg hb d h.wf ev).trans (run_lands hz hs hg hb evs _ (run_inv hs [ev] h))

end WolfHsm.Device

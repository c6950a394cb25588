import Verif.Proofs.SheBoot
import Verif.Proofs.SheGen

/-!
# C34, C37, C38: secure boot, the key generator, and the export of the RAM key
-/

namespace WolfHsm.Props

open NvmFlash (Meta)
open Keystore (Sys Srv cached view labelCount GoodCfg WF Coherent)
open Server (Req)
open She Wire
open Utils (bytes32)

variable {cfg : She.Cfg} {ncfg : NvmServer.Cfg}

/-- **C34, in part.**  Over every history: a `SECURE_BOOT_FINISH` is answered without error only
if, since the last power cycle, the context accepted a `SECURE_BOOT_INIT` and then as boot commands
accepted `SECURE_BOOT_UPDATE`s only, and the CMAC, under the boot MAC key as it was seen by the
`INIT`, of the announced size and the bytes of those updates is the stored boot MAC; and those are
exactly as many bytes as announced (modulo 2^32 if the announced size is within the size of a
packet of 2^32).

Missing: a stored MAC of fewer than 16 bytes is compared together with uninitialised memory
(`env`), and boot also completes when the key cannot be read (`F_she_boot_fail_open`;
`C34_no_key_partial`). -/
theorem C34_partial (hg : GoodCfg cfg.ks) (hs : cfg.cr.Sized) {w0 : World} (h0 : Booted w0) {evs : List Ev}
    (hv : ∀ e ∈ evs, Ev.Valid e) {v : Srv} {env : Env} {r : Req} (ha : r.action = 3)
    (hans : Answered cfg ncfg (run cfg ncfg w0 evs) v env r .ok) :
    ∃ a v1 env1 r1 b key mac, evs = a ++ .she v1 env1 r1 :: b ∧ v1.ctx = v.ctx ∧ r1.action = 1 ∧
      Answered cfg ncfg (run cfg ncfg w0 a) v1 env1 r1 .ok ∧ (∀ e ∈ b, ¬e.isRestart) ∧
      OnlyUpdates cfg ncfg w0 v.ctx (a ++ [.she v1 env1 r1]) b ∧
      slotKey cfg v1 (run cfg ncfg w0 a).sys 2 = some key ∧ key.length = 16 ∧
      slotKey cfg v (run cfg ncfg w0 evs).sys 3 = some mac ∧ mac.length ≤ 16 ∧
      cfg.cr.cmac key (zeros 12 ++ bytes32 cfg.le (announced cfg r1) ++ chunks cfg v.ctx b) =
        mac ++ (env.bytes 0 16).drop mac.length ∧
      (chunks cfg v.ctx b).length % 2 ^ 32 = (announced cfg r1).toNat ∧
      ((announced cfg r1).toNat + cfg.ks.commLen < 2 ^ 32 →
        (chunks cfg v.ctx b).length = (announced cfg r1).toNat) := by
  obtain ⟨hp, hr, q, hc, hret, _, _, _⟩ := hans.ok
  have hI := boot_history (cfg := cfg) (ncfg := ncfg) h0 v.ctx evs hv hp
  have hwf : ∀ a, (∀ e ∈ a, Ev.Valid e) → WF (run cfg ncfg w0 a).sys := fun a h => run_wf' hg hs (booted_wf cfg ncfg h0) h
  have hq : q = sbFinish cfg v env ((run cfg ncfg w0 evs).she v.ctx) (run cfg ncfg w0 evs).sys r := by
    simp only [command, ha] at hc
    simp at hc
    split at hc
    · cases hc; rfl
    · cases hc
  rw [hq] at hret
  revert hret
  refine sbFinish_cases (P := fun q => q.ret = .ok → _) ?_ ?_
  · exact fun x h _ _ h' => absurd h' h
  · intro x md mac hsb _ _ hrd hmac _
    obtain ⟨a, v1, env1, r1, b, md1, key, s1, B⟩ := hI.going (Or.inr hsb)
    have hva : ∀ e ∈ a, Ev.Valid e := fun e he => hv e (by rw [B.hist]; simp [he])
    obtain ⟨_, _, h2⟩ := readSlot_ok (hwf a hva) B.read
    obtain ⟨_, hl3, h3⟩ := readSlot_ok (hwf evs hv) hrd
    have k2 : view cfg.ks v1.ctx (run cfg ncfg w0 a).sys (sheId cfg v1.client 2) = some (md1, key) := by
      rcases h2 with h | ⟨h, _⟩
      · exact h
      · exact absurd h (by decide)
    have k3 : view cfg.ks v.ctx (run cfg ncfg w0 evs).sys (sheId cfg v.client 3) = some (md, mac) := by
      rcases h3 with h | ⟨h, _⟩
      · exact h
      · exact absurd h (by decide)
    have hfin := congrArg UInt32.toNat (B.fin hsb)
    rw [B.recv, B.size] at hfin
    refine ⟨a, v1, env1, r1, b, key, mac, B.hist, B.ctx, B.act, B.ans, B.nores, B.upd, by simp [slotKey, k2], B.klen,
      by simp [slotKey, k3], hl3, ?_, hfin, ?_⟩
    · rw [← B.hkey, ← B.data, hmac]
      unfold put; simp
    · intro hsm
      have := B.small hsm
      have : (announced cfg r1).toNat < 2 ^ 32 := (announced cfg r1).toNat_lt
      rw [Nat.mod_eq_of_lt (by omega)] at hfin
      exact hfin

/-- **C34, no boot key, in part.**  If no NVM call fails, `SECURE_BOOT_INIT` is answered
`NO_SECURE_BOOT` only if there is no 16-byte boot MAC key. -/
theorem C34_no_key_partial (hg : GoodCfg cfg.ks) (hs : cfg.cr.Sized) {w : World} (hr : She.Reach cfg ncfg w)
    (hf : Fine w.sys.nvm) {v : Srv} {env : Env} {r : Req} (ha : r.action = 1)
    (hans : Answered cfg ncfg w v env r .sheNoSecureBoot) :
    ∀ key, slotKey cfg v w.sys 2 = some key → key.length ≠ 16 := by
  intro key hk hl
  obtain ⟨_, q, hc, hret, _⟩ := hans.inr (by decide)
  rw [translate_noBoot] at hret
  have hq : q = sbInit cfg v env (w.she v.ctx) w.sys r := by
    simp only [command, ha] at hc
    simp at hc
    split at hc
    · cases hc; rfl
    · cases hc
  unfold slotKey at hk
  rw [Option.map_eq_some_iff] at hk
  obtain ⟨⟨md, key'⟩, hvw, rfl⟩ := hk
  have hrs := readSlot_view (hr.wf' hg hs) hf hvw hl
  rcases hq2 : readSlot cfg v w.sys 2 with ⟨q2, s2⟩
  rw [hq2] at hrs
  dsimp only at hrs
  subst hrs
  rw [hq] at hret
  unfold sbInit at hret
  rw [hq2] at hret
  dsimp only at hret
  rw [if_neg (show ¬key'.length ≠ 16 from fun h => h hl)] at hret
  repeat' split at hret
  all_goals simp [cryptoErr] at hret

/-- **C38, in part.**  Over every history: `EXPORT_RAM_KEY` is answered without error only if,
since the last power cycle, the context accepted a `LOAD_PLAIN_KEY`, or a `LOAD_KEY` for the RAM
key slot.

Missing: only the plain load should allow the export (`F_she_export_loaded`). -/
theorem C38_partial (hg : GoodCfg cfg.ks) (hs : cfg.cr.Sized) {w0 : World} (h0 : Booted w0) {evs : List Ev}
    (hv : ∀ e ∈ evs, Ev.Valid e) {v : Srv} {env : Env} {r : Req} (ha : r.action = 7)
    (hans : Answered cfg ncfg (run cfg ncfg w0 evs) v env r .ok) :
    ∃ a v1 env1 r1 b, evs = a ++ .she v1 env1 r1 :: b ∧ v1.ctx = v.ctx ∧
      (r1.action = 6 ∨ r1.action = 5 ∧ popId (m1 r1) = 14) ∧
      Answered cfg ncfg (run cfg ncfg w0 a) v1 env1 r1 .ok ∧ ∀ e ∈ b, ¬e.isRestart := by
  obtain ⟨hp, hr, q, hc, hret, _, _, _⟩ := hans.ok
  have hram : ((run cfg ncfg w0 evs).she v.ctx).ramPlain = true := by
    cases h : ((run cfg ncfg w0 evs).she v.ctx).ramPlain with
    | true => rfl
    | false =>
      exfalso
      simp only [command, ha] at hc
      simp at hc
      split at hc
      · cases hc
        unfold exportRam at hret
        dsimp only at hret
        split at hret
        · cases hret
        · first | cases hret | (rw [if_pos h] at hret; cases hret)
      · cases hc
  obtain ⟨a, f, b, h1, ⟨v1, env1, r1, rfl, h2, h3, h4⟩, h5⟩ := ram_history hg hs h0 v.ctx evs hv hp hram
  exact ⟨a, v1, env1, r1, b, h1, h2, h3, h4, h5⟩

/-- **C37, in part.**  On any device after any history, with an NVM and crypto calls that do not
fail: the messages `wh_She_GenerateLoadableKey` makes, with the UID of the device, a counter of 28
bits and the key in the authorising slot, for an NVM slot that is empty or holds a key that is not
write protected with a smaller counter, are accepted; the answer is the predicted M4 and M5; the
slot holds the key with exactly that counter; nothing else in the NVM changes.  The stored flags
are sixteen times the requested ones; in particular the key is never write protected.

Missing: the flags should be the requested ones (`F_she_flags`). -/
theorem C37_partial (hg : GoodCfg cfg.ks) (hs : cfg.cr.Sized)
    (hd : ∀ k b, b.length = 16 → cfg.cr.dec k (cfg.cr.enc k b) = b) {w : World} (hr : She.Reach cfg ncfg w)
    (hf : Fine w.sys.nvm) {v : Srv} {env : Env} {r : Req} (hl : env.lock = .ok) (hfa : ∀ k, env.fault k = false)
    (hu : (w.she v.ctx).uidSet = true) (hb : (w.she v.ctx).sb = .success)
    {k a : UInt8} {count flags : UInt32} {key ak : List UInt8} {u : Update}
    (hgen : generate cfg.cr k a count flags (w.she v.ctx).uid key ak = some u)
    (ha : r.action = 5) (hsz : 64 ≤ r.size) (hm : r.buf.take 64 = u.m1 ++ u.m2 ++ u.m3)
    (hul : (w.she v.ctx).uid.length = 15) (huz : (w.she v.ctx).uid ≠ zeros 15) (hkl : key.length = 16)
    (hal : ak.length = 16) (hc : count.toNat < 2 ^ 28) (hfl : flags.toNat < 16) (h14 : k ≠ 14)
    (hauth : slotKey cfg v w.sys a.toUInt16 = some ak ∨
      slotKey cfg v w.sys a.toUInt16 = none ∧ a = 1 ∧ cfg.ks.she = true ∧ ak = zeros 16)
    (hcoh : Coherent cfg.ks w.sys (sheId cfg v.client k.toUInt16))
    (htar : Updatable cfg v w.sys k.toUInt16 count.toNat) :
    (step cfg ncfg w (.she v env r)).1 = .she .ok (w32 cfg.le r.magic 0 ++ u.m4 ++ u.m5) ∧
    ∃ md, (step cfg ncfg w (.she v env r)).2.sys.nvm.store = w.sys.nvm.store.set md key ∧
      md.id = sheId cfg v.client k.toUInt16 ∧ md.len = 16 ∧
      labelCount md.label = count.toNat ∧ labelFlags md.label = flags.toNat * 16 ∧ isWp md = false := by
  have hwf := hr.wf' hg hs
  have hshape : u.m1.length = 16 ∧ u.m2.length = 32 ∧ u.m3.length = 16 ∧ u.m4.length = 32 ∧ u.m5.length = 16 := by
    unfold generate at hgen
    split at hgen
    · cases hgen
    · cases hgen
      refine ⟨by simp [hul], by rw [cbcEnc_length hs], hs.cmac _ _, by simp [hul, hs.enc], hs.cmac _ _⟩
  obtain ⟨l1, l2, l3, l4, l5⟩ := hshape
  have e1 : m1 r = u.m1 := by
    have := congrArg (List.take 16) hm
    rw [List.take_take, List.append_assoc, List.take_left' l1] at this
    simpa [m1, rdBytes] using this
  have e2 : m2 r = u.m2 := by
    have := congrArg (fun l => List.take 32 (List.drop 16 l)) hm
    rw [List.append_assoc, List.drop_left' l1, List.take_left' l2] at this
    rw [List.drop_take, List.take_take] at this
    simpa [m2, rdBytes] using this
  have e3 : m3 r = u.m3 := by
    have := congrArg (List.drop 48) hm
    rw [List.drop_left' (by simp [l1, l2]), List.drop_take] at this
    simpa [m3, rdBytes] using this
  have hrd : ∃ amd, (readSlot cfg v w.sys a.toUInt16).1 = (.ok, some (amd, ak)) := by
    rcases hauth with h | ⟨h, h1, h2, h3⟩
    · unfold slotKey at h
      rw [Option.map_eq_some_iff] at h
      obtain ⟨⟨md, key'⟩, hvw, rfl⟩ := h
      exact ⟨md, readSlot_view hwf hf hvw hal⟩
    · unfold slotKey at h
      rw [Option.map_eq_none_iff] at h
      rw [readSlot_none h]
      subst h1 h3
      unfold Keystore.sheFallback
      rw [if_pos ⟨h2, rfl, typeOf_sheId .., by rw [idOf_sheId]; decide⟩]
      exact ⟨_, rfl⟩
  obtain ⟨amd, hrd⟩ := hrd
  have hreads := readSlot_reads (cfg := cfg) (v := v) a.toUInt16 hwf
  have hvw := hreads.view (y := v.ctx) hcoh
  have htar' : Updatable cfg v (readSlot cfg v w.sys a.toUInt16).2 k.toUInt16 count.toNat := by
    unfold Updatable; rw [hvw]; exact htar
  obtain ⟨md, s', hld, hf', hst, hid, hlen, hcnt, hflg⟩ := loadKey_generated (v := v) (env := env) (r := r)
    hwf hs hd hf hfa hgen hsz e1 e2 e3 rfl hul huz hkl hal hc hfl h14 hrd htar'
  have hcmd : command cfg v env (w.she v.ctx) w.sys r = .inr (loadKey cfg v env (w.she v.ctx) w.sys r) := by
    simp [command, ha, hl]
  have hnr : refused (w.she v.ctx) r.action = false := by
    simp [refused, ha, hu, hb]
  have hh : handle cfg v env (w.she v.ctx) w.sys r =
      ((.ok, w32 cfg.le r.magic 0 ++ u.m4 ++ u.m5), w.she v.ctx, s') := by
    unfold handle
    rw [hnr, hcmd, hld]
    have hpk : Res.packet cfg r ⟨.ok, u.m4 ++ u.m5, 52, w.she v.ctx, s'⟩ = w32 cfg.le r.magic 0 ++ u.m4 ++ u.m5 := by
      unfold Res.packet over
      have : (w32 cfg.le r.magic (translate Rc.ok).code ++ (u.m4 ++ u.m5)).length = 52 := by
        simp [w32_length, l4, l5]
      dsimp only
      rw [this]
      simp only [Nat.sub_self, List.take_zero, List.append_nil, List.append_assoc]
      rfl
    simp only [Bool.false_eq_true, if_false, hpk]
    rw [resetBoot_ok _ (Or.inl rfl)]
  refine ⟨?_, md, ?_, hid, hlen, hcnt, hflg, by unfold isWp; rw [hflg]; simp; omega⟩
  · rw [step_obs hf.1 (by rw [hh]; exact hf'.1), hh]
  · rw [step_she hf.1, set_sys, hh]; exact hst

end WolfHsm.Props

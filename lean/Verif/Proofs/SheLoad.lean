import Verif.Proofs.SheDid

/-! # `LOAD_KEY` and the other commands that write -/

namespace WolfHsm.She

open NvmFlash (Meta Store withLen)
open Keystore hiding Req Ev Cfg step run Reach
open Server (Req)
open Wire

variable {cfg : Cfg} {ncfg : NvmServer.Cfg}

/-- M2 decrypted with the authorising key. -/
def clearM2 (cfg : Cfg) (key : List UInt8) (r : Req) : List UInt8 :=
  cbcDec cfg.cr (mp16 cfg.cr (key ++ encC)) 2 (zeros 16) (m2 r)

/-- An update that has been stored. -/
structure Loaded' (cfg : Cfg) (v : Srv) (t : St) (s : Sys) (r : Req) (s1 s2 s3 : Sys) (key : List UInt8)
    (md0 md : Meta) (keyRet : Rc) : Prop where
  size : 64 ≤ r.size
  auth : ∃ amd, readSlot cfg v s (popAuth (m1 r)) = ((.ok, some (amd, key)), s1)
  klen : key.length = 16
  mac : m3 r = cfg.cr.cmac (mp16 cfg.cr (key ++ macC)) (m1 r ++ m2 r)
  check : Checked cfg v.ctx s1 (updateSlot cfg v r) (updateCount cfg key r)
  reads : Reads cfg v.ctx s1 s2
  acc : accept t (m1 r) (clearM2 cfg key r) keyRet md0 = .ok
  hmd : md = newMeta cfg v (m1 r) (clearM2 cfg key r) md0
  wrote : Wrote cfg v.ctx md (((clearM2 cfg key r).drop 16).take 16) s2 s3

theorem clearM2_key (hs : cfg.cr.Sized) {r : Req} (hb : 64 ≤ r.buf.length) (key : List UInt8) :
    (((clearM2 cfg key r).drop 16).take 16).length = 16 := by
  have := cbcDec_length hs (mp16 cfg.cr (key ++ encC)) 2 (zeros 16) (m2 r) (zeros_length 16)
    (by unfold m2; rw [rdBytes_length (by omega)])
  unfold clearM2; simp [this]

theorem loadKey_cases {v : Srv} {env : Env} {t : St} {s : Sys} {r : Req} (hw : WF s) (hs : cfg.cr.Sized)
    (hb : r.size ≤ r.buf.length) {P : Res → Prop}
    (herr : ∀ x : Res, x.ret ≠ .ok → x.st = t → Reads cfg v.ctx s x.sys → P x)
    (hram : ∀ (x : Res) s1 s2 key md0 md keyRet, Loaded' cfg v t s r s1 s2 x.sys key md0 md keyRet →
      popId (m1 r) = 14 → x.sys.nvm = s2.nvm → (x.ret = .ok → Filled cfg.ks v.ctx s2 x.sys md (((clearM2 cfg key r).drop 16).take 16) ∧
        x.st = { t with ramPlain := true }) → (x.ret ≠ .ok → x.st = t) → P x)
    (hnv : ∀ (x : Res) s1 s2 s3 key md0 md keyRet, Loaded' cfg v t s r s1 s2 s3 key md0 md keyRet →
      popId (m1 r) ≠ 14 → x.st = t → Reads cfg v.ctx s3 x.sys → x.ret ≠ .ok → P x)
    (hok : ∀ (x : Res) s1 s2 s3 key md0 md keyRet md' key', Loaded' cfg v t s r s1 s2 s3 key md0 md keyRet →
      popId (m1 r) ≠ 14 → x.st = t → Reads cfg v.ctx s3 x.sys → x.ret = .ok →
      s3.nvm.store md.id = some (md, ((clearM2 cfg key r).drop 16).take 16) → s3.nvm.pending = none →
      cached cfg.ks v.ctx s3 md.id = none →
      readKey cfg.ks v.ctx s3 md.id 16 = ((.ok, some (md', key')), x.sys) →
      answer cfg env t (m1 r) md' key' = (.ok, x.body) → x.size = 52 → P x) :
    P (loadKey cfg v env t s r) := by
  unfold loadKey
  dsimp only
  split
  · exact herr _ (by simp) rfl (.nil _)
  rename_i hsz
  have hsz' : 64 ≤ r.size := by omega
  have hf := openM2_cases (cfg := cfg) (v := v) (env := env) (s := s) (r := r) hw
    (P := fun q => q = openM2 cfg v env s (m1 r) (m2 r) (m3 r) → P (match q with
      | (.error e, s1) => ⟨e, zeros 48, 52, t, s1⟩
      | (.ok m2', s1) =>
        match target cfg v s1 (popId (m1 r)) with
        | (.error e, s2) => ⟨e, zeros 48, 52, t, s2⟩
        | (.ok (keyRet, md), s2) =>
          if accept t (m1 r) m2' keyRet md = .ok then
            match store cfg v s2 (newMeta cfg v (m1 r) m2' md) ((m2'.drop 16).take 16) with
            | ((.ok, md', key), s3) =>
              let a := answer cfg env t (m1 r) md' key
              ⟨a.1, a.2, 52,
                if a.1 = .ok ∧ KeyId.idOf md'.id = 14 then { t with ramPlain := true } else t, s3⟩
            | (_, s3) => ⟨.sheKeyUpdateError, zeros 48, 52, t, s3⟩
          else ⟨accept t (m1 r) m2' keyRet md, zeros 48, 52, t, s2⟩)) ?_ ?_
  · exact hf rfl
  · intro e s' he hr _; exact herr _ he rfl hr
  · intro amd key s1 hrs hkl hmac _
    have hr1 : Reads cfg v.ctx s s1 := by
      have := readSlot_reads (cfg := cfg) (v := v) (popAuth (m1 r)) hw
      rw [hrs] at this; exact this
    have hw1 := hr1.wf hw
    dsimp only
    refine target_cases (cfg := cfg) (v := v) (slot := popId (m1 r)) hw1 (P := fun q => P (match q with
        | (.error e, s2) => ⟨e, zeros 48, 52, t, s2⟩
        | (.ok (keyRet, md), s2) =>
          if accept t (m1 r) (clearM2 cfg key r) keyRet md = .ok then
            match store cfg v s2 (newMeta cfg v (m1 r) (clearM2 cfg key r) md)
                (((clearM2 cfg key r).drop 16).take 16) with
            | ((.ok, md', key), s3) =>
              let a := answer cfg env t (m1 r) md' key
              ⟨a.1, a.2, 52,
                if a.1 = .ok ∧ KeyId.idOf md'.id = 14 then { t with ramPlain := true } else t, s3⟩
            | (_, s3) => ⟨.sheKeyUpdateError, zeros 48, 52, t, s3⟩
          else ⟨accept t (m1 r) (clearM2 cfg key r) keyRet md, zeros 48, 52, t, s2⟩)) ?_ ?_
    · intro e s2 he hr; exact herr _ he rfl (hr1.trans hr)
    · intro keyRet md0 s2 hr2 hview
      dsimp only
      split
      · rename_i hacc
        have hw2 := hr2.wf hw1
        have hkey := clearM2_key hs (r := r) (by omega) key
        have hcheck : Checked cfg v.ctx s1 (updateSlot cfg v r) (updateCount cfg key r) := by
          intro hh md' d hv
          obtain ⟨g1, g2, g3⟩ := hview hh md' d hv
          subst g3
          exact ⟨g1, (accept_ok hacc).1 g2⟩
        have hL : ∀ s3, Wrote cfg v.ctx (newMeta cfg v (m1 r) (clearM2 cfg key r) md0)
            (((clearM2 cfg key r).drop 16).take 16) s2 s3 →
            Loaded' cfg v t s r s1 s2 s3 key md0 (newMeta cfg v (m1 r) (clearM2 cfg key r) md0) keyRet :=
          fun s3 h => ⟨hsz', ⟨amd, hrs⟩, hkl, hmac, hcheck, hr2, hacc, rfl, h⟩
        have hid : KeyId.idOf (newMeta cfg v (m1 r) (clearM2 cfg key r) md0).id = popId (m1 r) :=
          idOf_popId ..
        refine store_cases (cfg := cfg) (v := v) (s := s2) (md := newMeta cfg v (m1 r) (clearM2 cfg key r) md0)
          (key := ((clearM2 cfg key r).drop 16).take 16) hw2 (by rw [hkey]; rfl) (P := fun q => P (match q with
            | ((.ok, md', key), s3) =>
              let a := answer cfg env t (m1 r) md' key
              ⟨a.1, a.2, 52,
                if a.1 = .ok ∧ KeyId.idOf md'.id = 14 then { t with ramPlain := true } else t, s3⟩
            | (_, s3) => ⟨.sheKeyUpdateError, zeros 48, 52, t, s3⟩)) ?_ ?_ ?_
        · intro rc s3 h14 hwr hnv hfl
          rw [hid] at h14
          by_cases hrc : rc = .ok
          · subst hrc
            dsimp only
            refine hram _ s1 s2 key md0 _ keyRet (hL s3 hwr) h14 hnv ?_ ?_
            · intro ha
              dsimp only at ha ⊢
              rw [if_pos ⟨ha, by rw [hid]; exact h14⟩]
              exact ⟨hfl rfl, rfl⟩
            · intro ha
              dsimp only at ha ⊢
              rw [if_neg (fun h => ha h.1)]
          · have : P ⟨.sheKeyUpdateError, zeros 48, 52, t, s3⟩ :=
              hram _ s1 s2 key md0 _ keyRet (hL s3 hwr) h14 hnv (fun h => by cases h) (fun _ => rfl)
            cases rc <;> first | exact absurd rfl hrc | exact this
        · intro rc s3 s4 h14 hrc hwr hr
          rw [hid] at h14
          have : P ⟨.sheKeyUpdateError, zeros 48, 52, t, s4⟩ :=
            hnv _ s1 s2 s3 key md0 _ keyRet (hL s3 hwr) h14 rfl hr (by simp)
          cases rc <;> first | exact absurd rfl hrc | exact this
        · intro md' key' s3 s4 h14 hwr hst hpe hc hrk
          have hw3 := hwr.wf (by rw [hkey]; rfl) hw2
          have hr : Reads cfg v.ctx s3 s4 := by
            have := readKey_reads (cfg := cfg) (x := v.ctx)
              (newMeta cfg v (m1 r) (clearM2 cfg key r) md0).id 16 hw3
            rw [hrk] at this; exact this
          have hty : KeyId.typeOf (newMeta cfg v (m1 r) (clearM2 cfg key r) md0).id = KeyId.typeShe :=
            typeOf_sheId ..
          have hc' : cached cfg.ks v.ctx s3 (newMeta cfg v (m1 r) (clearM2 cfg key r) md0).id = none := by
            rcases hc with hc | hc | hc
            · exact hc
            · unfold KeyId.isUnassigned at hc; rw [hty] at hc; simp at hc
            · unfold isHw at hc; rw [hty] at hc; simp [KeyId.typeShe, KeyId.typeHw] at hc
          have hid' : KeyId.idOf md'.id = popId (m1 r) := by
            obtain ⟨_, _, hv | ⟨_, _, hv, _⟩⟩ := readSlot_ok (cfg := cfg) (v := v) (slot := popId (m1 r)) hw3 hrk
            · have : view cfg.ks v.ctx s3 (sheId cfg v.client (popId (m1 r))) =
                  some (newMeta cfg v (m1 r) (clearM2 cfg key r) md0,
                    ((clearM2 cfg key r).drop 16).take 16) := by
                unfold view
                have e : cached cfg.ks v.ctx s3 (sheId cfg v.client (popId (m1 r))) = none := hc'
                rw [e]; exact hst
              rw [this] at hv; cases hv; exact hid
            · rw [hv]; exact idOf_popId ..
          rw [hid] at h14
          dsimp only
          rw [if_neg (fun h => h14 (hid'.symm.trans h.2))]
          by_cases ha : (answer cfg env t (m1 r) md' key').1 = .ok
          · exact hok _ s1 s2 s3 key md0 _ keyRet md' key' (hL s3 hwr) h14 rfl hr ha hst hpe hc' hrk
              (by rw [← ha]) rfl
          · exact hnv _ s1 s2 s3 key md0 _ keyRet (hL s3 hwr) h14 rfl hr ha
      · rename_i hacc; exact herr _ hacc rfl (hr1.trans hr2)

theorem Loaded'.honest {v : Srv} {t : St} {s s1 s2 s3 : Sys} {r : Req} {key : List UInt8} {md0 md : Meta}
    {keyRet : Rc} (h : Loaded' cfg v t s r s1 s2 s3 key md0 md keyRet) (hh : HonestN s.nvm) : HonestN s1.nvm := by
  obtain ⟨amd, ha⟩ := h.auth
  have := readKey_honest (cfg := cfg) (x := v.ctx) (id := sheId cfg v.client (popAuth (m1 r))) (n := 16) hh
  unfold readSlot at ha
  rw [ha] at this; exact this

theorem Loaded'.key {v : Srv} {t : St} {s s1 s2 s3 : Sys} {r : Req} {key : List UInt8} {md0 md : Meta}
    {keyRet : Rc} (h : Loaded' cfg v t s r s1 s2 s3 key md0 md keyRet) (hw : WF s) (hh : HonestN s.nvm) :
    key = authKey cfg v s r := by
  obtain ⟨amd, ha⟩ := h.auth
  exact authKey_of hw ha hh

theorem Loaded'.reads1 {v : Srv} {t : St} {s s1 s2 s3 : Sys} {r : Req} {key : List UInt8} {md0 md : Meta}
    {keyRet : Rc} (h : Loaded' cfg v t s r s1 s2 s3 key md0 md keyRet) (hw : WF s) : Reads cfg v.ctx s s1 := by
  obtain ⟨amd, ha⟩ := h.auth
  exact (readSlot_ok hw ha).1

theorem Loaded'.count {v : Srv} {t : St} {s s1 s2 s3 : Sys} {r : Req} {key : List UInt8} {md0 md : Meta}
    {keyRet : Rc} (h : Loaded' cfg v t s r s1 s2 s3 key md0 md keyRet) :
    labelCount md.label = updateCount cfg key r := by
  rw [h.hmd]; exact labelCount_setLabel ..

theorem Loaded'.id {v : Srv} {t : St} {s s1 s2 s3 : Sys} {r : Req} {key : List UInt8} {md0 md : Meta}
    {keyRet : Rc} (h : Loaded' cfg v t s r s1 s2 s3 key md0 md keyRet) : md.id = updateSlot cfg v r := by
  rw [h.hmd]; rfl

theorem Loaded'.len {v : Srv} {t : St} {s s1 s2 s3 : Sys} {r : Req} {key : List UInt8} {md0 md : Meta}
    {keyRet : Rc} (h : Loaded' cfg v t s r s1 s2 s3 key md0 md keyRet) (hs : cfg.cr.Sized)
    (hb : r.size ≤ r.buf.length) : md.len.toNat = (((clearM2 cfg key r).drop 16).take 16).length := by
  rw [clearM2_key hs (by have := h.size; omega), h.hmd]; rfl

theorem Loaded'.did {v : Srv} {t : St} {s s1 s2 s3 s4 : Sys} {r : Req} {key : List UInt8} {md0 md : Meta}
    {keyRet : Rc} (h : Loaded' cfg v t s r s1 s2 s3 key md0 md keyRet) (hw : WF s) (hs : cfg.cr.Sized)
    (hb : r.size ≤ r.buf.length) (ha : r.action = 5) (hn : popId (m1 r) ≠ 14) (h4 : Reads cfg v.ctx s3 s4) :
    Did cfg v r s s4 :=
  .load (key := key) ha (h.reads1 hw) (h.key hw) h.honest h.check h.reads h.id hn h.count (h.len hs hb) h.wrote h4

theorem Loaded'.did_ram {v : Srv} {t : St} {s s1 s2 s3 : Sys} {r : Req} {key : List UInt8} {md0 md : Meta}
    {keyRet : Rc} (h : Loaded' cfg v t s r s1 s2 s3 key md0 md keyRet) (hw : WF s) (hs : cfg.cr.Sized)
    (hb : r.size ≤ r.buf.length) (hn : popId (m1 r) = 14) : Did cfg v r s s3 :=
  .ram ((h.reads1 hw).trans h.reads) (by rw [h.id]; unfold updateSlot; rw [hn]) (h.len hs hb) h.wrote

theorem loadKey_did {v : Srv} {env : Env} {t : St} {s : Sys} {r : Req} (hw : WF s) (hs : cfg.cr.Sized)
    (hb : r.size ≤ r.buf.length) (ha : r.action = 5) : Did cfg v r s (loadKey cfg v env t s r).sys := by
  refine loadKey_cases (P := fun x => Did cfg v r s x.sys) hw hs hb ?_ ?_ ?_ ?_
  · intro x _ _ h; exact .reads h
  · intro x s1 s2 key md0 md keyRet h hn _ _ _; exact h.did_ram hw hs hb hn
  · intro x s1 s2 s3 key md0 md keyRet h hn _ hr _; exact h.did hw hs hb ha hn hr
  · intro x s1 s2 s3 key md0 md keyRet md' key' h hn _ hr _ _ _ _ _ _ _; exact h.did hw hs hb ha hn hr

theorem loadPlain_did {v : Srv} {t : St} {s : Sys} {r : Req} (hw : WF s) (hb : r.size ≤ r.buf.length) :
    Did cfg v r s (loadPlain cfg v t s r).sys := by
  unfold loadPlain
  dsimp only
  split
  · exact .reads (.nil _)
  · rename_i hsz
    have hl : (16 : UInt16).toNat = (rdBytes r.buf 0 16).length := by rw [rdBytes_length (by omega)]; rfl
    refine cacheKey_wrote (cfg := cfg) (x := v.ctx)
      (md := ⟨sheId cfg v.client 14, 0, 0, 16, Vector.replicate 24 0⟩) (data := rdBytes r.buf 0 16)
      (P := fun p => Did cfg v r s (if p.1 = .ok then ⟨.ok, [], 4, { t with ramPlain := true }, p.2⟩
        else ⟨p.1, [], 4, t, p.2⟩ : Res).sys) hw ?_ ?_
    · intro s' h; rw [if_pos (rfl : Rc.ok = Rc.ok)]; exact .ram (.nil _) rfl hl (filled_wrote h)
    · intro rc s' hrc h; rw [if_neg hrc]; exact .ram (.nil _) rfl hl h

theorem readSlot_step {v : Srv} {s s' : Sys} {slot : UInt16} {q} (hw : WF s)
    (h : readSlot cfg v s slot = (q, s')) : Reads cfg v.ctx s s' := by
  have := readSlot_reads (cfg := cfg) (v := v) slot hw
  rw [h] at this; exact this

theorem exportRam_reads {v : Srv} {env : Env} {t : St} {s : Sys} {r : Req} (hw : WF s) :
    Reads cfg v.ctx s (exportRam cfg v env t s r).sys := by
  unfold exportRam
  dsimp only
  split
  · exact .nil _
  split
  · exact .nil _
  split
  · rename_i h1
    have hr1 := readSlot_step hw h1
    split
    · exact hr1
    split
    · rename_i h2
      have hr2 := hr1.trans (readSlot_step (hr1.wf hw) h2)
      repeat (split; · exact hr2)
      exact hr2
    · rename_i h2
      exact hr1.trans (readSlot_step (hr1.wf hw) h2)
  · rename_i h1
    exact readSlot_step hw h1

theorem cipher_reads {v : Srv} {env : Env} {t : St} {s : Sys} {r : Req} {m : Mode} (hw : WF s) :
    Reads cfg v.ctx s (cipher cfg v env t s r m).sys := by
  unfold cipher
  dsimp only
  split
  · exact .nil _
  split
  · exact .nil _
  split
  · exact .nil _
  split
  · rename_i h1
    have hr1 := readSlot_step hw h1
    repeat (split; · exact hr1)
    exact hr1
  · rename_i h1
    exact readSlot_step hw h1

theorem genMac_reads {v : Srv} {env : Env} {t : St} {s : Sys} {r : Req} (hw : WF s) :
    Reads cfg v.ctx s (genMac cfg v env t s r).sys := by
  unfold genMac
  dsimp only
  split
  · exact .nil _
  split
  · exact .nil _
  split
  · rename_i h1
    have hr1 := readSlot_step hw h1
    repeat (split; · exact hr1)
    exact hr1
  · rename_i h1
    exact readSlot_step hw h1

theorem verifyMac_reads {v : Srv} {env : Env} {t : St} {s : Sys} {r : Req} (hw : WF s) :
    Reads cfg v.ctx s (verifyMac cfg v env t s r).sys := by
  unfold verifyMac
  dsimp only
  split
  · exact .nil _
  split
  · exact .nil _
  split
  · rename_i h1
    have hr1 := readSlot_step hw h1
    repeat (split; · exact hr1)
    exact hr1
  · rename_i h1
    exact readSlot_step hw h1

theorem sbInit_reads {v : Srv} {env : Env} {t : St} {s : Sys} {r : Req} (hw : WF s) :
    Reads cfg v.ctx s (sbInit cfg v env t s r).sys := by
  unfold sbInit
  dsimp only
  split
  · exact .nil _
  split
  · exact .nil _
  split
  · rename_i h1
    have hr1 := readSlot_step hw h1
    repeat (split; · exact hr1)
    exact hr1
  · rename_i h1
    exact readSlot_step hw h1

theorem sbFinish_reads {v : Srv} {env : Env} {t : St} {s : Sys} {r : Req} (hw : WF s) :
    Reads cfg v.ctx s (sbFinish cfg v env t s r).sys := by
  unfold sbFinish
  dsimp only
  split
  · exact .nil _
  split
  · exact .nil _
  split
  · exact .nil _
  split
  · rename_i h1
    have hr1 := readSlot_step hw h1
    repeat (split; · exact hr1)
    exact hr1
  · rename_i h1
    exact readSlot_step hw h1

theorem slot15 {v : Srv} {s s' : Sys} {md : Meta} {d : List UInt8} (hw : WF s)
    (h : readSlot cfg v s 15 = ((.ok, some (md, d)), s')) :
    view cfg.ks v.ctx s (sheId cfg v.client 15) = some (md, d) := by
  obtain ⟨_, _, h | ⟨h, _⟩⟩ := readSlot_ok hw h
  · exact h
  · exact absurd h (by decide)

theorem initRnd_did {v : Srv} {env : Env} {t : St} {s : Sys} {r : Req} (hw : WF s) (hs : cfg.cr.Sized) :
    Did cfg v r s (initRnd cfg v env t s r).sys := by
  unfold initRnd
  dsimp only
  split
  · exact .reads (.nil _)
  split
  · exact .reads (.nil _)
  split
  · rename_i sec s1 h1
    have hr1 := readSlot_step hw h1
    split
    · exact .reads hr1
    split
    · rename_i md sd s2 h2
      have hr2 := readSlot_step (hr1.wf hw) h2
      have hv := slot15 (hr1.wf hw) h2
      split
      · exact .reads (hr1.trans hr2)
      have hlen : (cbcEnc cfg.cr (mp16 cfg.cr (put (env.bytes 0 16) 0 sec ++ prngSeedC)) 1 (zeros 16)
              (put (env.bytes 16 16) 0 sd)).length = 16 := cbcEnc_length hs ..
      generalize hseed : cbcEnc cfg.cr (mp16 cfg.cr (put (env.bytes 0 16) 0 sec ++ prngSeedC)) 1 (zeros 16)
              (put (env.bytes 16 16) 0 sd) = seed at hlen
      have hadd : ∀ n, (∃ rc, s2.nvm.add { md with id := sheId cfg v.client 15, len := 16 } seed = (rc, n)) →
          Did cfg v r s { s2 with nvm := n } := by
        rintro n ⟨rc, e⟩
        have : Wrote cfg v.ctx { md with id := sheId cfg v.client 15, len := 16 } seed s2 { s2 with nvm := n } := by
          refine add_wrote (cfg := cfg) (x := v.ctx) (s := s2)
            (md := { md with id := sheId cfg v.client 15, len := 16 }) (data := seed)
            (P := fun q => q = (rc, n) → Wrote cfg v.ctx { md with id := sheId cfg v.client 15, len := 16 }
              seed s2 { s2 with nvm := n }) (hr2.wf (hr1.wf hw)) (by rw [hlen]; rfl) ?_ ?_ e
          · rintro n' h _ _ _ e; cases e; exact h
          · rintro rc' n' _ h e; cases e; exact h
        exact .seed hr1 hv hr2 hlen this
      split
      · rename_i n e
        split
        · exact hadd _ ⟨_, e⟩
        · exact hadd _ ⟨_, e⟩
      · rename_i n _ e
        exact hadd _ ⟨_, e⟩
    · rename_i h2
      exact .reads (hr1.trans (readSlot_step (hr1.wf hw) h2))
  · rename_i h1
    exact .reads (readSlot_step hw h1)

theorem extendSeed_did {v : Srv} {env : Env} {t : St} {s : Sys} {r : Req} (hw : WF s) (hs : cfg.cr.Sized) :
    Did cfg v r s (extendSeed cfg v env t s r).sys := by
  unfold extendSeed
  dsimp only
  split
  · exact .reads (.nil _)
  split
  · exact .reads (.nil _)
  split
  · exact .reads (.nil _)
  split
  · rename_i md sd s2 h2
    have hr2 := readSlot_step hw h2
    have hv := slot15 hw h2
    split
    · exact .reads hr2
    have hlen := mp16_length hs (put t.prngState 0 sd ++ rdBytes r.buf 0 16)
    generalize mp16 cfg.cr (put t.prngState 0 sd ++ rdBytes r.buf 0 16) = seed at hlen
    have hadd : ∀ n, (∃ rc, s2.nvm.add { md with id := sheId cfg v.client 15, len := 16 } seed = (rc, n)) →
        Did cfg v r s { s2 with nvm := n } := by
      rintro n ⟨rc, e⟩
      have : Wrote cfg v.ctx { md with id := sheId cfg v.client 15, len := 16 } seed s2 { s2 with nvm := n } := by
        refine add_wrote (cfg := cfg) (x := v.ctx) (s := s2)
          (md := { md with id := sheId cfg v.client 15, len := 16 }) (data := seed)
          (P := fun q => q = (rc, n) → Wrote cfg v.ctx { md with id := sheId cfg v.client 15, len := 16 }
            seed s2 { s2 with nvm := n }) (hr2.wf hw) (by rw [hlen]; rfl) ?_ ?_ e
        · rintro n' h _ _ _ e; cases e; exact h
        · rintro rc' n' _ h e; cases e; exact h
      exact .seed (.nil _) hv hr2 hlen this
    split
    · rename_i n e; exact hadd _ ⟨_, e⟩
    · rename_i n _ e; exact hadd _ ⟨_, e⟩
  · rename_i h2
    exact .reads (readSlot_step hw h2)

end WolfHsm.She

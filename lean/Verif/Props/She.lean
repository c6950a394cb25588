import Verif.Proofs.SheAccept

/-!
# C33, C35, C36: gating, replay and write protection of the SHE commands

The vocabulary is in `Spec/She`: a history is any list of SHE requests (any clients, any
server contexts, any bytes, any wolfCrypt failures), key, NVM and crypto requests and power
cycles; `Answered … rc` says that a response is sent and its first field is `rc`.
-/

namespace WolfHsm.Props

open NvmFlash (Meta)
open Keystore (Sys Srv cached view labelCount OnlyAt GoodCfg Inv3 Prof WF)
open Server (Req)
open She

variable {cfg : She.Cfg} {ncfg : NvmServer.Cfg}

/-- The request is refused: it is answered `SEQUENCE_ERROR` and nothing changes. -/
def Refused (cfg : She.Cfg) (ncfg : NvmServer.Cfg) (w : World) (v : Srv) (env : Env) (r : Req) : Prop :=
  Answered cfg ncfg w v env r .sheSequenceError ∧ (step cfg ncfg w (.she v env r)).2 = w

/-- **C33.**  Over every history: until the UID has been given to the context after the last
power cycle, every SHE command other than `SET_UID` and `GET_STATUS` is refused, and until secure
boot has been completed as well, every command except those and the boot commands; a second
`SET_UID` is refused. -/
theorem C33_gated {w0 : World} (h0 : Booted w0) {evs : List Ev} (hv : ∀ e ∈ evs, Ev.Valid e)
    (hp : (run cfg ncfg w0 evs).sys.nvm.powered = true) (v : Srv) (env : Env) (r : Req) :
    (r.action = 0 → UidGiven cfg ncfg w0 evs v.ctx → Refused cfg ncfg (run cfg ncfg w0 evs) v env r) ∧
    (r.action.toNat ≤ 16 → r.action ≠ 0 → r.action ≠ 4 → ¬UidGiven cfg ncfg w0 evs v.ctx →
      Refused cfg ncfg (run cfg ncfg w0 evs) v env r) ∧
    (5 ≤ r.action.toNat → r.action.toNat ≤ 16 → ¬BootDone cfg ncfg w0 evs v.ctx →
      Refused cfg ncfg (run cfg ncfg w0 evs) v env r) := by
  obtain ⟨hu, hb, _⟩ := gate_history h0 v.ctx evs hv hp
  refine ⟨?_, ?_, ?_⟩
  · intro ha hg
    refine refused_effect hp ?_ (by rw [ha]; decide)
    unfold refused; rw [ha]; simp [hu.2 hg]
  · intro ha h1 h2 hg
    refine refused_effect hp ?_ ha
    have : ((run cfg ncfg w0 evs).she v.ctx).uidSet = false := by
      cases h : ((run cfg ncfg w0 evs).she v.ctx).uidSet with
      | false => rfl
      | true => exact absurd (hu.1 h) hg
    unfold refused; rw [if_neg h2, if_neg h1, if_pos this]
  · intro h5 ha hg
    refine refused_effect hp ?_ ha
    have hs : ((run cfg ncfg w0 evs).she v.ctx).sb ≠ .success := fun h => hg (hb.1 h)
    have e : ∀ k : UInt16, k.toNat < 5 → r.action ≠ k := by rintro k hk rfl; omega
    unfold refused
    rw [if_neg (e 4 (by decide)), if_neg (e 0 (by decide))]
    split
    · rfl
    · rw [if_pos ⟨e 1 (by decide), e 2 (by decide), e 3 (by decide), hs⟩]

/-- **C33, status.**  `GET_STATUS` reports "boot OK" exactly if secure boot has been completed. -/
theorem C33_status {w0 : World} (h0 : Booted w0) {evs : List Ev} (hv : ∀ e ∈ evs, Ev.Valid e)
    (hp : (run cfg ncfg w0 evs).sys.nvm.powered = true) (v : Srv) (env : Env) (r : Req) (ha : r.action = 4)
    (hz : r.size = 0) : ∃ p, (step cfg ncfg (run cfg ncfg w0 evs) (.she v env r)).1 = .she .ok p ∧
      Wire.rd32 cfg.le r.magic p 0 = Rc.ok.code ∧
      ((p.getD 4 0).toNat.testBit 4 = true ↔ BootDone cfg ncfg w0 evs v.ctx) := by
  obtain ⟨_, hb, _⟩ := gate_history h0 v.ctx evs hv hp
  generalize hw : run cfg ncfg w0 evs = w at *
  have hh : handle cfg v env (w.she v.ctx) w.sys r =
      ((.ok, (getStatus (w.she v.ctx) w.sys r).packet cfg r), w.she v.ctx, w.sys) := by
    unfold handle
    have hr : refused (w.she v.ctx) r.action = false := by rw [ha]; rfl
    have hc : command cfg v env (w.she v.ctx) w.sys r = .inr (getStatus (w.she v.ctx) w.sys r) := by
      unfold command; rw [ha]; rfl
    have h1 : (getStatus (w.she v.ctx) w.sys r).st = w.she v.ctx := by unfold getStatus; split <;> rfl
    have h2 : (getStatus (w.she v.ctx) w.sys r).sys = w.sys := by unfold getStatus; split <;> rfl
    rw [hr, hc]
    simp only [Bool.false_eq_true, if_false]
    rw [h1, h2]
    unfold resetBoot
    rw [if_neg (by rw [ha]; simp)]
  refine ⟨(getStatus (w.she v.ctx) w.sys r).packet cfg r, ?_, ?_, ?_⟩
  · rw [step_obs hp (by rw [hh]; exact hp), hh]
  · rw [(packet_code cfg r _).1]
    unfold getStatus; rw [if_neg (by omega)]; rfl
  · rw [← hb]
    have hl : ∀ c : UInt32, (Wire.w32 cfg.le r.magic c).length = 4 := by
      intro c; exact Wire.w32_length ..
    have : ((getStatus (w.she v.ctx) w.sys r).packet cfg r).getD 4 0 =
        (getStatus (w.she v.ctx) w.sys r).body.headD 0 := by
      unfold Res.packet Wire.over getStatus
      rw [if_neg (by omega)]
      simp [List.getD_eq_getElem?_getD, List.getElem?_append_right, hl]
    rw [this]
    unfold getStatus
    rw [if_neg (by omega)]
    cases hk : (w.she v.ctx).keyFound <;> cases hs : (w.she v.ctx).sb <;> cases hq : (w.she v.ctx).rndInited <;>
      simp [hk, hs, hq] <;> decide

/-! ## C35 -/

/-- The counter of the slot is at least `n` in every copy. -/
def atLeast (n : Nat) : Prof :=
  ⟨fun k => n ≤ labelCount k.md.label, fun o => ∃ md d, o = some (md, d) ∧ n ≤ labelCount md.label,
    fun md _ => n ≤ labelCount md.label⟩

theorem atLeast_loads (n : Nat) : (atLeast n).Loads := by
  rintro md bs ⟨_, _, e, h⟩; cases e; exact h

theorem atLeast_seen {n : Nat} {md : Meta} {d : List UInt8} (h : Seen (atLeast n) md d) :
    n ≤ labelCount md.label := by
  rcases h with ⟨_, h⟩ | ⟨_, _, e, h⟩
  · exact h
  · cases e; exact h

theorem slot_ne14 {c c' : UInt16} {r : Req} (h : popId (m1 r) ≠ 14) :
    sheId cfg c (popId (m1 r)) ≠ sheId cfg c' 14 := by
  intro e
  have := congrArg KeyId.idOf e
  rw [idOf_popId, idOf_sheId] at this
  exact h this

/-- A copy with counter at least `n` everywhere: an accepted update of the slot has a larger one. -/
theorem accepted_above (hg : GoodCfg cfg.ks) (hs : cfg.cr.Sized) {w : World} (hw : WF w.sys) (hh : Honest w)
    {v : Srv} {env : Env} {r : Req} (hb : r.size ≤ r.buf.length) (ha : r.action = 5)
    (h : Answered cfg ncfg w v env r .ok) {n : Nat}
    (hI : Inv3 cfg.ks (atLeast n) (updateSlot cfg v r) w.sys) :
    n < updateCount cfg (authKey cfg v w.sys r) r := by
  obtain ⟨x, s1, s2, s3, key, md0, md, keyRet, hL, _⟩ := answered_load hw hs hb ha h
  rw [← hL.key hw hh]
  have hI1 := (hL.reads1 hw).inv3 hw (atLeast_loads n) hI
  cases hv : view cfg.ks v.ctx s1 (updateSlot cfg v r) with
  | none =>
    exfalso
    unfold view at hv
    split at hv
    · cases hv
    · obtain ⟨_, _, e, _⟩ := hI1.n; rw [hv] at e; cases e
  | some p =>
    obtain ⟨md', d⟩ := p
    have h1 := atLeast_seen (She.Inv3.seen hI1 hv)
    have h2 := (hL.check (hL.honest hh) md' d hv).2
    omega

theorem atLeast_run (hg : GoodCfg cfg.ks) (hs : cfg.cr.Sized) {w : World} (hw : WF w.sys) (hh : Honest w)
    {evs : List Ev} (hv : ∀ e ∈ evs, Ev.Valid e) {c : UInt16} {r : Req} (h14 : popId (m1 r) ≠ 14)
    (hsp : ∀ e ∈ evs, e.Spares cfg (sheId cfg c (popId (m1 r)))) {n : Nat}
    (hI : Inv3 cfg.ks (atLeast n) (sheId cfg c (popId (m1 r))) w.sys) :
    Inv3 cfg.ks (atLeast n) (sheId cfg c (popId (m1 r))) (run cfg ncfg w evs).sys := by
  refine run_inv3 hg hs hw hh hv hsp hI (atLeast_loads n) (fun c' => slot_ne14 h14) ?_ ?_ ?_ ?_
  · rintro ⟨_, _, e, _⟩; cases e
  · intro md d _ _ h; exact ⟨_, _, rfl, h⟩
  · intro _ md d data _ _ h
    have h := atLeast_seen h
    exact ⟨h, ⟨_, _, rfl, h⟩, h⟩
  · intro md d md' data h _ hlt _ _
    have : n ≤ labelCount md'.label := by have := atLeast_seen h; omega
    exact ⟨this, ⟨_, _, rfl, this⟩, this⟩

/-- **C35, counters increase.**  After an accepted key update of a slot other than the RAM key,
over any further history in which the slot is written by SHE commands only, the next accepted
update of the slot carries a larger counter.  The hypotheses: the medium reports `NOTFOUND` only
for missing objects, and no other server context holds the slot in its own cache at the time of
the first update (always true if one context serves the client, or with global SHE keys). -/
theorem C35_increasing (hg : GoodCfg cfg.ks) (hs : cfg.cr.Sized) {w : World} (hr : She.Reach cfg ncfg w)
    (hh : Honest w) {v : Srv} {env : Env} {r : Req} (hv : (Ev.she v env r).Valid) (ha : r.action = 5)
    (h14 : popId (m1 r) ≠ 14) (ho : OnlyAt cfg.ks v.ctx w.sys (updateSlot cfg v r))
    (h : Answered cfg ncfg w v env r .ok)
    {evs : List Ev} (hvs : ∀ e ∈ evs, Ev.Valid e) (hsp : ∀ e ∈ evs, e.Spares cfg (updateSlot cfg v r))
    {w' : World} (hw' : w' = run cfg ncfg (step cfg ncfg w (.she v env r)).2 evs)
    {v' : Srv} {env' : Env} {r' : Req} (hv' : (Ev.she v' env' r').Valid) (ha' : r'.action = 5)
    (hslot : updateSlot cfg v' r' = updateSlot cfg v r) (h' : Answered cfg ncfg w' v' env' r' .ok) :
    updateCount cfg (authKey cfg v w.sys r) r < updateCount cfg (authKey cfg v' w'.sys r') r' := by
  have hw := Reach.wf' hg hs hr
  obtain ⟨s1, s2, s3, key, md0, md, keyRet, hL, hI⟩ :=
    accepted_everywhere hw hs hv.2.2 ha h h14 ho
  have hI' := hI (atLeast (updateCount cfg (authKey cfg v w.sys r) r)) (atLeast_loads _) ⟨_, _, rfl, by rw [hL.count, hL.key hw hh]⟩
  have hw1 := step_wf' (ncfg := ncfg) hg hs hw hv
  have hh1 : Honest (step cfg ncfg w (.she v env r)).2 := Honest.run (evs := [.she v env r]) hh
  have hI2 := atLeast_run (ncfg := ncfg) hg hs hw1 hh1 hvs h14 hsp hI'
  subst hw'
  exact accepted_above hg hs (run_wf' hg hs hw1 hvs) (hh1.run evs) hv'.2.2 ha' h'
    (by rw [hslot]; exact hI2)

/-- **C35, no replay.**  An accepted update sent again later by the same client, whatever has
happened in between to the slot through SHE commands, is accepted only if the authorising key has
changed and the CMAC of M1 and M2 under the old and the new derived key is the same. -/
theorem C35_no_replay (hg : GoodCfg cfg.ks) (hs : cfg.cr.Sized) {w : World} (hr : She.Reach cfg ncfg w)
    (hh : Honest w) {v : Srv} {env : Env} {r : Req} (hv : (Ev.she v env r).Valid) (ha : r.action = 5)
    (h14 : popId (m1 r) ≠ 14) (ho : OnlyAt cfg.ks v.ctx w.sys (updateSlot cfg v r))
    (h : Answered cfg ncfg w v env r .ok)
    {evs : List Ev} (hvs : ∀ e ∈ evs, Ev.Valid e) (hsp : ∀ e ∈ evs, e.Spares cfg (updateSlot cfg v r))
    {w' : World} (hw' : w' = run cfg ncfg (step cfg ncfg w (.she v env r)).2 evs)
    {v' : Srv} {env' : Env} {r' : Req} (hv' : (Ev.she v' env' r').Valid) (ha' : r'.action = 5)
    (hc : v'.client = v.client) (h1 : m1 r' = m1 r) (h2 : m2 r' = m2 r) (h3 : m3 r' = m3 r)
    (h' : Answered cfg ncfg w' v' env' r' .ok) :
    authKey cfg v w.sys r ≠ authKey cfg v' w'.sys r' ∧
    cfg.cr.cmac (mp16 cfg.cr (authKey cfg v w.sys r ++ macC)) (m1 r ++ m2 r) =
      cfg.cr.cmac (mp16 cfg.cr (authKey cfg v' w'.sys r' ++ macC)) (m1 r ++ m2 r) := by
  have hlt := C35_increasing hg hs hr hh hv ha h14 ho h hvs hsp hw' hv' ha'
    (by unfold updateSlot; rw [hc, h1]) h'
  have hw := Reach.wf' hg hs hr
  have hw1 := step_wf' (ncfg := ncfg) hg hs hw hv
  have hh1 : Honest (step cfg ncfg w (.she v env r)).2 := Honest.run (evs := [.she v env r]) hh
  subst hw'
  obtain ⟨_, _, _, _, key, _, _, _, hL, _⟩ := answered_load hw hs hv.2.2 ha h
  obtain ⟨_, _, _, _, key', _, _, _, hL', _⟩ := answered_load (run_wf' hg hs hw1 hvs) hs hv'.2.2 ha' h'
  rw [← hL.key hw hh, ← hL'.key (run_wf' hg hs hw1 hvs) (hh1.run evs)] at hlt ⊢
  refine ⟨?_, ?_⟩
  · rintro rfl
    unfold updateCount at hlt
    rw [h2] at hlt
    exact Nat.lt_irrefl _ hlt
  · rw [← hL.mac, ← h3, ← h1, ← h2, ← hL'.mac]

/-- What a change of a stored object by `LOAD_KEY` means. -/
def LoadOut (cfg : She.Cfg) (w : World) (v : Srv) (r : Req) (id : UInt16) (s' : Sys) : Prop :=
  id = updateSlot cfg v r ∧ popId (m1 r) ≠ 14 ∧ 64 ≤ r.size ∧
  m3 r = cfg.cr.cmac (mp16 cfg.cr (authKey cfg v w.sys r ++ macC)) (m1 r ++ m2 r) ∧
  ((m1 r).take 15 = (w.she v.ctx).uid ∨ (m1 r).take 15 = zeros 15) ∧
  (∃ md data, s'.nvm.store id = some (md, data) ∧
    labelCount md.label = updateCount cfg (authKey cfg v w.sys r) r) ∧
  (Keystore.Coherent cfg.ks w.sys id → ∀ md d, view cfg.ks v.ctx w.sys id = some (md, d) →
    isWp md = false ∧ labelCount md.label < updateCount cfg (authKey cfg v w.sys r) r)

theorem loadOut {w : World} {v : Srv} {r : Req} {id : UInt16} {s1 s2 s3 s4 : Sys} {key : List UInt8}
    {md0 md : Meta} {keyRet : Rc} (hw : WF w.sys) (hh : Honest w)
    (hL : Loaded' cfg v (w.she v.ctx) w.sys r s1 s2 s3 key md0 md keyRet) (h14 : popId (m1 r) ≠ 14)
    (h4 : Reads cfg v.ctx s3 s4) (hne : s4.nvm.store id ≠ w.sys.nvm.store id) : LoadOut cfg w v r id s4 := by
  rw [h4.store] at hne
  have e2 : s2.nvm.store = w.sys.nvm.store := hL.reads.store.trans (hL.reads1 hw).store
  have hid : id = md.id := by
    apply Classical.byContradiction
    intro hid
    exact hne ((hL.wrote.frame.store id hid).trans (by rw [e2]))
  have hk := hL.key hw hh
  refine ⟨hid.trans hL.id, h14, hL.size, by rw [← hk]; exact hL.mac, (accept_ok hL.acc).2.imp_right (·.1), ?_, ?_⟩
  · subst hid
    rw [h4.store]
    rcases hL.wrote.n with h1 | h1
    · exact absurd (h1.trans (by rw [e2])) hne
    · exact ⟨_, _, h1, by rw [hL.count, hk]⟩
  · intro hc md' d hv
    rw [hid.trans hL.id] at hc hv
    rw [← hk]
    exact hL.check (hL.honest hh) md' d (by rw [(hL.reads1 hw).view hc]; exact hv)

/-- **C35, what a stored change means.**  If a `LOAD_KEY` request changes a stored object at all
(answered with or without error, or not answered), then the object is the one in the slot M1
names, M3 is the CMAC of M1 and M2 under the key derived from the authorising key, the UID in M1
is the one of the device or the wildcard; and unless the caches hold stale copies (`Coherent`),
what the context saw in the slot, if anything, was not write protected and had a smaller counter. -/
theorem C35_change_authorised (hg : GoodCfg cfg.ks) (hs : cfg.cr.Sized) {w : World} (hr : She.Reach cfg ncfg w)
    (hh : Honest w) {v : Srv} {env : Env} {r : Req} (hv : (Ev.she v env r).Valid) (ha : r.action = 5)
    {id : UInt16} (hne : (step cfg ncfg w (.she v env r)).2.sys.nvm.store id ≠ w.sys.nvm.store id) :
    id = updateSlot cfg v r ∧ popId (m1 r) ≠ 14 ∧ 64 ≤ r.size ∧
    m3 r = cfg.cr.cmac (mp16 cfg.cr (authKey cfg v w.sys r ++ macC)) (m1 r ++ m2 r) ∧
    ((m1 r).take 15 = (w.she v.ctx).uid ∨ (m1 r).take 15 = zeros 15) ∧
    (∃ md data, (step cfg ncfg w (.she v env r)).2.sys.nvm.store id = some (md, data) ∧
      labelCount md.label = updateCount cfg (authKey cfg v w.sys r) r) ∧
    (Keystore.Coherent cfg.ks w.sys id → ∀ md d, view cfg.ks v.ctx w.sys id = some (md, d) →
      isWp md = false ∧ labelCount md.label < updateCount cfg (authKey cfg v w.sys r) r) := by
  have hw := Reach.wf' hg hs hr
  cases hp : w.sys.nvm.powered with
  | false => exact absurd hne (by simp [step, hp])
  | true =>
    rw [step_she hp] at hne ⊢
    show LoadOut cfg w v r id (handle cfg v env (w.she v.ctx) w.sys r).2.2
    replace hne : (handle cfg v env (w.she v.ctx) w.sys r).2.2.nvm.store id ≠ w.sys.nvm.store id := hne
    revert hne
    unfold handle
    split
    · split <;> exact fun h => absurd rfl h
    · cases hc : command cfg v env (w.she v.ctx) w.sys r with
      | inl rc => exact fun h => absurd rfl h
      | inr y =>
        have hy := (command_locked hc).1 ha
        dsimp only
        rw [hy]
        refine loadKey_cases (cfg := cfg) (v := v) (env := env) (t := w.she v.ctx) (s := w.sys) (r := r)
          hw hs hv.2.2 (P := fun y => y.sys.nvm.store id ≠ w.sys.nvm.store id → LoadOut cfg w v r id y.sys)
          ?_ ?_ ?_ ?_
        · intro y _ _ h hne; exact absurd (by rw [h.store]) hne
        · intro y s1 s2 key md0 md keyRet hL h14 hn _ _ hne
          refine absurd ?_ hne
          rw [hn, hL.reads.store, (hL.reads1 hw).store]
        · intro y s1 s2 s3 key md0 md keyRet hL h14 _ hr _ hne; exact loadOut hw hh hL h14 hr hne
        · intro y s1 s2 s3 key md0 md keyRet md' key' hL h14 _ hr _ _ _ _ _ _ _ hne
          exact loadOut hw hh hL h14 hr hne

/-- **C35, rejected means unchanged.**  If the medium works and no wolfCrypt call fails, a
`LOAD_KEY` request that is not answered with success changes no stored object. -/
theorem C35_rejected_unchanged (hg : GoodCfg cfg.ks) (hs : cfg.cr.Sized) {w : World} (hr : She.Reach cfg ncfg w)
    (hm : ∀ k, w.sys.nvm.outs k = .ok) {v : Srv} {env : Env} {r : Req} (hv : (Ev.she v env r).Valid)
    (ha : r.action = 5) (hf : ∀ k, env.fault k = false) (h : ¬Answered cfg ncfg w v env r .ok) (id : UInt16) :
    (step cfg ncfg w (.she v env r)).2.sys.nvm.store id = w.sys.nvm.store id := by
  have hw := Reach.wf' hg hs hr
  cases hp : w.sys.nvm.powered with
  | false => simp [step, hp]
  | true =>
    obtain ⟨hfi, hor⟩ := loadKey_fine (cfg := cfg) (v := v) (env := env) (t := w.she v.ctx) (r := r)
      hw hs hv.2.2 ⟨hp, hm⟩ hf
    have hst := step_she (cfg := cfg) (ncfg := ncfg) hp v env r
    have hob : (handle cfg v env (w.she v.ctx) w.sys r).2.2.nvm.powered = true → _ :=
      step_obs (cfg := cfg) (ncfg := ncfg) (v := v) (env := env) (r := r) hp
    rw [hst]
    show (handle cfg v env (w.she v.ctx) w.sys r).2.2.nvm.store id = _
    revert hob
    unfold handle
    split
    · split <;> exact fun _ => rfl
    · cases hc : command cfg v env (w.she v.ctx) w.sys r with
      | inl rc => exact fun _ => rfl
      | inr y =>
        have hy := (command_locked hc).1 ha
        dsimp only
        intro hob
        rw [hy] at hob ⊢
        rcases hor with hor | hor
        · exfalso
          refine h ⟨_, hob hfi.1, (packet_code cfg r _).2, ?_⟩
          rw [(packet_code cfg r _).1, hor]; rfl
        · rw [hor]

/-! ## C36 -/

/-- Every copy of the slot is the given one. -/
def exactly (md0 : Meta) (d0 : List UInt8) : Prof :=
  ⟨fun k => k.md = md0 ∧ k.data = d0, fun o => o = some (md0, d0), fun md d => NvmFlash.withLen md d = md0 ∧ d = d0⟩

theorem exactly_seen {md0 md : Meta} {d0 d : List UInt8} (h : Seen (exactly md0 d0) md d) : md = md0 ∧ d = d0 := by
  rcases h with ⟨_, h⟩ | h
  · exact h
  · cases h; exact ⟨rfl, rfl⟩

/-- **C36.**  If every copy of a slot (other than the RAM key and the seed of the random number
generator) is the same write-protected key, then after any history in which the slot is
written by SHE commands only, every copy still is that key, and no `LOAD_KEY` for the slot is
accepted. -/
theorem C36_write_protected (hg : GoodCfg cfg.ks) (hs : cfg.cr.Sized) {w : World} (hr : She.Reach cfg ncfg w)
    (hh : Honest w) {c slot : UInt16} (h14 : slot &&& 0xFF ≠ 14) (h15 : slot &&& 0xFF ≠ 15) {md0 : Meta}
    {d0 : List UInt8} (hwp : isWp md0 = true)
    (he : Everywhere cfg w.sys (sheId cfg c slot) fun md d => md = md0 ∧ d = d0)
    {evs : List Ev} (hvs : ∀ e ∈ evs, Ev.Valid e) (hsp : ∀ e ∈ evs, e.Spares cfg (sheId cfg c slot)) :
    Everywhere cfg (run cfg ncfg w evs).sys (sheId cfg c slot) (fun md d => md = md0 ∧ d = d0) ∧
    ∀ v env r, (Ev.she v env r).Valid → r.action = 5 → updateSlot cfg v r = sheId cfg c slot →
      ¬Answered cfg ncfg (run cfg ncfg w evs) v env r .ok := by
  have hw := Reach.wf' hg hs hr
  have hne : ∀ k : UInt16, slot &&& 0xFF ≠ k &&& 0xFF → ∀ c', sheId cfg c slot ≠ sheId cfg c' k := by
    intro k hk c' e
    have := congrArg KeyId.idOf e
    rw [idOf_sheId, idOf_sheId] at this
    exact hk this
  have hI : Inv3 cfg.ks (exactly md0 d0) (sheId cfg c slot) w.sys := by
    obtain ⟨⟨md, d, h1, h2, h3⟩, h4, h5⟩ := he
    refine ⟨h4, ?_, h5⟩
    show _ = _
    rw [h1, h2, h3]
  have hl : (exactly md0 d0).Loads := by intro md bs h; cases h; exact ⟨rfl, rfl⟩
  have hI' : Inv3 cfg.ks (exactly md0 d0) (sheId cfg c slot) (run cfg ncfg w evs).sys := by
    refine run_inv3 hg hs hw hh hvs hsp hI hl (hne 14 h14) (by intro h; cases h) ?_ ?_ ?_
    · intro md d _ _ h; obtain ⟨h1, rfl⟩ := h; show _ = _; rw [h1]
    · intro c' _ _ _ h; exact absurd h (hne 15 h15 c')
    · intro md d md' data h h1; rw [(exactly_seen h).1, hwp] at h1; cases h1
  refine ⟨⟨⟨md0, d0, hI'.n, rfl, rfl⟩, hI'.c, hI'.p⟩, ?_⟩
  intro v env r hv ha hslot h
  have hw' := run_wf' (ncfg := ncfg) hg hs hw hvs
  have hh' := Honest.run (cfg := cfg) (ncfg := ncfg) hh evs
  obtain ⟨x, s1, s2, s3, key, md1, md, keyRet, hL, _⟩ := answered_load hw' hs hv.2.2 ha h
  have hI1 := (hL.reads1 hw').inv3 hw' hl hI'
  cases hvw : view cfg.ks v.ctx s1 (updateSlot cfg v r) with
  | none =>
    unfold view at hvw
    split at hvw
    · cases hvw
    · rw [hslot] at hvw; have := hI1.n; rw [hvw] at this; cases this
  | some p =>
    obtain ⟨md', d⟩ := p
    have h1 := (exactly_seen (She.Inv3.seen hI1 (hslot ▸ hvw))).1
    have h2 := (hL.check (hL.honest hh') md' d hvw).1
    rw [h1, hwp] at h2; cases h2

/-- **C36, from the load on.**  An accepted update whose flags carry write protection (bit 31 of
the second word of the clear M2 in the layout the server reads) fixes the slot for ever. -/
theorem C36_from_load (hg : GoodCfg cfg.ks) (hs : cfg.cr.Sized) {w : World} (hr : She.Reach cfg ncfg w)
    (hh : Honest w) {v : Srv} {env : Env} {r : Req} (hv : (Ev.she v env r).Valid) (ha : r.action = 5)
    (h14 : popId (m1 r) ≠ 14) (h15 : popId (m1 r) ≠ 15) (ho : OnlyAt cfg.ks v.ctx w.sys (updateSlot cfg v r))
    (h : Answered cfg ncfg w v env r .ok)
    (hwp : (clearM2 cfg (authKey cfg v w.sys r) r).getD 4 0 &&& 0x80 = 0x80)
    {evs : List Ev} (hvs : ∀ e ∈ evs, Ev.Valid e) (hsp : ∀ e ∈ evs, e.Spares cfg (updateSlot cfg v r))
    {w' : World} (hw' : w' = run cfg ncfg (step cfg ncfg w (.she v env r)).2 evs) :
    (∀ y, ∃ md, view cfg.ks y w'.sys (updateSlot cfg v r) =
        some (md, ((clearM2 cfg (authKey cfg v w.sys r) r).drop 16).take 16) ∧ isWp md = true) ∧
    ∀ v' env' r', (Ev.she v' env' r').Valid → r'.action = 5 → updateSlot cfg v' r' = updateSlot cfg v r →
      ¬Answered cfg ncfg w' v' env' r' .ok := by
  have hw := Reach.wf' hg hs hr
  obtain ⟨s1, s2, s3, key, md0, md, keyRet, hL, hI⟩ := accepted_everywhere hw hs hv.2.2 ha h h14 ho
  have hk := hL.key hw hh
  rw [← hk] at hwp ⊢
  have hsm : popId (m1 r) &&& 0xFF = popId (m1 r) := and_FF_small (by have := popId_lt (m1 r); omega)
  have hI' := hI (exactly md (((clearM2 cfg key r).drop 16).take 16))
    (by intro md bs h; cases h; exact ⟨rfl, rfl⟩) rfl
  have he : Everywhere cfg (step cfg ncfg w (.she v env r)).2.sys (sheId cfg v.client (popId (m1 r)))
      fun m d => m = md ∧ d = ((clearM2 cfg key r).drop 16).take 16 :=
    ⟨⟨_, _, hI'.n, rfl, rfl⟩, hI'.c, hI'.p⟩
  have hh1 : Honest (step cfg ncfg w (.she v env r)).2 := Honest.run (evs := [.she v env r]) hh
  obtain ⟨⟨⟨md1, d1, g1, g2, g3⟩, g4, _⟩, g5⟩ := C36_write_protected hg hs (hr.step hv) hh1
    (by rw [hsm]; exact h14) (by rw [hsm]; exact h15) (hL.wp hwp) he hvs hsp
  subst hw'
  refine ⟨?_, g5⟩
  intro y
  refine ⟨md, ?_, hL.wp hwp⟩
  unfold view
  split
  · rename_i k hk'
    obtain ⟨e1, e2⟩ := g4 y k hk'
    rw [e1, e2]
  · exact g1.trans (by rw [g2, g3])

end WolfHsm.Props

import Verif.Proofs.StatefulSigInv
import Verif.Proofs.StatefulSigDemo

/-!
# C48: a one-time signature index is used once

LMS and XMSS keys must never sign two messages with the same index.  The theorems range over
every history of key, NVM, key generation, sign, verify and restart events, with arbitrary NVM
failures and power cuts.
-/

namespace WolfHsm.Props

open NvmFlash (Meta)
open Keystore (Sys Srv GoodCfg)
open StatefulSig

variable {cfg : StatefulSig.Cfg} {ncfg : NvmServer.Cfg} {ms : Alg → Meaning} {a : Alg} {K : List UInt8}
  {id : UInt16} {x : Nat} {s : Sys}

/-- The indexes of the signatures by key `K` that clients got, in order. -/
def indexes (cfg : StatefulSig.Cfg) (ncfg : NvmServer.Cfg) (m : Meaning) (a : Alg) (K : List UInt8) (s : Sys)
    (evs : List Ev) : List Nat :=
  ((released cfg ncfg s evs).filter fun p => p.1 = a ∧ m.owner p.2 = K).map fun p => m.leaf p.2

/-- **C48.**  All copies of the private state of `K` are under one id, and the client that owns the
id is served by one context.  Then the indexes of the signatures clients get grow strictly: no index
is used twice, whatever requests, failures, power cuts and restarts happen.

Partial: it does not hold (findings below) if a client sends private state with a header that says
there is none, or changes its memory during a DMA add, or is served by two contexts. -/
theorem C48_index_used_once_partial (hsg : GoodCfg cfg.ks) (hs : ∀ b, (cfg.lib b).Sound (ms b))
    (hk : cfg.ks.statefulBlob = isPrivBlob cfg.le) (hn : ncfg.statefulBlob = isPrivBlob cfg.le)
    (hr : StatefulSig.Reach cfg ncfg s) (ho : OnlyUnder cfg a (ms a) K id x s) {evs : List Ev}
    (he : ∀ e ∈ evs, e.Valid ∧ e.Clean cfg ncfg a (ms a) K ∧ e.Served cfg x id) :
    (indexes cfg ncfg (ms a) a K s evs).Pairwise (· < ·) :=
  (released_from hs hsg (Good.of_onlyUnder (hr.wf hsg fun b => ⟨_, hs b⟩) ho)
    fun e h => ⟨(he e h).1, Clean.foreign hk hn (he e h).2.1, (he e h).2.2⟩).2

/-- The same from the generation of a key on: after a key generation that answered with key `id`,
all private states of any key `K` that were not elsewhere before are still only under `id`, so the
indexes of all signatures by `K` grow strictly. -/
theorem C48_generated_key_index_used_once_partial (hsg : GoodCfg cfg.ks) (hs : ∀ b, (cfg.lib b).Sound (ms b))
    (hk : cfg.ks.statefulBlob = isPrivBlob cfg.le) (hn : ncfg.statefulBlob = isPrivBlob cfg.le)
    (hr : StatefulSig.Reach cfg ncfg s) (ho : OnlyUnder cfg a (ms a) K id x s) {v : Srv} {r : GenReq}
    (hv : v.client < 16) (hx : v.ctx = x)
    (hg : (StatefulSig.step cfg ncfg s (.keyGen v r)).1 = .generated .ok id) {evs : List Ev}
    (he : ∀ e ∈ evs, e.Valid ∧ e.Clean cfg ncfg a (ms a) K ∧ e.Served cfg x id) :
    (indexes cfg ncfg (ms a) a K (StatefulSig.step cfg ncfg s (.keyGen v r)).2 evs).Pairwise (· < ·) := by
  have hw := hr.wf hsg fun b => ⟨_, hs b⟩
  have g0 := Good.of_onlyUnder hw ho
  refine (released_from hs hsg (n := 0) (id := id) (x := x) ?_
    fun e h => ⟨(he e h).1, Clean.foreign hk hn (he e h).2.1, (he e h).2.2⟩).2
  revert hg
  unfold StatefulSig.step
  dsimp only
  split
  · refine keyGen_cases (P := fun p => (if p.2.nvm.powered then Obs.generated p.1.1 p.1.2 else .none) =
      .generated .ok id → Good cfg a (ms a) K id x 0 p.2) hw hv ?_ ?_
    · intro i s1 s2 pub priv _ _ _ _ _ ht _ hobs
      have hi : i = id := by split at hobs <;> [(injection hobs); cases hobs]
      subst hi
      refine g0.trs' ht ?_ (fun _ _ => hx)
      rintro _ rfl md d _ h' pub' priv' _ _
      exact ⟨rfl, Nat.zero_le _⟩
    · intro rc i s2 hrc _ hobs
      split at hobs
      · injection hobs with h1 _; exact absurd h1 hrc
      · cases hobs
  · intro h; cases h

/-- A signature is released only after the advanced state has been stored: when a client gets a
signature, the request succeeded and the NVM holds the state of the signing key, past the index used. -/
theorem C48_released_index_is_persisted (hsg : GoodCfg cfg.ks) (hs : ∀ b, (cfg.lib b).Sound (ms b))
    (hr : StatefulSig.Reach cfg ncfg s) {v : Srv} {r : SignReq} {b : Alg} {rc : Rc} {sig : List UInt8}
    (ho : (StatefulSig.step cfg ncfg s (.sign v r)).1 = .signed b rc (some sig)) :
    rc = .ok ∧ b = r.alg ∧ ∃ md d pub priv,
      (StatefulSig.step cfg ncfg s (.sign v r)).2.nvm.store (Keystore.ownId cfg.ks v r.id) = some (md, d) ∧
      (ms b).key priv = (ms b).owner sig ∧ (ms b).leaf sig < (ms b).next priv ∧
      ((cfg.lib b).reload pub priv = .ok → ∃ h, load cfg b d = .ok (h, pub, priv)) := by
  have hw := hr.wf hsg fun b => ⟨_, hs b⟩
  revert ho
  unfold StatefulSig.step
  dsimp only
  split
  · intro ho
    split at ho
    · have h1 : r.alg = b := by injection ho
      have h2 : (sign cfg v s r).1.rc = rc := by injection ho
      have h3 : (sign cfg v s r).1.sig = some sig := by injection ho
      subst h1
      have hsd := sign_signed (fun b => ⟨_, hs b⟩) hw h3
      obtain ⟨md0, d, md, h, pub, priv, priv', _, hl, hsg, hst, _, hdl⟩ := hsd.done
      obtain ⟨w1, w2, w3, w4, w5⟩ := hs _ _ _ _ _ _ _ hsg
      refine ⟨h2 ▸ hsd.rc, rfl, md, _, pub, priv', hst, ?_, ?_, ?_⟩
      · rw [w3, w1]
      · omega
      · intro hrel
        obtain ⟨np, ll⟩ := load_iff.mp hl
        exact ⟨_, load_iff.mpr ⟨np, ll.advance hdl w5 hrel⟩⟩
    · cases ho
  · intro h; cases h

/-- A failed sign request leaves no signature with the client. -/
theorem C48_failed_sign_releases_nothing (hsg : GoodCfg cfg.ks) (hs : ∀ b, (cfg.lib b).Sound (ms b))
    (hr : StatefulSig.Reach cfg ncfg s) {v : Srv} {r : SignReq} {b : Alg} {rc : Rc} {o : Option (List UInt8)}
    (ho : (StatefulSig.step cfg ncfg s (.sign v r)).1 = .signed b rc o) (hrc : rc ≠ .ok) : o = none := by
  cases o with
  | none => rfl
  | some sig => exact absurd (C48_released_index_is_persisted hsg hs hr ho).1 hrc

/-- A generated key is committed, non-exportable and not trusted, whatever flags the client asked
for; what is stored is recognised as private state. -/
theorem C48_generated_key_is_protected (hsg : GoodCfg cfg.ks) (hs : ∀ b, (cfg.lib b).Sound (ms b))
    (hr : StatefulSig.Reach cfg ncfg s) {v : Srv} {r : GenReq} (hv : v.client < 16)
    (hg : (StatefulSig.step cfg ncfg s (.keyGen v r)).1 = .generated .ok id) :
    ∃ md d pub priv, (StatefulSig.step cfg ncfg s (.keyGen v r)).2.nvm.store id = some (md, d) ∧
      r.made = .ok (pub, priv) ∧
      hasFlag md.flags Flag.nonExportable = true ∧ hasFlag md.flags Flag.trusted = false ∧
      (priv ≠ [] → isPrivBlob cfg.le d = true) ∧
      (paramOk r.alg r.param = true → (cfg.lib r.alg).params r.param = .ok (pub.length, priv.length) →
        (cfg.lib r.alg).reload pub priv = .ok → ∃ h, load cfg r.alg d = .ok (h, pub, priv)) := by
  have hw := hr.wf hsg fun b => ⟨_, hs b⟩
  revert hg
  unfold StatefulSig.step
  dsimp only
  split
  · refine keyGen_cases (P := fun p => (if p.2.nvm.powered then Obs.generated p.1.1 p.1.2 else .none) =
      .generated .ok id → ∃ md d pub priv, p.2.nvm.store id = some (md, d) ∧ r.made = .ok (pub, priv) ∧
      hasFlag md.flags Flag.nonExportable = true ∧ hasFlag md.flags Flag.trusted = false ∧
      (priv ≠ [] → isPrivBlob cfg.le d = true) ∧
      (paramOk r.alg r.param = true → (cfg.lib r.alg).params r.param = .ok (pub.length, priv.length) →
        (cfg.lib r.alg).reload pub priv = .ok → ∃ h, load cfg r.alg d = .ok (h, pub, priv))) hw hv ?_ ?_
    · intro i s1 s2 pub priv _ hmade hlt _ _ _ hcm hobs
      have hi : i = id := by split at hobs <;> [(injection hobs); cases hobs]
      subst hi
      refine ⟨_, _, pub, priv, hcm.store, hmade, ?_, hcm.untrusted, ?_, ?_⟩
      · exact genFlags_nonExportable r.flags
      · intro hp
        rw [encode_length] at hlt
        have : 0 < priv.length := List.length_pos_iff.mpr hp
        unfold isPrivBlob
        rw [if_neg (by rw [encode_length]; omega), encode_hdr (by omega) (by omega) (by omega), if_neg]
        · simpa using this
        · cases r.alg <;> simp
      · intro h1 h2 h3; exact ⟨_, load_encode hlt h1 h2 h3⟩
    · intro rc i s2 hrc _ hobs
      split at hobs
      · injection hobs with h1 _; exact absurd h1 hrc
      · cases hobs
  · intro h; cases h

/-- Clients cannot bring in private state that declares itself: as long as no key is generated,
nothing of that form is in a cache or in the NVM, whatever clients send. -/
theorem C48_private_state_is_refused (hsg : GoodCfg cfg.ks) (hs : ∀ b, (cfg.lib b).Sound (ms b))
    (hk : cfg.ks.statefulBlob = isPrivBlob cfg.le) (hn : ncfg.statefulBlob = isPrivBlob cfg.le)
    (hr : StatefulSig.Reach cfg ncfg s) (h : NoState cfg s) {evs : List Ev}
    (he : ∀ e ∈ evs, e.Valid ∧ e.Relays) : NoState cfg (StatefulSig.run cfg ncfg s evs) := by
  induction evs generalizing s with
  | nil => exact h
  | cons e evs ih =>
    obtain ⟨hv, hrl⟩ := he e (by simp)
    refine ih (.step e hv hr) ?_ fun e h => he e (by simp [h])
    cases e with
    | base e => exact noState_step hsg hk hn (hr.wf hsg fun b => ⟨_, hs b⟩) h hv hrl
    | _ => exact absurd hrl (fun h => h)

/-! ## Concrete cases -/

open StatefulDemo in
/-- The hypotheses of the history theorems are met: a key is generated, then used through failures,
evictions, a power cut and a restart. -/
example : (StatefulSig.step StatefulDemo.cfg StatefulDemo.ncfg (boot outs) gen).1 = .generated .ok id5 ∧
    (indexes StatefulDemo.cfg StatefulDemo.ncfg meaning .lms [7] (made outs) evs).Pairwise (· < ·) := by
  have h : (StatefulSig.step StatefulDemo.cfg StatefulDemo.ncfg (boot outs) gen).1 = .generated .ok id5 := by
    decide +kernel
  exact ⟨h, C48_generated_key_index_used_once_partial (ms := fun _ => meaning) StatefulDemo.good
    (fun _ => sound) rfl rfl (boot_reach _) (boot_onlyUnder _) (by decide) rfl h evs_fit⟩

open StatefulDemo in
/-- In that history the failed sign request costs index 1, and the one cut off by the power loss none. -/
example : indexes StatefulDemo.cfg StatefulDemo.ncfg meaning .lms [7] (made outs) evs = [0, 2, 3, 4] := by
  decide +kernel

open StatefulDemo in
/-- The first theorem applies to the state after the generation, too, and a later signature meets the
hypothesis of the persistence theorem. -/
example : (StatefulSig.step StatefulDemo.cfg StatefulDemo.ncfg (made outs) (sign5 1)).1 =
    .signed .lms .ok (some [7, 0, 1]) := by decide +kernel

open StatefulDemo in
/-- Sign requests fail, too. -/
example : (StatefulSig.step StatefulDemo.cfg StatefulDemo.ncfg
    (StatefulSig.step StatefulDemo.cfg StatefulDemo.ncfg (made outs) (sign5 1)).2 (sign5 2)).1 =
    .signed .lms .aborted none := by decide +kernel

open StatefulDemo in
/-- The server starts without private state, and refuses to cache the private state of key 7. -/
example : NoState StatefulDemo.cfg (boot fun _ => .ok) ∧
    (StatefulSig.step StatefulDemo.cfg StatefulDemo.ncfg (boot fun _ => .ok) (cachePriv [7, 0])).1 ≠
      (StatefulSig.step StatefulDemo.cfg StatefulDemo.ncfg (boot fun _ => .ok) cacheDisguised).1 ∧
    (cachePriv [7, 0]).Valid ∧ (cachePriv [7, 0]).Relays :=
  ⟨boot_noState _, by decide +kernel, valid1, fun h => h⟩

/-! ## Findings -/

open StatefulDemo in
/-- **Finding.**  The guard looks at the header's length of the private state, the code that loads the
state at the length of the parameter set.  A client can cache a copy of private state whose header says
"no private state", sign, cache the same copy again, and sign with the same index. -/
theorem F_C48_disguised_state_repeats_index :
    indexes StatefulDemo.cfg StatefulDemo.ncfg meaning .lms [7] (boot fun _ => .ok)
      [cacheDisguised, sign5 1, cacheDisguised, sign5 2] = [0, 0] := by decide +kernel

open StatefulDemo in
/-- **Finding.**  When the client is served by two contexts, the second one advances the state in its own
cache and in the NVM, and the first one goes on with the old state in its cache. -/
theorem F_C48_two_contexts_repeat_index :
    indexes StatefulDemo.cfg StatefulDemo.ncfg meaning .lms [7] (boot fun _ => .ok)
      [gen, signAt 1 1 false, signAt 0 2 false] = [0, 0] := by decide +kernel

open StatefulDemo in
/-- **Finding.**  A DMA add reads the client's memory once for the guard and once for the data: a client
that changes it in between gets private state into the NVM, and can do so again after signing. -/
theorem F_C48_dma_add_race_repeats_index :
    indexes StatefulDemo.cfg StatefulDemo.ncfg meaning .lms [7] (boot fun _ => .ok)
      [addRace, signAt 0 1 true, addRace, signAt 0 2 true] = [0, 0] := by decide +kernel

open StatefulDemo in
/-- **Finding.**  The signature is in the client's buffer before the state is stored.  When power is lost
in between, the client has a signature with index 0, and gets another one after the restart. -/
theorem F_C48_early_signature_repeats_index :
    (sign StatefulDemo.cfg Keystore.Demo.one (made cutAtSign) (req5 1)).1.early = some [7, 0, 1] ∧
    released StatefulDemo.cfg StatefulDemo.ncfg (made cutAtSign) [sign5 1, .base (.restart false), sign5 2] =
      [(.lms, [7, 0, 2])] := by decide +kernel

open StatefulDemo in
/-- **Finding (C20).**  Sign requests do not look at the usage flags: the key was generated without the
flag that allows signing. -/
theorem F_C20_stateful_sign_ignores_usage :
    (∃ md d, (made fun _ => .ok).nvm.store id5 = some (md, d) ∧ hasFlag md.flags Flag.usageSign = false) ∧
    (StatefulSig.step StatefulDemo.cfg StatefulDemo.ncfg (made fun _ => .ok) (sign5 1)).1 =
      .signed .lms .ok (some [7, 0, 1]) := by
  refine ⟨?_, by decide +kernel⟩
  obtain ⟨md, d, _, _, hst, -⟩ := C48_generated_key_is_protected (ms := fun _ => meaning) StatefulDemo.good
    (fun _ => sound) (boot_reach fun _ => .ok) (id := id5) valid1
    (by decide +kernel : (StatefulSig.step StatefulDemo.cfg StatefulDemo.ncfg (boot fun _ => .ok) gen).1 = _)
  refine ⟨md, d, hst, ?_⟩
  have h : ((made fun _ => .ok).nvm.store id5).map (fun p => hasFlag p.1.flags Flag.usageSign) = some false := by
    decide +kernel
  rw [show (made fun _ => .ok).nvm.store id5 = some (md, d) from hst] at h
  simpa using h

open StatefulDemo in
/-- **Finding (C19).**  A revoked stateful key still signs. -/
theorem F_C19_revoked_stateful_key_signs :
    (StatefulSig.step StatefulDemo.cfg StatefulDemo.ncfg (made fun _ => .ok) revoke5).1 = .base (.key (.code .ok)) ∧
    released StatefulDemo.cfg StatefulDemo.ncfg (made fun _ => .ok) [revoke5, sign5 1] =
      [(.lms, [7, 0, 1])] := by decide +kernel

end WolfHsm.Props

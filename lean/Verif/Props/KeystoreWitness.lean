import Verif.Props.KeystoreSecret

/-!
# Findings about the key store: concrete histories, and C47

`F_…`: a statement one would like to have, refuted by a history of the model that the code
also has (see the Findings section of DESIGN.md).
-/

namespace WolfHsm.Props

open Keystore
open NvmFlash (Meta Store withLen)

/-- An NVM whose backend fails at its `n`-th call. -/
def failAt (n : Nat) : Nat → Out := fun t => if t = n then .fail .aborted false else .ok

/-- Client 1 revokes the global key 6. -/
def revokeG6 : Ev := .key Demo.one .ok (.revoke 0x0106)
/-- Client 1 uses the global key 6 for encryption. -/
def useG6 : Ev := .key Demo.one .ok (.useKey 0x0106 Flag.usageEncrypt 64)

/-- F (C19): the NVM write of a revocation fails; the repeated request reports success without
writing, and after a power cycle the key is usable again. -/
theorem F_revoke_retry : ∃ s, Reach Demo.cfg Demo.ncfg s ∧
    trace Demo.cfg Demo.ncfg s [Demo.cacheG6, Demo.commitG6, revokeG6, revokeG6, .restart false, useG6] =
      [.key (.keyId .ok 0x0106), .key (.code .ok), .key (.code .aborted), .key (.code .ok), .none,
        .key (.usable .ok (some [6, 6, 6]))] :=
  ⟨Demo.boot (failAt 2), Demo.boot_reach _, by decide +kernel⟩

/-- F (C17, C19): after the failed revocation the cached copy says "committed" but differs from
the NVM. -/
theorem F_revoke_incoherent : ∃ s, Reach Demo.cfg Demo.ncfg s ∧
    ¬Coherent Demo.cfg s (ownId Demo.cfg Demo.one 0x0106) := by
  refine ⟨run Demo.cfg Demo.ncfg (Demo.boot (failAt 2)) [Demo.cacheG6, Demo.commitG6, revokeG6],
    reach_run (Demo.boot_reach _) _ (by decide +kernel), fun h => ?_⟩
  have := h 0 ⟨⟨ownId Demo.cfg Demo.one 0x0106, 0xFFFF, Flag.nonModifiable, 3, Demo.label⟩, [6, 6, 6], true⟩
    (by decide +kernel) rfl
  revert this
  decide +kernel

/-- The wrapped form of client 1's key 5. -/
def blob5 : List UInt8 :=
  match (handle Demo.cfg Demo.one (Demo.after [Demo.cache5]) .ok
    (.wrapExport true 0x0109 1 5 (.ok (List.replicate 12 1)))).1 with
  | .wrapped _ b => b
  | _ => []

/-- F (C19): a revoked key that came from a wrapped blob is usable again after the blob has been
unwrapped again. -/
theorem F_revoked_cached_key_returns : ∃ s, Reach Demo.cfg Demo.ncfg s ∧
    trace Demo.cfg Demo.ncfg s [.key Demo.one .ok (.unwrapCache 0x0109 blob5),
        .key Demo.one .ok (.revoke 0x0205),
        .key Demo.one .ok (.useKey 0x0205 Flag.usageEncrypt 64), .restart false,
        .key Demo.one .ok (.unwrapCache 0x0109 blob5),
        .key Demo.one .ok (.useKey 0x0205 Flag.usageEncrypt 64)] =
      [.key (.keyId .ok 0x0205), .key (.code .ok), .key (.usable .usage (some [0, 0, 0])), .none,
        .key (.keyId .ok 0x0205), .key (.usable .ok (some [1, 2, 3]))] :=
  ⟨Demo.boot Demo.fine, Demo.boot_reach _, by decide +kernel⟩

/-- F (C11): a TRUSTED key that the server application has put into the cache only is removed by
a client's crypto request with the evict option. -/
theorem F_evict_option_drops_trusted : ∃ s, Reach Demo.cfg Demo.ncfg s ∧
    (∃ md, view Demo.cfg 0 s (ownId Demo.cfg Demo.one 0x0106) = some (md, [1, 2]) ∧
      hasFlag md.flags Flag.trusted = true) ∧
    (handle Demo.cfg Demo.one s .ok (.evict 0x0106)).1 = .code .access ∧
    view Demo.cfg 0 (handle Demo.cfg Demo.one s .ok (.evictOption 0x0106)).2
      (ownId Demo.cfg Demo.one 0x0106) = none := by
  refine ⟨(cacheKey Demo.cfg 0 (Demo.after []) false
    ⟨ownId Demo.cfg Demo.one 0x0106, 0, Flag.trusted, 2, Demo.label⟩ [1, 2]).2,
    .provision 0 _ _ rfl (Demo.after_reach _ (by decide)), ⟨⟨ownId Demo.cfg Demo.one 0x0106, 0,
      Flag.trusted, 2, Demo.label⟩, by decide +kernel, by decide +kernel⟩, by decide +kernel,
    by decide +kernel⟩

/-- F (C17, for the named key itself): a request to cache a random key that fails in the random
number generator has already removed the old, uncommitted key with that id. -/
theorem F_failed_cache_loses_key : ∃ s, Reach Demo.cfg Demo.ncfg s ∧
    (view Demo.cfg 0 s (ownId Demo.cfg Demo.one 5)).isSome = true ∧
    (handle Demo.cfg Demo.one s .ok (.cacheRandom 5 0 Demo.label 4 (.error .aborted))).1 =
      .keyId .aborted 0 ∧
    view Demo.cfg 0 (handle Demo.cfg Demo.one s .ok
      (.cacheRandom 5 0 Demo.label 4 (.error .aborted))).2 (ownId Demo.cfg Demo.one 5) = none :=
  ⟨Demo.after [Demo.cache5], Demo.after_reach _ (by decide +kernel), by decide +kernel, by decide +kernel,
    by decide +kernel⟩

/-- F: the NVM group lets client 2 read client 1's committed key (C14 is about key requests). -/
theorem F_nvm_reads_other_clients_key : ∃ s, Reach Demo.cfg Demo.ncfg s ∧
    trace Demo.cfg Demo.ncfg s [Demo.cache5, .key Demo.one .ok (.commit 5),
        .nvm .ok (.read (ownId Demo.cfg Demo.one 5) 0 3)] =
      [.key (.keyId .ok 5), .key (.code .ok), .nvm (.bytes .ok [1, 2, 3])] :=
  ⟨Demo.boot Demo.fine, Demo.boot_reach _, by decide +kernel⟩

/-- F (C47): committing a key that was cached before a NONMODIFIABLE object with its id came
into the NVM replaces that object. -/
theorem F_commit_replaces_nonmodifiable : ∃ s, Reach Demo.cfg Demo.ncfg s ∧
    (∃ md bs, s.nvm.store (ownId Demo.cfg Demo.one 0x0106) = some (md, bs) ∧
      hasFlag md.flags Flag.nonModifiable = true ∧ bs = [5, 5]) ∧
    (handle Demo.cfg Demo.one s .ok (.commit 0x0106)).1 = .code .ok ∧
    ((handle Demo.cfg Demo.one s .ok (.commit 0x0106)).2.nvm.store (ownId Demo.cfg Demo.one 0x0106)).map
      Prod.snd = some [6, 6, 6] :=
  ⟨Demo.after [Demo.cacheG6, .nvm .ok (.add ⟨ownId Demo.cfg Demo.one 0x0106, 0, 1, 2, Demo.label⟩ [5, 5])],
    Demo.after_reach _ (by decide +kernel), ⟨⟨ownId Demo.cfg Demo.one 0x0106, 0, 1, 2, Demo.label⟩, _,
      by decide +kernel, by decide, rfl⟩, by decide +kernel, by decide +kernel⟩

section

variable {cfg : Keystore.Cfg} {ncfg : NvmServer.Cfg}

/-- The key `o`, possibly revoked. -/
def Same (o : Meta × List UInt8) (md : Meta) (d : List UInt8) : Prop :=
  d = o.2 ∧ (md = o.1 ∨ md = revokeMeta o.1)

/-- The profile of C47. -/
def prof47 (o : Meta × List UInt8) : Prof :=
  ⟨fun k => Same o k.md k.data, fun n => ∃ md d, n = some (md, d) ∧ Same o md d, Same o⟩

theorem Same.revoke {o : Meta × List UInt8} {md : Meta} {d : List UInt8} (h : Same o md d) :
    Same o (revokeMeta md) d := by
  refine ⟨h.1, Or.inr ?_⟩
  rcases h.2 with rfl | rfl
  · rfl
  · exact revokeMeta_revoked (isRevoked_revokeMeta _)

theorem Same.nonMod {o : Meta × List UInt8} (ho : hasFlag o.1.flags Flag.nonModifiable = true)
    {md : Meta} {d : List UInt8} (h : Same o md d) : hasFlag md.flags Flag.nonModifiable = true := by
  rcases h.2 with rfl | rfl
  · exact ho
  · exact (revoked_flags (isRevoked_revokeMeta _)).1

theorem prof47_estep {F : Par} {o : Meta × List UInt8} {i : UInt16} {e e' : E}
    (ho : hasFlag o.1.flags Flag.nonModifiable = true)
    (hty : KeyId.typeOf i ≠ KeyId.typeWrapped ∧ KeyId.typeOf i ≠ KeyId.typeShe)
    (h : EStep F i e e') (hE : Inv3E (prof47 o) i e) : Inv3E (prof47 o) i e' := by
  obtain ⟨nmd, nd, hn, hns⟩ := hE.n
  cases h with
  | refl => exact hE
  | quiet => exact ⟨hE.c, hE.n, by simp⟩
  | evict => exact ⟨by simp, hE.n, hE.p⟩
  | load h1 h2 =>
    rw [hn] at h2; cases h2
    exact ⟨by rintro k ⟨⟩; exact hns, hE.n, hE.p⟩
  | insert _ _ _ _ _ hm =>
    exfalso
    unfold MayCache at hm
    cases hc : e.c with
    | some k =>
      rw [hc] at hm
      have := (hE.c k hc : Same o k.md k.data).nonMod ho
      have h2 := hm.2
      rw [this] at h2; cases h2
    | none =>
      rw [hc, hn] at hm
      have := hns.nonMod ho
      have h2 := hm.2
      rw [this] at h2; cases h2
  | unwrap _ _ _ _ _ _ h => exact absurd h (by simp [hty.1, hty.2])
  | commit _ hc => exact ⟨by rintro k ⟨⟩; have := hE.c _ hc; exact this, ⟨_, _, rfl, hE.c _ hc⟩, by simp⟩
  | commitCut _ hc => exact ⟨hE.c, ⟨_, _, rfl, hE.c _ hc⟩, by simp⟩
  | commitPend _ hc => exact ⟨hE.c, hE.n, by rintro md d ⟨⟩ _; exact hE.c _ hc⟩
  | revoke _ hc =>
    have := Same.revoke (hE.c _ hc)
    exact ⟨by rintro k ⟨⟩; exact this, ⟨_, _, rfl, this⟩, by simp⟩
  | revokeRam _ hc =>
    have := Same.revoke (hE.c _ hc)
    exact ⟨by rintro k ⟨⟩; exact this, hE.n, hE.p⟩
  | revokeFail _ _ hc _ h5 h6 =>
    have := Same.revoke (hE.c _ hc)
    refine ⟨by rintro k ⟨⟩; exact this, ?_, ?_⟩
    · rcases h5 with rfl | rfl
      · exact hE.n
      · exact ⟨_, _, rfl, this⟩
    · rcases h6 with rfl | rfl | rfl
      · exact hE.p
      · simp
      · rintro md d ⟨⟩ _; exact this
  | destroy _ _ h1 =>
    have h2 := (h1 nmd nd hn).2.1
    rw [hns.nonMod ho] at h2; cases h2

theorem prof47_step (hsg : GoodCfg cfg) {s : Sys} {e : Ev} {o : Meta × List UInt8} {id : UInt16}
    (ho : hasFlag o.1.flags Flag.nonModifiable = true) (hlen : o.1.len.toNat = o.2.length)
    (hty : KeyId.typeOf id ≠ KeyId.typeWrapped ∧ KeyId.typeOf id ≠ KeyId.typeShe)
    (hw : WF s) (hv : e.Valid) (hst : StableEv e)
    (h : Inv3 cfg (prof47 o) id s) : Inv3 cfg (prof47 o) id (step cfg ncfg s e).2 := by
  obtain ⟨nmd, nd, hn, hns⟩ := h.n
  have hf := hns.nonMod ho
  cases e with
  | key v lock r =>
    unfold step
    dsimp only
    split
    · exact h.trs hw (handle_trs hw hv hsg lock r) (fun _ e e' he _ _ hE => prof47_estep ho hty he hE)
    · exact h
  | nvm lock r =>
    unfold step
    dsimp only
    split
    · refine h.nvm ncfg lock r ?_ ?_
      · intro first second data hreq hid hpass
        exfalso
        have heq : first = second := by
          rcases hreq with ⟨_, rfl, _⟩ | ⟨_, _, _, _, rfl, _⟩
          · rfl
          · exact hst
        subst heq
        rw [hid, Nvm.policy_add_refuses hn (Or.inl hf)] at hpass
        simp [Nvm.passes] at hpass
      · intro hi hall
        exact absurd hall (Nvm.checkAll_refuses (Nvm.policy_destroy_refuses hn (Or.inl hf)) _ hi)
    · exact h
  | restart b =>
    refine h.restart hw b ?_
    intro md d _ _ hP
    have hP' : Same o md d := hP
    refine ⟨_, _, rfl, ?_⟩
    have : md.len.toNat = d.length := by
      rw [hP'.1]
      rcases hP'.2 with rfl | rfl
      · exact hlen
      · exact hlen
    rw [withLen_self this]
    exact hP'

/-- **C47, partial.** A key stored with the NONMODIFIABLE flag whose cached copies agree with it
keeps its bytes, and its metadata up to revocation, through every history of key and NVM
requests, NVM failures and restarts.  Missing: without the agreement this is false, see
`F_commit_replaces_nonmodifiable`. -/
theorem C47_nonmodifiable_key_partial (hsg : GoodCfg cfg) {s : Sys} (hs : Reach cfg ncfg s) (id : UInt16)
    (hty : KeyId.typeOf id ≠ KeyId.typeWrapped ∧ KeyId.typeOf id ≠ KeyId.typeShe)
    (md : Meta) (bs : List UInt8) (ho : hasFlag md.flags Flag.nonModifiable = true)
    (hstore : s.nvm.store id = some (md, bs)) (hview : ∀ y, view cfg y s id = some (md, bs))
    (hset : NvmServer.Settled s.nvm id)
    (evs : List Ev) (hv : ∀ e ∈ evs, e.Valid ∧ StableEv e) :
    ∃ md', (md' = md ∨ md' = revokeMeta md) ∧
      (run cfg ncfg s evs).nvm.store id = some (md', bs) ∧
      ∀ y, ∃ md'', (md'' = md ∨ md'' = revokeMeta md) ∧
        view cfg y (run cfg ncfg s evs) id = some (md'', bs) := by
  have hw := hs.wf hsg
  have hlen := (hw.nvm _ _ _ hstore).2
  have hfin : Inv3 cfg (prof47 (md, bs)) id (run cfg ncfg s evs) := by
    refine run_induct hsg ncfg (I := Inv3 cfg (prof47 (md, bs)) id) (A := StableEv)
      (fun s e hw hI hval hA => prof47_step hsg ho hlen hty hw hval hA hI) hw ?_ hv
    refine ⟨?_, ⟨_, _, hstore, rfl, Or.inl rfl⟩, fun md' d h hid => absurd hid (hset md' d h)⟩
    intro y k hk
    have := hview y
    unfold view at this
    rw [hk] at this
    cases this
    exact ⟨rfl, Or.inl rfl⟩
  obtain ⟨md', d', h1, h2, h3⟩ := hfin.n
  have h2 : d' = bs := h2
  subst h2
  refine ⟨md', h3, h1, fun y => ?_⟩
  unfold view
  cases hk : cached cfg y (run cfg ncfg s evs) id with
  | some k =>
    have h := (hfin.c y k hk)
    exact ⟨k.md, h.2, by dsimp only; rw [show k.data = d' from h.1]⟩
  | none => exact ⟨md', h3, h1⟩

/-- The hypotheses are met by a key a client made NONMODIFIABLE; the history tries to replace,
erase and revoke it. -/
example : ∃ s, ∃ evs : List Ev, Reach Demo.cfg Demo.ncfg s ∧
    s.nvm.store (ownId Demo.cfg Demo.one 0x0106) =
      some (⟨ownId Demo.cfg Demo.one 0x0106, 0xFFFF, 1, 2, Demo.label⟩, [6, 7]) ∧
    (∀ y, view Demo.cfg y s (ownId Demo.cfg Demo.one 0x0106) =
      some (⟨ownId Demo.cfg Demo.one 0x0106, 0xFFFF, 1, 2, Demo.label⟩, [6, 7])) ∧
    NvmServer.Settled s.nvm (ownId Demo.cfg Demo.one 0x0106) ∧
    (∀ e ∈ evs, e.Valid ∧ StableEv e) ∧ evs.length = 4 := by
  refine ⟨Demo.after [.key Demo.one .ok (.cache 0x0106 1 Demo.label [6, 7]), Demo.commitG6],
    [Demo.cacheG6, .key Demo.one .ok (.erase 0x0106), revokeG6, .restart true],
    Demo.after_reach _ (by decide +kernel), by decide +kernel, fun y => ?_, ?_, ?_, rfl⟩
  · unfold view
    rw [cached_global (by decide +kernel)]
    decide +kernel
  · intro md d h
    have : (Demo.after [.key Demo.one .ok (.cache 0x0106 1 Demo.label [6, 7]), Demo.commitG6]).nvm.pending
      = none := by decide +kernel
    rw [this] at h; cases h
  · intro e he
    simp only [List.mem_cons, List.not_mem_nil, or_false] at he
    rcases he with rfl | rfl | rfl | rfl <;> exact ⟨by decide, trivial⟩

end

end WolfHsm.Props

import Verif.Proofs.KeystoreCoh
import Verif.Proofs.KeystoreDemo
import Verif.Props.KeyId

/-!
# C14, C16, C17: isolation of clients, fresh ids, no silent loss of cached keys

Vocabulary: `Verif/Spec/Keystore.lean`.
-/

namespace WolfHsm.Props

open Keystore
open NvmFlash (Meta Store)

section

variable {cfg : Keystore.Cfg} {ncfg : NvmServer.Cfg}

/-- Client ids never stand for SHE keys. -/
theorem own_not_she (cfg : Keystore.Cfg) {v : Srv} (hc : v.client < 16) (rid : UInt16) :
    KeyId.typeOf (ownId cfg v rid) ≠ KeyId.typeShe := by
  rw [show KeyId.typeOf (ownId cfg v rid) = _ from
    (KeyId.C13_fromClient_fields cfg.ids KeyId.typeCrypto v.client rid (by decide) hc).2.1]
  split
  · decide
  · split <;> decide

/-! ## C14 -/

/-- **C14.** Whatever key requests other clients send, to whichever server contexts, a client's
own (non-global) key keeps its stored object, and in every cache its entry, except that a
cache may drop a copy that is marked as committed. -/
theorem C14_isolation (hsg : GoodCfg cfg) {s : Sys} (hs : Reach cfg ncfg s) (id : UInt16)
    (hng : isGlobal cfg id = false) (evs : List Ev)
    (hv : ∀ e ∈ evs, e.Valid ∧ e.ByOther (KeyId.userOf id)) :
    (run cfg ncfg s evs).nvm.store id = s.nvm.store id ∧
    ∀ y, cached cfg y (run cfg ncfg s evs) id = cached cfg y s id ∨
      ∃ k, cached cfg y s id = some k ∧ k.committed = true ∧
        cached cfg y (run cfg ncfg s evs) id = none := by
  have h : Other id s (run cfg ncfg s evs) := by
    refine run_induct hsg ncfg (I := Other id s) (A := fun e => e.ByOther (KeyId.userOf id))
      ?_ (hs.wf hsg) (.refl _ _) hv
    intro s' e hw hI hval hA
    refine hI.trans ?_
    cases e with
    | key v lock r => exact step_key_other hsg ncfg hw hval (not_reachable hng hA)
    | nvm => exact hA.elim
    | restart => exact hA.elim
  refine ⟨h.store, fun y => ?_⟩
  rw [cached_eq, cached_eq]
  exact h.cache _

/-- The hypotheses are met: client 1 has an uncommitted key, client 2 caches two keys. -/
example : ∃ s id evs, Reach Demo.cfg Demo.ncfg s ∧ isGlobal Demo.cfg id = false ∧
    (∀ e ∈ evs, e.Valid ∧ e.ByOther (KeyId.userOf id)) ∧ evs.length = 2 ∧
    (view Demo.cfg 0 s id).isSome = true ∧
    (view Demo.cfg 1 (run Demo.cfg Demo.ncfg s evs) (ownId Demo.cfg Demo.two 255)).isSome = true :=
  ⟨Demo.after [Demo.cache5], ownId Demo.cfg Demo.one 5, [Demo.fresh2, Demo.freshG],
    Demo.after_reach _ (by decide +kernel), by decide +kernel, by decide +kernel, rfl,
    by decide +kernel, by decide +kernel⟩

/-- **C14 (as seen).** Hence, as long as committed cached copies agree with the NVM
(`C17_coherent`), every server context goes on seeing the same key: same existence, bytes
and metadata. -/
theorem C14_view (hsg : GoodCfg cfg) {s : Sys} (hs : Reach cfg ncfg s) (id : UInt16)
    (hng : isGlobal cfg id = false) (hcoh : Coherent cfg s id) (evs : List Ev)
    (hv : ∀ e ∈ evs, e.Valid ∧ e.ByOther (KeyId.userOf id)) (y : Nat) :
    view cfg y (run cfg ncfg s evs) id = view cfg y s id := by
  obtain ⟨h1, h2⟩ := C14_isolation hsg hs id hng evs hv
  unfold view
  rcases h2 y with h | ⟨k, h3, h4, h5⟩
  · rw [h, h1]
  · rw [h5, h3, h1]; exact hcoh y k h3 h4

/-- The hypotheses are met by a key of client 1 in the NVM, with client 2 working. -/
example : ∃ s id, Reach Demo.cfg Demo.ncfg s ∧ isGlobal Demo.cfg id = false ∧
    Coherent Demo.cfg s id ∧ view Demo.cfg 0 s id = some (Demo.secretMd, [0x5E, 0xC2, 0xE7]) ∧
    ∀ e ∈ [Demo.fresh2, Demo.freshG], e.Valid ∧ e.ByOther (KeyId.userOf id) :=
  ⟨Demo.after [], Demo.secretMd.id, Demo.after_reach _ (by decide), by decide +kernel,
    Demo.boot_coherent _, by decide +kernel, by decide +kernel⟩

/-- **C14 (stored keys, with power cycles).** The stored key survives also when the server is
restarted any number of times in between, whatever fails. -/
theorem C14_stored (hsg : GoodCfg cfg) {s : Sys} (hs : Reach cfg ncfg s) (id : UInt16)
    (hng : isGlobal cfg id = false) (hset : NvmServer.Settled s.nvm id) (evs : List Ev)
    (hv : ∀ e ∈ evs, e.Valid ∧ (e.ByOther (KeyId.userOf id) ∨ ∃ b, e = .restart b)) :
    (run cfg ncfg s evs).nvm.store id = s.nvm.store id := by
  let Q : Prof := ⟨fun _ => True, fun n => n = s.nvm.store id, fun _ _ => False⟩
  have h : Inv3 cfg Q id (run cfg ncfg s evs) := by
    refine run_induct hsg ncfg (I := Inv3 cfg Q id)
      (A := fun e => e.ByOther (KeyId.userOf id) ∨ ∃ b, e = .restart b) ?_ (hs.wf hsg)
      ⟨fun _ _ _ => trivial, rfl, fun md d h1 h2 => hset md d h1 h2⟩ hv
    intro s' e hw hI hval hA
    rcases hA with hA | ⟨b, rfl⟩
    · cases e with
      | key v lock r => exact hI.other (step_key_other hsg ncfg hw hval (not_reachable hng hA))
      | nvm => exact hA.elim
      | restart => exact hA.elim
    · exact hI.restart hw b (fun _ _ _ _ h => h.elim)
  exact h.n

/-- The hypotheses are met by the same key, with a power cycle in between. -/
example : ∃ s id, Reach Demo.cfg Demo.ncfg s ∧ isGlobal Demo.cfg id = false ∧
    NvmServer.Settled s.nvm id ∧ s.nvm.store id = some (Demo.secretMd, [0x5E, 0xC2, 0xE7]) ∧
    ∀ e ∈ [Demo.fresh2, .restart false, Demo.freshG],
      e.Valid ∧ (e.ByOther (KeyId.userOf id) ∨ ∃ b, e = .restart b) := by
  refine ⟨Demo.after [], Demo.secretMd.id, Demo.after_reach _ (by decide), by decide +kernel,
    fun _ _ h => (by cases h), by decide +kernel, ?_⟩
  intro e he
  simp only [List.mem_cons, List.not_mem_nil, or_false] at he
  rcases he with rfl | rfl | rfl
  · exact ⟨by decide, Or.inl (by decide +kernel)⟩
  · exact ⟨trivial, Or.inr ⟨_, rfl⟩⟩
  · exact ⟨by decide, Or.inl (by decide +kernel)⟩

/-- **C14 (disclosure).** A plain key in a response is one the requesting client may name. -/
theorem C14_discloses_own (hsg : GoodCfg cfg) {s : Sys} (hs : Reach cfg ncfg s) {v : Srv}
    (hc : v.client < 16) (lock : Rc) (rid : UInt16) {label : Option (Vector UInt8 24)}
    {bytes : List UInt8}
    (h : (handle cfg v s lock (.exportKey rid)).1 = .key .ok label bytes) :
    ∃ id md, Reachable cfg v.client id ∧ view cfg v.ctx s id = some (md, bytes) ∧
      label = some md.label := by
  have hw := hs.wf hsg
  rcases handle_or cfg v s lock (.exportKey rid) with ⟨_, _, e⟩ | ⟨rc, _, e⟩
  · rw [e] at h
    have hr : Reachable cfg v.client (ownId cfg v rid) := reach_own cfg hc _ _
    refine ⟨ownId cfg v rid, ?_⟩
    change keyResp (readKeyChecked cfg v.ctx s (ownId cfg v rid) (cfg.commLen - 36)).1 = _ at h
    unfold readKeyChecked at h
    split at h
    · revert h
      refine readKey_cases (P := fun r => keyResp r.1 = .key .ok label bytes → ∃ md,
        Reachable cfg v.client (ownId cfg v rid) ∧
        view cfg v.ctx s (ownId cfg v rid) = some (md, bytes) ∧ label = some md.label) hw ?_ ?_ ?_ ?_ ?_
      · intro k hk _ h
        simp only [keyResp, Resp.key.injEq, true_and] at h
        refine ⟨k.md, hr, ?_, h.1.symm⟩
        unfold view; rw [hk, ← h.2]
      · intro md bs s' _ _ hl h
        simp only [keyResp, Resp.key.injEq, true_and] at h
        refine ⟨md, hr, ?_, h.1.symm⟩
        unfold view; rw [hl.before, hl.stored, h.2]
      · intro md bs s' _ _ h1 h2 _ h
        simp only [keyResp, Resp.key.injEq, true_and] at h
        refine ⟨md, hr, ?_, h.1.symm⟩
        unfold view; rw [h1, h2, h.2]
      · intro s' _ hty
        exact absurd hty (own_not_she cfg hc rid)
      · intro rc s' hrc _ h
        cases rc <;> first | exact absurd rfl hrc | (simp [keyResp] at h)
    · rename_i hrc
      revert h hrc
      cases policy cfg v.ctx s .exportKey (ownId cfg v rid) <;> simp [keyResp]
  · rw [e] at h; cases h

/-- Such a response exists. -/
example : ∃ s, Reach Demo.cfg Demo.ncfg s ∧ Demo.one.client < 16 ∧
    (handle Demo.cfg Demo.one s .ok (.exportKey 5)).1 = .key .ok (some Demo.label) [1, 2, 3] :=
  ⟨Demo.after [Demo.cache5], Demo.after_reach _ (by decide +kernel), by decide, by decide +kernel⟩

/-! ## C16 -/

/-- A request that leaves the choice of the id to the server, as the model treats it. -/
theorem act_picks {v : Srv} {s : Sys} (hw : WF s) (hc : v.client < 16) {r : Req}
    (hp : r.Picks cfg v) :
    ∃ rid md k, KeyId.idOf (ownId cfg v rid) = 0 ∧ md.id = ownId cfg v rid ∧
      (∀ md', (k md').1 = .ok → cached cfg v.ctx (k md').2 md'.id ≠ none) ∧
      (act cfg v s r = (.keyId .badargs 0, s) ∨
       act cfg v s r = (.keyId (withId cfg v.ctx s true md k).1.1 (withId cfg v.ctx s true md k).1.2,
        (withId cfg v.ctx s true md k).2)) := by
  have her : ∀ {rid}, KeyId.idOf (ownId cfg v rid) = 0 →
      KeyId.isErased (KeyId.fromClient cfg.ids KeyId.typeCrypto v.client rid) = true := by
    intro rid h; simp only [KeyId.isErased, beq_iff_eq]; exact h
  have hun : ∀ {rid}, KeyId.idOf (ownId cfg v rid) = 0 →
      KeyId.isUnassigned (KeyId.fromClient cfg.ids KeyId.typeCrypto v.client rid) = true := by
    intro rid h
    simp only [KeyId.isUnassigned, her h, Bool.true_and, bne_iff_ne]
    exact own_not_she cfg hc rid
  cases r with
  | cache rid flags label key =>
    refine ⟨rid, clientMeta cfg v rid flags label (UInt16.ofNat key.length),
      fun md => cacheKey cfg v.ctx s true md key, hp, rfl, ?_, ?_⟩
    · intro md'
      refine cacheKey_checked_cases (F := Par.any) (P := fun r => r.1 = .ok → cached cfg v.ctx r.2 md'.id ≠ none)
        hw trivial ?_ ?_
      · intro s' _ hf _ _ _; simp [hf.entry]
      · intro rc s' hrc _ h; exact absurd h hrc
    · by_cases hl : key.length ≥ 65536
      · left; simp only [act, handleCache]; rw [if_pos hl]
      · right
        simp only [act, handleCache, clientMeta, hun hp, if_neg hl]
  | cacheRandom rid flags label sz rng =>
    refine ⟨rid, clientMeta cfg v rid flags label sz,
      fun md => cacheRandomKey cfg v.ctx s md rng, hp, rfl, ?_, ?_⟩
    · intro md'
      refine cacheRandomKey_cases (F := Par.any) (P := fun r => r.1 = .ok → cached cfg v.ctx r.2 md'.id ≠ none)
        hw trivial ?_ ?_
      · intro s' f _ _ hf _; simp [hf.entry]
      · intro rc s' hrc _ h; exact absurd h hrc
    · right
      simp only [act, handleCacheRandom, clientMeta, her hp]
  | cacheDma rid flags label sz dma mem =>
    refine ⟨rid, clientMeta cfg v rid flags label sz.toUInt16,
      fun md => cacheKeyDma cfg v.ctx s md dma mem, hp, rfl, ?_, ?_⟩
    · intro md'
      refine cacheKeyDma_cases (F := Par.any) (P := fun r => r.1 = .ok → cached cfg v.ctx r.2 md'.id ≠ none)
        hw trivial ?_ ?_
      · intro s' _ _ hf _ _; simp [hf.entry]
      · intro rc s' hrc _ h; exact absurd h hrc
    · right
      simp only [act, handleCacheDma, clientMeta, hun hp]
  | importKey rid flags label cap der =>
    refine ⟨rid, clientMeta cfg v rid flags label 0,
      fun md => importKey cfg v.ctx s md cap der, hp, rfl, ?_, ?_⟩
    · intro md'
      refine importKey_cases (F := Par.any) (P := fun r => r.1 = .ok → cached cfg v.ctx r.2 md'.id ≠ none)
        hw trivial ?_ ?_
      · intro s' d _ _ _ hf _
        have := hf.entry
        simp only [importMeta] at this
        simp [this]
      · intro rc s' hrc _ h; exact absurd h hrc
    · right
      simp only [act, handleImport, clientMeta, her hp]
  | _ => exact hp.elim

/-- **C16.** When the server picks the id of a new key, the id it returns stands for a key
that was neither cached nor stored before, and the new key is now there. -/
theorem C16_fresh (hsg : GoodCfg cfg) {s : Sys} (hs : Reach cfg ncfg s) {v : Srv}
    (hc : 0 < v.client ∧ v.client < 16) {lock : Rc} {r : Req} (hp : r.Picks cfg v) {rid' : UInt16}
    (h : (handle cfg v s lock r).1 = .keyId .ok rid') :
    KeyId.idOf (ownId cfg v rid') ≠ 0 ∧ view cfg v.ctx s (ownId cfg v rid') = none ∧
    cached cfg v.ctx (handle cfg v s lock r).2 (ownId cfg v rid') ≠ none := by
  have hw := hs.wf hsg
  rcases handle_or cfg v s lock r with ⟨_, _, e⟩ | ⟨rc, _, e⟩
  · rw [e] at h ⊢
    obtain ⟨rid, md, k, h0, hid, hk, e | e⟩ := act_picks hw hc.2 hp
    · rw [e] at h; cases h
    · rw [e] at h ⊢
      simp only [Resp.keyId.injEq] at h
      unfold withId at h ⊢
      simp only [if_true] at h ⊢
      have hreach : Reachable cfg v.client (ownId cfg v rid) := reach_own cfg hc.2 _ _
      rcases getUniqueId_or cfg v.ctx s md.id with ⟨id, e, hf⟩ | ⟨rc, hrc, e⟩
      · rw [e] at h ⊢
        dsimp only at h ⊢
        rw [if_pos h.1] at h
        have hty : KeyId.typeOf id = KeyId.typeCrypto := by
          rw [hf.type, hid]
          have e' := e
          unfold getUniqueId at e'
          rw [hid] at e'
          split at e'
          · cases e'
          · rename_i hnw
            split at e'
            · cases e'
            · rename_i hnh
              have := (KeyId.C13_fromClient_fields cfg.ids KeyId.typeCrypto v.client rid (by decide) hc.2).2.1
              change KeyId.typeOf (ownId cfg v rid) = _ at this
              revert this
              split
              · rename_i ha
                intro ht
                simp only [KeyId.asksHw, Bool.and_eq_true] at ha
                simp [isHw, ht, ha.1] at hnh
              · split
                · intro ht; simp [ht] at hnw
                · exact fun h => h
        have hback : ownId cfg v rid' = id := by
          rw [← h.2]
          refine KeyId.C13_roundtrip_server cfg.ids v.client id ?_ (Or.inl hty) hc
          rw [hf.user, hid]
          exact hreach
        rw [hback]
        refine ⟨hf.pos, ?_, hk _ h.1⟩
        unfold view; rw [hf.cached, hf.stored]
      · rw [e] at h
        exfalso
        cases rc <;> first | exact absurd rfl hrc | exact absurd h.1 (by simp)
  · rw [e] at h; cases h

/-- Such requests exist: with a key already cached, a second one gets another id. -/
example : ∃ s, Reach Demo.cfg Demo.ncfg s ∧
    (Req.cache 0 0 Demo.label [8, 8]).Picks Demo.cfg Demo.two ∧
    (handle Demo.cfg Demo.two s .ok (.cache 0 0 Demo.label [8, 8])).1 = .keyId .ok 254 :=
  ⟨Demo.after [Demo.fresh2], Demo.after_reach _ (by decide +kernel), by show _ = _; decide +kernel,
    by decide +kernel⟩

/-- **C16 (no id left).** When every id of the namespace asked for is taken, the request is
refused and changes nothing. -/
theorem C16_full (hsg : GoodCfg cfg) {s : Sys} (hs : Reach cfg ncfg s) {v : Srv}
    (hc : v.client < 16) {lock : Rc} {r : Req} (hp : r.Picks cfg v)
    (hfull : ∀ id, Reachable cfg v.client id → KeyId.typeOf id = KeyId.typeCrypto →
      KeyId.idOf id ≠ 0 → view cfg v.ctx s id ≠ none) :
    (handle cfg v s lock r).2 = s ∧ ∀ rid', (handle cfg v s lock r).1 ≠ .keyId .ok rid' := by
  have hw := hs.wf hsg
  rcases handle_or cfg v s lock r with ⟨_, _, e⟩ | ⟨rc, _, e⟩
  · rw [e]
    obtain ⟨rid, md, k, h0, hid, hk, e | e⟩ := act_picks hw hc hp
    · rw [e]; exact ⟨rfl, fun _ h => by cases h⟩
    · rw [e]
      unfold withId
      simp only [if_true]
      have hreach : Reachable cfg v.client (ownId cfg v rid) := reach_own cfg hc _ _
      rcases getUniqueId_or cfg v.ctx s md.id with ⟨id, e, hf⟩ | ⟨rc, hrc, e⟩
      · exfalso
        refine hfull id ?_ ?_ hf.pos ?_
        · unfold Reachable; rw [hf.user, hid]; exact hreach
        · rw [hf.type, hid]
          have e' := e
          unfold getUniqueId at e'
          rw [hid] at e'
          split at e'
          · cases e'
          · rename_i hnw
            split at e'
            · cases e'
            · rename_i hnh
              have := (KeyId.C13_fromClient_fields cfg.ids KeyId.typeCrypto v.client rid (by decide) hc).2.1
              change KeyId.typeOf (ownId cfg v rid) = _ at this
              revert this
              split
              · rename_i ha
                intro ht
                simp only [KeyId.asksHw, Bool.and_eq_true] at ha
                simp [isHw, ht, ha.1] at hnh
              · split
                · intro ht; simp [ht] at hnw
                · exact fun h => h
        · unfold view; rw [hf.cached, hf.stored]
      · rw [e]
        cases rc <;> first | exact absurd rfl hrc | exact ⟨rfl, fun _ h => by simp at h⟩
  · rw [e]; exact ⟨rfl, fun _ h => by cases h⟩

/-- The hypothesis is met when the NVM holds an object under every id. -/
example : ∃ s, Reach Demo.cfg Demo.ncfg s ∧ (∀ id, view Demo.cfg Demo.one.ctx s id ≠ none) ∧
    (Req.cache 0 0 Demo.label [8, 8]).Picks Demo.cfg Demo.one := by
  refine ⟨⟨⟨fun id => some (⟨id, 0, 0, 0, Demo.label⟩, []), none, true, Demo.fine, 0⟩, Demo.empty,
    fun _ => Demo.empty⟩, .boot _ rfl (fun _ => rfl) rfl ?_, ?_, by show _ = _; decide +kernel⟩
  · rintro id md bs h; cases h; exact ⟨rfl, rfl⟩
  · intro id h
    have : cached Demo.cfg Demo.one.ctx ⟨⟨fun id => some (⟨id, 0, 0, 0, Demo.label⟩, []), none, true,
        Demo.fine, 0⟩, Demo.empty, fun _ => Demo.empty⟩ id = none := by
      unfold cached cacheOf; split <;> rfl
    unfold view at h
    rw [this] at h
    cases h

/-! ## C17 -/

/-- Requests leave the local caches of other contexts alone. -/
theorem trs_areas {F : Par} {x : Nat} {T : UInt16 → Prop} {s s' : Sys} (h : Trs F cfg x T s s')
    {y : Nat} (hy : y ≠ x) : s'.loc y = s.loc y := by
  induction h with
  | nil => rfl
  | @cons s s1 s2 id _ ht _ ih =>
    rw [ih]
    refine ht.frame.areas (some y) ?_
    unfold area
    split
    · simp
    · simp [hy]

/-- **C17.** A request loses no key that it does not name: a cached key stays in every cache,
unless it was committed and an identical copy is in the NVM. -/
theorem C17_no_loss (hsg : GoodCfg cfg) {s : Sys} (hs : Reach cfg ncfg s) {v : Srv}
    (hc : v.client < 16) (lock : Rc) {r : Req} {id : UInt16} (hn : ¬r.Names cfg v id)
    (hcoh : Coherent cfg s id) {y : Nat} {k : CKey} (hk : cached cfg y s id = some k) :
    cached cfg y (handle cfg v s lock r).2 id = some k ∨
    (cached cfg y (handle cfg v s lock r).2 id = none ∧ k.committed = true ∧
      (handle cfg v s lock r).2.nvm.store id = some (k.md, k.data)) := by
  have ht := handle_trs (hs.wf hsg) hc hsg lock r
  by_cases ha : area cfg y id = area cfg v.ctx id
  · have hnw : ¬(reqPar cfg v s r (handle cfg v s lock r).2).w id := by
      rintro (h | ⟨_, _, h, _⟩)
      · exact hn h
      · rw [cached_eq] at h hk; rw [ha, h] at hk; cases hk
    obtain ⟨h1, h2⟩ := ht.readonly hnw
    have hst := hcoh y k hk
    rw [cached_eq] at hk ⊢
    rcases h2 (area cfg y id) with h | ⟨h, k', h3, h4⟩ | ⟨h | ⟨k', h, h3⟩, md, bs, h5, h6⟩
    · left; rw [h, hk]
    · right
      rw [hk] at h3; cases h3
      exact ⟨h, h4, by rw [h1]; exact hst h4⟩
    · rw [hk] at h; cases h
    · rw [hk] at h; cases h
      left
      have h7 := hst h3
      rw [h5] at h7
      simp only [Option.some.injEq, Prod.mk.injEq] at h7
      rw [h6, h7.1, h7.2]
      cases k; simp_all
  · left
    have hng : isGlobal cfg id = false := by
      cases h : isGlobal cfg id
      · rfl
      · unfold area at ha; simp [h] at ha
    have hy : y ≠ v.ctx := by rintro rfl; exact ha rfl
    have := trs_areas ht hy
    unfold cached cacheOf at hk ⊢
    rw [hng] at hk ⊢
    simp only [Bool.false_eq_true, if_false] at hk ⊢
    rw [this]; exact hk

/-- The hypotheses are met, and here the request does evict: the three slots are committed
global keys, and caching another one pushes a committed one out. -/
example : ∃ s k, Reach Demo.cfg Demo.ncfg s ∧
    ¬(Req.cache 0x0101 0 Demo.label [1]).Names Demo.cfg Demo.one (ownId Demo.cfg Demo.one 0x0106) ∧
    Coherent Demo.cfg s (ownId Demo.cfg Demo.one 0x0106) ∧
    cached Demo.cfg 0 s (ownId Demo.cfg Demo.one 0x0106) = some k ∧
    cached Demo.cfg 0 (handle Demo.cfg Demo.one s .ok (.cache 0x0101 0 Demo.label [1])).2
      (ownId Demo.cfg Demo.one 0x0106) = none := by
  refine ⟨Demo.after [Demo.cacheG6, Demo.commitG6, Demo.freshG],
    ⟨⟨ownId Demo.cfg Demo.one 0x0106, 0xFFFF, Flag.usageEncrypt, 3, Demo.label⟩, [6, 6, 6], true⟩,
    Demo.after_reach _ (by decide +kernel), ?_, coherent_global (by decide +kernel) ?_,
    by decide +kernel, by decide +kernel⟩
  · show ¬(_ = _); decide +kernel
  · intro k hk _
    have : (Demo.after [Demo.cacheG6, Demo.commitG6, Demo.freshG]).global.find
        (ownId Demo.cfg Demo.one 0x0106) =
      some ⟨⟨ownId Demo.cfg Demo.one 0x0106, 0xFFFF, Flag.usageEncrypt, 3, Demo.label⟩, [6, 6, 6], true⟩ := by
      decide +kernel
    rw [this] at hk; cases hk
    decide +kernel

/-- **C17 (coherence).** In every history in which the key's owner is served by one context
and nobody writes the object through NVM requests, committed cached copies are what the
NVM holds - unless a revocation of that very key runs into a failing NVM
(`F_revoke_incoherent`). -/
theorem C17_coherent (hsg : GoodCfg cfg) {s : Sys} (hs : Reach cfg ncfg s) {x : Nat} {id : UInt16}
    (hcoh : Coherent cfg s id) (honly : OnlyAt cfg x s id) {evs : List Ev}
    (hv : ∀ e ∈ evs, e.Valid ∧ e.Tame cfg x id)
    (hF : (∀ e ∈ evs, ¬e.Revokes cfg id) ∨ ∀ t rc b, s.nvm.outs t ≠ .fail rc b)
    (hp : (run cfg ncfg s evs).nvm.powered = true) :
    Coherent cfg (run cfg ncfg s evs) id ∧ OnlyAt cfg x (run cfg ncfg s evs) id := by
  rw [← cohAt_iff]
  have key : ((run cfg ncfg s evs).nvm.outs = s.nvm.outs) ∧
      ((run cfg ncfg s evs).nvm.powered = true → CohAt cfg x id (run cfg ncfg s evs)) := by
    refine run_induct hsg ncfg (I := fun s' => s'.nvm.outs = s.nvm.outs ∧
        (s'.nvm.powered = true → CohAt cfg x id s'))
      (A := fun e => e.Tame cfg x id ∧ (¬e.Revokes cfg id ∨ ∀ t rc b, s.nvm.outs t ≠ .fail rc b))
      ?_ (hs.wf hsg) ⟨rfl, fun _ => cohAt_iff.mpr ⟨hcoh, honly⟩⟩ ?_
    · intro s' e hw hI hval hA
      refine ⟨(step_outs cfg ncfg s' e).trans hI.1, ?_⟩
      refine step_cohAt hsg ncfg hw hval hA.1 ?_ hI.2
      rw [hI.1]; exact hA.2
    · intro e he
      refine ⟨(hv e he).1, (hv e he).2, ?_⟩
      rcases hF with h | h
      · exact Or.inl (h e he)
      · exact Or.inr h
  exact key.2 hp

/-- The hypotheses are met by a history that caches, commits and evicts the key. -/
example : ∃ evs : List Ev, Coherent Demo.cfg (Demo.after []) (ownId Demo.cfg Demo.one 0x0106) ∧
    OnlyAt Demo.cfg 0 (Demo.after []) (ownId Demo.cfg Demo.one 0x0106) ∧
    (∀ e ∈ evs, e.Valid ∧ e.Tame Demo.cfg 0 (ownId Demo.cfg Demo.one 0x0106)) ∧
    (∀ e ∈ evs, ¬e.Revokes Demo.cfg (ownId Demo.cfg Demo.one 0x0106)) ∧
    (Demo.after evs).nvm.powered = true ∧
    (Demo.after evs).nvm.store (ownId Demo.cfg Demo.one 0x0106) ≠ none := by
  refine ⟨[Demo.cacheG6, Demo.commitG6, .key Demo.one .ok (.evict 0x0106)],
    coherent_global (by decide +kernel) (fun _ h => by cases h), onlyAt_global (by decide +kernel),
    ?_, ?_, by decide +kernel, by decide +kernel⟩
  · intro e he
    simp only [List.mem_cons, List.not_mem_nil, or_false] at he
    rcases he with rfl | rfl | rfl <;>
      exact ⟨by decide, fun h => absurd h (by decide +kernel)⟩
  · intro e he
    simp only [List.mem_cons, List.not_mem_nil, or_false] at he
    rcases he with rfl | rfl | rfl <;> exact fun h => h

end

end WolfHsm.Props

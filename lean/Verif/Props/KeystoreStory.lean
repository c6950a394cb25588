import Verif.Props.KeystoreSecret
import Verif.Props.KeystorePersist

/-!
# C18: the life of a key, in terms of requests and answers only

A client caches a key, commits it, later exports it or erases it.  Everything in between is
arbitrary, apart from requests that name the key.  Positions `i < j < k` in the history.
-/

namespace WolfHsm.Props

open Keystore
open NvmFlash (Meta)

section

variable {cfg : Keystore.Cfg} {ncfg : NvmServer.Cfg}

/-- The client that owns key `id` is served by context `x`. -/
def ServedAt (x : Nat) (id : UInt16) : Ev → Prop
  | .key v _ _ => v.client = KeyId.userOf id → v.ctx = x
  | _ => True

/-- The event neither names the key nor switches the server off. -/
def LeavesCached (cfg : Keystore.Cfg) (id : UInt16) : Ev → Prop
  | .key v _ r => ¬r.Names cfg v id
  | .nvm _ _ => True
  | .restart _ => False

/-- State before the event at position `n`. -/
abbrev stAt (cfg : Keystore.Cfg) (ncfg : NvmServer.Cfg) (s : Sys) (evs : List Ev) (n : Nat) : Sys :=
  run cfg ncfg s (evs.take n)

theorem run_append (s : Sys) (l₁ l₂ : List Ev) :
    run cfg ncfg s (l₁ ++ l₂) = run cfg ncfg (run cfg ncfg s l₁) l₂ := by
  simp only [run, List.foldl_append]

theorem stAt_segment (s : Sys) (evs : List Ev) {a b : Nat} (h : a ≤ b) :
    stAt cfg ncfg s evs b =
      run cfg ncfg (stAt cfg ncfg s evs a) ((evs.drop a).take (b - a)) := by
  rw [stAt, stAt, ← run_append]
  congr 1
  conv => lhs; rw [show b = a + (b - a) by omega, List.take_add]

theorem stAt_succ (s : Sys) {evs : List Ev} {n : Nat} {e : Ev} (h : evs[n]? = some e) :
    stAt cfg ncfg s evs (n + 1) = (step cfg ncfg (stAt cfg ncfg s evs n) e).2 := by
  rw [stAt_segment s evs (Nat.le_succ n)]
  have : (evs.drop n).take (n + 1 - n) = [e] := by
    rw [Nat.add_sub_cancel_left]
    obtain ⟨hn, he⟩ := List.getElem?_eq_some_iff.mp h
    rw [List.drop_eq_getElem_cons hn, he]; rfl
  rw [this]; rfl

theorem mem_segment {evs : List Ev} {a b : Nat} {e : Ev} (h : e ∈ (evs.drop a).take (b - a)) :
    ∃ n, a ≤ n ∧ n < b ∧ evs[n]? = some e := by
  obtain ⟨i, hi⟩ := List.mem_iff_getElem?.mp h
  by_cases hb : i < b - a
  · rw [List.getElem?_take_of_lt hb, List.getElem?_drop] at hi
    exact ⟨a + i, by omega, by omega, hi⟩
  · rw [List.getElem?_take_eq_none (by omega)] at hi; cases hi

theorem mem_at {evs : List Ev} {n : Nat} {e : Ev} (h : evs[n]? = some e) : e ∈ evs :=
  List.mem_of_getElem? h

/-- No other context caches the key of a client that is served by one context. -/
theorem onlyAt_run (hsg : GoodCfg cfg) {s : Sys} (hw : WF s) {x : Nat} {id : UInt16}
    (h : OnlyAt cfg x s id) {evs : List Ev} (hv : ∀ e ∈ evs, e.Valid ∧ ServedAt x id e) :
    OnlyAt cfg x (run cfg ncfg s evs) id := by
  refine run_induct hsg ncfg (I := fun s => OnlyAt cfg x s id) (A := ServedAt x id) ?_ hw h hv
  intro s e hw hI hval hA hng y hy
  have h0 := hI hng y hy
  cases e with
  | restart b =>
    unfold cached cacheOf
    rw [hng]
    exact cleared_find _ _
  | nvm lock r =>
    unfold step
    dsimp only
    split <;> exact h0
  | key v lock r =>
    by_cases hc : v.client = KeyId.userOf id
    · have hx := hA hc
      unfold step
      dsimp only
      split
      · have := trs_areas (handle_trs hw hval hsg lock r) (y := y) (by rw [hx]; exact hy)
        unfold cached cacheOf at h0 ⊢
        rw [hng] at h0 ⊢
        simp only [Bool.false_eq_true, if_false] at h0 ⊢
        rw [this]; exact h0
      · exact h0
    · have := (step_key_other hsg ncfg (lock := lock) (r := r) hw hval (not_reachable hng hc))
      rw [cached_eq] at h0 ⊢
      rcases this.cache (area cfg y id) with h | ⟨k, h1, _, h3⟩
      · rw [h]; exact h0
      · exact h3

/-- A successful cache request leaves the key in the cache, not marked as committed. -/
theorem cached_after (hsg : GoodCfg cfg) {s : Sys} (hw : WF s) {v : Srv} (hc : v.client < 16)
    {lock : Rc} {rid flags : UInt16} {label : Vector UInt8 24} {key : List UInt8}
    (hid : KeyId.idOf (ownId cfg v rid) ≠ 0) {rid' : UInt16}
    (h : (handle cfg v s lock (.cache rid flags label key)).1 = .keyId .ok rid') :
    ∃ k, cached cfg v.ctx (handle cfg v s lock (.cache rid flags label key)).2 (ownId cfg v rid) =
      some k ∧ k.committed = false ∧ k.data = key ∧ k.md.label = label := by
  rcases handle_or cfg v s lock (.cache rid flags label key) with ⟨_, _, e⟩ | ⟨rc, _, e⟩
  · rw [e] at h ⊢
    simp only [act, handleCache] at h ⊢
    split at h
    · simp at h
    · rename_i hlen
      rw [if_neg hlen]
      have hu : KeyId.isUnassigned
          (clientMeta cfg v rid flags label (UInt16.ofNat key.length)).id = false := by
        change KeyId.isUnassigned (ownId cfg v rid) = false
        simp [KeyId.isUnassigned, KeyId.isErased, hid]
      rw [hu] at h ⊢
      simp only [withId, Bool.false_eq_true, if_false, Resp.keyId.injEq] at h ⊢
      generalize hmd : clientMeta cfg v rid flags label (UInt16.ofNat key.length) = md at h hu ⊢
      have h1 : md.id = ownId cfg v rid := by rw [← hmd]; rfl
      have h2 : md.label = label := by rw [← hmd]; rfl
      rw [← h1, ← h2]
      have hr := h.1
      revert hr
      refine cacheKey_checked_cases (F := Par.any) (P := fun r => r.1 = .ok → ∃ k,
        cached cfg v.ctx r.2 md.id = some k ∧ k.committed = false ∧ k.data = key ∧
          k.md.label = md.label) hw trivial ?_ ?_
      · intro s' _ hf _ _ _
        exact ⟨⟨md, key, false⟩, hf.entry, rfl, rfl, rfl⟩
      · intro rc s' hrc _ h; exact absurd h hrc
  · rw [e] at h; cases h

/-- An answered request was handled with power on. -/
theorem step_answered {s : Sys} {v : Srv} {lock : Rc} {r : Req} {a : Resp}
    (h : (step cfg ncfg s (.key v lock r)).1 = .key a) :
    (handle cfg v s lock r).1 = a ∧
      (step cfg ncfg s (.key v lock r)).2 = (handle cfg v s lock r).2 := by
  simp only [step] at h ⊢
  split at h
  · rename_i hp
    rw [if_pos hp]
    dsimp only at h
    split at h
    · exact ⟨by cases h; rfl, rfl⟩
    · cases h
  · cases h

/-- **C18 (the whole story).** A client caches a key under an id of its own and is told that it
worked; later it commits the key and is told that it worked; later it exports the key and
gets an answer with a key.  Then that is the key it cached, with its label - whatever
happened in between: requests of all clients, power cycles, failing NVM calls.  Between caching
and committing nobody names the key and the server is not switched off; between committing
and exporting nobody replaces, revokes or erases it.  The client is served by one server
context. -/
theorem C18_exports_what_was_cached (hsg : GoodCfg cfg) {s : Sys} (hs : Reach cfg ncfg s) {v : Srv}
    {rid : UInt16} (hng : isGlobal cfg (ownId cfg v rid) = false)
    (hid : KeyId.idOf (ownId cfg v rid) ≠ 0) (honly : OnlyAt cfg v.ctx s (ownId cfg v rid))
    {evs : List Ev} (hv : ∀ e ∈ evs, e.Valid ∧ ServedAt v.ctx (ownId cfg v rid) e) {i j k : Nat}
    {l1 l2 l3 : Rc} {flags rid' : UInt16} {label : Vector UInt8 24} {key : List UInt8}
    (hi : evs[i]? = some (.key v l1 (.cache rid flags label key)))
    (hi' : (step cfg ncfg (stAt cfg ncfg s evs i) (.key v l1 (.cache rid flags label key))).1 =
      .key (.keyId .ok rid'))
    (hij : i < j)
    (hmid : ∀ n e, i < n → n < j → evs[n]? = some e → LeavesCached cfg (ownId cfg v rid) e)
    (hj : evs[j]? = some (.key v l2 (.commit rid)))
    (hj' : (step cfg ncfg (stAt cfg ncfg s evs j) (.key v l2 (.commit rid))).1 = .key (.code .ok))
    (hjk : j < k) (hpost : ∀ n e, j < n → n < k → evs[n]? = some e → ¬e.Changes cfg (ownId cfg v rid))
    {lab : Option (Vector UInt8 24)}
    {bytes : List UInt8}
    (hk' : (step cfg ncfg (stAt cfg ncfg s evs k) (.key v l3 (.exportKey rid))).1 =
      .key (.key .ok lab bytes)) :
    bytes = key ∧ lab = some label := by
  have hc : v.client < 16 := (hv _ (mem_at hi)).1
  have hval : ∀ n, ∀ e ∈ evs.take n, e.Valid := fun n e he => (hv e (List.mem_of_mem_take he)).1
  have hre : ∀ n, Reach cfg ncfg (stAt cfg ncfg s evs n) := fun n => reach_run hs _ (hval n)
  have honl : ∀ n, OnlyAt cfg v.ctx (stAt cfg ncfg s evs n) (ownId cfg v rid) := fun n =>
    onlyAt_run hsg (hs.wf hsg) honly fun e he => hv e (List.mem_of_mem_take he)
  -- after caching
  obtain ⟨ha, hb⟩ := step_answered hi'
  obtain ⟨c, hc1, hc2, hc3, hc4⟩ := cached_after hsg ((hre i).wf hsg) hc hid ha
  rw [← hb, ← stAt_succ s hi] at hc1
  -- until the commit
  have hmid' : cached cfg v.ctx (stAt cfg ncfg s evs j) (ownId cfg v rid) = some c := by
    have : ∀ n, i + 1 + n ≤ j →
        cached cfg v.ctx (stAt cfg ncfg s evs (i + 1 + n)) (ownId cfg v rid) = some c := by
      intro n
      induction n with
      | zero => intro _; exact hc1
      | succ n ih =>
        intro hn
        have h0 := ih (by omega)
        have hlen : i + 1 + n < evs.length := by
          have := (List.getElem?_eq_some_iff.mp hj).1; omega
        have he : evs[i + 1 + n]? = some evs[i + 1 + n] := List.getElem?_eq_getElem hlen
        have hq := hmid _ _ (by omega) (by omega) he
        have hva := (hv _ (mem_at he)).1
        rw [← Nat.add_assoc, stAt_succ s he]
        generalize evs[i + 1 + n] = e at hq hva
        cases e with
        | restart b => exact hq.elim
        | nvm lock r =>
          unfold step
          dsimp only
          split <;> exact h0
        | key w lock r =>
          unfold step
          dsimp only
          split
          · have hcoh : Coherent cfg (stAt cfg ncfg s evs (i + 1 + n)) (ownId cfg v rid) := by
              intro y k' hy hcm
              by_cases hyx : y = v.ctx
              · rw [hyx, h0] at hy; cases hy; rw [hc2] at hcm; cases hcm
              · rw [honl _ hng y hyx] at hy; cases hy
            rcases C17_no_loss hsg (hre _) hva lock hq hcoh h0 with h | ⟨_, h, _⟩
            · exact h
            · rw [hc2] at h; cases h
          · exact h0
    have := this (j - (i + 1)) (by omega)
    rwa [show i + 1 + (j - (i + 1)) = j by omega] at this
  -- after the commit
  obtain ⟨ha2, hb2⟩ := step_answered hj'
  obtain ⟨c', hc', hview⟩ := C18_committed hsg (hre j) hc l2 rid (honl j) ha2
  rw [hmid'] at hc'
  cases hc'
  obtain ⟨ha3, -⟩ := step_answered hk'
  obtain ⟨id, md, hex, -, hvw, hlab, -⟩ := C15_export_checked hsg (hre k) hc l3 _ ha3
  have hid' : id = ownId cfg v rid := hex
  subst hid'
  have hst : stAt cfg ncfg s evs k =
      run cfg ncfg (handle cfg v (stAt cfg ncfg s evs j) l2 (.commit rid)).2
        ((evs.drop (j + 1)).take (k - (j + 1))) := by
    rw [stAt_segment s evs (show j + 1 ≤ k by omega), stAt_succ s hj, hb2]
  have := hview ((evs.drop (j + 1)).take (k - (j + 1))) (fun e he => by
    obtain ⟨n, h1, h2, h3⟩ := mem_segment he
    exact ⟨(hv e (mem_at h3)).1, hpost n e (by omega) h2 h3⟩) v.ctx
  rw [← hst, hvw] at this
  simp only [Option.some.injEq, Prod.mk.injEq] at this
  obtain ⟨h1, h2⟩ := this
  rw [hlab, h1, h2]
  exact ⟨hc3, by rw [hc4]⟩

/-- **C18 (the end of the story).** A client commits a key and is told that it worked; later it
erases the key and is told that it worked; later it asks for the key.  If nothing named the
key in between, and, after the erase, no request of the client left the choice of an id to
the server, it does not get a key. -/
theorem C18_erased_is_gone (hsg : GoodCfg cfg) {s : Sys} (hs : Reach cfg ncfg s) {v : Srv}
    {rid : UInt16} (hng : isGlobal cfg (ownId cfg v rid) = false)
    (honly : OnlyAt cfg v.ctx s (ownId cfg v rid))
    {evs : List Ev} (hv : ∀ e ∈ evs, e.Valid ∧ ServedAt v.ctx (ownId cfg v rid) e) {i j k : Nat}
    {l1 l2 l3 : Rc}
    (hi : evs[i]? = some (.key v l1 (.commit rid)))
    (hi' : (step cfg ncfg (stAt cfg ncfg s evs i) (.key v l1 (.commit rid))).1 = .key (.code .ok))
    (hij : i < j) (hmid : ∀ n e, i < n → n < j → evs[n]? = some e → ¬e.Changes cfg (ownId cfg v rid))
    (hj : evs[j]? = some (.key v l2 (.erase rid)))
    (hj' : (step cfg ncfg (stAt cfg ncfg s evs j) (.key v l2 (.erase rid))).1 = .key (.code .ok))
    (hjk : j < k) (hpost : ∀ n e, j < n → n < k → evs[n]? = some e → ¬e.MayCreate cfg (ownId cfg v rid))
    (lab : Option (Vector UInt8 24))
    (bytes : List UInt8) :
    (step cfg ncfg (stAt cfg ncfg s evs k) (.key v l3 (.exportKey rid))).1 ≠
      .key (.key .ok lab bytes) := by
  intro hk'
  have hc : v.client < 16 := (hv _ (mem_at hi)).1
  have hval : ∀ n, ∀ e ∈ evs.take n, e.Valid := fun n e he => (hv e (List.mem_of_mem_take he)).1
  have hre : ∀ n, Reach cfg ncfg (stAt cfg ncfg s evs n) := fun n => reach_run hs _ (hval n)
  have honl : ∀ n, OnlyAt cfg v.ctx (stAt cfg ncfg s evs n) (ownId cfg v rid) := fun n =>
    onlyAt_run hsg (hs.wf hsg) honly fun e he => hv e (List.mem_of_mem_take he)
  obtain ⟨ha, hb⟩ := step_answered hi'
  obtain ⟨c, -, hview⟩ := C18_committed hsg (hre i) hc l1 rid (honl i) ha
  have hst : stAt cfg ncfg s evs j =
      run cfg ncfg (handle cfg v (stAt cfg ncfg s evs i) l1 (.commit rid)).2
        ((evs.drop (i + 1)).take (j - (i + 1))) := by
    rw [stAt_segment s evs (show i + 1 ≤ j by omega), stAt_succ s hi, hb]
  have hst' := hview ((evs.drop (i + 1)).take (j - (i + 1))) (fun e he => by
    obtain ⟨n, h1, h2, h3⟩ := mem_segment he
    exact ⟨(hv e (mem_at h3)).1, hmid n e (by omega) h2 h3⟩) (v.ctx + 1)
  rw [← hst] at hst'
  have hstored : (stAt cfg ncfg s evs j).nvm.store (ownId cfg v rid) ≠ none := by
    unfold view at hst'
    rw [honl j hng (v.ctx + 1) (by omega)] at hst'
    dsimp only at hst'
    rw [hst']; simp
  obtain ⟨ha2, hb2⟩ := step_answered hj'
  have hgone := C18_erased_partial hsg (hre j) hc l2 rid (honl j) (.inl hstored) ha2
    ((evs.drop (j + 1)).take (k - (j + 1))) (fun e he => by
      obtain ⟨n, h1, h2, h3⟩ := mem_segment he
      exact ⟨(hv e (mem_at h3)).1, hpost n e (by omega) h2 h3⟩) v.ctx
  obtain ⟨ha3, -⟩ := step_answered hk'
  obtain ⟨id, md, hex, -, hvw, -⟩ := C15_export_checked hsg (hre k) hc l3 _ ha3
  have hid' : id = ownId cfg v rid := hex
  subst hid'
  rw [← hb2, ← stAt_succ s hj, ← stAt_segment s evs (show j + 1 ≤ k by omega), hvw] at hgone
  cases hgone

/-- **C19 (the story of a revoked key).** A client commits a key and is told that it worked; later
it revokes the key and is told that it worked.  If nothing replaced, revoked or erased the key in
between, then from then on the key is refused for every cryptographic use and for wrapping and
unwrapping - whatever follows: requests of all clients that try to replace, erase or evict
it, power cycles, failing NVM calls. -/
theorem C19_revoked_is_unusable (hsg : GoodCfg cfg) {s : Sys} (hs : Reach cfg ncfg s) {v : Srv}
    {rid : UInt16} (hty : KeyId.typeOf (ownId cfg v rid) = KeyId.typeCrypto)
    (honly : OnlyAt cfg v.ctx s (ownId cfg v rid))
    {evs : List Ev} (hv : ∀ e ∈ evs, e.Valid ∧ ServedAt v.ctx (ownId cfg v rid) e) {i j k : Nat}
    {l1 l2 l3 : Rc}
    (hi : evs[i]? = some (.key v l1 (.commit rid)))
    (hi' : (step cfg ncfg (stAt cfg ncfg s evs i) (.key v l1 (.commit rid))).1 = .key (.code .ok))
    (hij : i < j) (hmid : ∀ n e, i < n → n < j → evs[n]? = some e → ¬e.Changes cfg (ownId cfg v rid))
    (hj : evs[j]? = some (.key v l2 (.revoke rid)))
    (hj' : (step cfg ncfg (stAt cfg ncfg s evs j) (.key v l2 (.revoke rid))).1 = .key (.code .ok))
    (hjk : j < k) (hpost : ∀ n e, j < n → n < k → evs[n]? = some e → StableEv e) :
    let ans := fun r => (step cfg ncfg (stAt cfg ncfg s evs k) (.key v l3 r)).1
    (∀ required outSz b, required &&& usageAny ≠ 0 →
      ans (.useKey rid required outSz) ≠ .key (.usable .ok b)) ∧
    (∀ required b, required &&& usageAny ≠ 0 →
      ans (.loadKey rid required) ≠ .key (.usable .ok b)) ∧
    (∀ data iv b, ans (.dataWrap rid data iv) ≠ .key (.wrapped .ok b)) ∧
    (∀ blob b, ans (.dataUnwrap rid blob) ≠ .key (.data .ok b)) ∧
    (∀ m key iv b, ans (.wrap rid m key iv) ≠ .key (.wrapped .ok b)) ∧
    (∀ blob b, ans (.unwrapExport rid blob) ≠ .key (.unwrapped .ok b)) ∧
    (∀ blob b, ans (.unwrapCache rid blob) ≠ .key (.keyId .ok b)) := by
  have hc : v.client < 16 := (hv _ (mem_at hi)).1
  have hval : ∀ n, ∀ e ∈ evs.take n, e.Valid := fun n e he => (hv e (List.mem_of_mem_take he)).1
  have hre : ∀ n, Reach cfg ncfg (stAt cfg ncfg s evs n) := fun n => reach_run hs _ (hval n)
  have honl : ∀ n, OnlyAt cfg v.ctx (stAt cfg ncfg s evs n) (ownId cfg v rid) := fun n =>
    onlyAt_run hsg (hs.wf hsg) honly fun e he => hv e (List.mem_of_mem_take he)
  obtain ⟨ha, hb⟩ := step_answered hi'
  obtain ⟨c, -, hinv⟩ := committed_inv (ncfg := ncfg) hsg (hre i) hc l1 rid (honl i) ha
  have hst : stAt cfg ncfg s evs j =
      run cfg ncfg (handle cfg v (stAt cfg ncfg s evs i) l1 (.commit rid)).2
        ((evs.drop (i + 1)).take (j - (i + 1))) := by
    rw [stAt_segment s evs (show i + 1 ≤ j by omega), stAt_succ s hi, hb]
  have hinv' := hinv ((evs.drop (i + 1)).take (j - (i + 1))) (fun e he => by
    obtain ⟨n, h1, h2, h3⟩ := mem_segment he
    exact ⟨(hv e (mem_at h3)).1, hmid n e (by omega) h2 h3⟩)
  rw [← hst] at hinv'
  have hn : (stAt cfg ncfg s evs j).nvm.store (ownId cfg v rid) = some (c.md, c.data) := hinv'.n
  obtain ⟨ha2, hb2⟩ := step_answered hj'
  obtain ⟨md, bs, hrev, hall⟩ := C19_revoked_partial (ncfg := ncfg) hsg (hre j) hc l2 rid hty
    (by rw [hn]; simp) (fun y k' hk' _ => by rw [hn]; exact congrArg some (hinv'.c y k' hk').symm)
    (honl j) (fun m d hp hm => by rw [hn]; exact congrArg some (hinv'.p m d hp hm).symm) ha2
  have hvw := (hall ((evs.drop (j + 1)).take (k - (j + 1))) (fun e he => by
    obtain ⟨n, h1, h2, h3⟩ := mem_segment he
    exact ⟨(hv e (mem_at h3)).1, hpost n e (by omega) h2 h3⟩)).2 v.ctx
  rw [← hb2, ← stAt_succ s hj, ← stAt_segment s evs (show j + 1 ≤ k by omega)] at hvw
  obtain ⟨u1, u0, u2, u3, u4, u5, u6⟩ := C19_unusable hsg (hre k) hc l3 rid hty hvw hrev
  exact ⟨fun a b d h0 h => u1 a b d h0 (step_answered h).1,
    fun a b h0 h => u0 a b h0 (step_answered h).1, fun a b d h => u2 a b d (step_answered h).1,
    fun a b h => u3 a b (step_answered h).1, fun a b d e h => u4 a b d e (step_answered h).1,
    fun a b h => u5 a b (step_answered h).1, fun a b h => u6 a b (step_answered h).1⟩

end

/-! ## A history that meets the hypotheses -/

namespace StoryDemo

open Keystore.Demo

/-- Client 1 caches key 5, client 2 lets the server choose an id, client 1 commits, the power
goes, client 1 exports, erases, and asks again. -/
def evs : List Ev :=
  [cache5, fresh2, .key one .ok (.commit 5), .restart false, .key one .ok (.exportKey 5),
   .key one .ok (.erase 5), .restart false, .key one .ok (.exportKey 5)]

theorem observed : trace cfg ncfg (boot fine) (.restart false :: evs) =
    [.none, .key (.keyId .ok 5), .key (.keyId .ok 255), .key (.code .ok), .none,
     .key (.key .ok (some label) [1, 2, 3]), .key (.code .ok), .none,
     .key (.key .notfound none [])] := by decide +kernel

theorem valid : ∀ e ∈ evs, e.Valid ∧ ServedAt one.ctx (ownId cfg one 5) e := by
  intro e h
  simp only [evs, List.mem_cons, List.not_mem_nil, or_false] at h
  rcases h with h | h | h | h | h | h | h | h <;> subst h <;>
    exact ⟨by decide, by simp only [ServedAt, cache5, fresh2]; try decide⟩

/-- `C18_exports_what_was_cached` applies to it, with positions 0, 2 and 4. -/
example : ∃ bytes lab, (step cfg ncfg (stAt cfg ncfg (after []) evs 4)
      (.key one .ok (.exportKey 5))).1 = .key (.key .ok lab bytes) ∧
    bytes = [1, 2, 3] ∧ lab = some label := by
  have hk : (step cfg ncfg (stAt cfg ncfg (after []) evs 4)
      (.key one .ok (.exportKey 5))).1 = .key (.key .ok (some label) [1, 2, 3]) := by decide +kernel
  refine ⟨_, _, hk, C18_exports_what_was_cached good (after_reach [] (by simp)) (v := one) (rid := 5)
    (by decide) (by decide) (fun _ y _ => boot_cached y _) valid (i := 0) (j := 2) (k := 4)
    rfl (rid' := 5) (by decide +kernel) (by decide) ?_ rfl (by decide +kernel) (by decide) ?_ hk⟩
  · intro n e h1 h2 he
    have : n = 1 := by omega
    subst this
    cases he
    show ¬ownId cfg one 5 = ownId cfg two 0
    decide
  · intro n e h1 h2 he
    have : n = 3 := by omega
    subst this
    cases he
    exact fun h => h

/-- `C18_erased_is_gone` applies to it, with positions 2, 5 and 7. -/
example (lab : Option (Vector UInt8 24)) (bytes : List UInt8) :
    (step cfg ncfg (stAt cfg ncfg (after []) evs 7) (.key one .ok (.exportKey 5))).1 ≠
      .key (.key .ok lab bytes) := by
  refine C18_erased_is_gone good (after_reach [] (by simp)) (v := one) (rid := 5)
    (by decide) (fun _ y _ => boot_cached y _) valid (i := 2) (j := 5) (k := 7)
    rfl (by decide +kernel) (by decide) ?_ rfl (by decide +kernel) (by decide) ?_ lab bytes
  · intro n e h1 h2 he
    have : n = 3 ∨ n = 4 := by omega
    rcases this with rfl | rfl <;> cases he <;> exact fun h => h
  · intro n e h1 h2 he
    have : n = 6 := by omega
    subst this
    cases he
    exact fun h => h

/-- Client 1 caches and commits the global key 6, client 2 lets the server choose an id, client 1
revokes, the power goes, client 1 tries to replace the key and to use it. -/
def evs19 : List Ev :=
  [cacheG6, commitG6, fresh2, .key one .ok (.revoke 0x0106), .restart false, cacheG6,
   .key one .ok (.useKey 0x0106 Flag.usageEncrypt 64)]

/-- `C19_revoked_is_unusable` applies to it, with positions 1, 3 and 6. -/
example (b : Option (List UInt8)) : (step cfg ncfg (stAt cfg ncfg (after []) evs19 6)
    (.key one .ok (.useKey 0x0106 Flag.usageEncrypt 64))).1 ≠ .key (.usable .ok b) := by
  refine (C19_revoked_is_unusable good (after_reach [] (by simp)) (v := one) (rid := 0x0106)
    (evs := evs19) (i := 1) (j := 3) (k := 6) (by decide) (onlyAt_global (by decide)) ?_ rfl
    (by decide +kernel) (by decide) ?_ rfl (by decide +kernel) (by decide) ?_).1 _ _ _ (by decide)
  · intro e h
    simp only [evs19, List.mem_cons, List.not_mem_nil, or_false] at h
    rcases h with h | h | h | h | h | h | h <;> subst h <;>
      exact ⟨by decide, by simp only [ServedAt, cacheG6, commitG6, fresh2]; try decide⟩
  · intro n e h1 h2 he
    have : n = 2 := by omega
    subst this
    cases he
    show ¬ownId cfg one 0x0106 = ownId cfg two 0
    decide
  · intro n e h1 h2 he
    have : n = 4 ∨ n = 5 := by omega
    rcases this with rfl | rfl <;> cases he <;> trivial

/-- Before the revocation the key was usable. -/
example : (step cfg ncfg (stAt cfg ncfg (after []) evs19 3)
    (.key one .ok (.useKey 0x0106 Flag.usageEncrypt 64))).1 = .key (.usable .ok (some [6, 6, 6])) := by
  decide +kernel

end StoryDemo

end WolfHsm.Props

import Verif.Props.KeystoreStory
import Verif.Props.NvmRefine
import Verif.Proofs.KeystoreFlashDemo

/-!
# C50 for the key store; C15 and C18 on the flash

The server with its caches on the flash NVM (`FRun`, with power cuts at every flash write)
compared with the key store on the object map, on which C14 - C19 are stated.  C15 and C18 are
then stated about the flash device itself, in terms of requests and answers.
-/

namespace WolfHsm.Props

open Keystore NvmRefine
open NvmFlash (Shows Boots Erased PState)
open Flash (Mem)

section

variable {cfg : Keystore.Cfg} {ncfg : NvmServer.Cfg} {sh : Shape} {V : Service KReq Obs (Ram sh)}
variable {c : NvmFlash.Cfg} {m0 : Mem} {evs : List (NvmRefine.Ev KReq)} {as : List (Option Obs)}
  {d : Device (Ram sh)}

private theorem explained_get {A : Type} : ∀ {as bs : List (Option A)}, Explained as bs →
    ∀ {i : Nat} {a : A}, as[i]? = some (some a) → bs[i]? = some (some a)
  | [], [], _, i, a, h => by simp at h
  | o :: as, o' :: bs, h, i, a, hi => by
    cases i with
    | zero =>
      simp only [List.getElem?_cons_zero, Option.some.injEq] at hi ⊢
      exact h.1 a hi
    | succ i =>
      simp only [List.getElem?_cons_succ] at hi ⊢
      exact explained_get h.2 hi
  | [], _ :: _, h, _, _, _ => h.elim
  | _ :: _, [], h, _, _, _ => h.elim

private theorem trace_get (s : Sys) (es : List Keystore.Ev) (i : Nat) :
    (trace cfg ncfg s es)[i]? = es[i]?.map fun e => (step cfg ncfg (stAt cfg ncfg s es i) e).1 := by
  induction es generalizing s i with
  | nil => rfl
  | cons e es ih =>
    cases i with
    | zero => rfl
    | succ i =>
      simp only [trace, List.getElem?_cons_succ, ih]
      rfl

/-- The key store has no keys at all. -/
def NoKeys (cfg : Keystore.Cfg) (s : Sys) : Prop :=
  s.nvm.pending = none ∧ (∀ id, s.nvm.store id = none) ∧ ∀ x id, cached cfg x s id = none

/-- **C50 (key store).** A server with key caches on the flash NVM, from erased flash: whatever
its clients are answered, over any history of key requests, NVM requests, power cuts and
power cycles, they would be answered by the key store on the object map, for some outcomes
of the NVM calls.  At the end the caches are the same and the device shows the same objects,
or, if it is off, will show them once it has booted.

Missing: the same as in `C50_flash_behaves_as_map_partial`. -/
theorem C50_key_requests_partial (hwf : c.WF) (h0 : Erased c m0) (hV : IsKeyServer cfg ncfg V)
    (h : FRun V c ⟨emptyRam sh, 0, .off m0⟩ evs as d) :
    ∃ (s : Sys) (es : List (MEv KReq)), Reach cfg ncfg s ∧ NoKeys cfg s ∧ es.map MEv.seen = evs ∧
      (∀ (i : Nat) (a : Obs), as[i]? = some (some a) → (trace cfg ncfg s (es.map toEv))[i]? = some a) ∧
      (∀ ctx m, d.dev = .on ctx m →
        toSys d.ram (run cfg ncfg s (es.map toEv)).nvm = run cfg ncfg s (es.map toEv) ∧
        Shows c ctx m (run cfg ncfg s (es.map toEv)).nvm.store) ∧
      (∀ m, d.dev = .off m →
        ∃ b, Boots c m ((run cfg ncfg s (es.map toEv)).nvm.restart b).store) := by
  obtain ⟨outs, es, hs, ho, hon, hoff⟩ := C50_flash_behaves_as_map_partial hwf V h0 h
  obtain ⟨k1, k2⟩ := mrun_key hV es (emptyRam sh) (emptyMap outs)
  refine ⟨toSys (emptyRam sh) (emptyMap outs), es, ?_, ⟨rfl, fun _ => rfl, ?_⟩, hs, ?_, ?_, ?_⟩
  · refine .boot _ ?_ ?_ rfl (fun _ _ _ h => by cases h)
    · simp [toSys, emptyRam, Cache.cleared]
    · intro x; simp [toSys, emptyRam, Cache.cleared]
  · intro x id
    have e : toSys (emptyRam sh) (emptyMap outs) =
        ⟨emptyMap outs, (toSys (emptyRam sh) (emptyMap outs)).global.cleared,
          fun y => ((toSys (emptyRam sh) (emptyMap outs)).loc y).cleared⟩ := by
      simp [toSys, emptyRam, Cache.cleared]
    rw [e]
    unfold cached cacheOf
    split <;> exact cleared_find _ _
  · intro i a hi
    have := explained_get ho hi
    rw [← k1, List.getElem?_map, this]
    rfl
  · intro ctx m hd
    obtain ⟨h1, h2⟩ := hon ctx m hd
    rw [← k2, h1]
    exact ⟨rfl, h2⟩
  · intro m hd
    rw [← k2]
    exact hoff m hd

/-- There is such a server: every key request and every NVM request, apart from the two
queries about the layout of the flash, is a program over the NVM API. -/
theorem C50_key_server_exists (cfg : Keystore.Cfg) (ncfg : NvmServer.Cfg) (sh : Shape) :
    ∃ V : Service KReq Obs (Ram sh), IsKeyServer cfg ncfg V := keyServer_exists cfg ncfg sh

/-- Conditions on the requests carry over to the events on the map. -/
private theorem carry {es : List (MEv KReq)} (hs : es.map MEv.seen = evs)
    {P : Keystore.Ev → Prop} (hr : ∀ b, P (.restart b))
    {n : Nat} (hP : ∀ q, evs[n]? = some (.req q) → P (toEv (.req q)))
    {e : Keystore.Ev} (he : (es.map toEv)[n]? = some e) : P e := by
  rw [List.getElem?_map, Option.map_eq_some_iff] at he
  obtain ⟨e', h1, rfl⟩ := he
  have h2 : evs[n]? = some e'.seen := by rw [← hs, List.getElem?_map, h1]; rfl
  cases e' with
  | req q => exact hP q h2
  | restart b => exact hr b

private theorem carry_mem {es : List (MEv KReq)} (hs : es.map MEv.seen = evs)
    {P : Keystore.Ev → Prop} (hr : ∀ b, P (.restart b))
    (hP : ∀ q, NvmRefine.Ev.req q ∈ evs → P (toEv (.req q))) : ∀ e ∈ es.map toEv, P e := by
  intro e he
  obtain ⟨n, hn⟩ := List.mem_iff_getElem?.mp he
  exact carry hs hr (fun q hq => hP q (List.mem_of_getElem? hq)) hn

private theorem at_req {es : List (MEv KReq)} (hs : es.map MEv.seen = evs) {n : Nat} {q : KReq}
    (h : evs[n]? = some (.req q)) : (es.map toEv)[n]? = some (toEv (.req q)) := by
  rw [← hs, List.getElem?_map, Option.map_eq_some_iff] at h
  obtain ⟨e, h1, h2⟩ := h
  rw [List.getElem?_map, h1]
  cases e with
  | req q' => cases h2; rfl
  | restart b => cases h2

private theorem answer_at {s : Sys} {es : List Keystore.Ev} {i : Nat} {e : Keystore.Ev} {a : Obs}
    (ht : (trace cfg ncfg s es)[i]? = some a) (he : es[i]? = some e) :
    (step cfg ncfg (stAt cfg ncfg s es i) e).1 = a := by
  rw [trace_get, he] at ht
  exact Option.some.inj ht

private theorem noKeys_onlyAt {s : Sys} (h : NoKeys cfg s) (x : Nat) (id : UInt16) :
    OnlyAt cfg x s id := fun _ y _ => h.2.2 y id

/-- **C15 (on the flash).** From erased flash: if no client hands the server some secret bytes as
an exportable key or object, then no answer to an export, a DMA export or an unwrap-and-export
contains them - whatever requests, power cuts and power cycles happened. -/
theorem C15_never_exported_on_flash (hwf : c.WF) (h0 : Erased c m0) (hsg : GoodCfg cfg)
    (hV : IsKeyServer cfg ncfg V) (h : FRun V c ⟨emptyRam sh, 0, .off m0⟩ evs as d)
    (Sec : List UInt8 → Prop)
    (hq : ∀ q, NvmRefine.Ev.req q ∈ evs → q.Valid ∧ Guards cfg Sec (toEv (.req q))) (i : Nat) :
    (∀ label bytes, as[i]? = some (some (.key (.key .ok label bytes))) → ¬Sec bytes) ∧
    (∀ md bytes, as[i]? = some (some (.key (.unwrapped .ok (some (md, bytes))))) → ¬Sec bytes) := by
  obtain ⟨s, es, hre, hno, hs, hans, -⟩ := C50_key_requests_partial hwf h0 hV h
  have hall : ∀ e ∈ es.map toEv, e.Valid ∧ Guards cfg Sec e :=
    carry_mem hs (P := fun e => e.Valid ∧ Guards cfg Sec e) (fun _ => ⟨trivial, trivial⟩) hq
  have hg : Guarded cfg Sec s := by
    refine ⟨fun y id md b hv => ?_, fun id md b hv => ?_, fun md b hv => ?_⟩
    · unfold view at hv; rw [hno.2.2] at hv; dsimp only at hv; rw [hno.2.1] at hv; cases hv
    · rw [hno.2.1] at hv; cases hv
    · rw [hno.1] at hv; cases hv
  have key : ∀ a, as[i]? = some (some a) → ∃ e, (es.map toEv)[i]? = some e ∧
      (step cfg ncfg (stAt cfg ncfg s (es.map toEv) i) e).1 = a := by
    intro a ha
    have ht := hans i a ha
    rw [trace_get, Option.map_eq_some_iff] at ht
    exact ht
  have used : ∀ e, (es.map toEv)[i]? = some e → ∀ e' ∈ (es.map toEv).take i ++ [e],
      e'.Valid ∧ Guards cfg Sec e' := by
    intro e he e' he'
    rcases List.mem_append.mp he' with h1 | h1
    · exact hall _ (List.mem_of_mem_take h1)
    · rw [List.mem_singleton.mp h1]; exact hall _ (mem_at he)
  refine ⟨fun label bytes ha => ?_, fun md bytes ha => ?_⟩
  · obtain ⟨e, h1, h2⟩ := key _ ha
    exact (C15_never_exported hsg hre Sec hg _ e (used e h1)).1 label bytes h2
  · obtain ⟨e, h1, h2⟩ := key _ ha
    exact (C15_never_exported hsg hre Sec hg _ e (used e h1)).2 md bytes h2

/-- **C18 (on the flash).** The whole story of a key, from erased flash: a client caches a key
under an id of its own and is told that it worked (answer `i`), commits it and is told that it
worked (answer `j`), exports it and gets a key (answer `k`).  Then that is the key it cached,
with its label, whatever happened in between: requests of all clients, power cuts in the middle
of flash writes, power cycles.  Between caching and committing nobody names the key and the
server is not switched off; between committing and exporting nobody replaces, revokes or
erases it.  The client is served by one server context. -/
theorem C18_exports_what_was_cached_on_flash (hwf : c.WF) (h0 : Erased c m0) (hsg : GoodCfg cfg)
    (hV : IsKeyServer cfg ncfg V) (h : FRun V c ⟨emptyRam sh, 0, .off m0⟩ evs as d) {v : Srv}
    {rid : UInt16} (hng : isGlobal cfg (ownId cfg v rid) = false)
    (hid : KeyId.idOf (ownId cfg v rid) ≠ 0)
    (hq : ∀ q, NvmRefine.Ev.req q ∈ evs →
      q.Valid ∧ ServedAt v.ctx (ownId cfg v rid) (toEv (.req q)))
    {i j k : Nat} {l1 l2 l3 : Rc} {flags rid' : UInt16} {label : Vector UInt8 24} {key : List UInt8}
    (hi : evs[i]? = some (.req (.key v l1 (.cache rid flags label key))))
    (hi' : as[i]? = some (some (.key (.keyId .ok rid'))))
    (hij : i < j)
    (hmid : ∀ n, i < n → n < j → evs[n]? ≠ some .restart ∧
      ∀ q, evs[n]? = some (.req q) → LeavesCached cfg (ownId cfg v rid) (toEv (.req q)))
    (hj : evs[j]? = some (.req (.key v l2 (.commit rid))))
    (hj' : as[j]? = some (some (.key (.code .ok))))
    (hjk : j < k)
    (hpost : ∀ n q, j < n → n < k → evs[n]? = some (.req q) →
      ¬(toEv (.req q)).Changes cfg (ownId cfg v rid))
    (hk : evs[k]? = some (.req (.key v l3 (.exportKey rid))))
    {lab : Option (Vector UInt8 24)} {bytes : List UInt8}
    (hk' : as[k]? = some (some (.key (.key .ok lab bytes)))) :
    bytes = key ∧ lab = some label := by
  obtain ⟨s, es, hre, hno, hs, hans, -⟩ := C50_key_requests_partial hwf h0 hV h
  refine C18_exports_what_was_cached hsg hre hng hid (noKeys_onlyAt hno _ _)
    (carry_mem hs (P := fun e => e.Valid ∧ ServedAt v.ctx (ownId cfg v rid) e)
      (fun _ => ⟨trivial, trivial⟩) hq) (at_req hs hi)
    (answer_at (hans i _ hi') (at_req hs hi)) hij ?_ (at_req hs hj)
    (answer_at (hans j _ hj') (at_req hs hj)) hjk ?_
    (answer_at (hans k _ hk') (at_req hs hk))
  · intro n e h1 h2 he
    rw [List.getElem?_map, Option.map_eq_some_iff] at he
    obtain ⟨e', h3, rfl⟩ := he
    have h4 : evs[n]? = some e'.seen := by rw [← hs, List.getElem?_map, h3]; rfl
    cases e' with
    | req q => exact (hmid n h1 h2).2 q h4
    | restart b => exact absurd h4 (hmid n h1 h2).1
  · intro n e h1 h2 he
    exact carry hs (P := fun e => ¬e.Changes cfg (ownId cfg v rid)) (fun _ h => h)
      (fun q hq => hpost n q h1 h2 hq) he

/-- **C18 (erase, on the flash).** From erased flash: a client commits a key and is told that
it worked, erases it and is told that it worked, and asks for it again.  If nothing
replaced, revoked or erased the key between commit and erase, and after the erase nobody named
the key and no request of the client left the choice of an id to the server, it does not get
a key: no power cut brings an erased key back. -/
theorem C18_erased_is_gone_on_flash (hwf : c.WF) (h0 : Erased c m0) (hsg : GoodCfg cfg)
    (hV : IsKeyServer cfg ncfg V) (h : FRun V c ⟨emptyRam sh, 0, .off m0⟩ evs as d) {v : Srv}
    {rid : UInt16} (hng : isGlobal cfg (ownId cfg v rid) = false)
    (hq : ∀ q, NvmRefine.Ev.req q ∈ evs →
      q.Valid ∧ ServedAt v.ctx (ownId cfg v rid) (toEv (.req q)))
    {i j k : Nat} {l1 l2 l3 : Rc}
    (hi : evs[i]? = some (.req (.key v l1 (.commit rid))))
    (hi' : as[i]? = some (some (.key (.code .ok))))
    (hij : i < j)
    (hmid : ∀ n q, i < n → n < j → evs[n]? = some (.req q) →
      ¬(toEv (.req q)).Changes cfg (ownId cfg v rid))
    (hj : evs[j]? = some (.req (.key v l2 (.erase rid))))
    (hj' : as[j]? = some (some (.key (.code .ok))))
    (hjk : j < k)
    (hpost : ∀ n q, j < n → n < k → evs[n]? = some (.req q) →
      ¬(toEv (.req q)).MayCreate cfg (ownId cfg v rid))
    (hk : evs[k]? = some (.req (.key v l3 (.exportKey rid))))
    (lab : Option (Vector UInt8 24)) (bytes : List UInt8) :
    as[k]? ≠ some (some (.key (.key .ok lab bytes))) := by
  obtain ⟨s, es, hre, hno, hs, hans, -⟩ := C50_key_requests_partial hwf h0 hV h
  intro hk'
  refine C18_erased_is_gone hsg hre hng (noKeys_onlyAt hno _ _)
    (carry_mem hs (P := fun e => e.Valid ∧ ServedAt v.ctx (ownId cfg v rid) e)
      (fun _ => ⟨trivial, trivial⟩) hq) (at_req hs hi)
    (answer_at (hans i _ hi') (at_req hs hi)) hij ?_ (at_req hs hj)
    (answer_at (hans j _ hj') (at_req hs hj)) hjk ?_ (l3 := l3) lab bytes
    (answer_at (hans k _ hk') (at_req hs hk))
  · intro n e h1 h2 he
    exact carry hs (P := fun e => ¬e.Changes cfg (ownId cfg v rid)) (fun _ h => h)
      (fun q hq => hmid n q h1 h2 hq) he
  · intro n e h1 h2 he
    exact carry hs (P := fun e => ¬e.MayCreate cfg (ownId cfg v rid)) (fun _ h => h)
      (fun q hq => hpost n q h1 h2 hq) he

/-- **C19 (on the flash).** From erased flash: a client commits a key and is told that it worked,
and revokes it and is told that it worked.  If nothing replaced, revoked or erased the key in
between, then from then on no use of the key by that client is answered with success - whatever
requests, power cuts and power cycles follow. -/
theorem C19_revoked_is_unusable_on_flash (hwf : c.WF) (h0 : Erased c m0) (hsg : GoodCfg cfg)
    (hV : IsKeyServer cfg ncfg V) (h : FRun V c ⟨emptyRam sh, 0, .off m0⟩ evs as d) {v : Srv}
    {rid : UInt16} (hty : KeyId.typeOf (ownId cfg v rid) = KeyId.typeCrypto)
    (hq : ∀ q, NvmRefine.Ev.req q ∈ evs →
      q.Valid ∧ ServedAt v.ctx (ownId cfg v rid) (toEv (.req q)))
    {i j k : Nat} {l1 l2 l3 : Rc}
    (hi : evs[i]? = some (.req (.key v l1 (.commit rid))))
    (hi' : as[i]? = some (some (.key (.code .ok))))
    (hij : i < j)
    (hmid : ∀ n q, i < n → n < j → evs[n]? = some (.req q) →
      ¬(toEv (.req q)).Changes cfg (ownId cfg v rid))
    (hj : evs[j]? = some (.req (.key v l2 (.revoke rid))))
    (hj' : as[j]? = some (some (.key (.code .ok))))
    (hjk : j < k)
    (hpost : ∀ n q, j < n → n < k → evs[n]? = some (.req q) → StableEv (toEv (.req q))) :
    let asks := fun r a => evs[k]? = some (.req (.key v l3 r)) ∧ as[k]? = some (some (.key a))
    (∀ required outSz b, required &&& usageAny ≠ 0 →
      ¬asks (.useKey rid required outSz) (.usable .ok b)) ∧
    (∀ required b, required &&& usageAny ≠ 0 → ¬asks (.loadKey rid required) (.usable .ok b)) ∧
    (∀ data iv b, ¬asks (.dataWrap rid data iv) (.wrapped .ok b)) ∧
    (∀ blob b, ¬asks (.dataUnwrap rid blob) (.data .ok b)) ∧
    (∀ m key iv b, ¬asks (.wrap rid m key iv) (.wrapped .ok b)) ∧
    (∀ blob b, ¬asks (.unwrapExport rid blob) (.unwrapped .ok b)) ∧
    (∀ blob b, ¬asks (.unwrapCache rid blob) (.keyId .ok b)) := by
  obtain ⟨s, es, hre, hno, hs, hans, -⟩ := C50_key_requests_partial hwf h0 hV h
  have hk : ∀ r a, evs[k]? = some (.req (.key v l3 r)) ∧ as[k]? = some (some (.key a)) →
      (step cfg ncfg (stAt cfg ncfg s (es.map toEv) k) (.key v l3 r)).1 = .key a :=
    fun r a h => answer_at (hans k _ h.2) (at_req hs h.1)
  obtain ⟨u1, u0, u2, u3, u4, u5, u6⟩ := C19_revoked_is_unusable (ncfg := ncfg) hsg hre hty
    (noKeys_onlyAt hno _ _)
    (carry_mem hs (P := fun e => e.Valid ∧ ServedAt v.ctx (ownId cfg v rid) e)
      (fun _ => ⟨trivial, trivial⟩) hq) (at_req hs hi)
    (answer_at (hans i _ hi') (at_req hs hi)) hij
    (fun n e h1 h2 he => carry hs (P := fun e => ¬e.Changes cfg (ownId cfg v rid)) (fun _ h => h)
      (fun q hq => hmid n q h1 h2 hq) he) (at_req hs hj)
    (answer_at (hans j _ hj') (at_req hs hj)) hjk
    (fun n e h1 h2 he => carry hs (P := StableEv) (fun _ => trivial)
      (fun q hq => hpost n q h1 h2 hq) he) (l3 := l3)
  exact ⟨fun a b d h0 h => u1 a b d h0 (hk _ _ h), fun a b h0 h => u0 a b h0 (hk _ _ h),
    fun a b d h => u2 a b d (hk _ _ h),
    fun a b h => u3 a b (hk _ _ h), fun a b d e h => u4 a b d e (hk _ _ h),
    fun a b h => u5 a b (hk _ _ h), fun a b h => u6 a b (hk _ _ h)⟩

end

/-! ## A history on a concrete device -/

namespace KeyFlashDemo

open NvmDemo

abbrev cfg := Keystore.Demo.cfg
abbrev one := Keystore.Demo.one
abbrev two := Keystore.Demo.two
abbrev label := Keystore.Demo.label

/-- Two regular cache slots and a big one everywhere. -/
def sh : Shape := ((2, 1), fun _ => (2, 1))

noncomputable abbrev V := server cfg Keystore.Demo.ncfg sh

/-- Client 1 caches key 5; client 2 caches and commits its own key 5; client 1 commits; the
power goes; client 1 exports, erases, the power goes again, it asks again. -/
def evs : List (NvmRefine.Ev KReq) :=
  [.restart,
   .req (.key one .ok (.cache 5 Flag.usageEncrypt label [1, 2, 3])),
   .req (.key two .ok (.cache 5 0 label [8, 8])),
   .req (.key two .ok (.commit 5)),
   .req (.key one .ok (.commit 5)),
   .restart,
   .req (.key one .ok (.exportKey 5)),
   .req (.key one .ok (.erase 5)),
   .restart,
   .req (.key one .ok (.exportKey 5)),
   .req (.key two .ok (.exportKey 5))]

@[irreducible] noncomputable def out := runHist V c0 ⟨emptyRam sh, 0, .off m0⟩ evs

def answers : List (Option Obs) :=
  [none, some (.key (.keyId .ok 5)), some (.key (.keyId .ok 5)), some (.key (.code .ok)),
   some (.key (.code .ok)), none, some (.key (.key .ok (some label) [1, 2, 3])),
   some (.key (.code .ok)), none, some (.key (.key .notfound none [])),
   some (.key (.key .ok (some label) [8, 8]))]

theorem out_eq : out.map (·.1) = some answers := by decide +kernel

theorem history : ∃ d, FRun V c0 ⟨emptyRam sh, 0, .off m0⟩ evs answers d := by
  have h := out_eq
  rw [Option.map_eq_some_iff] at h
  obtain ⟨⟨as, d⟩, h1, h2⟩ := h
  dsimp only at h2
  subst h2
  unfold out at h1
  exact ⟨d, runHist_sound _ _ h1⟩

theorem valid : ∀ q, NvmRefine.Ev.req q ∈ evs →
    q.Valid ∧ ServedAt one.ctx (ownId cfg one 5) (toEv (.req q)) := by
  intro q h
  simp only [evs, List.mem_cons, List.not_mem_nil, or_false, NvmRefine.Ev.req.injEq,
    reduceCtorEq, false_or] at h
  rcases h with h | h | h | h | h | h | h | h <;> subst h <;>
    exact ⟨by unfold KReq.Valid; decide, by unfold toEv ServedAt; decide⟩

/-- The hypotheses of `C18_exports_what_was_cached_on_flash` hold of this history, with positions
1, 4 and 6; its conclusion is what `answers` shows. -/
example : ∃ bytes lab, answers[6]? = some (some (.key (.key .ok lab bytes))) ∧
    bytes = [1, 2, 3] ∧ lab = some label := by
  obtain ⟨d, h⟩ := history
  refine ⟨_, _, rfl, C18_exports_what_was_cached_on_flash (v := one) (rid := 5) wf0 erased0
    Keystore.Demo.good (server_is _ _ _) h (by decide) (by decide) valid (i := 1) (j := 4) (k := 6)
    rfl rfl (by decide) ?_ rfl rfl (by decide) ?_ rfl rfl⟩
  · intro n h1 h2
    have : n = 2 ∨ n = 3 := by omega
    rcases this with rfl | rfl <;>
      refine ⟨(fun h => by cases h), ?_⟩ <;> intro q hq <;> cases hq <;>
      show ¬ownId cfg one 5 = ownId cfg two 5 <;> decide
  · intro n q h1 h2 hq
    have : n = 5 := by omega
    subst this
    cases hq

/-- The hypotheses of `C18_erased_is_gone_on_flash` hold too, with positions 4, 7 and 9. -/
example (lab : Option (Vector UInt8 24)) (bytes : List UInt8) :
    answers[9]? ≠ some (some (.key (.key .ok lab bytes))) := by
  obtain ⟨d, h⟩ := history
  refine C18_erased_is_gone_on_flash (v := one) (rid := 5) wf0 erased0
    Keystore.Demo.good (server_is _ _ _) h (by decide) valid (i := 4) (j := 7) (k := 9)
    rfl rfl (by decide) ?_ rfl rfl (by decide) ?_ rfl lab bytes
  · intro n q h1 h2 hq
    have : n = 5 ∨ n = 6 := by omega
    rcases this with rfl | rfl
    · cases hq
    · cases hq
      exact fun h => h
  · intro n q h1 h2 hq
    have : n = 8 := by omega
    subst this
    cases hq

/-- A history in which a secret is stored NONEXPORTABLE, survives a power cycle and is refused. -/
def evs15 : List (NvmRefine.Ev KReq) :=
  [.restart,
   .req (.key one .ok (.cache 5 Flag.nonExportable label [1, 2, 3])),
   .req (.key one .ok (.commit 5)),
   .restart,
   .req (.key one .ok (.exportKey 5))]

@[irreducible] noncomputable def out15 := runHist V c0 ⟨emptyRam sh, 0, .off m0⟩ evs15

theorem out15_eq : out15.map (·.1) = some [none, some (.key (.keyId .ok 5)),
    some (.key (.code .ok)), none, some (.key (.key .access none []))] := by decide +kernel

/-- The hypotheses of `C15_never_exported_on_flash` hold of it. -/
example : ∃ as d, FRun V c0 ⟨emptyRam sh, 0, .off m0⟩ evs15 as d ∧
    ∀ q, NvmRefine.Ev.req q ∈ evs15 →
      q.Valid ∧ Guards cfg (fun b => b = [1, 2, 3]) (toEv (.req q)) := by
  have h := out15_eq
  rw [Option.map_eq_some_iff] at h
  obtain ⟨⟨as, d⟩, h1, -⟩ := h
  unfold out15 at h1
  refine ⟨as, d, runHist_sound _ _ h1, ?_⟩
  intro q h
  simp only [evs15, List.mem_cons, List.not_mem_nil, or_false, NvmRefine.Ev.req.injEq,
    reduceCtorEq, false_or] at h
  rcases h with h | h | h <;> subst h
  · refine ⟨by unfold KReq.Valid; decide, fun md data hb _ => ?_⟩
    rw [hb.1]; decide
  · exact ⟨by unfold KReq.Valid; decide, fun md data hb _ => hb.elim⟩
  · exact ⟨by unfold KReq.Valid; decide, fun md data hb _ => hb.elim⟩

/-- A history in which a key is committed and revoked. -/
def evs19 : List (NvmRefine.Ev KReq) :=
  [.restart,
   .req (.key one .ok (.cache 5 Flag.usageEncrypt label [1, 2, 3])),
   .req (.key one .ok (.commit 5)),
   .req (.key two .ok (.cache 5 0 label [8, 8])),
   .req (.key one .ok (.revoke 5)),
   .restart,
   .req (.key one .ok (.cache 5 Flag.usageEncrypt label [1, 2, 3]))]

@[irreducible] noncomputable def out19 := runHist V c0 ⟨emptyRam sh, 0, .off m0⟩ evs19

def answers19 : List (Option Obs) :=
  [none, some (.key (.keyId .ok 5)), some (.key (.code .ok)), some (.key (.keyId .ok 5)),
   some (.key (.code .ok)), none, some (.key (.keyId .access 0))]

theorem out19_eq : out19.map (·.1) = some answers19 := by decide +kernel

/-- The hypotheses of `C19_revoked_is_unusable_on_flash` hold of it, with positions 2 and 4. -/
example : ∃ as d, FRun V c0 ⟨emptyRam sh, 0, .off m0⟩ evs19 as d ∧
    (∀ q, NvmRefine.Ev.req q ∈ evs19 →
      q.Valid ∧ ServedAt one.ctx (ownId cfg one 5) (toEv (.req q))) ∧
    as[2]? = some (some (.key (.code .ok))) ∧ as[4]? = some (some (.key (.code .ok))) ∧
    (∀ n q, 2 < n → n < 4 → evs19[n]? = some (.req q) →
      ¬(toEv (.req q)).Changes cfg (ownId cfg one 5)) ∧
    (∀ n q, 4 < n → n < 7 → evs19[n]? = some (.req q) → StableEv (toEv (.req q))) := by
  have h := out19_eq
  rw [Option.map_eq_some_iff] at h
  obtain ⟨⟨as, d⟩, h1, h2⟩ := h
  dsimp only at h2
  subst h2
  unfold out19 at h1
  refine ⟨_, d, runHist_sound _ _ h1, ?_, rfl, rfl, ?_, ?_⟩
  · intro q h
    simp only [evs19, List.mem_cons, List.not_mem_nil, or_false, NvmRefine.Ev.req.injEq,
      reduceCtorEq, false_or] at h
    rcases h with h | h | h | h | h <;> subst h <;>
      exact ⟨by unfold KReq.Valid; decide, by unfold toEv ServedAt; decide⟩
  · intro n q h1 h2 hq
    have : n = 3 := by omega
    subst this
    cases hq
    show ¬ownId cfg one 5 = ownId cfg two 5
    decide
  · intro n q h1 h2 hq
    have : n = 5 ∨ n = 6 := by omega
    rcases this with rfl | rfl
    · cases hq
    · cases hq; trivial

end KeyFlashDemo

end WolfHsm.Props

import Verif.Spec.KeystoreFlash
import Verif.Proofs.NvmServices

/-! # The key request handler is a program over the NVM API -/

namespace WolfHsm.Keystore

open NvmFlash (Meta)
open NvmRefine

variable {sh : Shape}

/-- The result of a program, as the functions of the model return it. -/
def outOf {α : Type} (x : (α × Ram sh) × Nvm) : α × Sys := (x.1.1, toSys x.1.2 x.2)

/-- From the states related by `X` (the NVM at the start, and the NVM now), the rest of `F` is a
program. -/
def PR (sh : Shape) {α : Type} (X : Nvm → Nvm → Prop) (F : Nvm → α × Sys) : Prop :=
  ∃ p : NP (α × Ram sh), ∀ n n', X n n' → F n = outOf (p.onMap n')

/-- The function is a program, whatever is in the caches. -/
def KP (sh : Shape) {α : Type} (F : Sys → α × Sys) : Prop :=
  ∀ r : Ram sh, PR sh (fun n n' => n' = n) fun n => F (toSys r n)

/-- The function only looks something up. -/
def Query (sh : Shape) {β : Type} (f : Sys → β) : Prop :=
  ∀ r : Ram sh, ∃ p : NP β, ∀ n, p.onMap n = (f (toSys r n), n)

variable {α β : Type} {X : Nvm → Nvm → Prop} {F : Nvm → α × Sys}

theorem PR.leaf (a : α) (r : Ram sh) (h : ∀ n n', X n n' → F n = (a, toSys r n')) : PR sh X F :=
  ⟨.ret (a, r), fun n n' hx => h n n' hx⟩

theorem PR.info (id : UInt16) (h : ∀ y, PR sh (fun n n' => X n n' ∧ n'.metadata id = y) F) :
    PR sh X F := by
  choose k hk using h
  exact ⟨.info id fun rc md => k (rc, md), fun n n' hx => hk _ n n' ⟨hx, rfl⟩⟩

theorem PR.read (id : UInt16) (off len : Nat)
    (h : ∀ y, PR sh (fun n n'' => ∃ n', X n n' ∧ n'.read id off len = (y, n'')) F) : PR sh X F := by
  choose k hk using h
  exact ⟨.read id off len fun rc bs => k (rc, bs), fun n n' hx => hk _ n _ ⟨n', hx, rfl⟩⟩

theorem PR.addReclaim (md : Meta) (d : List UInt8)
    (h : ∀ y, PR sh (fun n n'' => ∃ n', X n n' ∧ n'.addWithReclaim md d = (y, n'')) F) : PR sh X F := by
  choose k hk using h
  exact ⟨.addReclaim md d k, fun n n' hx => hk _ n _ ⟨n', hx, rfl⟩⟩

theorem PR.add (md : Meta) (d : List UInt8)
    (h : ∀ y, PR sh (fun n n'' => ∃ n', X n n' ∧ n'.add md d = (y, n'')) F) : PR sh X F := by
  choose k hk using h
  exact ⟨.add md d k, fun n n' hx => hk _ n _ ⟨n', hx, rfl⟩⟩

theorem PR.destroy (ids : List UInt16)
    (h : ∀ y, PR sh (fun n n'' => ∃ n', X n n' ∧ n'.destroy ids = (y, n'')) F) : PR sh X F := by
  choose k hk using h
  exact ⟨.destroy ids k, fun n n' hx => hk _ n _ ⟨n', hx, rfl⟩⟩

theorem PR.prog {ρ : Type} (p : NP ρ)
    (h : ∀ y, PR sh (fun n n'' => ∃ n', X n n' ∧ p.onMap n' = (y, n'')) F) : PR sh X F := by
  choose k hk using h
  refine ⟨p.bind k, fun n n' hx => ?_⟩
  rw [NP.onMap_bind]
  exact hk _ n _ ⟨n', hx, rfl⟩

theorem PR.query {f : Sys → β} (hq : Query sh f) (r : Ram sh)
    (h : ∀ y, PR sh (fun n n' => X n n' ∧ f (toSys r n') = y) F) : PR sh X F := by
  obtain ⟨p, hp⟩ := hq r
  choose k hk using h
  refine ⟨p.bind k, fun n n' hx => ?_⟩
  rw [NP.onMap_bind, hp]
  exact hk _ n _ ⟨hx, rfl⟩

theorem PR.call {G : Sys → β × Sys} (hG : KP sh G) (r : Ram sh)
    (h : ∀ (a : β) (r' : Ram sh), PR sh (fun n n'' => ∃ n', X n n' ∧ G (toSys r n') = (a, toSys r' n'')) F) :
    PR sh X F := by
  obtain ⟨p, hp⟩ := hG r
  choose k hk using h
  refine ⟨p.bind fun y => k y.1 y.2, fun n n' hx => ?_⟩
  rw [NP.onMap_bind]
  exact hk _ _ n _ ⟨n', hx, hp n' n' rfl⟩

theorem PR.split {P : Prop} (h1 : P → PR sh X F) (h2 : ¬P → PR sh X F) : PR sh X F := by
  by_cases h : P
  · exact h1 h
  · exact h2 h

/-! ## Lookups -/

theorem query_policy (cfg : Cfg) (x : Nat) (op : Op) (id : UInt16) :
    Query sh fun s => policy cfg x s op id := by
  intro r
  refine ⟨.info id fun rc md => .ret (if KeyId.isUnassigned id then .badargs
    else if isHw cfg id then .access
    else match (if isGlobal cfg id then r.1.1 else r.1.2 x).find id with
      | some k => judge op k.md.flags k.committed
      | none =>
        match rc, md with
        | .ok, some md => judge op md.flags false
        | rc, _ => rc), fun n => ?_⟩
  simp only [NP.onMap, policy, toSys, cached, cacheOf]
  split
  · rfl
  · split
    · rfl
    · cases (if isGlobal cfg id = true then r.1.1 else r.1.2 x).find id with
      | some k => rfl
      | none =>
        dsimp only
        rcases n.metadata id with ⟨rc, _ | md⟩ <;> cases rc <;> rfl

/-- The search for a free id as a program. -/
def searchP (c : Cache) (type user : UInt16) : List UInt16 → NP (Rc × UInt16)
  | [] => .ret (.nospace, 0)
  | i :: rest =>
    match c.find (KeyId.make type user i) with
    | some _ => searchP c type user rest
    | none => .info (KeyId.make type user i) fun rc _ =>
      match rc with
      | .notfound => .ret (.ok, KeyId.make type user i)
      | .ok => searchP c type user rest
      | rc => .ret (rc, 0)

theorem searchP_eq (c : Cache) (n : Nvm) (type user : UInt16) (l : List UInt16) :
    (searchP c type user l).onMap n = (searchId c n type user l, n) := by
  induction l with
  | nil => rfl
  | cons i rest ih =>
    simp only [searchP, searchId]
    cases c.find (KeyId.make type user i) with
    | some k => exact ih
    | none =>
      simp only [NP.onMap]
      rcases n.metadata (KeyId.make type user i) with ⟨rc, y⟩
      cases rc <;> first | exact ih | rfl

theorem query_getUniqueId (cfg : Cfg) (x : Nat) (id : UInt16) :
    Query sh fun s => getUniqueId cfg x s id := by
  intro r
  by_cases h1 : (KeyId.typeOf id == KeyId.typeWrapped) = true
  · exact ⟨.ret (.badargs, 0), fun n => by simp only [getUniqueId, if_pos h1]; rfl⟩
  · by_cases h2 : isHw cfg id = true
    · exact ⟨.ret (.badargs, 0), fun n => by simp only [getUniqueId, if_neg h1, if_pos h2]; rfl⟩
    · refine ⟨searchP (if isGlobal cfg id then r.1.1 else r.1.2 x) (KeyId.typeOf id) (KeyId.userOf id)
        candidates, fun n => ?_⟩
      rw [searchP_eq]
      simp only [getUniqueId, if_neg h1, if_neg h2]
      rfl

theorem query_unwrapCounter (md : Meta) : Query sh fun s => unwrapCounter s md := by
  intro r
  refine ⟨.info md.id fun rc st => .ret (if KeyId.typeOf md.id = KeyId.typeShe then
    match rc, st with
    | .ok, some stored => if labelCount md.label < labelCount stored.label then .access else .ok
    | .notfound, _ => .ok
    | rc, _ => rc else .ok), fun n => ?_⟩
  simp only [NP.onMap, unwrapCounter, toSys]
  split
  · rcases n.metadata md.id with ⟨rc, _ | st⟩ <;> cases rc <;> rfl
  · rfl

/-! ## Functions that only touch the caches -/

theorem dims_updFirst (id : UInt16) (f : CKey → Slot) (l : List Slot) :
    (updFirst id f l).length = l.length := by
  induction l with
  | nil => rfl
  | cons a l ih =>
    cases a with
    | none => simp only [updFirst, List.length_cons, ih]
    | some k => simp only [updFirst]; split <;> simp only [List.length_cons, ih]

theorem dims_update (c : Cache) (id : UInt16) (f : CKey → Slot) : (c.update id f).dims = c.dims := by
  unfold Cache.update
  split <;> simp only [Cache.dims, dims_updFirst]

theorem dims_put (c : Cache) (loc : Loc) (k : Slot) : (c.put loc k).dims = c.dims := by
  unfold Cache.put
  split <;> simp only [Cache.dims, List.length_set]

theorem dims_reserve {cfg : Cfg} {c : Cache} {sz : Nat} {y : Loc × Cache}
    (h : reserve cfg c sz = some y) : y.2.dims = c.dims := by
  unfold reserve at h
  split at h
  all_goals
    obtain ⟨i, -, rfl⟩ := Option.map_eq_some_iff.mp h
    exact dims_put _ _ _

/-- The cache for an id. -/
def ramCache (cfg : Cfg) (x : Nat) (r : Ram sh) (id : UInt16) : Cache :=
  if isGlobal cfg id then r.1.1 else r.1.2 x

/-- `setCache` changes the caches only. -/
theorem setCache_ram (cfg : Cfg) (x : Nat) (r : Ram sh) (id : UInt16) (c : Cache)
    (hc : c.dims = (ramCache cfg x r id).dims) :
    ∃ r' : Ram sh, ∀ n, setCache cfg x (toSys r n) id c = toSys r' n := by
  by_cases h : isGlobal cfg id = true
  · rw [ramCache, if_pos h] at hc
    exact ⟨⟨(c, r.1.2), hc.trans r.2.1, r.2.2⟩, fun n => by simp only [setCache, if_pos h]; rfl⟩
  · rw [ramCache, if_neg h] at hc
    refine ⟨⟨(r.1.1, fun y => if y = x then c else r.1.2 y), r.2.1, fun y => ?_⟩, fun n => by
      simp only [setCache, if_neg h]; rfl⟩
    dsimp only
    split
    · rename_i hy; rw [hc, hy]; exact r.2.2 x
    · exact r.2.2 y

theorem cacheOf_ram (cfg : Cfg) (x : Nat) (r : Ram sh) (id : UInt16) (n : Nvm) :
    cacheOf cfg x (toSys r n) id = ramCache cfg x r id := rfl

theorem cached_ram (cfg : Cfg) (x : Nat) (r : Ram sh) (id : UInt16) :
    ∃ k, ∀ n, cached cfg x (toSys r n) id = k :=
  ⟨(ramCache cfg x r id).find id, fun _ => rfl⟩

theorem updCache_ram (cfg : Cfg) (x : Nat) (r : Ram sh) (id : UInt16) (f : Cache → Cache)
    (hf : ∀ c, (f c).dims = c.dims) :
    ∃ r' : Ram sh, ∀ n,
      setCache cfg x (toSys r n) id (f (cacheOf cfg x (toSys r n) id)) = toSys r' n := by
  obtain ⟨r', hr⟩ := setCache_ram cfg x r id (f (ramCache cfg x r id)) (hf _)
  exact ⟨r', fun n => by rw [cacheOf_ram, hr]⟩

theorem fill_ram (cfg : Cfg) (x : Nat) (r : Ram sh) (loc : Loc) (md : Meta) (d : List UInt8) :
    ∃ r' : Ram sh, ∀ n, fill cfg x (toSys r n) loc md d = toSys r' n :=
  updCache_ram cfg x r md.id (fun c => c.put loc (some ⟨md, d, false⟩)) fun _ => dims_put _ _ _

theorem evictKey_ram (cfg : Cfg) (x : Nat) (r : Ram sh) (id : UInt16) :
    ∃ a, ∃ r' : Ram sh, ∀ n, evictKey cfg x (toSys r n) id = (a, toSys r' n) := by
  obtain ⟨k, hk⟩ := cached_ram cfg x r id
  obtain ⟨r', hr⟩ := updCache_ram cfg x r id (fun c => c.evict id)
    fun _ => dims_update _ _ _
  simp only [evictKey, hk, hr]
  split
  · exact ⟨_, _, fun _ => rfl⟩
  · split
    · exact ⟨_, _, fun _ => rfl⟩
    · cases k <;> exact ⟨_, _, fun _ => rfl⟩

theorem reserveIn_ram (cfg : Cfg) (x : Nat) (r : Ram sh) (id : UInt16) (sz : Nat) :
    ∃ a b, ∃ r' : Ram sh, ∀ n, reserveIn cfg x (toSys r n) id sz = (a, b, toSys r' n) := by
  simp only [reserveIn, cacheOf_ram]
  cases hres : reserve cfg (ramCache cfg x r id) sz with
  | none => exact ⟨_, _, _, fun _ => rfl⟩
  | some y =>
    obtain ⟨r', hr⟩ := setCache_ram cfg x r id y.2 (dims_reserve hres)
    exact ⟨.ok, some y.1, r', fun n => by dsimp only; rw [hr]⟩

theorem getSlot_ram (cfg : Cfg) (x : Nat) (r : Ram sh) (id : UInt16) (sz : Nat) :
    ∃ a b, ∃ r' : Ram sh, ∀ n, getSlot cfg x (toSys r n) id sz = (a, b, toSys r' n) := by
  obtain ⟨k, hk⟩ := cached_ram cfg x r id
  obtain ⟨a, r1, he⟩ := evictKey_ram cfg x r id
  simp only [getSlot, hk, he]
  split
  · exact ⟨_, _, _, fun _ => rfl⟩
  · split
    · exact ⟨_, _, _, fun _ => rfl⟩
    · cases k with
      | none => exact reserveIn_ram cfg x r id sz
      | some k =>
        cases a
        case ok => exact reserveIn_ram cfg x r1 id sz
        all_goals exact ⟨_, _, _, fun _ => rfl⟩

/-! ## The functions of the key store -/

/-- Functions with an extra result. -/
abbrev KP3 (sh : Shape) {γ : Type} (G : Sys → β × γ × Sys) : Prop := KP sh fun s => (((G s).1, (G s).2.1), (G s).2.2)

theorem PR.call3 {γ : Type} {G : Sys → β × γ × Sys} (hG : KP3 sh G) (r : Ram sh)
    (h : ∀ (a : β) (b : γ) (r' : Ram sh), PR sh (fun n n'' => ∃ n', X n n' ∧ G (toSys r n') = (a, b, toSys r' n'')) F) :
    PR sh X F := by
  refine PR.call hG r fun a r' => ?_
  obtain ⟨p, hp⟩ := h a.1 a.2 r'
  refine ⟨p, fun n n'' ⟨n', hx, he⟩ => hp n n'' ⟨n', hx, ?_⟩⟩
  simp only [Prod.mk.injEq] at he
  rw [← he.2, ← he.1]

theorem kp_ret (a : α) : KP sh fun s => (a, s) := fun r => .leaf a r fun _ _ h => by rw [h]

theorem kp3_getSlotChecked (cfg : Cfg) (x : Nat) (id : UInt16) (sz : Nat) :
    KP3 sh fun s => getSlotChecked cfg x s id sz := by
  intro r
  refine .query (query_policy cfg x .cache id) r fun y => ?_
  obtain ⟨a, b, r', h⟩ := getSlot_ram cfg x r id sz
  by_cases hy : y = .ok ∨ y = .notfound
  · refine .leaf (a, b) r' ?_
    rintro n n' ⟨rfl, e⟩
    simp only [getSlotChecked, e, if_pos hy, h]
  · refine .leaf (y, none) r ?_
    rintro n n' ⟨rfl, e⟩
    simp only [getSlotChecked, e, if_neg hy]

theorem kp_cacheKey (cfg : Cfg) (x : Nat) (b : Bool) (md : Meta) (d : List UInt8) :
    KP sh fun s => cacheKey cfg x s b md d := by
  intro r
  have fin : ∀ {X : Nvm → Nvm → Prop} {G : Nvm → Rc × Option Loc × Sys} (a : Rc) (l : Option Loc)
      (r' : Ram sh), (∀ n n', X n n' → G n = (a, l, toSys r' n')) →
      PR sh X fun n => match G n with
        | (.ok, some loc, s') => (.ok, fill cfg x s' loc md d)
        | (rc, _, s') => (rc, s') := by
    intro X G a l r' h
    cases l with
    | none => exact .leaf a r' fun n n' hx => by rw [h n n' hx]; cases a <;> rfl
    | some loc =>
      obtain ⟨r2, h2⟩ := fill_ram cfg x r' loc md d
      by_cases ha : a = .ok
      · subst ha
        exact .leaf .ok r2 fun n n' hx => by rw [h n n' hx]; dsimp only; rw [h2]
      · exact .leaf a r' fun n n' hx => by
          rw [h n n' hx]; cases a <;> first | exact absurd rfl ha | rfl
  simp only [cacheKey]
  split
  · exact .leaf _ r fun n n' h => by subst h; rfl
  · split
    · exact .leaf _ r fun n n' h => by subst h; rfl
    · split
      · exact .leaf _ r fun n n' h => by subst h; rfl
      · split
        · exact .leaf _ r fun n n' h => by subst h; rfl
        · cases b with
          | true =>
            refine .call3 (kp3_getSlotChecked cfg x md.id md.len.toNat) r fun a l r' => ?_
            refine fin a l r' ?_
            rintro n n'' ⟨n', rfl, h⟩
            simpa using h
          | false =>
            obtain ⟨a, l, r', h⟩ := getSlot_ram cfg x r md.id md.len.toNat
            refine fin a l r' ?_
            rintro n n' rfl
            simpa using h _

theorem kp3_freshen (cfg : Cfg) (x : Nat) (id : UInt16) : KP3 sh fun s => freshen cfg x s id := by
  intro r
  obtain ⟨k, hk⟩ := cached_ram cfg x r id
  simp only [freshen, hk]
  split
  · exact .leaf (.badargs, none) r fun n n' h => by subst h; rfl
  · split
    · exact .leaf (.access, none) r fun n n' h => by subst h; rfl
    · cases k with
      | some k => exact .leaf (.ok, some k) r fun n n' h => by subst h; rfl
      | none =>
        dsimp only
        split
        · exact .leaf (.notfound, none) r fun n n' h => by subst h; rfl
        · refine .info id fun y => ?_
          obtain ⟨rc, md⟩ := y
          by_cases hy : rc = .ok ∧ md.isSome = true
          · obtain ⟨rfl, hm⟩ := hy
            obtain ⟨md, rfl⟩ := Option.isSome_iff_exists.mp hm
            obtain ⟨a, l, r', hg⟩ := getSlot_ram cfg x r id md.len.toNat
            by_cases ha : a = .ok ∧ l.isSome = true
            · obtain ⟨rfl, hl⟩ := ha
              obtain ⟨loc, rfl⟩ := Option.isSome_iff_exists.mp hl
              refine .read id 0 md.len.toNat fun y => ?_
              obtain ⟨rc, bs⟩ := y
              by_cases hrc : rc = .ok
              · subst hrc
                obtain ⟨r2, h2⟩ := fill_ram cfg x r' loc md bs
                obtain ⟨r3, h3⟩ := updCache_ram cfg x r2 id (fun c => c.mark id true)
                      fun _ => dims_update _ _ _
                refine .leaf (.ok, some ⟨md, bs, true⟩) r3 ?_
                rintro n n'' ⟨n', ⟨rfl, e⟩, e2⟩
                have e' : (toSys r n').nvm.metadata id = (.ok, some md) := e
                have e2' : (toSys r' n').nvm.read id 0 md.len.toNat = ((.ok, bs), n'') := e2
                have h2' : fill cfg x { toSys r' n' with nvm := n'' } loc md bs = toSys r2 n'' := h2 n''
                simp only [e', hg, e2', h2', h3]
              · refine .leaf (rc, none) r' ?_
                rintro n n'' ⟨n', ⟨rfl, e⟩, e2⟩
                have e' : (toSys r n').nvm.metadata id = (.ok, some md) := e
                have e2' : (toSys r' n').nvm.read id 0 md.len.toNat = ((rc, bs), n'') := e2
                simp only [e', hg, e2']
                cases rc <;> first | exact absurd rfl hrc | rfl
            · refine .leaf (a, none) r' ?_
              rintro n n' ⟨rfl, e⟩
              have e' : (toSys r n').nvm.metadata id = (.ok, some md) := e
              simp only [e', hg]
              cases l with
              | none => cases a <;> rfl
              | some l => cases a <;> first | exact absurd ⟨rfl, rfl⟩ ha | rfl
          · refine .leaf (rc, none) r ?_
            rintro n n' ⟨rfl, e⟩
            have e' : (toSys r n').nvm.metadata id = (rc, md) := e
            simp only [e']
            cases md with
            | none => cases rc <;> rfl
            | some md => cases rc <;> first | exact absurd ⟨rfl, rfl⟩ hy | rfl

/-- After a slot has been asked for: fill it, or report the error. -/
theorem kp_slot (cfg : Cfg) (x : Nat) {X : Nvm → Nvm → Prop} {F : Nvm → Rc × Sys} {a : Rc}
    {l : Option Loc} {r : Ram sh} (g : Option (Meta × List UInt8)) (e : Rc)
    (hok : a = .ok → ∀ loc, l = some loc → ∀ n n', X n n' → F n =
      match g with
      | some (md, d) => (.ok, fill cfg x (toSys r n') loc md d)
      | none => (e, toSys r n'))
    (herr : (a = .ok → l = none) → ∀ n n', X n n' → F n = (a, toSys r n')) : PR sh X F := by
  by_cases ha : a = .ok → l = none
  · exact .leaf a r (herr ha)
  · have h1 : a = .ok := by
      by_cases h : a = .ok
      · exact h
      · exact absurd (fun h' => absurd h' h) ha
    cases l with
    | none => exact absurd (fun _ => rfl) ha
    | some loc =>
      cases g with
      | none => exact .leaf e r (hok h1 loc rfl)
      | some y =>
        obtain ⟨r2, h2⟩ := fill_ram cfg x r loc y.1 y.2
        exact .leaf .ok r2 fun n n' hx => by rw [hok h1 loc rfl n n' hx]; dsimp only; rw [h2]

theorem kp_cacheRandomKey (cfg : Cfg) (x : Nat) (md : Meta) (rng : Except Rc (Nat → UInt8)) :
    KP sh fun s => cacheRandomKey cfg x s md rng := by
  intro r
  simp only [cacheRandomKey]
  split
  · exact .leaf _ r fun n n' h => by subst h; rfl
  · split
    · exact .leaf _ r fun n n' h => by subst h; rfl
    · split
      · exact .leaf _ r fun n n' h => by subst h; rfl
      · refine .call3 (kp3_getSlotChecked cfg x md.id md.len.toNat) r fun a l r' => ?_
        cases rng with
        | ok f =>
          refine kp_slot cfg x (r := r') (a := a) (l := l) (some (md, (List.range md.len.toNat).map f)) .ok ?_ ?_
          · rintro rfl loc rfl n n'' ⟨n', rfl, h⟩
            simp only [h]
          · rintro hc n n'' ⟨n', rfl, h⟩
            simp only [h]
            cases l with
            | none => cases a <;> rfl
            | some l => cases a <;> first | (cases hc rfl) | rfl
        | error rc =>
          refine kp_slot cfg x (r := r') (a := a) (l := l) none (errRc rc) ?_ ?_
          · rintro rfl loc rfl n n'' ⟨n', rfl, h⟩
            simp only [h]
          · rintro hc n n'' ⟨n', rfl, h⟩
            simp only [h]
            cases l with
            | none => cases a <;> rfl
            | some l => cases a <;> first | (cases hc rfl) | rfl

theorem kp_cacheKeyDma (cfg : Cfg) (x : Nat) (md : Meta) (dma : Rc) (mem : Nat → UInt8) :
    KP sh fun s => cacheKeyDma cfg x s md dma mem := by
  intro r
  refine .call3 (kp3_getSlotChecked cfg x md.id md.len.toNat) r fun a l r' => ?_
  refine kp_slot cfg x (r := r') (a := a) (l := l)
    (if dma = .ok then if cfg.statefulBlob ((List.range md.len.toNat).map mem) then none
      else some (md, (List.range md.len.toNat).map mem) else none)
    (if dma = .ok then .access else dma) ?_ ?_
  · rintro rfl loc rfl n n'' ⟨n', rfl, h⟩
    simp only [cacheKeyDma, h]
    by_cases hd : dma = .ok
    · simp only [hd, if_true]
      split <;> rfl
    · simp only [hd, if_false]
  · rintro hc n n'' ⟨n', rfl, h⟩
    simp only [cacheKeyDma, h]
    cases l with
    | none => cases a <;> rfl
    | some l => cases a <;> first | (cases hc rfl) | rfl

theorem kp_importKey (cfg : Cfg) (x : Nat) (md : Meta) (cap : UInt16)
    (der : Except Rc (List UInt8)) : KP sh fun s => importKey cfg x s md cap der := by
  intro r
  simp only [importKey]
  split
  · exact .leaf _ r fun n n' h => by subst h; rfl
  · refine .call3 (kp3_getSlotChecked cfg x md.id cap.toNat) r fun a l r' => ?_
    refine kp_slot cfg x (r := r') (a := a) (l := l)
      (match der with
        | .ok d => if d.length > cap.toNat then none else some
          ({ md with flags := md.flags &&& ~~~Nvm.serverOnly, len := UInt16.ofNat d.length }, d)
        | .error _ => none)
      (match der with
        | .ok _ => .bufferSize
        | .error rc => errRc rc) ?_ ?_
    · rintro rfl loc rfl n n'' ⟨n', rfl, h⟩
      simp only [h]
      cases der with
      | error rc => rfl
      | ok d => dsimp only; split <;> rfl
    · rintro hc n n'' ⟨n', rfl, h⟩
      simp only [h]
      cases l with
      | none => cases a <;> rfl
      | some l => cases a <;> first | (cases hc rfl) | rfl

theorem kp_readKey (cfg : Cfg) (x : Nat) (id : UInt16) (outSz : Nat) :
    KP sh fun s => readKey cfg x s id outSz := by
  intro r
  obtain ⟨k, hk⟩ := cached_ram cfg x r id
  simp only [readKey, hk]
  split
  · exact .leaf _ r fun n n' h => by subst h; rfl
  · split
    · exact .leaf _ r fun n n' h => by subst h; rfl
    · cases k with
      | some k =>
        dsimp only
        split <;> exact .leaf _ r fun n n' h => by subst h; rfl
      | none =>
        dsimp only
        split
        · exact .leaf _ r fun n n' h => by subst h; rfl
        · refine .info id fun y => ?_
          obtain ⟨rc, md⟩ := y
          by_cases hy : rc = .ok ∧ md.isSome = true
          · obtain ⟨rfl, hm⟩ := hy
            obtain ⟨md, rfl⟩ := Option.isSome_iff_exists.mp hm
            by_cases hs : md.len.toNat > outSz
            · refine .leaf (.nospace, none) r ?_
              rintro n n' ⟨rfl, e⟩
              have e' : (toSys r n').nvm.metadata id = (.ok, some md) := e
              simp only [e', if_pos hs]
            · refine .read id 0 md.len.toNat fun y => ?_
              obtain ⟨rc, bs⟩ := y
              by_cases hrc : rc = .ok
              · subst hrc
                by_cases ht : KeyId.typeOf md.id = KeyId.typeShe ∧ KeyId.idOf md.id = 0
                · refine .leaf (.ok, some (md, bs)) r ?_
                  rintro n n'' ⟨n', ⟨rfl, e⟩, e2⟩
                  have e' : (toSys r n').nvm.metadata id = (.ok, some md) := e
                  have e2' : (toSys r n').nvm.read id 0 md.len.toNat = ((.ok, bs), n'') := e2
                  simp only [e', if_neg hs, e2', if_pos ht]
                  rfl
                · refine .call (kp_cacheKey cfg x false md bs) r fun a r' => ?_
                  by_cases ha : a = .ok
                  · subst ha
                    obtain ⟨r3, h3⟩ := updCache_ram cfg x r' id (fun c => c.mark id true)
                      fun _ => dims_update _ _ _
                    refine .leaf (.ok, some (md, bs)) r3 ?_
                    rintro n n3 ⟨n'', ⟨n', ⟨rfl, e⟩, e2⟩, e3⟩
                    have e' : (toSys r n').nvm.metadata id = (.ok, some md) := e
                    have e2' : (toSys r n').nvm.read id 0 md.len.toNat = ((.ok, bs), n'') := e2
                    have e3' : cacheKey cfg x { toSys r n' with nvm := n'' } false md bs =
                      (.ok, toSys r' n3) := e3
                    simp only [e', if_neg hs, e2', if_neg ht, e3', h3]
                  · refine .leaf (.ok, some (md, bs)) r' ?_
                    rintro n n3 ⟨n'', ⟨n', ⟨rfl, e⟩, e2⟩, e3⟩
                    have e' : (toSys r n').nvm.metadata id = (.ok, some md) := e
                    have e2' : (toSys r n').nvm.read id 0 md.len.toNat = ((.ok, bs), n'') := e2
                    have e3' : cacheKey cfg x { toSys r n' with nvm := n'' } false md bs =
                      (a, toSys r' n3) := e3
                    simp only [e', if_neg hs, e2', if_neg ht, e3']
              · refine .leaf (sheFallback cfg id rc) r ?_
                rintro n n'' ⟨n', ⟨rfl, e⟩, e2⟩
                have e' : (toSys r n').nvm.metadata id = (.ok, some md) := e
                have e2' : (toSys r n').nvm.read id 0 md.len.toNat = ((rc, bs), n'') := e2
                simp only [e', if_neg hs, e2']
                cases rc <;> first | exact absurd rfl hrc | rfl
          · refine .leaf (sheFallback cfg id rc) r ?_
            rintro n n' ⟨rfl, e⟩
            have e' : (toSys r n').nvm.metadata id = (rc, md) := e
            simp only [e']
            cases md with
            | none => cases rc <;> rfl
            | some md => cases rc <;> first | exact absurd ⟨rfl, rfl⟩ hy | rfl

/-- A function behind a policy check. -/
theorem kp_guard {cfg : Cfg} {x : Nat} {op : Op} {id : UInt16} {G H : Sys → α × Sys} {e : Rc → α}
    (hG : KP sh G) (hok : ∀ s, policy cfg x s op id = .ok → H s = G s)
    (herr : ∀ s, policy cfg x s op id ≠ .ok → H s = (e (policy cfg x s op id), s)) : KP sh H := by
  intro r
  refine .query (query_policy cfg x op id) r fun y => ?_
  by_cases hy : y = .ok
  · refine .call hG r fun a r' => .leaf a r' ?_
    rintro n n'' ⟨n', ⟨rfl, e1⟩, e2⟩
    rw [hok _ (e1.trans hy)]
    exact e2
  · refine .leaf (e y) r ?_
    rintro n n' ⟨rfl, e1⟩
    have h := herr (toSys r n') (by rw [e1]; exact hy)
    rw [h, e1]

theorem kp_readKeyChecked (cfg : Cfg) (x : Nat) (id : UInt16) (outSz : Nat) :
    KP sh fun s => readKeyChecked cfg x s id outSz := by
  refine kp_guard (cfg := cfg) (x := x) (op := .exportKey) (id := id) (e := fun rc => (rc, none))
    (kp_readKey cfg x id outSz) ?_ ?_
  · intro s h; simp only [readKeyChecked, h]
  · intro s h; simp only [readKeyChecked]

theorem kp_evictKey (cfg : Cfg) (x : Nat) (id : UInt16) : KP sh fun s => evictKey cfg x s id := by
  intro r
  obtain ⟨a, r', h⟩ := evictKey_ram cfg x r id
  exact .leaf a r' fun n n' hx => by subst hx; exact h _

theorem kp_evictKeyChecked (cfg : Cfg) (x : Nat) (id : UInt16) :
    KP sh fun s => evictKeyChecked cfg x s id := by
  refine kp_guard (cfg := cfg) (x := x) (op := .evict) (id := id) (e := fun rc => rc)
    (kp_evictKey cfg x id) ?_ ?_
  · intro s h; simp only [evictKeyChecked, h]
  · intro s h; simp only [evictKeyChecked]

theorem kp_commitKey (cfg : Cfg) (x : Nat) (id : UInt16) : KP sh fun s => commitKey cfg x s id := by
  intro r
  obtain ⟨k, hk⟩ := cached_ram cfg x r id
  simp only [commitKey, hk]
  split
  · exact .leaf _ r fun n n' h => by subst h; rfl
  · split
    · exact .leaf _ r fun n n' h => by subst h; rfl
    · split
      · exact .leaf _ r fun n n' h => by subst h; rfl
      · cases k with
        | none => exact .leaf _ r fun n n' h => by subst h; rfl
        | some k =>
          refine .addReclaim k.md k.data fun y => ?_
          by_cases hy : y = .ok
          · subst hy
            obtain ⟨r3, h3⟩ := updCache_ram cfg x r id (fun c => c.mark id true)
                      fun _ => dims_update _ _ _
            refine .leaf .ok r3 ?_
            rintro n n'' ⟨n', rfl, e⟩
            have e' : (toSys r n').nvm.addWithReclaim k.md k.data = (.ok, n'') := e
            simp only [e']
            exact congrArg _ (h3 n'')
          · refine .leaf y r ?_
            rintro n n'' ⟨n', rfl, e⟩
            have e' : (toSys r n').nvm.addWithReclaim k.md k.data = (y, n'') := e
            simp only [e']
            cases y <;> first | exact absurd rfl hy | rfl

theorem kp_commitKeyChecked (cfg : Cfg) (x : Nat) (id : UInt16) :
    KP sh fun s => commitKeyChecked cfg x s id := by
  refine kp_guard (cfg := cfg) (x := x) (op := .commit) (id := id) (e := fun rc => rc)
    (kp_commitKey cfg x id) ?_ ?_
  · intro s h; simp only [commitKeyChecked, h]
  · intro s h; simp only [commitKeyChecked]

theorem kp_eraseKeyChecked (cfg : Cfg) (x : Nat) (id : UInt16) :
    KP sh fun s => eraseKeyChecked cfg x s id := by
  intro r
  simp only [eraseKeyChecked]
  split
  · exact .leaf _ r fun n n' h => by subst h; rfl
  · split
    · exact .leaf _ r fun n n' h => by subst h; rfl
    · split
      · exact .leaf _ r fun n n' h => by subst h; rfl
      · refine .call (kp_evictKeyChecked cfg x id) r fun a r' => ?_
        by_cases ha : a = .ok ∨ a = .notfound
        · refine .prog (NvmServer.destroyP [id] [id]) fun y => ?_
          refine .leaf y r' ?_
          rintro n n3 ⟨n'', ⟨n', rfl, e⟩, e2⟩
          rw [NvmServer.destroyP_eq, ← NvmServer.destroyChecked_eq] at e2
          have e2' : (toSys r' n'').nvm.destroyChecked [id] = (y, n3) := e2
          simp only [e, if_pos ha, e2']
          rfl
        · refine .leaf a r' ?_
          rintro n n'' ⟨n', rfl, e⟩
          simp only [e, if_neg ha]

theorem kp_revokeGo (cfg : Cfg) (x : Nat) (id : UInt16) (b : Bool) :
    KP sh fun s => revokeKey.go cfg x s id b := by
  intro r
  refine .call3 (kp3_freshen cfg x id) r fun a k r' => ?_
  by_cases ha : a = .ok ∧ k.isSome = true
  · obtain ⟨rfl, hk⟩ := ha
    obtain ⟨k, rfl⟩ := Option.isSome_iff_exists.mp hk
    by_cases hr : (isRevoked k.md && k.committed) = true
    · refine .leaf .ok r' ?_
      rintro n n'' ⟨n', rfl, e⟩
      simp only [revokeKey.go, e, if_pos hr]
    · obtain ⟨r2, h2⟩ := updCache_ram cfg x r' id
        (fun c => c.update id fun k => some { k with md := revokeMeta k.md })
        fun _ => dims_update _ _ _
      cases b with
      | false =>
        refine .leaf .ok r2 ?_
        rintro n n'' ⟨n', rfl, e⟩
        simp only [revokeKey.go, e, if_neg hr, h2, Bool.false_eq_true, if_false]
      | true =>
        refine .addReclaim (revokeMeta k.md) k.data fun y => ?_
        by_cases hy : y = .ok
        · subst hy
          obtain ⟨r3, h3⟩ := updCache_ram cfg x r2 id (fun c => c.mark id true)
                      fun _ => dims_update _ _ _
          refine .leaf .ok r3 ?_
          rintro n n3 ⟨n'', ⟨n', rfl, e⟩, e2⟩
          have e2' : (toSys r2 n'').nvm.addWithReclaim (revokeMeta k.md) k.data = (.ok, n3) := e2
          simp only [revokeKey.go, e, if_neg hr, h2, if_true, e2']
          exact congrArg _ (h3 n3)
        · refine .leaf y r2 ?_
          rintro n n3 ⟨n'', ⟨n', rfl, e⟩, e2⟩
          have e2' : (toSys r2 n'').nvm.addWithReclaim (revokeMeta k.md) k.data = (y, n3) := e2
          simp only [revokeKey.go, e, if_neg hr, h2, if_true, e2']
          cases y <;> first | exact absurd rfl hy | rfl
  · refine .leaf a r' ?_
    rintro n n'' ⟨n', rfl, e⟩
    simp only [revokeKey.go, e]
    cases k with
    | none => cases a <;> rfl
    | some k => cases a <;> first | exact absurd ⟨rfl, rfl⟩ ha | rfl

theorem kp_revokeKey (cfg : Cfg) (x : Nat) (id : UInt16) : KP sh fun s => revokeKey cfg x s id := by
  by_cases hu : KeyId.isUnassigned id = true
  · intro r
    exact .leaf .badargs r fun n n' h => by subst h; simp only [revokeKey, if_pos hu]
  · refine kp_guard (cfg := cfg) (x := x) (op := .revoke) (id := id) (e := fun rc => rc)
      (G := fun s => match s.nvm.metadata id with
        | (.ok, _) => revokeKey.go cfg x s id true
        | (.notfound, _) => revokeKey.go cfg x s id false
        | (rc, _) => (rc, s)) ?_ ?_ ?_
    · intro r
      refine .info id fun y => ?_
      obtain ⟨rc, md⟩ := y
      by_cases h1 : rc = .ok
      · subst h1
        refine .call (kp_revokeGo cfg x id true) r fun a r' => .leaf a r' ?_
        rintro n n'' ⟨n', ⟨rfl, e⟩, e2⟩
        have e' : (toSys r n').nvm.metadata id = (.ok, md) := e
        simp only [e', e2]
      · by_cases h2 : rc = .notfound
        · subst h2
          refine .call (kp_revokeGo cfg x id false) r fun a r' => .leaf a r' ?_
          rintro n n'' ⟨n', ⟨rfl, e⟩, e2⟩
          have e' : (toSys r n').nvm.metadata id = (.notfound, md) := e
          simp only [e', e2]
        · refine .leaf rc r ?_
          rintro n n' ⟨rfl, e⟩
          have e' : (toSys r n').nvm.metadata id = (rc, md) := e
          simp only [e']
    · intro s h; simp only [revokeKey, if_neg hu, h]; rfl
    · intro s h; simp only [revokeKey, if_neg hu]

/-- A function that goes on without touching anything. -/
theorem kp_map {G : Sys → β × Sys} {H : Sys → α × Sys} (f : β → α) (hG : KP sh G)
    (h : ∀ s a s', G s = (a, s') → H s = (f a, s')) : KP sh H := by
  intro r
  refine .call hG r fun a r' => .leaf (f a) r' ?_
  rintro n n'' ⟨n', rfl, e⟩
  exact h _ _ _ e

theorem kp_map3 {γ : Type} {G : Sys → β × γ × Sys} {H : Sys → α × Sys} (f : β → γ → α) (hG : KP3 sh G)
    (h : ∀ s a b s', G s = (a, b, s') → H s = (f a b, s')) : KP sh H := by
  intro r
  refine .call3 hG r fun a b r' => .leaf (f a b) r' ?_
  rintro n n'' ⟨n', rfl, e⟩
  exact h _ _ _ _ e

theorem kp_resolveKek (cfg : Cfg) (x : Nat) (id : UInt16) (t : Bool) :
    KP sh fun s => resolveKek cfg x s id t := by
  by_cases hh : isHw cfg id = true
  · intro r
    exact .leaf (cfg.hwKey id) r fun n n' h => by subst h; simp only [resolveKek, if_pos hh]
  · refine kp_map3 (fun a k => match a, k with
      | .ok, some k => match enforceUsage k.md.flags Flag.usageWrap with
        | .ok => if t && !hasFlag k.md.flags Flag.trusted then (.access, []) else (.ok, k.data)
        | rc => (rc, [])
      | rc, _ => (rc, [])) (kp3_freshen cfg x id) ?_
    intro s a k s' e
    simp only [resolveKek, if_neg hh, e]
    cases k with
    | none => cases a <;> rfl
    | some k =>
      cases a <;> try rfl
      dsimp only
      cases enforceUsage k.md.flags Flag.usageWrap <;> try rfl
      dsimp only
      split <;> rfl

theorem kp_handleWrap (cfg : Cfg) (v : Srv) (kekId : UInt16) (md : Meta) (key : List UInt8)
    (iv : Except Rc (List UInt8)) : KP sh fun s => handleWrap cfg v s kekId md key iv := by
  simp only [handleWrap]
  split
  · exact kp_ret _
  · split
    · exact kp_ret _
    · split
      · exact kp_ret _
      · refine kp_map (fun a => match a with
          | (.ok, kek) => sealBlob cfg kek true iv (md.ser ++ key)
          | (rc, _) => (rc, [])) (kp_resolveKek cfg v.ctx
          (KeyId.fromClient cfg.ids KeyId.typeCrypto v.client kekId) false) ?_
        rintro s ⟨rc, kek⟩ s' e
        simp only [e]
        cases rc <;> rfl

theorem kp_handleWrapExport (cfg : Cfg) (v : Srv) (gcm : Bool) (kekId keyType keyId : UInt16)
    (iv : Except Rc (List UInt8)) : KP sh fun s => handleWrapExport cfg v s gcm kekId keyType keyId iv := by
  simp only [handleWrapExport]
  cases wrapTarget cfg v.client keyType keyId with
  | none => exact kp_ret _
  | some t =>
    intro r
    refine .call (kp_readKeyChecked cfg v.ctx t cfg.maxWrapKey) r fun a r' => ?_
    obtain ⟨rc, o⟩ := a
    by_cases ha : rc = .ok ∧ o.isSome = true
    · obtain ⟨rfl, ho⟩ := ha
      obtain ⟨⟨md, key⟩, rfl⟩ := Option.isSome_iff_exists.mp ho
      by_cases hs : gcm = false ∨ cfg.commLen - 8 < 60 + key.length
      · refine .leaf (if gcm then .bufferSize else .badargs, []) r' ?_
        rintro n n'' ⟨n', rfl, e⟩
        simp only [e, if_pos hs]
      · refine .call (kp_resolveKek cfg v.ctx
          (KeyId.fromClient cfg.ids KeyId.typeCrypto v.client kekId) true) r' fun b r2 => ?_
        obtain ⟨rc, kek⟩ := b
        refine .leaf (match rc, kek with
          | .ok, kek => sealBlob cfg kek true iv ((wrapMeta md).ser ++ key)
          | rc, _ => (rc, [])) r2 ?_
        rintro n n3 ⟨n'', ⟨n', rfl, e⟩, e2⟩
        simp only [e, if_neg hs, e2]
        cases rc <;> rfl
    · refine .leaf (rc, []) r' ?_
      rintro n n'' ⟨n', rfl, e⟩
      simp only [e]
      cases o with
      | none => cases rc <;> rfl
      | some y => cases rc <;> first | exact absurd ⟨rfl, rfl⟩ ha | rfl

theorem kp_unwrapKey (cfg : Cfg) (v : Srv) (kekId : UInt16) (t : Bool) (blob : List UInt8) :
    KP sh fun s => unwrapKey cfg v s kekId t blob := by
  refine kp_map (fun a => match a with
    | (.ok, kek) => if blob.length - 60 > cfg.maxWrapKey then (.badargs, none)
      else match openBlob cfg kek true blob with
        | (.ok, pt) => (.ok, some (Meta.deser (pt.take 32), (pt.drop 32).take (blob.length - 60)))
        | (rc, _) => (rc, none)
    | (rc, _) => (rc, none)) (kp_resolveKek cfg v.ctx
      (KeyId.fromClient cfg.ids KeyId.typeCrypto v.client kekId) t) ?_
  rintro s ⟨rc, kek⟩ s' e
  simp only [unwrapKey, e]
  cases rc <;> try rfl
  dsimp only
  split
  · rfl
  · rcases openBlob cfg kek true blob with ⟨rc, pt⟩
    cases rc <;> rfl

theorem kp_handleUnwrapExport (cfg : Cfg) (v : Srv) (kekId : UInt16) (blob : List UInt8) :
    KP sh fun s => handleUnwrapExport cfg v s kekId blob := by
  simp only [handleUnwrapExport]
  split
  · exact kp_ret _
  · split
    · exact kp_ret _
    · refine kp_map (fun a => match a with
        | (.ok, some (md, key)) =>
          if KeyId.isUnassigned md.id then (.badargs, none)
          else if KeyId.typeOf md.id ≠ KeyId.typeWrapped then (.aborted, none)
          else if hasFlag md.flags Flag.nonExportable then (.access, none)
          else if !ownerOk cfg v.client (KeyId.userOf md.id) then (.access, none)
          else (.ok, some (md, key))
        | (rc, _) => (rc, none)) (kp_unwrapKey cfg v kekId false blob) ?_
      rintro s ⟨rc, o⟩ s' e
      simp only [e]
      cases o with
      | none => cases rc <;> rfl
      | some y =>
        cases rc <;> try rfl
        dsimp only
        split
        · rfl
        · split
          · rfl
          · split
            · rfl
            · split <;> rfl

theorem query_unwrapAccept (cfg : Cfg) (v : Srv) (md : Meta) (key : List UInt8) :
    Query sh fun s => unwrapAccept cfg v s md key := by
  intro r
  have hc : ∀ id n, cached cfg v.ctx (toSys r n) id = (if isGlobal cfg id then r.1.1 else r.1.2 v.ctx).find id :=
    fun _ _ => rfl
  simp only [unwrapAccept, hc]
  split
  · exact ⟨.ret _, fun n => rfl⟩
  · split
    · exact ⟨.ret _, fun n => rfl⟩
    · split
      · exact ⟨.ret _, fun n => rfl⟩
      · split
        · exact ⟨.ret _, fun n => rfl⟩
        · cases unwrapSheId cfg md.id with
          | none => exact ⟨.ret _, fun n => rfl⟩
          | some id =>
            dsimp only
            by_cases hf : ((if isGlobal cfg id then r.1.1 else r.1.2 v.ctx).find id).isSome = true
            · exact ⟨.ret (.error (.aborted, 0)), fun n => by simp only [if_pos hf]; rfl⟩
            · simp only [if_neg hf]
              obtain ⟨p, hp⟩ := query_unwrapCounter { md with id := id } r
              refine ⟨p.bind fun rc => .ret (match rc with
                | .ok => if cfg.statefulBlob key then .error (.access, KeyId.toClient cfg.ids id)
                  else .ok { md with id := id, flags := md.flags &&& ~~~Nvm.serverOnly }
                | rc => .error (rc, 0)), fun n => ?_⟩
              rw [NP.onMap_bind, hp]
              rfl

theorem kp_handleUnwrapCache (cfg : Cfg) (v : Srv) (kekId : UInt16) (blob : List UInt8) :
    KP sh fun s => handleUnwrapCache cfg v s kekId blob := by
  simp only [handleUnwrapCache]
  split
  · exact kp_ret _
  · intro r
    refine .call (kp_unwrapKey cfg v kekId true blob) r fun a r' => ?_
    obtain ⟨rc, o⟩ := a
    by_cases ha : rc = .ok ∧ o.isSome = true
    · obtain ⟨rfl, ho⟩ := ha
      obtain ⟨⟨md, key⟩, rfl⟩ := Option.isSome_iff_exists.mp ho
      refine .query (query_unwrapAccept cfg v md key) r' fun y => ?_
      cases y with
      | error e0 =>
        refine .leaf e0 r' ?_
        rintro n n'' ⟨⟨n', rfl, e⟩, e2⟩
        simp only [e, e2]
      | ok md' =>
        refine .call (kp_cacheKey cfg v.ctx false md' key) r' fun b r2 => ?_
        refine .leaf (b, KeyId.toClient cfg.ids md'.id) r2 ?_
        rintro n n3 ⟨n'', ⟨⟨n', rfl, e⟩, e2⟩, e3⟩
        simp only [e, e2, e3]
    · refine .leaf (rc, 0) r' ?_
      rintro n n'' ⟨n', rfl, e⟩
      simp only [e]
      cases o with
      | none => cases rc <;> rfl
      | some y => cases rc <;> first | exact absurd ⟨rfl, rfl⟩ ha | rfl

theorem kp_handleDataWrap (cfg : Cfg) (v : Srv) (kekId : UInt16) (data : List UInt8)
    (iv : Except Rc (List UInt8)) : KP sh fun s => handleDataWrap cfg v s kekId data iv := by
  simp only [handleDataWrap]
  split
  · exact kp_ret _
  · split
    · exact kp_ret _
    · refine kp_map (fun a => match a with
        | (.ok, kek) => sealBlob cfg kek false iv data
        | (rc, _) => (rc, [])) (kp_resolveKek cfg v.ctx
          (KeyId.fromClient cfg.ids KeyId.typeCrypto v.client kekId) false) ?_
      rintro s ⟨rc, kek⟩ s' e
      simp only [e]
      cases rc <;> rfl

theorem kp_handleDataUnwrap (cfg : Cfg) (v : Srv) (kekId : UInt16) (blob : List UInt8) :
    KP sh fun s => handleDataUnwrap cfg v s kekId blob := by
  simp only [handleDataUnwrap]
  split
  · exact kp_ret _
  · split
    · exact kp_ret _
    · refine kp_map (fun a => match a with
        | (.ok, kek) => if blob.length - 28 > cfg.maxWrapData then (.badargs, [])
          else openBlob cfg kek false blob
        | (rc, _) => (rc, [])) (kp_resolveKek cfg v.ctx
          (KeyId.fromClient cfg.ids KeyId.typeCrypto v.client kekId) false) ?_
      rintro s ⟨rc, kek⟩ s' e
      simp only [e]
      cases rc <;> try rfl
      dsimp only
      split <;> rfl

/-- Taking a fresh id first. -/
theorem kp_withId (cfg : Cfg) (x : Nat) (b : Bool) (md : Meta) (k : Sys → Meta → Rc × Sys)
    (hk : ∀ md, KP sh fun s => k s md) : KP sh fun s => withId cfg x s b md (k s) := by
  cases b with
  | false =>
    exact kp_map (fun a => (a, if a = .ok then KeyId.toClient cfg.ids md.id else 0)) (hk md)
      fun s a s' e => by simp only [withId, Bool.false_eq_true, if_false, e]
  | true =>
    intro r
    refine .query (query_getUniqueId cfg x md.id) r fun y => ?_
    obtain ⟨rc, id⟩ := y
    by_cases hrc : rc = .ok
    · subst hrc
      refine .call (hk { md with id := id }) r fun a r' => ?_
      refine .leaf (a, if a = .ok then KeyId.toClient cfg.ids id else 0) r' ?_
      rintro n n'' ⟨n', ⟨rfl, e⟩, e2⟩
      simp only [withId, if_true, e, e2]
    · refine .leaf (rc, 0) r ?_
      rintro n n' ⟨rfl, e⟩
      simp only [withId, if_true, e]

theorem kp_handleCache (cfg : Cfg) (v : Srv) (id flags : UInt16) (label : Vector UInt8 24)
    (key : List UInt8) : KP sh fun s => handleCache cfg v s id flags label key := by
  simp only [handleCache]
  split
  · exact kp_ret _
  · exact kp_withId cfg v.ctx _ _ (fun s md => cacheKey cfg v.ctx s true md key)
      fun md => kp_cacheKey cfg v.ctx true md key

theorem kp_handleCacheRandom (cfg : Cfg) (v : Srv) (id flags : UInt16) (label : Vector UInt8 24)
    (sz : UInt16) (rng : Except Rc (Nat → UInt8)) :
    KP sh fun s => handleCacheRandom cfg v s id flags label sz rng :=
  kp_withId cfg v.ctx _ _ (fun s md => cacheRandomKey cfg v.ctx s md rng)
    fun md => kp_cacheRandomKey cfg v.ctx md rng

theorem kp_handleCacheDma (cfg : Cfg) (v : Srv) (id flags : UInt16) (label : Vector UInt8 24)
    (sz : UInt64) (dma : Rc) (mem : Nat → UInt8) :
    KP sh fun s => handleCacheDma cfg v s id flags label sz dma mem :=
  kp_withId cfg v.ctx _ _ (fun s md => cacheKeyDma cfg v.ctx s md dma mem)
    fun md => kp_cacheKeyDma cfg v.ctx md dma mem

theorem kp_handleImport (cfg : Cfg) (v : Srv) (id flags : UInt16) (label : Vector UInt8 24)
    (cap : UInt16) (der : Except Rc (List UInt8)) :
    KP sh fun s => handleImport cfg v s id flags label cap der :=
  kp_withId cfg v.ctx _ _ (fun s md => importKey cfg v.ctx s md cap der)
    fun md => kp_importKey cfg v.ctx md cap der

theorem kp_exportKeyDma (cfg : Cfg) (x : Nat) (id : UInt16) (sz : UInt64) (dma : Nat → Rc) :
    KP sh fun s => exportKeyDma cfg x s id sz dma := by
  refine kp_guard (cfg := cfg) (x := x) (op := .exportKey) (id := id) (e := fun rc => (rc, none))
    (G := fun s => match freshen cfg x s id with
      | (.ok, some k, s') =>
        if sz.toNat < k.md.len.toNat then ((.nospace, none), s')
        else if dma k.md.len.toNat = .ok then ((.ok, some (k.md, k.data)), s')
        else ((dma k.md.len.toNat, none), s')
      | (rc, _, s') => ((rc, none), s')) ?_ ?_ ?_
  · refine kp_map3 (fun a k => match a, k with
      | .ok, some k => if sz.toNat < k.md.len.toNat then (.nospace, none)
        else if dma k.md.len.toNat = .ok then (.ok, some (k.md, k.data)) else (dma k.md.len.toNat, none)
      | rc, _ => (rc, none)) (kp3_freshen cfg x id) ?_
    intro s a k s' e
    simp only [e]
    cases k with
    | none => cases a <;> rfl
    | some k =>
      cases a <;> try rfl
      dsimp only
      split
      · rfl
      · split <;> rfl
  · intro s h; simp only [exportKeyDma, h]; rfl
  · intro s h; simp only [exportKeyDma]

theorem kp_handleExportPublic (cfg : Cfg) (x : Nat) (id algo : UInt16) :
    KP sh fun s => handleExportPublic cfg x s id algo := by
  refine kp_guard (cfg := cfg) (x := x) (op := .exportPublic) (id := id) (e := fun rc => (rc, []))
    (G := fun s => match freshen cfg x s id with
      | (.ok, some k, s') => (cfg.publicOf algo k.data, s')
      | (rc, _, s') => ((rc, []), s')) ?_ ?_ ?_
  · refine kp_map3 (fun a k => match a, k with
      | .ok, some k => cfg.publicOf algo k.data
      | rc, _ => (rc, [])) (kp3_freshen cfg x id) ?_
    intro s a k s' e
    simp only [e]
    cases k with
    | none => cases a <;> rfl
    | some k => cases a <;> rfl
  · intro s h; simp only [handleExportPublic, h]; rfl
  · intro s h; simp only [handleExportPublic]

theorem kp_useKey (cfg : Cfg) (x : Nat) (id required : UInt16) (outSz : Nat) :
    KP sh fun s => readKeyEnforce cfg x s .ok id required outSz := by
  refine kp_map (fun a => match a with
    | (.ok, some (md, bs)) =>
      match enforceUsage md.flags required with
      | .ok => (.ok, some bs)
      | rc => (rc, some (List.replicate bs.length 0))
    | (rc, _) => (rc, none)) (kp_readKey cfg x id outSz) ?_
  rintro s ⟨rc, o⟩ s' e
  simp only [readKeyEnforce, e]
  cases o with
  | none => cases rc <;> rfl
  | some y =>
    cases rc <;> try rfl
    dsimp only
    cases enforceUsage y.1.flags required <;> rfl

theorem kp_loadKey (cfg : Cfg) (x : Nat) (id required : UInt16) :
    KP sh fun s => loadKey cfg x s id required := by
  refine kp_map3 (fun a k => match a, k with
    | .ok, some k =>
      match enforceUsage k.md.flags required with
      | .ok => (.ok, some k.data)
      | rc => (rc, none)
    | rc, _ => (rc, none)) (kp3_freshen cfg x id) ?_
  intro s a k s' e
  simp only [loadKey, e]
  cases k with
  | none => cases a <;> rfl
  | some k =>
    cases a <;> try rfl
    dsimp only
    cases enforceUsage k.md.flags required <;> rfl

theorem kp_act (cfg : Cfg) (v : Srv) (q : Req) : KP sh fun s => act cfg v s q := by
  cases q with
  | malformed => exact kp_ret _
  | evictOption id =>
    simp only [act]
    by_cases h : KeyId.isErased (KeyId.fromClient cfg.ids KeyId.typeCrypto v.client id) = true
    · simp only [if_pos h]; exact kp_ret _
    · simp only [if_neg h]
      exact kp_map (fun a => .code a) (kp_evictKey cfg v.ctx
      (KeyId.fromClient cfg.ids KeyId.typeCrypto v.client id)) fun s a s' e => by simp only [e]
  | cache id flags label key =>
    exact kp_map (fun a => .keyId a.1 a.2) (kp_handleCache cfg v id flags label key)
      fun s a s' e => by simp only [act, e]
  | cacheRandom id flags label sz rng =>
    exact kp_map (fun a => .keyId a.1 a.2) (kp_handleCacheRandom cfg v id flags label sz rng)
      fun s a s' e => by simp only [act, e]
  | cacheDma id flags label sz dma mem =>
    exact kp_map (fun a => .keyId a.1 a.2) (kp_handleCacheDma cfg v id flags label sz dma mem)
      fun s a s' e => by simp only [act, e]
  | exportKey id =>
    exact kp_map keyResp (kp_readKeyChecked cfg v.ctx
      (KeyId.fromClient cfg.ids KeyId.typeCrypto v.client id) (cfg.commLen - 36)) fun s a s' e => by simp only [act, e]
  | exportDma id sz dma =>
    exact kp_map keyResp (kp_exportKeyDma cfg v.ctx
      (KeyId.fromClient cfg.ids KeyId.typeCrypto v.client id) sz dma) fun s a s' e => by simp only [act, e]
  | exportPublic id algo =>
    exact kp_map (fun a => .pubKey a.1 a.2) (kp_handleExportPublic cfg v.ctx
      (KeyId.fromClient cfg.ids KeyId.typeCrypto v.client id) algo)
      fun s a s' e => by simp only [act, e]
  | evict id =>
    exact kp_map (fun a => .code a) (kp_evictKeyChecked cfg v.ctx
      (KeyId.fromClient cfg.ids KeyId.typeCrypto v.client id))
      fun s a s' e => by simp only [act, e]
  | commit id =>
    exact kp_map (fun a => .code a) (kp_commitKeyChecked cfg v.ctx
      (KeyId.fromClient cfg.ids KeyId.typeCrypto v.client id))
      fun s a s' e => by simp only [act, e]
  | erase id =>
    exact kp_map (fun a => .code a) (kp_eraseKeyChecked cfg v.ctx
      (KeyId.fromClient cfg.ids KeyId.typeCrypto v.client id))
      fun s a s' e => by simp only [act, e]
  | revoke id =>
    exact kp_map (fun a => .code a) (kp_revokeKey cfg v.ctx
      (KeyId.fromClient cfg.ids KeyId.typeCrypto v.client id))
      fun s a s' e => by simp only [act, e]
  | wrap kekId md key iv =>
    exact kp_map (fun a => .wrapped a.1 a.2) (kp_handleWrap cfg v kekId md key iv)
      fun s a s' e => by simp only [act, e]
  | wrapExport gcm kekId keyType keyId iv =>
    exact kp_map (fun a => .wrapped a.1 a.2) (kp_handleWrapExport cfg v gcm kekId keyType keyId iv)
      fun s a s' e => by simp only [act, e]
  | unwrapExport kekId blob =>
    exact kp_map (fun a => .unwrapped a.1 a.2) (kp_handleUnwrapExport cfg v kekId blob)
      fun s a s' e => by simp only [act, e]
  | unwrapCache kekId blob =>
    exact kp_map (fun a => .keyId a.1 a.2) (kp_handleUnwrapCache cfg v kekId blob)
      fun s a s' e => by simp only [act, e]
  | dataWrap kekId data iv =>
    exact kp_map (fun a => .wrapped a.1 a.2) (kp_handleDataWrap cfg v kekId data iv)
      fun s a s' e => by simp only [act, e]
  | dataUnwrap kekId blob =>
    exact kp_map (fun a => .data a.1 a.2) (kp_handleDataUnwrap cfg v kekId blob)
      fun s a s' e => by simp only [act, e]
  | useKey id required outSz =>
    exact kp_map (fun a => .usable a.1 a.2) (kp_useKey cfg v.ctx
      (KeyId.fromClient cfg.ids KeyId.typeCrypto v.client id) required outSz)
      fun s a s' e => by simp only [act, e]
  | loadKey id required =>
    exact kp_map (fun a => .usable a.1 a.2) (kp_loadKey cfg v.ctx
      (KeyId.fromClient cfg.ids KeyId.typeCrypto v.client id) required)
      fun s a s' e => by simp only [act, e]
  | importKey id flags label cap der =>
    exact kp_map (fun a => .keyId a.1 a.2) (kp_handleImport cfg v id flags label cap der)
      fun s a s' e => by simp only [act, e]

/-- The key request handler is a program over the NVM API. -/
theorem kp_handle (cfg : Cfg) (v : Srv) (lock : Rc) (q : Req) : KP sh fun s => handle cfg v s lock q := by
  by_cases h : q = .malformed
  · subst h; exact kp_ret _
  · by_cases hl : lock = .ok
    · subst hl
      have : (fun s => handle cfg v s .ok q) = fun s => act cfg v s q := by
        funext s; cases q <;> first | exact absurd rfl h | rfl
      rw [this]; exact kp_act cfg v q
    · have : (fun s => handle cfg v s lock q) = fun s => (.code lock, s) := by
        funext s; cases lock <;> first | exact absurd rfl hl | (cases q <;> first | exact absurd rfl h | rfl)
      rw [this]; exact kp_ret _

end WolfHsm.Keystore

namespace WolfHsm.Keystore

open NvmRefine

variable {sh : Shape}

theorem ram_cleared (r : Ram sh) : r.1.1.cleared = (emptyRam sh).1.1 ∧
    ∀ x, (r.1.2 x).cleared = (emptyRam sh).1.2 x := by
  obtain ⟨⟨g, l⟩, h1, h2⟩ := r
  refine ⟨?_, fun x => ?_⟩
  · dsimp only at h1
    simp only [Cache.cleared, emptyRam, ← h1, Cache.dims]
  · have := h2 x
    dsimp only at this
    simp only [Cache.cleared, emptyRam, ← this, Cache.dims]

theorem restart_ram (r : Ram sh) (n : Nvm) (b : Bool) (cfg : Cfg) (ncfg : NvmServer.Cfg) :
    step cfg ncfg (toSys r n) (.restart b) = (.none, toSys (emptyRam sh) (n.restart b)) := by
  obtain ⟨h1, h2⟩ := ram_cleared r
  simp only [step, toSys, h1, h2]

/-- The key requests as a service. -/
theorem keyServer_exists (cfg : Cfg) (ncfg : NvmServer.Cfg) (sh : Shape) :
    ∃ V : Service KReq Obs (Ram sh), IsKeyServer cfg ncfg V := by
  have h := fun v lock r (ram : Ram sh) => kp_handle (sh := sh) cfg v lock r ram
  choose p hp using h
  refine ⟨⟨fun q ram => match q with
    | .key v lock r => (p v lock r ram).bind fun y => .ret (.key y.1, y.2)
    | .nvm lock r _ => (NvmServer.prog ncfg lock r).bind fun a => .ret (.nvm a, ram),
    emptyRam sh⟩, ?_, ?_, rfl⟩
  · intro v lock r ram n
    have := hp v lock r ram n n rfl
    simp only [NP.onMap_bind, this]
    rfl
  · intro lock r h ram n
    simp only [NP.onMap_bind]
    rw [NvmServer.prog_eq ncfg n lock r h]
    rfl

variable {cfg : Cfg} {ncfg : NvmServer.Cfg} {V : Service KReq Obs (Ram sh)}

/-- One step of the service is one step of the model of the key store. -/
theorem mstep_key (hV : IsKeyServer cfg ncfg V) (r : Ram sh) (n : Nvm) (e : MEv KReq) :
    obsOf (mstep V (r, n) e).1 = (step cfg ncfg (toSys r n) (toEv e)).1 ∧
    toSys (mstep V (r, n) e).2.1 (mstep V (r, n) e).2.2 =
      (step cfg ncfg (toSys r n) (toEv e)).2 := by
  cases e with
  | restart b =>
    simp only [toEv, restart_ram, mstep, hV.fresh]
    exact ⟨by first | rfl | trivial, by first | rfl | trivial⟩
  | req q =>
    cases q with
    | key v lock q =>
      have h := hV.key v lock q r n
      simp only [Prod.mk.injEq] at h
      simp only [mstep, step, toEv]
      by_cases hn : n.powered = true
      · have hn' : (toSys r n).nvm.powered = true := hn
        rw [if_pos hn, if_pos hn', ← h.2]
        refine ⟨?_, rfl⟩
        rw [h.1]
        change obsOf (if ((V.serve (.key v lock q) r).onMap n).2.powered = true then _ else _) =
          if ((V.serve (.key v lock q) r).onMap n).2.powered = true then _ else _
        split <;> rfl
      · have hn' : ¬(toSys r n).nvm.powered = true := hn
        rw [if_neg hn, if_neg hn']
        exact ⟨rfl, rfl⟩
    | nvm lock q hq =>
      have h := hV.nvm lock q hq r n
      simp only [mstep, step, toEv, h]
      by_cases hn : n.powered = true
      · have hn' : (toSys r n).nvm.powered = true := hn
        rw [if_pos hn, if_pos hn']
        refine ⟨?_, rfl⟩
        change obsOf (if (NvmServer.handle ncfg n lock q).2.powered = true then _ else _) =
          if (NvmServer.handle ncfg n lock q).2.powered = true then _ else _
        split <;> rfl
      · have hn' : ¬(toSys r n).nvm.powered = true := hn
        rw [if_neg hn, if_neg hn']
        exact ⟨rfl, rfl⟩

/-- A history of the service is a history of the key store. -/
theorem mrun_key (hV : IsKeyServer cfg ncfg V) : ∀ (es : List (MEv KReq)) (r : Ram sh) (n : Nvm),
    (mrun V (r, n) es).1.map obsOf = trace cfg ncfg (toSys r n) (es.map toEv) ∧
    toSys (mrun V (r, n) es).2.1 (mrun V (r, n) es).2.2 = run cfg ncfg (toSys r n) (es.map toEv)
  | [], r, n => ⟨rfl, rfl⟩
  | e :: es, r, n => by
    obtain ⟨h1, h2⟩ := mstep_key hV r n e
    obtain ⟨i1, i2⟩ := mrun_key hV es (mstep V (r, n) e).2.1 (mstep V (r, n) e).2.2
    rw [h2] at i1 i2
    refine ⟨?_, ?_⟩
    · simp only [mrun, List.map_cons, trace, h1]
      rw [← i1]
    · simp only [mrun, List.map_cons, run, List.foldl_cons]
      exact i2

end WolfHsm.Keystore

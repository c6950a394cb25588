import Verif.Proofs.KeystoreProg
import Verif.Proofs.KeystoreDemo
import Verif.Props.NvmFlashWitness

/-! # A key server that can be run on the flash, for the examples of C50

The programs of the requests used in the examples are written out; the others are taken from
`keyServer_exists`. -/

namespace WolfHsm.Keystore

open NvmFlash (Meta)
open NvmRefine

variable {sh : Shape}

/-- An NVM with one object. -/
def oneObj (id : UInt16) (md : Option Meta) : Nvm :=
  ⟨fun i => if i = id then md.map fun md => (md, []) else none, none, true, fun _ => .ok, 0⟩

/-- Replace the cache for an id. -/
def setRam (cfg : Cfg) (x : Nat) (r : Ram sh) (id : UInt16) (f : Cache → Cache)
    (hf : ∀ c, (f c).dims = c.dims) : Ram sh :=
  if isGlobal cfg id then ⟨(f r.1.1, r.1.2), (hf _).trans r.2.1, r.2.2⟩
  else ⟨(r.1.1, fun y => if y = x then f (r.1.2 x) else r.1.2 y), r.2.1, fun y => by
    dsimp only; split
    · rename_i h; rw [h, hf]; exact r.2.2 x
    · exact r.2.2 y⟩

theorem setRam_eq (cfg : Cfg) (x : Nat) (r : Ram sh) (id : UInt16) (f : Cache → Cache)
    (hf : ∀ c, (f c).dims = c.dims) (n : Nvm) :
    setCache cfg x (toSys r n) id (f (cacheOf cfg x (toSys r n) id)) =
      toSys (setRam cfg x r id f hf) n := by
  unfold setCache setRam cacheOf
  by_cases h : isGlobal cfg id = true
  · rw [if_pos h, if_pos h]
    refine Eq.trans ?_ (congrArg (fun q : Ram sh => toSys q n) (if_pos h).symm)
    rfl
  · rw [if_neg h, if_neg h]
    refine Eq.trans ?_ (congrArg (fun q : Ram sh => toSys q n) (if_neg h).symm)
    rfl

/-- Drop the key with this id, if there is one. -/
def room (c : Cache) (id : UInt16) : Cache := if (c.find id).isSome then c.evict id else c

theorem dims_room (c : Cache) (id : UInt16) : (room c id).dims = c.dims := by
  unfold room
  split
  · exact dims_update _ _ _
  · rfl

/-- Put a key into the cache: make room and fill it. -/
def slotCache (cfg : Cfg) (md : Meta) (data : List UInt8) (c : Cache) : Cache :=
  match reserve cfg (room c md.id) md.len.toNat with
  | some (loc, c') => c'.put loc (some ⟨md, data, false⟩)
  | none => room c md.id

theorem dims_slotCache (cfg : Cfg) (md : Meta) (data : List UInt8) (c : Cache) :
    (slotCache cfg md data c).dims = c.dims := by
  unfold slotCache
  split
  · rename_i loc c' h
    exact (dims_put _ _ _).trans ((dims_reserve h).trans (dims_room _ _))
  · exact dims_room _ _

/-- Is there room? -/
def hasSlot (cfg : Cfg) (md : Meta) (c : Cache) : Bool :=
  (reserve cfg (room c md.id) md.len.toNat).isSome

theorem setCache_twice (cfg : Cfg) (x : Nat) (s : Sys) (id : UInt16) (c c' : Cache) :
    setCache cfg x (setCache cfg x s id c) id c' = setCache cfg x s id c' := by
  unfold setCache
  split
  · rfl
  · simp only [Sys.mk.injEq, true_and]
    funext y
    split <;> rfl

theorem cacheOf_set (cfg : Cfg) (x : Nat) (s : Sys) (id : UInt16) (c : Cache) :
    cacheOf cfg x (setCache cfg x s id c) id = c := by
  unfold cacheOf setCache
  split
  · rfl
  · simp

theorem setCache_same (cfg : Cfg) (x : Nat) (s : Sys) (id : UInt16) :
    setCache cfg x s id (cacheOf cfg x s id) = s := by
  unfold cacheOf setCache
  split
  · rfl
  · cases s
    simp only [Sys.mk.injEq, true_and]
    funext y
    split
    · rename_i h; rw [h]
    · rfl

theorem getSlot_eq (cfg : Cfg) (x : Nat) (s : Sys) (id : UInt16) (sz : Nat)
    (hu : KeyId.isUnassigned id = false) (hh : isHw cfg id = false)
    (hs : ¬(sz > cfg.bufSize ∧ sz > cfg.bigBufSize)) :
    getSlot cfg x s id sz =
      match reserve cfg (room (cacheOf cfg x s id) id) sz with
      | some (loc, c) => (.ok, some loc, setCache cfg x s id c)
      | none => (.nospace, none, setCache cfg x s id (room (cacheOf cfg x s id) id)) := by
  unfold getSlot
  rw [if_neg hs, if_neg (by simp [hh])]
  cases hc : cached cfg x s id with
  | none =>
    have hc' : (cacheOf cfg x s id).find id = none := hc
    simp only [room, hc', Option.isSome_none, Bool.false_eq_true, if_false, reserveIn, setCache_same]
    cases reserve cfg (cacheOf cfg x s id) sz <;> rfl
  | some k =>
    have hc' : (cacheOf cfg x s id).find id = some k := hc
    have hev : evictKey cfg x s id =
        (.ok, setCache cfg x s id ((cacheOf cfg x s id).evict id)) := by
      simp only [evictKey, hu, hh, Bool.false_eq_true, if_false, hc]
    simp only [hev, reserveIn, cacheOf_set, room, hc', Option.isSome_some, if_true, setCache_twice]
    cases reserve cfg ((cacheOf cfg x s id).evict id) sz <;> rfl

/-- Caching a key, in one step. -/
theorem cacheKey_eq (cfg : Cfg) (x : Nat) (s : Sys) (ch : Bool) (md : Meta) (data : List UInt8)
    (hu : KeyId.isUnassigned md.id = false) (hh : isHw cfg md.id = false)
    (hs : ¬(md.len.toNat > cfg.bufSize ∧ md.len.toNat > cfg.bigBufSize))
    (hb : (ch && cfg.statefulBlob data) = false)
    (hp : ch = true → policy cfg x s .cache md.id = .ok ∨ policy cfg x s .cache md.id = .notfound) :
    cacheKey cfg x s ch md data =
      (if hasSlot cfg md (cacheOf cfg x s md.id) then .ok else .nospace,
        setCache cfg x s md.id (slotCache cfg md data (cacheOf cfg x s md.id))) := by
  have hg : (if ch then getSlotChecked cfg x s md.id md.len.toNat
      else getSlot cfg x s md.id md.len.toNat) = getSlot cfg x s md.id md.len.toNat := by
    cases ch
    · rfl
    · simp only [if_true, getSlotChecked, if_pos (hp rfl)]
  unfold cacheKey
  rw [if_neg (by simp [hu]), if_neg hs, if_neg (by simp [hb]), if_neg (by simp [hh]), hg,
    getSlot_eq cfg x s md.id _ hu hh hs]
  unfold hasSlot slotCache
  cases reserve cfg (room (cacheOf cfg x s md.id) md.id) md.len.toNat with
  | none => rfl
  | some y => simp only [Option.isSome_some, if_true, fill, cacheOf_set, setCache_twice]

/-- Policy with the metadata known. -/
def policyR (cfg : Cfg) (x : Nat) (r : Ram sh) (op : Op) (id : UInt16) (md : Option Meta) : Rc :=
  policy cfg x (toSys r (oneObj id md)) op id

theorem policyR_eq (cfg : Cfg) (x : Nat) (r : Ram sh) (op : Op) (id : UInt16) (n : Nvm) :
    policyR cfg x r op id (n.metadata id).2 = policy cfg x (toSys r n) op id := by
  have h : (oneObj id (n.metadata id).2).metadata id = n.metadata id := by
    simp only [Nvm.metadata, NvmFlash.Store.info, oneObj, if_true]
    cases n.store id <;> rfl
  have hm : (toSys r (oneObj id (n.metadata id).2)).nvm.metadata id = (toSys r n).nvm.metadata id := h
  simp only [policyR, policy, hm]
  rfl

/-- CACHE, with an id given. -/
def cacheP (cfg : Cfg) (v : Srv) (r : Ram sh) (rid flags : UInt16) (label : Vector UInt8 24)
    (key : List UInt8) : NP (Obs × Ram sh) :=
  let md := clientMeta cfg v rid flags label (UInt16.ofNat key.length)
  let no (rc : Rc) : NP (Obs × Ram sh) := .ret (.key (.keyId rc 0), r)
  if key.length ≥ 65536 then no .badargs
  else if md.len.toNat > cfg.bufSize ∧ md.len.toNat > cfg.bigBufSize then no .badargs
  else if cfg.statefulBlob key then no .access
  else if isHw cfg md.id then no .access
  else .info md.id fun _ m =>
    let p := policyR cfg v.ctx r .cache md.id m
    if p = .ok ∨ p = .notfound then
      .ret (.key (if hasSlot cfg md (ramCache cfg v.ctx r md.id) then
          .keyId .ok (KeyId.toClient cfg.ids md.id) else .keyId .nospace 0),
        setRam cfg v.ctx r md.id (slotCache cfg md key) (dims_slotCache cfg md key))
    else no p

theorem cacheP_eq (cfg : Cfg) (v : Srv) (r : Ram sh) (rid flags : UInt16) (label : Vector UInt8 24)
    (key : List UInt8) (hu : KeyId.isUnassigned (ownId cfg v rid) = false) (n : Nvm) :
    (((cacheP cfg v r rid flags label key).onMap n).1.1,
      toSys ((cacheP cfg v r rid flags label key).onMap n).1.2
        ((cacheP cfg v r rid flags label key).onMap n).2) =
    (Obs.key (handle cfg v (toSys r n) .ok (.cache rid flags label key)).1,
      (handle cfg v (toSys r n) .ok (.cache rid flags label key)).2) := by
  have hh : handle cfg v (toSys r n) .ok (.cache rid flags label key) =
    act cfg v (toSys r n) (.cache rid flags label key) := rfl
  rw [hh]
  have hu' : KeyId.isUnassigned
    (clientMeta cfg v rid flags label (UInt16.ofNat key.length)).id = false := hu
  simp only [cacheP, act, handleCache]
  split
  · rfl
  · simp only [withId, hu', Bool.false_eq_true, if_false]
    generalize clientMeta cfg v rid flags label (UInt16.ofNat key.length) = md at hu' ⊢
    by_cases hs : md.len.toNat > cfg.bufSize ∧ md.len.toNat > cfg.bigBufSize
    · simp only [cacheKey, hu', Bool.false_eq_true, if_false, if_pos hs]; rfl
    · by_cases hb : cfg.statefulBlob key = true
      · simp only [cacheKey, hu', Bool.false_eq_true, if_false, if_neg hs, Bool.true_and, if_pos hb]
        rfl
      · by_cases hw : isHw cfg md.id = true
        · simp only [cacheKey, hu', Bool.false_eq_true, if_false, if_neg hs, Bool.true_and,
            if_neg hb, if_pos hw]
          rfl
        · rw [if_neg hs, if_neg hb, if_neg hw]
          simp only [NP.onMap, policyR_eq]
          by_cases hp : policy cfg v.ctx (toSys r n) .cache md.id = .ok ∨
              policy cfg v.ctx (toSys r n) .cache md.id = .notfound
          · have hk := cacheKey_eq cfg v.ctx (toSys r n) true md key hu' (by simpa using hw) hs
              (by simpa using hb) (fun _ => hp)
            rw [setRam_eq cfg v.ctx r md.id _ (dims_slotCache cfg md key), cacheOf_ram] at hk
            simp only [hk, if_pos hp, NP.onMap]
            cases hasSlot cfg md (ramCache cfg v.ctx r md.id) <;> rfl
          · have hk : cacheKey cfg v.ctx (toSys r n) true md key =
                (policy cfg v.ctx (toSys r n) .cache md.id, toSys r n) := by
              simp only [cacheKey, hu', Bool.false_eq_true, if_false, if_neg hs, Bool.true_and,
                if_neg hb, if_neg hw, if_true, getSlotChecked, if_neg hp]
              cases policy cfg v.ctx (toSys r n) .cache md.id <;> rfl
            have hne : policy cfg v.ctx (toSys r n) .cache md.id ≠ .ok := fun h => hp (.inl h)
            simp only [if_neg hp, NP.onMap, hk, if_neg hne]

/-- COMMIT. -/
def commitP (cfg : Cfg) (v : Srv) (r : Ram sh) (id : UInt16) : NP (Obs × Ram sh) :=
  .info id fun _ m =>
    let p := policyR cfg v.ctx r .commit id m
    if p ≠ .ok then .ret (.key (.code p), r)
    else if KeyId.isUnassigned id then .ret (.key (.code .badargs), r)
    else if KeyId.typeOf id = KeyId.typeWrapped then .ret (.key (.code .aborted), r)
    else if isHw cfg id then .ret (.key (.code .access), r)
    else match (ramCache cfg v.ctx r id).find id with
      | none => .ret (.key (.code .notfound), r)
      | some k => .addReclaim k.md k.data fun rc => .ret (.key (.code rc),
          if rc = .ok then setRam cfg v.ctx r id (fun c => c.mark id true) fun _ => dims_update _ _ _
          else r)

theorem commitP_eq (cfg : Cfg) (v : Srv) (r : Ram sh) (rid : UInt16) (n : Nvm) :
    (((commitP cfg v r (ownId cfg v rid)).onMap n).1.1,
      toSys ((commitP cfg v r (ownId cfg v rid)).onMap n).1.2
        ((commitP cfg v r (ownId cfg v rid)).onMap n).2) =
    (Obs.key (handle cfg v (toSys r n) .ok (.commit rid)).1,
      (handle cfg v (toSys r n) .ok (.commit rid)).2) := by
  have hh : handle cfg v (toSys r n) .ok (.commit rid) =
    (.code (commitKeyChecked cfg v.ctx (toSys r n) (ownId cfg v rid)).1,
      (commitKeyChecked cfg v.ctx (toSys r n) (ownId cfg v rid)).2) := rfl
  rw [hh]
  generalize ownId cfg v rid = id
  simp only [commitP, NP.onMap, policyR_eq, commitKeyChecked]
  by_cases hp : policy cfg v.ctx (toSys r n) .commit id = .ok
  · simp only [hp, ne_eq, not_true_eq_false, if_false, commitKey]
    split
    · rfl
    · split
      · rfl
      · split
        · rfl
        · have hc : cached cfg v.ctx (toSys r n) id = (ramCache cfg v.ctx r id).find id := rfl
          rw [hc]
          cases (ramCache cfg v.ctx r id).find id with
          | none => rfl
          | some k =>
            simp only [NP.onMap]
            have hn : (toSys r n).nvm.addWithReclaim k.md k.data = n.addWithReclaim k.md k.data := rfl
            rw [hn]
            rcases n.addWithReclaim k.md k.data with ⟨rc, n'⟩
            have hs := setRam_eq cfg v.ctx r id (fun c => c.mark id true)
              (fun _ => dims_update _ _ _) n'
            cases rc
            case ok =>
              simp only [if_true, Prod.mk.injEq, true_and]
              exact hs.symm
            all_goals rfl
  · simp only [ne_eq, hp, not_false_eq_true, if_true, NP.onMap]

/-- EXPORT. -/
def exportP (cfg : Cfg) (v : Srv) (r : Ram sh) (id : UInt16) : NP (Obs × Ram sh) :=
  .info id fun _ m =>
    let p := policyR cfg v.ctx r .exportKey id m
    let no (rc : Rc) : NP (Obs × Ram sh) := .ret (.key (.key rc none []), r)
    if p ≠ .ok then no p
    else if KeyId.isUnassigned id then no .badargs
    else if isHw cfg id then no .access
    else match (ramCache cfg v.ctx r id).find id with
      | some k => if k.md.len.toNat > cfg.commLen - 36 then no .nospace
        else .ret (.key (.key .ok (some k.md.label) k.data), r)
      | none =>
        if (KeyId.typeOf id == KeyId.typeWrapped) = true then no .notfound
        else .info id fun rc m =>
          match rc, m with
          | .ok, some md =>
            if md.len.toNat > cfg.commLen - 36 then no .nospace
            else .read id 0 md.len.toNat fun rc bs =>
              match rc with
              | .ok =>
                if KeyId.typeOf md.id = KeyId.typeShe ∧ KeyId.idOf md.id = 0 then
                  .ret (.key (.key .ok (some md.label) bs), r)
                else if KeyId.isUnassigned md.id = true ∨
                  (md.len.toNat > cfg.bufSize ∧ md.len.toNat > cfg.bigBufSize) ∨
                  isHw cfg md.id = true then .ret (.key (.key .ok (some md.label) bs), r)
                else
                  let r' := setRam cfg v.ctx r md.id (slotCache cfg md bs)
                    (dims_slotCache cfg md bs)
                  .ret (.key (.key .ok (some md.label) bs),
                    if hasSlot cfg md (ramCache cfg v.ctx r md.id) then
                      setRam cfg v.ctx r' id (fun c => c.mark id true) fun _ => dims_update _ _ _
                    else r')
              | rc => .ret (.key (keyResp (sheFallback cfg id rc)), r)
          | rc, _ => .ret (.key (keyResp (sheFallback cfg id rc)), r)

theorem exportP_eq (cfg : Cfg) (v : Srv) (r : Ram sh) (rid : UInt16) (n : Nvm) :
    (((exportP cfg v r (ownId cfg v rid)).onMap n).1.1,
      toSys ((exportP cfg v r (ownId cfg v rid)).onMap n).1.2
        ((exportP cfg v r (ownId cfg v rid)).onMap n).2) =
    (Obs.key (handle cfg v (toSys r n) .ok (.exportKey rid)).1,
      (handle cfg v (toSys r n) .ok (.exportKey rid)).2) := by
  have hh : handle cfg v (toSys r n) .ok (.exportKey rid) =
    (keyResp (readKeyChecked cfg v.ctx (toSys r n) (ownId cfg v rid) (cfg.commLen - 36)).1,
      (readKeyChecked cfg v.ctx (toSys r n) (ownId cfg v rid) (cfg.commLen - 36)).2) := rfl
  rw [hh]
  generalize ownId cfg v rid = id
  simp only [exportP, NP.onMap, policyR_eq, readKeyChecked]
  by_cases hp : policy cfg v.ctx (toSys r n) .exportKey id = .ok
  · simp only [hp, ne_eq, not_true_eq_false, if_false, readKey]
    split
    · rfl
    · split
      · rfl
      · have hc : cached cfg v.ctx (toSys r n) id = (ramCache cfg v.ctx r id).find id := rfl
        rw [hc]
        cases (ramCache cfg v.ctx r id).find id with
        | some k => dsimp only; split <;> rfl
        | none =>
          dsimp only
          split
          · rfl
          · simp only [NP.onMap]
            have hm : (toSys r n).nvm.metadata id = n.metadata id := rfl
            rw [hm]
            rcases n.metadata id with ⟨rc, _ | md⟩
            · cases rc <;> rfl
            · cases rc
              case ok =>
                dsimp only
                split
                · rfl
                · simp only [NP.onMap]
                  have hr : (toSys r n).nvm.read id 0 md.len.toNat = n.read id 0 md.len.toNat := rfl
                  rw [hr]
                  rcases n.read id 0 md.len.toNat with ⟨⟨rc, bs⟩, n'⟩
                  cases rc
                  case ok =>
                    dsimp only
                    split
                    · rfl
                    · by_cases hb : KeyId.isUnassigned md.id = true ∨
                        (md.len.toNat > cfg.bufSize ∧ md.len.toNat > cfg.bigBufSize) ∨
                        isHw cfg md.id = true
                      · rw [if_pos hb]
                        have : ∃ rc, rc ≠ .ok ∧ cacheKey cfg v.ctx (toSys r n') false md bs =
                            (rc, toSys r n') := by
                          simp only [cacheKey, Bool.false_and, Bool.false_eq_true, if_false]
                          by_cases h1 : KeyId.isUnassigned md.id = true
                          · exact ⟨.badargs, by simp, by rw [if_pos h1]⟩
                          · by_cases h2 : md.len.toNat > cfg.bufSize ∧ md.len.toNat > cfg.bigBufSize
                            · exact ⟨.badargs, by simp, by rw [if_neg h1, if_pos h2]⟩
                            · have h3 : isHw cfg md.id = true := by
                                rcases hb with h | h | h
                                · exact absurd h h1
                                · exact absurd h h2
                                · exact h
                              exact ⟨.access, by simp, by rw [if_neg h1, if_neg h2, if_pos h3]⟩
                        obtain ⟨rc, h1, h2⟩ := this
                        have hsys : ({ toSys r n with nvm := n' } : Sys) = toSys r n' := rfl
                        simp only [hsys, h2, NP.onMap]
                        cases rc
                        case ok => exact absurd rfl h1
                        all_goals rfl
                      · have hb' := not_or.mp hb
                        have hb2 := not_or.mp hb'.2
                        have hsys : ({ toSys r n with nvm := n' } : Sys) = toSys r n' := rfl
                        rw [if_neg hb, hsys, cacheKey_eq cfg v.ctx (toSys r n') false md bs
                          (by simpa using hb'.1) (by simpa using hb2.2) hb2.1 rfl
                          (fun h => by cases h),
                          setRam_eq cfg v.ctx r md.id _ (dims_slotCache cfg md bs), cacheOf_ram]
                        simp only [NP.onMap]
                        cases hasSlot cfg md (ramCache cfg v.ctx r md.id)
                        · rfl
                        · simp only [if_true]
                          rw [setRam_eq cfg v.ctx _ id (fun c => c.mark id true)
                            (fun _ => dims_update _ _ _)]
                          rfl
                  all_goals rfl
              all_goals rfl
  · have hk : (match policy cfg v.ctx (toSys r n) .exportKey id with
        | .ok => readKey cfg v.ctx (toSys r n) id (cfg.commLen - 36)
        | rc => ((rc, none), toSys r n)) =
        ((policy cfg v.ctx (toSys r n) .exportKey id, none), toSys r n) := by
      split
      · rename_i h; exact absurd h hp
      · rfl
    simp only [ne_eq, hp, not_false_eq_true, if_true, NP.onMap]
    cases policy cfg v.ctx (toSys r n) .exportKey id <;> rfl

/-- ERASE. -/
def eraseP (cfg : Cfg) (v : Srv) (r : Ram sh) (id : UInt16) : NP (Obs × Ram sh) :=
  let no (rc : Rc) : NP (Obs × Ram sh) := .ret (.key (.code rc), r)
  if KeyId.isUnassigned id then no .badargs
  else if KeyId.typeOf id = KeyId.typeWrapped then no .aborted
  else if isHw cfg id then no .access
  else .info id fun _ m =>
    let p := policyR cfg v.ctx r .evict id m
    if p = .ok then
      (NvmServer.destroyP [id] [id]).bind fun rc => .ret (.key (.code rc),
        setRam cfg v.ctx r id (fun c => room c id) fun c => dims_room c id)
    else if p = .notfound then
      (NvmServer.destroyP [id] [id]).bind fun rc => .ret (.key (.code rc), r)
    else no p

theorem eraseP_eq (cfg : Cfg) (v : Srv) (r : Ram sh) (rid : UInt16) (n : Nvm) :
    (((eraseP cfg v r (ownId cfg v rid)).onMap n).1.1,
      toSys ((eraseP cfg v r (ownId cfg v rid)).onMap n).1.2
        ((eraseP cfg v r (ownId cfg v rid)).onMap n).2) =
    (Obs.key (handle cfg v (toSys r n) .ok (.erase rid)).1,
      (handle cfg v (toSys r n) .ok (.erase rid)).2) := by
  have hh : handle cfg v (toSys r n) .ok (.erase rid) =
    (.code (eraseKeyChecked cfg v.ctx (toSys r n) (ownId cfg v rid)).1,
      (eraseKeyChecked cfg v.ctx (toSys r n) (ownId cfg v rid)).2) := rfl
  rw [hh]
  generalize ownId cfg v rid = id
  simp only [eraseP, eraseKeyChecked]
  by_cases hu : KeyId.isUnassigned id = true
  · simp only [if_pos hu]; rfl
  · rw [if_neg hu, if_neg hu]
    by_cases ht : KeyId.typeOf id = KeyId.typeWrapped
    · simp only [if_pos ht]; rfl
    · rw [if_neg ht, if_neg ht]
      by_cases hw : isHw cfg id = true
      · simp only [if_pos hw]; rfl
      · rw [if_neg hw, if_neg hw]
        simp only [NP.onMap, policyR_eq]
        by_cases hp : policy cfg v.ctx (toSys r n) .evict id = .ok
        · have hev : (evictKeyChecked cfg v.ctx (toSys r n) id).2 =
              toSys (setRam cfg v.ctx r id (fun c => room c id) fun c => dims_room c id) n ∧
              ((evictKeyChecked cfg v.ctx (toSys r n) id).1 = .ok ∨
                (evictKeyChecked cfg v.ctx (toSys r n) id).1 = .notfound) := by
            rw [← setRam_eq cfg v.ctx r id (fun c => room c id)]
            simp only [evictKeyChecked, hp, evictKey, if_neg hu, if_neg hw]
            cases hc : cached cfg v.ctx (toSys r n) id with
            | none =>
              have hc' : (cacheOf cfg v.ctx (toSys r n) id).find id = none := hc
              simp only [room, hc', Option.isSome_none, Bool.false_eq_true, if_false,
                setCache_same, or_true, and_self]
            | some k =>
              have hc' : (cacheOf cfg v.ctx (toSys r n) id).find id = some k := hc
              simp only [room, hc', Option.isSome_some, if_true, true_or, and_self]
          rw [if_pos hev.2, hev.1]
          simp only [if_pos hp, NP.onMap_bind, NvmServer.destroyP_eq]
          rw [← NvmServer.destroyChecked_eq]
          rfl
        · have hev : evictKeyChecked cfg v.ctx (toSys r n) id =
              (policy cfg v.ctx (toSys r n) .evict id, toSys r n) := by
            unfold evictKeyChecked
            split
            · exact absurd ‹_› hp
            · rfl
          rw [hev]
          by_cases hq : policy cfg v.ctx (toSys r n) .evict id = .notfound
          · simp only [hq, NP.onMap_bind, NvmServer.destroyP_eq, or_true, if_true, reduceCtorEq,
              if_false]
            rw [← NvmServer.destroyChecked_eq]
            rfl
          · simp only [hp, hq, or_false, if_false, NP.onMap]

/-- REVOKE of the cached key `k`. -/
def revokeP (cfg : Cfg) (v : Srv) (r : Ram sh) (id : UInt16) (k : CKey) : NP (Obs × Ram sh) :=
  .info id fun rc m =>
    let p := policyR cfg v.ctx r .revoke id m
    if p ≠ .ok then .ret (.key (.code p), r)
    else if isRevoked k.md && k.committed then .ret (.key (.code .ok), r)
    else
      let r1 := setRam cfg v.ctx r id (fun c => c.update id fun k => some { k with md := revokeMeta k.md })
        fun _ => dims_update _ _ _
      if rc = .ok then
        .addReclaim (revokeMeta k.md) k.data fun rc => .ret (.key (.code rc),
          if rc = .ok then setRam cfg v.ctx r1 id (fun c => c.mark id true) fun _ => dims_update _ _ _
          else r1)
      else .ret (.key (.code .ok), r1)

theorem revokeP_eq (cfg : Cfg) (v : Srv) (r : Ram sh) (rid : UInt16) {k : CKey}
    (hu : KeyId.isUnassigned (ownId cfg v rid) = false) (hw : isHw cfg (ownId cfg v rid) = false)
    (hk : (ramCache cfg v.ctx r (ownId cfg v rid)).find (ownId cfg v rid) = some k) (n : Nvm) :
    (((revokeP cfg v r (ownId cfg v rid) k).onMap n).1.1,
      toSys ((revokeP cfg v r (ownId cfg v rid) k).onMap n).1.2
        ((revokeP cfg v r (ownId cfg v rid) k).onMap n).2) =
    (Obs.key (handle cfg v (toSys r n) .ok (.revoke rid)).1,
      (handle cfg v (toSys r n) .ok (.revoke rid)).2) := by
  have hh : handle cfg v (toSys r n) .ok (.revoke rid) =
    (.code (revokeKey cfg v.ctx (toSys r n) (ownId cfg v rid)).1,
      (revokeKey cfg v.ctx (toSys r n) (ownId cfg v rid)).2) := rfl
  rw [hh]
  generalize ownId cfg v rid = id at hu hw hk ⊢
  have hc : cached cfg v.ctx (toSys r n) id = some k := hk
  have hfr : freshen cfg v.ctx (toSys r n) id = (.ok, some k, toSys r n) := by
    simp only [freshen, hu, hw, Bool.false_eq_true, if_false, hc]
  simp only [revokeP, NP.onMap, policyR_eq, revokeKey, hu, Bool.false_eq_true, if_false]
  by_cases hp : policy cfg v.ctx (toSys r n) .revoke id = .ok
  · simp only [hp, ne_eq, not_true_eq_false, if_false]
    have hm : (toSys r n).nvm.metadata id = n.metadata id := rfl
    have hcases : n.metadata id = (.notfound, none) ∨ ∃ md, n.metadata id = (.ok, some md) := by
      simp only [Nvm.metadata, NvmFlash.Store.info]
      cases n.store id with
      | none => exact .inl rfl
      | some o => exact .inr ⟨_, rfl⟩
    have hs1 := setRam_eq cfg v.ctx r id
      (fun c => c.update id fun k => some { k with md := revokeMeta k.md })
      (fun _ => dims_update _ _ _) n
    rcases hcases with h | ⟨md, h⟩
    · rw [hm, h]
      simp only [revokeKey.go, hfr]
      split
      · rfl
      · simp only [hs1, reduceCtorEq, if_false, Bool.false_eq_true, NP.onMap]
    · rw [hm, h]
      simp only [revokeKey.go, hfr]
      split
      · rfl
      · simp only [hs1, if_true, NP.onMap]
        generalize setRam cfg v.ctx r id _ _ = r1
        have hn : (toSys r1 n).nvm.addWithReclaim (revokeMeta k.md) k.data =
          n.addWithReclaim (revokeMeta k.md) k.data := rfl
        rw [hn]
        rcases n.addWithReclaim (revokeMeta k.md) k.data with ⟨rc, n'⟩
        have hs2 := setRam_eq cfg v.ctx r1 id (fun c => c.mark id true)
          (fun _ => dims_update _ _ _) n'
        cases rc
        case ok =>
          simp only [if_true, Prod.mk.injEq, true_and]
          exact hs2.symm
        all_goals rfl
  · simp only [ne_eq, hp, not_false_eq_true, if_true, NP.onMap]

/-- A key server for which the requests `cache` (with an id), `commit`, `exportKey`, `erase` and,
for a cached key, `revoke` can be run. -/
noncomputable def server (cfg : Cfg) (ncfg : NvmServer.Cfg) (sh : Shape) :
    Service KReq Obs (Ram sh) where
  serve q ram := match q with
    | .key v .ok (.cache rid flags label key) =>
      if KeyId.isUnassigned (ownId cfg v rid) = false then cacheP cfg v ram rid flags label key
      else (keyServer_exists cfg ncfg sh).choose.serve (.key v .ok (.cache rid flags label key)) ram
    | .key v .ok (.commit rid) => commitP cfg v ram (ownId cfg v rid)
    | .key v .ok (.exportKey rid) => exportP cfg v ram (ownId cfg v rid)
    | .key v .ok (.erase rid) => eraseP cfg v ram (ownId cfg v rid)
    | .key v .ok (.revoke rid) =>
      if KeyId.isUnassigned (ownId cfg v rid) = false ∧ isHw cfg (ownId cfg v rid) = false then
        match (ramCache cfg v.ctx ram (ownId cfg v rid)).find (ownId cfg v rid) with
        | some k => revokeP cfg v ram (ownId cfg v rid) k
        | none => (keyServer_exists cfg ncfg sh).choose.serve (.key v .ok (.revoke rid)) ram
      else (keyServer_exists cfg ncfg sh).choose.serve (.key v .ok (.revoke rid)) ram
    | q => (keyServer_exists cfg ncfg sh).choose.serve q ram
  fresh := emptyRam sh

theorem server_is (cfg : Cfg) (ncfg : NvmServer.Cfg) (sh : Shape) :
    IsKeyServer cfg ncfg (server cfg ncfg sh) := by
  have h := (keyServer_exists cfg ncfg sh).choose_spec
  refine ⟨?_, fun lock r hr ram n => h.nvm lock r hr ram n, rfl⟩
  intro v lock r ram n
  unfold server
  dsimp only
  split
  · rename_i heq
    cases heq
    split
    · rename_i hu
      exact cacheP_eq cfg v ram _ _ _ _ hu n
    · exact h.key v _ _ ram n
  · rename_i heq; cases heq; exact commitP_eq cfg v ram _ n
  · rename_i heq; cases heq; exact exportP_eq cfg v ram _ n
  · rename_i heq; cases heq; exact eraseP_eq cfg v ram _ n
  · rename_i heq
    cases heq
    split
    · rename_i hc
      split
      · rename_i hk
        exact revokeP_eq cfg v ram _ hc.1 hc.2 hk n
      · exact h.key v _ _ ram n
    · exact h.key v _ _ ram n
  · exact h.key v lock r ram n

end WolfHsm.Keystore

import Verif.Proofs.PosixShm

/-!
# The invariant holds in every history in which clients connect one after the other
-/

namespace WolfHsm.PosixShm

open Mem (Cfg Shm CPc SPc Sys)

variable {w : World} {tr : List Seen}

theorem upd_self (w : World) (o : Nat) : w.upd o (fun b => b) = w := by
  unfold World.upd
  rw [show (w.objs.modify o fun b => b) = w.objs from ?_]
  apply List.ext_getElem?
  intro j
  rw [List.getElem?_modify]
  cases w.objs[j]? <;> simp

theorem upd_get {o o' : Nat} {f : Obj → Obj} {b' : Obj} (h : (w.upd o f).objs[o']? = some b') :
    ∃ b, w.objs[o']? = some b ∧ b' = if o = o' then f b else b := by
  unfold World.upd at h
  dsimp only at h
  rw [List.getElem?_modify] at h
  cases hb : w.objs[o']? with
  | none => rw [hb] at h; cases h
  | some b => rw [hb] at h; cases h; exact ⟨b, rfl, rfl⟩

theorem Inv.moveS (h : Inv w tr) {i : Nat} {s : SAt} {o : Nat} {f : Obj → Obj} {l : List Seen}
    (hs : s.obj = none ∨ s.obj = some o) (ho : o < w.objs.length) (hl : ∀ x ∈ l, x.obj = o)
    (hok : ∀ b, w.objs[o]? = some b → Ok (updS w.srv i s) w.cli (tr ++ l) o (f b)) :
    Inv ((w.upd o f).setSrv i s) (tr ++ l) := by
  have hlen : (w.upd o f).objs.length = w.objs.length := by unfold World.upd; exact List.length_modify ..
  refine ⟨?_, ?_, ?_, ?_, ?_, h.mid⟩
  · intro o' b' hb'
    obtain ⟨b, hb, rfl⟩ := upd_get (w := w) hb'
    split
    · rename_i h1; subst h1; exact hok b hb
    · rename_i h1
      have h2 : s.obj ≠ some o' := by
        rcases hs with h3 | h3 <;> rw [h3]
        · simp
        · simpa using h1
      have h3 : ∀ pc t, s.pc ≠ some (o', pc, t) := by
        intro pc t h3
        apply h2
        rw [SAt.obj_pc, h3]
        rfl
      refine Ok.traceOther ?_ (fun x hx => by rw [hl x hx]; exact h1)
      exact (h.ok o' b hb).srvSame i s (fun pc t h4 => absurd h4 (h3 pc t)) (fun h4 => absurd h4 h2)
  · intro j o' hj
    show o' < (w.upd o f).objs.length
    rw [hlen]
    change (if j = i then s else w.srv j).obj = some o' at hj
    split at hj
    · rcases hs with h1 | h1 <;> rw [h1] at hj
      · cases hj
      · cases hj; exact ho
    · exact h.sIn j o' hj
  · intro j o' hj
    show o' < (w.upd o f).objs.length
    rw [hlen]; exact h.cIn j o' hj
  · intro o' hj
    show o' < (w.upd o f).objs.length
    rw [hlen]; exact h.nIn o' hj
  · intro x hx
    show x.obj < (w.upd o f).objs.length
    rw [hlen]
    rcases List.mem_append.1 hx with h1 | h1
    · exact h.tIn x h1
    · rw [hl x h1]; exact ho

theorem Inv.moveC (h : Inv w tr) {i : Nat} {s : CAt} {o : Nat} {f : Obj → Obj} {l : List Seen}
    (hs : s.obj = none ∨ s.obj = some o) (ho : o < w.objs.length) (hl : ∀ x ∈ l, x.obj = o)
    (hmid : s.mid = true → (w.cli i).mid = true ∨ ∀ j, j ≠ i → (w.cli j).mid = false)
    (hok : ∀ b, w.objs[o]? = some b → Ok w.srv (updC w.cli i s) (tr ++ l) o (f b)) :
    Inv ((w.upd o f).setCli i s) (tr ++ l) := by
  have hlen : (w.upd o f).objs.length = w.objs.length := by unfold World.upd; exact List.length_modify ..
  refine ⟨?_, ?_, ?_, ?_, ?_, ?_⟩
  · intro o' b' hb'
    obtain ⟨b, hb, rfl⟩ := upd_get (w := w) hb'
    split
    · rename_i h1; subst h1; exact hok b hb
    · rename_i h1
      have h2 : s.obj ≠ some o' := by
        rcases hs with h3 | h3 <;> rw [h3]
        · simp
        · simpa using h1
      have h3 : s.past ≠ some o' ∧ s.taken ≠ some o' ∧ ∀ pc, s.pc ≠ some (o', pc) := by
        refine ⟨fun h4 => h2 ?_, fun h4 => h2 ?_, fun pc h4 => h2 ?_⟩ <;>
          (cases s <;> first | (cases h4; rfl) | cases h4)
      refine Ok.traceOther ?_ (fun x hx => by rw [hl x hx]; exact h1)
      exact (h.ok o' b hb).cliSame i s (fun pc h4 => absurd h4 (h3.2.2 pc)) (fun h4 => absurd h4 h3.1)
        (fun h4 => absurd h4 h3.2.1)
  · intro j o' hj
    show o' < (w.upd o f).objs.length
    rw [hlen]; exact h.sIn j o' hj
  · intro j o' hj
    show o' < (w.upd o f).objs.length
    rw [hlen]
    change (if j = i then s else w.cli j).obj = some o' at hj
    split at hj
    · rcases hs with h1 | h1 <;> rw [h1] at hj
      · cases hj
      · cases hj; exact ho
    · exact h.cIn j o' hj
  · intro o' hj
    show o' < (w.upd o f).objs.length
    rw [hlen]; exact h.nIn o' hj
  · intro x hx
    show x.obj < (w.upd o f).objs.length
    rw [hlen]
    rcases List.mem_append.1 hx with h1 | h1
    · exact h.tIn x h1
    · rw [hl x h1]; exact ho
  · intro j j' hj hj'
    change (if j = i then s else w.cli j).mid = true at hj
    change (if j' = i then s else w.cli j').mid = true at hj'
    split at hj
    · rename_i h1
      split at hj'
      · rename_i h2; rw [h1, h2]
      · rename_i h2
        rcases hmid hj with h3 | h3
        · rw [h1]; exact h.mid i j' h3 hj'
        · rw [h3 j' h2] at hj'; cases hj'
    · rename_i h1
      split at hj'
      · rename_i h2
        rcases hmid hj' with h3 | h3
        · rw [h2]; exact h.mid j i hj h3
        · rw [h3 j h1] at hj; cases hj
      · exact h.mid j j' hj hj'

/-- A server stops. -/
theorem Inv.stopS (h : Inv w tr) (i : Nat) {s : SAt} (hs : s.obj = none) : Inv (w.setSrv i s) tr := by
  refine ⟨?_, ?_, h.cIn, h.nIn, h.tIn, h.mid⟩
  · intro o b hb
    refine (h.ok o b hb).srvSame i s (fun pc t h4 => ?_) (fun h4 => ?_)
    · rw [SAt.obj_pc, h4] at hs; cases hs
    · rw [hs] at h4; cases h4
  · intro j o' hj
    change (if j = i then s else w.srv j).obj = some o' at hj
    split at hj
    · rw [hs] at hj; cases hj
    · exact h.sIn j o' hj

/-- A client stops or gives up connecting. -/
theorem Inv.stopC (h : Inv w tr) (i : Nat) {s : CAt} (hs : s = .off ∨ s = .ready) : Inv (w.setCli i s) tr := by
  refine ⟨?_, h.sIn, ?_, h.nIn, h.tIn, ?_⟩
  · intro o b hb
    refine (h.ok o b hb).cliSame i s (fun pc h4 => ?_) (fun h4 => ?_) (fun h4 => ?_) <;>
      (rcases hs with rfl | rfl <;> cases h4)
  · intro j o' hj
    change (if j = i then s else w.cli j).obj = some o' at hj
    split at hj
    · rcases hs with rfl | rfl <;> cases hj
    · exact h.cIn j o' hj
  · intro j j' hj hj'
    change (if j = i then s else w.cli j).mid = true at hj
    change (if j' = i then s else w.cli j').mid = true at hj'
    have hn : s.mid ≠ true := by rcases hs with rfl | rfl <;> simp [CAt.mid]
    split at hj
    · exact absurd hj hn
    · split at hj'
      · exact absurd hj' hn
      · exact h.mid j j' hj hj'

theorem Inv.unlink (h : Inv w tr) : Inv w.unlink tr :=
  ⟨h.ok, h.sIn, h.cIn, fun _ ho => (by cases ho), h.tIn, h.mid⟩

theorem inv_start : Inv .start [] :=
  ⟨fun o b hb => (by simp [World.start] at hb), fun i o h => (by cases h), fun i o h => (by cases h),
   fun o h => (by cases h), fun s hs => (by simp at hs), fun i j h => (by cases h)⟩

theorem Inv.create (h : Inv w tr) (i : Nat) (k : Cfg) :
    Inv (w.create.setSrv i (.created w.objs.length k)) tr := by
  have hlen : w.create.objs.length = w.objs.length + 1 := by unfold World.create; simp
  refine ⟨?_, ?_, ?_, ?_, ?_, h.mid⟩
  · intro o b hb
    change (w.objs ++ [_])[o]? = some b at hb
    by_cases ho : o < w.objs.length
    · rw [List.getElem?_append_left ho] at hb
      have h2 : (SAt.created w.objs.length k).obj ≠ some o := by
        show some w.objs.length ≠ some o
        simp; omega
      refine (h.ok o b hb).srvSame i _ (fun pc t h4 => ?_) (fun h4 => absurd h4 h2)
      apply absurd _ h2
      rw [SAt.obj_pc, h4]
      rfl
    · rw [List.getElem?_append_right (by omega)] at hb
      have ho' : o = w.objs.length := by
        rcases Nat.lt_or_ge w.objs.length o with h1 | h1
        · rw [List.getElem?_eq_none (by simp; omega)] at hb; cases hb
        · omega
      subst ho'
      rw [Nat.sub_self] at hb
      cases hb
      exact Ok.create i k false (fun j hj => Nat.lt_irrefl _ (h.sIn j _ hj)) (fun j hj => Nat.lt_irrefl _ (h.cIn j _ hj))
        (fun s hs h1 => Nat.lt_irrefl w.objs.length (by have := h.tIn s hs; rw [h1] at this; exact this))
  · intro j o' hj
    show o' < w.create.objs.length
    rw [hlen]
    change (if j = i then _ else w.srv j).obj = some o' at hj
    split at hj
    · cases hj; omega
    · have := h.sIn j o' hj; omega
  · intro j o' hj
    show o' < w.create.objs.length
    have := h.cIn j o' hj; omega
  · intro o' hj
    show o' < w.create.objs.length
    cases hj; omega
  · intro x hx
    show x.obj < w.create.objs.length
    have := h.tIn x hx; omega

/-- The server acts on its object. -/
theorem Inv.srvMem (h : Inv w tr) {i o : Nat} {pc : SPc} {t : Bool} (hi : (w.srv i).pc = some (o, pc, t))
    (hl : (w.srv i).early = none) (conn : Bool) {e : Mem.Ev} (he : e.ofClient = false) :
    Inv (srvMem w i o conn pc t e).1 (tr ++ (srvMem w i o conn pc t e).2) := by
  have ho : o < w.objs.length := h.sIn i o (by rw [SAt.obj_pc, hi]; rfl)
  unfold PosixShm.srvMem
  rw [List.getElem?_eq_getElem ho]
  dsimp only
  refine h.moveS (.inr rfl) ho ?_ ?_
  · intro x hx
    obtain ⟨a, _, rfl⟩ := List.mem_map.1 hx
    rfl
  · intro b hb
    rw [List.getElem?_eq_getElem ho] at hb
    cases hb
    exact (h.ok o _ (List.getElem?_eq_getElem ho)).srvMem hi hl he rfl rfl

/-- The client acts on its object. -/
theorem Inv.cliMem (h : Inv w tr) {i o : Nat} {pc : CPc} (hi : w.cli i = .up o pc) {e : Mem.Ev}
    (he : e.ofClient = true) : Inv (cliMem w i o pc e).1 (tr ++ (cliMem w i o pc e).2) := by
  have ho : o < w.objs.length := h.cIn i o (by rw [hi]; rfl)
  unfold PosixShm.cliMem
  rw [List.getElem?_eq_getElem ho]
  dsimp only
  refine h.moveC (.inr rfl) ho ?_ (fun h1 => by cases h1) ?_
  · intro x hx
    obtain ⟨a, _, rfl⟩ := List.mem_map.1 hx
    rfl
  · intro b hb
    rw [List.getElem?_eq_getElem ho] at hb
    cases hb
    exact (h.ok o _ (List.getElem?_eq_getElem ho)).cliMem (by rw [hi]; rfl) (by rw [hi]; rfl) he rfl

theorem Inv.moveS0 (h : Inv w tr) {i : Nat} {s : SAt} {o : Nat} (hs : s.obj = some o) (ho : o < w.objs.length)
    (hok : ∀ b, w.objs[o]? = some b → Ok (updS w.srv i s) w.cli tr o b) : Inv (w.setSrv i s) tr := by
  have := h.moveS (i := i) (f := fun b => b) (l := []) (.inr hs) ho (by simp) (by simpa using hok)
  rw [upd_self, List.append_nil] at this
  exact this

theorem Inv.moveC0 (h : Inv w tr) {i : Nat} {s : CAt} {o : Nat} (hs : s.obj = some o) (ho : o < w.objs.length)
    (hmid : s.mid = true → (w.cli i).mid = true ∨ ∀ j, j ≠ i → (w.cli j).mid = false)
    (hok : ∀ b, w.objs[o]? = some b → Ok w.srv (updC w.cli i s) tr o b) : Inv (w.setCli i s) tr := by
  have := h.moveC (i := i) (f := fun b => b) (l := []) (.inr hs) ho (by simp) hmid (by simpa using hok)
  rw [upd_self, List.append_nil] at this
  exact this

theorem updC_idem (cli : Nat → CAt) (i : Nat) (a b : CAt) : updC (updC cli i a) i b = updC cli i b := by
  funext j
  unfold updC
  split <;> rfl

theorem inv_sStep (h : Inv w tr) (i : Nat) : Inv (sStep w i).1 (tr ++ (sStep w i).2) := by
  unfold sStep
  cases hi : w.srv i with
  | off => simpa using h
  | unlinked k =>
    dsimp only
    split
    · simpa using h.stopS i rfl
    · simpa using h.create i k
  | created o k =>
    have ho : o < w.objs.length := h.sIn i o (by rw [hi]; rfl)
    refine h.moveS (.inr rfl) ho (by simp) ?_
    intro b hb
    rw [List.append_nil]
    exact ((h.ok o b hb).resize true).srvSame i _ (fun pc t h1 => by rw [hi]; exact h1) (fun _ => by rw [hi]; rfl)
  | truncated o k =>
    have ho : o < w.objs.length := h.sIn i o (by rw [hi]; rfl)
    refine h.moveS (.inr rfl) ho (by simp) ?_
    intro b hb
    rw [List.append_nil]
    exact (h.ok o b hb).describe hi k
  | described o k =>
    have ho : o < w.objs.length := h.sIn i o (by rw [hi]; rfl)
    refine h.moveS (.inr rfl) ho (by simp) ?_
    intro b hb
    rw [List.append_nil]
    exact (h.ok o b hb).setCreator hi
  | marked o =>
    have ho : o < w.objs.length := h.sIn i o (by rw [hi]; rfl)
    dsimp only
    rw [List.getElem?_eq_getElem ho]
    dsimp only
    split
    · simpa using (h.unlink.stopS i (s := .off) rfl)
    · rw [List.append_nil]
      refine h.moveS0 rfl ho ?_
      intro b hb
      exact (h.ok o b hb).srvSame i _ (fun pc t h1 => by rw [hi]; exact h1) (fun _ => by rw [hi]; rfl)
  | looking o cap t =>
    have ho : o < w.objs.length := h.sIn i o (by rw [hi]; rfl)
    dsimp only
    rw [List.getElem?_eq_getElem ho]
    dsimp only
    have hb := h.ok o _ (List.getElem?_eq_getElem ho)
    have := hb.srvMem (i := i) (pc := .idle) (t := t) (by rw [hi]; rfl) (by rw [hi]; rfl) (e := .sRecv cap) rfl
      (s := .up o (decide ((w.objs[o]).mark = .user)) (.recv1 cap) t) rfl rfl
    refine (show Inv _ (tr ++ []) from ?_)
    rw [List.append_nil]
    refine h.moveS0 rfl ho ?_
    intro b hb'
    rw [List.getElem?_eq_getElem ho] at hb'
    cases hb'
    simpa [Mem.step] using this
  | up o conn pc t => exact h.srvMem (by rw [hi]; rfl) (by rw [hi]; rfl) conn rfl

theorem inv_cStep (h : Inv w tr) (i : Nat) : Inv (cStep w i).1 (tr ++ (cStep w i).2) := by
  unfold cStep
  cases hi : w.cli i with
  | off => simpa using h
  | ready => simpa using h
  | opened o next =>
    have ho : o < w.objs.length := h.cIn i o (by rw [hi]; rfl)
    dsimp only
    rw [List.getElem?_eq_getElem ho]
    dsimp only
    rw [List.append_nil]
    split
    · refine h.moveC0 rfl ho (fun _ => .inl (by rw [hi]; rfl)) ?_
      intro b hb
      exact (h.ok o b hb).cliSame i _ (fun pc h4 => by cases h4) (fun h4 => by cases h4) (fun h4 => by cases h4)
    · exact h.stopC i (.inr rfl)
  | statted o next =>
    have ho : o < w.objs.length := h.cIn i o (by rw [hi]; rfl)
    dsimp only
    rw [List.getElem?_eq_getElem ho]
    dsimp only
    rw [List.append_nil]
    split
    · rename_i hm
      refine h.moveC0 rfl ho (fun _ => .inl (by rw [hi]; rfl)) ?_
      intro b hb
      rw [List.getElem?_eq_getElem ho] at hb
      cases hb
      exact (h.ok o _ (List.getElem?_eq_getElem ho)).check hm i
    · exact h.stopC i (.inr rfl)
  | checked o next =>
    have ho : o < w.objs.length := h.cIn i o (by rw [hi]; rfl)
    dsimp only
    rw [List.append_nil]
    refine h.unlink.moveC0 rfl ho (fun _ => .inl (by show (w.cli i).mid = true; rw [hi]; rfl)) ?_
    intro b hb
    exact (h.ok o b hb).cliSame i _ (fun pc h4 => by cases h4) (fun _ => by rw [hi]; rfl) (fun h4 => by cases h4)
  | removed o next =>
    have ho : o < w.objs.length := h.cIn i o (by rw [hi]; rfl)
    refine h.moveC (.inr rfl) ho (by simp) (fun _ => .inl (by rw [hi]; rfl)) ?_
    intro b hb
    rw [List.append_nil]
    have hb' := h.ok o b hb
    have hn := hb'.past i (by rw [hi]; rfl)
    exact (hb'.mark (.inl rfl) (fun j hj => hn (hb'.early j hj))).cliSame i _ (fun pc h4 => by cases h4)
      (fun _ => by rw [hi]; rfl) (fun _ => .inl rfl)
  | clearing o n next =>
    have ho : o < w.objs.length := h.cIn i o (by rw [hi]; rfl)
    have hok := h.ok o _ (List.getElem?_eq_getElem ho)
    have hone : ∀ j, (w.cli j).past = some o → j = i := by
      intro j hj
      refine h.mid j i ?_ (by rw [hi]; rfl)
      cases hc : w.cli j <;> rw [hc] at hj <;> first | rfl | cases hj
    have hcon : Ok w.srv (updC w.cli i (.up o .idle)) tr o w.objs[o] :=
      hok.connect (by rw [hi]; rfl) (by rw [hi]; rfl) hone
    have hup : Inv (w.setCli i (.up o .idle)) tr := by
      refine h.moveC0 rfl ho (fun h1 => by cases h1) ?_
      intro b hb
      rw [List.getElem?_eq_getElem ho] at hb
      cases hb
      exact hcon
    dsimp only
    rw [List.getElem?_eq_getElem ho]
    dsimp only
    split
    · simpa using h.stopC i (.inr rfl)
    split
    · refine h.moveC (.inr rfl) ho (by simp) (fun _ => .inl (by rw [hi]; rfl)) ?_
      intro b hb
      rw [List.getElem?_eq_getElem ho] at hb
      cases hb
      rw [List.append_nil]
      have hcl : clear1 w.objs[o].shm n = w.objs[o].shm := by
        obtain ⟨es, y, h1, h2, h3, h4, h5⟩ := hok.sim
        have hf := h5 (.inr (.inr ⟨i, by rw [hi]; rfl⟩))
        rw [← h2, hf.shm, initClear_clear1]
      rw [hcl]
      exact hok.cliSame i _ (fun pc h4 => by cases h4) (fun _ => by rw [hi]; rfl)
        (fun _ => hok.used i (by rw [hi]; rfl))
    · cases next with
      | none => simpa using hup
      | some msg =>
        dsimp only
        have := hup.cliMem (i := i) (o := o) (pc := .idle) (if_pos rfl) (e := .cSend msg) rfl
        have heq : cliMem (w.setCli i (.up o .idle)) i o .idle (.cSend msg) = cliMem w i o .idle (.cSend msg) := by
          unfold PosixShm.cliMem World.setCli World.upd
          dsimp only
          rw [List.getElem?_eq_getElem ho]
          dsimp only
          congr 2
          funext j
          split <;> rfl
        rw [heq] at this
        exact this
  | up o pc => exact h.cliMem hi rfl

theorem inv_step (h : Inv w tr) (e : Ev) (he : OneByOne w e) : Inv (step w e).1 (tr ++ (step w e).2) := by
  cases e with
  | sInit i k =>
    unfold step
    dsimp only
    split
    · simpa using h.unlink.stopS i (s := .unlinked k) rfl
    · simpa using h
  | sStep i => exact inv_sStep h i
  | sFail i =>
    unfold step
    dsimp only
    split
    all_goals first | (simpa using h.stopS i (s := .off) rfl) | simpa using h
  | sRecv i cap =>
    unfold step
    dsimp only
    split
    · rename_i o t hi
      have ho : o < w.objs.length := h.sIn i o (by rw [hi]; rfl)
      rw [List.append_nil]
      refine h.moveS0 rfl ho ?_
      intro b hb
      exact (h.ok o b hb).srvSame i _ (fun pc t h1 => by rw [hi]; exact h1) (fun _ => by rw [hi]; rfl)
    · rename_i o t hi
      exact h.srvMem (by rw [hi]; rfl) (by rw [hi]; rfl) true rfl
    · simpa using h
  | sSend i msg =>
    unfold step
    dsimp only
    split
    · rename_i o conn t hi
      exact h.srvMem (by rw [hi]; rfl) (by rw [hi]; rfl) conn rfl
    · simpa using h
  | sCleanup i =>
    unfold step
    dsimp only
    split
    · rename_i o conn t hi
      have ho : o < w.objs.length := h.sIn i o (by rw [hi]; rfl)
      refine h.moveS (.inl rfl) ho (by simp) ?_
      intro b hb
      rw [List.append_nil]
      have hb' := h.ok o b hb
      have hn := hb'.late i (by rw [hi]; rfl) (by rw [hi]; rfl)
      exact (hb'.mark (.inr rfl) (fun j hj => hn (hb'.early j hj))).srvSame i _ (fun pc t h1 => by cases h1)
        (fun h1 => by cases h1)
    · simpa using h
  | sKill i => simpa [step] using h.stopS i (s := .off) rfl
  | cInit i =>
    unfold step
    dsimp only
    split
    · simpa using h.stopC i (.inr rfl)
    · simpa using h
  | cOpen i next =>
    unfold step
    dsimp only
    split
    · rename_i o hi hn
      have ho := h.nIn o hn
      rw [List.append_nil]
      refine h.moveC0 rfl ho (fun _ => .inr he) ?_
      intro b hb
      exact (h.ok o b hb).cliSame i _ (fun pc h4 => by cases h4) (fun h4 => by cases h4) (fun h4 => by cases h4)
    · simpa using h
  | cStep i => exact inv_cStep h i
  | cFail i =>
    unfold step
    dsimp only
    split
    all_goals first | (simpa using h.stopC i (.inr rfl)) | simpa using h
  | cSend i msg =>
    unfold step
    dsimp only
    split
    · rename_i o hi; exact h.cliMem hi rfl
    · simpa using h
  | cRecv i cap =>
    unfold step
    dsimp only
    split
    · rename_i o hi; exact h.cliMem hi rfl
    · simpa using h
  | cCleanup i =>
    unfold step
    dsimp only
    split
    · rename_i o hi
      have ho : o < w.objs.length := h.cIn i o (by rw [hi]; rfl)
      refine h.moveC (.inl rfl) ho (by simp) (fun h1 => by cases h1) ?_
      intro b hb
      rw [List.append_nil]
      have hb' := h.ok o b hb
      have hn : b.mark ≠ .none := by
        rcases hb'.used i (by rw [hi]; rfl) with h | h <;> rw [h] <;> simp
      exact (hb'.mark (.inr rfl) (fun j hj => hn (hb'.early j hj))).cliSame i _ (fun pc h1 => by cases h1)
        (fun h1 => by cases h1) (fun h1 => by cases h1)
    · simpa using h
  | cKill i => simpa [step] using h.stopC i (.inl rfl)

theorem reach_inv (h : Reach OneByOne w tr) : Inv w tr := by
  induction h with
  | start => exact inv_start
  | step e _ he ih => exact inv_step ih e he

end WolfHsm.PosixShm

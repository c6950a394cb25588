import Verif.Spec.PosixShm

/-!
# Invariant of the shared-memory meeting: each object carries one run of the memory transport
-/

namespace WolfHsm.PosixShm

open Mem (Cfg Shm CPc SPc Sys)

/-! ## Steps of the memory transport -/

theorem mem_client {e : Mem.Ev} (he : e.ofClient = true) (k : Cfg) (m : Shm) (c : CPc) (s : SPc) (t : Bool) :
    Mem.step k ⟨m, c, s, t⟩ e =
      (⟨(Mem.step k ⟨m, c, .idle, false⟩ e).1.shm, (Mem.step k ⟨m, c, .idle, false⟩ e).1.c, s, t⟩,
        (Mem.step k ⟨m, c, .idle, false⟩ e).2) := by
  cases e with
  | cSend msg =>
    simp only [Mem.step]
    split
    · split <;> rfl
    · rfl
  | cRecv cap => simp only [Mem.step]; split <;> rfl
  | cStep => rfl
  | sRecv => cases he
  | sSend => cases he
  | sStep => cases he

theorem mem_server {e : Mem.Ev} (he : e.ofClient = false) (k : Cfg) (m : Shm) (c : CPc) (s : SPc) (t : Bool) :
    Mem.step k ⟨m, c, s, t⟩ e =
      (⟨(Mem.step k ⟨m, .idle, s, t⟩ e).1.shm, c, (Mem.step k ⟨m, .idle, s, t⟩ e).1.s,
        (Mem.step k ⟨m, .idle, s, t⟩ e).1.todo⟩, (Mem.step k ⟨m, .idle, s, t⟩ e).2) := by
  cases e with
  | cSend => cases he
  | cRecv => cases he
  | cStep => cases he
  | sRecv cap => simp only [Mem.step]; split <;> rfl
  | sSend msg =>
    simp only [Mem.step]
    split
    · split <;> rfl
    · rfl
  | sStep => rfl

theorem run_snoc (k : Cfg) (y : Sys) (es : List Mem.Ev) (e : Mem.Ev) :
    Mem.run k y (es ++ [e]) =
      ((Mem.step k (Mem.run k y es).1 e).1, (Mem.run k y es).2 ++ (Mem.step k (Mem.run k y es).1 e).2.toList) := by
  induction es generalizing y with
  | nil => simp [Mem.run]
  | cons a es ih =>
    simp only [List.cons_append, Mem.run]
    rw [ih]
    simp

/-- Nobody has sent anything yet: the server may be polling. -/
structure Fresh (k : Cfg) (y : Sys) : Prop where
  shm : y.shm = Mem.initClear k
  c : y.c = .idle
  todo : y.todo = false
  s : y.s = .idle ∨ (∃ cap, y.s = .recv1 cap) ∨ ∃ cap, y.s = .recv2 cap ⟨0, 0⟩

theorem fresh_init (k : Cfg) : Fresh k (Mem.init k) := ⟨rfl, rfl, rfl, .inl rfl⟩

theorem fresh_step {k : Cfg} {y : Sys} (h : Fresh k y) {e : Mem.Ev} (he : e.ofClient = false) :
    Fresh k (Mem.step k y e).1 := by
  obtain ⟨m, c, s, t⟩ := y
  obtain ⟨h1, h2, h3, h4⟩ := h
  dsimp only at h1 h2 h3 h4
  subst h1 h2 h3
  cases e with
  | cSend => cases he
  | cRecv => cases he
  | cStep => cases he
  | sRecv cap =>
    simp only [Mem.step]
    split
    · exact ⟨rfl, rfl, rfl, .inr (.inl ⟨cap, rfl⟩)⟩
    · exact ⟨rfl, rfl, rfl, h4⟩
  | sSend msg =>
    simp only [Mem.step]
    rw [if_neg (by simp)]
    exact ⟨rfl, rfl, rfl, h4⟩
  | sStep =>
    simp only [Mem.step]
    rcases h4 with h4 | ⟨cap, h4⟩ | ⟨cap, h4⟩
    · subst h4; exact ⟨rfl, rfl, rfl, .inl rfl⟩
    · subst h4; exact ⟨rfl, rfl, rfl, .inr (.inr ⟨cap, rfl⟩)⟩
    · subst h4
      simp only [Mem.sStep]
      rw [if_pos (show (0 : UInt16) = (Mem.initClear k).resp.notify from rfl)]
      exact ⟨rfl, rfl, rfl, .inl rfl⟩

theorem initClear_clear1 (k : Cfg) (n : Nat) : clear1 (Mem.initClear k) n = Mem.initClear k := by
  have hset : ∀ (n i : Nat), (List.replicate n (0 : UInt8)).set i 0 = List.replicate n 0 := by
    intro n i
    apply List.ext_getElem?
    intro j
    rw [List.getElem?_set]
    split
    · rename_i h; subst h
      split
      · rename_i h; rw [List.getElem?_replicate, if_pos (by simpa using h)]
      · rename_i h; rw [List.getElem?_eq_none (by simpa using h)]
    · rfl
  unfold clear1 Mem.initClear
  dsimp only
  split
  · rfl
  split
  · rw [hset]
  split
  · rfl
  · rw [hset]

/-! ## Where processes are -/

def SAt.obj : SAt → Option Nat
  | .off | .unlinked _ => none
  | .created o _ | .truncated o _ | .described o _ | .marked o | .looking o _ _ | .up o _ _ _ => some o

/-- Before the mark. -/
def SAt.early : SAt → Option Nat
  | .created o _ | .truncated o _ | .described o _ => some o
  | _ => none

/-- What the server of an object is to the memory transport. -/
def SAt.pc : SAt → Option (Nat × SPc × Bool)
  | .off | .unlinked _ => none
  | .created o _ | .truncated o _ | .described o _ | .marked o => some (o, .idle, false)
  | .looking o _ t => some (o, .idle, t)
  | .up o _ pc t => some (o, pc, t)

def CAt.obj : CAt → Option Nat
  | .off | .ready => none
  | .opened o _ | .statted o _ | .checked o _ | .removed o _ | .clearing o _ _ | .up o _ => some o

/-- Past the check of the mark and not connected yet. -/
def CAt.past : CAt → Option Nat
  | .checked o _ | .removed o _ | .clearing o _ _ => some o
  | _ => none

/-- Past setting the mark USER. -/
def CAt.taken : CAt → Option Nat
  | .clearing o _ _ | .up o _ => some o
  | _ => none

def CAt.pc : CAt → Option (Nat × CPc)
  | .up o pc => some (o, pc)
  | _ => none

theorem SAt.obj_pc (s : SAt) : s.obj = s.pc.map (·.1) := by cases s <;> rfl

theorem SAt.early_obj {s : SAt} {o : Nat} (h : s.early = some o) : s.obj = some o := by
  cases s <;> simp_all [SAt.early, SAt.obj]

theorem on_append (o : Nat) (tr l : List Seen) : on o (tr ++ l) = on o tr ++ on o l := by
  unfold on
  rw [List.filter_append, List.map_append]

theorem on_map (o i : Nat) (l : List Mem.Obs) : on o (l.map fun x => (⟨o, i, x⟩ : Seen)) = l := by
  induction l with
  | nil => rfl
  | cons a l ih =>
    unfold on at ih ⊢
    simp only [List.map_cons, List.filter_cons, decide_true, if_true]
    rw [ih]

theorem on_map_ne {o o' : Nat} (h : o ≠ o') (i : Nat) (l : List Mem.Obs) :
    on o (l.map fun x => (⟨o', i, x⟩ : Seen)) = [] := by
  unfold on
  rw [List.map_eq_nil_iff, List.filter_eq_nil_iff]
  intro a ha
  obtain ⟨x, _, rfl⟩ := List.mem_map.1 ha
  simp
  exact fun h' => h h'.symm

/-- Everything about one object. -/
structure Ok (srv : Nat → SAt) (cli : Nat → CAt) (tr : List Seen) (o : Nat) (b : Obj) : Prop where
  sim : ∃ es y, Mem.run b.k (Mem.init b.k) es = (y, on o tr) ∧ y.shm = b.shm ∧
    (∀ i pc, (cli i).pc = some (o, pc) → y.c = pc) ∧
    (∀ i pc t, (srv i).pc = some (o, pc, t) → y.s = pc ∧ y.todo = t) ∧
    (b.mark = .none ∨ b.mark = .creator ∨ (∃ i, (cli i).past = some o) → Fresh b.k y)
  new : b.mark = .none → on o tr = [] ∧ b.shm = Mem.initClear b.k
  past : ∀ i, (cli i).past = some o → b.mark ≠ .none
  used : ∀ i, (cli i).taken = some o → b.mark = .user ∨ b.mark = .cleanup
  early : ∀ i, (srv i).early = some o → b.mark = .none
  late : ∀ i, (srv i).obj = some o → (srv i).early = none → b.mark ≠ .none
  oneS : ∀ i j, (srv i).obj = some o → (srv j).obj = some o → i = j
  oneC : ∀ i j pc pc', (cli i).pc = some (o, pc) → (cli j).pc = some (o, pc') → i = j
  alone : ∀ i j pc, (cli i).past = some o → (cli j).pc ≠ some (o, pc)
  whoC : ∀ s ∈ tr, s.obj = o → byClient s.obs = true → (b.mark = .user ∨ b.mark = .cleanup) ∧
    (∀ i, (cli i).past ≠ some o) ∧ (∀ i pc, (cli i).pc = some (o, pc) → i = s.who) ∧
    ∀ s' ∈ tr, s'.obj = o → byClient s'.obs = true → s'.who = s.who
  whoS : ∀ s ∈ tr, s.obj = o → byServer s.obs = true → (∀ i, (srv i).obj = some o → i = s.who) ∧
    ∀ s' ∈ tr, s'.obj = o → byServer s'.obs = true → s'.who = s.who

/-- The invariant. -/
structure Inv (w : World) (tr : List Seen) : Prop where
  ok : ∀ o b, w.objs[o]? = some b → Ok w.srv w.cli tr o b
  sIn : ∀ i o, (w.srv i).obj = some o → o < w.objs.length
  cIn : ∀ i o, (w.cli i).obj = some o → o < w.objs.length
  nIn : ∀ o, w.name = some o → o < w.objs.length
  tIn : ∀ s ∈ tr, s.obj < w.objs.length
  mid : ∀ i j, (w.cli i).mid = true → (w.cli j).mid = true → i = j

def updS (srv : Nat → SAt) (i : Nat) (s : SAt) : Nat → SAt := fun j => if j = i then s else srv j
def updC (cli : Nat → CAt) (i : Nat) (s : CAt) : Nat → CAt := fun j => if j = i then s else cli j

theorem updS_self (srv i s) : updS srv i s i = s := if_pos rfl
theorem updC_self (cli i s) : updC cli i s i = s := if_pos rfl

variable {srv : Nat → SAt} {cli : Nat → CAt} {tr : List Seen} {o : Nat} {b : Obj}

/-- A server's move that is no move for this object. -/
theorem Ok.srvSame (h : Ok srv cli tr o b) (i : Nat) (s : SAt)
    (hp : ∀ pc t, s.pc = some (o, pc, t) → (srv i).pc = some (o, pc, t))
    (he : s.obj = some o → s.early = (srv i).early) : Ok (updS srv i s) cli tr o b := by
  have ho : s.obj = some o → (srv i).obj = some o := by
    intro h1
    rw [SAt.obj_pc] at h1 ⊢
    cases hs : s.pc with
    | none => rw [hs] at h1; cases h1
    | some p =>
      obtain ⟨o', pc, t⟩ := p
      rw [hs] at h1
      cases h1
      rw [hp _ _ hs]
      rfl
  have hobj : ∀ j, (updS srv i s j).obj = some o → (srv j).obj = some o := by
    intro j hj
    unfold updS at hj
    split at hj
    · rename_i h1; subst h1; exact ho hj
    · exact hj
  refine { h with sim := ?_, early := ?_, late := ?_, oneS := ?_, whoS := ?_ }
  · obtain ⟨es, y, h1, h2, h3, h4, h5⟩ := h.sim
    refine ⟨es, y, h1, h2, h3, ?_, h5⟩
    intro j pc t hj
    unfold updS at hj
    split at hj
    · exact h4 i pc t (hp _ _ hj)
    · exact h4 j pc t hj
  · intro j hj
    unfold updS at hj
    split at hj
    · exact h.early i (by rw [← he (SAt.early_obj hj)]; exact hj)
    · exact h.early j hj
  · intro j hj hj'
    unfold updS at hj hj'
    split at hj
    · rename_i h1
      rw [if_pos h1] at hj'
      exact h.late i (ho hj) (by rw [← he hj]; exact hj')
    · rename_i h1
      rw [if_neg h1] at hj'
      exact h.late j hj hj'
  · intro j j' hj hj'
    exact h.oneS j j' (hobj j hj) (hobj j' hj')
  · intro x hx h1 h2
    exact ⟨fun j hj => (h.whoS x hx h1 h2).1 j (hobj j hj), (h.whoS x hx h1 h2).2⟩

/-- A client's move that is no move for this object. -/
theorem Ok.cliSame (h : Ok srv cli tr o b) (i : Nat) (s : CAt)
    (hp : ∀ pc, s.pc = some (o, pc) → (cli i).pc = some (o, pc))
    (hq : s.past = some o → (cli i).past = some o)
    (ht : s.taken = some o → b.mark = .user ∨ b.mark = .cleanup) : Ok srv (updC cli i s) tr o b := by
  have hpast : ∀ j, (updC cli i s j).past = some o → (cli j).past = some o := by
    intro j hj
    unfold updC at hj
    split at hj
    · rename_i h1; subst h1; exact hq hj
    · exact hj
  have hpc : ∀ j pc, (updC cli i s j).pc = some (o, pc) → (cli j).pc = some (o, pc) := by
    intro j pc hj
    unfold updC at hj
    split at hj
    · rename_i h1; subst h1; exact hp _ hj
    · exact hj
  refine { h with sim := ?_, past := ?_, used := ?_, oneC := ?_, alone := ?_, whoC := ?_ }
  · obtain ⟨es, y, h1, h2, h3, h4, h5⟩ := h.sim
    refine ⟨es, y, h1, h2, fun j pc hj => h3 j pc (hpc j pc hj), h4, ?_⟩
    intro h6
    apply h5
    rcases h6 with h6 | h6 | ⟨j, h6⟩
    · exact .inl h6
    · exact .inr (.inl h6)
    · exact .inr (.inr ⟨j, hpast j h6⟩)
  · exact fun j hj => h.past j (hpast j hj)
  · intro j hj
    unfold updC at hj
    split at hj
    · exact ht hj
    · exact h.used j hj
  · exact fun j j' pc pc' h1 h2 => h.oneC j j' pc pc' (hpc _ _ h1) (hpc _ _ h2)
  · exact fun j j' pc h1 h2 => h.alone j j' pc (hpast _ h1) (hpc _ _ h2)
  · intro x hx h1 h2
    obtain ⟨h3, h4, h5, h6⟩ := h.whoC x hx h1 h2
    exact ⟨h3, fun j hj => h4 j (hpast j hj), fun j pc hj => h5 j pc (hpc j pc hj), h6⟩

/-- Observations on another object. -/
theorem Ok.traceOther (h : Ok srv cli tr o b) {l : List Seen} (hl : ∀ s ∈ l, s.obj ≠ o) :
    Ok srv cli (tr ++ l) o b := by
  have hon : on o (tr ++ l) = on o tr := by
    rw [on_append]
    rw [show on o l = [] from ?_, List.append_nil]
    unfold on
    rw [List.map_eq_nil_iff, List.filter_eq_nil_iff]
    intro a ha
    simpa using hl a ha
  have hmem : ∀ s ∈ tr ++ l, s.obj = o → s ∈ tr := by
    intro s hs h1
    rcases List.mem_append.1 hs with h2 | h2
    · exact h2
    · exact absurd h1 (hl s h2)
  refine { h with sim := ?_, new := ?_, whoC := ?_, whoS := ?_ }
  · rw [hon]; exact h.sim
  · rw [hon]; exact h.new
  · intro x hx h1 h2
    obtain ⟨h3, h4, h5, h6⟩ := h.whoC x (hmem x hx h1) h1 h2
    exact ⟨h3, h4, h5, fun s' hs' h1' h2' => h6 s' (hmem s' hs' h1') h1' h2'⟩
  · intro x hx h1 h2
    obtain ⟨h3, h4⟩ := h.whoS x (hmem x hx h1) h1 h2
    exact ⟨h3, fun s' hs' h1' h2' => h4 s' (hmem s' hs' h1') h1' h2'⟩

/-- The mark moves on to `user` or `cleanup`. -/
theorem Ok.mark (h : Ok srv cli tr o b) {m : Mark} (hm : m = .user ∨ m = .cleanup)
    (he : ∀ i, (srv i).early ≠ some o) : Ok srv cli tr o { b with mark := m } := by
  have hn : m ≠ .none := by rcases hm with h | h <;> rw [h] <;> simp
  have hc : m ≠ .creator := by rcases hm with h | h <;> rw [h] <;> simp
  refine { sim := ?_, new := fun h1 => absurd h1 hn, past := fun _ _ => hn, used := fun _ _ => hm,
           early := fun i hi => absurd hi (he i), late := fun _ _ _ => hn, oneS := h.oneS, oneC := h.oneC, alone := h.alone, whoC := ?_,
           whoS := h.whoS }
  · obtain ⟨es, y, h1, h2, h3, h4, h5⟩ := h.sim
    refine ⟨es, y, h1, h2, h3, h4, ?_⟩
    rintro (h6 | h6 | h6)
    · exact absurd h6 hn
    · exact absurd h6 hc
    · exact h5 (.inr (.inr h6))
  · intro x hx h1 h2
    exact ⟨hm, (h.whoC x hx h1 h2).2⟩

theorem srvObs {e : Mem.Ev} (he : e.ofClient = false) {k : Cfg} {y : Sys} {x : Mem.Obs}
    (h : (Mem.step k y e).2 = some x) : byClient x = false := by
  cases e with
  | cSend => cases he
  | cRecv => cases he
  | cStep => cases he
  | sRecv cap => simp only [Mem.step] at h; split at h <;> cases h
  | sSend msg =>
    simp only [Mem.step] at h
    split at h
    · split at h
      · cases h; rfl
      · cases h
    · cases h
  | sStep =>
    simp only [Mem.step] at h
    revert h
    unfold Mem.sStep
    split
    · intro h; cases h
    · intro h; cases h
    · split
      · intro h; cases h; rfl
      · intro h; cases h
    · split
      · split <;> (intro h; cases h)
      · intro h; cases h; rfl
    · intro h; cases h
    · intro h; cases h
    · split
      · split <;> (intro h; cases h)
      · intro h; cases h; rfl

theorem cliObs {e : Mem.Ev} (he : e.ofClient = true) {k : Cfg} {y : Sys} {x : Mem.Obs}
    (h : (Mem.step k y e).2 = some x) : byServer x = false := by
  cases e with
  | sSend => cases he
  | sRecv => cases he
  | sStep => cases he
  | cRecv cap => simp only [Mem.step] at h; split at h <;> cases h
  | cSend msg =>
    simp only [Mem.step] at h
    split at h
    · split at h
      · cases h; rfl
      · cases h
    · cases h
  | cStep =>
    simp only [Mem.step] at h
    revert h
    unfold Mem.cStep
    split
    · intro h; cases h
    · intro h; cases h
    · split
      · intro h; cases h; rfl
      · intro h; cases h
    · split
      · split <;> (intro h; cases h)
      · intro h; cases h; rfl
    · intro h; cases h
    · split
      · intro h; cases h; rfl
      · intro h; cases h
    · split
      · split <;> (intro h; cases h)
      · intro h; cases h; rfl

/-- The server acts on its object. -/
theorem Ok.srvMem (h : Ok srv cli tr o b) {i : Nat} {pc : SPc} {t : Bool} (hi : (srv i).pc = some (o, pc, t))
    (hl : (srv i).early = none) {e : Mem.Ev} (he : e.ofClient = false) {s : SAt}
    (hs : s.pc = some (o, (Mem.step b.k ⟨b.shm, .idle, pc, t⟩ e).1.s, (Mem.step b.k ⟨b.shm, .idle, pc, t⟩ e).1.todo))
    (hsl : s.early = none) :
    Ok (updS srv i s) cli (tr ++ (Mem.step b.k ⟨b.shm, .idle, pc, t⟩ e).2.toList.map fun x => ⟨o, i, x⟩) o
      { b with shm := (Mem.step b.k ⟨b.shm, .idle, pc, t⟩ e).1.shm } := by
  have hio : (srv i).obj = some o := by rw [SAt.obj_pc, hi]; rfl
  have hso : s.obj = some o := by rw [SAt.obj_pc, hs]; rfl
  have hmark : b.mark ≠ .none := h.late i hio hl
  have hobj : ∀ j, (updS srv i s j).obj = some o → j = i := by
    intro j hj
    unfold updS at hj
    split at hj
    · assumption
    · exact h.oneS j i hj hio
  have hnew : ∀ x ∈ (Mem.step b.k ⟨b.shm, .idle, pc, t⟩ e).2.toList.map (fun x => (⟨o, i, x⟩ : Seen)),
      x.who = i ∧ byClient x.obs = false := by
    intro x hx
    obtain ⟨a, ha, rfl⟩ := List.mem_map.1 hx
    exact ⟨rfl, srvObs he (Option.mem_toList.1 ha)⟩
  refine { sim := ?_, new := fun h1 => absurd h1 hmark, past := h.past, used := h.used, early := ?_,
           late := fun _ _ _ => hmark, oneS := ?_, oneC := h.oneC, alone := h.alone, whoC := ?_, whoS := ?_ }
  · obtain ⟨es, y, h1, h2, h3, h4, h5⟩ := h.sim
    obtain ⟨h6, h7⟩ := h4 i pc t hi
    obtain ⟨m, c, s', t'⟩ := y
    dsimp only at h2 h3 h6 h7
    subst h2 h6 h7
    refine ⟨es ++ [e], _, Prod.ext rfl ?_, ?_, ?_, ?_, ?_⟩
    · show (Mem.run b.k (Mem.init b.k) (es ++ [e])).2 = _
      rw [run_snoc, h1, on_append, on_map, mem_server he]
    · show (Mem.run b.k (Mem.init b.k) (es ++ [e])).1.shm = _
      rw [run_snoc, h1, mem_server he]
    · intro j pc' hj
      show (Mem.run b.k (Mem.init b.k) (es ++ [e])).1.c = _
      rw [run_snoc, h1, mem_server he]
      exact h3 j pc' hj
    · intro j pc' t' hj
      have hji : j = i := hobj j (by rw [SAt.obj_pc, hj]; rfl)
      subst hji
      rw [updS_self, hs] at hj
      cases hj
      show (Mem.run b.k (Mem.init b.k) (es ++ [e])).1.s = _ ∧ (Mem.run b.k (Mem.init b.k) (es ++ [e])).1.todo = _
      rw [run_snoc, h1, mem_server he]
      exact ⟨rfl, rfl⟩
    · intro h6
      show Fresh b.k (Mem.run b.k (Mem.init b.k) (es ++ [e])).1
      rw [run_snoc, h1]
      exact fresh_step (h5 h6) he
  · intro j hj
    have hji : j = i := hobj j (SAt.early_obj hj)
    subst hji
    rw [updS_self, hsl] at hj
    cases hj
  · intro j j' hj hj'
    rw [hobj j hj, hobj j' hj']
  · intro x hx h1 h2
    rcases List.mem_append.1 hx with h3 | h3
    · obtain ⟨h4, h5, h6, h7⟩ := h.whoC x h3 h1 h2
      refine ⟨h4, h5, h6, ?_⟩
      intro s' hs' h1' h2'
      rcases List.mem_append.1 hs' with h8 | h8
      · exact h7 s' h8 h1' h2'
      · rw [(hnew s' h8).2] at h2'; cases h2'
    · rw [(hnew x h3).2] at h2; cases h2
  · have hall : ∀ x ∈ tr ++ (Mem.step b.k ⟨b.shm, .idle, pc, t⟩ e).2.toList.map (fun x => (⟨o, i, x⟩ : Seen)),
        x.obj = o → byServer x.obs = true → x.who = i := by
      intro x hx h1 h2
      rcases List.mem_append.1 hx with h3 | h3
      · exact ((h.whoS x h3 h1 h2).1 i hio).symm
      · exact (hnew x h3).1
    intro x hx h1 h2
    refine ⟨fun j hj => by rw [hobj j hj, hall x hx h1 h2], ?_⟩
    intro s' hs' h1' h2'
    rw [hall x hx h1 h2, hall s' hs' h1' h2']

/-- The client acts on its object. -/
theorem Ok.cliMem (h : Ok srv cli tr o b) {i : Nat} {pc : CPc} (hi : (cli i).pc = some (o, pc))
    (hit : (cli i).taken = some o) {e : Mem.Ev} (he : e.ofClient = true) {s : CAt}
    (hs : s = .up o (Mem.step b.k ⟨b.shm, pc, .idle, false⟩ e).1.c) :
    Ok srv (updC cli i s) (tr ++ (Mem.step b.k ⟨b.shm, pc, .idle, false⟩ e).2.toList.map fun x => ⟨o, i, x⟩) o
      { b with shm := (Mem.step b.k ⟨b.shm, pc, .idle, false⟩ e).1.shm } := by
  have hmark := h.used i hit
  have hn : b.mark ≠ .none := by rcases hmark with h | h <;> rw [h] <;> simp
  have hc : b.mark ≠ .creator := by rcases hmark with h | h <;> rw [h] <;> simp
  have hpast : ∀ j, (updC cli i s j).past ≠ some o := by
    intro j hj
    unfold updC at hj
    split at hj
    · rw [hs] at hj; cases hj
    · exact h.alone j i pc hj hi
  have hobj : ∀ j pc', (updC cli i s j).pc = some (o, pc') → j = i := by
    intro j pc' hj
    unfold updC at hj
    split at hj
    · assumption
    · exact h.oneC j i pc' pc hj hi
  have hnew : ∀ x ∈ (Mem.step b.k ⟨b.shm, pc, .idle, false⟩ e).2.toList.map (fun x => (⟨o, i, x⟩ : Seen)),
      x.who = i ∧ byServer x.obs = false := by
    intro x hx
    obtain ⟨a, ha, rfl⟩ := List.mem_map.1 hx
    exact ⟨rfl, cliObs he (Option.mem_toList.1 ha)⟩
  refine { sim := ?_, new := fun h1 => absurd h1 hn, past := fun _ _ => hn, used := fun _ _ => hmark,
           early := h.early, late := h.late, oneS := h.oneS, oneC := ?_, alone := fun j _ _ hj => absurd hj (hpast j),
           whoC := ?_, whoS := ?_ }
  · obtain ⟨es, y, h1, h2, h3, h4, h5⟩ := h.sim
    have h6 := h3 i pc hi
    obtain ⟨m, c, s', t'⟩ := y
    dsimp only at h2 h3 h4 h6
    subst h2 h6
    refine ⟨es ++ [e], _, Prod.ext rfl ?_, ?_, ?_, ?_, ?_⟩
    · show (Mem.run b.k (Mem.init b.k) (es ++ [e])).2 = _
      rw [run_snoc, h1, on_append, on_map, mem_client he]
    · show (Mem.run b.k (Mem.init b.k) (es ++ [e])).1.shm = _
      rw [run_snoc, h1, mem_client he]
    · intro j pc' hj
      have hji : j = i := hobj j pc' hj
      subst hji
      rw [updC_self, hs] at hj
      cases hj
      show (Mem.run b.k (Mem.init b.k) (es ++ [e])).1.c = _
      rw [run_snoc, h1, mem_client he]
    · intro j pc' t'' hj
      show (Mem.run b.k (Mem.init b.k) (es ++ [e])).1.s = _ ∧ (Mem.run b.k (Mem.init b.k) (es ++ [e])).1.todo = _
      rw [run_snoc, h1, mem_client he]
      exact h4 j pc' t'' hj
    · rintro (h6 | h6 | ⟨j, h6⟩)
      · exact absurd h6 hn
      · exact absurd h6 hc
      · exact absurd h6 (hpast j)
  · intro j j' pc1 pc2 hj hj'
    rw [hobj j _ hj, hobj j' _ hj']
  · have hall : ∀ x ∈ tr ++ (Mem.step b.k ⟨b.shm, pc, .idle, false⟩ e).2.toList.map (fun x => (⟨o, i, x⟩ : Seen)),
        x.obj = o → byClient x.obs = true → x.who = i := by
      intro x hx h1 h2
      rcases List.mem_append.1 hx with h3 | h3
      · exact ((h.whoC x h3 h1 h2).2.2.1 i pc hi).symm
      · exact (hnew x h3).1
    intro x hx h1 h2
    refine ⟨hmark, hpast, fun j pc' hj => by rw [hobj j pc' hj, hall x hx h1 h2], ?_⟩
    intro s' hs' h1' h2'
    rw [hall x hx h1 h2, hall s' hs' h1' h2']
  · intro x hx h1 h2
    rcases List.mem_append.1 hx with h3 | h3
    · obtain ⟨h4, h5⟩ := h.whoS x h3 h1 h2
      refine ⟨h4, ?_⟩
      intro s' hs' h1' h2'
      rcases List.mem_append.1 hs' with h8 | h8
      · exact h5 s' h8 h1' h2'
      · rw [(hnew s' h8).2] at h2'; cases h2'
    · rw [(hnew x h3).2] at h2; cases h2

/-- The last step of connecting. -/
theorem Ok.connect (h : Ok srv cli tr o b) {i : Nat} (hi : (cli i).past = some o) (ht : (cli i).taken = some o)
    (hone : ∀ j, (cli j).past = some o → j = i) : Ok srv (updC cli i (.up o .idle)) tr o b := by
  have hmark := h.used i ht
  have hpast : ∀ j, (updC cli i (.up o .idle) j).past ≠ some o := by
    intro j hj
    unfold updC at hj
    split at hj
    · cases hj
    · rename_i h1; exact h1 (hone j hj)
  have hpc : ∀ j pc, (updC cli i (.up o .idle) j).pc = some (o, pc) → j = i ∧ pc = .idle := by
    intro j pc hj
    unfold updC at hj
    split at hj
    · rename_i h1; cases hj; exact ⟨h1, rfl⟩
    · exact absurd hj (h.alone i j pc hi)
  refine { h with sim := ?_, past := fun j hj => absurd hj (hpast j), used := fun _ _ => hmark, oneC := ?_,
                  alone := fun j _ _ hj => absurd hj (hpast j), whoC := ?_ }
  · obtain ⟨es, y, h1, h2, h3, h4, h5⟩ := h.sim
    have hf := h5 (.inr (.inr ⟨i, hi⟩))
    refine ⟨es, y, h1, h2, ?_, h4, fun _ => hf⟩
    intro j pc hj
    rw [hf.c, (hpc j pc hj).2]
  · intro j j' pc pc' hj hj'
    rw [(hpc j pc hj).1, (hpc j' pc' hj').1]
  · intro x hx h1 h2
    exact absurd hi ((h.whoC x hx h1 h2).2.1 i)

/-- The check of the mark succeeds. -/
theorem Ok.check (h : Ok srv cli tr o b) (hm : b.mark = .creator) (i : Nat) {next : Option (List UInt8)} :
    Ok srv (updC cli i (.checked o next)) tr o b := by
  have hno : ∀ j, (cli j).taken ≠ some o := by
    intro j hj
    rcases h.used j hj with h1 | h1 <;> rw [hm] at h1 <;> cases h1
  have hnopc : ∀ j pc, (updC cli i (.checked o next) j).pc ≠ some (o, pc) := by
    intro j pc hj
    unfold updC at hj
    split at hj
    · cases hj
    · apply hno j
      cases hc : cli j with
      | up o' pc' => rw [hc] at hj; cases hj; rfl
      | _ => rw [hc] at hj; cases hj
  refine { h with sim := ?_, past := ?_, used := ?_, oneC := ?_, alone := fun _ j pc _ => hnopc j pc, whoC := ?_ }
  · obtain ⟨es, y, h1, h2, h3, h4, h5⟩ := h.sim
    exact ⟨es, y, h1, h2, fun j pc hj => absurd hj (hnopc j pc), h4, fun _ => h5 (.inr (.inl hm))⟩
  · intro _ _; rw [hm]; simp
  · intro j hj
    unfold updC at hj
    split at hj
    · cases hj
    · exact absurd hj (hno j)
  · exact fun j _ pc _ hj => absurd hj (hnopc j pc)
  · intro x hx h1 h2
    rcases (h.whoC x hx h1 h2).1 with h3 | h3 <;> rw [hm] at h3 <;> cases h3

/-- No client has anything to do with an object without mark. -/
theorem Ok.nobody (h : Ok srv cli tr o b) (hm : b.mark = .none) (j : Nat) :
    (cli j).past ≠ some o ∧ (cli j).taken ≠ some o ∧ ∀ pc, (cli j).pc ≠ some (o, pc) := by
  have h2 : (cli j).taken ≠ some o := by
    intro hj
    rcases h.used j hj with h1 | h1 <;> rw [hm] at h1 <;> cases h1
  refine ⟨fun hj => h.past j hj hm, h2, ?_⟩
  intro pc hj
  apply h2
  cases hc : cli j with
  | up o' pc' => rw [hc] at hj; cases hj; rfl
  | _ => rw [hc] at hj; cases hj

/-- The sizes are written into the header. -/
theorem Ok.describe (h : Ok srv cli tr o b) {i : Nat} {k' : Cfg} (hi : srv i = .truncated o k') (k : Cfg) :
    Ok (updS srv i (.described o k)) cli tr o { b with k := k, shm := Mem.initClear k } := by
  have hm := h.early i (by rw [hi]; rfl)
  have hobj : ∀ j, (updS srv i (.described o k) j).obj = some o → j = i := by
    intro j hj
    unfold updS at hj
    split at hj
    · assumption
    · exact h.oneS j i hj (by rw [hi]; rfl)
  refine { h with sim := ?_, new := fun _ => ⟨(h.new hm).1, rfl⟩, early := fun _ _ => hm, late := ?_, oneS := ?_,
                  whoS := ?_ }
  · refine ⟨[], Mem.init k, by rw [(h.new hm).1]; rfl, rfl, fun j pc hj => absurd hj ((h.nobody hm j).2.2 pc), ?_,
      fun _ => fresh_init k⟩
    intro j pc t hj
    have hji := hobj j (by rw [SAt.obj_pc, hj]; rfl)
    subst hji
    rw [updS_self] at hj
    cases hj
    exact ⟨rfl, rfl⟩
  · intro j hj hj'
    have hji := hobj j hj
    subst hji
    rw [updS_self] at hj'
    cases hj'
  · intro j j' hj hj'
    rw [hobj j hj, hobj j' hj']
  · intro x hx h1 h2
    exact ⟨fun j hj => (h.whoS x hx h1 h2).1 j (by rw [hobj j hj, hi]; rfl), (h.whoS x hx h1 h2).2⟩

/-- The mark CREATOR is set. -/
theorem Ok.setCreator (h : Ok srv cli tr o b) {i : Nat} {k' : Cfg} (hi : srv i = .described o k') :
    Ok (updS srv i (.marked o)) cli tr o { b with mark := .creator } := by
  have hm := h.early i (by rw [hi]; rfl)
  have hobj : ∀ j, (updS srv i (.marked o) j).obj = some o → j = i := by
    intro j hj
    unfold updS at hj
    split at hj
    · assumption
    · exact h.oneS j i hj (by rw [hi]; rfl)
  refine { h with sim := ?_, new := fun h1 => (Mark.noConfusion h1), past := fun j hj => absurd hj (h.nobody hm j).1,
                  used := fun j hj => absurd hj (h.nobody hm j).2.1, early := ?_, late := fun _ _ _ => (fun h1 => Mark.noConfusion h1),
                  oneS := ?_, whoC := ?_, whoS := ?_ }
  · obtain ⟨es, y, h1, h2, h3, h4, h5⟩ := h.sim
    refine ⟨es, y, h1, h2, h3, ?_, fun _ => h5 (.inl hm)⟩
    intro j pc t hj
    have hji := hobj j (by rw [SAt.obj_pc, hj]; rfl)
    subst hji
    rw [updS_self] at hj
    cases hj
    exact h4 j _ _ (by rw [hi]; rfl)
  · intro j hj
    have hji := hobj j (SAt.early_obj hj)
    subst hji
    rw [updS_self] at hj
    cases hj
  · intro j j' hj hj'
    rw [hobj j hj, hobj j' hj']
  · intro x hx h1 h2
    rcases (h.whoC x hx h1 h2).1 with h3 | h3 <;> rw [hm] at h3 <;> cases h3
  · intro x hx h1 h2
    exact ⟨fun j hj => (h.whoS x hx h1 h2).1 j (by rw [hobj j hj, hi]; rfl), (h.whoS x hx h1 h2).2⟩

theorem Ok.resize (h : Ok srv cli tr o b) (x : Bool) : Ok srv cli tr o { b with sized := x } := { h with }

/-- A new object. -/
theorem Ok.create (i : Nat) (k : Cfg) (x : Bool) (hs : ∀ j, (srv j).obj ≠ some o)
    (hc : ∀ j, (cli j).obj ≠ some o) (ht : ∀ s ∈ tr, s.obj ≠ o) :
    Ok (updS srv i (.created o k)) cli tr o ⟨x, .none, ⟨0, 0⟩, Mem.initClear ⟨0, 0⟩⟩ := by
  have hobj : ∀ j, (updS srv i (.created o k) j).obj = some o → j = i := by
    intro j hj
    unfold updS at hj
    split at hj
    · assumption
    · exact absurd hj (hs j)
  have hpast : ∀ j, (cli j).past ≠ some o := by
    intro j hj
    apply hc j
    cases hcj : cli j <;> rw [hcj] at hj <;> first | (cases hj; rfl) | cases hj
  have hpc : ∀ j pc, (cli j).pc ≠ some (o, pc) := by
    intro j pc hj
    apply hc j
    cases hcj : cli j <;> rw [hcj] at hj <;> first | (cases hj; rfl) | cases hj
  have htk : ∀ j, (cli j).taken ≠ some o := by
    intro j hj
    apply hc j
    cases hcj : cli j <;> rw [hcj] at hj <;> first | (cases hj; rfl) | cases hj
  have hon : on o tr = [] := by
    unfold on
    rw [List.map_eq_nil_iff, List.filter_eq_nil_iff]
    intro a ha
    simpa using ht a ha
  refine { sim := ?_, new := fun _ => ⟨hon, rfl⟩, past := fun j hj => absurd hj (hpast j),
           used := fun j hj => absurd hj (htk j), early := fun _ _ => rfl, late := ?_,
           oneS := fun j j' hj hj' => by rw [hobj j hj, hobj j' hj'],
           oneC := fun j _ pc _ hj => absurd hj (hpc j pc), alone := fun _ j pc _ => hpc j pc,
           whoC := fun s hs h1 => absurd h1 (ht s hs), whoS := fun s hs h1 => absurd h1 (ht s hs) }
  · refine ⟨[], Mem.init ⟨0, 0⟩, by rw [hon]; rfl, rfl, fun j pc hj => absurd hj (hpc j pc), ?_,
      fun _ => fresh_init _⟩
    intro j pc t hj
    have hji := hobj j (by rw [SAt.obj_pc, hj]; rfl)
    subst hji
    rw [updS_self] at hj
    cases hj
    exact ⟨rfl, rfl⟩
  · intro j hj hj'
    have hji := hobj j hj
    subst hji
    rw [updS_self] at hj'
    cases hj'

end WolfHsm.PosixShm

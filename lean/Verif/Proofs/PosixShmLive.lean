import Verif.Proofs.PosixShmInv

/-!
# Connecting, and not connecting any more
-/

namespace WolfHsm.PosixShm

theorem run_append (w : World) (es es' : List Ev) :
    run w (es ++ es') = ((run (run w es).1 es').1, (run w es).2 ++ (run (run w es).1 es').2) := by
  induction es generalizing w with
  | nil => simp [run]
  | cons e es ih =>
    simp only [List.cons_append, run]
    rw [ih]
    simp

theorem reach_run {w : World} {tr : List Seen} (h : Reach Anyhow w tr) (es : List Ev) :
    Reach Anyhow (run w es).1 (tr ++ (run w es).2) := by
  induction es generalizing w tr with
  | nil => simpa [run] using h
  | cons e es ih =>
    simp only [run]
    rw [← List.append_assoc]
    exact ih (.step e h trivial)

/-! ## Connecting -/

theorem clear1_length (m : Mem.Shm) (n : Nat) :
    (clear1 m n).reqData.length = m.reqData.length ∧ (clear1 m n).respData.length = m.respData.length := by
  unfold clear1
  split
  · exact ⟨rfl, rfl⟩
  split
  · exact ⟨List.length_set .., rfl⟩
  split
  · exact ⟨rfl, rfl⟩
  · exact ⟨rfl, List.length_set ..⟩

theorem get_upd {w : World} {o : Nat} {b : Obj} (h : w.objs[o]? = some b) (f : Obj → Obj) :
    (w.upd o f).objs[o]? = some (f b) := by
  unfold World.upd
  dsimp only
  rw [List.getElem?_modify, h]
  simp

theorem clearing_run {i o : Nat} (r : Nat) : ∀ (w : World) (n : Nat) (b : Obj), w.objs[o]? = some b → b.mark = .user →
    b.k.reqSize ≠ 0 → b.k.respSize ≠ 0 → w.cli i = .clearing o n none →
    n + r = 2 + b.shm.reqData.length + b.shm.respData.length →
    ∃ b', (run w (List.replicate (r + 1) (.cStep i))).1.objs[o]? = some b' ∧ b'.mark = .user ∧
      (run w (List.replicate (r + 1) (.cStep i))).1.cli i = .up o .idle ∧
      (run w (List.replicate (r + 1) (.cStep i))).1.name = w.name ∧
      (run w (List.replicate (r + 1) (.cStep i))).2 = [] := by
  induction r with
  | zero =>
    intro w n b hb hm h1 h2 hc hn
    have : step w (.cStep i) = (w.setCli i (.up o .idle), []) := by
      simp only [step, cStep]
      rw [hc]
      dsimp only
      rw [hb]
      dsimp only
      rw [if_neg (by simp [h1, h2]), if_neg (by omega)]
    simp only [Nat.zero_add, List.replicate_one, run]
    rw [this]
    exact ⟨b, hb, hm, if_pos rfl, rfl, rfl⟩
  | succ r ih =>
    intro w n b hb hm h1 h2 hc hn
    have : step w (.cStep i) =
        ((w.upd o fun b => { b with shm := clear1 b.shm n }).setCli i (.clearing o (n + 1) none), []) := by
      simp only [step, cStep]
      rw [hc]
      dsimp only
      rw [hb]
      dsimp only
      rw [if_neg (by simp [h1, h2]), if_pos (by omega)]
    rw [List.replicate_succ]
    simp only [run]
    rw [this]
    dsimp only
    have hl := clear1_length b.shm n
    obtain ⟨b', h3, h4, h5, h6, h7⟩ := ih ((w.upd o fun b => { b with shm := clear1 b.shm n }).setCli i
      (.clearing o (n + 1) none)) (n + 1) { b with shm := clear1 b.shm n } (get_upd hb _) hm h1 h2 (if_pos rfl)
      (by dsimp only; rw [hl.1, hl.2]; omega)
    exact ⟨b', h3, h4, h5, h6, by rw [h7]; rfl⟩

/-! ## Nobody can connect any more -/

/-- Object `o` has no name, and no client has anything to do with it. -/
structure Deserted (o : Nat) (w : World) : Prop where
  lt : o < w.objs.length
  name : w.name ≠ some o
  cli : ∀ j, (w.cli j).obj ≠ some o

theorem Deserted.setSrv {o : Nat} {w : World} (h : Deserted o w) (i : Nat) (s : SAt) : Deserted o (w.setSrv i s) :=
  ⟨h.lt, h.name, h.cli⟩

theorem Deserted.setCli {o : Nat} {w : World} (h : Deserted o w) (i : Nat) {s : CAt} (hs : s.obj ≠ some o) :
    Deserted o (w.setCli i s) := by
  refine ⟨h.lt, h.name, ?_⟩
  intro j hj
  change (if j = i then s else w.cli j).obj = some o at hj
  split at hj
  · exact hs hj
  · exact h.cli j hj

theorem Deserted.upd {o : Nat} {w : World} (h : Deserted o w) (o' : Nat) (f : Obj → Obj) : Deserted o (w.upd o' f) :=
  ⟨by unfold World.upd; dsimp only; rw [List.length_modify]; exact h.lt, h.name, h.cli⟩

theorem Deserted.unlink {o : Nat} {w : World} (h : Deserted o w) : Deserted o w.unlink :=
  ⟨h.lt, by unfold World.unlink; simp, h.cli⟩

theorem Deserted.create {o : Nat} {w : World} (h : Deserted o w) : Deserted o w.create := by
  have := h.lt
  refine ⟨?_, ?_, h.cli⟩
  · unfold World.create; simp; omega
  · unfold World.create; simp; omega

theorem Deserted.srvMem {o : Nat} {w : World} (h : Deserted o w) (i o' : Nat) (conn : Bool) (pc : Mem.SPc) (t : Bool)
    (e : Mem.Ev) : Deserted o (srvMem w i o' conn pc t e).1 := by
  unfold PosixShm.srvMem
  split
  · exact (h.upd _ _).setSrv _ _
  · exact h

theorem Deserted.cliMem {o : Nat} {w : World} (h : Deserted o w) (i o' : Nat) (pc : Mem.CPc) (e : Mem.Ev)
    (ho : o' ≠ o) : Deserted o (cliMem w i o' pc e).1 := by
  unfold PosixShm.cliMem
  split
  · exact (h.upd _ _).setCli _ (fun h1 => ho (Option.some.inj h1))
  · exact h

theorem deserted_step {o : Nat} {w : World} (h : Deserted o w) (e : Ev) : Deserted o (step w e).1 := by
  cases e with
  | sInit i k => simp only [step]; split <;> first | exact h | exact h.unlink.setSrv _ _
  | sStep i =>
    simp only [step, sStep]
    split
    · exact h
    · split
      · exact h.setSrv _ _
      · exact h.create.setSrv _ _
    · exact (h.upd _ _).setSrv _ _
    · exact (h.upd _ _).setSrv _ _
    · exact (h.upd _ _).setSrv _ _
    · split
      · split
        · exact h.unlink.setSrv _ _
        · exact h.setSrv _ _
      · exact h
    · split
      · exact h.setSrv _ _
      · exact h
    · exact h.srvMem ..
  | sFail i => simp only [step]; split <;> first | exact h | exact h.setSrv _ _
  | sRecv i cap => simp only [step]; split <;> first | exact h | exact h.setSrv _ _ | exact h.srvMem ..
  | sSend i msg => simp only [step]; split <;> first | exact h | exact h.srvMem ..
  | sCleanup i => simp only [step]; split <;> first | exact h | exact (h.upd _ _).setSrv _ _
  | sKill i => exact h.setSrv _ _
  | cInit i => simp only [step]; split <;> first | exact h | exact h.setCli _ (by simp [CAt.obj])
  | cOpen i next =>
    simp only [step]
    split
    · rename_i o' _ hn
      refine h.setCli _ ?_
      intro h1
      cases h1
      exact h.name hn
    · exact h
  | cStep i =>
    have hi := h.cli i
    simp only [step, cStep]
    split <;> rename_i hc <;> rw [hc] at hi
    · exact h
    · exact h
    · split
      · split
        · exact h.setCli _ hi
        · exact h.setCli _ (by simp [CAt.obj])
      · exact h
    · split
      · split
        · exact h.setCli _ hi
        · exact h.setCli _ (by simp [CAt.obj])
      · exact h
    · exact h.unlink.setCli _ hi
    · exact (h.upd _ _).setCli _ hi
    · split
      · split
        · exact h.setCli _ (by simp [CAt.obj])
        · split
          · exact (h.upd _ _).setCli _ hi
          · split
            · exact h.setCli _ hi
            · exact h.cliMem _ _ _ _ (fun h1 => hi (by rw [h1]; rfl))
      · exact h
    · exact h.cliMem _ _ _ _ (fun h1 => hi (by rw [h1]; rfl))
  | cFail i => simp only [step]; split <;> first | exact h | exact h.setCli _ (by simp [CAt.obj])
  | cSend i msg =>
    have hi := h.cli i
    simp only [step]
    split
    · rename_i hc
      rw [hc] at hi
      exact h.cliMem _ _ _ _ (fun h1 => hi (by rw [h1]; rfl))
    · exact h
  | cRecv i msg =>
    have hi := h.cli i
    simp only [step]
    split
    · rename_i hc
      rw [hc] at hi
      exact h.cliMem _ _ _ _ (fun h1 => hi (by rw [h1]; rfl))
    · exact h
  | cCleanup i => simp only [step]; split <;> first | exact h | exact (h.upd _ _).setCli _ (by simp [CAt.obj])
  | cKill i => exact h.setCli _ (by simp [CAt.obj])

theorem deserted_run {o : Nat} (es : List Ev) : ∀ {w : World}, Deserted o w → Deserted o (run w es).1 := by
  induction es with
  | nil => exact fun h => h
  | cons e es ih => exact fun h => ih (deserted_step h e)

def Ev.client : Ev → Option Nat
  | .cInit i | .cOpen i _ | .cStep i | .cFail i | .cSend i _ | .cRecv i _ | .cCleanup i | .cKill i => some i
  | _ => none

theorem cliMem_other (w : World) (i o : Nat) (pc : Mem.CPc) (e : Mem.Ev) {j : Nat} (h : j ≠ i) :
    (cliMem w i o pc e).1.cli j = w.cli j := by
  unfold cliMem
  split
  · exact if_neg h
  · rfl

theorem srvMem_cli (w : World) (i o : Nat) (conn : Bool) (pc : Mem.SPc) (t : Bool) (e : Mem.Ev) :
    (srvMem w i o conn pc t e).1.cli = w.cli := by
  unfold srvMem
  split <;> rfl

theorem step_other (w : World) (e : Ev) {j : Nat} (h : e.client ≠ some j) : (step w e).1.cli j = w.cli j := by
  have hne : ∀ {i}, e.client = some i → j ≠ i := by
    intro i hi hj
    rw [hi, hj] at h
    exact h rfl
  cases e with
  | sInit i k => simp only [step]; split <;> rfl
  | sStep i =>
    simp only [step, sStep]
    split
    · rfl
    · split <;> rfl
    · rfl
    · rfl
    · rfl
    · split
      · split <;> rfl
      · rfl
    · split <;> rfl
    · rw [srvMem_cli]
  | sFail i => simp only [step]; split <;> rfl
  | sRecv i cap => simp only [step]; split <;> first | rfl | rw [srvMem_cli]
  | sSend i msg => simp only [step]; split <;> first | rfl | rw [srvMem_cli]
  | sCleanup i => simp only [step]; split <;> rfl
  | sKill i => rfl
  | cInit i => simp only [step]; split <;> first | rfl | exact if_neg (hne rfl)
  | cOpen i next => simp only [step]; split <;> first | rfl | exact if_neg (hne rfl)
  | cStep i =>
    simp only [step, cStep]
    split
    · rfl
    · rfl
    · split <;> first | rfl | exact if_neg (hne rfl)
    · split <;> first | rfl | exact if_neg (hne rfl)
    · exact if_neg (hne rfl)
    · exact if_neg (hne rfl)
    · split
      · split
        · exact if_neg (hne rfl)
        · split
          · exact if_neg (hne rfl)
          · split
            · exact if_neg (hne rfl)
            · exact cliMem_other _ _ _ _ _ (hne rfl)
      · rfl
    · exact cliMem_other _ _ _ _ _ (hne rfl)
  | cFail i => simp only [step]; split <;> first | rfl | exact if_neg (hne rfl)
  | cSend i msg => simp only [step]; split <;> first | rfl | exact cliMem_other _ _ _ _ _ (hne rfl)
  | cRecv i msg => simp only [step]; split <;> first | rfl | exact cliMem_other _ _ _ _ _ (hne rfl)
  | cCleanup i => simp only [step]; split <;> first | rfl | exact if_neg (hne rfl)
  | cKill i => exact if_neg (hne rfl)

theorem run_other (es : List Ev) (w : World) {j : Nat} (h : ∀ e ∈ es, e.client ≠ some j) :
    (run w es).1.cli j = w.cli j := by
  induction es generalizing w with
  | nil => rfl
  | cons e es ih =>
    simp only [run]
    rw [ih _ fun e' he' => h e' (List.mem_cons_of_mem _ he')]
    exact step_other w e (h e List.mem_cons_self)

/-- If only client 0 does anything, clients connect one by one. -/
theorem reach_one : ∀ (es : List Ev) (w : World) (tr : List Seen), Reach OneByOne w tr →
    (∀ j, j ≠ 0 → w.cli j = .off) → (∀ e ∈ es, ∀ j, j ≠ 0 → e.client ≠ some j) →
    Reach OneByOne (run w es).1 (tr ++ (run w es).2) := by
  intro es
  induction es with
  | nil => intro w tr h _ _; simpa [run] using h
  | cons e es ih =>
    intro w tr h hq he
    simp only [run]
    rw [← List.append_assoc]
    refine ih _ _ (.step e h ?_) ?_ (fun e' he' => he e' (List.mem_cons_of_mem _ he'))
    · unfold OneByOne
      split
      · rename_i i next
        intro j hj
        have hi : i = 0 := by
          by_cases hi : i = 0
          · exact hi
          · exact absurd rfl (he (.cOpen i next) List.mem_cons_self i hi)
        rw [hq j (by omega)]
        rfl
      · trivial
    · intro j hj
      rw [step_other w e (he e List.mem_cons_self j hj)]
      exact hq j hj

end WolfHsm.PosixShm

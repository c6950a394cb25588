import Verif.Proofs.ClientDmaAll

/-!
# C59: buffers given to the server by DMA are mapped and released in pairs

A world is everything outside the client code: what the DMA callback answers at each call, the
allow list, what sending and receiving give.  Theorems are for all worlds, all buffers and all
sequences of calls.
-/

namespace WolfHsm.Props

open WolfHsm.ClientDma

/-- **C59** (part: callers of the blocking functions need a willing callback).  Nothing is released that
is not mapped, whatever the callback and the allow list refuse and however sending and receiving
fail. -/
theorem C59_no_stray_release_partial (w : World) (cs : List Call) (ho : Orderly w S.start cs)
    (hb : ∀ c ∈ cs, c.blocking = true → Grants w ∧ Willing w) : NoStrayRelease (run w S.start cs).trace := by
  obtain ⟨_, _, hT⟩ := (run_inv (g := False) (h := False) False.elim False.elim cs _ hb False.elim ho Inv.start).trace
  exact hT.1

/-- **C59** (part: the allow list must not refuse what the callback mapped).  Whenever no request is
pending, everything that was mapped has been released, once. -/
theorem C59_all_released_partial (w : World) (cs : List Call) (ho : Orderly w S.start cs) (hg : Grants w)
    (hb : ∀ c ∈ cs, c.blocking = true → Willing w) (hp : (run w S.start cs).pending = false) :
    AllReleased (run w S.start cs).trace := by
  have i := run_inv (g := True) (h := False) (fun _ => hg) False.elim cs _ (fun c hc e => ⟨hg, hb c hc e⟩) False.elim
    ho Inv.start
  obtain ⟨_, leak, hl, hc, _⟩ := (i.idle hp).1
  intro m
  have := hc m
  rw [hl trivial] at this
  simpa using this.symm

/-- **C59** (part: the transport must not lose answers, and no NULL pointer with a length).  From the
moment a request leaves until the server has answered it, all buffers named in it are mapped. -/
theorem C59_mapped_while_in_use_partial (w : World) (cs : List Call) (ho : Orderly w S.start cs)
    (hr : Reliable w) (hn : ∀ c ∈ cs, c.null = false) (hb : ∀ c ∈ cs, c.blocking = true → Grants w ∧ Willing w) :
    Covered (run w S.start cs).trace := by
  obtain ⟨_, _, _, _, _, _, hv⟩ :=
    (run_inv (g := False) (h := True) False.elim (fun _ => hr) cs _ hb (fun _ => hn) ho Inv.start).trace
  exact (hv trivial).1

/-- The new events of a call. -/
def News (s s' : S) (P : Ev → Prop) : Prop := ∃ es, s'.trace = s.trace ++ es ∧ ∀ e ∈ es, P e

/-- A buffer the server writes was handed back well. -/
def Intact (e : Ev) : Prop := ∀ m rc, e = .released m rc → m.dir = .write → rc = 0

theorem news_pre (w : World) (s : S) (b : Buf) (t : UInt64) : News s (process w s .pre b t).2.2 Intact := by
  unfold process
  dsimp only
  refine ⟨[if (w.cb s.k .pre b t).1 = 0 then .mapped ⟨b.addr, (w.cb s.k .pre b t).2, b.len, b.dir⟩ else .refused b], ?_, ?_⟩
  · split <;> rfl
  · intro x hx
    simp only [List.mem_singleton] at hx
    subst hx
    split <;> intro m r h <;> exact absurd h (by simp)

theorem news_trans {a b c : S} (h1 : News a b Intact) (h2 : News b c Intact) : News a c Intact := by
  obtain ⟨e1, h1, p1⟩ := h1
  obtain ⟨e2, h2, p2⟩ := h2
  refine ⟨e1 ++ e2, by rw [h2, h1, List.append_assoc], fun x hx => ?_⟩
  rcases List.mem_append.mp hx with y | y
  · exact p1 x y
  · exact p2 x y

theorem news_send (w : World) (z : S) (kd : Kind) (bs : List Buf) : News z (send w z kd bs).2 Intact := by
  unfold send
  dsimp only
  split
  · exact ⟨[], by simp, by simp⟩
  split
  · exact ⟨[.sent (named bs)], rfl, fun x hx => by
      simp only [List.mem_singleton] at hx; subst hx; intro m r h; exact absurd h (by simp)⟩
  · exact ⟨[], by simp, by simp⟩

theorem news_wait (w : World) (z : S) : News z (wait w z).2 Intact :=
  ⟨[.ended (w.wait z.k).rc (w.wait z.k).answered], rfl, fun x hx => by
    simp only [List.mem_singleton] at hx; subst hx; intro m r h; exact absurd h (by simp)⟩

theorem news_post (w : World) (z : S) (b : Buf) (t : UInt64) (h : b.dir = .read ∨ (process w z .post b t).1 = 0) :
    News z (process w z .post b t).2.2 Intact := by
  refine ⟨[.released ⟨b.addr, t, b.len, b.dir⟩ (w.cb z.k .post b t).1], ?_, ?_⟩
  · unfold process; dsimp only; split <;> rfl
  · intro x hx
    simp only [List.mem_singleton] at hx
    subst hx
    intro m rc e hd
    injection e with e1 e2
    rw [← e2]
    rcases h with h | h
    · rw [← e1] at hd; dsimp only at hd; rw [h] at hd; exact absurd hd (by decide)
    · unfold process at h
      dsimp only at h
      split at h
      · assumption
      · exact h

/-- **C59** (part: the functions that look at it).  If such a call succeeds, no buffer written by the
server failed to come back: key export, NVM read and certificate read, key generation and signatures
with LMS and XMSS. -/
theorem C59_copy_back_told_partial (w : World) (s : S) (c : Call) 
    (hc : c = .bufResp true ∨ (∃ b, c = .direct1 b true) ∨ ∃ a b, a.dir = .read ∧ c = .direct2 a b true true)
    (h0 : (step w s c).1 = 0) : News s (step w s c).2 Intact := by
  rcases hc with rfl | ⟨b, rfl⟩ | ⟨a, b, ha, rfl⟩
  · simp only [step] at h0 ⊢
    unfold bufResponse at h0 ⊢
    dsimp only at h0 ⊢
    split at h0
    · rename_i e; rw [e] at h0; exact absurd h0 (by decide)
    rename_i e
    rw [if_neg e]
    have hr : ∃ rc a, (recv w s).2.trace = s.trace ++ [.ended rc a] := by
      unfold recv at e ⊢
      split at e
      · exact absurd rfl e
      rename_i c
      rw [if_neg c]
      dsimp only at e ⊢
      split at e
      · rename_i e'; exact absurd e' e
      rename_i e'
      rw [if_neg e']
      exact ⟨_, _, rfl⟩
    obtain ⟨rc, a, hr⟩ := hr
    have hz : (recv w s).1 = 0 := by
      by_contra x
      rw [if_neg fun y => x y.2] at h0
      exact x h0
    rw [if_pos ⟨rfl, hz⟩] at h0
    unfold asyncPost at h0 ⊢
    split at h0
    · rename_i c
      rw [if_pos c]
      exact ⟨[.ended rc a], hr, fun x hx => by simp only [List.mem_singleton] at hx; subst hx; intro m r h; exact absurd h (by simp)⟩
    · rename_i c
      rw [if_neg c]
      generalize (recv w s).2 = z at *
      unfold process at h0 ⊢
      dsimp only at h0 ⊢
      split at h0
      · rename_i y
        rw [if_pos y]
        refine ⟨[.ended rc a, .released ⟨z.slots (0 + 1), z.slots 0, z.slots (0 + 2), dirOf (z.slots (0 + 3))⟩ 0], ?_, ?_⟩
        · rw [put_trace]
          simp only [S.log, hr, y]
          rw [List.append_assoc]; rfl
        · intro x hx
          simp only [List.mem_cons, List.not_mem_nil, or_false] at hx
          rcases hx with rfl | rfl <;> intro m r h
          · exact absurd h (by simp)
          · injection h with _ h2
            exact fun _ => h2.symm
      · rename_i y; exact absurd h0 y
  · simp only [step] at h0 ⊢
    unfold direct1 at h0 ⊢
    dsimp only at h0 ⊢
    have hpre := news_pre w s b 0
    generalize process w s .pre b 0 = r at *
    have hq : News s (if r.1 = 0 then send w r.2.2 .quiet [{ b with addr := r.2.1 }] else (r.1, r.2.2)).2 Intact := by
      split
      · exact news_trans hpre (news_send ..)
      · exact hpre
    generalize (if r.1 = 0 then send w r.2.2 .quiet [{ b with addr := r.2.1 }] else (r.1, r.2.2)) = q at *
    have hz : News s (if q.1 = 0 then wait w q.2 else q).2 Intact := by
      split
      · exact news_trans hq (news_wait ..)
      · exact hq
    generalize (if q.1 = 0 then wait w q.2 else q) = z at *
    have z0 : z.1 = 0 := by
      by_contra x
      rw [if_neg fun y => x y.2] at h0
      exact x h0
    rw [if_pos ⟨rfl, z0⟩] at h0
    exact news_trans hz (news_post _ _ _ _ (.inr h0))
  · simp only [step] at h0 ⊢
    unfold direct2 at h0 ⊢
    dsimp only at h0 ⊢
    have hpre := news_pre w s a 0
    generalize process w s .pre a 0 = r at *
    have hx : News s (if r.1 = 0 then process w r.2.2 .pre b 0 else (r.1, 0, r.2.2)).2.2 Intact := by
      split
      · exact news_trans hpre (news_pre ..)
      · exact hpre
    generalize (if r.1 = 0 then process w r.2.2 .pre b 0 else (r.1, 0, r.2.2)) = x at *
    have hq : News s (if x.1 = 0 then send w x.2.2 .quiet [{ a with addr := r.2.1 }, { b with addr := x.2.1 }]
        else (x.1, x.2.2)).2 Intact := by
      split
      · exact news_trans hx (news_send ..)
      · exact hx
    generalize (if x.1 = 0 then send w x.2.2 .quiet [{ a with addr := r.2.1 }, { b with addr := x.2.1 }]
        else (x.1, x.2.2)) = q at *
    have hz : News s (if q.1 = 0 then wait w q.2 else q).2 Intact := by
      split
      · exact news_trans hq (news_wait ..)
      · exact hq
    generalize (if q.1 = 0 then wait w q.2 else q) = z at *
    simp only [if_true] at h0 ⊢
    have z0 : z.1 = 0 := by
      by_contra y
      rw [if_neg fun e => y e.2] at h0
      exact y h0
    rw [if_pos ⟨trivial, z0⟩] at h0
    exact news_trans (news_trans hz (news_post _ _ _ _ (.inl ha))) (news_post _ _ _ _ (.inr h0))

/-! ## Worlds -/

namespace ClientDmaDemo

/-- Buffers are mapped 0x1000 higher; all goes well, and the second attempt to receive succeeds. -/
def good : World where
  cb := fun _ ph b t => (0, if ph = .pre then b.addr + 0x1000 else t)
  allow := fun _ _ _ => 0
  send := fun _ => (0, true)
  recv := fun k => if k % 2 = 0 then ⟨Rc.notready.code, true, false⟩ else ⟨0, false, true⟩
  wait := fun _ => ⟨0, false, true⟩

/-- A buffer. -/
def buf (a n : UInt64) : Buf := ⟨a, n, .write⟩

/-- Calls of many sorts, polling. -/
def calls : List Call :=
  [.rng (buf 0x100 32), .rngResp, .rngResp,
   .aes (buf 0x200 64) (buf 0x300 64) (buf 0x400 12), .quiet, .direct1 (buf 0x480 8) true, .aesResp, .aesResp,
   .cmac (buf 0 0), .cmacResp, .cmacResp, .sha (buf 0x500 128), .shaResp, .shaResp,
   .nvmAdd (buf 0x600 48) (buf 0x700 5), .nvmAddResp, .nvmAddResp, .nvmRead (buf 0 0), .bufResp true, .bufResp true,
   .direct2 (buf 0x800 9) (buf 0x900 64) true true, .buf (buf 0xa00 16), .bufResp true, .bufResp true]

theorem good_grants : Grants good := fun _ _ _ => rfl
theorem good_willing : Willing good := fun _ _ _ => rfl
theorem good_reliable : Reliable good := by
  refine ⟨fun _ _ => rfl, fun k h => ?_, fun _ => rfl⟩
  unfold good at h ⊢
  dsimp only at h ⊢
  split at h
  · exact absurd rfl h
  · rename_i c; rw [if_neg c]

example : Orderly good S.start calls ∧ (∀ c ∈ calls, c.null = false) ∧ (run good S.start calls).pending = false ∧
    (run good S.start calls).trace.length = 38 ∧ maps ⟨0x300, 0x1300, 64, .write⟩ (run good S.start calls).trace = 1 := by
  decide +kernel

example : NoStrayRelease (run good S.start calls).trace :=
  C59_no_stray_release_partial good calls (by decide +kernel) fun _ _ _ => ⟨good_grants, good_willing⟩

example : AllReleased (run good S.start calls).trace :=
  C59_all_released_partial good calls (by decide +kernel) good_grants (fun _ _ _ => good_willing) (by decide +kernel)

example : Covered (run good S.start calls).trace :=
  C59_mapped_while_in_use_partial good calls (by decide +kernel) good_reliable (by decide +kernel)
    fun _ _ _ => ⟨good_grants, good_willing⟩

/-- Everything but the allow list agrees. -/
def strict : World := { good with allow := fun _ _ _ => Rc.access.code }

/-- The callback maps one buffer only. -/
def scarce : World := { good with cb := fun k ph b t => if ph = .pre ∧ k ≠ 0 then (Rc.nospace.code, 0) else good.cb k ph b t }

/-- Handing back what was written fails. -/
def torn : World := { good with cb := fun k ph b t => if ph = .post then (Rc.aborted.code, t) else good.cb k ph b t }

/-- The wait ends with a timeout. -/
def slow : World := { good with recv := fun _ => ⟨Rc.timeout.code, false, false⟩ }

/-- The timer does not start. -/
def untimed : World := { good with send := fun _ => (Rc.badargs.code, true) }

end ClientDmaDemo

open ClientDmaDemo

example : (step good (run good S.start (calls.take 22)) (.bufResp true)).1 = Rc.notready.code ∧
    (step good (run good S.start (calls.take 23)) (.bufResp true)).1 = 0 := by decide +kernel

/-! ## Findings -/

/-- Finding: if the allow list refuses the address that the callback has just mapped, the call fails and
the mapping is never released. -/
theorem F_C59_refused_after_mapping : ∃ (w : World) (cs : List Call), Orderly w S.start cs ∧ Willing w ∧ Reliable w ∧
    (∀ c ∈ cs, c.blocking = false) ∧ (run w S.start cs).pending = false ∧ ¬ AllReleased (run w S.start cs).trace :=
  ⟨strict, [.rng (buf 0x100 32)], by decide +kernel, good_willing, good_reliable, by decide, by decide +kernel,
    fun h => absurd (h ⟨0x100, 0x1100, 32, .write⟩) (by decide +kernel)⟩

/-- Finding: the blocking functions release a buffer whose mapping was refused. -/
theorem F_C59_release_of_refused : ∃ (w : World) (cs : List Call), Orderly w S.start cs ∧ Grants w ∧ Reliable w ∧
    ¬ NoStrayRelease (run w S.start cs).trace :=
  ⟨scarce, [.direct2 (buf 0x100 9) (buf 0x200 64) false false], by decide +kernel, good_grants, good_reliable, fun h =>
    absurd (h _ (List.prefix_refl _) ⟨0x200, 0, 64, .write⟩) (by decide +kernel)⟩

/-- Finding: random bytes, ciphertext and ML-KEM results that could not be handed back are reported as
success. -/
theorem F_C59_lost_copy_back : ∃ (w : World) (m : Map), m.dir = .write ∧
    (∃ s, (step w s .rngResp).1 = 0 ∧ Ev.released m Rc.aborted.code ∈ (step w s .rngResp).2.trace) ∧
    (∃ s, (step w s .aesResp).1 = 0 ∧ Ev.released m Rc.aborted.code ∈ (step w s .aesResp).2.trace) ∧
    (∃ s, (step w s (.direct1 (buf 0x100 32) false)).1 = 0 ∧
      Ev.released m Rc.aborted.code ∈ (step w s (.direct1 (buf 0x100 32) false)).2.trace) :=
  ⟨torn, ⟨0x100, 0x1100, 32, .write⟩, rfl,
    ⟨run torn S.start [.rng (buf 0x100 32), .rngResp], by decide +kernel⟩,
    ⟨run torn S.start [.aes (buf 0 0) (buf 0x100 32) (buf 0 0), .aesResp], by decide +kernel⟩,
    ⟨S.start, by decide +kernel⟩⟩

/-- Finding: reading from NVM to a NULL pointer with a length has the server write to address 0. -/
theorem F_C59_null : ∃ (w : World) (c : Call), Grants w ∧ Willing w ∧ Reliable w ∧
    (step w S.start c).1 = 0 ∧ ¬ Covered (step w S.start c).2.trace :=
  ⟨good, .nvmRead (buf 0 16), good_grants, good_willing, good_reliable, by decide +kernel, fun h => by
    obtain ⟨m, hm, _⟩ := h _ (List.prefix_refl _) ⟨0, 16, .write⟩ (by decide +kernel)
    have : (step good S.start (.nvmRead (buf 0 16))).2.trace = [.sent [⟨0, 16, .write⟩]] := by decide +kernel
    rw [this] at hm
    simp [maps, releases] at hm⟩

/-- Finding: after a timeout the buffer is released although the server may still write to it. -/
theorem F_C59_timeout : ∃ (w : World) (cs : List Call), Orderly w S.start cs ∧ Grants w ∧ Willing w ∧
    (∀ c ∈ cs, c.null = false) ∧ ¬ Covered (run w S.start cs).trace :=
  ⟨slow, [.rng (buf 0x100 32), .rngResp], by decide +kernel, good_grants, good_willing, by decide, fun h => by
    obtain ⟨m, hm, _⟩ := h _ (List.prefix_refl _) ⟨0x1100, 32, .write⟩ (by decide +kernel)
    have : (run slow S.start [.rng (buf 0x100 32), .rngResp]).trace = [.mapped ⟨0x100, 0x1100, 32, .write⟩,
      .sent [⟨0x1100, 32, .write⟩], .ended Rc.timeout.code false, .released ⟨0x100, 0x1100, 32, .write⟩ 0] := by
      decide +kernel
    rw [this] at hm
    simp only [maps, releases, List.countP_cons, List.countP_nil] at hm
    split at hm <;> simp_all⟩

/-- Finding: if the timer does not start, the buffer is released although the request has left. -/
theorem F_C59_untimed : ∃ (w : World) (c : Call), Grants w ∧ Willing w ∧ c.null = false ∧
    (step w S.start c).1 ≠ 0 ∧ ¬ Covered (step w S.start c).2.trace :=
  ⟨untimed, .rng (buf 0x100 32), good_grants, good_willing, by decide, by decide +kernel, fun h => by
    obtain ⟨m, hm, _⟩ := h _ (List.prefix_refl _) ⟨0x1100, 32, .write⟩ (by decide +kernel)
    have : (step untimed S.start (.rng (buf 0x100 32))).2.trace = [.mapped ⟨0x100, 0x1100, 32, .write⟩,
      .sent [⟨0x1100, 32, .write⟩], .released ⟨0x100, 0x1100, 32, .write⟩ 0] := by
      decide +kernel
    rw [this] at hm
    simp only [maps, releases, List.countP_cons, List.countP_nil] at hm
    split at hm <;> simp_all⟩

/-- Finding: giving up a request with `wh_CommClient_AbortPending` leaves its buffers mapped for good. -/
theorem F_C59_abort : ∃ (w : World) (cs : List Call), Grants w ∧ Willing w ∧ Reliable w ∧
    (run w S.start cs).pending = false ∧ ¬ AllReleased (run w S.start cs).trace :=
  ⟨good, [.rng (buf 0x100 32), .abort, .rng (buf 0x200 8), .rngResp, .rngResp], good_grants, good_willing, good_reliable,
    by decide +kernel, fun h => absurd (h ⟨0x100, 0x1100, 32, .write⟩) (by decide +kernel)⟩

/-- Finding: asking for the wrong response makes the client release a buffer it never mapped, described by
what the last AES request left in the union. -/
theorem F_C59_wrong_response : ∃ (w : World) (cs : List Call), Grants w ∧ Willing w ∧ Reliable w ∧
    (∀ c ∈ cs, c.null = false) ∧ ¬ NoStrayRelease (run w S.start cs).trace :=
  ⟨good, [.aes (buf 0x200 64) (buf 0x300 64) (buf 0x400 12), .quiet, .quiet, .quiet, .aesResp, .aesResp, .quiet, .nvmAddResp, .nvmAddResp],
    good_grants, good_willing, good_reliable, by decide, fun h =>
    absurd (h _ (List.prefix_refl _) ⟨0, 0x300, 0x1400, .read⟩) (by decide +kernel)⟩

end WolfHsm.Props

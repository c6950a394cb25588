import Verif.Proofs.Counter

/-!
# C22: counters never go backwards and never wrap
-/

namespace WolfHsm.Props

open Counter NvmFlash

private theorem reports_sorted {c0 i0 : UInt16} (evs : List Counter.Ev) :
    ∀ (n : Nvm) (lo : UInt32), J (keyOf c0 i0) lo n →
      (∀ e ∈ evs, e.Keeps ⟨c0.toNat % 16, i0.toNat % 256⟩) →
      (∀ v ∈ reports ⟨c0.toNat % 16, i0.toNat % 256⟩ n evs, lo ≤ v) ∧
      List.Pairwise (· ≤ ·) (reports ⟨c0.toNat % 16, i0.toNat % 256⟩ n evs) := by
  induction evs with
  | nil => intro n lo _ _; simp [reports]
  | cons e evs ih =>
    intro n lo h he
    have hst := h.step e (he e (by simp))
    have hrest := fun e' he' => he e' (List.mem_cons_of_mem e he')
    simp only [reports]
    rcases hr : report ⟨c0.toNat % 16, i0.toNat % 256⟩ n e with _ | v
    · simpa using ih _ lo hst.1 hrest
    · obtain ⟨hlo, hJ⟩ := hst.2 v hr
      have := ih _ v hJ hrest
      simp only [Option.toList, List.cons_append, List.nil_append, List.mem_cons,
        List.pairwise_cons]
      refine ⟨?_, this.1, this.2⟩
      rintro w (rfl | hw)
      · exact hlo
      · exact UInt32.le_trans hlo (this.1 w hw)

/-- C22.  Over any history of counter requests by any clients, media errors, power losses
and restarts in which counter `i0` of client `c0` is not reset, the values reported for
it (by reads and by increments) never decrease. -/
theorem C22_reports_never_decrease (n : Nvm) (hn : n.pending = none) (hid : IdsOk n.store)
    (c0 i0 : UInt16) (evs : List Counter.Ev)
    (hk : ∀ e ∈ evs, e.Keeps ⟨c0.toNat % 16, i0.toNat % 256⟩) :
    List.Pairwise (· ≤ ·) (reports ⟨c0.toNat % 16, i0.toNat % 256⟩ n evs) := by
  refine (reports_sorted evs n 0 ⟨hid, ?_, ?_⟩ hk).2
  · intro md bs _; exact UInt32.zero_le
  · intro pm pd hp; rw [hn] at hp; cases hp

/-- C22.  A successful increment reports the old value plus one, or 0xFFFFFFFF if the old
value was 0xFFFFFFFF, and that is the value from then on. -/
theorem C22_increment_adds_one (n : Nvm) (hid : IdsOk n.store) (client cid : UInt16)
    (h : (Counter.handle n client .ok (.increment cid)).1.rc = .ok) :
    ∃ old, Counter.value n client cid = some old ∧
      (Counter.handle n client .ok (.increment cid)).1.value.toNat =
        min (old.toNat + 1) 0xFFFFFFFF ∧
      Counter.value (Counter.handle n client .ok (.increment cid)).2 client cid =
        some (Counter.handle n client .ok (.increment cid)).1.value := by
  simp only [Counter.handle] at h ⊢
  rcases e : n.store (keyOf client cid) with _ | ⟨md, bs⟩
  · rw [increment_none e] at h; simp at h
  · have hv : Counter.value n client cid = some (Counter.get md) := by
      simp [Counter.value, readCounter, Nvm.metadata_some e]
    refine ⟨_, hv, ?_⟩
    revert h
    refine increment_cases e (P := fun p => p.1.rc = .ok →
      p.1.value.toNat = min ((Counter.get md).toNat + 1) 0xFFFFFFFF ∧
      Counter.value p.2 client cid = some p.1.value) ?_ ?_ ?_ ?_ ?_
    · intro hs _
      refine ⟨by rw [hs]; rfl, by rw [hv, hs]⟩
    · intro n' h1 a _ _ _
      have hkey := hid _ md bs e
      refine ⟨?_, ?_⟩
      · have := (Counter.get md + 1).toNat_lt
        simp only [succ_le h1] at this ⊢
        omega
      · have hst : n'.store (keyOf client cid) =
            some (withLen (put md (Counter.get md + 1)) [], []) := by
          rw [a]; simp [Store.set, put_id, hkey]
        simp [Counter.value, readCounter, Nvm.metadata_some hst, get_withLen, get_put]
    · intro n' _ _ _ _ h; simp at h
    · intro rc n' _ hrc _ _ h; exact absurd h hrc
    · intro rc n' hrc _ _ h; exact absurd h hrc

/-- C22.  An increment that reports an error has not changed the value, unless power was
lost on the way. -/
theorem C22_failed_increment (n : Nvm) (client cid : UInt16) (lock : Rc)
    (h : (Counter.handle n client lock (.increment cid)).1.rc ≠ .ok)
    (hp : (Counter.handle n client lock (.increment cid)).2.powered = true) :
    Counter.value (Counter.handle n client lock (.increment cid)).2 client cid =
      Counter.value n client cid := by
  by_cases hl : lock = .ok
  · subst hl
    simp only [Counter.handle] at h hp ⊢
    rcases e : n.store (keyOf client cid) with _ | ⟨md, bs⟩
    · rw [increment_none e]
    · have hval : ∀ n' : Nvm, n'.store = n.store →
          Counter.value n' client cid = Counter.value n client cid := by
        intro n' hs
        exact value_congr (by rw [hs])
      revert h hp
      refine increment_cases e (P := fun p => p.1.rc ≠ .ok → p.2.powered = true →
        Counter.value p.2 client cid = Counter.value n client cid) ?_ ?_ ?_ ?_ ?_
      · intro _ h; exact absurd rfl h
      · intro n' _ _ _ _ h; exact absurd rfl h
      · intro n' _ _ _ hf _ hp; rw [hf] at hp; cases hp
      · intro rc n' _ _ a _ _ _; exact hval n' a
      · intro rc n' _ a _ _ _; exact hval n' a
  · cases lock <;> simp_all [Counter.handle]

/-- C22.  A read reports the stored value, whoever did the increments. -/
theorem C22_read_reports_value (n : Nvm) (client cid : UInt16) (v : UInt32) :
    Counter.handle n client .ok (.read cid) = (⟨.ok, v⟩, n) ↔
      Counter.value n client cid = some v := by
  simp only [Counter.handle, Counter.value, readCounter]
  rcases e : n.store (keyOf client cid) with _ | ⟨md, bs⟩
  · simp [Nvm.metadata_none e]
  · simp [Nvm.metadata_some e]

/-- C22.  A request about one counter (reset included) does not change the value of any
other counter: another client's, or another counter of the same client. -/
theorem C22_no_interference (n : Nvm) (hid : IdsOk n.store) (client cid client' : UInt16)
    (lock : Rc) (r : Counter.Req)
    (hne : r.target client' ≠ some ⟨client.toNat % 16, cid.toNat % 256⟩) :
    Counter.value (Counter.handle n client' lock r).2 client cid =
      Counter.value n client cid := by
  have hval : ∀ n' : Nvm, n'.store (keyOf client cid) = n.store (keyOf client cid) →
      Counter.value n' client cid = Counter.value n client cid := by
    intro n' hs
    exact value_congr hs
  have hadd : ∀ md d, md.id ≠ keyOf client cid →
      (n.addWithReclaim md d).2.store (keyOf client cid) = n.store (keyOf client cid) := by
    intro md d hm
    refine Nvm.addWithReclaim_cases n md d
      (P := fun p => p.2.store (keyOf client cid) = n.store (keyOf client cid)) ?_ ?_ ?_ ?_
    · intro n' a _ _; rw [a, NvmServer.set_other hm]
    · intro n' a _ _; rw [a, NvmServer.set_other hm]
    · intro _ n' _ a _; rw [a]
    · intro _ n' _ a _; rw [a]
  have hkey : ∀ c', r.target client' = some ⟨client'.toNat % 16, c'⟩ →
      ∀ x : UInt16, x.toNat % 256 = c' → keyOf client' x ≠ keyOf client cid := by
    intro c' ht x hx hc
    have := name_eq_of_key hc
    apply hne
    rw [ht, this.1, ← hx, this.2]
  by_cases hl : lock = .ok
  · subst hl
    cases r with
    | init x v =>
      have hk := hkey _ rfl x rfl
      simp only [Counter.handle, initCounter_snd]
      exact hval _ (hadd _ _ hk)
    | increment x =>
      have hk := hkey _ rfl x rfl
      simp only [Counter.handle]
      apply hval
      rcases e : n.store (keyOf client' x) with _ | ⟨md, bs⟩
      · rw [increment_none e]
      · have hmid := hid _ md bs e
        have := hadd (put md (Counter.get md + 1)) [] (by rw [put_id, hmid]; exact hk)
        unfold increment
        rw [Nvm.metadata_some e]
        simp only [bump]
        split
        · rfl
        · split <;> rename_i heq <;> rw [heq] at this <;> exact this
    | read x => rfl
    | destroy x =>
      have hk := hkey _ rfl x rfl
      simp only [Counter.handle]
      apply hval
      have hni : keyOf client cid ∉ [keyOf client' x] := by simpa using Ne.symm hk
      refine Nvm.destroy_cases n [keyOf client' x]
        (P := fun p => p.2.store (keyOf client cid) = n.store (keyOf client cid)) ?_ ?_ ?_ ?_
      · intro n' a _; rw [a, NvmServer.drop_other hni]
      · intro n' _ a _; rw [a]
      · intro _ n' _ a _; rw [a, NvmServer.drop_other hni]
      · intro _ n' _ a _; rw [a]
    | malformed => rfl
    | unknown => rfl
  · cases r <;> cases lock <;> simp_all [Counter.handle]

/-! ## A concrete history -/

/-- Empty NVM whose backend fails and loses power now and then. -/
def counterNvm (outs : Nat → Out) : Nvm :=
  { store := fun _ => none, pending := none, powered := true, outs := outs, tick := 0 }

/-- Client 2 sets its counter 7 to 0xFFFFFFFD. -/
def counterStart (outs : Nat → Out) : Nvm :=
  (Counter.handle (counterNvm outs) 2 .ok (.init 7 0xFFFFFFFD)).2

/-- The second increment of the history below fails, and so does client 3's
initialisation, leaving its object on the media. -/
def counterOuts : Nat → Out := fun t =>
  if t = 5 then .fail .nospace false else if t = 7 then .fail .notverified true else .ok

/-- Increment twice, read, another client's activity, restart, increments up to the top. -/
def counterHistory : List Counter.Ev :=
  [.req 2 .ok (.increment 7), .req 2 .ok (.increment 7), .req 3 .ok (.init 7 1),
   .req 2 .ok (.increment 7), .restart true, .req 2 .ok (.read 7),
   .req 2 .ok (.increment 7), .req 2 .locked (.read 7), .req 2 .ok (.increment 263)]

example : reports ⟨2, 7⟩ (counterStart counterOuts) counterHistory =
    [0xFFFFFFFE, 0xFFFFFFFF, 0xFFFFFFFF, 0xFFFFFFFF, 0xFFFFFFFF] := by decide +kernel

example : List.Pairwise (· ≤ ·) (reports ⟨2, 7⟩ (counterStart counterOuts) counterHistory) :=
  C22_reports_never_decrease (counterStart counterOuts) rfl
    (by
      intro id md bs h
      have : (counterStart counterOuts).store =
          Store.set Store.empty (put (blankMeta (keyOf 2 7)) 0xFFFFFFFD) [] := by
        rfl
      rw [this] at h
      exact IdsOk.set (by intro _ _ _ h; cases h) _ _ id md bs h) 2 7 _
    (by simp [counterHistory, Counter.Ev.Keeps, Req.resets, Req.target])

/-- Finding: the client may reset a counter to any value with INIT, so C22 can only speak
about histories without resets. -/
theorem F_counter_init_lowers :
    let n := (Counter.handle (counterStart (fun _ => .ok)) 2 .ok (.init 7 3)).2
    Counter.value (counterStart (fun _ => .ok)) 2 7 = some 0xFFFFFFFD ∧
    Counter.value n 2 7 = some 3 := by decide +kernel

/-- Finding: only the low 8 bits of a counter id count: counters 7 and 263 are the same. -/
theorem F_counter_ids_alias (client cid : UInt16) : keyOf client (cid + 256) = keyOf client cid := by
  apply key_eq_of_name rfl
  rw [UInt16.toNat_add]
  have : (256 : UInt16).toNat = 256 := rfl
  omega

/-- Finding: NVM requests reach counters: any client can rewind any client's counter by
adding an object under its id. -/
theorem F_counter_rewound_by_nvm_add :
    let n := (counterStart (fun _ => .ok))
    let n' := (NvmServer.handle
      { maxRead := 0, statefulBlob := fun _ => false, list := fun _ _ _ _ => (.ok, 0, 0)
        avail := fun _ => (.ok, []) } n .ok
      (.add (put (blankMeta (keyOf 2 7)) 1) [])).2
    Counter.value n 2 7 = some 0xFFFFFFFD ∧ Counter.value n' 2 7 = some 1 := by
  decide +kernel

end WolfHsm.Props

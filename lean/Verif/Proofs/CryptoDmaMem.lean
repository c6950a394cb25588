import Verif.Proofs.CryptoDma

/-!
# Client memory and the DMA crypto group: lemmas

What is read and what is written.
-/

namespace WolfHsm.CryptoDma

open Wire
open Server (Req)
open Crypto (Alg AesMode Prog)
open Keystore (Srv Sys)
open CryptoMsg

variable {cfg : Cfg} {v : Srv} {r : Req} {e : Env} {m' : UInt64 → UInt8}

/-! ## Reads -/

theorem len_le (b : Buf) : b.len ≤ b.sz.toNat := by
  unfold Buf.len
  simp only [UInt64.toNat_toUInt32]
  exact Nat.mod_le ..

theorem read_length (e : Env) (b : Buf) : (e.read b).length = b.len := by
  unfold Env.read; rw [List.length_map, List.length_range]

theorem read_same {b : Buf} (h : SameIn e.mem m' b) : ({ e with mem := m' } : Env).read b = e.read b := by
  unfold Env.read
  refine List.map_congr_left fun i hi => ?_
  exact h i (Nat.lt_of_lt_of_le (List.mem_range.mp hi) (len_le b))

theorem read_some {b : Buf} (h : ∀ b, e.readPre b = .ok → SameIn e.mem m' b) (hb : some? e.readPre b = .ok) :
    ({ e with mem := m' } : Env).read b = e.read b := by
  unfold some? at hb
  by_cases hz : b.sz = 0
  · have : b.len = 0 := by unfold Buf.len; rw [hz]; rfl
    unfold Env.read; rw [this]; rfl
  · rw [if_neg hz] at hb
    exact read_same (h b hb)

theorem first_ok {a : Rc} {l : List Rc} : first (a :: l) = .ok → a = .ok ∧ first l = .ok := by
  intro h
  unfold first at h
  by_cases ha : a = .ok
  · rw [if_pos ha] at h; exact ⟨ha, h⟩
  · rw [if_neg ha] at h; exact absurd h ha

theorem aesDma_blind {mode : AesMode} {enc : Bool} {id : UInt16} {key i i' x x' : List UInt8} {left : Nat} {pre post : Rc}
    (hp : pre ≠ .ok) :
    Crypto.aesDma cfg.base.crypto cfg.base.lib v mode enc id key i' x' left pre post =
      Crypto.aesDma cfg.base.crypto cfg.base.lib v mode enc id key i x left pre post := by
  unfold Crypto.aesDma
  simp only [hp, ne_eq, not_false_eq_true, if_true]

theorem signDma_blind {alg : Alg} {id : UInt16} {ev : Bool} {opts : Nat} {m m₂ ctx coins : List UInt8} {n : Nat} {pre : Rc}
    (hp : pre ≠ .ok) :
    Crypto.signDma cfg.base.crypto cfg.base.lib v alg id ev opts m₂ ctx coins n pre =
      Crypto.signDma cfg.base.crypto cfg.base.lib v alg id ev opts m ctx coins n pre := by
  unfold Crypto.signDma
  simp only [hp, if_false]

theorem verifyDma_blind {alg : Alg} {id : UInt16} {ev : Bool} {opts : Nat} {m m₂ s s₂ ctx : List UInt8} {pre : Rc}
    (hp : pre ≠ .ok) :
    Crypto.verifyDma cfg.base.crypto cfg.base.lib v alg id ev opts s₂ m₂ ctx pre =
      Crypto.verifyDma cfg.base.crypto cfg.base.lib v alg id ev opts s m ctx pre := by
  unfold Crypto.verifyDma
  simp only [hp, if_false]

theorem decaps_blind {params : List Nat} {id : UInt16} {ev : Bool} {c c' : List UInt8} {pre : Rc} (hp : pre ≠ .ok) :
    Crypto.decaps cfg.base.crypto cfg.base.lib v params id ev c' (some pre) =
      Crypto.decaps cfg.base.crypto cfg.base.lib v params id ev c (some pre) := by
  unfold Crypto.decaps
  simp only [hp, ne_eq, not_false_eq_true, if_true]

theorem cmacDma_blind {id : UInt16} {key state inline m m₂ : List UInt8} {outSz : Nat} {pre : Rc} (hp : pre ≠ .ok)
    (hl : m₂.length = m.length) :
    Crypto.cmacDma cfg.base.lib id key state inline m₂ outSz pre =
      Crypto.cmacDma cfg.base.lib id key state inline m outSz pre := by
  by_cases hm : m = []
  · subst hm
    have : m₂ = [] := List.length_eq_zero_iff.mp hl
    rw [this]
  · have h2 : m₂ ≠ [] := fun h => hm (List.length_eq_zero_iff.mp (by rw [← hl, h]; rfl))
    unfold Crypto.cmacDma
    simp only [hp, hm, h2, ne_eq, not_false_eq_true, true_and, and_self, if_true, if_false]

theorem sign_blind {q q' : StatefulSig.SignReq} (hp : q.preMsg ≠ .ok) (hq : q' = { q with msg := q'.msg }) (s : Sys) :
    StatefulSig.sign cfg.sig v s q' = StatefulSig.sign cfg.sig v s q := by
  rw [hq]
  have key : ∀ id, StatefulSig.signKey cfg.sig v.ctx s id { q with msg := q'.msg } = StatefulSig.signKey cfg.sig v.ctx s id q := by
    intro id
    unfold StatefulSig.signKey
    dsimp only
    generalize hpm : q.preMsg = p at hp
    split
    · split
      · split
        · rfl
        · cases p <;> first | rfl | exact absurd rfl hp
      · rfl
    · rfl
  unfold StatefulSig.sign
  simp only [key]

/-- Two decoded requests do the same. -/
def Alike (cfg : Cfg) (v : Srv) : Todo → Todo → Prop
  | .keys q', .keys q =>
    Crypto.handler cfg.base.crypto cfg.base.lib v q' = Crypto.handler cfg.base.crypto cfg.base.lib v q
  | .sign q', .sign q => q'.alg = q.alg ∧ ∀ s, StatefulSig.sign cfg.sig v s q' = StatefulSig.sign cfg.sig v s q
  | .verify a i ev s' m' p', .verify b j ew s m p =>
    a = b ∧ i = j ∧ ev = ew ∧ p' = p ∧ (p = .ok → s' = s ∧ m' = m)
  | t', t => t' = t

/-- Results alike. -/
def AlikeE (cfg : Cfg) (v : Srv) : Except Rc Todo → Except Rc Todo → Prop
  | .ok t', .ok t => Alike cfg v t' t
  | .error a, .error b => a = b
  | _, _ => False

theorem AlikeE.sized {n : Nat} {x y : Except Rc Todo} (h : AlikeE cfg v x y) :
    AlikeE cfg v (CryptoMsg.sized r n x) (CryptoMsg.sized r n y) := by
  unfold CryptoMsg.sized
  split
  · rfl
  · exact h

theorem AlikeE.fits {p : Prop} [Decidable p] {x y : Except Rc Todo} (h : AlikeE cfg v x y) :
    AlikeE cfg v (CryptoMsg.fits p x) (CryptoMsg.fits p y) := by
  unfold CryptoMsg.fits
  split
  · exact h
  · rfl

theorem AlikeE.refl (x : Except Rc Todo) : AlikeE cfg v x x := by
  rcases x with rc | t
  · rfl
  · cases t <;> first | exact rfl | exact ⟨rfl, fun _ => rfl⟩ | exact ⟨rfl, rfl, rfl, rfl, fun _ => ⟨rfl, rfl⟩⟩

/-- Decoding does not depend on memory that may not be read. -/
theorem decode_blind (h : ∀ b, e.readPre b = .ok → SameIn e.mem m' b) (op : Op) :
    AlikeE cfg v (decode cfg { e with mem := m' } r op) (decode cfg e r op) := by
  have hs : ∀ {b : Buf}, some? e.readPre b = .ok → ({ e with mem := m' } : Env).read b = e.read b := read_some h
  have hr : ∀ {b : Buf}, e.readPre b = .ok → ({ e with mem := m' } : Env).read b = e.read b := fun hb => read_same (h _ hb)
  cases op with
  | aes m =>
    cases m with
    | gcm =>
      refine AlikeE.sized (AlikeE.fits (AlikeE.fits ?_))
      show Crypto.handler _ _ _ (.aesDma ..) = Crypto.handler _ _ _ (.aesDma ..)
      by_cases hp : first [some? e.readPre (buf cfg.le r 0), some? e.readPre (buf cfg.le r 32), some? e.writePre (buf cfg.le r 16)] = .ok
      · obtain ⟨h1, h2⟩ := first_ok hp
        obtain ⟨h2, _⟩ := first_ok h2
        rw [hs h1, hs h2]
      · exact aesDma_blind hp
    | _ =>
      refine AlikeE.sized (AlikeE.fits (AlikeE.fits ?_))
      show Crypto.handler _ _ _ (.aesDma ..) = Crypto.handler _ _ _ (.aesDma ..)
      by_cases hp : first [some? e.readPre (buf cfg.le r 0), some? e.writePre (buf cfg.le r 16)] = .ok
      · rw [hs (first_ok hp).1]
      · exact aesDma_blind hp
  | signMlDsa =>
    refine AlikeE.sized (AlikeE.fits (AlikeE.fits ?_))
    show Crypto.handler _ _ _ (.signDma ..) = Crypto.handler _ _ _ (.signDma ..)
    by_cases hp : first [e.readPre (buf cfg.le r 0), e.writePre (buf cfg.le r 16)] = .ok
    · rw [hr (first_ok hp).1]
    · exact signDma_blind hp
  | signEd =>
    refine AlikeE.sized (AlikeE.fits (AlikeE.fits (AlikeE.fits ?_)))
    show Crypto.handler _ _ _ (.signDma ..) = Crypto.handler _ _ _ (.signDma ..)
    by_cases hp : first [e.readPre (buf cfg.le r 0), e.writePre (buf cfg.le r 16)] = .ok
    · rw [hr (first_ok hp).1]
    · exact signDma_blind hp
  | verifyMlDsa =>
    refine AlikeE.sized (AlikeE.fits (AlikeE.fits ?_))
    show Crypto.handler _ _ _ (.verifyDma ..) = Crypto.handler _ _ _ (.verifyDma ..)
    by_cases hp : first [e.readPre (buf cfg.le r 0), e.readPre (buf cfg.le r 16)] = .ok
    · rw [hr (first_ok hp).1, hr (first_ok (first_ok hp).2).1]
    · exact verifyDma_blind hp
  | verifyEd =>
    refine AlikeE.sized (AlikeE.fits (AlikeE.fits (AlikeE.fits ?_)))
    show Crypto.handler _ _ _ (.verifyDma ..) = Crypto.handler _ _ _ (.verifyDma ..)
    by_cases hp : first [e.readPre (buf cfg.le r 0), e.readPre (buf cfg.le r 16)] = .ok
    · rw [hr (first_ok hp).1, hr (first_ok (first_ok hp).2).1]
    · exact verifyDma_blind hp
  | decaps =>
    refine AlikeE.sized ?_
    show Crypto.handler _ _ _ (.decaps ..) = Crypto.handler _ _ _ (.decaps ..)
    by_cases hp : e.readPre (buf cfg.le r 0) = .ok
    · rw [hr hp]
    · exact decaps_blind hp
  | cmac =>
    refine AlikeE.sized (AlikeE.fits (AlikeE.fits (AlikeE.fits ?_)))
    show Crypto.handler _ _ _ (.cmacDma ..) = Crypto.handler _ _ _ (.cmacDma ..)
    by_cases hp : e.readPre (buf cfg.le r 40) = .ok
    · rw [hr hp]
    · exact cmacDma_blind hp (by rw [read_length, read_length])
  | sigSign a =>
    refine AlikeE.sized ⟨rfl, fun s => ?_⟩
    by_cases hp : e.readPre (buf cfg.le r 0) = .ok
    · rw [hr hp]
    · exact sign_blind hp rfl s
  | sigVerify a =>
    refine AlikeE.sized ⟨rfl, rfl, rfl, rfl, fun hp => ?_⟩
    exact ⟨hr (first_ok hp).1, hr (first_ok (first_ok hp).2).1⟩
  | _ => exact AlikeE.refl _

/-- **Reads.** -/
theorem handle_blind (h : ∀ b, e.readPre b = .ok → SameIn e.mem m' b) (s : Sys) :
    handle cfg v { e with mem := m' } r s = handle cfg v e r s := by
  unfold handle
  by_cases h12 : r.size < 12
  · rw [if_pos h12, if_pos h12]
  rw [if_neg h12, if_neg h12]
  generalize cfg.select r.action _ _ = x
  rcases x with rc | op
  · rfl
  dsimp only
  have hd := decode_blind (cfg := cfg) (v := v) (r := r) h op
  generalize decode cfg { e with mem := m' } r op = t' at hd
  generalize decode cfg e r op = t at hd
  rcases t' with rc | t' <;> rcases t with rc' | t
  · rw [show rc = rc' from hd]
  · exact hd.elim
  · exact hd.elim
  have hd : Alike cfg v t' t := hd
  have hsha2 : ∀ type last hi lo d i b, sha2 cfg { e with mem := m' } r type last hi lo d i b = sha2 cfg e r type last hi lo d i b := by
    intro type last hi lo d i b
    unfold sha2
    dsimp only
    by_cases hb : some? e.readPre b = .ok
    · rw [read_some h hb]
    · simp only [hb, if_false]
  have hsha3 : ∀ block last st i b, sha3 cfg { e with mem := m' } r block last st i b = sha3 cfg e r block last st i b := by
    intro block last st i b
    unfold sha3
    dsimp only
    by_cases hb : some? e.readPre b = .ok
    · rw [read_some h hb]
    · simp only [hb, if_false]
  cases t with
  | keys q =>
    cases t' with
    | keys q' =>
      dsimp only
      rw [show Crypto.handler _ _ v q' = _ from hd]
      rfl
    | _ => cases hd
  | sign q =>
    cases t' with
    | sign q' =>
      dsimp only
      rw [hd.2 s, hd.1]
    | _ => cases hd
  | verify a i ev sg ms p =>
    cases t' with
    | verify a' i' ev' sg' ms' p' =>
      obtain ⟨rfl, rfl, rfl, rfl, h5⟩ := hd
      dsimp only
      by_cases hp : p' = .ok
      · obtain ⟨rfl, rfl⟩ := h5 hp; rfl
      · unfold verify
        simp only [hp, if_false]
    | _ => cases hd
  | gen q => cases t' <;> cases hd; rfl
  | left a i => cases t' <;> cases hd; rfl
  | rng b => cases t' <;> cases hd; rfl
  | sha2 type last hi lo d i b => cases t' <;> cases hd; dsimp only; rw [hsha2]
  | sha3 block last st i b => cases t' <;> cases hd; dsimp only; rw [hsha3]

/-! ## Writes -/

/-- What goes to address `a` lies in a buffer for which the check before writing passed. -/
def Lands (e : Env) (a : UInt64) (d : List UInt8) : Prop :=
  d = [] ∨ ∃ b : Buf, e.writePre b = .ok ∧ b.addr = a ∧ d.length ≤ b.sz.toNat

theorem lands_send {a x : UInt64} {d y : List UInt8} (h : Lands e a d) (hs : sendTo a d = some (x, y)) :
    y ≠ [] ∧ ∃ b : Buf, e.writePre b = .ok ∧ b.addr = x ∧ y.length ≤ b.sz.toNat := by
  unfold sendTo at hs
  by_cases hd : d = []
  · rw [if_pos hd] at hs; cases hs
  · rw [if_neg hd] at hs
    injection hs with hs; injection hs with h1 h2; subst h1; subst h2
    exact ⟨hd, h.resolve_left hd⟩

theorem lands_nil (a : UInt64) : Lands e a [] := .inl rfl

theorem lands_aes (hb : Bounded cfg e) {i o : Buf} (hz : i.sz = o.sz) {m : AesMode} {enc : Bool} {id : UInt16}
    {key x : List UInt8} {left : Nat} {pre post : Rc} (hp : pre = .ok → some? e.writePre o = .ok) :
    Yields (fun q => Lands e o.addr q.dma)
      (Crypto.aesDma cfg.base.crypto cfg.base.lib v m enc id key (e.read i) x left pre post) := by
  have fin : ∀ y : Except Rc (List UInt8), Yields (fun q => Lands e o.addr q.dma) (.done (match y with
      | .error rc => .error rc
      | .ok k =>
        if Crypto.aesLen k.length = false then .error .badargs
        else if pre ≠ .ok then .error pre
        else
          match Crypto.aesWith cfg.base.lib m enc left (e.read i) x (.ok k) with
          | .error rc => .error rc
          | .ok (out, tail) =>
            if post = .ok then .ok { fixed := 24, body := tail, dma := out } else .error post)) := by
    intro y
    refine yields_done fun q ho => ?_
    cases y with
    | error e => cases ho
    | ok k =>
      dsimp only at ho
      split at ho
      · cases ho
      split at ho
      · cases ho
      rename_i hpre
      split at ho
      · cases ho
      · rename_i out tail hw
        split at ho
        · injection ho with ho; subst ho
          have ha : cfg.base.lib.aes m enc left k (e.read i) x = .ok (out, tail) := by
            unfold Crypto.aesWith at hw
            dsimp only at hw
            split at hw
            · cases hw
            split at hw
            · cases hw
            exact hw
          have hl := hb.aes _ _ _ _ _ _ _ _ ha
          rw [read_length] at hl
          have hlo : out.length ≤ o.sz.toNat := by rw [hl, ← hz]; exact len_le i
          have hw := hp (by simpa using hpre)
          unfold some? at hw
          by_cases h0 : o.sz = 0
          · refine .inl (List.length_eq_zero_iff.mp ?_)
            rw [h0] at hlo
            exact Nat.le_zero.mp hlo
          · rw [if_neg h0] at hw
            exact .inr ⟨o, hw, rfl, hlo⟩
        · cases ho
  unfold Crypto.aesDma
  dsimp only
  split
  · exact fin (.ok key)
  · exact yields_read fin

theorem lands_signDma (hb : Bounded cfg e) {o : Buf} {alg : Alg} {id : UInt16} {ev : Bool} {opts : Nat} {m ctx coins : List UInt8}
    {pre : Rc} (hp : pre = .ok → e.writePre o = .ok) :
    Yields (fun q => Lands e o.addr q.dma)
      (Crypto.signDma cfg.base.crypto cfg.base.lib v alg id ev opts m ctx coins o.len pre) := by
  unfold Crypto.signDma
  split
  · exact yields_evict trivial
  · refine yields_useOne fun k q h => ?_
    split at h
    · rename_i hpre
      obtain ⟨b, hs, rfl⟩ := map_ok h
      exact .inr ⟨o, hp hpre, rfl, Nat.le_trans (hb.sign _ _ _ _ _ _ _ _ hs) (len_le o)⟩
    · cases h

theorem lands_verifyDma {a : UInt64} {alg : Alg} {id : UInt16} {ev : Bool} {opts : Nat} {sg m ctx : List UInt8} {pre : Rc} :
    Yields (fun q => Lands e a q.dma)
      (Crypto.verifyDma cfg.base.crypto cfg.base.lib v alg id ev opts sg m ctx pre) := by
  unfold Crypto.verifyDma
  split
  · exact yields_evict trivial
  · refine yields_useOne fun k q h => ?_
    split at h
    · obtain ⟨b, _, rfl⟩ := map_ok h
      exact .inl rfl
    · cases h

theorem lands_decaps {a : UInt64} {params : List Nat} {id : UInt16} {ev : Bool} {ct : List UInt8} {pre : Rc} :
    Yields (fun q => Lands e a q.dma)
      (Crypto.decaps cfg.base.crypto cfg.base.lib v params id ev ct (some pre)) := by
  unfold Crypto.decaps
  split
  · exact yields_evict trivial
  · refine yields_useOne fun k q h => ?_
    dsimp only at h
    split at h
    · cases h
    split at h
    · cases h
    split at h
    · cases h
    injection h with h; subst h
    exact .inl rfl

theorem lands_encaps (hb : Bounded cfg e) {b : Buf} {level : UInt32} {id : UInt16} {ev : Bool} {coins : List UInt8} :
    Yields (fun q => Lands e b.addr q.dma)
      (Crypto.encaps cfg.base.crypto cfg.base.lib v [level.toNat] id ev coins
        (some (b.sz.toNat, e.writePre ⟨b.addr, (cfg.kem level).2⟩))) := by
  unfold Crypto.encaps
  split
  · exact yields_evict trivial
  · refine yields_useOne fun k q h => ?_
    split at h
    · cases h
    · rename_i ct ss he
      dsimp only at h
      split at h
      · cases h
      · split at h
        · rename_i hw
          injection h with h; subst h
          have := hb.encaps _ _ _ _ _ he
          rw [UInt32.ofNat_toNat] at this
          exact .inr ⟨_, hw, rfl, this⟩
        · cases h

theorem lands_cmac {a : UInt64} {id : UInt16} {key state inline mem : List UInt8} {outSz : Nat} {pre : Rc} :
    Yields (fun q => Lands e a q.dma) (Crypto.cmacDma cfg.base.lib id key state inline mem outSz pre) := by
  have with_ : ∀ (input : List UInt8) (one : Bool) (k : List UInt8) (o : Crypto.Out),
      Crypto.cmacWith cfg.base.lib id 64 state input outSz one k = .ok o → Lands e a o.dma := by
    intro input one k o hk
    unfold Crypto.cmacWith at hk
    split at hk
    · obtain ⟨b, hb, rfl⟩ := map_ok hk
      exact .inl rfl
    · split at hk
      · obtain ⟨b, hb, rfl⟩ := map_ok hk
        exact .inl rfl
      · obtain ⟨b, hb, rfl⟩ := map_ok hk
        exact .inl rfl
  have key_ : ∀ f : Except Rc (List UInt8) → Prog, (∀ x, Yields (fun q => Lands e a q.dma) (f x)) →
      Yields (fun q => Lands e a q.dma) (Crypto.cmacKey id key f) := by
    intro f hf
    unfold Crypto.cmacKey
    dsimp only
    split
    · exact hf _
    · split
      · exact hf _
      · refine yields_read fun x => ?_
        split
        · exact yields_read fun _ => hf _
        · exact hf _
  unfold Crypto.cmacDma
  split
  · split
    · refine key_ _ fun x => yields_done fun o ho => ?_
      obtain ⟨k, _, hk⟩ := bind_ok ho
      exact with_ _ _ _ _ hk
    · trivial
  · refine key_ _ fun x => yields_done fun o ho => ?_
    obtain ⟨k, _, hk⟩ := bind_ok ho
    split at hk
    · cases hk
    · exact with_ _ _ _ _ hk

theorem lands_keyGen (hb : Bounded cfg e) {b : Buf} {a : Alg} {level : UInt32} {id flags : UInt16} {label : Vector UInt8 24}
    {coins : List UInt8} {pre post : Rc}
    (hw : pre = .ok → e.writePre (if a = .mlkem ∧ Crypto.isEphemeral flags = false then ⟨b.addr, (cfg.kem level).1⟩ else b) = .ok) :
    Yields (fun q => Lands e b.addr q.dma)
      (Crypto.keyGenDma cfg.base.crypto cfg.base.lib v a id flags label [level.toNat] coins b.sz pre post) := by
  unfold Crypto.keyGenDma
  split
  · trivial
  · split
    · trivial
    · rename_i obj hg
      split
      · rename_i heph
        split
        · rename_i hp
          have hw := hw hp
          rw [if_neg (fun h => by rw [heph] at h; exact absurd h.2 (by decide))] at hw
          split
          · trivial
          · rename_i der hd
            split
            · refine .inr ⟨b, hw, rfl, Nat.le_trans (hb.privateDer _ _ _ _ hd) ?_⟩
              simp only [UInt64.toNat_toUInt16]
              exact Nat.mod_le ..
            · trivial
        · trivial
      · rename_i heph
        refine yields_store fun x => ?_
        cases x with
        | error rc => trivial
        | ok rid =>
          dsimp only
          split
          · rename_i pub hp
            split at hp
            · rename_i hpre
              replace hw := hw hpre
              by_cases hk : a = .mlkem ∧ Crypto.isEphemeral flags = false
              · rw [if_pos hk] at hw
                obtain ⟨rfl, _⟩ := hk
                have := hb.kemPub _ _ _ _ _ hg hp
                rw [UInt32.ofNat_toNat] at this
                exact .inr ⟨⟨b.addr, (cfg.kem level).1⟩, hw, rfl, this⟩
              · rw [if_neg hk] at hw
                exact .inr ⟨b, hw, rfl, hb.publicDer _ _ _ _ hp⟩
            · cases hp
          · exact yields_evict trivial

theorem lands_handler (hb : Bounded cfg e) {op : Op} {q : Crypto.Req} (h : decode cfg e r op = .ok (.keys q)) :
    Yields (fun o => Lands e (target cfg.le r op) o.dma) (Crypto.handler cfg.base.crypto cfg.base.lib v q) := by
  cases op with
  | aes m =>
    cases m with
    | gcm =>
      obtain ⟨_, h⟩ := sized_ok h
      obtain ⟨_, h⟩ := fits_ok h
      obtain ⟨hz, h⟩ := fits_ok h
      have h := keys_inj h; subst h
      exact lands_aes hb hz fun hp => (first_ok (first_ok (first_ok hp).2).2).1
    | _ =>
      obtain ⟨_, h⟩ := sized_ok h
      obtain ⟨_, h⟩ := fits_ok h
      obtain ⟨hz, h⟩ := fits_ok h
      have h := keys_inj h; subst h
      exact lands_aes hb hz fun hp => (first_ok (first_ok hp).2).1
  | keyGenMlDsa | keyGenMlKem =>
    obtain ⟨_, h⟩ := sized_ok h
    obtain ⟨_, h⟩ := fits_ok h
    have h := keys_inj h; subst h
    exact lands_keyGen hb fun h => h
  | signMlDsa =>
    obtain ⟨_, h⟩ := sized_ok h
    obtain ⟨_, h⟩ := fits_ok h
    obtain ⟨_, h⟩ := fits_ok h
    have h := keys_inj h; subst h
    exact lands_signDma hb fun hp => (first_ok (first_ok hp).2).1
  | verifyMlDsa =>
    obtain ⟨_, h⟩ := sized_ok h
    obtain ⟨_, h⟩ := fits_ok h
    obtain ⟨_, h⟩ := fits_ok h
    have h := keys_inj h; subst h
    exact lands_verifyDma
  | signEd =>
    obtain ⟨_, h⟩ := sized_ok h
    obtain ⟨_, h⟩ := fits_ok h
    obtain ⟨_, h⟩ := fits_ok h
    obtain ⟨_, h⟩ := fits_ok h
    have h := keys_inj h; subst h
    exact lands_signDma hb fun hp => (first_ok (first_ok hp).2).1
  | verifyEd =>
    obtain ⟨_, h⟩ := sized_ok h
    obtain ⟨_, h⟩ := fits_ok h
    obtain ⟨_, h⟩ := fits_ok h
    obtain ⟨_, h⟩ := fits_ok h
    have h := keys_inj h; subst h
    exact lands_verifyDma
  | encaps =>
    obtain ⟨_, h⟩ := sized_ok h
    have h := keys_inj h; subst h
    exact lands_encaps hb
  | decaps =>
    obtain ⟨_, h⟩ := sized_ok h
    have h := keys_inj h; subst h
    exact lands_decaps
  | cmac =>
    obtain ⟨_, h⟩ := sized_ok h
    obtain ⟨_, h⟩ := fits_ok h
    obtain ⟨_, h⟩ := fits_ok h
    obtain ⟨_, h⟩ := fits_ok h
    have h := keys_inj h; subst h
    exact lands_cmac
  | sha256 | sha384 | sha512 | sha3 =>
    obtain ⟨_, h⟩ := sized_ok h
    obtain ⟨_, h⟩ := fits_ok h
    obtain ⟨_, h⟩ := fits_ok h
    injection h with h; cases h
  | _ =>
    obtain ⟨_, h⟩ := sized_ok h
    injection h with h; cases h

theorem signKey_early {x : Nat} {s : Sys} {id : UInt16} {q : StatefulSig.SignReq} {b : List UInt8}
    (h : (StatefulSig.signKey cfg.sig x s id q).1.early = some b ∨ (StatefulSig.signKey cfg.sig x s id q).1.sig = some b) :
    q.preSig = .ok ∧ ∃ pub priv priv', (cfg.sigLib q.alg).sign pub priv q.msg q.sigSz = .ok (b, priv') := by
  have none2 : ∀ {rc : Rc}, ¬ ((⟨rc, none, none⟩ : StatefulSig.SignOut).early = some b ∨ (⟨rc, none, none⟩ : StatefulSig.SignOut).sig = some b) := by
    intro rc h; rcases h with h | h <;> cases h
  unfold StatefulSig.signKey at h
  split at h
  · split at h
    · split at h
      · exact absurd h none2
      · split at h
        · split at h
          · rename_i hps
            split at h
            · exact absurd h none2
            · rename_i sg priv' hs
              split at h
              · have : sg = b := by rcases h with h | h <;> injection h
                subst this
                exact ⟨hps, _, _, _, hs⟩
              · have : sg = b := by
                  rcases h with h | h
                  · injection h
                  · cases h
                subst this
                exact ⟨hps, _, _, _, hs⟩
          · exact absurd h none2
        · exact absurd h none2
    · exact absurd h none2
  · exact absurd h none2

theorem sign_early {s : Sys} {q : StatefulSig.SignReq} {b : List UInt8}
    (h : (StatefulSig.sign cfg.sig v s q).1.early = some b ∨ (StatefulSig.sign cfg.sig v s q).1.sig = some b) :
    q.preSig = .ok ∧ ∃ pub priv priv', (cfg.sigLib q.alg).sign pub priv q.msg q.sigSz = .ok (b, priv') := by
  unfold StatefulSig.sign at h
  dsimp only at h
  split at h
  · rcases h with h | h <;> cases h
  · split at h
    · exact signKey_early h
    · rcases h with h | h <;> cases h

theorem keyGen_pre {s : Sys} {q : StatefulSig.GenReq} (h : (StatefulSig.keyGen cfg.sig v s q).1.1 = .ok) :
    q.prePub = .ok ∧ ∃ n m, (cfg.sigLib q.alg).params q.param = .ok (n, m) := by
  unfold StatefulSig.keyGen at h
  split at h
  · cases h
  split at h
  · split at h
    · rename_i rc _
      exact absurd (show errRc rc = .ok from h) (by cases rc <;> simp [errRc])
    · rename_i hq
      split at h
      · cases h
      · split at h
        · rename_i hp
          exact ⟨hp, _, _, hq⟩
        · rename_i hp; exact absurd h hp
  · rename_i hp; exact absurd h hp

/-- **Writes.** -/
theorem handle_lands (hb : Bounded cfg e) {s : Sys} {a : UInt64} {d : List UInt8} (h : (handle cfg v e r s).1.2 = some (a, d)) :
    d ≠ [] ∧ ∃ b : Buf, e.writePre b = .ok ∧ b.addr = a ∧ d.length ≤ b.sz.toNat := by
  unfold handle at h
  by_cases h12 : r.size < 12
  · rw [if_pos h12] at h; cases h
  rw [if_neg h12] at h
  generalize cfg.select r.action _ _ = x at h
  rcases x with rc | op
  · cases h
  dsimp only at h
  generalize hd : decode cfg e r op = t at h
  rcases t with rc | t
  · cases h
  have hk := decode_kind hd
  cases t with
  | keys q =>
    dsimp only at h
    generalize hx : exec cfg.base.crypto.ks v e.locks 0 (Crypto.handler cfg.base.crypto cfg.base.lib v q) s = y at h
    rcases y with ⟨_ | a', s'⟩
    · cases h
    · rcases a' with rc | o
      · cases h
      · have := yields_exec _ 0 s (lands_handler (v := v) hb hd) hx
        exact lands_send this h
  | sign q =>
    dsimp only at h
    have hop : op = .sigSign q.alg ∧ q.preSig = e.writePre (buf cfg.le r 16) ∧ q.sigSz = (buf cfg.le r 16).len := by
      cases op with
      | sigSign a =>
        obtain ⟨_, hd⟩ := sized_ok hd
        injection hd with hd; injection hd with hd; subst hd
        exact ⟨rfl, rfl, rfl⟩
      | _ => exact hk.elim
    have land : ∀ b, (StatefulSig.sign cfg.sig v s q).1.early = some b ∨ (StatefulSig.sign cfg.sig v s q).1.sig = some b →
        Lands e (target cfg.le r (.sigSign q.alg)) b := by
      intro b hb'
      obtain ⟨h1, pub, priv, priv', h2⟩ := sign_early hb'
      refine .inr ⟨buf cfg.le r 16, by rw [← hop.2.1]; exact h1, rfl, ?_⟩
      have := hb.sigSign _ _ _ _ _ _ _ h2
      rw [hop.2.2] at this
      exact Nat.le_trans this (len_le _)
    generalize StatefulSig.sign cfg.sig v s q = p at h land
    unfold encodeSign at h
    split at h
    · split at h
      · rename_i b _ hs
        exact lands_send (land b (.inr hs)) h
      · cases h
    · generalize he : p.1.early = o at h
      rcases o with _ | b
      · cases h
      · exact lands_send (land b (.inl he)) h
  | gen q =>
    dsimp only at h
    have hop : q.prePub = e.writePre ⟨(buf cfg.le r 0).addr, UInt64.ofNat (pubLen cfg q.alg q.param)⟩ ∧ q.made = e.made q.alg q.param := by
      cases op with
      | sigGen a =>
        obtain ⟨_, hd⟩ := sized_ok hd
        injection hd with hd; injection hd with hd; subst hd
        exact ⟨rfl, rfl⟩
      | _ => exact hk.elim
    have pre : (StatefulSig.keyGen cfg.sig v s q).1.1 = .ok → _ := keyGen_pre
    generalize StatefulSig.keyGen cfg.sig v s q = p at h pre
    unfold encodeGen at h
    split at h
    · split at h
      · rename_i pub priv hrc hm
        obtain ⟨h1, n, m, h2⟩ := pre hrc
        rw [hop.2] at hm
        obtain ⟨h3, h4⟩ := hb.sigGen _ _ _ _ _ _ hm h2
        refine lands_send (.inr ⟨⟨(buf cfg.le r 0).addr, UInt64.ofNat (pubLen cfg q.alg q.param)⟩, by rw [← hop.1]; exact h1, rfl, ?_⟩) h
        show pub.length ≤ (UInt64.ofNat (pubLen cfg q.alg q.param)).toNat
        unfold pubLen
        rw [h2]
        rw [UInt64.toNat_ofNat_of_lt' h3]
        exact h4
      · cases h
    · cases h
  | rng b =>
    dsimp only at h
    unfold rng at h
    split at h
    · rename_i hw
      split at h
      · cases h
      · rename_i d' hr
        split at h
        · exact lands_send (.inr ⟨b, hw, rfl, Nat.le_trans (hb.random _ _ hr) (len_le b)⟩) h
        · cases h
    · cases h
  | verify => cases h
  | left => cases h
  | sha2 => cases h
  | sha3 => cases h

/-! ## Failed requests -/

theorem reply_head (le : Bool) (r : Req) (f : List UInt8) (n : Nat) (body : List UInt8) :
    (reply le r f n body).take 12 = header le r .ok := by
  unfold reply over
  rw [List.append_assoc, List.append_assoc, List.take_append_of_le_length (by rw [header_length]),
    List.take_of_length_le (by rw [header_length])]

/-- A response is the header with an error, or starts with the header of a success; there is none
when power is lost. -/
def Shaped (le : Bool) (r : Req) (b : List UInt8) : Prop :=
  b = [] ∨ (∃ rc, b = header le r rc) ∨ b.take 12 = header le r .ok

theorem handle_shaped (h12 : 12 ≤ r.size) (s : Sys) : Shaped cfg.le r (handle cfg v e r s).1.1 := by
  have err : ∀ rc, Shaped cfg.le r (header cfg.le r rc) := fun rc => .inr (.inl ⟨rc, rfl⟩)
  have good : ∀ f n b, Shaped cfg.le r (reply cfg.le r f n b) := fun f n b => .inr (.inr (reply_head ..))
  unfold handle
  rw [if_neg (by omega)]
  generalize cfg.select r.action _ _ = x
  rcases x with rc | op
  · exact err _
  dsimp only
  generalize decode cfg e r op = t
  rcases t with rc | t
  · exact err _
  cases t with
  | keys q =>
    dsimp only
    generalize exec cfg.base.crypto.ks v e.locks 0 (Crypto.handler cfg.base.crypto cfg.base.lib v q) s = y
    rcases y with ⟨_ | a, s'⟩
    · exact .inl rfl
    · rcases a with rc | o
      · exact err _
      · exact good ..
  | sign q =>
    dsimp only
    unfold encodeSign
    split
    · split
      · exact good ..
      · exact err _
    · exact .inl rfl
  | gen q =>
    dsimp only
    unfold encodeGen
    split
    · split
      · exact good ..
      · exact err _
    · exact .inl rfl
  | verify a i ev sg ms pre =>
    dsimp only [verify]
    split
    · exact err _
    · split
      · split
        · exact err _
        · exact good ..
      · exact err _
  | left a i =>
    dsimp only [sigsLeft]
    split
    · exact err _
    · split
      · exact err _
      · exact good ..
  | rng b =>
    dsimp only [rng]
    split
    · split
      · exact err _
      · split
        · exact good ..
        · exact err _
    · exact err _
  | sha2 type last hi lo d i b =>
    dsimp only [sha2]
    split
    · split
      · exact err _
      · exact good ..
    · split
      · exact err _
      · split
        · split
          · exact err _
          · exact good ..
        · exact err _
  | sha3 block last st i b =>
    dsimp only [sha3]
    split
    · split
      · exact err _
      · exact good ..
    · split
      · exact err _
      · split
        · split
          · exact err _
          · exact good ..
        · exact err _

end WolfHsm.CryptoDma

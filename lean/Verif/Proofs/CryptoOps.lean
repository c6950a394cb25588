import Verif.Proofs.Crypto

/-!
# The key-store operations a crypto handler issues
-/

namespace WolfHsm.Crypto

open Keystore (Srv Sys Ev step run ownId)

/-- Operations issued so far, with their answers. -/
abbrev Hist := List (Keystore.Req × Keystore.Resp)

/-- Every operation `p` may issue satisfies `P`, given what was issued before. -/
def Calls (P : Hist → Keystore.Req → Prop) : Hist → Prog → Prop
  | _, .done _ => True
  | H, .call _ r k => P H r ∧ ∀ a, Calls P ((r, a) :: H) (k a)

/-- The operations a request may issue: look at keys, store a made key under the id given, evict
keys it was told to evict, and evict the key it has just stored. -/
def Op (cfg : Cfg) (L : Lib) (v : Srv) (r : Req) (H : Hist) : Keystore.Req → Prop
  | .loadKey .. | .useKey .. => True
  | .importKey id flags _ _ der => id ∈ r.targets ∧ ∀ key, der = .ok key → r.Makes L flags key
  | .evictOption i => i ∈ r.targets ∨
      ∃ id flags label cap der, (Keystore.Req.importKey id flags label cap der, .keyId .ok i) ∈ H ∧
        id ∈ r.targets ∧ KeyId.idOf (ownId cfg.ks v id) = 0
  | _ => False

variable {cfg : Cfg} {L : Lib} {v : Srv} {r : Req} {H : Hist} {P : Hist → Keystore.Req → Prop}

theorem calls_load {l : Bool} {id req : UInt16} {k : Except Rc (List UInt8) → Prog}
    (h : ∀ H res, Calls (Op cfg L v r) H (k res)) :
    Calls (Op cfg L v r) H (load cfg v l id req k) := by
  unfold load
  split
  · exact h _ _
  · exact ⟨trivial, fun _ => h _ _⟩

theorem calls_read {id req : UInt16} {size : Nat} {k : Except Rc (List UInt8) → Prog}
    (h : ∀ H res, Calls (Op cfg L v r) H (k res)) :
    Calls (Op cfg L v r) H (read id req size k) :=
  ⟨trivial, fun _ => h _ _⟩

theorem calls_evict {l ev : Bool} {id : UInt16} {p : Prog} (hid : ev = true → id ∈ r.targets)
    (h : ∀ H, Calls (Op cfg L v r) H p) : Calls (Op cfg L v r) H (evictOpt cfg v l ev id p) := by
  unfold evictOpt
  split
  · rename_i he
    simp only [Bool.and_eq_true] at he
    exact ⟨.inl (hid he.1), fun _ => h _⟩
  · exact h _

theorem calls_store {id flags : UInt16} {label : Vector UInt8 24} {cap : UInt16}
    {der : Except Rc (List UInt8)} {k : Except Rc UInt16 → Prog} (hid : id ∈ r.targets)
    (hder : ∀ key, der = .ok key → r.Makes L flags key)
    (h : ∀ H rc, Calls (Op cfg L v r) H (k (.error rc)))
    (h' : ∀ H rid, (Keystore.Req.importKey id flags label cap der, .keyId .ok rid) ∈ H →
      Calls (Op cfg L v r) H (k (.ok rid))) :
    Calls (Op cfg L v r) H (store id flags label cap der k) := by
  refine ⟨⟨hid, hder⟩, fun a => ?_⟩
  cases a with
  | keyId rc rid => cases rc <;> first | exact h' _ _ (by simp) | exact h _ _
  | _ => exact h _ _

theorem calls_useOne {l ev : Bool} {id req : UInt16} {op : List UInt8 → Resp}
    (hid : ev = true → id ∈ r.targets) :
    Calls (Op cfg L v r) H (useOne cfg v l id req ev op) :=
  calls_load fun _ _ => calls_evict hid fun _ => trivial

theorem calls_deliver {id flags : UInt16} {label : Vector UInt8 24} {okm : Except Rc (List UInt8)}
    (hid : id ∈ r.targets) (hder : ∀ key, okm = .ok key → r.Makes L flags key) :
    Calls (Op cfg L v r) H (deliver id flags label okm) := by
  unfold deliver
  split
  · trivial
  · split
    · trivial
    · exact calls_store hid (fun key hk => hder key (by rw [← hk])) (fun _ _ => trivial)
        (fun _ _ _ => trivial)

theorem calls_cmacKey {id : UInt16} {key : List UInt8} {k : Except Rc (List UInt8) → Prog}
    (h : ∀ H res, Calls (Op cfg L v r) H (k res)) :
    Calls (Op cfg L v r) H (cmacKey id key k) := by
  unfold cmacKey
  dsimp only
  split
  · exact h _ _
  · split
    · exact h _ _
    · refine calls_read fun _ res => ?_
      split
      · exact calls_read fun _ _ => h _ _
      · exact h _ _

theorem calls_kdfInput {inline : List UInt8} {id : UInt16} {size : Nat} {k : List UInt8 → Prog}
    (h : ∀ H b, Calls (Op cfg L v r) H (k b)) :
    Calls (Op cfg L v r) H (kdfInput cfg v inline id size k) := by
  unfold kdfInput
  split
  · split
    · trivial
    · refine calls_read fun _ res => ?_
      split
      · trivial
      · exact h _ _
  · exact h _ _

/-- The operations of a crypto request. -/
theorem calls_handler (cfg : Cfg) (L : Lib) (v : Srv) (r : Req) (H : Hist) :
    Calls (Op cfg L v r) H (handler cfg L v r) := by
  cases r with
  | malformed => trivial
  | refused id evict => exact calls_evict (by intro h; simp [Req.targets, h]) fun _ => trivial
  | keyGen alg id flags label params coins =>
    simp only [handler, keyGen]
    split
    · trivial
    · split
      · trivial
      · rename_i obj hgen
        split
        · trivial
        · exact calls_store (by simp [Req.targets]) (fun key hk => ⟨rfl, obj, _, hgen, hk⟩)
            (fun _ _ => trivial) (fun _ _ _ => trivial)
  | keyGenDma alg id flags label params coins sz pre post =>
    simp only [handler, keyGenDma]
    split
    · trivial
    · split
      · trivial
      · rename_i obj hgen
        split
        · split
          · split
            · trivial
            · split <;> trivial
          · trivial
        · refine calls_store (by simp [Req.targets]) (fun key hk => ⟨rfl, obj, _, hgen, hk⟩)
            (fun _ _ => trivial) (fun H rid hm => ?_)
          dsimp only
          split
          · trivial
          · unfold evictOpt
            split
            · refine ⟨?_, fun _ => trivial⟩
              unfold outId
              split
              · rename_i he
                exact .inr ⟨_, _, _, _, _, hm, by simp [Req.targets],
                  eq_of_beq he⟩
              · exact .inl (by simp [Req.targets])
            · trivial
  | rsaFunction op id evict input outLen coins =>
    simp only [handler, rsaFunction]
    refine calls_load fun _ res => ?_
    have hid : evict = true → id ∈ (Req.rsaFunction op id evict input outLen coins).targets := by
      intro h; simp [Req.targets, h]
    split
    · exact calls_load fun _ _ => calls_evict hid fun _ => trivial
    · exact calls_evict hid fun _ => trivial
  | rsaGetSize id evict => exact calls_useOne (by intro h; simp [Req.targets, h])
  | sharedSecret alg opts prv pub evPrv evPub id flags label =>
    have two : ∀ {H : Hist} {e1 e2 : Bool} {a : Resp}, (e1 = true → evPub = true) →
        (e2 = true → evPrv = true) →
        Calls (Op cfg L v (.sharedSecret alg opts prv pub evPrv evPub id flags label)) H
          (evictTwo cfg v e1 e2 pub prv a) := fun h1 h2 =>
      calls_evict (by intro h; simp [Req.targets, h1 h]) fun _ =>
        calls_evict (by intro h; simp [Req.targets, h2 h]) fun _ => trivial
    simp only [handler, sharedSecret]
    refine calls_load fun _ res => ?_
    split
    · exact two (fun h => h) (fun h => h)
    · refine calls_load fun _ res => ?_
      split
      · exact two (fun h => h) (fun h => h)
      · split
        · exact two (fun h => h) (fun h => h)
        · rename_i kprv _ kpub _ z hz
          split
          · exact two (fun h => h) (fun h => h)
          · refine calls_store (by simp [Req.targets]) (fun key hk => ⟨rfl, _, _, _, by
              cases hk; exact hz⟩) (fun _ _ => two (fun h => h) (fun h => h)) fun _ _ _ => ?_
            exact two (by simp; exact fun h _ => h) (by simp; exact fun h _ => h)
  | sign alg id evict opts msg ctx coins => exact calls_useOne (by intro h; simp [Req.targets, h])
  | signDma alg id evict opts msg ctx coins sigSz pre =>
    simp only [handler, signDma]
    split
    · exact calls_evict (by intro h; simp [Req.targets, h]) fun _ => trivial
    · exact calls_useOne (by intro h; simp [Req.targets, h])
  | verify alg id evict exportPub opts sig msg ctx =>
    exact calls_useOne (by intro h; simp [Req.targets, h])
  | verifyDma alg id evict opts sig msg ctx pre =>
    simp only [handler, verifyDma]
    split
    · exact calls_evict (by intro h; simp [Req.targets, h]) fun _ => trivial
    · exact calls_useOne (by intro h; simp [Req.targets, h])
  | makePub id evict coins => exact calls_useOne (by intro h; simp [Req.targets, h])
  | checkPub id evict pub coins => exact calls_useOne (by intro h; simp [Req.targets, h])
  | encaps params id evict coins dma =>
    simp only [handler, encaps]
    split
    · exact calls_evict (by intro h; simp [Req.targets, h]) fun _ => trivial
    · exact calls_useOne (by intro h; simp [Req.targets, h])
  | decaps params id evict ct dma =>
    simp only [handler, decaps]
    split
    · exact calls_evict (by intro h; simp [Req.targets, h]) fun _ => trivial
    · exact calls_useOne (by intro h; simp [Req.targets, h])
  | hkdf idIn idOut flags label hash inKey salt info outSz =>
    have go : ∀ {H : Hist} {ikm : List UInt8},
        Calls (Op cfg L v (.hkdf idIn idOut flags label hash inKey salt info outSz)) H
          (if outSz > cfg.ks.commLen - 20 then .done (.error .badargs)
          else deliver idOut flags label
            (L.hkdf hash (48 + inKey.length + salt.length) ikm salt info outSz)) := by
      intro H ikm
      split
      · trivial
      · exact calls_deliver (by simp [Req.targets]) fun key hk => ⟨rfl, _, _, hk⟩
    simp only [handler, hkdf]
    split
    · refine calls_read fun _ res => ?_
      split
      · trivial
      · exact go
    · exact go
  | cmacKdf idSalt idZ idOut flags label salt z info outSz =>
    simp only [handler, cmacKdf]
    refine calls_kdfInput fun _ _ => calls_kdfInput fun _ _ => ?_
    split
    · trivial
    · exact calls_deliver (by simp [Req.targets]) fun key hk => ⟨rfl, _, _, _, hk⟩
  | aes mode enc id key input extra left tagLen =>
    simp only [handler, aes]
    generalize (28 + input.length + if enc = true then tagLen else 0) = sz
    split
    · trivial
    · split
      · trivial
      · exact calls_read fun _ _ => trivial
  | aesDma mode enc id key input extra left pre post =>
    simp only [handler, aesDma]
    split
    · trivial
    · exact calls_read fun _ _ => trivial
  | cmac id key state input outSz =>
    simp only [handler, cmac]
    exact calls_cmacKey fun _ _ => trivial
  | cmacDma id key state inline mem outSz pre =>
    simp only [handler, cmacDma]
    split
    · split
      · exact calls_cmacKey fun _ _ => trivial
      · trivial
    · exact calls_cmacKey fun _ _ => trivial

/-- Every own operation of an execution is one `P` allows, after own operations that were answered
earlier in the execution. -/
theorem exec_calls {c : Keystore.Cfg} {ncfg : NvmServer.Cfg} {s : Sys} {p : Prog} {es : List Ev}
    {o : Option Resp} (h : Exec c ncfg v s p es o) : ∀ {H : Hist}, Calls P H p →
    ∀ {j : Nat} {lock : Rc} {q : Keystore.Req}, es[j]? = some (.key v lock q) →
    ∃ H', P H' q ∧ ∀ x ∈ H', x ∈ H ∨ ∃ i lock', i < j ∧ es[i]? = some (.key v lock' x.1) ∧
      (step c ncfg (run c ncfg s (es.take i)) (.key v lock' x.1)).1 = .key x.2 := by
  induction h with
  | done => intro H _ j lock q hj; simp at hj
  | @call s l r k lk a es o hl ha hx ih =>
    intro H hp j lock q hj
    cases j with
    | zero =>
      simp only [List.getElem?_cons_zero, Option.some.injEq, Ev.key.injEq] at hj
      obtain ⟨-, -, rfl⟩ := hj
      exact ⟨H, hp.1, fun x hx => .inl hx⟩
    | succ j =>
      rw [List.getElem?_cons_succ] at hj
      obtain ⟨H', h1, h2⟩ := ih (hp.2 a) hj
      refine ⟨H', h1, fun x hx => ?_⟩
      rcases h2 x hx with hm | ⟨i, lock', hi, h3, h4⟩
      · rcases List.mem_cons.1 hm with rfl | hm
        · exact .inr ⟨0, lk, by omega, rfl, ha⟩
        · exact .inl hm
      · exact .inr ⟨i + 1, lock', by omega, by simpa using h3, h4⟩
  | @lost s l r k lk hl ha =>
    intro H hp j lock q hj
    cases j with
    | zero =>
      simp only [List.getElem?_cons_zero, Option.some.injEq, Ev.key.injEq] at hj
      obtain ⟨-, -, rfl⟩ := hj
      exact ⟨H, hp.1, fun x hx => .inl hx⟩
    | succ j => simp at hj
  | @other s p e es o hv hf hx ih =>
    intro H hp j lock q hj
    cases j with
    | zero =>
      simp only [List.getElem?_cons_zero, Option.some.injEq] at hj
      subst hj
      exact absurd rfl hf
    | succ j =>
      rw [List.getElem?_cons_succ] at hj
      obtain ⟨H', h1, h2⟩ := ih hp hj
      refine ⟨H', h1, fun x hx => ?_⟩
      rcases h2 x hx with hm | ⟨i, lock', hi, h3, h4⟩
      · exact .inl hm
      · exact .inr ⟨i + 1, lock', by omega, by simpa using h3, h4⟩

end WolfHsm.Crypto

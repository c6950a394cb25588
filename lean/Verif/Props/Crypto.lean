import Verif.Proofs.Crypto
import Verif.Proofs.CryptoDemo

/-!
# Crypto requests and usage flags (C20)
-/

namespace WolfHsm.Props

open Crypto
open Keystore (Srv Sys Ev GoodCfg Reach run view ownId usageAny)

variable {cfg : Crypto.Cfg} {ncfg : NvmServer.Cfg} {L : Lib} {v : Srv} {s : Sys} {es : List Ev}
  {n : Nat} {o : Crypto.Out}

theorem held_of {id m : UInt16} {ms : List UInt16} {b : List UInt8}
    (h : HeldAt cfg ncfg v s es id m b) (hm : m ∈ ms) (hu : m &&& usageAny = m) :
    Held cfg ncfg v s es (id, ms) b := by
  obtain ⟨n, md, h1, h2⟩ := h
  rw [hu] at h2
  exact ⟨n, md, h1, m, hm, h2⟩

theorem held_one {id m : UInt16} {b : List UInt8}
    (h : HeldAt cfg ncfg v s es id m b) (hu : m &&& usageAny = m) :
    AllHeld cfg ncfg v s es [(id, [m])] [b] :=
  ⟨held_of h (by simp) hu, trivial⟩

theorem map_ok {α β : Type} {x : Except Rc α} {f : α → β} {y : β} (h : .ok y = x.map f) :
    ∃ a, x = .ok a ∧ y = f a := by
  cases x with
  | error => cases h
  | ok a => cases h; exact ⟨a, rfl, rfl⟩

theorem eph {f : UInt16} : isEphemeral f = true ↔ f &&& Flag.ephemeral ≠ 0 := by
  simp [isEphemeral]

theorem eph' {f : UInt16} : ¬isEphemeral f = true ↔ f &&& Flag.ephemeral = 0 := by
  simp [isEphemeral]

theorem erased_iff {k : UInt16} : KeyId.isErased k = true ↔ KeyId.idOf k = 0 := by
  simp [KeyId.isErased]

/-- A derived key that has been delivered. -/
theorem at_deliver {id flags : UInt16} {label : Vector UInt8 24} {okm : Except Rc (List UInt8)}
    (h : At cfg ncfg v s es n (deliver id flags label okm) (.ok o)) :
    ∃ z, okm = .ok z ∧ Delivered flags z o := by
  unfold deliver at h
  cases okm with
  | error => cases at_done h
  | ok z =>
    refine ⟨z, rfl, ?_⟩
    dsimp only at h
    split at h
    · rename_i he
      cases at_done h
      exact .inl ⟨eph.1 he, rfl⟩
    · rename_i he
      obtain ⟨m, res, h, -⟩ := at_store h
      obtain ⟨rid, -, rfl⟩ := map_ok (at_done h)
      exact .inr ⟨eph'.1 he, rfl⟩

/-- The usage flag an AES request asks for is a usage flag. -/
theorem aesNeed_usage (enc : Bool) : aesNeed enc &&& usageAny = aesNeed enc := by
  cases enc <;> decide

theorem aesWith_ok {mode : AesMode} {enc : Bool} {left : Nat} {input extra : List UInt8}
    {key : Except Rc (List UInt8)} {r : List UInt8 × List UInt8}
    (h : aesWith L mode enc left input extra key = .ok r) :
    ∃ k, key = .ok k ∧ L.aes mode enc left k input extra = .ok r := by
  unfold aesWith at h
  split at h
  · cases h
  · rename_i k
    split at h
    · cases h
    · split at h
      · cases h
      · exact ⟨k, rfl, h⟩

theorem cmacWith_ok {id : UInt16} {f : Nat} {state input : List UInt8} {outSz : Nat}
    {oneShot : Bool} {k : List UInt8} (h1 : oneShot = true → outSz ≠ 0)
    (h : cmacWith L id f state input outSz oneShot k = .ok o) :
    (∃ t, (oneShot = true ∧ L.cmac k input outSz = .ok t ∨
        oneShot = false ∧ L.cmacFinal k state input outSz = .ok t) ∧ outSz ≠ 0 ∧
        o.disclosed = (t, [], [], 0)) ∨
    (∃ st, L.cmacUpdate k state input = .ok st ∧ outSz = 0 ∧ o.disclosed = ([], [], st, 0)) := by
  unfold cmacWith at h
  split at h
  · rename_i he
    obtain ⟨t, ht, rfl⟩ := map_ok h.symm
    exact .inl ⟨t, .inl ⟨he, ht⟩, h1 he, rfl⟩
  · rename_i he
    split at h
    · rename_i hz
      obtain ⟨t, ht, rfl⟩ := map_ok h.symm
      exact .inl ⟨t, .inr ⟨by simpa using he, ht⟩, hz, rfl⟩
    · rename_i hz
      obtain ⟨t, ht, rfl⟩ := map_ok h.symm
      exact .inr ⟨t, ht, by simpa using hz, rfl⟩

section
variable (hsg : GoodCfg cfg.ks) (hs : Reach cfg.ks ncfg s) (hc : v.client < 16)
  (hv : ∀ e ∈ es, e.Valid)
include hsg hs hc hv

/-- The key of a CMAC request: inline, or stored with one of the two usages. -/
theorem at_cmacKey {id : UInt16} {key : List UInt8} {op : List UInt8 → Resp}
    (h : At cfg ncfg v s es n (cmacKey id key fun r => .done (r.bind op)) (.ok o)) :
    ∃ k, op k = .ok o ∧ (key ≠ [] ∧ k = key ∨
      key = [] ∧ Held cfg ncfg v s es (id, [Flag.usageSign, Flag.usageVerify]) k) := by
  have bind_ok : ∀ {r : Except Rc (List UInt8)}, .ok o = r.bind op → ∃ k, r = .ok k ∧ op k = .ok o := by
    intro r hr
    cases r with
    | error => cases hr
    | ok k => exact ⟨k, rfl, hr.symm⟩
  have chk_ok : ∀ {r : Except Rc (List UInt8)} {k},
      (r.bind fun b => if aesLen b.length then .ok b else .error .aborted) = .ok k → r = .ok k := by
    intro r k hr
    cases r with
    | error => cases hr
    | ok b =>
      dsimp only [Except.bind] at hr
      split at hr
      · cases hr; rfl
      · cases hr
  unfold cmacKey at h
  dsimp only at h
  split at h
  · rename_i hk
    exact ⟨key, (at_done h).symm, .inl ⟨hk, rfl⟩⟩
  · rename_i hk
    simp only [ne_eq, Decidable.not_not] at hk
    split at h
    · cases at_done h
    · obtain ⟨m, res, h, hh⟩ := at_read hsg hs hc hv h
      split at h
      · obtain ⟨m, res', h, hh'⟩ := at_read hsg hs hc hv h
        obtain ⟨k, hr, ho⟩ := bind_ok (at_done h)
        exact ⟨k, ho, .inr ⟨hk, held_of (hh' _ (chk_ok hr)) (by simp) (by decide)⟩⟩
      · obtain ⟨k, hr, ho⟩ := bind_ok (at_done h)
        exact ⟨k, ho, .inr ⟨hk, held_of (hh _ (chk_ok hr)) (by simp) (by decide)⟩⟩

theorem at_kdfInput {inline : List UInt8} {id : UInt16} {size : Nat} {k : List UInt8 → Prog}
    (h : At cfg ncfg v s es n (kdfInput cfg v inline id size k) (.ok o)) :
    ∃ m b, At cfg ncfg v s es m (k b) (.ok o) ∧ (inline ≠ [] → b = inline) ∧
      (inline = [] → Held cfg ncfg v s es (id, [Flag.usageDerive]) b) := by
  unfold kdfInput at h
  split at h
  · rename_i hi
    split at h
    · cases at_done h
    · obtain ⟨m, res, h, hh⟩ := at_read hsg hs hc hv h
      cases res with
      | error => cases at_done h
      | ok b => exact ⟨m, b, h, fun hn => absurd hi hn,
          fun _ => held_of (hh b rfl) (by simp) (by decide)⟩
  · rename_i hi
    exact ⟨n, inline, h, fun _ => rfl, fun hn => absurd hn hi⟩

/-- What a successful crypto request has done, from any point of its execution. -/
theorem at_handler (r : Req) (h : At cfg ncfg v s es n (handler cfg L v r) (.ok o)) :
    ∃ keys, AllHeld cfg ncfg v s es (r.needs cfg v) keys ∧ r.Computes L keys o := by
  cases r with
  | malformed => cases at_done h
  | refused id evict => obtain ⟨_, h⟩ := at_evict h; cases at_done h
  | keyGen alg id flags label params coins =>
    refine ⟨[], trivial, ?_⟩
    simp only [handler, keyGen] at h
    split at h
    · cases at_done h
    · split at h
      · cases at_done h
      · rename_i obj hgen
        refine ⟨obj, hgen, ?_⟩
        split at h
        · rename_i he
          obtain ⟨der, hd, rfl⟩ := map_ok (at_done h)
          exact ⟨fun _ => ⟨_, der, hd, rfl⟩, fun h0 => absurd h0 (eph.1 he)⟩
        · rename_i he
          obtain ⟨m, res, h, -⟩ := at_store h
          obtain ⟨rid, -, rfl⟩ := map_ok (at_done h)
          refine ⟨fun h0 => absurd (eph'.1 he) h0, fun _ => ?_⟩
          cases hp : L.publicDer alg (cfg.ks.commLen - 8) obj with
          | error => exact .inl rfl
          | ok pub => exact .inr ⟨_, pub, hp, rfl⟩
  | keyGenDma alg id flags label params coins sz pre post =>
    refine ⟨[], trivial, ?_⟩
    simp only [handler, keyGenDma] at h
    split at h
    · cases at_done h
    · split at h
      · cases at_done h
      · rename_i obj hgen
        refine ⟨obj, hgen, ?_⟩
        split at h
        · rename_i he
          refine ⟨fun _ => ?_, fun h0 => absurd h0 (eph.1 he)⟩
          split at h
          · split at h
            · cases at_done h
            · rename_i der hd
              split at h
              · cases at_done h; exact ⟨_, der, hd, rfl⟩
              · cases at_done h
          · cases at_done h
        · rename_i he
          refine ⟨fun h0 => absurd (eph'.1 he) h0, fun _ => ?_⟩
          obtain ⟨m, res, h, -⟩ := at_store h
          cases res with
          | error => cases at_done h
          | ok rid =>
            dsimp only at h
            split at h
            · rename_i pub hp
              cases at_done h
              split at hp
              · exact ⟨_, pub, hp, rfl⟩
              · cases hp
            · obtain ⟨_, h⟩ := at_evict h
              cases at_done h
  | rsaFunction op id evict input outLen coins =>
    simp only [handler, rsaFunction] at h
    obtain ⟨m, res, h, hh⟩ := at_load hsg hs hv h
    have fin : ∀ {m : Nat} {res : Except Rc (List UInt8)} {ms : List UInt16},
        (∀ b, res = .ok b → Held cfg ncfg v s es (id, ms) b) →
        At cfg ncfg v s es m (evictOpt cfg v true evict id (.done (res.bind fun k =>
          (L.rsa op outLen k input coins).map fun out =>
            ({ fixed := 4, body := out } : Crypto.Out)))) (.ok o) →
        ∃ keys, AllHeld cfg ncfg v s es [(id, ms)] keys ∧
          (Req.rsaFunction op id evict input outLen coins).Computes L keys o := by
      intro m res ms hh h
      obtain ⟨_, h⟩ := at_evict h
      have h := at_done h
      cases res with
      | error => cases h
      | ok k =>
        obtain ⟨out, ho, rfl⟩ := map_ok h
        exact ⟨[k], ⟨hh k rfl, trivial⟩, _, out, ho, rfl⟩
    split at h
    · rename_i alt halt
      obtain ⟨m, res, h2, hh2⟩ := at_load hsg hs hv h
      clear h hh
      cases op with
      | publicDecrypt =>
        cases halt
        exact fin (fun b hb => held_of (hh2 b hb) (by simp) (by decide)) h2
      | privateEncrypt =>
        cases halt
        exact fin (fun b hb => held_of (hh2 b hb) (by simp) (by decide)) h2
      | _ => cases halt
    · cases op <;>
        exact fin (fun b hb => held_of (hh b hb) (by simp [rsaNeed]) (by decide)) h
  | rsaGetSize id evict =>
    obtain ⟨k, ho, hh⟩ := at_useOne hsg hs hv h
    obtain ⟨x, hx, rfl⟩ := map_ok ho.symm
    exact ⟨[k], held_one hh (by decide), x, hx, rfl⟩
  | sharedSecret alg opts prv pub evPrv evPub id flags label =>
    simp only [handler, sharedSecret] at h
    obtain ⟨m, res, h, hh⟩ := at_load hsg hs hv h
    cases res with
    | error => cases at_evictTwo h
    | ok kprv =>
      obtain ⟨m, res, h, hh'⟩ := at_load hsg hs hv h
      cases res with
      | error => cases at_evictTwo h
      | ok kpub =>
        dsimp only at h
        split at h
        · cases at_evictTwo h
        · rename_i z hz
          refine ⟨[kprv, kpub], ⟨held_of (hh _ rfl) (by simp) (by decide),
            held_of (hh' _ rfl) (by simp) (by decide), trivial⟩, _, z, hz, ?_⟩
          split at h
          · rename_i he
            cases at_evictTwo h
            exact .inl ⟨eph.1 he, rfl⟩
          · rename_i he
            obtain ⟨m, res, h, -⟩ := at_store h
            cases res with
            | error => cases at_evictTwo h
            | ok rid =>
              cases at_evictTwo h
              exact .inr ⟨eph'.1 he, rfl⟩
  | sign alg id evict opts msg ctx coins =>
    obtain ⟨k, ho, hh⟩ := at_useOne hsg hs hv h
    refine ⟨[k], held_one hh (by decide), ?_⟩
    split at ho
    · cases ho
    · rename_i sig hsig
      split at ho
      · cases ho
      · cases ho; exact ⟨_, sig, hsig, rfl⟩
  | signDma alg id evict opts msg ctx coins sigSz pre =>
    simp only [handler, signDma] at h
    split at h
    · obtain ⟨_, h⟩ := at_evict h; cases at_done h
    · obtain ⟨k, ho, hh⟩ := at_useOne hsg hs hv h
      refine ⟨[k], held_one hh (by decide), ?_⟩
      split at ho
      · obtain ⟨sig, hsig, rfl⟩ := map_ok ho.symm
        exact ⟨_, sig, hsig, rfl⟩
      · cases ho
  | verify alg id evict exportPub opts sig msg ctx =>
    obtain ⟨k, ho, hh⟩ := at_useOne hsg hs hv h
    refine ⟨[k], held_one hh (by decide), ?_⟩
    split at ho
    · cases ho
    · rename_i res hres
      split at ho
      · rename_i he
        obtain ⟨pub, hpub, rfl⟩ := map_ok ho.symm
        exact ⟨res, pub, hres, rfl, .inr ⟨he.2, _, hpub⟩⟩
      · cases ho; exact ⟨res, [], hres, rfl, .inl rfl⟩
  | verifyDma alg id evict opts sig msg ctx pre =>
    simp only [handler, verifyDma] at h
    split at h
    · obtain ⟨_, h⟩ := at_evict h; cases at_done h
    · obtain ⟨k, ho, hh⟩ := at_useOne hsg hs hv h
      refine ⟨[k], held_one hh (by decide), ?_⟩
      split at ho
      · obtain ⟨res, hres, rfl⟩ := map_ok ho.symm
        exact ⟨res, hres, rfl⟩
      · cases ho
  | makePub id evict coins =>
    obtain ⟨k, ho, hh⟩ := at_useOne hsg hs hv h
    obtain ⟨x, hx, rfl⟩ := map_ok ho.symm
    exact ⟨[k], held_one hh (by decide), _, x, hx, rfl⟩
  | checkPub id evict pub coins =>
    obtain ⟨k, ho, hh⟩ := at_useOne hsg hs hv h
    obtain ⟨x, hx, rfl⟩ := map_ok ho.symm
    exact ⟨[k], held_one hh (by decide), hx, rfl⟩
  | encaps params id evict coins dma =>
    simp only [handler, encaps] at h
    split at h
    · obtain ⟨_, h⟩ := at_evict h; cases at_done h
    · obtain ⟨k, ho, hh⟩ := at_useOne hsg hs hv h
      refine ⟨[k], held_one hh (by decide), ?_⟩
      split at ho
      · cases ho
      · rename_i ct ss hx
        split at ho
        · split at ho
          · cases ho
          · cases ho; exact ⟨ct, ss, hx, rfl⟩
        · split at ho
          · cases ho
          · split at ho
            · cases ho; exact ⟨ct, ss, hx, rfl⟩
            · cases ho
  | decaps params id evict ct dma =>
    simp only [handler, decaps] at h
    split at h
    · obtain ⟨_, h⟩ := at_evict h; cases at_done h
    · obtain ⟨k, ho, hh⟩ := at_useOne hsg hs hv h
      refine ⟨[k], held_one hh (by decide), ?_⟩
      cases dma with
      | none =>
        simp only at ho
        split at ho
        · cases ho
        · rename_i ss hx
          split at ho
          · cases ho
          · cases ho; exact ⟨ss, hx, rfl⟩
      | some pre =>
        simp only at ho
        split at ho
        · cases ho
        · split at ho
          · cases ho
          · rename_i ss hx
            split at ho
            · cases ho
            · cases ho; exact ⟨ss, hx, rfl⟩
  | hkdf idIn idOut flags label hash inKey salt info outSz =>
    simp only [handler, hkdf] at h
    have go : ∀ {m : Nat} {ikm : List UInt8},
        At cfg ncfg v s es m (if outSz > cfg.ks.commLen - 20 then .done (.error .badargs)
          else deliver idOut flags label
            (L.hkdf hash (48 + inKey.length + salt.length) ikm salt info outSz)) (.ok o) →
        ∃ okm, L.hkdf hash (48 + inKey.length + salt.length) ikm salt info outSz = .ok okm ∧
          Delivered flags okm o := by
      intro m ikm h
      split at h
      · cases at_done h
      · obtain ⟨z, hz, hd⟩ := at_deliver h
        exact ⟨z, hz, hd⟩
    split at h
    · rename_i hk
      obtain ⟨m, res, h, hh⟩ := at_read hsg hs hc hv h
      cases res with
      | error => cases at_done h
      | ok ikm =>
        refine ⟨[ikm], ?_, go h⟩
        simp only [Req.needs]
        rw [if_pos ⟨hk.1, fun h0 => by have := erased_iff.2 h0; rw [show KeyId.isErased
          (ownId cfg.ks v idIn) = false from hk.2] at this; cases this⟩]
        exact held_one (hh _ rfl) (by decide)
    · rename_i hk
      refine ⟨[], ?_, go h⟩
      simp only [Req.needs]
      rw [if_neg (fun h0 => hk ⟨h0.1, by
        have := h0.2
        rw [ne_eq, ← erased_iff] at this
        exact (Bool.not_eq_true _).mp this⟩)]
      trivial
  | cmacKdf idSalt idZ idOut flags label salt z info outSz =>
    simp only [handler, cmacKdf] at h
    obtain ⟨m, s', h, hs1, hs2⟩ := at_kdfInput hsg hs hc hv h
    obtain ⟨m, z', h, hz1, hz2⟩ := at_kdfInput hsg hs hc hv h
    split at h
    · cases at_done h
    · obtain ⟨okm, hx, hd⟩ := at_deliver h
      refine ⟨_, ?_, okm, s', z', rfl, hs1, hz1, hx, hd⟩
      simp only [Req.needs]
      by_cases e1 : salt = []
      · by_cases e2 : z = []
        · rw [if_pos e1, if_pos e2, if_pos e1, if_pos e2]
          exact ⟨hs2 e1, hz2 e2, trivial⟩
        · rw [if_pos e1, if_neg e2, if_pos e1, if_neg e2]
          exact ⟨hs2 e1, trivial⟩
      · by_cases e2 : z = []
        · rw [if_neg e1, if_pos e2, if_neg e1, if_pos e2]
          exact ⟨hz2 e2, trivial⟩
        · rw [if_neg e1, if_neg e2, if_neg e1, if_neg e2]
          trivial
  | aes mode enc id key input extra left tagLen =>
    simp only [handler, aes] at h
    generalize (28 + input.length + if enc = true then tagLen else 0) = sz at h
    split at h
    · cases at_done h
    · split at h
      · rename_i he
        obtain ⟨⟨out, tail⟩, hx, rfl⟩ := map_ok (at_done h)
        obtain ⟨k, hk, hx⟩ := aesWith_ok hx
        cases hk
        refine ⟨[], ?_, out, tail, hx, rfl⟩
        simp only [Req.needs]
        rw [if_neg (fun h0 => h0 (erased_iff.1 he))]
        trivial
      · rename_i he
        obtain ⟨m, res, h, hh⟩ := at_read hsg hs hc hv h
        obtain ⟨⟨out, tail⟩, hx, rfl⟩ := map_ok (at_done h)
        obtain ⟨k, rfl, hx'⟩ := aesWith_ok hx
        refine ⟨[k], ?_, out, tail, hx', rfl⟩
        simp only [Req.needs]
        rw [if_pos (show KeyId.idOf (ownId cfg.ks v id) ≠ 0 from fun h0 => he (erased_iff.2 h0))]
        exact held_one (hh _ rfl) (aesNeed_usage enc)
  | aesDma mode enc id key input extra left pre post =>
    simp only [handler, aesDma] at h
    have fin : ∀ {m : Nat} {res : Except Rc (List UInt8)},
        At cfg ncfg v s es m (.done (match res with
          | .error rc => .error rc
          | .ok k =>
            if aesLen k.length = false then .error .badargs
            else if pre ≠ .ok then .error pre
            else
              match aesWith L mode enc left input extra (.ok k) with
              | .error rc => .error rc
              | .ok (out, tail) =>
                if post = .ok then .ok { fixed := 24, body := tail, dma := out }
                else .error post)) (.ok o) →
        ∃ k out tail, res = .ok k ∧ L.aes mode enc left k input extra = .ok (out, tail) ∧
          o.disclosed = (tail, out, [], 0) := by
      intro m res h'
      have h := at_done h'
      clear h'
      split at h
      · cases h
      · rename_i k
        split at h
        · cases h
        · split at h
          · cases h
          · split at h
            · cases h
            · rename_i out tail hx
              obtain ⟨_, hk, hx⟩ := aesWith_ok hx
              cases hk
              split at h
              · cases h; exact ⟨k, out, tail, rfl, hx, rfl⟩
              · cases h
    split at h
    · rename_i he
      obtain ⟨k, out, tail, hk, hx, hd⟩ := fin (res := .ok key) h
      cases hk
      refine ⟨[], ?_, out, tail, hx, hd⟩
      simp only [Req.needs]
      rw [if_neg (fun h0 => he.elim (fun h1 => h1 h0.1) fun h1 => h0.2 (erased_iff.1 h1))]
      trivial
    · rename_i he
      obtain ⟨m, res, h, hh⟩ := at_read hsg hs hc hv h
      obtain ⟨k, out, tail, rfl, hx, hd⟩ := fin h
      refine ⟨[k], ?_, out, tail, hx, hd⟩
      simp only [Req.needs]
      rw [if_pos ⟨Decidable.byContradiction fun h0 => he (.inl h0),
        fun h0 => he (.inr (erased_iff.2 h0))⟩]
      exact held_one (hh _ rfl) (aesNeed_usage enc)
  | cmac id key state input outSz =>
    simp only [handler, cmac] at h
    obtain ⟨k, ho, hk⟩ := at_cmacKey hsg hs hc hv h
    have hx := cmacWith_ok (by simp) ho
    have fin : ∀ keys, keys.head?.getD key = k →
        (Req.cmac id key state input outSz).Computes L keys o := by
      intro keys hk
      simp only [Req.Computes, hk]
      rcases hx with ⟨t, h1 | h1, h2⟩ | h
      · exact .inl ⟨t, .inl h1.2, h2⟩
      · exact .inl ⟨t, .inr h1.2, h2⟩
      · exact .inr h
    simp only [Req.needs]
    rcases hk with ⟨h0, rfl⟩ | ⟨h0, hh⟩
    · rw [if_neg h0]; exact ⟨[], trivial, fin [] rfl⟩
    · rw [if_pos h0]; exact ⟨[k], ⟨hh, trivial⟩, fin [k] rfl⟩
  | cmacDma id key state inline mem outSz pre =>
    simp only [handler, cmacDma] at h
    have fin : ∀ {k : List UInt8}, (Req.cmacDma id key state inline mem outSz pre).Computes L [k] o →
        (key ≠ [] ∧ k = key ∨ key = [] ∧
          Held cfg ncfg v s es (id, [Flag.usageSign, Flag.usageVerify]) k) →
        ∃ keys, AllHeld cfg ncfg v s es
          ((Req.cmacDma id key state inline mem outSz pre).needs cfg v) keys ∧
          (Req.cmacDma id key state inline mem outSz pre).Computes L keys o := by
      intro k hx hk
      simp only [Req.needs]
      rcases hk with ⟨h0, rfl⟩ | ⟨h0, hh⟩
      · rw [if_neg h0]; exact ⟨[], trivial, hx⟩
      · rw [if_pos h0]; exact ⟨[k], ⟨hh, trivial⟩, hx⟩
    split at h
    · rename_i h1
      split at h
      · obtain ⟨k, ho, hk⟩ := at_cmacKey hsg hs hc hv h
        refine fin ?_ hk
        rcases cmacWith_ok (fun _ => h1.2.2) ho with ⟨t, h2 | h2, h3⟩ | ⟨st, h2, h3, h4⟩
        · exact .inl ⟨t, .inl h2.2, h3⟩
        · exact absurd h2.1 (by simp)
        · exact absurd h3 h1.2.2
      · cases at_done h
    · obtain ⟨k, ho, hk⟩ := at_cmacKey hsg hs hc hv h
      refine fin ?_ hk
      split at ho
      · cases ho
      · rcases cmacWith_ok (by simp) ho with ⟨t, h2 | h2, h3⟩ | h
        · exact absurd h2.1 (by simp)
        · exact .inl ⟨t, .inr h2.2, h3⟩
        · exact .inr h

end

/-- **C20 (crypto requests).** A crypto request that succeeds has worked with exactly the keys its
client named: each was held under that id at some moment of the execution and carried a usage the
operation asks for, and everything the response discloses is the library's result for these keys
and the request's own data.  Whatever other server contexts do in between. -/
theorem C20_crypto_request (hsg : GoodCfg cfg.ks) (hs : Reach cfg.ks ncfg s) (hc : v.client < 16)
    (r : Req) (h : Exec cfg.ks ncfg v s (handler cfg L v r) es (some (.ok o))) :
    ∃ keys, AllHeld cfg ncfg v s es (r.needs cfg v) keys ∧ r.Computes L keys o :=
  at_handler hsg hs hc (fun e he => (exec_events hc h e he).1) r (at_zero h)

/-- Non-vacuity: client 1 signs with its stored key 7 while client 2 is served; the key is then
evicted. -/
example : ∃ es o, GoodCfg Demo.cfg.ks ∧
    Reach Demo.cfg.ks Keystore.Demo.ncfg (Keystore.Demo.after [Keystore.Demo.cache5]) ∧
    Exec Demo.cfg.ks Keystore.Demo.ncfg Keystore.Demo.one
      (Keystore.Demo.after [Keystore.Demo.cache5])
      (handler Demo.cfg Demo.lib Keystore.Demo.one (.sign .ecc 7 true 0 [1, 2] [] []))
      (Keystore.Demo.fresh2 :: es) (some (.ok o)) ∧ o.body ≠ [] ∧ es.length = 2 :=
  ⟨_, { fixed := 4, body := [10, 0x51] }, Keystore.Demo.good,
    Keystore.Demo.after_reach _ (by decide),
    Demo.on_exec_other _ Keystore.Demo.fresh2 _ _ (by decide) (show (1 : Nat) ≠ 0 by decide)
      (by decide +kernel), by decide, by decide +kernel⟩

theorem allHeld_mem {ns : List (UInt16 × List UInt16)} {ks : List (List UInt8)}
    (h : AllHeld cfg ncfg v s es ns ks) {need : UInt16 × List UInt16} (hn : need ∈ ns) :
    ∃ k, Held cfg ncfg v s es need k := by
  induction ns generalizing ks with
  | nil => cases hn
  | cons n ns ih =>
    cases ks with
    | nil => exact h.elim
    | cons k ks =>
      rcases List.mem_cons.1 hn with rfl | hn
      · exact ⟨k, h.1⟩
      · exact ih h.2 hn

/-- **C20 (refusal).** If throughout the execution a key the request needs is missing or carries
none of the usages asked for, the request does not succeed. -/
theorem C20_crypto_refused (hsg : GoodCfg cfg.ks) (hs : Reach cfg.ks ncfg s) (hc : v.client < 16)
    (r : Req) {id : UInt16} {masks : List UInt16} (hn : (id, masks) ∈ r.needs cfg v)
    (hno : ∀ n md key, view cfg.ks v.ctx (run cfg.ks ncfg s (es.take n)) (ownId cfg.ks v id) =
      some (md, key) → ∀ m ∈ masks, md.flags &&& m ≠ m) {a : Resp}
    (h : Exec cfg.ks ncfg v s (handler cfg L v r) es (some a)) : ∀ o, a ≠ .ok o := by
  rintro o rfl
  obtain ⟨keys, hk, -⟩ := C20_crypto_request hsg hs hc r h
  obtain ⟨k, n, md, hvw, m, hm, he⟩ := allHeld_mem hk hn
  exact hno n md k hvw m hm he

/-- Non-vacuity: key 5 of client 1 may only encrypt; signing with it is refused. -/
example : ∃ es a, Exec Demo.cfg.ks Keystore.Demo.ncfg Keystore.Demo.one
      (Keystore.Demo.after [Keystore.Demo.cache5])
      (handler Demo.cfg Demo.lib Keystore.Demo.one (.sign .ecc 5 false 0 [1, 2] [] [])) es
      (some a) ∧ a = .error .usage ∧
    (5, [Flag.usageSign]) ∈ (Req.sign .ecc 5 false 0 [1, 2] [] []).needs Demo.cfg Keystore.Demo.one ∧
    ∀ n md key, view Demo.cfg.ks 0 (run Demo.cfg.ks Keystore.Demo.ncfg
        (Keystore.Demo.after [Keystore.Demo.cache5]) (es.take n))
        (ownId Demo.cfg.ks Keystore.Demo.one 5) = some (md, key) →
      ∀ m ∈ [Flag.usageSign], md.flags &&& m ≠ m := by
  refine ⟨_, .error .usage, Demo.on_exec _ _ _ (by decide +kernel), rfl, by decide, ?_⟩
  have hall : ∀ n ≤ 1, (view Demo.cfg.ks 0 (run Demo.cfg.ks Keystore.Demo.ncfg
      (Keystore.Demo.after [Keystore.Demo.cache5])
      ((Demo.on [Keystore.Demo.cache5] Keystore.Demo.one (.sign .ecc 5 false 0 [1, 2] [] [])).1.take n))
      (ownId Demo.cfg.ks Keystore.Demo.one 5)).map (·.1.flags) = some Flag.usageEncrypt := by
    decide +kernel
  intro n md key h m hm
  have hlen : (Demo.on [Keystore.Demo.cache5] Keystore.Demo.one
      (.sign .ecc 5 false 0 [1, 2] [] [])).1.length = 1 := by decide +kernel
  have h1 := hall (min n 1) (by omega)
  rw [show (Demo.on [Keystore.Demo.cache5] Keystore.Demo.one
      (.sign .ecc 5 false 0 [1, 2] [] [])).1.take (min n 1) = (Demo.on [Keystore.Demo.cache5]
      Keystore.Demo.one (.sign .ecc 5 false 0 [1, 2] [] [])).1.take n by
    rw [← hlen, ← List.take_eq_take_min], h] at h1
  simp only [Option.map_some, Option.some.injEq] at h1
  simp only [List.mem_singleton] at hm
  subst hm
  rw [h1]
  decide

end WolfHsm.Props

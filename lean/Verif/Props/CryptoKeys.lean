import Verif.Props.Crypto
import Verif.Proofs.CryptoOps
import Verif.Props.KeystorePersist

/-!
# Crypto requests and the key store: isolation, fresh ids, revocation, made keys
(C14, C15, C16, C17, C19, C51)
-/

namespace WolfHsm.Props

open Crypto
open Keystore hiding Cfg Req Resp
open NvmFlash (Meta)
open Keystore.Demo (one two cache5 fresh2 label)

variable {cfg : Crypto.Cfg} {ncfg : NvmServer.Cfg} {L : Lib} {v : Srv} {s : Sys} {es : List Ev}
  {n : Nat} {o : Crypto.Out}

/-- **C14 (crypto requests).** Serving crypto requests of other clients neither changes nor
removes a client's key, however they are interleaved with further requests of other clients:
at most a cached copy that is also committed makes room. -/
theorem C14_crypto_isolation (hsg : GoodCfg cfg.ks) (hs : Reach cfg.ks ncfg s) (hc : v.client < 16)
    (id : UInt16) (hng : isGlobal cfg.ks id = false) (r : Crypto.Req)
    (hother : v.client ≠ KeyId.userOf id) {a : Option Crypto.Resp}
    (h : Exec cfg.ks ncfg v s (handler cfg L v r) es a)
    (hf : ∀ e ∈ es, Foreign v e → e.ByOther (KeyId.userOf id)) :
    (run cfg.ks ncfg s es).nvm.store id = s.nvm.store id ∧
    ∀ y, cached cfg.ks y (run cfg.ks ncfg s es) id = cached cfg.ks y s id ∨
      ∃ k, cached cfg.ks y s id = some k ∧ k.committed = true ∧
        cached cfg.ks y (run cfg.ks ncfg s es) id = none := by
  refine C14_isolation hsg hs id hng es fun e he => ?_
  obtain ⟨hv, ⟨lock, q, rfl⟩ | hfe⟩ := exec_events hc h e he
  · exact ⟨hv, hother⟩
  · exact ⟨hv, hf e he hfe⟩

/-- Non-vacuity: client 2 has a key generated; the stored key 7 belongs to client 1. -/
example : ∃ es o, isGlobal Demo.cfg.ks Keystore.Demo.secretMd.id = false ∧
    two.client ≠ KeyId.userOf Keystore.Demo.secretMd.id ∧
    (Keystore.Demo.after []).nvm.store Keystore.Demo.secretMd.id ≠ none ∧
    Exec Demo.cfg.ks Keystore.Demo.ncfg two (Keystore.Demo.after [])
      (handler Demo.cfg Demo.lib two (.keyGen .ecc 0 Flag.usageSign label [] [1, 2, 3])) es
      (some (.ok o)) :=
  ⟨_, _, by decide, by decide, by decide +kernel, Demo.on_exec _ _ _
    (a := some (.ok { fixed := 8, keyId := 255, body := [6] })) (by decide +kernel)⟩

/-- The keys a crypto request works with are ones its client may name. -/
theorem C14_crypto_own_keys (hc : v.client < 16) (rid : UInt16) :
    Reachable cfg.ks v.client (ownId cfg.ks v rid) :=
  reach_own cfg.ks hc _ _

/-- An id of the kind the client asked for survives the way to the client and back. -/
theorem own_back (hc : 0 < v.client ∧ v.client < 16) {id k : UInt16}
    (ht : KeyId.typeOf k = KeyId.typeOf (ownId cfg.ks v id))
    (hu : KeyId.userOf k = KeyId.userOf (ownId cfg.ks v id)) :
    ownId cfg.ks v (KeyId.toClient cfg.ks.ids k) = k := by
  refine KeyId.C13_roundtrip_server cfg.ks.ids v.client k ?_ ?_ hc
  · rw [hu]; exact reach_own cfg.ks hc.2 _ _
  · rw [ht]
    have := (KeyId.C13_fromClient_fields cfg.ks.ids KeyId.typeCrypto v.client id (by decide) hc.2).2.1
    change KeyId.typeOf (ownId cfg.ks v id) = _ at this
    rw [this]
    split
    · rename_i ha
      simp only [KeyId.asksHw, Bool.and_eq_true] at ha
      exact .inr (.inr ⟨ha.1, rfl⟩)
    · split
      · rename_i ha
        simp only [KeyId.asksWrapped, Bool.and_eq_true] at ha
        exact .inr (.inl ⟨ha.1.1, rfl⟩)
      · exact .inl rfl

/-- An answered import: the key is in the cache under the id that was returned. -/
theorem import_ok (hsg : GoodCfg cfg.ks) (hs : Reach cfg.ks ncfg s) (hc : 0 < v.client ∧ v.client < 16)
    {lock : Rc} {id flags : UInt16} {label : Vector UInt8 24} {cap : UInt16}
    {der : Except Rc (List UInt8)} {rid : UInt16}
    (h : (handle cfg.ks v s lock (.importKey id flags label cap der)).1 = .keyId .ok rid) :
    ∃ md key, der = .ok key ∧
      cached cfg.ks v.ctx (handle cfg.ks v s lock (.importKey id flags label cap der)).2
        (ownId cfg.ks v rid) = some ⟨md, key, false⟩ ∧
      md.flags = flags &&& ~~~Nvm.serverOnly ∧ md.label = label ∧
      (KeyId.idOf (ownId cfg.ks v id) ≠ 0 → ownId cfg.ks v rid = ownId cfg.ks v id) ∧
      (KeyId.idOf (ownId cfg.ks v id) = 0 → KeyId.idOf (ownId cfg.ks v rid) ≠ 0 ∧
        view cfg.ks v.ctx s (ownId cfg.ks v rid) = none) := by
  have hw := hs.wf hsg
  have imp : ∀ md : Meta, md.flags = flags &&& ~~~Nvm.serverOnly → md.label = label →
      (importKey cfg.ks v.ctx s md cap der).1 = .ok →
      ∃ md' key, der = .ok key ∧
        cached cfg.ks v.ctx (importKey cfg.ks v.ctx s md cap der).2 md.id = some ⟨md', key, false⟩ ∧
        md'.flags = flags &&& ~~~Nvm.serverOnly ∧ md'.label = label := by
    intro md hfl hlb
    refine importKey_cases (F := Par.any) (P := fun r => r.1 = .ok → ∃ md' key, der = .ok key ∧
      cached cfg.ks v.ctx r.2 md.id = some ⟨md', key, false⟩ ∧
      md'.flags = flags &&& ~~~Nvm.serverOnly ∧ md'.label = label) hw trivial ?_ ?_
    · intro s' data hd _ _ hf _
      refine ⟨importMeta md data, data, hd, hf.entry, ?_, hlb⟩
      show md.flags &&& ~~~Nvm.serverOnly = _
      rw [hfl, UInt16.and_assoc, UInt16.and_self]
    · intro rc s' hrc _ h; exact absurd h hrc
  by_cases h0 : KeyId.idOf (ownId cfg.ks v id) = 0
  · obtain ⟨h1, h2, -⟩ := C16_fresh hsg hs hc
      (r := .importKey id flags label cap der) h0 h
    rcases handle_or cfg.ks v s lock (.importKey id flags label cap der) with ⟨_, _, e⟩ | ⟨rc, _, e⟩
    · rw [e] at h ⊢
      simp only [act, handleImport] at h ⊢
      have hu : KeyId.isErased (clientMeta cfg.ks v id flags label 0).id = true := by
        show (KeyId.idOf (ownId cfg.ks v id) == 0) = true
        simp [h0]
      rw [hu] at h ⊢
      simp only [withId, if_true] at h ⊢
      rcases getUniqueId_or cfg.ks v.ctx s (clientMeta cfg.ks v id flags label 0).id with
        ⟨nid, e, hf⟩ | ⟨rc, hrc, e⟩
      · rw [e] at h ⊢
        simp only [Keystore.Resp.keyId.injEq] at h ⊢
        obtain ⟨md', key, hd, hk, hfl, hlb⟩ := imp
          { clientMeta cfg.ks v id flags label 0 with id := nid } rfl rfl h.1
        refine ⟨md', key, hd, ?_, hfl, hlb, fun hn => absurd h0 hn, fun _ => ⟨h1, h2⟩⟩
        rw [if_pos h.1] at h
        rw [← h.2, own_back hc hf.type hf.user]; exact hk
      · rw [e] at h
        exfalso
        cases rc <;> first | exact absurd rfl hrc | (simp at h)
    · rw [e] at h; cases h
  · rcases handle_or cfg.ks v s lock (.importKey id flags label cap der) with ⟨_, _, e⟩ | ⟨rc, _, e⟩
    · rw [e] at h ⊢
      simp only [act, handleImport] at h ⊢
      have hu : KeyId.isErased (clientMeta cfg.ks v id flags label 0).id = false := by
        show (KeyId.idOf (ownId cfg.ks v id) == 0) = false
        simp [h0]
      rw [hu] at h ⊢
      simp only [withId, Bool.false_eq_true, if_false, Keystore.Resp.keyId.injEq] at h ⊢
      obtain ⟨md', key, hd, hk, hfl, hlb⟩ := imp (clientMeta cfg.ks v id flags label 0) rfl rfl h.1
      rw [if_pos h.1] at h
      have hback : ownId cfg.ks v rid = ownId cfg.ks v id := by
        rw [← h.2]; exact own_back hc rfl rfl
      refine ⟨md', key, hd, ?_, hfl, hlb, fun _ => hback, fun hn => absurd hn h0⟩
      rw [hback]; exact hk
    · rw [e] at h; cases h

/-- A cached key that is not committed stays if it is not named. -/
theorem uncommitted_stays {c : Keystore.Cfg} (hsg : GoodCfg c) (hw : WF s) {w : Srv}
    (hc : w.client < 16) (lock : Rc) {q : Keystore.Req} {id : UInt16} (hn : ¬q.Names c w id)
    {y : Nat} {k : CKey} (hk : cached c y s id = some k) (hu : k.committed = false) :
    cached c y (handle c w s lock q).2 id = some k := by
  have ht := handle_trs hw hc hsg lock q
  by_cases ha : area c y id = area c w.ctx id
  · have hnw : ¬(reqPar c w s q (handle c w s lock q).2).w id := by
      rintro (h | ⟨_, _, h, _⟩)
      · exact hn h
      · rw [cached_eq] at h hk; rw [ha, h] at hk; cases hk
    obtain ⟨h1, h2⟩ := ht.readonly hnw
    rw [cached_eq] at hk ⊢
    rcases h2 (area c y id) with h | ⟨h, k', h3, h4⟩ | ⟨h | ⟨k', h, h3⟩, md, bs, h5, h6⟩
    · rw [h, hk]
    · rw [hk] at h3; cases h3; rw [hu] at h4; cases h4
    · rw [hk] at h; cases h
    · rw [hk] at h; cases h; rw [hu] at h3; cases h3
  · have hng : isGlobal c id = false := by
      cases h : isGlobal c id
      · rfl
      · unfold area at ha; simp [h] at ha
    have hy : y ≠ w.ctx := by rintro rfl; exact ha rfl
    have := trs_areas ht hy
    unfold cached cacheOf at hk ⊢
    rw [hng] at hk ⊢
    simp only [Bool.false_eq_true, if_false] at hk ⊢
    rw [this]; exact hk

/-- It stays through a history without power cycles in which no key request names it. -/
theorem uncommitted_run {c : Keystore.Cfg} (hsg : GoodCfg c) {id : UInt16} {y : Nat} {k : CKey}
    (hu : k.committed = false) : ∀ {evs : List Ev} {s : Sys}, WF s → cached c y s id = some k →
    (∀ e ∈ evs, e.Valid ∧ (∀ w lock q, e = .key w lock q → ¬q.Names c w id) ∧
      ∀ b, e ≠ .restart b) →
    cached c y (run c ncfg s evs) id = some k
  | [], _, _, hk, _ => hk
  | e :: evs, s, hw, hk, hv => by
    obtain ⟨h1, h2, h3⟩ := hv e (by simp)
    refine uncommitted_run hsg hu (evs := evs) (step_wf hsg ncfg hw h1) ?_
      (fun e' he => hv e' (by simp [he]))
    cases e with
    | key w lock q =>
      unfold step
      dsimp only
      split
      · exact uncommitted_stays hsg hw h1 lock (h2 w lock q rfl) hk hu
      · exact hk
    | nvm lock q =>
      unfold step
      dsimp only
      split <;> exact hk
    | restart b => exact absurd rfl (h3 b)

/-- A successful request that stores a key has had it imported under the returned id, and issues
no operation naming that id afterwards. -/
theorem at_stores (hsg : GoodCfg cfg.ks) (hs : Reach cfg.ks ncfg s)
    (hc : 0 < v.client ∧ v.client < 16) (hv : ∀ e ∈ es, e.Valid) (r : Crypto.Req)
    {id flags : UInt16} {label : Vector UInt8 24} (hst : r.stores = some (id, flags, label))
    (h : At cfg ncfg v s es n (handler cfg L v r) (.ok o)) :
    ∃ m cap keys key, Answered cfg ncfg v s es m (.importKey id flags label cap (.ok key))
        (.keyId .ok o.keyId) ∧
      (AllHeld cfg ncfg v s es (r.needs cfg v) keys ∧ r.MakesFrom L keys key o) ∧
      ∀ j lock q, m < j → es[j]? = some (.key v lock q) →
        ¬q.Names cfg.ks v (ownId cfg.ks v o.keyId) := by
  have imp : ∀ {m : Nat} {cap : UInt16} {der : Except Rc (List UInt8)} {rid : UInt16},
      Answered cfg ncfg v s es m (.importKey id flags label cap der) (.keyId .ok rid) →
      (∃ key, der = .ok key) ∧ (KeyId.idOf (ownId cfg.ks v id) ≠ 0 →
        ownId cfg.ks v rid = ownId cfg.ks v id) := by
    rintro m cap der rid ⟨lock, -, h2⟩
    have hr := reach_run hs (es.take m) fun e he => hv e (List.mem_of_mem_take he)
    obtain ⟨md, key, h1, -, -, -, h3, -⟩ := import_ok hsg hr hc (step_answered h2).1
    exact ⟨⟨key, h1⟩, h3⟩
  -- what follows the import
  have after : ∀ {m : Nat} {p : Prog} {a : Crypto.Resp} {x : UInt16},
      At cfg ncfg v s es (m + 1) p a →
      (∀ H : Hist, Calls (fun _ q => ¬q.Names cfg.ks v x) H p) →
      ∀ j lock q, m < j → es[j]? = some (.key v lock q) → ¬q.Names cfg.ks v x := by
    intro m p a x hp hcall j lock q hj he
    obtain ⟨H', h1, -⟩ := exec_calls hp (hcall []) (j := j - (m + 1)) (lock := lock) (q := q) (by
      rw [List.getElem?_drop, ← he]; congr 1; omega)
    exact h1
  have sto : ∀ {n : Nat} {cap : UInt16} {der : Except Rc (List UInt8)} {k : Except Rc UInt16 → Prog}
      {a : Crypto.Resp}, At cfg ncfg v s es n (store id flags label cap der k) a →
      (∃ m rid, Answered cfg ncfg v s es m (.importKey id flags label cap der) (.keyId .ok rid) ∧
        At cfg ncfg v s es (m + 1) (k (.ok rid)) a) ∨
      ∃ m rc, At cfg ncfg v s es m (k (.error rc)) a := by
    intro n cap der k a h
    obtain ⟨m, resp, ha, h3⟩ := at_call h
    split at h3
    · exact .inl ⟨m, _, ha, h3⟩
    · exact .inr ⟨_, _, h3⟩
    · exact .inr ⟨_, _, h3⟩
    · exact .inr ⟨_, _, h3⟩
  have del : ∀ {n : Nat} {okm : Except Rc (List UInt8)} {keys : List (List UInt8)},
      flags &&& Flag.ephemeral = 0 →
      (∀ key, okm = .ok key → o.disclosed = ([], [], [], 0) →
        AllHeld cfg ncfg v s es (r.needs cfg v) keys ∧ r.MakesFrom L keys key o) →
      At cfg ncfg v s es n (deliver id flags label okm) (.ok o) →
      ∃ m cap keys key, Answered cfg ncfg v s es m (.importKey id flags label cap (.ok key))
        (.keyId .ok o.keyId) ∧
      (AllHeld cfg ncfg v s es (r.needs cfg v) keys ∧ r.MakesFrom L keys key o) ∧
      ∀ j lock q, m < j → es[j]? = some (.key v lock q) →
        ¬q.Names cfg.ks v (ownId cfg.ks v o.keyId) := by
    intro n okm keys he hm h
    unfold deliver at h
    cases okm with
    | error => cases at_done h
    | ok z =>
      dsimp only at h
      rw [if_neg (eph'.2 he)] at h
      rcases sto h with ⟨m, rid, ha, h⟩ | ⟨m, rc, h⟩
      · have ho := at_done h
        cases ho
        exact ⟨m, _, keys, z, ha, hm z rfl rfl, after h fun _ => trivial⟩
      · cases at_done h
  cases r with
  | keyGen alg id' flags' label' params coins =>
    simp only [Req.stores] at hst
    split at hst
    · rename_i he
      simp only [Option.some.injEq, Prod.mk.injEq] at hst
      obtain ⟨rfl, rfl, rfl⟩ := hst
      simp only [handler, keyGen] at h
      split at h
      · cases at_done h
      · split at h
        · cases at_done h
        · rename_i obj hgen
          rw [if_neg (eph'.2 he)] at h
          rcases sto h with ⟨m, rid, ha, h⟩ | ⟨m, rc, h⟩
          · have ho := at_done h
            cases ho
            obtain ⟨⟨key, hk⟩, -⟩ := imp ha
            rw [hk] at ha
            refine ⟨m, _, [], key, ha, ⟨trivial, obj, _, hgen, hk, ?_⟩, after h fun _ => trivial⟩
            cases hp : L.publicDer alg (cfg.ks.commLen - 8) obj with
            | error => exact .inl rfl
            | ok pub => exact .inr ⟨_, pub, hp, rfl⟩
          · cases at_done h
    · cases hst
  | keyGenDma alg id' flags' label' params coins sz pre post =>
    simp only [Req.stores] at hst
    split at hst
    · rename_i he
      simp only [Option.some.injEq, Prod.mk.injEq] at hst
      obtain ⟨rfl, rfl, rfl⟩ := hst
      simp only [handler, keyGenDma] at h
      split at h
      · cases at_done h
      · split at h
        · cases at_done h
        · rename_i obj hgen
          rw [if_neg (eph'.2 he)] at h
          rcases sto h with ⟨m, rid, ha, h⟩ | ⟨m, rc, h⟩
          · dsimp only at h
            split at h
            · rename_i pub hpub
              have ho := at_done h
              cases ho
              obtain ⟨⟨key, hk⟩, -⟩ := imp ha
              rw [hk] at ha
              have hp : L.publicDer alg sz.toNat obj = .ok pub := by
                split at hpub
                · exact hpub
                · cases hpub
              exact ⟨m, _, [], key, ha, ⟨trivial, obj, _, hgen, hk, _, pub, hp, rfl⟩,
                after h fun _ => trivial⟩
            · obtain ⟨_, h⟩ := at_evict h
              cases at_done h
          · cases at_done h
    · cases hst
  | sharedSecret alg opts prv pub evPrv evPub id' flags' label' =>
    simp only [Req.stores] at hst
    split at hst
    · rename_i he
      simp only [Option.some.injEq, Prod.mk.injEq] at hst
      obtain ⟨rfl, rfl, rfl⟩ := hst
      simp only [handler, sharedSecret] at h
      obtain ⟨m, res, h, hh⟩ := at_load hsg hs hv h
      cases res with
      | error => cases at_evictTwo h
      | ok kprv =>
        obtain ⟨m, res, h, hh'⟩ := at_load hsg hs hv h
        cases res with
        | error => cases at_evictTwo h
        | ok kpub =>
          dsimp only at h
          split at h
          · cases at_evictTwo h
          · rename_i z hz
            rw [if_neg (eph'.2 he)] at h
            rcases sto h with ⟨m, rid, ha, h⟩ | ⟨m, rc, h⟩
            · have ho := at_evictTwo h
              cases ho
              refine ⟨m, _, [kprv, kpub], z, ha, ⟨⟨held_of (hh _ rfl) (by simp) (by decide),
                held_of (hh' _ rfl) (by simp) (by decide), trivial⟩, ⟨_, hz⟩, rfl⟩,
                after h fun H => ?_⟩
              have hout : own cfg v (outId cfg v id' rid) = ownId cfg.ks v rid := by
                unfold outId
                split
                · rfl
                · rename_i hne
                  exact ((imp ha).2 fun h0 => hne (erased_iff.2 h0)).symm
              have hev : ∀ {H : Hist} {ev : Bool} {i : UInt16} {p : Prog},
                  (∀ H, Calls (fun _ q => ¬q.Names cfg.ks v (ownId cfg.ks v rid)) H p) →
                  Calls (fun _ q => ¬q.Names cfg.ks v (ownId cfg.ks v rid)) H
                    (evictOpt cfg v true (ev && own cfg v (outId cfg v id' rid) != own cfg v i) i p) := by
                intro H ev i p hp
                unfold evictOpt
                split
                · rename_i hcond
                  simp only [Bool.and_eq_true, bne_iff_ne] at hcond
                  refine ⟨fun hn => hcond.1.2 ?_, fun _ => hp _⟩
                  rw [hout]; exact hn
                · exact hp _
              exact hev fun _ => hev fun _ => trivial
            · cases at_evictTwo h
    · cases hst
  | hkdf idIn id' flags' label' hash inKey salt info outSz =>
    simp only [Req.stores] at hst
    split at hst
    · rename_i he
      simp only [Option.some.injEq, Prod.mk.injEq] at hst
      obtain ⟨rfl, rfl, rfl⟩ := hst
      simp only [handler, hkdf] at h
      have go : ∀ {m : Nat} {ikm : List UInt8} {keys : List (List UInt8)},
          AllHeld cfg ncfg v s es
            ((Crypto.Req.hkdf idIn id' flags' label' hash inKey salt info outSz).needs cfg v) keys →
          keys.head?.getD inKey = ikm →
          At cfg ncfg v s es m (if outSz > cfg.ks.commLen - 20 then .done (.error .badargs)
            else deliver id' flags' label'
              (L.hkdf hash (48 + inKey.length + salt.length) ikm salt info outSz)) (.ok o) →
          ∃ m cap keys key, Answered cfg ncfg v s es m (.importKey id' flags' label' cap (.ok key))
            (.keyId .ok o.keyId) ∧
            (AllHeld cfg ncfg v s es
              ((Crypto.Req.hkdf idIn id' flags' label' hash inKey salt info outSz).needs cfg v) keys ∧
            (Crypto.Req.hkdf idIn id' flags' label' hash inKey salt info outSz).MakesFrom L keys key o) ∧
          ∀ j lock q, m < j → es[j]? = some (.key v lock q) →
            ¬q.Names cfg.ks v (ownId cfg.ks v o.keyId) := by
        intro m ikm keys hkeys hikm h
        split at h
        · cases at_done h
        · exact del he (fun key hk hd => ⟨hkeys, by rw [← hikm] at hk; exact ⟨hk, hd⟩⟩) h
      split at h
      · rename_i hk
        obtain ⟨m, res, h, hh⟩ := at_read hsg hs hc.2 hv h
        cases res with
        | error => cases at_done h
        | ok ikm =>
          refine go (keys := [ikm]) ?_ rfl h
          simp only [Req.needs]
          rw [if_pos ⟨hk.1, fun h0 => by have := erased_iff.2 h0; rw [show KeyId.isErased
            (ownId cfg.ks v idIn) = false from hk.2] at this; cases this⟩]
          exact held_one (hh _ rfl) (by decide)
      · rename_i hk
        refine go (keys := []) ?_ rfl h
        simp only [Req.needs]
        rw [if_neg (fun h0 => hk ⟨h0.1, by
          have := h0.2
          rw [ne_eq, ← erased_iff] at this
          exact (Bool.not_eq_true _).mp this⟩)]
        trivial
    · cases hst
  | cmacKdf idSalt idZ id' flags' label' salt z info outSz =>
    simp only [Req.stores] at hst
    split at hst
    · rename_i he
      simp only [Option.some.injEq, Prod.mk.injEq] at hst
      obtain ⟨rfl, rfl, rfl⟩ := hst
      simp only [handler, cmacKdf] at h
      obtain ⟨m, s', h, hs1, hs2⟩ := at_kdfInput hsg hs hc.2 hv h
      obtain ⟨m, z', h, hz1, hz2⟩ := at_kdfInput hsg hs hc.2 hv h
      split at h
      · cases at_done h
      · refine del he (fun key hk hd => ⟨?_, ⟨s', z', rfl, hs1, hz1, hk⟩, hd⟩) h
        simp only [Req.needs]
        by_cases e1 : salt = []
        · by_cases e2 : z = []
          · rw [if_pos e1, if_pos e2, if_pos e1, if_pos e2]
            exact ⟨hs2 e1, hz2 e2, trivial⟩
          · rw [if_pos e1, if_neg e2, if_pos e1, if_neg e2]
            exact ⟨hs2 e1, trivial⟩
        · by_cases e2 : z = []
          · rw [if_neg e1, if_pos e2, if_neg e1, if_pos e2]
            exact ⟨hz2 e2, trivial⟩
          · rw [if_neg e1, if_neg e2, if_neg e1, if_neg e2]
            trivial
    · cases hst
  | _ => cases hst

/-- **C51.** A successful request to generate, agree on or derive a key without the ephemeral flag
leaves that key - the library's result for the keys the client named - in the key store under the
id it returns, with the flags asked for except those only the server may set, and with the label
asked for; at most the key's public part is disclosed.  The id is the one asked
for, or a fresh one that named no key before.  Other server contexts may serve requests
meanwhile, as long as they do not name the new key. -/
theorem C51_made_key (hsg : GoodCfg cfg.ks) (hs : Reach cfg.ks ncfg s)
    (hc : 0 < v.client ∧ v.client < 16) (r : Crypto.Req) {id flags : UInt16}
    {label : Vector UInt8 24} (hst : r.stores = some (id, flags, label))
    (h : Exec cfg.ks ncfg v s (handler cfg L v r) es (some (.ok o)))
    (hf : ∀ w lock q, .key w lock q ∈ es → w.ctx ≠ v.ctx →
      ¬q.Names cfg.ks w (ownId cfg.ks v o.keyId)) :
    ∃ keys md key, AllHeld cfg ncfg v s es (r.needs cfg v) keys ∧ r.MakesFrom L keys key o ∧
      view cfg.ks v.ctx (run cfg.ks ncfg s es) (ownId cfg.ks v o.keyId) = some (md, key) ∧
      md.flags = flags &&& ~~~Nvm.serverOnly ∧ md.label = label ∧
      (KeyId.idOf (ownId cfg.ks v id) ≠ 0 → ownId cfg.ks v o.keyId = ownId cfg.ks v id) ∧
      (KeyId.idOf (ownId cfg.ks v id) = 0 → KeyId.idOf (ownId cfg.ks v o.keyId) ≠ 0 ∧
        ∃ n, view cfg.ks v.ctx (run cfg.ks ncfg s (es.take n)) (ownId cfg.ks v o.keyId) = none) := by
  have hev := exec_events hc.2 h
  have hv : ∀ e ∈ es, e.Valid := fun e he => (hev e he).1
  obtain ⟨m, cap, keys, key, ⟨lock, hm, ha⟩, ⟨hheld, hmk⟩, hown⟩ := at_stores hsg hs hc hv r hst (at_zero h)
  have hr := reach_run hs (es.take m) fun e he => hv e (List.mem_of_mem_take he)
  obtain ⟨hans, hnext⟩ := step_answered ha
  obtain ⟨md, key', hk', hcach, hfl, hlb, h1, h2⟩ := import_ok hsg hr hc hans
  cases hk'
  have hst1 : run cfg.ks ncfg s (es.take (m + 1)) =
      (handle cfg.ks v (run cfg.ks ncfg s (es.take m)) lock
        (.importKey id flags label cap (.ok key))).2 := by
    rw [← hnext, List.take_add_one, hm, run_append]; rfl
  refine ⟨keys, md, key, hheld, hmk, ?_, hfl, hlb, h1, fun h0 => ⟨(h2 h0).1, m, (h2 h0).2⟩⟩
  have hsplit : run cfg.ks ncfg s es =
      run cfg.ks ncfg (run cfg.ks ncfg s (es.take (m + 1))) (es.drop (m + 1)) := by
    rw [← run_append, List.take_append_drop]
  have hfin := uncommitted_run (ncfg := ncfg) hsg (y := v.ctx) (id := ownId cfg.ks v o.keyId)
    (k := ⟨md, key, false⟩) rfl (evs := es.drop (m + 1))
    ((reach_run hs (es.take (m + 1)) fun e he => hv e (List.mem_of_mem_take he)).wf hsg)
    (by rw [hst1]; exact hcach) (fun e he => by
      obtain ⟨j, hj⟩ := List.mem_iff_getElem?.1 he
      rw [List.getElem?_drop] at hj
      have hmem := mem_at hj
      obtain ⟨hval, hwho⟩ := hev e hmem
      refine ⟨hval, ?_, ?_⟩
      · rintro w lk q rfl
        by_cases hw : w.ctx = v.ctx
        · rcases hwho with ⟨lk', q', e⟩ | hfo
          · cases e; exact hown _ _ _ (by omega) hj
          · exact absurd hw hfo
        · exact hf w lk q hmem hw
      · rintro b rfl
        rcases hwho with ⟨_, _, e⟩ | hfo
        · cases e
        · exact hfo)
  rw [← hsplit] at hfin
  unfold view
  rw [hfin]

/-- Non-vacuity: client 1 has a key generated under an id of the server's choosing while client 2
caches one; and derives one from its inline secret under the id 12. -/
example : ∃ es o es' o',
    Exec Demo.cfg.ks Keystore.Demo.ncfg one (Keystore.Demo.after [])
      (handler Demo.cfg Demo.lib one (.keyGen .ecc 0 Flag.usageSign label [] [1, 2, 3]))
      (fresh2 :: es) (some (.ok o)) ∧
    (∀ w lock q, .key w lock q ∈ fresh2 :: es → w.ctx ≠ one.ctx →
      ¬q.Names Demo.cfg.ks w (ownId Demo.cfg.ks one o.keyId)) ∧
    Exec Demo.cfg.ks Keystore.Demo.ncfg one (Keystore.Demo.after [])
      (handler Demo.cfg Demo.lib one (.hkdf 0 12 Flag.usageSign label 0 [1] [2] [3] 5)) es'
      (some (.ok o')) ∧ o'.keyId = 12 := by
  refine ⟨(Demo.on ([] ++ [fresh2]) one (.keyGen .ecc 0 Flag.usageSign label [] [1, 2, 3])).1,
    { fixed := 8, keyId := 255, body := [6] }, _, { fixed := 8, keyId := 12 },
    Demo.on_exec_other [] fresh2 _ _ (by decide) (show (1 : Nat) ≠ 0 by decide) (by decide +kernel),
    ?_, Demo.on_exec _ _ _ (by decide +kernel), rfl⟩
  have hes : (Demo.on ([] ++ [fresh2]) one (.keyGen .ecc 0 Flag.usageSign label [] [1, 2, 3])).1 =
    [.key one .ok (.importKey 0 Flag.usageSign label 32 (.ok [1, 2, 3]))] := rfl
  rw [hes]
  intro w lock q hm hw
  simp only [List.mem_cons, List.not_mem_nil, or_false] at hm
  rcases hm with hm | hm
  · cases hm
    show ¬_
    intro hn
    revert hn
    unfold Keystore.Req.Names
    decide
  · cases hm; exact absurd rfl hw

/-- **C17 (crypto requests).** The key-store operations of a crypto request that store, replace or
evict a key name only ids the request itself asks to be stored or evicted, or the fresh id of a
key the request has just made and takes back. -/
theorem C17_crypto_targets (hsg : GoodCfg cfg.ks) (hs : Reach cfg.ks ncfg s)
    (hc : 0 < v.client ∧ v.client < 16) (r : Crypto.Req) {a : Option Crypto.Resp}
    (h : Exec cfg.ks ncfg v s (handler cfg L v r) es a) {j : Nat} {lock : Rc} {q : Keystore.Req}
    (hj : es[j]? = some (.key v lock q)) {id : UInt16} (hn : q.Names cfg.ks v id) :
    (∃ t ∈ r.targets, id = ownId cfg.ks v t) ∨
    (∃ t ∈ r.targets, KeyId.idOf (ownId cfg.ks v t) = 0 ∧ ∃ i < j,
      view cfg.ks v.ctx (run cfg.ks ncfg s (es.take i)) id = none) := by
  obtain ⟨H', hop, hH⟩ := exec_calls h (calls_handler cfg L v r []) hj
  cases q with
  | importKey id' flags label cap der => exact .inl ⟨id', hop.1, hn⟩
  | evictOption i =>
    rcases hop with hi | ⟨id', flags, label, cap, der, hm, ht, h0⟩
    · exact .inl ⟨i, hi, hn⟩
    · rcases hH _ hm with hx | ⟨i', lock', hi', -, h4⟩
      · cases hx
      · have hr := reach_run hs (es.take i') fun e he =>
          (exec_events hc.2 h e (List.mem_of_mem_take he)).1
        obtain ⟨-, h2, -⟩ := C16_fresh hsg hr hc (r := .importKey id' flags label cap der) h0
          (step_answered h4).1
        refine .inr ⟨id', ht, h0, i', hi', ?_⟩
        rw [show id = ownId cfg.ks v i from hn]; exact h2
  | loadKey => exact hn.elim
  | useKey => exact hn.elim
  | _ => exact hop.elim

/-- Non-vacuity: a request that evicts the key it has used. -/
example : ∃ es a lock, Exec Demo.cfg.ks Keystore.Demo.ncfg one (Keystore.Demo.after [])
      (handler Demo.cfg Demo.lib one (.sign .ecc 7 true 0 [1, 2] [] [])) es a ∧
    es[1]? = some (.key one lock (.evictOption 7)) ∧
    (Keystore.Req.evictOption 7).Names Demo.cfg.ks one (ownId Demo.cfg.ks one 7) :=
  ⟨_, _, .ok, Demo.on_exec _ _ _ rfl, rfl, rfl⟩

/-- **C15 (crypto requests).** Crypto requests keep NONEXPORTABLE what is NONEXPORTABLE: if every
copy of some secret bytes carries the flag, and the request does not itself make those very bytes
as an exportable key, every copy still carries it afterwards. -/
theorem C15_crypto_flag_kept (hsg : GoodCfg cfg.ks) (hs : Reach cfg.ks ncfg s)
    (hc : v.client < 16) (r : Crypto.Req) (Sec : List UInt8 → Prop) (h0 : Guarded cfg.ks Sec s)
    (hm : ∀ flags key, r.Makes L flags key → Sec key → hasFlag flags Flag.nonExportable = true)
    {a : Option Crypto.Resp} (h : Exec cfg.ks ncfg v s (handler cfg L v r) es a)
    (hf : ∀ e ∈ es, Foreign v e → Guards cfg.ks Sec e) :
    Guarded cfg.ks Sec (run cfg.ks ncfg s es) := by
  refine C15_flag_kept hsg hs Sec h0 es fun e he => ?_
  obtain ⟨hv, ⟨lock, q, rfl⟩ | hfe⟩ := exec_events hc h e he
  · refine ⟨hv, ?_⟩
    obtain ⟨j, hj⟩ := List.mem_iff_getElem?.1 he
    obtain ⟨H', hop, -⟩ := exec_calls h (calls_handler cfg L v r []) hj
    cases q with
    | importKey id flags label cap der =>
      rintro md data ⟨hfl, hd⟩ hsec
      rw [hfl, sanitize_flag _ (by decide)]
      exact hm flags data (hop.2 data hd) hsec
    | evictOption => exact fun _ _ hb => hb.elim
    | loadKey => exact fun _ _ hb => hb.elim
    | useKey => exact fun _ _ hb => hb.elim
    | _ => exact hop.elim
  · exact ⟨hv, hf e he hfe⟩

/-- Non-vacuity: the bytes of the stored key 7 are secret and flagged; a key generation that makes
other bytes. -/
example : ∃ es o,
    Guarded Demo.cfg.ks (· = [0x5E, 0xC2, 0xE7]) (Keystore.Demo.after []) ∧
    (∀ flags key, (Crypto.Req.keyGen .ecc 0 Flag.usageSign label [] [1, 2, 3]).Makes Demo.lib flags key →
      key = [0x5E, 0xC2, 0xE7] → hasFlag flags Flag.nonExportable = true) ∧
    Exec Demo.cfg.ks Keystore.Demo.ncfg one (Keystore.Demo.after [])
      (handler Demo.cfg Demo.lib one (.keyGen .ecc 0 Flag.usageSign label [] [1, 2, 3])) es
      (some (.ok o)) := by
  refine ⟨_, _, ?_, ?_, Demo.on_exec _ _ _
    (a := some (.ok { fixed := 8, keyId := 255, body := [6] })) (by decide +kernel)⟩
  · have hst : ∀ id md d, (Keystore.Demo.after []).nvm.store id = some (md, d) →
        d = [0x5E, 0xC2, 0xE7] → hasFlag md.flags Flag.nonExportable = true := by
      intro id md d h hd
      change Keystore.Demo.store id = _ at h
      unfold Keystore.Demo.store at h
      split at h
      · cases h; cases hd
      · split at h
        · cases h; decide
        · split at h
          · cases h; cases hd
          · cases h
    exact ⟨fun y id md d h => hst id md d (by
      rw [show Demo.cfg.ks = Keystore.Demo.cfg from rfl, Demo.boot_view] at h; exact h), hst,
      fun _ _ h => by cases h⟩
  · rintro flags key ⟨-, obj, max, h1, h2⟩ h3
    cases h1
    subst h3
    change Demo.fit _ _ = _ at h2
    unfold Demo.fit at h2
    split at h2 <;> cases h2

/-- The usages a crypto request may need are the usage flags. -/
theorem needs_usage (r : Crypto.Req) {id m : UInt16} {masks : List UInt16}
    (hn : (id, masks) ∈ r.needs cfg v) (hm : m ∈ masks) : m &&& usageAny = m := by
  have key : ∀ {l : List UInt16} {x : UInt16}, (id, masks) ∈ [(x, l)] →
      (∀ m ∈ l, m &&& usageAny = m) → m &&& usageAny = m := by
    intro l x h hl
    simp only [List.mem_singleton, Prod.mk.injEq] at h
    exact hl m (h.2 ▸ hm)
  have no : ∀ {P : Prop}, (id, masks) ∈ ([] : List (UInt16 × List UInt16)) → P := by
    intro P h; cases h
  cases r with
  | malformed => exact no hn
  | refused => exact no hn
  | keyGen => exact no hn
  | keyGenDma => exact no hn
  | rsaFunction op => cases op <;> exact key hn (by decide)
  | rsaGetSize => exact key hn (by decide)
  | makePub => exact key hn (by decide)
  | checkPub => exact key hn (by decide)
  | sharedSecret =>
    simp only [Req.needs, List.mem_cons, List.not_mem_nil, or_false] at hn
    rcases hn with hn | hn
    · exact key (List.mem_singleton.2 hn) (by decide)
    · exact key (List.mem_singleton.2 hn) (by decide)
  | sign => exact key hn (by decide)
  | signDma => exact key hn (by decide)
  | verify => exact key hn (by decide)
  | verifyDma => exact key hn (by decide)
  | encaps => exact key hn (by decide)
  | decaps => exact key hn (by decide)
  | hkdf =>
    simp only [Req.needs] at hn
    split at hn
    · exact key hn (by decide)
    · exact no hn
  | cmacKdf =>
    simp only [Req.needs, List.mem_append] at hn
    rcases hn with hn | hn <;> split at hn <;> first | exact key hn (by decide) | exact no hn
  | aes mode enc =>
    simp only [Req.needs] at hn
    split at hn
    · cases enc <;> exact key hn (by decide)
    · exact no hn
  | aesDma mode enc =>
    simp only [Req.needs] at hn
    split at hn
    · cases enc <;> exact key hn (by decide)
    · exact no hn
  | cmac =>
    simp only [Req.needs] at hn
    split at hn
    · exact key hn (by decide)
    · exact no hn
  | cmacDma =>
    simp only [Req.needs] at hn
    split at hn
    · exact key hn (by decide)
    · exact no hn

/-- **C19 (crypto requests).** Once a committed key has been revoked, no crypto request that needs
a usage of it succeeds, whatever happened since the revocation and whatever other contexts do
meanwhile.  (`hmask`: requests that ask for no usage are not refused, see
`F_C19_revoked_key_public_part`.) -/
theorem C19_crypto_refused (hsg : GoodCfg cfg.ks) (hs : Reach cfg.ks ncfg s) {w : Srv}
    (hw : w.client < 16) (hc : v.client < 16) (lock : Rc) (rid : UInt16)
    (hty : KeyId.typeOf (ownId cfg.ks w rid) = KeyId.typeCrypto)
    (hstored : s.nvm.store (ownId cfg.ks w rid) ≠ none)
    (hcoh : Coherent cfg.ks s (ownId cfg.ks w rid)) (honly : OnlyAt cfg.ks w.ctx s (ownId cfg.ks w rid))
    (hset : ∀ md d, s.nvm.pending = some (md, d) → md.id = ownId cfg.ks w rid →
      s.nvm.store (ownId cfg.ks w rid) = some (md, d))
    (hok : (step cfg.ks ncfg s (.key w lock (.revoke rid))).1 = .key (.code .ok))
    (evs : List Ev) (hevs : ∀ e ∈ evs, e.Valid ∧ StableEv e)
    (r : Crypto.Req) {id : UInt16} {masks : List UInt16} (hn : (id, masks) ∈ r.needs cfg v)
    (hid : ownId cfg.ks v id = ownId cfg.ks w rid) (hmask : 0 ∉ masks)
    {a : Crypto.Resp}
    (h : Exec cfg.ks ncfg v (run cfg.ks ncfg s (.key w lock (.revoke rid) :: evs))
      (handler cfg L v r) es (some a))
    (hes : ∀ e ∈ es, Foreign v e → StableEv e) : ∀ o, a ≠ .ok o := by
  obtain ⟨hans, hnext⟩ := step_answered hok
  obtain ⟨md, bs, hrev, hall⟩ := C19_revoked_partial (ncfg := ncfg) hsg hs hw lock rid hty hstored
    hcoh honly hset hans
  have hre : Reach cfg.ks ncfg (run cfg.ks ncfg s (.key w lock (.revoke rid) :: evs)) :=
    reach_run hs _ fun e he => by
      rcases List.mem_cons.1 he with rfl | he
      · exact hw
      · exact (hevs e he).1
  refine C20_crypto_refused hsg hre hc r hn ?_ h
  intro n md' key hvw m hm he
  rw [run_cons, hnext, ← run_append, hid] at hvw
  rw [(hall (evs ++ es.take n) fun e hmem => by
    rcases List.mem_append.1 hmem with hmem | hmem
    · exact hevs e hmem
    · obtain ⟨hval, ⟨_, _, rfl⟩ | hf⟩ := exec_events hc h e (List.mem_of_mem_take hmem)
      · exact ⟨hval, trivial⟩
      · exact ⟨hval, hes e (List.mem_of_mem_take hmem) hf⟩).2 v.ctx] at hvw
  cases hvw
  refine hmask ?_
  have h0 : m = 0 := by
    have hu := needs_usage r hn hm
    rw [← he, UInt16.and_assoc, UInt16.and_comm m, ← UInt16.and_assoc, (revoked_flags hrev).2,
      UInt16.zero_and] at hu
    rw [← he, ← hu]
  exact h0 ▸ hm

/-- Non-vacuity: the committed global key 6 is revoked by client 1; after a power cycle client 2
tries to encrypt with it. -/
example : ∃ s es a, Reach Demo.cfg.ks Keystore.Demo.ncfg s ∧
    KeyId.typeOf (ownId Demo.cfg.ks one 0x0106) = KeyId.typeCrypto ∧
    s.nvm.store (ownId Demo.cfg.ks one 0x0106) ≠ none ∧
    Coherent Demo.cfg.ks s (ownId Demo.cfg.ks one 0x0106) ∧
    OnlyAt Demo.cfg.ks one.ctx s (ownId Demo.cfg.ks one 0x0106) ∧
    s.nvm.pending = none ∧
    (step Demo.cfg.ks Keystore.Demo.ncfg s (.key one .ok (.revoke 0x0106))).1 = .key (.code .ok) ∧
    (0x0106, [Flag.usageEncrypt]) ∈
      (Crypto.Req.aes .ecb true 0x0106 [] [1] [] 0 0).needs Demo.cfg two ∧
    ownId Demo.cfg.ks two 0x0106 = ownId Demo.cfg.ks one 0x0106 ∧
    Exec Demo.cfg.ks Keystore.Demo.ncfg two
      (run Demo.cfg.ks Keystore.Demo.ncfg s [.key one .ok (.revoke 0x0106), .restart false])
      (handler Demo.cfg Demo.lib two (.aes .ecb true 0x0106 [] [1] [] 0 0)) es (some a) := by
  refine ⟨Keystore.Demo.after [Keystore.Demo.cacheG6, Keystore.Demo.commitG6, .restart false], _, _,
    Demo.after_reach _ (by decide), by decide, by decide +kernel, ?_, onlyAt_global (by decide),
    by decide +kernel, by decide +kernel, by decide, by decide,
    Demo.on_exec [Keystore.Demo.cacheG6, Keystore.Demo.commitG6, .restart false,
      .key one .ok (.revoke 0x0106), .restart false] _ _
      (a := some (.error .usage)) (by decide +kernel)⟩
  refine coherent_global (by decide) fun k hk _ => ?_
  have : (Keystore.Demo.after [Keystore.Demo.cacheG6, Keystore.Demo.commitG6,
    .restart false]).global.find (ownId Demo.cfg.ks one 0x0106) = none := by decide +kernel
  rw [this] at hk; cases hk

end WolfHsm.Props

import Verif.Proofs.KeyMsgReply
import Verif.Proofs.NvmEnc

/-! # Key calls of a client, handled by the server -/

namespace WolfHsm.KeyMsg

open Wire
open NvmFlash (Meta ser_length)
open Keystore (Srv Sys)

/-! ## Lengths of what the key store returns -/

theorem seal_len {cfg : Cfg} (hl : Lengths cfg) {kek : List UInt8} {d : Bool} {iv : Except Rc (List UInt8)} {pt : List UInt8}
    (hiv : ∀ b, iv = .ok b → b.length = 12) : (Keystore.sealBlob cfg.ks kek d iv pt).2.length ≤ 28 + pt.length := by
  unfold Keystore.sealBlob
  cases iv with
  | error rc => exact Nat.zero_le _
  | ok b =>
    dsimp only
    cases h : cfg.ks.aead.enc kek d b pt with
    | none => exact Nat.zero_le _
    | some q =>
      obtain ⟨ct, tag⟩ := q
      obtain ⟨h1, h2⟩ := hl.enc _ _ _ _ _ _ h
      dsimp only
      rw [List.length_append, List.length_append, hiv b rfl, h1, h2]

theorem wrap_len {cfg : Cfg} (hl : Lengths cfg) (v : Srv) (s : Sys) (kek : UInt16) (md : Meta) (key : List UInt8)
    {iv : Except Rc (List UInt8)} (hiv : ∀ b, iv = .ok b → b.length = 12) :
    (Keystore.handleWrap cfg.ks v s kek md key iv).1.2.length ≤ cfg.ks.commLen - 8 := by
  unfold Keystore.handleWrap
  split
  · exact Nat.zero_le _
  · split
    · exact Nat.zero_le _
    · split
      · exact Nat.zero_le _
      · rename_i h
        split
        · rename_i k s' _
          have := seal_len hl (kek := k) (d := true) (pt := md.ser ++ key) hiv
          rw [List.length_append, ser_length] at this
          dsimp only
          omega
        · exact Nat.zero_le _

theorem wrapExport_len {cfg : Cfg} (hl : Lengths cfg) (v : Srv) (s : Sys) (g : Bool) (kek type id : UInt16)
    {iv : Except Rc (List UInt8)} (hiv : ∀ b, iv = .ok b → b.length = 12) :
    (Keystore.handleWrapExport cfg.ks v s g kek type id iv).1.2.length ≤ cfg.ks.commLen - 8 := by
  unfold Keystore.handleWrapExport
  split
  · exact Nat.zero_le _
  · split
    · rename_i md key s' _
      by_cases hc : g = false ∨ cfg.ks.commLen - 8 < 60 + key.length
      · rw [if_pos hc]; exact Nat.zero_le _
      · rw [if_neg hc]
        have hc' : ¬ cfg.ks.commLen - 8 < 60 + key.length := fun h => hc (Or.inr h)
        split
        · rename_i k s'' _
          have := seal_len hl (kek := k) (d := true) (pt := (Keystore.wrapMeta md).ser ++ key) hiv
          rw [List.length_append, ser_length] at this
          dsimp only
          omega
        · exact Nat.zero_le _
    · exact Nat.zero_le _

theorem unwrapKey_len {cfg : Cfg} (v : Srv) (s : Sys) (kek : UInt16) (t : Bool) (blob : List UInt8) {md : Meta} {key : List UInt8} {rc : Rc}
    (h : (Keystore.unwrapKey cfg.ks v s kek t blob).1 = (rc, some (md, key))) : key.length ≤ blob.length - 60 := by
  unfold Keystore.unwrapKey at h
  split at h
  · split at h
    · cases h
    · split at h
      · injection h with _ h; injection h with h; injection h with _ h
        rw [← h, List.length_take]
        exact Nat.min_le_left ..
      · cases h
  · cases h

theorem unwrapExport_len {cfg : Cfg} (h40 : 40 ≤ cfg.ks.commLen) (v : Srv) (s : Sys) (kek : UInt16) (blob : List UInt8) {md : Meta}
    {key : List UInt8} {rc : Rc}
    (h : (Keystore.handleUnwrapExport cfg.ks v s kek blob).1 = (rc, some (md, key))) : key.length ≤ cfg.ks.commLen - 40 := by
  unfold Keystore.handleUnwrapExport at h
  split at h
  · cases h
  · split at h
    · cases h
    · rename_i h60 hb
      generalize hq : Keystore.unwrapKey cfg.ks v s kek false blob = q at h
      split at h
      · have hk := unwrapKey_len (cfg := cfg) v s kek false blob (congrArg Prod.fst hq)
        split at h
        · cases h
        · split at h
          · cases h
          · split at h
            · cases h
            · split at h
              · cases h
              · injection h with _ h; injection h with h; injection h with _ h
                rw [← h]; omega
      · cases h

theorem dataWrap_len {cfg : Cfg} (hl : Lengths cfg) (v : Srv) (s : Sys) (kek : UInt16) (data : List UInt8)
    {iv : Except Rc (List UInt8)} (hiv : ∀ b, iv = .ok b → b.length = 12) :
    (Keystore.handleDataWrap cfg.ks v s kek data iv).1.2.length ≤ cfg.ks.commLen - 12 := by
  unfold Keystore.handleDataWrap
  split
  · exact Nat.zero_le _
  · split
    · exact Nat.zero_le _
    · rename_i h
      split
      · rename_i k s' _
        have := seal_len hl (kek := k) (d := false) (pt := data) hiv
        dsimp only
        omega
      · exact Nat.zero_le _

theorem dataUnwrap_len {cfg : Cfg} (hl : Lengths cfg) (v : Srv) (s : Sys) (kek : UInt16) (blob : List UInt8) :
    (Keystore.handleDataUnwrap cfg.ks v s kek blob).1.2.length ≤ cfg.ks.commLen - 12 := by
  unfold Keystore.handleDataUnwrap
  split
  · exact Nat.zero_le _
  · split
    · exact Nat.zero_le _
    · rename_i h
      split
      · split
        · exact Nat.zero_le _
        · rename_i k s' _ _
          unfold Keystore.openBlob
          split
          · rename_i pt hd
            have := hl.dec _ _ _ _ _ _ hd
            rw [List.length_drop] at this
            dsimp only
            omega
          · exact Nat.zero_le _
      · exact Nat.zero_le _

theorem exportKey_len {cfg : Cfg} {x : Nat} {s : Sys} (hw : Keystore.WF s) (id : UInt16) {n : Nat} (hn : 16 ≤ n) {rc : Rc} {md : Meta}
    {bs : List UInt8} (h : (Keystore.readKeyChecked cfg.ks x s id n).1 = (rc, some (md, bs))) : bs.length ≤ n := by
  have key : ∀ rc md bs, (Keystore.readKey cfg.ks x s id n).1 = (rc, some (md, bs)) → bs.length ≤ n := by
    refine Keystore.readKey_cases (P := fun r => ∀ rc md bs, r.1 = (rc, some (md, bs)) → bs.length ≤ n) hw ?_ ?_ ?_ ?_ ?_
    · intro k _ hk rc md bs h; injection h with _ h; injection h with h; injection h with _ h; rw [← h]; exact hk
    · intro md bs s' _ hk _ rc md' bs' h; injection h with _ h; injection h with h; injection h with _ h; rw [← h]; exact hk
    · intro md bs s' _ hk _ _ _ rc md' bs' h; injection h with _ h; injection h with h; injection h with _ h; rw [← h]; exact hk
    · intro s' _ _ _ _ _ rc md' bs' h; injection h with _ h; injection h with h; injection h with _ h; rw [← h]
      simpa using hn
    · intro rc s' _ _ rc md' bs' h; cases h
  unfold Keystore.readKeyChecked at h
  split at h
  · exact key _ _ _ h
  · cases h

theorem exportDma_len {cfg : Cfg} {x : Nat} {s : Sys} (hw : Keystore.WF s) (id : UInt16) {sz : UInt64} {dma : Nat → Rc} {rc : Rc} {md : Meta}
    {bs : List UInt8} (h : (Keystore.exportKeyDma cfg.ks x s id sz dma).1 = (rc, some (md, bs))) : bs.length < 65536 := by
  have key : ∀ rc k s', Keystore.freshen cfg.ks x s id = (rc, some k, s') → k.data.length < 65536 := by
    refine Keystore.freshen_cases (P := fun r => ∀ rc k s', r = (rc, some k, s') → k.data.length < 65536) hw ?_ ?_ ?_ ?_
    · intro k hk rc k' s' h
      injection h with _ h; injection h with h _; injection h with h
      rw [← h]
      rw [Keystore.cached_eq] at hk
      rw [← hw.clen _ _ _ hk]; exact UInt16.toNat_lt _
    · intro md bs s' _ hl rc k' s'' h
      injection h with _ h; injection h with h _; injection h with h
      rw [← h]
      show bs.length < 65536
      rw [← (hw.nvm _ _ _ hl.stored).2]; exact UInt16.toNat_lt _
    · intro rc s' _ _ _ _ _ _ h; cases h
    · intro rc _ _ _ _ h; cases h
  unfold Keystore.exportKeyDma at h
  split at h
  · split at h
    · rename_i k s' hf
      split at h
      · cases h
      · split at h
        · injection h with _ h; injection h with h; injection h with _ h
          rw [← h]; exact key _ _ _ hf
        · cases h
    · cases h
  · cases h

theorem public_len {cfg : Cfg} (hp : PublicFits cfg) (x : Nat) (s : Sys) (id algo : UInt16) :
    (Keystore.handleExportPublic cfg.ks x s id algo).1.2.length ≤ cfg.ks.commLen - 36 := by
  unfold Keystore.handleExportPublic
  split
  · split
    · exact hp _ _
    · exact Nat.zero_le _
  · exact Nat.zero_le _

theorem keyResp_len {P : Nat → Prop} (h0 : P 0) {r : Rc × Option (Meta × List UInt8)} (l : Vector UInt8 24)
    (h : ∀ rc md bs, r = (rc, some (md, bs)) → P bs.length) : P (Answer.of l (Keystore.keyResp r)).bytes.length := by
  unfold Keystore.keyResp
  split
  · exact h _ _ _ rfl
  · exact h0

theorem pub_len {n : Nat} (l : Vector UInt8 24) (rc : Rc) (bs : List UInt8) (h : bs.length ≤ n) :
    (Answer.of l (.pubKey rc bs)).bytes.length ≤ n := by
  unfold Answer.of
  dsimp only
  split
  · exact h
  · exact Nat.zero_le _

theorem wrapped_len {n : Nat} (l : Vector UInt8 24) (rc : Rc) (bs : List UInt8) (h : bs.length ≤ n) :
    (Answer.of l (.wrapped rc bs)).bytes.length ≤ n := by
  unfold Answer.of
  dsimp only
  split
  · exact h
  · exact Nat.zero_le _

theorem data_len {n : Nat} (l : Vector UInt8 24) (rc : Rc) (bs : List UInt8) (h : bs.length ≤ n) :
    (Answer.of l (.data rc bs)).bytes.length ≤ n := by
  unfold Answer.of
  dsimp only
  split
  · exact h
  · exact Nat.zero_le _

theorem unwrapped_len {n : Nat} (l : Vector UInt8 24) {r : Rc × Option (Meta × List UInt8)}
    (h : ∀ rc md bs, r = (rc, some (md, bs)) → bs.length ≤ n) : (Answer.of l (.unwrapped r.1 r.2)).bytes.length ≤ n := by
  obtain ⟨rc, o⟩ := r
  cases o with
  | none => exact Nat.zero_le _
  | some q => exact h rc q.1 q.2 rfl

theorem iv_len (e : Env) : ∀ b, e.ivBytes = .ok b → b.length = 12 := by
  intro b h
  unfold Env.ivBytes at h
  cases hi : e.iv with
  | error rc => rw [hi] at h; cases h
  | ok v =>
    rw [hi] at h
    injection h with h
    rw [← h]
    exact Vector.length_toList ..

/-! ## Serving a request -/

theorem handle_ok (ks : Keystore.Cfg) (v : Srv) (s : Sys) (q : Keystore.Req) : Keystore.handle ks v s .ok q = Keystore.act ks v s q := by
  cases q <;> rfl

theorem handle_locked (ks : Keystore.Cfg) (v : Srv) (s : Sys) {lock : Rc} (h : lock ≠ .ok) (q : Keystore.Req) :
    (Keystore.handle ks v s lock q).2 = s := by
  cases q <;> cases lock <;> first | exact absurd rfl h | rfl

theorem handle_req {cfg : Cfg} {e : Env} {r : Server.Req} {q : Keystore.Req} (hd : decode cfg e r = .req q) (hl : e.lock = .ok) (v : Srv)
    (s : Sys) :
    handle cfg v e r s =
      let o := Keystore.act cfg.ks v s q
      let a := finish cfg v e r s (Answer.of (labelOf cfg v q o.2) o.1)
      ((reply cfg r a, a.write), o.2) := by
  unfold handle serve
  rw [hd]
  dsimp only
  rw [if_pos hl, hl, handle_ok]

theorem handle_lock {cfg : Cfg} {e : Env} {r : Server.Req} (hd : (∃ q, decode cfg e r = .req q) ∨ ∃ rc c, decode cfg e r = .late rc c)
    (hl : e.lock ≠ .ok) (v : Srv) (s : Sys) : handle cfg v e r s = ((reply cfg r { rc := e.lock }, none), s) := by
  unfold handle serve
  rcases hd with ⟨q, hd⟩ | ⟨rc, c, hd⟩ <;> rw [hd] <;> dsimp only <;> rw [if_neg hl]
  dsimp only
  rw [handle_locked _ _ _ hl]

theorem handle_late {cfg : Cfg} {e : Env} {r : Server.Req} {rc : Rc} {c : Bool} (hd : decode cfg e r = .late rc c) (hl : e.lock = .ok)
    (v : Srv) (s : Sys) : handle cfg v e r s =
      ((reply cfg r { rc := rc, cipher := if c then cipherOf cfg r else 0 }, none), s) := by
  unfold handle serve
  rw [hd]
  dsimp only
  rw [if_pos hl]

end WolfHsm.KeyMsg

namespace WolfHsm.ClientKey

open Utils (bytes16 bytes32 bytes64 magicNative)
open Wire
open NvmFlash (Meta)
open KeyMsg (Env Answer Reply)
open Keystore (Srv Sys)

variable {cle : Bool} {m : UInt16}

theorem id_enc {le : Bool} {stale : Nat → UInt8} {action id a : UInt16} {body : List UInt8}
    (he : idReq le stale action id = .ok (a, body)) : a = action ∧ body = bytes16 le id ++ pad 6 stale := by
  unfold idReq at he
  split at he
  · cases he
  · injection he with he; injection he with h1 h2; exact ⟨h1.symm, h2.symm⟩

/-- What the server makes of the request of a call. -/
theorem dec_call {cfg : KeyMsg.Cfg} (hp : Paired cle cfg.le magicNative m) {kcfg : Cfg} (hf : Fit cfg kcfg) {stale : Nat → UInt8} {c : Call}
    {a : UInt16} {body : List UInt8} (he : encode cle kcfg stale c = .ok (a, body)) (hdma : c.IsDma → cfg.dma = true)
    (hkw : c.cipher? ≠ none → cfg.keywrap = true) (e : Env) (seq : UInt16) (junk : List UInt8) :
    KeyMsg.decode cfg e (reqOf m a seq body junk) =
      match c.req cfg e with
      | .ok q => .req q
      | .error rc => .late rc true := by
  have hp := hp.symm
  have hsame := hf.same
  have hhigh := hf.high
  have hite : ∀ {p : Prop} [Decidable p] (q : Keystore.Req),
      (if p then KeyMsg.Decoded.req q else .late .badargs true) =
      match (if p then .ok q else .error Rc.badargs : Except Rc Keystore.Req) with
      | .ok q => .req q
      | .error rc => .late rc true := by
    intro p _ q
    split <;> rfl
  cases c with
  | cache id flags label key =>
    unfold encode at he; dsimp only at he
    split at he
    · cases he
    · injection he with he; injection he with h1 h2; subst h1; subst h2
      exact dec_cache hp e seq junk (by omega)
  | cacheRandom id flags label sz =>
    unfold encode at he; dsimp only at he
    split at he
    · cases he
    · injection he with he; injection he with h1 h2; subst h1; subst h2
      exact dec_cacheRandom hp e seq junk
  | evict id => obtain ⟨h1, h2⟩ := id_enc he; subst h1; subst h2; exact dec_id hp 1 seq junk stale _
  | exportKey id => obtain ⟨h1, h2⟩ := id_enc he; subst h1; subst h2; exact dec_id hp 2 seq junk stale _
  | commit id => obtain ⟨h1, h2⟩ := id_enc he; subst h1; subst h2; exact dec_id hp 3 seq junk stale _
  | erase id => obtain ⟨h1, h2⟩ := id_enc he; subst h1; subst h2; exact dec_id hp 4 seq junk stale _
  | revoke id => obtain ⟨h1, h2⟩ := id_enc he; subst h1; subst h2; exact dec_id hp 5 seq junk stale _
  | exportPublic id algo =>
    unfold encode at he; dsimp only at he
    split at he
    · cases he
    · injection he with he; injection he with h1 h2; subst h1; subst h2
      exact dec_exportPublic hp e seq junk stale
  | cacheDma id flags label addr sz =>
    injection he with he; injection he with h1 h2; subst h1; subst h2
    exact dec_cacheDma (hdma trivial) hp e seq junk
  | exportDma id addr sz =>
    unfold encode at he; dsimp only at he
    split at he
    · cases he
    · injection he with he; injection he with h1 h2; subst h1; subst h2
      exact dec_exportDma (hdma trivial) hp e seq junk stale
  | exportPublicDma id algo addr sz =>
    unfold encode at he; dsimp only at he
    split at he
    · cases he
    · injection he with he; injection he with h1 h2; subst h1; subst h2
      exact dec_exportPublicDma (hdma trivial) hp e seq junk stale
  | wrap cipher kek md key =>
    unfold encode at he; dsimp only at he
    split at he
    · cases he
    · rename_i hn
      injection he with he; injection he with h1 h2; subst h1; subst h2
      have hk := hf.key
      exact (dec_wrap (hkw (by intro h; cases h)) hp e seq junk (by omega) (by omega)).trans (hite _)
  | wrapExport cipher id type kek =>
    injection he with he; injection he with h1 h2; subst h1; subst h2
    exact dec_wrapExport (hkw (by intro h; cases h)) hp e seq junk
  | unwrapExport cipher kek blob =>
    unfold encode at he; dsimp only at he
    split at he
    · cases he
    · injection he with he; injection he with h1 h2; subst h1; subst h2
      refine Eq.trans ?_ ((dec_unwrap hp 9 seq junk stale (by omega) .unwrapExport).trans (hite _))
      exact if_pos (hkw (by intro h; cases h))
  | unwrapCache cipher kek blob =>
    unfold encode at he; dsimp only at he
    split at he
    · cases he
    · injection he with he; injection he with h1 h2; subst h1; subst h2
      refine Eq.trans ?_ ((dec_unwrap hp 10 seq junk stale (by omega) .unwrapCache).trans (hite _))
      exact if_pos (hkw (by intro h; cases h))
  | dataWrap cipher kek data =>
    unfold encode at he; dsimp only at he
    split at he
    · cases he
    · rename_i hn
      injection he with he; injection he with h1 h2; subst h1; subst h2
      have hk := hf.data
      exact (dec_dataWrap (hkw (by intro h; cases h)) hp e seq junk (by omega) (by omega)).trans (hite _)
  | dataUnwrap cipher kek blob =>
    unfold encode at he; dsimp only at he
    split at he
    · cases he
    · injection he with he; injection he with h1 h2; subst h1; subst h2
      exact (dec_dataUnwrap (hkw (by intro h; cases h)) hp e seq junk (by omega)).trans (hite _)

/-- The cipher the server puts into its response. -/
theorem cipher_call {cfg : KeyMsg.Cfg} (hp : Paired cle cfg.le magicNative m) {kcfg : Cfg} {stale : Nat → UInt8} {c : Call}
    {a : UInt16} {body : List UInt8} (he : encode cle kcfg stale c = .ok (a, body)) {ci : UInt16} (hc : c.cipher? = some ci)
    (seq : UInt16) (junk : List UInt8) : KeyMsg.cipherOf cfg (reqOf m a seq body junk) = ci := by
  have hp := hp.symm
  cases c with
  | wrap cipher kek md key =>
    injection hc with hc; subst hc
    unfold encode at he; dsimp only at he
    split at he
    · cases he
    · injection he with he; injection he with h1 h2; subst h1; subst h2
      show rd16 cfg.le m ((_ ++ _) ++ junk) 4 = _
      simp only [bytes16_eq, List.append_assoc, rd16_w16, rd16_here hp]
  | wrapExport cipher id type kek =>
    injection hc with hc; subst hc
    injection he with he; injection he with h1 h2; subst h1; subst h2
    show rd16 cfg.le m ((_ ++ _) ++ junk) 6 = _
    simp only [bytes16_eq, List.append_assoc, rd16_w16, rd16_here hp]
  | unwrapExport cipher kek blob =>
    injection hc with hc; subst hc
    unfold encode at he; dsimp only at he
    split at he
    · cases he
    · injection he with he; injection he with h1 h2; subst h1; subst h2
      show rd16 cfg.le m ((_ ++ _) ++ junk) 4 = _
      simp only [bytes16_eq, List.append_assoc, rd16_w16, rd16_here hp]
  | unwrapCache cipher kek blob =>
    injection hc with hc; subst hc
    unfold encode at he; dsimp only at he
    split at he
    · cases he
    · injection he with he; injection he with h1 h2; subst h1; subst h2
      show rd16 cfg.le m ((_ ++ _) ++ junk) 4 = _
      simp only [bytes16_eq, List.append_assoc, rd16_w16, rd16_here hp]
  | dataWrap cipher kek data =>
    injection hc with hc; subst hc
    unfold encode at he; dsimp only at he
    split at he
    · cases he
    · injection he with he; injection he with h1 h2; subst h1; subst h2
      show rd16 cfg.le m ((_ ++ _) ++ junk) 6 = _
      simp only [bytes16_eq, bytes32_eq, List.append_assoc, rd16_w16, rd16_w32, rd16_here hp]
  | dataUnwrap cipher kek blob =>
    injection hc with hc; subst hc
    unfold encode at he; dsimp only at he
    split at he
    · cases he
    · injection he with he; injection he with h1 h2; subst h1; subst h2
      show rd16 cfg.le m ((_ ++ _) ++ junk) 6 = _
      simp only [bytes16_eq, bytes32_eq, List.append_assoc, rd16_w16, rd16_w32, rd16_here hp]
  | _ => cases hc

/-- What the server does with the outcome of the key store operation is what the call asks for. -/
theorem finish_call {cfg : KeyMsg.Cfg} (hp : Paired cle cfg.le magicNative m) {kcfg : Cfg} {stale : Nat → UInt8} {c : Call}
    {a : UInt16} {body : List UInt8} (he : encode cle kcfg stale c = .ok (a, body)) (v : Srv) (e : Env)
    (seq : UInt16) (junk : List UInt8) (s : Sys) (cap : Nat) {x y : Answer} (hx : x.write = none) (hr : Room cfg a x)
    (hy : KeyMsg.finish cfg v e (reqOf m a seq body junk) s x = y) :
    c.result cap y = c.result cap (c.afterwards e x) ∧ y.write = (c.afterwards e x).write ∧ Room cfg a y ∧
    ∀ ci, c.cipher? = some ci → y.cipher = ci := by
  have hp' := hp.symm
  have zero : ∀ rc, Room cfg a { rc := rc } := fun _ => ⟨by show 0 < 65536; decide, fun _ => Nat.zero_le _⟩
  have plain : ∀ {z : Answer}, KeyMsg.finish cfg v e (reqOf m a seq body junk) s x = z → c.afterwards e x = x →
      z = { x with cipher := KeyMsg.cipherOf cfg (reqOf m a seq body junk) } →
      (∀ z, c.result cap { x with cipher := z } = c.result cap x) →
      c.result cap z = c.result cap (c.afterwards e x) ∧ z.write = (c.afterwards e x).write ∧ Room cfg a z ∧
      ∀ ci, c.cipher? = some ci → z.cipher = ci := by
    intro z _ h1 h2 h3
    rw [h1, h2]
    exact ⟨h3 _, rfl, hr, fun ci hc => cipher_call hp he hc seq junk⟩
  cases c with
  | cache id flags label key =>
    have ha : a = 0 := by
      unfold encode at he; dsimp only at he
      split at he
      · cases he
      · injection he with he; injection he with h _; exact h.symm
    subst ha
    exact plain hy rfl hy.symm (fun _ => rfl)
  | cacheRandom id flags label sz =>
    have ha : a = 15 := by
      unfold encode at he; dsimp only at he
      split at he
      · cases he
      · injection he with he; injection he with h _; exact h.symm
    subst ha
    exact plain hy rfl hy.symm (fun _ => rfl)
  | evict id => obtain ⟨h1, _⟩ := id_enc he; subst h1; exact plain hy rfl hy.symm (fun _ => rfl)
  | exportKey id => obtain ⟨h1, _⟩ := id_enc he; subst h1; exact plain hy rfl hy.symm (fun _ => rfl)
  | commit id => obtain ⟨h1, _⟩ := id_enc he; subst h1; exact plain hy rfl hy.symm (fun _ => rfl)
  | erase id => obtain ⟨h1, _⟩ := id_enc he; subst h1; exact plain hy rfl hy.symm (fun _ => rfl)
  | revoke id => obtain ⟨h1, _⟩ := id_enc he; subst h1; exact plain hy rfl hy.symm (fun _ => rfl)
  | exportPublic id algo =>
    have ha : a = 13 := by
      unfold encode at he; dsimp only at he
      split at he
      · cases he
      · injection he with he; injection he with h _; exact h.symm
    subst ha
    exact plain hy rfl hy.symm (fun _ => rfl)
  | wrap cipher kek md key =>
    have ha : a = 8 := by
      unfold encode at he; dsimp only at he
      split at he
      · cases he
      · injection he with he; injection he with h _; exact h.symm
    subst ha
    exact plain hy rfl hy.symm (fun _ => rfl)
  | wrapExport cipher id type kek =>
    have ha : a = 16 := by injection he with he; injection he with h _; exact h.symm
    subst ha
    exact plain hy rfl hy.symm (fun _ => rfl)
  | unwrapExport cipher kek blob =>
    have ha : a = 9 := by
      unfold encode at he; dsimp only at he
      split at he
      · cases he
      · injection he with he; injection he with h _; exact h.symm
    subst ha
    exact plain hy rfl hy.symm (fun _ => rfl)
  | unwrapCache cipher kek blob =>
    have ha : a = 10 := by
      unfold encode at he; dsimp only at he
      split at he
      · cases he
      · injection he with he; injection he with h _; exact h.symm
    subst ha
    exact plain hy rfl hy.symm (fun _ => rfl)
  | dataWrap cipher kek data =>
    have ha : a = 11 := by
      unfold encode at he; dsimp only at he
      split at he
      · cases he
      · injection he with he; injection he with h _; exact h.symm
    subst ha
    exact plain hy rfl hy.symm (fun _ => rfl)
  | dataUnwrap cipher kek blob =>
    have ha : a = 12 := by
      unfold encode at he; dsimp only at he
      split at he
      · cases he
      · injection he with he; injection he with h _; exact h.symm
    subst ha
    exact plain hy rfl hy.symm (fun _ => rfl)
  | cacheDma id flags label addr sz =>
    have ha : a = 6 := by injection he with he; injection he with h _; exact h.symm
    subst ha
    have h6 : (∃ b z, y = { x with badAddr := b, badSz := z }) ∨ y = x := by
      rw [← hy]
      exact Decidable.byCases (p := x.rc ≠ .ok ∧ ¬ (KeyId.isUnassigned (KeyId.fromClient cfg.ks.ids KeyId.typeCrypto v.client
          (rd16 cfg.le m (body ++ junk) 24)) = true ∧ (Keystore.getUniqueId cfg.ks v.ctx s (KeyId.fromClient cfg.ks.ids KeyId.typeCrypto v.client
          (rd16 cfg.le m (body ++ junk) 24))).1 ≠ .ok)) (fun h => Or.inl ⟨_, _, if_pos h⟩) (fun h => Or.inr (if_neg h))
    rcases h6 with ⟨b, z, h6⟩ | h6 <;> rw [h6]
    · exact ⟨rfl, rfl, hr, fun _ h => by cases h⟩
    · exact ⟨rfl, rfl, hr, fun _ h => by cases h⟩
  | exportDma id addr sz =>
    have hb : a = 7 ∧ body = bytes64 cle addr ++ (bytes64 cle sz.toUInt64 ++ (bytes16 cle id ++ pad 6 stale)) := by
      unfold encode at he; dsimp only at he
      split at he
      · cases he
      · injection he with he; injection he with h1 h2; exact ⟨h1.symm, h2.symm⟩
    obtain ⟨h1, h2⟩ := hb
    subst h1
    have hadr : rd64 cfg.le m (body ++ junk) 0 = addr := by
      simp only [h2, bytes64_eq, List.append_assoc, rd64_here hp']
    have hy' : (if x.rc = .ok then { x with write := some (addr, x.bytes) } else
        { x with badAddr := addr, badSz := rd64 cfg.le m (body ++ junk) 8 }) = y := by rw [← hy, ← hadr]; rfl
    unfold Call.afterwards
    dsimp only
    by_cases h : x.rc = .ok
    · rw [if_pos h] at hy' ⊢
      subst hy'
      exact ⟨rfl, rfl, hr, fun _ h => by cases h⟩
    · rw [if_neg h] at hy' ⊢
      subst hy'
      exact ⟨rfl, rfl, hr, fun _ h => by cases h⟩
  | exportPublicDma id algo addr sz =>
    have hb : a = 14 ∧ body = bytes64 cle addr ++ (bytes64 cle sz.toUInt64 ++ (bytes16 cle id ++ (bytes16 cle algo ++ pad 4 stale))) := by
      unfold encode at he; dsimp only at he
      split at he
      · cases he
      · injection he with he; injection he with h1 h2; exact ⟨h1.symm, h2.symm⟩
    obtain ⟨h1, h2⟩ := hb
    subst h1
    have hadr : rd64 cfg.le m (body ++ junk) 0 = addr := by
      simp only [h2, bytes64_eq, List.append_assoc, rd64_here hp']
    have hsz : rd64 cfg.le m (body ++ junk) 8 = sz.toUInt64 := by
      simp only [h2, bytes64_eq, List.append_assoc, rd64_w64, rd64_here hp']
    have hy' : (if x.rc = .ok then
      if x.bytes.length > sz.toUInt64.toNat then { rc := .nospace }
      else if e.dmaOut addr x.bytes.length = .ok then { x with write := some (addr, x.bytes) }
      else { rc := e.dmaOut addr x.bytes.length, badAddr := addr, badSz := sz.toUInt64 }
      else x) = y := by rw [← hy, ← hsz, ← hadr]; rfl
    have hszn : sz.toUInt64.toNat = sz.toNat := by simp
    rw [hszn] at hy'
    unfold Call.afterwards
    dsimp only
    by_cases h : x.rc = .ok
    · rw [if_pos h] at hy' ⊢
      by_cases h2 : x.bytes.length > sz.toNat
      · rw [if_pos h2] at hy' ⊢
        subst hy'
        exact ⟨rfl, rfl, zero _, fun _ h => by cases h⟩
      · rw [if_neg h2] at hy' ⊢
        by_cases h3 : e.dmaOut addr x.bytes.length = .ok
        · rw [if_pos h3] at hy' ⊢
          subst hy'
          exact ⟨rfl, rfl, hr, fun _ h => by cases h⟩
        · rw [if_neg h3] at hy' ⊢
          subst hy'
          exact ⟨rfl, rfl, zero .ok, fun _ h => by cases h⟩
    · rw [if_neg h] at hy' ⊢
      subst hy'
      exact ⟨rfl, rfl, hr, fun _ h => by cases h⟩

theorem of_write (l : Vector UInt8 24) (r : Keystore.Resp) : (Answer.of l r).write = none := by
  unfold Answer.of
  split <;> first | rfl | (split <;> rfl)

/-- There is room for what the key store returns. -/
theorem act_room {cfg : KeyMsg.Cfg} (hl : KeyMsg.Lengths cfg) (hpub : KeyMsg.PublicFits cfg) {kcfg : Cfg} (hf : Fit cfg kcfg)
    {stale : Nat → UInt8} {c : Call} {a : UInt16} {body : List UInt8} (he : encode cle kcfg stale c = .ok (a, body)) {s : Sys}
    (hw : Keystore.WF s) (v : Srv) (e : Env) {q : Keystore.Req} (hq : c.req cfg e = .ok q) (l : Vector UInt8 24) :
    Room cfg a (Answer.of l (Keystore.act cfg.ks v s q).1) := by
  have hlow := hf.low
  have hhigh := hf.high
  have hiv := KeyMsg.iv_len e
  have zero : ∀ {x : Answer}, x.bytes = [] → Room cfg a x := by
    intro x hx
    unfold Room
    rw [hx]
    exact ⟨by show 0 < 65536; decide, fun _ => Nat.zero_le _⟩
  have code : ∀ rc, Room cfg a (Answer.of l (.code rc)) := fun _ => zero rfl
  have kid : ∀ rc id, Room cfg a (Answer.of l (.keyId rc id)) := fun _ _ => zero rfl
  cases c with
  | cache id flags label key => injection hq with hq; subst hq; exact kid _ _
  | cacheRandom id flags label sz => injection hq with hq; subst hq; exact kid _ _
  | evict id => injection hq with hq; subst hq; exact code _
  | commit id => injection hq with hq; subst hq; exact code _
  | erase id => injection hq with hq; subst hq; exact code _
  | revoke id => injection hq with hq; subst hq; exact code _
  | cacheDma id flags label addr sz => injection hq with hq; subst hq; exact kid _ _
  | exportKey id =>
    injection hq with hq; subst hq
    have h := KeyMsg.keyResp_len (P := fun n => n ≤ cfg.ks.commLen - 36) (Nat.zero_le _) l
      (r := (Keystore.readKeyChecked cfg.ks v.ctx s (KeyId.fromClient cfg.ks.ids KeyId.typeCrypto v.client id) (cfg.ks.commLen - 36)).1)
      (fun rc md bs h => KeyMsg.exportKey_len hw _ (by omega) h)
    exact ⟨Nat.lt_of_le_of_lt h (by omega), fun _ => h⟩
  | exportDma id addr sz =>
    have ha : a = 7 := by
      unfold encode at he; dsimp only at he
      split at he
      · cases he
      · injection he with he; injection he with h _; exact h.symm
    injection hq with hq; subst hq
    have h := KeyMsg.keyResp_len (P := fun n => n < 65536) (by decide) l
      (r := (Keystore.exportKeyDma cfg.ks v.ctx s (KeyId.fromClient cfg.ks.ids KeyId.typeCrypto v.client id) sz.toUInt64 (e.dmaOut addr)).1)
      (fun rc md bs h => KeyMsg.exportDma_len hw _ h)
    refine ⟨h, ?_⟩
    subst ha
    rintro (h | h) <;> cases h
  | exportPublic id algo =>
    injection hq with hq; subst hq
    have h := KeyMsg.pub_len l (Keystore.handleExportPublic cfg.ks v.ctx s (KeyId.fromClient cfg.ks.ids KeyId.typeCrypto v.client id) algo).1.1 _
      (KeyMsg.public_len hpub v.ctx s (KeyId.fromClient cfg.ks.ids KeyId.typeCrypto v.client id) algo)
    exact ⟨Nat.lt_of_le_of_lt h (by omega), fun _ => h⟩
  | exportPublicDma id algo addr sz =>
    injection hq with hq; subst hq
    have h := KeyMsg.pub_len l (Keystore.handleExportPublic cfg.ks v.ctx s (KeyId.fromClient cfg.ks.ids KeyId.typeCrypto v.client id) algo).1.1 _
      (KeyMsg.public_len hpub v.ctx s (KeyId.fromClient cfg.ks.ids KeyId.typeCrypto v.client id) algo)
    exact ⟨Nat.lt_of_le_of_lt h (by omega), fun _ => h⟩
  | wrap cipher kek md key =>
    have ha : a = 8 := by
      unfold encode at he; dsimp only at he
      split at he
      · cases he
      · injection he with he; injection he with h _; exact h.symm
    unfold Call.req at hq; dsimp only at hq
    split at hq
    · injection hq with hq; subst hq
      have h := KeyMsg.wrapped_len l (Keystore.handleWrap cfg.ks v s kek md key e.ivBytes).1.1 _ (KeyMsg.wrap_len hl v s kek md key hiv)
      refine ⟨Nat.lt_of_le_of_lt h (by omega), ?_⟩
      subst ha
      rintro (h | h) <;> cases h
    · cases hq
  | wrapExport cipher id type kek =>
    have ha : a = 16 := by injection he with he; injection he with h _; exact h.symm
    injection hq with hq; subst hq
    have h := KeyMsg.wrapped_len l (Keystore.handleWrapExport cfg.ks v s (cipher == cfg.gcm) kek type id e.ivBytes).1.1 _
      (KeyMsg.wrapExport_len hl v s (cipher == cfg.gcm) kek type id hiv)
    refine ⟨Nat.lt_of_le_of_lt h (by omega), ?_⟩
    subst ha
    rintro (h | h) <;> cases h
  | unwrapExport cipher kek blob =>
    have ha : a = 9 := by
      unfold encode at he; dsimp only at he
      split at he
      · cases he
      · injection he with he; injection he with h _; exact h.symm
    unfold Call.req at hq; dsimp only at hq
    split at hq
    · injection hq with hq; subst hq
      have h := KeyMsg.unwrapped_len (n := cfg.ks.commLen - 40) l (r := (Keystore.handleUnwrapExport cfg.ks v s kek blob).1)
        (fun rc md bs h => KeyMsg.unwrapExport_len (by omega) v s kek blob h)
      refine ⟨Nat.lt_of_le_of_lt h (by omega), ?_⟩
      subst ha
      rintro (h | h) <;> cases h
    · cases hq
  | unwrapCache cipher kek blob =>
    unfold Call.req at hq; dsimp only at hq
    split at hq
    · injection hq with hq; subst hq; exact kid _ _
    · cases hq
  | dataWrap cipher kek data =>
    have ha : a = 11 := by
      unfold encode at he; dsimp only at he
      split at he
      · cases he
      · injection he with he; injection he with h _; exact h.symm
    unfold Call.req at hq; dsimp only at hq
    split at hq
    · injection hq with hq; subst hq
      have h := KeyMsg.wrapped_len l (Keystore.handleDataWrap cfg.ks v s kek data e.ivBytes).1.1 _ (KeyMsg.dataWrap_len hl v s kek data hiv)
      refine ⟨Nat.lt_of_le_of_lt h (by omega), ?_⟩
      subst ha
      rintro (h | h) <;> cases h
    · cases hq
  | dataUnwrap cipher kek blob =>
    have ha : a = 12 := by
      unfold encode at he; dsimp only at he
      split at he
      · cases he
      · injection he with he; injection he with h _; exact h.symm
    unfold Call.req at hq; dsimp only at hq
    split at hq
    · injection hq with hq; subst hq
      have h := KeyMsg.data_len l (Keystore.handleDataUnwrap cfg.ks v s kek blob).1.1 _ (KeyMsg.dataUnwrap_len hl v s kek blob)
      refine ⟨Nat.lt_of_le_of_lt h (by omega), ?_⟩
      subst ha
      rintro (h | h) <;> cases h
    · cases hq

theorem req_error {cfg : KeyMsg.Cfg} {e : Env} {c : Call} {rc : Rc} (h : c.req cfg e = .error rc) (e' : Env) : c.req cfg e' = .error rc := by
  cases c with
  | wrap | unwrapExport | unwrapCache | dataWrap | dataUnwrap =>
    unfold Call.req at *
    dsimp only at *
    split at h
    · cases h
    · rename_i hc; rw [if_neg hc]; exact h
  | _ => cases h

/-- The server performs the call, and the client sees its result. -/
theorem handle_call {cfg : KeyMsg.Cfg} (hp : Paired cle cfg.le magicNative m) (hl : KeyMsg.Lengths cfg) (hpub : KeyMsg.PublicFits cfg)
    {kcfg : Cfg} (hf : Fit cfg kcfg) {stale : Nat → UInt8} {c : Call} {a : UInt16} {body : List UInt8}
    (he : encode cle kcfg stale c = .ok (a, body)) (hdma : c.IsDma → cfg.dma = true) (hkw : c.cipher? ≠ none → cfg.keywrap = true)
    {e : Env} (hlock : c.cipher? ≠ none → e.lock = .ok) {s : Sys} (hw : Keystore.WF s) (v : Srv) (cap : Nat) {ci : UInt16}
    (hci : ∀ x, c.cipher? = some x → x = ci) (seq : UInt16) (junk buf : List UInt8) :
    ((decode cle cap ci a (gotOf a seq ((KeyMsg.handle cfg v e (reqOf m a seq body junk) s).1.1.bytes buf)),
      (KeyMsg.handle cfg v e (reqOf m a seq body junk) s).1.2), (KeyMsg.handle cfg v e (reqOf m a seq body junk) s).2) =
    expected cfg v e cap s c := by
  have hd := dec_call hp hf he hdma hkw e seq junk
  have zero : ∀ rc (z : UInt16), Room cfg a { rc := rc, cipher := z } :=
    fun _ _ => ⟨by show 0 < 65536; decide, fun _ => Nat.zero_le _⟩
  unfold expected
  by_cases hlk : e.lock = .ok
  · rw [if_neg (fun h => h hlk)]
    cases hq : c.req cfg e with
    | error rc =>
      rw [hq] at hd
      rw [KeyMsg.handle_late hd hlk]
      dsimp only
      refine congrArg (fun z => ((z, none), s)) ?_
      refine (reply_result hp he cap ci seq body junk buf (zero _ _) ?_).trans ?_
      · intro hn
        cases hc : c.cipher? with
        | none => exact absurd hc hn
        | some x =>
          rw [if_pos rfl, cipher_call hp he hc]
          exact hci x hc
      · cases c <;> rfl
    | ok q =>
      rw [hq] at hd
      rw [KeyMsg.handle_req hd hlk]
      dsimp only
      have hr := act_room hl hpub hf he hw v e hq (KeyMsg.labelOf cfg v q (Keystore.act cfg.ks v s q).2)
      obtain ⟨h1, h2, h3, h4⟩ := finish_call hp he v e seq junk s cap (of_write _ _) hr rfl
      rw [← h2, ← h1]
      refine congrArg (fun z => ((z, _), _)) ?_
      refine reply_result hp he cap ci seq body junk buf h3 ?_
      intro hn
      cases hc : c.cipher? with
      | none => exact absurd hc hn
      | some x => rw [h4 x hc]; exact hci x hc
  · rw [if_pos hlk]
    have hn : c.cipher? = none := by
      cases hc : c.cipher? with
      | none => rfl
      | some x => exact absurd (hlock (by rw [hc]; intro h; cases h)) hlk
    have hd' : (∃ q, KeyMsg.decode cfg e (reqOf m a seq body junk) = .req q) ∨ ∃ rc c, KeyMsg.decode cfg e (reqOf m a seq body junk) = .late rc c := by
      rw [hd]
      cases c.req cfg e with
      | ok q => exact Or.inl ⟨q, rfl⟩
      | error rc => exact Or.inr ⟨rc, true, rfl⟩
    rw [KeyMsg.handle_lock hd' hlk]
    dsimp only
    refine congrArg (fun z => ((z, none), s)) ?_
    exact reply_result hp he cap ci seq body junk buf (zero _ _) (fun h => absurd hn h)

end WolfHsm.ClientKey

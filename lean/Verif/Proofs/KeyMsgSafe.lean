import Verif.Proofs.KeyMsgHandle

/-! # Malformed and oversized key requests -/

namespace WolfHsm.KeyMsg

open Wire
open Server (Req)
open Keystore (Srv Sys)

/-! ## Only the received bytes count -/

section same

variable {r r' : Req} (hm : r'.magic = r.magic) (hs : r'.size = r.size) (hd : r'.buf.take r.size = r.buf.take r.size)
include hm hs hd

theorem sized_same {n : Nat} {k k' : Decoded} (h : n ≤ r.size → k' = k) : sized r' n k' = sized r n k := by
  unfold sized
  rw [hs]
  split
  · rfl
  · exact h (by omega)

theorem decCache_same (cfg : Cfg) : decCache cfg r' = decCache cfg r := by
  refine sized_same hm hs hd fun h => ?_
  dsimp only
  rw [hm, hs, rd32_eq hd (by omega), rd32_eq hd (by omega), rd32_eq hd (by omega), rd16_eq hd (by omega), rdBytes_eq (n := 24) hd (by omega)]
  split
  · rfl
  · rw [rdBytes_eq hd (by omega)]

theorem decCacheRandom_same (cfg : Cfg) (e : Env) : decCacheRandom cfg e r' = decCacheRandom cfg e r := by
  refine sized_same hm hs hd fun h => ?_
  rw [hm, rd32_eq hd (by omega), rd32_eq hd (by omega), rd16_eq hd (by omega), rd16_eq hd (by omega), rdBytes_eq (n := 24) hd (by omega)]

theorem decCacheDma_same (cfg : Cfg) (e : Env) : decCacheDma cfg e r' = decCacheDma cfg e r := by
  refine sized_same hm hs hd fun h => ?_
  dsimp only
  rw [hm, rd64_eq hd (by omega), rd64_eq hd (by omega), rd32_eq hd (by omega), rd32_eq hd (by omega), rd16_eq hd (by omega),
    rdBytes_eq (n := 24) hd (by omega)]

theorem decExportDma_same (cfg : Cfg) (e : Env) : decExportDma cfg e r' = decExportDma cfg e r := by
  refine sized_same hm hs hd fun h => ?_
  rw [hm, rd64_eq hd (by omega), rd64_eq hd (by omega), rd16_eq hd (by omega)]

theorem decId_same (cfg : Cfg) (f : UInt16 → Keystore.Req) : decId cfg r' f = decId cfg r f := by
  refine sized_same hm hs hd fun h => ?_
  rw [hm, rd16_eq hd (by omega)]

theorem metaAt_same (cfg : Cfg) {off : Nat} (h : off + 32 ≤ r.size) : metaAt cfg r' off = metaAt cfg r off := by
  unfold metaAt
  rw [hm, rd16_eq hd (by omega), rd16_eq hd (by omega), rd16_eq hd (by omega), rd16_eq hd (by omega), rdBytes_eq (n := 24) hd (by omega)]

theorem decWrap_same (cfg : Cfg) (e : Env) : decWrap cfg e r' = decWrap cfg e r := by
  refine sized_same hm hs hd fun h => ?_
  dsimp only
  rw [hm, hs, rd16_eq hd (by omega), rd16_eq hd (by omega), rd16_eq hd (by omega)]
  split
  · rfl
  · split
    · rfl
    · split
      · rfl
      · rw [metaAt_same hm hs hd cfg (by omega), rdBytes_eq hd (by omega)]

theorem decWrapExport_same (cfg : Cfg) (e : Env) : decWrapExport cfg e r' = decWrapExport cfg e r := by
  refine sized_same hm hs hd fun h => ?_
  rw [hm, rd16_eq hd (by omega), rd16_eq hd (by omega), rd16_eq hd (by omega), rd16_eq hd (by omega)]

theorem decUnwrap_same (cfg : Cfg) (f : UInt16 → List UInt8 → Keystore.Req) : decUnwrap cfg r' f = decUnwrap cfg r f := by
  refine sized_same hm hs hd fun h => ?_
  dsimp only
  rw [hm, hs, rd16_eq hd (by omega), rd16_eq hd (by omega), rd16_eq hd (by omega)]
  split
  · rfl
  · split
    · rfl
    · rw [rdBytes_eq hd (by omega)]

theorem decDataWrap_same (cfg : Cfg) (e : Env) : decDataWrap cfg e r' = decDataWrap cfg e r := by
  refine sized_same hm hs hd fun h => ?_
  dsimp only
  rw [hm, hs, rd32_eq hd (by omega), rd16_eq hd (by omega), rd16_eq hd (by omega)]
  split
  · rfl
  · split
    · rfl
    · split
      · rfl
      · rw [rdBytes_eq hd (by omega)]

theorem decDataUnwrap_same (cfg : Cfg) : decDataUnwrap cfg r' = decDataUnwrap cfg r := by
  refine sized_same hm hs hd fun h => ?_
  dsimp only
  rw [hm, hs, rd32_eq hd (by omega), rd16_eq hd (by omega), rd16_eq hd (by omega)]
  split
  · rfl
  · split
    · rfl
    · rw [rdBytes_eq hd (by omega)]

theorem decode_same (cfg : Cfg) (e : Env) (ha : r'.action = r.action) (h13 : r.action = 13 → 8 ≤ r.size)
    (h14 : r.action = 14 → 24 ≤ r.size) : decode cfg e r' = decode cfg e r := by
  unfold decode
  rw [ha]
  split
  · exact decCache_same hm hs hd cfg
  · exact decId_same hm hs hd cfg _
  · exact decId_same hm hs hd cfg _
  · exact decId_same hm hs hd cfg _
  · exact decId_same hm hs hd cfg _
  · exact decId_same hm hs hd cfg _
  · rw [decCacheDma_same hm hs hd cfg e]
  · rw [decExportDma_same hm hs hd cfg e]
  · rw [decWrap_same hm hs hd cfg e]
  · rw [decUnwrap_same hm hs hd cfg]
  · rw [decUnwrap_same hm hs hd cfg]
  · rw [decDataWrap_same hm hs hd cfg e]
  · rw [decDataUnwrap_same hm hs hd cfg]
  · rename_i h
    have := h13 (UInt16.toNat_inj.1 h)
    rw [hm, rd16_eq hd (by omega), rd16_eq hd (by omega)]
  · rename_i h
    have := h14 (UInt16.toNat_inj.1 h)
    rw [hm, rd16_eq hd (by omega), rd16_eq hd (by omega)]
  · exact decCacheRandom_same hm hs hd cfg e
  · rw [decWrapExport_same hm hs hd cfg e]
  · rfl

end same

/-- How many bytes the handler has looked at when it gets past the size check. -/
def need (a : Nat) : Nat :=
  match a with
  | 0 | 15 => 40
  | 6 => 56
  | 7 | 14 => 24
  | 8 => 6
  | _ => 8

theorem sized_cases {r : Req} {n : Nat} {k : Decoded} : sized r n k = .early ∨ n ≤ r.size := by
  unfold sized
  split
  · exact Or.inl rfl
  · exact Or.inr (by omega)

/-- Whatever is not refused before the lock has the size of its structure, except the exports of
public keys. -/
theorem decode_need (cfg : Cfg) (e : Env) (r : Req) (h13 : r.action = 13 → 8 ≤ r.size) (h14 : r.action = 14 → 24 ≤ r.size) :
    decode cfg e r = .unknown ∨ decode cfg e r = .early ∨ need r.action.toNat ≤ r.size := by
  unfold decode
  have s : ∀ {n : Nat} {k : Decoded}, n = need r.action.toNat →
      sized r n k = .unknown ∨ sized r n k = .early ∨ need r.action.toNat ≤ r.size := by
    intro n k hn
    rcases sized_cases (r := r) (n := n) (k := k) with h | h
    · exact Or.inr (Or.inl h)
    · exact Or.inr (Or.inr (hn ▸ h))
  have c : ∀ {b : Bool} {n : Nat} {k : Decoded}, n = need r.action.toNat →
      (if b then sized r n k else .unknown) = .unknown ∨ (if b then sized r n k else .unknown) = .early ∨ need r.action.toNat ≤ r.size := by
    intro b n k hn
    cases b
    · exact Or.inl rfl
    · exact s hn
  split <;> rename_i h
  case h_14 =>
    have := h13 (UInt16.toNat_inj.1 h)
    rw [h]; exact Or.inr (Or.inr this)
  case h_15 =>
    have := h14 (UInt16.toNat_inj.1 h)
    rw [h]; exact Or.inr (Or.inr this)
  case h_18 => exact Or.inl rfl
  all_goals first | exact s (by rw [h]; rfl) | exact c (by rw [h]; rfl)

theorem cipherOf_same (cfg : Cfg) {r r' : Req} (hm : r'.magic = r.magic) (ha : r'.action = r.action)
    (hd : r'.buf.take r.size = r.buf.take r.size) (hn : need r.action.toNat ≤ r.size) : cipherOf cfg r' = cipherOf cfg r := by
  unfold cipherOf
  rw [ha, hm]
  split
  case h_7 => rfl
  all_goals
    rename_i h
    rw [h] at hn
  · exact rd16_eq hd (show 6 ≤ r.size from hn)
  all_goals
    have hn : 8 ≤ r.size := hn
    exact rd16_eq hd (by omega)

theorem finish_same (cfg : Cfg) (v : Srv) (e : Env) {r r' : Req} (s : Sys) (x : Answer) (hm : r'.magic = r.magic) (ha : r'.action = r.action)
    (hd : r'.buf.take r.size = r.buf.take r.size) (hn : need r.action.toNat ≤ r.size) :
    finish cfg v e r' s x = finish cfg v e r s x := by
  unfold finish
  dsimp only
  rw [ha, hm, cipherOf_same cfg hm ha hd hn]
  split
  case h_4 => rfl
  all_goals
    rename_i h
    rw [h] at hn
  · have hn : 56 ≤ r.size := hn
    rw [rd64_eq hd (by omega), rd64_eq hd (by omega), rd16_eq hd (by omega)]
  · have hn : 24 ≤ r.size := hn
    rw [rd64_eq hd (by omega), rd64_eq hd (by omega)]
  · have hn : 24 ≤ r.size := hn
    rw [rd64_eq hd (by omega), rd64_eq hd (by omega)]

theorem reply_same (cfg : Cfg) {r r' : Req} (hm : r'.magic = r.magic) (ha : r'.action = r.action) (a : Answer) :
    reply cfg r' a = reply cfg r a := by
  unfold reply
  rw [hm, ha]

theorem handle_same (cfg : Cfg) (v : Srv) (e : Env) {r r' : Req} (s : Sys) (hm : r'.magic = r.magic) (ha : r'.action = r.action)
    (hs : r'.size = r.size) (hd : r'.buf.take r.size = r.buf.take r.size) (h13 : r.action = 13 → 8 ≤ r.size)
    (h14 : r.action = 14 → 24 ≤ r.size) : handle cfg v e r' s = handle cfg v e r s := by
  have hdat : r'.data = r.data := by unfold Req.data; rw [hs]; exact hd
  have hser : serve cfg v e r' s = serve cfg v e r s := by
    unfold serve
    rw [decode_same hm hs hd cfg e ha h13 h14]
    rcases decode_need cfg e r h13 h14 with h | h | h
    · rw [h]
    · rw [h]
    · split
      · rfl
      · rfl
      · rw [cipherOf_same cfg hm ha hd h]
      · dsimp only
        rw [finish_same cfg v e s _ hm ha hd h]
  unfold handle
  rw [hser, hdat]
  split
  · rfl
  · rw [reply_same cfg hm ha]

/-! ## Responses fit -/

theorem bytes_len {p : Reply} (h : p.fields.length ≤ p.size) (buf : List UInt8) : (p.bytes buf).length = p.size + p.tail.length := by
  unfold Reply.bytes
  rw [List.length_append, over_length h]

theorem reply_head (cfg : Cfg) (r : Req) (a : Answer) : (reply cfg r a).fields.length ≤ (reply cfg r a).size := by
  unfold reply
  dsimp only
  split <;> simp only [List.length_append, w16_length, w32_length, w64_length, Vector.length_toList] <;> omega

/-- Space behind the structure of a response. -/
def space (cfg : Cfg) (a : Nat) : Nat :=
  match a with
  | 8 | 16 => cfg.ks.commLen - 8
  | 9 => cfg.ks.commLen - 40
  | _ => cfg.ks.commLen - 12

theorem reply_fits (cfg : Cfg) (h52 : 52 ≤ cfg.ks.commLen) (r : Req) (a : Answer) (buf : List UInt8)
    (hb : (r.action.toNat = 8 ∨ r.action.toNat = 16 ∨ r.action.toNat = 9 ∨ r.action.toNat = 11 ∨ r.action.toNat = 12) →
      a.bytes.length ≤ space cfg r.action.toNat) (h17 : r.action.toNat < 17) :
    ((reply cfg r a).bytes buf).length ≤ cfg.ks.commLen := by
  rw [bytes_len (reply_head cfg r a)]
  unfold reply
  dsimp only
  generalize r.action.toNat = n at *
  have hn : n = 0 ∨ n = 1 ∨ n = 2 ∨ n = 3 ∨ n = 4 ∨ n = 5 ∨ n = 6 ∨ n = 7 ∨ n = 8 ∨ n = 9 ∨ n = 10 ∨ n = 11 ∨ n = 12 ∨ n = 13 ∨ n = 14 ∨
    n = 15 ∨ n = 16 := by omega
  rcases hn with h | h | h | h | h | h | h | h | h | h | h | h | h | h | h | h | h <;> subst h
  · show 12 + 0 ≤ _; omega
  · show 12 + 0 ≤ _; omega
  · show 36 + (a.bytes.take _).length ≤ _; rw [List.length_take]; omega
  · show 12 + 0 ≤ _; omega
  · show 12 + 0 ≤ _; omega
  · show 8 + 0 ≤ _; omega
  · show 24 + 0 ≤ _; omega
  · show 48 + 0 ≤ _; omega
  · have h : a.bytes.length ≤ cfg.ks.commLen - 8 := hb (by decide)
    show 8 + a.bytes.length ≤ _; omega
  · have h : a.bytes.length ≤ cfg.ks.commLen - 40 := hb (by decide)
    show 8 + (w16 cfg.le r.magic a.md.id ++ (_ ++ (_ ++ (_ ++ (_ ++ a.bytes))))).length ≤ _
    simp only [List.length_append, w16_length, Vector.length_toList]
    omega
  · show 8 + 0 ≤ _; omega
  · have h : a.bytes.length ≤ cfg.ks.commLen - 12 := hb (by decide)
    show 12 + a.bytes.length ≤ _; omega
  · have h : a.bytes.length ≤ cfg.ks.commLen - 12 := hb (by decide)
    show 12 + a.bytes.length ≤ _; omega
  · show 36 + (a.bytes.take _).length ≤ _; rw [List.length_take]; omega
  · show 48 + 0 ≤ _; omega
  · show 12 + 0 ≤ _; omega
  · have h : a.bytes.length ≤ cfg.ks.commLen - 8 := hb (by decide)
    show 8 + a.bytes.length ≤ _; omega

theorem finish_bytes (cfg : Cfg) (v : Srv) (e : Env) (r : Req) (s : Sys) (x : Answer)
    (h : r.action.toNat = 8 ∨ r.action.toNat = 16 ∨ r.action.toNat = 9 ∨ r.action.toNat = 11 ∨ r.action.toNat = 12) :
    (finish cfg v e r s x).bytes = x.bytes := by
  unfold finish
  dsimp only
  split
  all_goals first | rfl | omega

theorem req_space {cfg : Cfg} (hl : Lengths cfg) (h52 : 52 ≤ cfg.ks.commLen) (v : Srv) (e : Env) (r : Req) (s : Sys)
    {q : Keystore.Req} (hq : decode cfg e r = .req q)
    (h : r.action.toNat = 8 ∨ r.action.toNat = 16 ∨ r.action.toNat = 9 ∨ r.action.toNat = 11 ∨ r.action.toNat = 12) (l : Vector UInt8 24) :
    (Answer.of l (Keystore.act cfg.ks v s q).1).bytes.length ≤ space cfg r.action.toNat := by
  have hiv := iv_len e
  have hsz : ∀ {n : Nat} {k : Decoded}, sized r n k = .req q → k = .req q := by
    intro n k hk
    unfold sized at hk
    split at hk
    · cases hk
    · exact hk
  have hite : ∀ {k : Decoded}, (if cfg.keywrap then k else .unknown) = .req q → k = .req q := by
    intro k hk
    split at hk
    · exact hk
    · cases hk
  unfold decode at hq
  rcases h with h | h | h | h | h <;> rw [h] at hq ⊢
  · have hq := hsz (hite hq)
    dsimp only at hq
    split at hq
    · cases hq
    · split at hq
      · cases hq
      · split at hq
        · cases hq
        · injection hq with hq; subst hq
          exact wrapped_len l _ _ (wrap_len hl v s _ _ _ hiv)
  · have hq := hsz (hite hq)
    injection hq with hq; subst hq
    exact wrapped_len l _ _ (wrapExport_len hl v s _ _ _ _ hiv)
  · have hq := hsz (hite hq)
    dsimp only at hq
    split at hq
    · cases hq
    · split at hq
      · cases hq
      · injection hq with hq; subst hq
        exact unwrapped_len l (fun rc md bs h => unwrapExport_len (by omega) v s _ _ h)
  · have hq := hsz (hite hq)
    dsimp only at hq
    split at hq
    · cases hq
    · split at hq
      · cases hq
      · split at hq
        · cases hq
        · injection hq with hq; subst hq
          exact wrapped_len l _ _ (dataWrap_len hl v s _ _ hiv)
  · have hq := hsz (hite hq)
    dsimp only at hq
    split at hq
    · cases hq
    · split at hq
      · cases hq
      · injection hq with hq; subst hq
        exact data_len l _ _ (dataUnwrap_len hl v s _ _)

theorem known (cfg : Cfg) (e : Env) (r : Req) : decode cfg e r = .unknown ∨ r.action.toNat < 17 := by
  by_cases h : r.action.toNat < 17
  · exact Or.inr h
  · left
    unfold decode
    split
    case h_18 => rfl
    all_goals omega

theorem handle_fits {cfg : Cfg} (hl : Lengths cfg) (h52 : 52 ≤ cfg.ks.commLen) (v : Srv) (e : Env) (r : Req)
    (hr : r.size ≤ cfg.ks.commLen) (s : Sys) (buf : List UInt8) : ((handle cfg v e r s).1.1.bytes buf).length ≤ cfg.ks.commLen := by
  have hz : ∀ rc z, ((reply cfg r { rc := rc, cipher := z }).bytes buf).length ≤ cfg.ks.commLen ∨ decode cfg e r = .unknown := by
    intro rc z
    rcases known cfg e r with h | h
    · exact Or.inr h
    · exact Or.inl (reply_fits cfg h52 r _ buf (fun _ => Nat.zero_le _) h)
  unfold handle serve
  cases hd : decode cfg e r with
  | unknown =>
    show (Reply.bytes ⟨[], 0, r.data⟩ buf).length ≤ _
    rw [bytes_len (Nat.le_refl _)]
    show 0 + (r.buf.take r.size).length ≤ _
    rw [List.length_take]
    omega
  | early => exact (hz .badargs 0).resolve_right (by rw [hd]; intro h; cases h)
  | late rc c =>
    dsimp only
    by_cases hk : e.lock = .ok
    · rw [if_pos hk]
      exact (hz rc _).resolve_right (by rw [hd]; intro h; cases h)
    · rw [if_neg hk]
      exact (hz e.lock 0).resolve_right (by rw [hd]; intro h; cases h)
  | req q =>
    dsimp only
    by_cases hk : e.lock = .ok
    · rw [if_pos hk, hk, handle_ok]
      refine reply_fits cfg h52 r _ buf ?_ ((known cfg e r).resolve_left (by rw [hd]; intro h; cases h))
      intro h
      rw [finish_bytes cfg v e r s _ h]
      exact req_space hl h52 v e r s hd h _
    · rw [if_neg hk]
      exact (hz e.lock 0).resolve_right (by rw [hd]; intro h; cases h)

/-! ## Effects -/

theorem handle_state (cfg : Cfg) (v : Srv) (e : Env) (r : Req) (s : Sys) :
    (handle cfg v e r s).2 = s ∨ ∃ q, (handle cfg v e r s).2 = (Keystore.handle cfg.ks v s e.lock q).2 := by
  unfold handle serve
  cases decode cfg e r with
  | unknown => exact Or.inl rfl
  | early => exact Or.inl rfl
  | late rc c => left; dsimp only; by_cases hk : e.lock = .ok <;> [rw [if_pos hk]; rw [if_neg hk]]
  | req q => right; refine ⟨q, ?_⟩; dsimp only; by_cases hk : e.lock = .ok <;> [rw [if_pos hk]; rw [if_neg hk]]

end WolfHsm.KeyMsg

namespace WolfHsm.ClientKey

open Utils (bytes16 bytes32 bytes64 magicNative)
open Wire

theorem encode_fits {cle : Bool} {kcfg : Cfg} {stale : Nat → UInt8} (h : 56 ≤ kcfg.dataLen) {c : Call} {a : UInt16} {body : List UInt8}
    (he : encode cle kcfg stale c = .ok (a, body)) : body.length ≤ kcfg.dataLen ∧ a.toNat < 17 := by
  have l16 := fun v => Wire.bytes16_len cle v
  have l32 := fun v => Wire.bytes32_len cle v
  have l64 := fun v => Wire.bytes64_len cle v
  have idl : ∀ {action id}, action.toNat < 17 → idReq cle stale action id = .ok (a, body) → body.length ≤ kcfg.dataLen ∧ a.toNat < 17 := by
    intro action id hac he
    unfold idReq at he
    split at he
    · cases he
    · injection he with he; injection he with h1 h2; subst h1; subst h2
      rw [List.length_append, l16, pad_length]
      exact ⟨by omega, hac⟩
  cases c with
  | evict id => exact idl (by decide) he
  | exportKey id => exact idl (by decide) he
  | commit id => exact idl (by decide) he
  | erase id => exact idl (by decide) he
  | revoke id => exact idl (by decide) he
  | cacheDma id flags label addr sz =>
    injection he with he; injection he with h1 h2; subst h1; subst h2
    simp only [List.length_append, l16, l32, l64, labelField_length, List.length_cons, List.length_nil]
    exact ⟨by omega, by decide⟩
  | wrapExport cipher id type kek =>
    injection he with he; injection he with h1 h2; subst h1; subst h2
    simp only [List.length_append, l16]
    exact ⟨by omega, by decide⟩
  | _ =>
    unfold encode at he; dsimp only at he
    split at he
    · cases he
    · injection he with he; injection he with h1 h2; subst h1; subst h2
      simp only [List.length_append, l16, l32, l64, labelField_length, metaBytes_length, pad_length, List.length_cons, List.length_nil]
      exact ⟨by omega, by decide⟩

theorem kind_ok {a : UInt16} (h : a.toNat < 17) : Server.groupOf (0x0300 ||| a) = 0x0300 ∧ Server.actionOf (0x0300 ||| a) = a := by
  have hn : a.toNat = 0 ∨ a.toNat = 1 ∨ a.toNat = 2 ∨ a.toNat = 3 ∨ a.toNat = 4 ∨ a.toNat = 5 ∨ a.toNat = 6 ∨ a.toNat = 7 ∨ a.toNat = 8 ∨
    a.toNat = 9 ∨ a.toNat = 10 ∨ a.toNat = 11 ∨ a.toNat = 12 ∨ a.toNat = 13 ∨ a.toNat = 14 ∨ a.toNat = 15 ∨ a.toNat = 16 := by omega
  have conv : ∀ b : UInt16, a.toNat = b.toNat → a = b := fun b hb => UInt16.toNat_inj.1 hb
  rcases hn with h | h | h | h | h | h | h | h | h | h | h | h | h | h | h | h | h
  · rw [conv 0 h]; decide
  · rw [conv 1 h]; decide
  · rw [conv 2 h]; decide
  · rw [conv 3 h]; decide
  · rw [conv 4 h]; decide
  · rw [conv 5 h]; decide
  · rw [conv 6 h]; decide
  · rw [conv 7 h]; decide
  · rw [conv 8 h]; decide
  · rw [conv 9 h]; decide
  · rw [conv 10 h]; decide
  · rw [conv 11 h]; decide
  · rw [conv 12 h]; decide
  · rw [conv 13 h]; decide
  · rw [conv 14 h]; decide
  · rw [conv 15 h]; decide
  · rw [conv 16 h]; decide

theorem refusal_len {R : Type} (cfg : Server.Cfg R) (r : Server.Req) : (Server.refusal cfg 0x0300 r).length = 4 := by
  unfold Server.refusal
  dsimp only
  rw [if_neg (by decide), if_neg (by decide), if_neg (fun h => absurd h.1 (by decide))]
  exact w32_length ..

/-- Any response of four bytes makes a key call return ABORTED. -/
theorem dec_refusal (cle : Bool) (cap : Nat) (ci : UInt16) {a : UInt16} (_h : a.toNat < 17) (seq : UInt16) (b : List UInt8) (hb : b.length = 4) :
    decode cle cap ci a ⟨.ok, magicNative, 0x0300 ||| a, seq, b⟩ = .err .aborted := by
  unfold decode
  dsimp only
  split
  all_goals first
    | exact if_pos (by omega)
    | exact (if_neg (by omega)).trans (if_pos (by omega))
    | exact if_pos (Or.inr (by omega))
    | exact if_pos (Or.inr (Or.inl (by omega)))

end WolfHsm.ClientKey

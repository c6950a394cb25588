import Verif.Proofs.KeystoreHandle

/-!
# The behaviour of the medium is not changed by requests
-/

namespace WolfHsm.Keystore

open NvmFlash (Meta Store withLen)

theorem _root_.WolfHsm.Nvm.add_outs (n : Nvm) (md : Meta) (d : List UInt8) :
    (n.add md d).2.outs = n.outs := by
  unfold Nvm.add; split
  · split <;> rfl
  · rfl

theorem _root_.WolfHsm.Nvm.destroy_outs (n : Nvm) (ids : List UInt16) :
    (n.destroy ids).2.outs = n.outs := by
  unfold Nvm.destroy; split
  · split
    · split <;> rfl
    all_goals rfl
  · rfl

theorem _root_.WolfHsm.Nvm.read_outs (n : Nvm) (i : UInt16) (o l : Nat) :
    (n.read i o l).2.outs = n.outs := by
  unfold Nvm.read; split
  · split <;> rfl
  · rfl

theorem _root_.WolfHsm.Nvm.addWithReclaim_outs (n : Nvm) (md : Meta) (d : List UInt8) :
    (n.addWithReclaim md d).2.outs = n.outs := by
  have h := n.destroy_outs []
  unfold Nvm.addWithReclaim
  split
  · rename_i e; rw [e] at h; rw [Nvm.add_outs]; exact h
  · rename_i e; rw [e] at h; exact h

theorem _root_.WolfHsm.Nvm.destroyChecked_outs (n : Nvm) (ids : List UInt16) :
    (n.destroyChecked ids).2.outs = n.outs := by
  unfold Nvm.destroyChecked; split
  · exact Nvm.destroy_outs _ _
  · rfl

theorem _root_.WolfHsm.Nvm.addChecked_outs (n : Nvm) (a b : Meta) (d : List UInt8) :
    (n.addChecked a b d).2.outs = n.outs := by
  unfold Nvm.addChecked
  dsimp only
  split
  · exact Nvm.add_outs _ _ _
  · rfl

theorem _root_.WolfHsm.Nvm.restart_outs (n : Nvm) (b : Bool) : (n.restart b).outs = n.outs := by
  unfold Nvm.restart; split <;> rfl

theorem nvm_handle_outs (cfg : NvmServer.Cfg) (n : Nvm) (lock : Rc) (r : NvmServer.Req) :
    (NvmServer.handle cfg n lock r).2.outs = n.outs := by
  refine NvmServer.handle_cases cfg n lock r (P := fun m => m.outs = n.outs) rfl ?_ ?_ ?_
  · intro a b d _; exact Nvm.addChecked_outs _ _ _ _
  · intro ids _; exact Nvm.destroyChecked_outs _ _
  · intro a b c; exact Nvm.read_outs _ _ _ _

theorem reserveIn_nvm (cfg : Cfg) (x : Nat) (s : Sys) (id : UInt16) (sz : Nat) :
    (reserveIn cfg x s id sz).2.2.nvm = s.nvm := by
  unfold reserveIn; split <;> simp [setCache_nvm]

theorem evictKey_nvm (cfg : Cfg) (x : Nat) (s : Sys) (id : UInt16) :
    (evictKey cfg x s id).2.nvm = s.nvm := by
  unfold evictKey
  repeat' split
  all_goals simp [setCache_nvm]

theorem getSlot_nvm (cfg : Cfg) (x : Nat) (s : Sys) (id : UInt16) (sz : Nat) :
    (getSlot cfg x s id sz).2.2.nvm = s.nvm := by
  have he := evictKey_nvm cfg x s id
  unfold getSlot
  split
  · rfl
  · split
    · rfl
    · split
      · split
        · rename_i e; rw [e] at he; rw [reserveIn_nvm]; exact he
        · rename_i e; rw [e] at he; exact he
      · exact reserveIn_nvm _ _ _ _ _

theorem getSlotChecked_nvm (cfg : Cfg) (x : Nat) (s : Sys) (id : UInt16) (sz : Nat) :
    (getSlotChecked cfg x s id sz).2.2.nvm = s.nvm := by
  unfold getSlotChecked
  dsimp only
  split
  · exact getSlot_nvm _ _ _ _ _
  · rfl

theorem fill_nvm (cfg : Cfg) (x : Nat) (s : Sys) (loc : Loc) (md : Meta) (d : List UInt8) :
    (fill cfg x s loc md d).nvm = s.nvm := setCache_nvm _ _ _ _ _

theorem cacheKey_nvm (cfg : Cfg) (x : Nat) (s : Sys) (c : Bool) (md : Meta) (d : List UInt8) :
    (cacheKey cfg x s c md d).2.nvm = s.nvm := by
  have h : (if c then getSlotChecked cfg x s md.id md.len.toNat
           else getSlot cfg x s md.id md.len.toNat).2.2.nvm = s.nvm := by
    split
    · exact getSlotChecked_nvm _ _ _ _ _
    · exact getSlot_nvm _ _ _ _ _
  unfold cacheKey
  split
  · rfl
  · split
    · rfl
    · split
      · rfl
      · split
        · rfl
        · split
          · rename_i e; rw [e] at h; rw [fill_nvm]; exact h
          · rename_i e; rw [e] at h; exact h

theorem cacheRandomKey_nvm (cfg : Cfg) (x : Nat) (s : Sys) (md : Meta) (rng) :
    (cacheRandomKey cfg x s md rng).2.nvm = s.nvm := by
  have h := getSlotChecked_nvm cfg x s md.id md.len.toNat
  unfold cacheRandomKey
  split
  · rfl
  · split
    · rfl
    · split
      · rfl
      · split
        · rename_i e
          rw [e] at h
          split
          · rw [fill_nvm]; exact h
          · exact h
        · rename_i e; rw [e] at h; exact h

theorem cacheKeyDma_nvm (cfg : Cfg) (x : Nat) (s : Sys) (md : Meta) (dma mem) :
    (cacheKeyDma cfg x s md dma mem).2.nvm = s.nvm := by
  have h := getSlotChecked_nvm cfg x s md.id md.len.toNat
  unfold cacheKeyDma
  split
  · rename_i e
    rw [e] at h
    dsimp only
    split
    · split
      · exact h
      · rw [fill_nvm]; exact h
    · exact h
  · rename_i e; rw [e] at h; exact h

theorem importKey_nvm (cfg : Cfg) (x : Nat) (s : Sys) (md : Meta) (cap der) :
    (importKey cfg x s md cap der).2.nvm = s.nvm := by
  have h := getSlotChecked_nvm cfg x s md.id cap.toNat
  unfold importKey
  split
  · rfl
  · split
    · rename_i e
      rw [e] at h
      split
      · split
        · exact h
        · rw [fill_nvm]; exact h
      · exact h
    · rename_i e; rw [e] at h; exact h

theorem readKey_outs (cfg : Cfg) (x : Nat) (s : Sys) (id : UInt16) (outSz : Nat) :
    (readKey cfg x s id outSz).2.nvm.outs = s.nvm.outs := by
  unfold readKey
  split
  · rfl
  · split
    · rfl
    · split
      · split <;> rfl
      · split
        · rfl
        · split
          · split
            · rfl
            · rename_i md _ _
              have h := Nvm.read_outs s.nvm id 0 md.len.toNat
              split
              · rename_i bs n e
                rw [e] at h
                dsimp only
                split
                · exact h
                · have hc := cacheKey_nvm cfg x { s with nvm := n } false md bs
                  split
                  · rename_i e2
                    rw [e2] at hc
                    rw [setCache_nvm]
                    exact (congrArg Nvm.outs hc).trans h
                  · rename_i e2
                    rw [e2] at hc
                    exact (congrArg Nvm.outs hc).trans h
              · rename_i e; rw [e] at h; exact h
          · rfl

theorem readKeyChecked_outs (cfg : Cfg) (x : Nat) (s : Sys) (id : UInt16) (outSz : Nat) :
    (readKeyChecked cfg x s id outSz).2.nvm.outs = s.nvm.outs := by
  unfold readKeyChecked; split
  · exact readKey_outs _ _ _ _ _
  · rfl

theorem commitKeyChecked_outs (cfg : Cfg) (x : Nat) (s : Sys) (id : UInt16) :
    (commitKeyChecked cfg x s id).2.nvm.outs = s.nvm.outs := by
  unfold commitKeyChecked; split
  · unfold commitKey
    split
    · rfl
    · split
      · rfl
      · split
        · rfl
        · split
          · rfl
          · rename_i k _
            have h := Nvm.addWithReclaim_outs s.nvm k.md k.data
            split
            · rename_i e; rw [e] at h; dsimp only; rw [setCache_nvm]; exact h
            · rename_i e; rw [e] at h; exact h
  · rfl

theorem eraseKeyChecked_outs (cfg : Cfg) (x : Nat) (s : Sys) (id : UInt16) :
    (eraseKeyChecked cfg x s id).2.nvm.outs = s.nvm.outs := by
  have h := evictKeyChecked_nvm cfg x s id
  unfold eraseKeyChecked
  split
  · rfl
  · split
    · rfl
    · split
      · rfl
      · dsimp only
        split
        · dsimp only; rw [Nvm.destroyChecked_outs, h]
        · rw [h]

theorem revokeKey_outs (cfg : Cfg) (x : Nat) (s : Sys) (id : UInt16) :
    (revokeKey cfg x s id).2.nvm.outs = s.nvm.outs := by
  have hf := freshen_nvm (cfg := cfg) (x := x) (s := s) id
  have hgo : ∀ b, (revokeKey.go cfg x s id b).2.nvm.outs = s.nvm.outs := by
    intro b
    unfold revokeKey.go
    split
    · rename_i k s' e
      rw [e] at hf
      split
      · exact hf
      · dsimp only
        split
        · have h := Nvm.addWithReclaim_outs (setCache cfg x s' id
            ((cacheOf cfg x s' id).update id fun k => some { k with md := revokeMeta k.md })).nvm
              (revokeMeta k.md) k.data
          rw [setCache_nvm] at h
          split
          · rename_i e2
            rw [setCache_nvm] at e2
            rw [e2] at h
            rw [setCache_nvm]
            exact h.trans hf
          · rename_i e2
            rw [setCache_nvm] at e2
            rw [e2] at h
            exact h.trans hf
        · rw [setCache_nvm]; exact hf
    · rename_i e
      rw [e] at hf
      exact hf
  unfold revokeKey
  split
  · rfl
  · split
    · split
      · exact hgo _
      · exact hgo _
      · rfl
    · rfl

theorem resolveKek_outs (cfg : Cfg) (x : Nat) (s : Sys) (id : UInt16) (t : Bool) :
    (resolveKek cfg x s id t).2.nvm.outs = s.nvm.outs := by
  have hf := freshen_nvm (cfg := cfg) (x := x) (s := s) id
  unfold resolveKek
  split
  · rfl
  · split
    · rename_i e
      rw [e] at hf
      split
      · split <;> exact hf
      · exact hf
    · rename_i e
      rw [e] at hf
      exact hf

theorem withId_outs (cfg : Cfg) (x : Nat) (s : Sys) (u : Bool) (md : Meta)
    (k : Meta → Rc × Sys) (h : ∀ md, (k md).2.nvm.outs = s.nvm.outs) :
    (withId cfg x s u md k).2.nvm.outs = s.nvm.outs := by
  rcases withId_state cfg x s u md k with e | ⟨_, id, _, e⟩ | ⟨_, e⟩
  · rw [e]
  · rw [e]; exact h _
  · rw [e]; exact h _

/-- No key request changes how the medium will behave. -/
theorem handle_outs (cfg : Cfg) (v : Srv) (s : Sys) (lock : Rc) (r : Req) :
    (handle cfg v s lock r).2.nvm.outs = s.nvm.outs := by
  rcases handle_or cfg v s lock r with ⟨_, _, e⟩ | ⟨rc, _, e⟩
  case inr => rw [e]
  rw [e]
  have hk : ∀ kekId t, (resolveKek cfg v.ctx s
      (KeyId.fromClient cfg.ids KeyId.typeCrypto v.client kekId) t).2.nvm.outs = s.nvm.outs :=
    fun kekId t => resolveKek_outs _ _ _ _ _
  have hu : ∀ kekId t blob, (unwrapKey cfg v s kekId t blob).2.nvm.outs = s.nvm.outs := by
    intro kekId t blob
    rcases unwrapKey_or (cfg := cfg) (v := v) (s := s) kekId t blob with ⟨kek, pt, _, _, e⟩ | ⟨rc, _, e⟩
    · rw [e]; exact hk _ _
    · rw [e]; exact hk _ _
  unfold act
  cases r with
  | cache id flags label key =>
    dsimp only
    unfold handleCache
    split
    · rfl
    · exact withId_outs _ _ _ _ _ _ (fun md => by rw [cacheKey_nvm])
  | cacheRandom id flags label sz rng =>
    exact withId_outs _ _ _ _ _ _ (fun md => by rw [cacheRandomKey_nvm])
  | cacheDma id flags label sz dma mem =>
    exact withId_outs _ _ _ _ _ _ (fun md => by rw [cacheKeyDma_nvm])
  | exportKey id => exact readKeyChecked_outs _ _ _ _ _
  | exportDma id sz dma =>
    dsimp only
    unfold exportKeyDma
    have hf := freshen_nvm (cfg := cfg) (x := v.ctx) (s := s)
      (KeyId.fromClient cfg.ids KeyId.typeCrypto v.client id)
    split
    · split
      · rename_i e
        rw [e] at hf
        split
        · exact hf
        · split <;> exact hf
      · rename_i e
        rw [e] at hf
        exact hf
    · rfl
  | exportPublic id algo =>
    dsimp only
    unfold handleExportPublic
    have hf := freshen_nvm (cfg := cfg) (x := v.ctx) (s := s)
      (KeyId.fromClient cfg.ids KeyId.typeCrypto v.client id)
    split
    · split
      · rename_i e; rw [e] at hf; exact hf
      · rename_i e; rw [e] at hf; exact hf
    · rfl
  | evict id => exact congrArg Nvm.outs (evictKeyChecked_nvm _ _ _ _)
  | commit id => exact commitKeyChecked_outs _ _ _ _
  | erase id => exact eraseKeyChecked_outs _ _ _ _
  | revoke id => exact revokeKey_outs _ _ _ _
  | wrap kekId md key iv =>
    have hk := hk kekId false
    dsimp only
    unfold handleWrap
    split
    · rfl
    · split
      · rfl
      · split
        · rfl
        · split
          · rename_i e; rw [e] at hk; exact hk
          · rename_i e; rw [e] at hk; exact hk
  | wrapExport gcm kekId keyType keyId iv =>
    dsimp only
    unfold handleWrapExport
    split
    · rfl
    · rename_i t ht
      have hrd := readKeyChecked_outs cfg v.ctx s t cfg.maxWrapKey
      split
      · rename_i md key s' e
        rw [e] at hrd
        split
        · exact hrd
        · rename_i _
          have hk := resolveKek_outs cfg v.ctx s'
            (KeyId.fromClient cfg.ids KeyId.typeCrypto v.client kekId) true
          split
          · rename_i e; rw [e] at hk; exact hk.trans hrd
          · rename_i e; rw [e] at hk; exact hk.trans hrd
      · rename_i e
        rw [e] at hrd
        exact hrd
  | unwrapExport kekId blob =>
    have hu := hu kekId false blob
    dsimp only
    unfold handleUnwrapExport
    split
    · rfl
    · split
      · rfl
      · split
        · rename_i e
          rw [e] at hu
          split
          · exact hu
          · split
            · exact hu
            · split
              · exact hu
              · split <;> exact hu
        · rename_i e
          rw [e] at hu
          exact hu
  | unwrapCache kekId blob =>
    have hu := hu kekId true blob
    dsimp only
    unfold handleUnwrapCache
    split
    · rfl
    · split
      · rename_i e
        rw [e] at hu
        split
        · dsimp only; rw [cacheKey_nvm]; exact hu
        · exact hu
      · rename_i e
        rw [e] at hu
        exact hu
  | dataWrap kekId data iv =>
    have hk := hk kekId false
    dsimp only
    unfold handleDataWrap
    split
    · rfl
    · split
      · rfl
      · split
        · rename_i e; rw [e] at hk; exact hk
        · rename_i e; rw [e] at hk; exact hk
  | dataUnwrap kekId blob =>
    have hk := hk kekId false
    dsimp only
    unfold handleDataUnwrap
    split
    · rfl
    · split
      · rfl
      · split
        · rename_i e
          rw [e] at hk
          split <;> exact hk
        · rename_i e; rw [e] at hk; exact hk
  | malformed => rfl
  | useKey id required outSz =>
    dsimp only
    rcases readKeyEnforce_state (cfg := cfg) (x := v.ctx) (s := s) (lock := .ok)
      (KeyId.fromClient cfg.ids KeyId.typeCrypto v.client id) required outSz with e | e
    · rw [e]
    · rw [e]; exact readKey_outs _ _ _ _ _
  | importKey id flags label cap der =>
    exact withId_outs _ _ _ _ _ _ (fun md => by rw [importKey_nvm])
  | loadKey id required =>
    dsimp only
    rw [loadKey_state, freshen_nvm]
  | evictOption id =>
    dsimp only
    split
    · rfl
    · rw [evictKey_nvm]

theorem step_outs (cfg : Cfg) (ncfg : NvmServer.Cfg) (s : Sys) (e : Ev) :
    (step cfg ncfg s e).2.nvm.outs = s.nvm.outs := by
  unfold step
  cases e with
  | key v lock r =>
    dsimp only
    split
    · exact handle_outs _ _ _ _ _
    · rfl
  | nvm lock r =>
    dsimp only
    split
    · exact nvm_handle_outs _ _ _ _
    · rfl
  | restart b => exact Nvm.restart_outs _ _

end WolfHsm.Keystore

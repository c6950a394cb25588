import Verif.Spec.ClientStream
import Verif.Props.KeystoreSecret

/-!
# The key under an id (C64)
-/

namespace WolfHsm.ClientStream

open Keystore
open NvmFlash (Meta)

variable {ks : Keystore.Cfg} {s : Sys} {v : Srv} {rid : UInt16} {md : Meta} {K : List UInt8}

/-- A lookup gives the key the client sees. -/
theorem gives_view (hw : WF s) (hc : v.client < 16) (hview : view ks v.ctx s (ownId ks v rid) = some (md, K)) :
    Gives ks v s rid K := by
  intro lock required b h
  rcases handle_or ks v s lock (.useKey rid required 32) with ⟨_, _, e⟩ | ⟨rc, hrc, e⟩
  · rw [e] at h
    change Crypto.loaded (.usable (readKeyEnforce ks v.ctx s .ok (ownId ks v rid) required 32).1.1
      (readKeyEnforce ks v.ctx s .ok (ownId ks v rid) required 32).1.2) = _ at h
    unfold readKeyEnforce at h
    dsimp only at h
    rcases hr : readKey ks v.ctx s (ownId ks v rid) 32 with ⟨⟨rc', o⟩, s'⟩
    rw [hr] at h
    by_cases hok : rc' = .ok
    · subst hok
      rcases o with _ | ⟨md', bs⟩
      · cases h
      · have hv := Props.readKey_view (md := md') (bs := bs) hw (Props.own_not_she ks hc rid) (by rw [hr])
        rw [hview] at hv
        dsimp only at h
        cases hu : enforceUsage md'.flags required <;> rw [hu] at h <;> cases h
        cases hv
        rfl
    · cases rc' <;> first | exact absurd rfl hok | cases h
  · rw [e] at h
    cases rc <;> first | exact absurd rfl hrc | cases h

/-- A lookup changes nothing for the client. -/
theorem useKey_keeps (hw : WF s) (lock : Rc) (required : UInt16)
    (hview : view ks v.ctx s (ownId ks v rid) = some (md, K)) :
    WF (handle ks v s lock (.useKey rid required 32)).2 ∧
      view ks v.ctx (handle ks v s lock (.useKey rid required 32)).2 (ownId ks v rid) = some (md, K) := by
  rcases handle_or ks v s lock (.useKey rid required 32) with ⟨_, _, e⟩ | ⟨rc, hrc, e⟩
  · rw [e]
    change WF (readKeyEnforce ks v.ctx s .ok (ownId ks v rid) required 32).2 ∧
      view ks v.ctx (readKeyEnforce ks v.ctx s .ok (ownId ks v rid) required 32).2 (ownId ks v rid) = _
    have h2 : (readKeyEnforce ks v.ctx s .ok (ownId ks v rid) required 32).2 = (readKey ks v.ctx s (ownId ks v rid) 32).2 := by
      unfold readKeyEnforce
      dsimp only
      rcases readKey ks v.ctx s (ownId ks v rid) 32 with ⟨⟨rc', o⟩, s'⟩
      by_cases hok : rc' = .ok
      · subst hok
        rcases o with _ | ⟨md', bs⟩
        · rfl
        · dsimp only
          cases enforceUsage md'.flags required <;> rfl
      · cases rc' <;> first | exact absurd rfl hok | rfl
    rw [h2]
    have idle : ∀ s', Idle ks v.ctx (ownId ks v rid) s s' → WF s' ∧ view ks v.ctx s' (ownId ks v rid) = some (md, K) := by
      intro s' hi
      refine ⟨(hi.tr (F := Par.any)).wf hw, ?_⟩
      rw [← hview]
      unfold view
      rw [hi.entry, hi.store]
    refine readKey_cases (P := fun r => WF r.2 ∧ view ks v.ctx r.2 (ownId ks v rid) = some (md, K)) hw ?_ ?_ ?_ ?_ ?_
    · intro k _ _; exact ⟨hw, hview⟩
    · intro md' bs s' _ _ hl
      refine ⟨(hl.tr (F := Par.any)).wf hw, ?_⟩
      rw [← hview]
      unfold view
      rw [hl.entry, hl.before, hl.stored]
    · intro _ _ s' _ _ _ _ hi; exact idle s' hi
    · intro s' _ _ _ _ hi; exact idle s' hi
    · intro _ s' _ hi; exact idle s' hi
  · rw [e]; exact ⟨hw, hview⟩

end WolfHsm.ClientStream

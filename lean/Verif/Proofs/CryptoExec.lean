import Verif.Proofs.CryptoMsg
import Verif.Spec.Crypto

/-!
# A handler run on one packet is an execution in the sense of `Spec/Crypto.lean`
-/

namespace WolfHsm.CryptoMsg

open Crypto (Prog Resp Exec)
open Keystore (Srv Sys Ev step run)

theorem exec_is_exec (ks : Keystore.Cfg) (ncfg : NvmServer.Cfg) (v : Srv) (locks : Nat → Rc) :
    ∀ (p : Prog) (k : Nat) (s : Sys), s.nvm.powered = true →
      ∃ es, Exec ks ncfg v s p es (exec ks v locks k p s).1 ∧ run ks ncfg s es = (exec ks v locks k p s).2 ∧
        ∀ e ∈ es, ∃ lock q, e = .key v lock q
  | .done a, k, s, _ => ⟨[], .done s a, rfl, fun _ h => absurd h (by simp)⟩
  | .call l q f, k, s, hp => by
    generalize hk : (if l = true then locks k else Rc.ok) = lock
    have hl : l = false → lock = .ok := by intro h; rw [h] at hk; exact hk.symm
    have hstep : step ks ncfg s (.key v lock q) =
        ((if (Keystore.handle ks v s lock q).2.nvm.powered then .key (Keystore.handle ks v s lock q).1 else .none),
          (Keystore.handle ks v s lock q).2) := by
      unfold step; dsimp only; rw [if_pos hp]
    have hex : exec ks v locks k (.call l q f) s =
        if (Keystore.handle ks v s lock q).2.nvm.powered then
          exec ks v locks (k + 1) (f (Keystore.handle ks v s lock q).1) (Keystore.handle ks v s lock q).2
        else (none, (Keystore.handle ks v s lock q).2) := by
      rw [← hk]; rfl
    by_cases hq : (Keystore.handle ks v s lock q).2.nvm.powered = true
    · rw [if_pos hq] at hstep hex
      obtain ⟨es, h1, h2, h3⟩ := exec_is_exec ks ncfg v locks (f (Keystore.handle ks v s lock q).1) (k + 1) _ hq
      rw [hex]
      refine ⟨.key v lock q :: es, .call hl (by rw [hstep]) (by rw [hstep]; exact h1), ?_, ?_⟩
      · unfold run at h2 ⊢; rw [List.foldl_cons, hstep]; exact h2
      · intro e he
        rcases List.mem_cons.1 he with rfl | he
        · exact ⟨_, _, rfl⟩
        · exact h3 e he
    · rw [if_neg hq] at hstep hex
      rw [hex]
      refine ⟨[.key v lock q], .lost hl (by rw [hstep]), ?_, ?_⟩
      · unfold run; rw [List.foldl_cons, hstep]; rfl
      · intro e he
        rw [List.mem_singleton] at he
        exact ⟨_, _, he⟩

end WolfHsm.CryptoMsg

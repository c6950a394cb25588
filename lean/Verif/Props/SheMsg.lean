import Verif.Proofs.SheMsg
import Verif.Proofs.SheDemo
import Verif.Spec.She

/-!
# C44 and C27 for the SHE requests
-/

namespace WolfHsm.Props

open She
open Keystore (Sys Srv GoodCfg)
open Server (Req)

variable {cfg : She.Cfg} {ncfg : NvmServer.Cfg}

/-- **C44, SHE requests.**  What a SHE request does (return code, new SHE state, new key store
and NVM) depends on the bytes received only, not on what follows them in the packet buffer; the
responses have the same length, and where they differ they repeat bytes of the packet buffer as
it was (padding after the last field). -/
theorem C44_she (v : Srv) (env : Env) (t : St) (s : Sys) {r r' : Req} (hm : r'.magic = r.magic)
    (ha : r'.action = r.action) (hz : r'.size = r.size) (hd : r'.buf.take r.size = r.buf.take r.size)
    (hl : r'.buf.length = r.buf.length) :
    (handle cfg v env t s r').1.1 = (handle cfg v env t s r).1.1 ∧
    (handle cfg v env t s r').2 = (handle cfg v env t s r).2 ∧
    (handle cfg v env t s r').1.2.length = (handle cfg v env t s r).1.2.length ∧
    ∀ i : Nat, (handle cfg v env t s r').1.2[i]? ≠ (handle cfg v env t s r).1.2[i]? → i < r.buf.length →
      (handle cfg v env t s r').1.2[i]? = r'.buf[i]? ∧ (handle cfg v env t s r).1.2[i]? = r.buf[i]? := by
  have key : ∀ f n, ∀ i : Nat, (Wire.over f r'.buf n)[i]? ≠ (Wire.over f r.buf n)[i]? → i < r.buf.length →
      (Wire.over f r'.buf n)[i]? = r'.buf[i]? ∧ (Wire.over f r.buf n)[i]? = r.buf[i]? := by
    intro f n i hne hi
    rcases over_same f r.buf r'.buf n i with e | ⟨_, e1, e2⟩
    · exact absurd e hne
    · rw [e1, e2, List.getElem?_append_left hi, List.getElem?_append_left (by omega)]
      exact ⟨rfl, rfl⟩
  unfold handle
  rw [command_same ⟨hm, ha, hz, hd⟩, ha, hm]
  split
  · split
    · exact ⟨rfl, rfl, by dsimp only; rw [over_length, over_length], key _ _⟩
    · exact ⟨rfl, rfl, rfl, fun i h => absurd rfl h⟩
  · cases command cfg v env t s r with
    | inl rc => exact ⟨rfl, rfl, rfl, fun i h => absurd rfl h⟩
    | inr x =>
      dsimp only
      unfold Res.packet
      rw [hm]
      exact ⟨rfl, rfl, by rw [over_length, over_length], key _ _⟩

/-- Not only empty requests: two LOAD_PLAIN_KEY requests of 16 bytes with different rests. -/
example : ∃ r r' : Req, r'.magic = r.magic ∧ r'.action = r.action ∧ r'.size = r.size ∧
    r'.buf.take r.size = r.buf.take r.size ∧ r'.buf.length = r.buf.length ∧ r' ≠ r ∧ r.size = 16 :=
  ⟨⟨0, 6, 0, List.replicate 32 1, 16⟩, ⟨0, 6, 0, List.replicate 16 1 ++ List.replicate 16 2, 16⟩, rfl, rfl, rfl,
    by decide, by decide, by simp, rfl⟩

/-- **C44, refused without effect.**  A SHE request with fewer bytes than its command needs (the
fields, and the data whose length the fields announce, whatever the lengths), is not answered with
success and leaves the key store and the NVM as they were, in any state. -/
theorem C44_she_refused {w : World} {v : Srv} {env : Env} {r : Req} (hb : ¬WellSized cfg r) :
    ¬Answered cfg ncfg w v env r .ok ∧ (She.step cfg ncfg w (.she v env r)).2.sys = w.sys := by
  constructor
  · intro h
    obtain ⟨_, _, q, hc, hret, _⟩ := h.ok
    exact (command_sized hc hb).2.1 hret
  · cases hp : w.sys.nvm.powered with
    | false => simp [She.step, hp]
    | true =>
      rw [step_she hp, set_sys]
      unfold handle
      split
      · split <;> rfl
      · cases hc : command cfg v env (w.she v.ctx) w.sys r with
        | inl rc => rfl
        | inr x => exact (command_sized hc hb).1

/-- A VERIFY_MAC whose two lengths overflow when added. -/
example : ¬WellSized Demo.cfg ⟨0, 16, 0, [1, 0, 0, 0, 0xff, 0xff, 0xff, 0xff, 0x10, 0, 0, 0] ++ zeros 32, 44⟩ := by
  unfold WellSized; decide +kernel

/-- **C27, SHE responses.**  The response to a SHE request never is longer than the packet buffer
(which must have the 116 bytes of the longest fixed-size response). -/
theorem C27_she_fits (hg : GoodCfg cfg.ks) (hs : cfg.cr.Sized) {w : World} (hr : She.Reach cfg ncfg w)
    (v : Srv) (env : Env) (r : Req) (hl : 116 ≤ cfg.ks.commLen) :
    (handle cfg v env (w.she v.ctx) w.sys r).1.2.length ≤ cfg.ks.commLen := by
  have := handle_fits (v := v) (env := env) (r := r) (hr.wf' hg hs) hs (hr.uid v.ctx)
  omega

end WolfHsm.Props

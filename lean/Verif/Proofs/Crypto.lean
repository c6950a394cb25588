import Verif.Spec.Crypto
import Verif.Props.KeystoreSecret
import Verif.Props.KeystoreStory

/-!
# Executions of crypto handlers: inversion of the building blocks
-/

namespace WolfHsm.Crypto

open Keystore (Srv Sys Ev Obs GoodCfg Reach step run view ownId reach_run usageAny)
open Props (run_append step_answered C20_usage_enforced C20_load_enforced)
open NvmFlash (Meta)

variable {cfg : Cfg} {ncfg : NvmServer.Cfg} {v : Srv}

/-- The events of an execution are valid; each is one of its own operations or foreign. -/
theorem exec_events {c : Keystore.Cfg} (hc : v.client < 16) {s : Sys} {p : Prog} {es : List Ev}
    {o : Option Resp} (h : Exec c ncfg v s p es o) :
    ∀ e ∈ es, e.Valid ∧ ((∃ lock r, e = .key v lock r) ∨ Foreign v e) := by
  induction h with
  | done => simp
  | call _ _ _ ih =>
    intro e he
    rcases List.mem_cons.1 he with rfl | he
    · exact ⟨hc, .inl ⟨_, _, rfl⟩⟩
    · exact ih e he
  | lost =>
    intro e he
    rcases List.mem_cons.1 he with rfl | he
    · exact ⟨hc, .inl ⟨_, _, rfl⟩⟩
    · cases he
  | other hv hf _ ih =>
    intro e he
    rcases List.mem_cons.1 he with rfl | he
    · exact ⟨hv, .inr hf⟩
    · exact ih e he

theorem exec_done {c : Keystore.Cfg} {s : Sys} {a : Resp} {es : List Ev} {o : Option Resp}
    (h : Exec c ncfg v s (.done a) es o) : o = some a := by
  generalize hp : Prog.done a = p at h
  induction h with
  | done => cases hp; rfl
  | call => cases hp
  | lost => cases hp
  | other _ _ _ ih => exact ih hp

theorem exec_call {c : Keystore.Cfg} {s : Sys} {l : Bool} {r : Keystore.Req}
    {k : Keystore.Resp → Prog} {es : List Ev} {a : Resp}
    (h : Exec c ncfg v s (.call l r k) es (some a)) :
    ∃ m lock resp, es[m]? = some (.key v lock r) ∧
      (step c ncfg (run c ncfg s (es.take m)) (.key v lock r)).1 = .key resp ∧
      Exec c ncfg v (run c ncfg s (es.take (m + 1))) (k resp) (es.drop (m + 1)) (some a) := by
  generalize hp : Prog.call l r k = p at h
  generalize ho : some a = o at h
  induction h with
  | done => cases hp
  | @call _ _ _ _ lock resp es _ _ ha hx _ =>
    cases hp; cases ho
    exact ⟨0, lock, resp, rfl, ha, hx⟩
  | lost => cases ho
  | other _ _ _ ih =>
    obtain ⟨m, lock, resp, h1, h2, h3⟩ := ih hp ho
    exact ⟨m + 1, lock, resp, by simpa using h1, h2, h3⟩

/-- The handler has got to `p` after `n` of the events, and will end with `a`. -/
def At (cfg : Cfg) (ncfg : NvmServer.Cfg) (v : Srv) (s : Sys) (es : List Ev) (n : Nat) (p : Prog)
    (a : Resp) : Prop :=
  Exec cfg.ks ncfg v (run cfg.ks ncfg s (es.take n)) p (es.drop n) (some a)

/-- State after `n` events. -/
abbrev st (cfg : Cfg) (ncfg : NvmServer.Cfg) (s : Sys) (es : List Ev) (n : Nat) : Sys :=
  run cfg.ks ncfg s (es.take n)

variable {s : Sys} {es : List Ev} {n : Nat} {a : Resp}

theorem at_zero {p : Prog} (h : Exec cfg.ks ncfg v s p es (some a)) : At cfg ncfg v s es 0 p a := by
  simpa [At, run] using h

theorem at_done {b : Resp} (h : At cfg ncfg v s es n (.done b) a) : a = b := by
  have := exec_done h; simpa using this

/-- An own operation was answered after `m` events. -/
def Answered (cfg : Cfg) (ncfg : NvmServer.Cfg) (v : Srv) (s : Sys) (es : List Ev) (m : Nat)
    (r : Keystore.Req) (resp : Keystore.Resp) : Prop :=
  ∃ lock, es[m]? = some (.key v lock r) ∧
    (step cfg.ks ncfg (st cfg ncfg s es m) (.key v lock r)).1 = .key resp

theorem at_call {l : Bool} {r : Keystore.Req} {k : Keystore.Resp → Prog}
    (h : At cfg ncfg v s es n (.call l r k) a) :
    ∃ m resp, Answered cfg ncfg v s es m r resp ∧ At cfg ncfg v s es (m + 1) (k resp) a := by
  obtain ⟨m, lock, resp, h1, h2, h3⟩ := exec_call h
  rw [← run_append, ← List.take_add] at h2 h3
  rw [List.drop_drop] at h3
  rw [List.getElem?_drop] at h1
  exact ⟨n + m, resp, ⟨lock, h1, h2⟩, h3⟩

/-- A key with bytes `b` and usage `required` was seen under the id. -/
def HeldAt (cfg : Cfg) (ncfg : NvmServer.Cfg) (v : Srv) (s : Sys) (es : List Ev)
    (id required : UInt16) (b : List UInt8) : Prop :=
  ∃ n md, view cfg.ks v.ctx (st cfg ncfg s es n) (ownId cfg.ks v id) = some (md, b) ∧
    md.flags &&& (required &&& usageAny) = required &&& usageAny

theorem at_read (hsg : GoodCfg cfg.ks) (hs : Reach cfg.ks ncfg s) (hc : v.client < 16)
    (hv : ∀ e ∈ es, e.Valid) {id required : UInt16} {size : Nat}
    {k : Except Rc (List UInt8) → Prog} (h : At cfg ncfg v s es n (read id required size k) a) :
    ∃ m res, At cfg ncfg v s es m (k res) a ∧
      ∀ b, res = .ok b → HeldAt cfg ncfg v s es id required b := by
  obtain ⟨m, resp, ⟨lock, -, h2⟩, h3⟩ := at_call h
  refine ⟨m + 1, _, h3, fun b hb => ?_⟩
  obtain ⟨ha, -⟩ := step_answered h2
  have hr := reach_run hs (es.take m) fun e he => hv e (List.mem_of_mem_take he)
  unfold loaded at hb
  split at hb
  · cases hb
    obtain ⟨md, bs, hvw, hbs, hm⟩ := (C20_usage_enforced hsg hr hc _ _ _ _ ha).1 rfl
    cases hbs
    exact ⟨m, md, hvw, hm⟩
  all_goals cases hb

theorem at_load (hsg : GoodCfg cfg.ks) (hs : Reach cfg.ks ncfg s)
    (hv : ∀ e ∈ es, e.Valid) {l : Bool} {id required : UInt16}
    {k : Except Rc (List UInt8) → Prog} (h : At cfg ncfg v s es n (load cfg v l id required k) a) :
    ∃ m res, At cfg ncfg v s es m (k res) a ∧
      ∀ b, res = .ok b → HeldAt cfg ncfg v s es id required b := by
  unfold load at h
  split at h
  · exact ⟨n, _, h, by rintro b ⟨⟩⟩
  · obtain ⟨m, resp, ⟨lock, -, h2⟩, h3⟩ := at_call h
    refine ⟨m + 1, _, h3, fun b hb => ?_⟩
    obtain ⟨ha, -⟩ := step_answered h2
    have hr := reach_run hs (es.take m) fun e he => hv e (List.mem_of_mem_take he)
    unfold loaded at hb
    split at hb
    · cases hb
      obtain ⟨md, bs, hvw, hbs, hm⟩ := (C20_load_enforced hsg hr _ _ _ ha).1 rfl
      cases hbs
      exact ⟨m, md, hvw, hm⟩
    all_goals cases hb

theorem at_evict {l ev : Bool} {id : UInt16} {p : Prog}
    (h : At cfg ncfg v s es n (evictOpt cfg v l ev id p) a) : ∃ m, At cfg ncfg v s es m p a := by
  unfold evictOpt at h
  split at h
  · obtain ⟨m, _, _, h⟩ := at_call h; exact ⟨_, h⟩
  · exact ⟨n, h⟩

theorem at_evictTwo {e1 e2 : Bool} {i1 i2 : UInt16} {r : Resp}
    (h : At cfg ncfg v s es n (evictTwo cfg v e1 e2 i1 i2 r) a) : a = r := by
  obtain ⟨_, h⟩ := at_evict h
  obtain ⟨_, h⟩ := at_evict h
  exact at_done h

theorem at_store {id flags : UInt16} {label : Vector UInt8 24} {cap : UInt16}
    {der : Except Rc (List UInt8)} {k : Except Rc UInt16 → Prog}
    (h : At cfg ncfg v s es n (store id flags label cap der k) a) :
    ∃ m res, At cfg ncfg v s es m (k res) a ∧ ∀ rid, res = .ok rid → ∃ m',
      Answered cfg ncfg v s es m' (.importKey id flags label cap der) (.keyId .ok rid) := by
  obtain ⟨m, resp, ha, h3⟩ := at_call h
  split at h3
  · exact ⟨_, _, h3, by rintro _ ⟨⟩; exact ⟨m, ha⟩⟩
  · exact ⟨_, _, h3, by rintro _ ⟨⟩⟩
  · exact ⟨_, _, h3, by rintro _ ⟨⟩⟩
  · exact ⟨_, _, h3, by rintro _ ⟨⟩⟩

theorem at_useOne (hsg : GoodCfg cfg.ks) (hs : Reach cfg.ks ncfg s)
    (hv : ∀ e ∈ es, e.Valid) {l ev : Bool} {id required : UInt16} {op : List UInt8 → Resp} {o : Out}
    (h : At cfg ncfg v s es n (useOne cfg v l id required ev op) (.ok o)) :
    ∃ b, op b = .ok o ∧ HeldAt cfg ncfg v s es id required b := by
  obtain ⟨m, res, h, hh⟩ := at_load hsg hs hv h
  obtain ⟨_, h⟩ := at_evict h
  have h := at_done h
  cases res with
  | error => cases h
  | ok b => exact ⟨b, h.symm, hh b rfl⟩

end WolfHsm.Crypto

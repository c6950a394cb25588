import Verif.Model.ClientDma

/-!
# What it means that DMA buffers are mapped and released in pairs

Only the events that the callback, the transport and the caller see are used here.
-/

namespace WolfHsm.ClientDma

/-- How often `m` was mapped. -/
def maps (m : Map) (tr : List Ev) : Nat := tr.countP fun e => match e with
  | .mapped x => x = m
  | _ => false

/-- How often `m` was released. -/
def releases (m : Map) (tr : List Ev) : Nat := tr.countP fun e => match e with
  | .released x _ => x = m
  | _ => false

/-- Nothing was ever released that was not mapped at that time. -/
def NoStrayRelease (tr : List Ev) : Prop := ∀ p, p <+: tr → ∀ m, releases m p ≤ maps m p

/-- Everything mapped has been released, once per mapping. -/
def AllReleased (tr : List Ev) : Prop := ∀ m, releases m tr = maps m tr

/-- Buffers in requests the server may still be working on. -/
def live : List Ev → List Buf := fun tr => tr.foldl (fun l e => match e with
  | .sent bs => bs ++ l
  | .ended _ true => []
  | _ => l) []

/-- At every moment each buffer the server may be using is mapped, at that address, with that length and
for that direction. -/
def Covered (tr : List Ev) : Prop := ∀ p, p <+: tr → ∀ b ∈ live p,
  ∃ m, releases m p < maps m p ∧ m.taddr = b.addr ∧ m.len = b.len ∧ m.dir = b.dir

/-- The caller asks for the response to the last request, and for nothing else, and does not give up a
request with `wh_CommClient_AbortPending`. -/
def Follows (s : S) : Call → Prop
  | .bufResp _ => s.pending = true → s.last = .buf
  | .nvmAddResp => s.pending = true → s.last = .nvmAdd
  | .rngResp => s.pending = true → s.last = .rng
  | .shaResp => s.pending = true → s.last = .sha
  | .cmacResp => s.pending = true → s.last = .cmac
  | .aesResp => s.pending = true → s.last = .aes
  | .quietResp => s.pending = true → s.last = .quiet
  | .abort => s.pending = false
  | _ => True

instance (s : S) (c : Call) : Decidable (Follows s c) := by
  cases c <;> unfold Follows <;> infer_instance

/-- All along a sequence of calls. -/
def Orderly (w : World) (s : S) : List Call → Prop
  | [] => True
  | c :: cs => Follows s c ∧ Orderly w (step w s c).2 cs

instance decOrderly (w : World) : (s : S) → (cs : List Call) → Decidable (Orderly w s cs)
  | _, [] => isTrue trivial
  | s, c :: cs => by
    have := decOrderly w (step w s c).2 cs
    unfold Orderly; infer_instance

/-- The functions that send, wait and return. -/
def Call.blocking : Call → Bool
  | .direct1 .. | .direct2 .. => true
  | _ => false

/-- A NULL pointer with a length. -/
def Call.null : Call → Bool
  | .nvmRead b => b.addr = 0 ∧ b.len ≠ 0
  | .nvmAdd _ b => b.addr = 0 ∧ b.len ≠ 0
  | _ => false

/-- The client's allow list has nothing against what the callback maps (or there is no list). -/
def Grants (w : World) : Prop := ∀ d t n, w.allow d t n = 0

/-- The callback never refuses a buffer (or there is no callback). -/
def Willing (w : World) : Prop := ∀ k b t, (w.cb k .pre b t).1 = 0

/-- Sending fails only if nothing left, and waiting ends only with the server's answer. -/
def Reliable (w : World) : Prop :=
  (∀ k, (w.send k).2 = true → (w.send k).1 = 0) ∧
  (∀ k, (w.recv k).rc ≠ Rc.notready.code → (w.recv k).answered = true) ∧
  (∀ k, (w.wait k).answered = true)

end WolfHsm.ClientDma

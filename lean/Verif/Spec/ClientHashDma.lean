import Verif.Spec.ClientHash
import Verif.Model.ClientHashDma

/-!
# Specification vocabulary for hashing with input by DMA (C55)
-/

namespace WolfHsm.ClientHash

open CryptoDma (Buf)

/-- The server's switch for DMA requests leads from the variant's number to a handler that runs the
library function for `t`, and the client accepts that number in responses. -/
def Sha2.ServedDma (v : Sha2) (cfg : CryptoDma.Cfg) (action : UInt16) (t : UInt32) : Prop :=
  v.accepts t = true ∧
  ∃ op, cfg.select action v.type 0 = .ok op ∧
    match op with
    | .sha256 u => v.wide = false ∧ u = t
    | .sha384 u => v.wide = true ∧ u = t
    | .sha512 => v.wide = true ∧ cfg.base.codes.sha512Type v.variant = t
    | _ => False

/-- What the server answers to a request that names the buffer `b`, where it finds `data`.  `open'`:
its own check of the buffer succeeds. -/
def Answer (cfg : CryptoDma.Cfg) (cle : Bool) (action : UInt16) (open' : Bool) (b : Buf) (data body : List UInt8)
    (resp : List UInt8) : Prop :=
  ∃ v e s seq junk, CryptoDma.Env.read e b = data ∧ (open' = true → e.readPre b = .ok) ∧
    resp = (CryptoDma.handle cfg v e
      ⟨if cfg.le = cle then Utils.magicNative else Utils.magicSwap, action, seq, body ++ junk, body.length⟩ s).1.1

/-- The surroundings of the client are the server and memory that both can reach: a request gets the
server's answer, which finds in the buffer what the client's memory holds, or it gets none and the
client sees an error.  The server may refuse to read the client's memory. -/
structure Linked (cfg : CryptoDma.Cfg) (cle : Bool) (action : UInt16) (h : Host) : Prop where
  pre : ∀ k a n rc, h.pre k a n = .error rc → rc ≠ 0
  send : ∀ k mem src b body,
    (∃ rc, rc ≠ 0 ∧ (h.send k mem src b body = .unsent rc ∨ h.send k mem src b body = .lost rc)) ∨
    ∃ resp, h.send k mem src b body = .got resp ∧ Answer cfg cle action false b (bytesOf mem src b.len) body resp

/-- Nothing is refused, and every request of at most `dataLen` bytes gets an answer. -/
structure Willing (cfg : CryptoDma.Cfg) (cle : Bool) (action : UInt16) (dataLen : Nat) (h : Host) : Prop where
  pre : ∀ k a n, ∃ b, h.pre k a n = .ok b
  send : ∀ k mem src b body, body.length ≤ dataLen →
    ∃ resp, h.send k mem src b body = .got resp ∧ Answer cfg cle action true b (bytesOf mem src b.len) body resp

/-- Calls on one context, with input in the packets (`plain`) or by DMA, `n` bytes at address `a` of
the client's memory. -/
inductive Mixed where
  | plain (c : Call)
  | chunk (mem : UInt64 → UInt8) (a : UInt64) (n : Nat)
  | hash (mem : UInt64 → UInt8) (a : UInt64) (n : Nat) (out : Bool)

/-- The call without the way its input takes. -/
def Mixed.call : Mixed → Call
  | .plain c => c
  | .chunk mem a n => .chunk (bytesOf mem a n)
  | .hash mem a n out => .hash (bytesOf mem a n) out

/-- The length of the input is a 32-bit number. -/
def Mixed.Sized : Mixed → Prop
  | .plain _ => True
  | .chunk _ _ n => n < 4294967296
  | .hash _ _ n _ => n < 4294967296

/-- A call that needs not be refused: only an Update request in a packet is limited. -/
def Mixed.Fits {σ : Type} (p : Proto σ) : Mixed → Prop
  | .plain c => c.Fits p
  | _ => True

/-- The call takes input of any length and finalizes on request. -/
def Mixed.Whole : Mixed → Prop
  | .plain c => c.Whole
  | .chunk _ _ _ => False
  | .hash _ _ _ _ => True

variable {σ : Type}

/-- Return code and digest of one call. -/
def mixed (p : Proto σ) (d : Lane σ) (three : Bool) (peer : Nat → List UInt8 → Reply) (h : Host) (k : Nat) (st : St σ) :
    Mixed → (Ret × Option (List UInt8)) × St σ × Nat
  | .plain c => call p three peer k st c
  | .chunk mem a n => let q := updateDma p d h k st mem a n; ((q.1, none), q.2)
  | .hash mem a n out => if three then hashDma3 p d h k st mem a n out else hashDma p d h k st mem a n out

/-- What a sequence of calls on one context returns. -/
def outcomes (p : Proto σ) (d : Lane σ) (three : Bool) (peer : Nat → List UInt8 → Reply) (h : Host) :
    Nat → St σ → List Mixed → List (Ret × Option (List UInt8))
  | _, _, [] => []
  | k, st, c :: cs =>
    let q := mixed p d three peer h k st c
    q.1 :: outcomes p d three peer h q.2.2 q.2.1 cs

end WolfHsm.ClientHash

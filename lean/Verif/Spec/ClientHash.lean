import Verif.Model.ClientHash
import Verif.Model.CryptoMsg

/-!
# Specification vocabulary for hashing through the server (C55)
-/

namespace WolfHsm.ClientHash

open CryptoMsg (Hashes Op)

/-- Words in the memory of a machine; each word is given with its most significant byte first. -/
def native (le : Bool) (ws : List (List UInt8)) : List UInt8 := ws.flatMap fun w => if le then w.reverse else w

/-- A hash function that works through its message block by block.  `count`, `words`: bit counters and
chaining value after a message of whole blocks. -/
structure Md where
  count : List UInt8 → UInt32 × UInt32
  words : List UInt8 → List (List UInt8)
  digest : List UInt8 → List UInt8

/-- Counters and chaining value as they are in memory. -/
def Md.state (M : Md) (le : Bool) (m : List UInt8) : UInt32 × UInt32 × List UInt8 :=
  ((M.count m).1, (M.count m).2, native le (M.words m))

/-- The crypto library of a machine computes `M` for `type`, or fails.  `width`: bytes of the chaining
value, `size`: bytes of the digest. -/
structure Md.Runs (M : Md) (h : Hashes) (le : Bool) (type : UInt32) (block width size : Nat) : Prop where
  width : ∀ m, (native le (M.words m)).length = width
  update : ∀ m b, m.length % block = 0 → b.length % block = 0 →
    h.update type (M.state le m).1 (M.state le m).2.1 (M.state le m).2.2 b = .ok (M.state le (m ++ b)) ∨
    ∃ rc, h.update type (M.state le m).1 (M.state le m).2.1 (M.state le m).2.2 b = .error rc
  final : ∀ m t, m.length % block = 0 → t.length < block →
    (∃ d, h.final type (M.state le m).1 (M.state le m).2.1 (M.state le m).2.2 t = .ok d ∧
      size ≤ d.length ∧ d.length ≤ 64 ∧ d.take size = M.digest (m ++ t)) ∨
    ∃ rc, h.final type (M.state le m).1 (M.state le m).2.1 (M.state le m).2.2 t = .error rc

/-- The same for the sponge functions: `state` is that after a message of whole blocks. -/
structure Sponge where
  state : List UInt8 → List UInt64
  digest : List UInt8 → List UInt8

/-- The crypto library computes `S`, or fails. -/
structure Sponge.Runs (S : Sponge) (h : Hashes) (block size : Nat) : Prop where
  blank : S.state [] = List.replicate 25 0
  width : ∀ m, (S.state m).length = 25
  update : ∀ m b, m.length % block = 0 → b.length % block = 0 →
    h.update3 block (S.state m) b = .ok (S.state (m ++ b)) ∨ ∃ rc, h.update3 block (S.state m) b = .error rc
  final : ∀ m t, m.length % block = 0 → t.length < block →
    (∃ d, h.final3 block (S.state m) t = .ok d ∧ size ≤ d.length ∧ d.length ≤ 64 ∧ d.take size = S.digest (m ++ t)) ∨
    ∃ rc, h.final3 block (S.state m) t = .error rc

/-- The server's switch leads from the variant's number to a handler that runs the library function
for `t`, and the client accepts that number in responses. -/
def Sha2.Served (v : Sha2) (cfg : CryptoMsg.Cfg) (action : UInt16) (t : UInt32) : Prop :=
  v.accepts t = true ∧
  ∃ op, cfg.codes.select action v.type 0 = .ok op ∧
    match op with
    | .sha256 u => v.wide = false ∧ u = t
    | .sha384 u => v.wide = true ∧ u = t
    | .sha512 => v.wide = true ∧ cfg.codes.sha512Type v.variant = t
    | _ => False

/-- The peer of the client is the server: a request gets the server's answer, or it gets none and the
client sees an error.  What the packet buffer holds behind the request, who the client is and in
what state the key store is may be different each time. -/
def Peer (cfg : CryptoMsg.Cfg) (cle : Bool) (action : UInt16) (peer : Nat → List UInt8 → Reply) : Prop :=
  ∀ k body, (∃ rc, rc ≠ 0 ∧ (peer k body = .unsent rc ∨ peer k body = .lost rc)) ∨
    ∃ v e s seq junk, peer k body = .got (CryptoMsg.handle cfg v e
      ⟨if cfg.le = cle then Utils.magicNative else Utils.magicSwap, action, seq, body ++ junk, body.length⟩ s).1

/-- Every request of at most `dataLen` bytes gets an answer. -/
def Answers (dataLen : Nat) (peer : Nat → List UInt8 → Reply) : Prop :=
  ∀ k body, body.length ≤ dataLen → ∃ r, peer k body = .got r

/-- The crypto library never fails. -/
structure Steady (h : Hashes) : Prop where
  update : ∀ t hi lo d b rc, h.update t hi lo d b ≠ .error rc
  final : ∀ t hi lo d b rc, h.final t hi lo d b ≠ .error rc
  update3 : ∀ n st b rc, h.update3 n st b ≠ .error rc
  final3 : ∀ n st b rc, h.final3 n st b ≠ .error rc

/-- Calls of an application: `chunk` is one Update request and its response; `hash` the function that
takes input of any length and finalizes if `out`. -/
inductive Call where
  | chunk (inp : List UInt8)
  | hash (inp : List UInt8) (out : Bool)

variable {σ : Type}

/-- Return code and digest of one call; `three`: a SHA-3 function. -/
def call (p : Proto σ) (three : Bool) (peer : Nat → List UInt8 → Reply) (k : Nat) (st : St σ) :
    Call → (Ret × Option (List UInt8)) × St σ × Nat
  | .chunk inp => let q := update p peer k st inp; ((q.1, none), q.2)
  | .hash inp out => if three then hash3 p peer k st inp out else hash p peer k st inp out

/-- What a sequence of calls on one context returns. -/
def results (p : Proto σ) (three : Bool) (peer : Nat → List UInt8 → Reply) : Nat → St σ → List Call →
    List (Ret × Option (List UInt8))
  | _, _, [] => []
  | k, st, c :: cs =>
    let q := call p three peer k st c
    q.1 :: results p three peer q.2.2 q.2.1 cs

/-- What it should return: `D` of everything since the last digest. -/
def digests (D : List UInt8 → List UInt8) : (sofar : List UInt8) → List Call → List (Option (List UInt8))
  | _, [] => []
  | m, .chunk a :: cs => none :: digests D (m ++ a) cs
  | m, .hash a true :: cs => some (D (m ++ a)) :: digests D [] cs
  | m, .hash a false :: cs => none :: digests D (m ++ a) cs

/-- The context holds the message `m`: chaining state of its whole blocks, rest in the buffer. -/
def Holds (p : Proto σ) (S : List UInt8 → σ) (m : List UInt8) (st : St σ) : Prop :=
  ∃ m0, m0.length % p.block = 0 ∧ st.chain = S m0 ∧ m0 ++ st.buf = m ∧ st.buf.length < p.block

/-- Calls and what they returned, when calls may fail: a call that succeeded gave the digest of what
the calls that succeeded since the last digest took in. -/
def Kept (D : List UInt8 → List UInt8) : (sofar : List UInt8) → List (Call × Ret × Option (List UInt8)) → Prop
  | _, [] => True
  | m, (.chunk a, rc, d) :: cs => if rc = 0 then d = none ∧ Kept D (m ++ a) cs else Kept D m cs
  | m, (.hash a true, rc, d) :: cs => if rc = 0 then d = some (D (m ++ a)) ∧ Kept D [] cs else Kept D m cs
  | m, (.hash a false, rc, d) :: cs => if rc = 0 then d = none ∧ Kept D (m ++ a) cs else Kept D m cs

/-- A call that needs not be refused: an Update request takes at least `maxInline` bytes. -/
def Call.Fits (p : Proto σ) : Call → Prop
  | .chunk a => a.length ≤ p.maxInline
  | .hash _ _ => True

/-- The call takes input of any length. -/
def Call.Whole : Call → Prop
  | .chunk _ => False
  | .hash _ _ => True

end WolfHsm.ClientHash

import Verif.Proofs.ClientHashServer
import Verif.Props.CryptoMsg

/-!
# C55: a hash computed through the server is the hash of the whole input
-/

namespace WolfHsm.Props

open ClientHash Utils

/-! ## Concrete hash functions, clients and servers -/

namespace ClientHashDemo

/-- Sum of bytes. -/
def sum : List UInt8 → UInt8
  | [] => 0
  | x :: l => x + sum l

theorem sum_append (a b : List UInt8) : sum (a ++ b) = sum a + sum b := by
  induction a with
  | nil => exact (UInt8.zero_add _).symm
  | cons x a ih => rw [List.cons_append, sum, sum, ih, UInt8.add_assoc]

/-- A toy hash function with eight chaining words: the digest is the sum of the bytes, 32 times. -/
def md : Md where
  count m := (0, UInt32.ofNat m.length)
  words m := List.replicate 8 [1, 2, 3, sum m]
  digest m := List.replicate 32 (sum m)

/-- A toy sponge. -/
def sponge : Sponge where
  state m := (sum m).toUInt64 :: List.replicate 24 0
  digest m := List.replicate 32 (sum m + 1)

/-- The least significant byte of the first chaining word. -/
def low (le : Bool) (d : List UInt8) : UInt8 := if le then d.headD 0 else (d.drop 3).headD 0

/-- A library for both on a machine. -/
def hashes (le : Bool) : CryptoMsg.Hashes where
  update _ hi lo d b := .ok (hi, lo + UInt32.ofNat b.length, native le (List.replicate 8 [1, 2, 3, low le d + sum b]))
  final _ _ _ d b := .ok (List.replicate 32 (low le d + sum b))
  update3 _ st b := .ok (((st.headD 0).toUInt8 + sum b).toUInt64 :: List.replicate 24 0)
  final3 _ st b := .ok (List.replicate 32 ((st.headD 0).toUInt8 + sum b + 1))

theorem steady (le : Bool) : Steady (hashes le) := by
  constructor <;> intros <;> intro h <;> cases h

theorem low_native (le : Bool) (x : UInt8) : low le (native le (List.replicate 8 [1, 2, 3, x])) = x := by cases le <;> rfl

theorem runs (le : Bool) (t : UInt32) : md.Runs (hashes le) le t 64 32 32 where
  width m := by cases le <;> rfl
  update m b _ _ := by
    left
    show Except.ok (_, _, _) = Except.ok _
    rw [show low le (md.state le m).2.2 = sum m from low_native le _]
    unfold Md.state md
    dsimp only
    rw [sum_append, List.length_append, UInt32.ofNat_add]
  final m b _ _ := by
    left
    refine ⟨_, rfl, ?_, ?_, ?_⟩
    · rw [List.length_replicate]
    · rw [List.length_replicate]; decide
    · rw [show low le (md.state le m).2.2 = sum m from low_native le _, List.take_of_length_le (by rw [List.length_replicate])]
      show _ = List.replicate 32 (sum (m ++ b))
      rw [sum_append]

theorem runs3 (le : Bool) : sponge.Runs (hashes le) 136 32 where
  blank := rfl
  width _ := rfl
  update m b _ _ := by
    left
    show Except.ok ((((sum m).toUInt64).toUInt8 + sum b).toUInt64 :: List.replicate 24 0) = Except.ok ((sum (m ++ b)).toUInt64 :: List.replicate 24 0)
    rw [UInt8.toUInt8_toUInt64, sum_append]
  final m b _ _ := by
    left
    refine ⟨_, rfl, ?_, ?_, ?_⟩
    · rw [List.length_replicate]
    · rw [List.length_replicate]; decide
    · rw [List.take_of_length_le (by rw [List.length_replicate])]
      show List.replicate 32 (((sum m).toUInt64).toUInt8 + sum b + 1) = List.replicate 32 (sum (m ++ b) + 1)
      rw [UInt8.toUInt8_toUInt64, sum_append]

/-- SHA-256 is number 6, SHA3-256 number 12. -/
def codes : CryptoMsg.Codes :=
  { CryptoMsgDemo.codes with select := fun _ t _ => if t = 6 then .ok (.sha256 6) else if t = 12 then .ok (.sha3 136) else .error .notimpl }

/-- A server. -/
def cfg (le : Bool) : CryptoMsg.Cfg := { CryptoMsgDemo.cfg with hashes := hashes le, codes := codes, le := le }

/-- A server that was built without hash functions. -/
def bare : CryptoMsg.Cfg := { cfg true with codes := { codes with select := fun _ _ _ => .error .notimpl } }

/-- The link to a server. -/
def link (cfg : CryptoMsg.Cfg) (cle : Bool) (k : Nat) (body : List UInt8) : Reply :=
  .got (CryptoMsg.handle cfg Keystore.Demo.one CryptoMsgDemo.env
    ⟨if cfg.le = cle then magicNative else magicSwap, 1, UInt16.ofNat k, body ++ [7], body.length⟩ CryptoMsgDemo.sys).1

/-- A link that loses the response to the first request. -/
def lossy (cfg : CryptoMsg.Cfg) (cle : Bool) (k : Nat) (body : List UInt8) : Reply :=
  if k = 0 then .lost Rc.timeout.code else link cfg cle k body

theorem peer_link (cfg : CryptoMsg.Cfg) (cle : Bool) : Peer cfg cle 1 (link cfg cle) := by
  intro k body
  exact Or.inr ⟨_, _, _, _, [7], rfl⟩

theorem peer_lossy (cfg : CryptoMsg.Cfg) (cle : Bool) : Peer cfg cle 1 (lossy cfg cle) := by
  intro k body
  unfold lossy
  by_cases h : k = 0
  · rw [if_pos h]; exact Or.inl ⟨_, by decide, Or.inr rfl⟩
  · rw [if_neg h]; exact peer_link cfg cle k body

theorem answers (cfg : CryptoMsg.Cfg) (cle : Bool) (n : Nat) : Answers n (link cfg cle) := fun _ _ _ => ⟨_, rfl⟩

/-- The SHA-256 functions of a client with packets of 256 bytes. -/
def sha256 (cle : Bool) : Sha2 where
  wide := false
  type := 6
  variant := 0
  accepts t := t == 6
  size := 32
  dataLen := 256
  affinity := 0
  iv := md.state cle []

theorem served (le : Bool) : (sha256 le).Served (cfg le) 1 6 := ⟨rfl, _, rfl, rfl, rfl⟩

/-- The SHA3-256 functions of a client with packets of 400 bytes. -/
def sha3 : Sha3 := ⟨12, 136, 32, 400, 0⟩

/-- Input that counts up. -/
def input (n : Nat) : List UInt8 := (List.range n).map UInt8.ofNat

/-- Three bytes, 220 bytes and the digest, then a second message. -/
def calls : List Call := [.chunk [1, 2, 3], .hash (input 220) false, .hash [] true, .hash [9] true]

end ClientHashDemo

/-! ## SHA-2 -/

/-- **C55**, SHA-224, SHA-256, SHA-384, SHA-512, client and server of the same byte order (see
`F_C55_sha2_byte_order` for the others): if all calls of a sequence return OK, the digests are those
of the concatenated inputs since the digest before.  Input may come in any pieces, whether by single
Update requests or by the functions that take input of any length; the server keeps nothing between
requests, and other requests to it may come in between. -/
theorem C55_sha2_partial {cfg : CryptoMsg.Cfg} {cle : Bool} {v : Sha2} {action : UInt16} {t : UInt32}
    {peer : Nat → List UInt8 → Reply} {M : Md} (hd : 12 + v.struct + v.block ≤ v.dataLen) (h32 : v.dataLen < 4294967296)
    (hs : v.Served cfg action t) (hpeer : Peer cfg cle action peer) (hle : cfg.le = cle)
    (hM : M.Runs cfg.hashes cfg.le t v.block v.words v.size) (hiv : v.iv = M.state cle []) (calls : List Call)
    (hok : ∀ q ∈ results (v.proto cle) false peer 0 ⟨v.iv, []⟩ calls, q.1 = 0) :
    (results (v.proto cle) false peer 0 ⟨v.iv, []⟩ calls).map (·.2) = digests M.digest [] calls :=
  results_spec (sane2 hd) (keeps2 hd h32 hs hpeer hle hM hiv) false calls 0 [] _
    ⟨[], Nat.zero_mod _, hiv, rfl, (sane2 (cle := cle) hd).block⟩ hok

open ClientHashDemo in
/-- A big-endian client and server, packets of 256 bytes, a message of 223 bytes sent in three requests. -/
example : 12 + (sha256 false).struct + (sha256 false).block ≤ (sha256 false).dataLen ∧
    results ((sha256 false).proto false) false (link (cfg false) false) 0 ⟨(sha256 false).iv, []⟩ calls =
      [(0, none), (0, none), (0, some (List.replicate 32 (sum ([1, 2, 3] ++ input 220)))), (0, some (List.replicate 32 9))] := by
  decide +kernel

/-- **C55**, SHA-2, progress: when every request is answered and the crypto library does not fail,
all calls return OK, and so the digests are right.  No chunking of the input ends in a refused
request. -/
theorem C55_sha2_answered_partial {cfg : CryptoMsg.Cfg} {cle : Bool} {v : Sha2} {action : UInt16} {t : UInt32}
    {peer : Nat → List UInt8 → Reply} {M : Md} (hd : 12 + v.struct + v.block ≤ v.dataLen) (h32 : v.dataLen < 4294967296)
    (hs : v.Served cfg action t) (hpeer : Peer cfg cle action peer) (hle : cfg.le = cle)
    (hM : M.Runs cfg.hashes cfg.le t v.block v.words v.size) (hiv : v.iv = M.state cle []) (ha : Answers v.dataLen peer)
    (hn : Steady cfg.hashes) (calls : List Call) (hc : ∀ c ∈ calls, c.Fits (v.proto cle)) :
    results (v.proto cle) false peer 0 ⟨v.iv, []⟩ calls = (digests M.digest [] calls).map fun d => (0, d) := by
  have hk := keeps2 hd h32 hs hpeer hle hM hiv
  have hh : Holds (v.proto cle) (M.state cle) [] ⟨v.iv, []⟩ := ⟨[], Nat.zero_mod _, hiv, rfl, (sane2 (cle := cle) hd).block⟩
  exact results_eq (sane2 hd) hk false hh
    (results_ok (sane2 hd) hk (lively2 hd h32 hs hpeer hle hM ha hn) false calls 0 [] _ hh hc)

open ClientHashDemo in
/-- The hypotheses hold of the demonstration in both byte orders. -/
example (le : Bool) (calls : List Call) (hc : ∀ c ∈ calls, c.Fits ((sha256 le).proto le)) :
    results ((sha256 le).proto le) false (link (cfg le) le) 0 ⟨(sha256 le).iv, []⟩ calls =
      (digests md.digest [] calls).map fun d => (0, d) :=
  C55_sha2_answered_partial (by cases le <;> decide) (by cases le <;> decide) (served le) (peer_link _ _) rfl (runs le 6) rfl
    (answers _ _ _) (steady le) calls hc

/-- **Finding**: SHA-2 between a client and a server of different byte order gives a wrong digest,
although every call returns OK: the chaining words travel as raw memory
(`wh_MessageCrypto_TranslateSha256Request`, src/wh_message_crypto.c:681-685, and `memcpy` to and from
`sha->digest` on both sides). -/
theorem F_C55_sha2_byte_order :
    ∃ (cfg : CryptoMsg.Cfg) (cle : Bool) (v : Sha2) (action : UInt16) (t : UInt32) (peer : Nat → List UInt8 → Reply) (M : Md)
      (calls : List Call),
      cfg.le ≠ cle ∧ 12 + v.struct + v.block ≤ v.dataLen ∧ v.Served cfg action t ∧ Peer cfg cle action peer ∧
      M.Runs cfg.hashes cfg.le t v.block v.words v.size ∧ v.iv = M.state cle [] ∧
      (∀ q ∈ results (v.proto cle) false peer 0 ⟨v.iv, []⟩ calls, q.1 = 0) ∧
      (results (v.proto cle) false peer 0 ⟨v.iv, []⟩ calls).map (·.2) ≠ digests M.digest [] calls := by
  refine ⟨ClientHashDemo.cfg false, true, ClientHashDemo.sha256 true, 1, 6, ClientHashDemo.link (ClientHashDemo.cfg false) true,
    ClientHashDemo.md, [.hash [1, 2, 3] true], by decide, by decide, ⟨rfl, _, rfl, rfl, rfl⟩, ClientHashDemo.peer_link _ _,
    ClientHashDemo.runs false 6, rfl, ?_, ?_⟩ <;> decide +kernel

set_option linter.constructorNameAsVariable false in
/-- **Finding**: a SHA-2 call that fails after its request went out has moved the input's last bytes
into the context but not the blocks before them: repeating the call succeeds, with a wrong digest
(src/wh_client_crypto.c:6718-6729 restores the buffer only when sending failed). -/
theorem F_C55_sha2_retry :
    ∃ (cfg : CryptoMsg.Cfg) (cle : Bool) (v : Sha2) (action : UInt16) (t : UInt32) (peer : Nat → List UInt8 → Reply) (M : Md)
      (calls : List Call),
      cfg.le = cle ∧ 12 + v.struct + v.block ≤ v.dataLen ∧ v.Served cfg action t ∧ Peer cfg cle action peer ∧
      M.Runs cfg.hashes cfg.le t v.block v.words v.size ∧ v.iv = M.state cle [] ∧ (∀ c ∈ calls, c.Whole) ∧
      ¬ Kept M.digest [] (calls.zip (results (v.proto cle) false peer 0 ⟨v.iv, []⟩ calls)) := by
  refine ⟨ClientHashDemo.cfg true, true, ClientHashDemo.sha256 true, 1, 6, ClientHashDemo.lossy (ClientHashDemo.cfg true) true,
    ClientHashDemo.md, [.hash (ClientHashDemo.input 100) true, .hash (ClientHashDemo.input 100) true], rfl, by decide,
    ClientHashDemo.served true, ClientHashDemo.peer_lossy _ _, ClientHashDemo.runs true 6, rfl, ?_, ?_⟩
  · intro c hc
    rcases List.mem_cons.1 hc with rfl | hc
    · trivial
    · rcases List.mem_cons.1 hc with rfl | hc
      · trivial
      · cases hc
  · intro h
    have e : results ((ClientHashDemo.sha256 true).proto true) false (ClientHashDemo.lossy (ClientHashDemo.cfg true) true) 0
        ⟨(ClientHashDemo.sha256 true).iv, []⟩ [.hash (ClientHashDemo.input 100) true, .hash (ClientHashDemo.input 100) true] =
        [(Rc.timeout.code, none), (0, some (List.replicate 32 (ClientHashDemo.sum ((ClientHashDemo.input 100).drop 64 ++ ClientHashDemo.input 100))))] := by
      decide +kernel
    rw [e] at h
    have h1 : Kept ClientHashDemo.md.digest [] [(Call.hash (ClientHashDemo.input 100) true, (0 : Ret),
        some (List.replicate 32 (ClientHashDemo.sum ((ClientHashDemo.input 100).drop 64 ++ ClientHashDemo.input 100))))] := (if_neg (by decide)).mp h
    have h2 := ((if_pos rfl).mp h1).1
    exact absurd h2 (by decide +kernel)

/-- **Finding**: a server built without SHA-2 answers `NOT_COMPILED_IN`; wolfCrypt then hashes the same
input in software with the same context.  But the context is not as it was: after a refused Update of
100 bytes it holds the last 36 of them, so the software result is the digest of 136 bytes.  (SHA-3
takes a copy for this reason, src/wh_client_crypto.c:9345-9348; SHA-2 does not.) -/
theorem F_C55_sha2_fallback :
    ∃ (cfg : CryptoMsg.Cfg) (cle : Bool) (v : Sha2) (peer : Nat → List UInt8 → Reply) (M : Md) (inp : List UInt8),
      Peer cfg cle 1 peer ∧ v.iv = M.state cle [] ∧ 12 + v.struct + v.block ≤ v.dataLen ∧
      (hash (v.proto cle) peer 0 ⟨v.iv, []⟩ inp false).1 = (Rc.notimpl.code, none) ∧ 36 < inp.length ∧
      Holds (v.proto cle) (M.state cle) (inp.drop 64) (hash (v.proto cle) peer 0 ⟨v.iv, []⟩ inp false).2.1 := by
  refine ⟨ClientHashDemo.bare, true, ClientHashDemo.sha256 true, ClientHashDemo.link ClientHashDemo.bare true, ClientHashDemo.md,
    ClientHashDemo.input 100, ClientHashDemo.peer_link _ _, rfl, by decide, by decide +kernel, by decide +kernel, [], rfl, ?_, ?_, ?_⟩ <;>
    decide +kernel

/-! ## SHA-3 -/

/-- **C55**, SHA3-224 to SHA3-512, whatever the byte orders of client and server: if all calls of a
sequence return OK, the digests are those of the concatenated inputs since the digest before. -/
theorem C55_sha3 {cfg : CryptoMsg.Cfg} {cle : Bool} {v : Sha3} {action : UInt16} {peer : Nat → List UInt8 → Reply} {K : Sponge}
    (hb : 0 < v.block) (hd : 12 + 208 + v.block ≤ v.dataLen) (h32 : v.dataLen < 4294967296)
    (hs : cfg.codes.select action v.type 0 = .ok (.sha3 v.block)) (hpeer : Peer cfg cle action peer)
    (hK : K.Runs cfg.hashes v.block v.size) (calls : List Call)
    (hok : ∀ q ∈ results (v.proto cle) true peer 0 ⟨List.replicate 25 0, []⟩ calls, q.1 = 0) :
    (results (v.proto cle) true peer 0 ⟨List.replicate 25 0, []⟩ calls).map (·.2) = digests K.digest [] calls :=
  results_spec (sane3 hb hd) (keeps3 hd h32 hs hpeer hK) true calls 0 [] _ ⟨[], Nat.zero_mod _, hK.blank.symm, rfl, hb⟩ hok

open ClientHashDemo in
/-- A little-endian client of a big-endian server. -/
example : results (sha3.proto true) true (link (cfg false) true) 0 ⟨List.replicate 25 0, []⟩ calls =
      [(0, none), (0, none), (0, some (List.replicate 32 (sum ([1, 2, 3] ++ input 220) + 1))), (0, some (List.replicate 32 10))] := by
  decide +kernel

/-- **C55**, SHA-3, progress. -/
theorem C55_sha3_answered {cfg : CryptoMsg.Cfg} {cle : Bool} {v : Sha3} {action : UInt16} {peer : Nat → List UInt8 → Reply} {K : Sponge}
    (hb : 0 < v.block) (hd : 12 + 208 + v.block ≤ v.dataLen) (h32 : v.dataLen < 4294967296)
    (hs : cfg.codes.select action v.type 0 = .ok (.sha3 v.block)) (hpeer : Peer cfg cle action peer)
    (hK : K.Runs cfg.hashes v.block v.size) (ha : Answers v.dataLen peer) (hn : Steady cfg.hashes) (calls : List Call)
    (hc : ∀ c ∈ calls, c.Fits (v.proto cle)) :
    results (v.proto cle) true peer 0 ⟨List.replicate 25 0, []⟩ calls = (digests K.digest [] calls).map fun d => (0, d) := by
  have hk := keeps3 (cle := cle) hd h32 hs hpeer hK
  have hh : Holds (v.proto cle) K.state [] ⟨List.replicate 25 0, []⟩ := ⟨[], Nat.zero_mod _, hK.blank.symm, rfl, hb⟩
  exact results_eq (sane3 hb hd) hk true hh
    (results_ok (sane3 hb hd) hk (lively3 hd h32 hs hpeer hK ha hn) true calls 0 [] _ hh hc)

open ClientHashDemo in
/-- The hypotheses hold of the demonstration, for all byte orders. -/
example (le cle : Bool) (calls : List Call) (hc : ∀ c ∈ calls, c.Fits (sha3.proto cle)) :
    results (sha3.proto cle) true (link (cfg le) cle) 0 ⟨List.replicate 25 0, []⟩ calls =
      (digests sponge.digest [] calls).map fun d => (0, d) :=
  C55_sha3_answered (by decide) (by decide) (by decide) rfl (peer_link _ _) (runs3 le) (answers _ _ _) (steady le) calls hc

/-- **C55**, SHA-3, failures: with the functions that take input of any length, a failed call takes
nothing in, so the calls that succeed give the digests of what the successful calls took in.  A
failed call may be repeated. -/
theorem C55_sha3_failures {cfg : CryptoMsg.Cfg} {cle : Bool} {v : Sha3} {action : UInt16} {peer : Nat → List UInt8 → Reply} {K : Sponge}
    (hb : 0 < v.block) (hd : 12 + 208 + v.block ≤ v.dataLen) (h32 : v.dataLen < 4294967296)
    (hs : cfg.codes.select action v.type 0 = .ok (.sha3 v.block)) (hpeer : Peer cfg cle action peer)
    (hK : K.Runs cfg.hashes v.block v.size) (calls : List Call) (hw : ∀ c ∈ calls, c.Whole) :
    Kept K.digest [] (calls.zip (results (v.proto cle) true peer 0 ⟨List.replicate 25 0, []⟩ calls)) :=
  kept3 (sane3 hb hd) (keeps3 hd h32 hs hpeer hK) calls 0 [] _ ⟨[], Nat.zero_mod _, hK.blank.symm, rfl, hb⟩ hw

open ClientHashDemo in
/-- The first response is lost; the call is repeated. -/
example : results (sha3.proto true) true (lossy (cfg true) true) 0 ⟨List.replicate 25 0, []⟩ [.hash (input 200) true, .hash (input 200) true] =
    [(Rc.timeout.code, none), (0, some (List.replicate 32 (sum (input 200) + 1)))] := by decide +kernel

/-! ## Packets -/

/-- **C55**: the bytes that wait in the context are always fewer than a block (its buffer does not
overflow), and an Update request carries at most `maxInline` of them, which is what a packet has room
for, whatever the input and the answers. -/
theorem C55_buffer {σ : Type} {p : Proto σ} {peer : Nat → List UInt8 → Reply} (hb : 0 < p.block) (hw : p.maxInline % p.block = 0)
    (hr : p.block ≤ p.maxInline) {k : Nat} {st : St σ} (h : st.buf.length < p.block) (inp : List UInt8) :
    (update p peer k st inp).2.1.buf.length < p.block ∧
    (inp.length ≤ capacity p st → (pack p st.buf inp).1.length ≤ p.maxInline) := by
  have hp : Sane p := ⟨hb, hw, hr⟩
  refine ⟨?_, fun hc => (pack_spec hp h hc).2.2.1⟩
  unfold update
  by_cases hc : p.block ≤ st.buf.length ∨ capacity p st < inp.length
  · rw [if_pos hc]; exact h
  rw [if_neg hc]
  by_cases hi : inp.length = 0
  · rw [if_pos hi]; exact h
  rw [if_neg hi]
  have hq := (pack_spec (inp := inp) hp h (by omega)).2.2.2
  dsimp only
  by_cases hz : (pack p st.buf inp).1.length = 0
  · rw [if_pos hz]; exact hq
  · rw [if_neg hz]
    generalize peer k (p.request false st.chain (pack p st.buf inp).1) = a
    rcases a with rc | rc | r
    · exact h
    · exact hq
    · dsimp only
      generalize p.chain r = c
      rcases c with ⟨rc, _ | c⟩ <;> exact hq

open ClientHashDemo in
/-- Three bytes wait; 190 more give three blocks to send and one byte to keep. -/
example : ((pack ((sha256 true).proto true) [1, 2, 3] (input 190)).1.length, (pack ((sha256 true).proto true) [1, 2, 3] (input 190)).2.length) =
    (192, 1) ∧ 190 ≤ capacity ((sha256 true).proto true) ⟨(sha256 true).iv, [1, 2, 3]⟩ := by decide +kernel

end WolfHsm.Props

import Verif.Proofs.ClientHashDmaServer
import Verif.Props.ClientHash
import Verif.Props.CryptoDma

/-!
# C55 with input by DMA: packets and DMA mixed on one context
-/

namespace WolfHsm.Props

open ClientHash Utils

/-! ## Concrete servers -/

namespace ClientHashDmaDemo

open ClientHashDemo

/-- The switch for DMA requests of a server with SHA-256 and SHA3-256. -/
def select (_ : UInt16) (t _sub : UInt32) : Except Rc CryptoDma.Op :=
  if t = 6 then .ok (.sha256 6) else if t = 12 then .ok (.sha3 136) else .error .notimpl

/-- A server. -/
def dcfg (le : Bool) : CryptoDma.Cfg := { CryptoDmaDemo.cfg with base := ClientHashDemo.cfg le, select := select }

/-- Memory in which the buffer `b` holds what the client's memory holds at `src`. -/
def window (mem : UInt64 → UInt8) (src : UInt64) (b : CryptoDma.Buf) : CryptoDma.Env :=
  { CryptoDmaDemo.env with mem := fun a => mem (a - b.addr + src), readPre := fun _ => .ok }

/-- A client whose DMA callback adds 0x1000 to addresses, and the link to a server. -/
def host (cfg : CryptoDma.Cfg) (cle : Bool) : Host where
  pre _ a _ := .ok (a + 0x1000)
  send k mem src b body := .got (CryptoDma.handle cfg Keystore.Demo.one (window mem src b)
    ⟨if cfg.le = cle then magicNative else magicSwap, 1, UInt16.ofNat k, body ++ [7], body.length⟩ CryptoMsgDemo.sys).1.1

/-- The same, and the response to the first request is lost. -/
def lossy (cfg : CryptoDma.Cfg) (cle : Bool) : Host :=
  { host cfg cle with send := fun k mem src b body => if k = 0 then .lost Rc.timeout.code else (host cfg cle).send k mem src b body }

/-- A client that may not give away memory below 0x100. -/
def shy (cfg : CryptoDma.Cfg) (cle : Bool) : Host :=
  { host cfg cle with pre := fun _ a _ => if a < 0x100 then .error Rc.access.code else .ok (a + 0x1000) }

theorem window_read (mem : UInt64 → UInt8) (src : UInt64) (b : CryptoDma.Buf) : (window mem src b).read b = bytesOf mem src b.len := by
  unfold CryptoDma.Env.read bytesOf window
  apply List.map_congr_left
  intro i _
  show mem (b.addr + UInt64.ofNat i - b.addr + src) = _
  rw [UInt64.add_comm b.addr, UInt64.add_sub_cancel, UInt64.add_comm]

theorem willing (cfg : CryptoDma.Cfg) (cle : Bool) (n : Nat) : Willing cfg cle 1 n (host cfg cle) where
  pre _ a _ := ⟨a + 0x1000, rfl⟩
  send k mem src b _ _ := ⟨_, rfl, Keystore.Demo.one, window mem src b, CryptoMsgDemo.sys, UInt16.ofNat k, [7],
    window_read mem src b, fun _ => rfl, rfl⟩

theorem linked (cfg : CryptoDma.Cfg) (cle : Bool) : Linked cfg cle 1 (host cfg cle) where
  pre k a n rc h := by cases h
  send k mem src b body := Or.inr ⟨_, rfl, Keystore.Demo.one, window mem src b, CryptoMsgDemo.sys, UInt16.ofNat k, [7],
    window_read mem src b, fun _ => rfl, rfl⟩

theorem linked_lossy (cfg : CryptoDma.Cfg) (cle : Bool) : Linked cfg cle 1 (lossy cfg cle) where
  pre k a n rc h := by cases h
  send k mem src b body := by
    show (∃ rc, rc ≠ 0 ∧ ((if k = 0 then Reply.lost Rc.timeout.code else (host cfg cle).send k mem src b body) = .unsent rc ∨
      (if k = 0 then Reply.lost Rc.timeout.code else (host cfg cle).send k mem src b body) = .lost rc)) ∨
      ∃ resp, (if k = 0 then Reply.lost Rc.timeout.code else (host cfg cle).send k mem src b body) = .got resp ∧ _
    by_cases h : k = 0
    · rw [if_pos h]; exact Or.inl ⟨_, by decide, Or.inr rfl⟩
    · rw [if_neg h]; exact (linked cfg cle).send k mem src b body

theorem linked_shy (cfg : CryptoDma.Cfg) (cle : Bool) : Linked cfg cle 1 (shy cfg cle) where
  pre k a n rc h := by
    change (if a < 0x100 then Except.error Rc.access.code else Except.ok (a + 0x1000)) = Except.error rc at h
    by_cases hx : a < 0x100
    · rw [if_pos hx] at h; cases h; decide
    · rw [if_neg hx] at h; cases h
  send k mem src b body := (linked cfg cle).send k mem src b body

theorem served (le : Bool) : (sha256 le).ServedDma (dcfg le) 1 6 := ⟨rfl, _, rfl, rfl, rfl⟩

/-- Memory that holds the low byte of each address. -/
def mem (a : UInt64) : UInt8 := a.toUInt8

/-- Three bytes by packet, 220 bytes by DMA, 100 bytes by packet, the digest by DMA; then a second
message. -/
def calls : List Mixed := [.plain (.chunk [1, 2, 3]), .hash mem 0x240 220 false, .plain (.hash (input 100) false), .hash mem 0 0 true,
  .hash mem 0x300 9 true]

theorem calls_sized : ∀ c ∈ calls, c.Sized := by
  unfold calls
  simp [Mixed.Sized]

end ClientHashDmaDemo

/-! ## SHA-2 -/

/-- **C55**, SHA-224, SHA-256, SHA-384, SHA-512, with the input in packets or by DMA, mixed in any way
on one context, client and server of the same byte order: if all calls of a sequence return OK, the
digests are those of the concatenated inputs since the digest before.  `mem` in a call is the
client's memory during that call. -/
theorem C55_sha2_dma_partial {cfg : CryptoDma.Cfg} {cle : Bool} {v : Sha2} {action : UInt16} {t : UInt32} {pad : List UInt8}
    {peer : Nat → List UInt8 → Reply} {h : Host} {M : Md} (hd : 12 + v.struct + v.block ≤ v.dataLen) (h32 : v.dataLen < 4294967296)
    (hpad : pad.length = 4) (hs : v.Served cfg.base action t) (hs' : v.ServedDma cfg action t) (hpeer : Peer cfg.base cle action peer)
    (hl : Linked cfg cle action h) (hle : cfg.le = cle)
    (hM : M.Runs cfg.base.hashes cfg.le t v.block v.words v.size) (hiv : v.iv = M.state cle []) (calls : List Mixed)
    (hc : ∀ c ∈ calls, c.Sized)
    (hok : ∀ q ∈ outcomes (v.proto cle) (v.lane cle pad) false peer h 0 ⟨v.iv, []⟩ calls, q.1 = 0) :
    (outcomes (v.proto cle) (v.lane cle pad) false peer h 0 ⟨v.iv, []⟩ calls).map (·.2) = digests M.digest [] (calls.map Mixed.call) :=
  outcomes_spec (sane2 hd) (keeps2 hd h32 hs hpeer hle hM hiv) (keepsDma2 hpad hs' hl hle hM hiv) false calls 0 [] _ hc
    ⟨[], Nat.zero_mod _, hiv, rfl, (sane2 (cle := cle) hd).block⟩ hok

open ClientHashDmaDemo ClientHashDemo in
/-- A big-endian client and server, a message of 323 bytes. -/
example : 12 + (sha256 false).struct + (sha256 false).block ≤ (sha256 false).dataLen ∧
    outcomes ((sha256 false).proto false) ((sha256 false).lane false [9, 9, 9, 9]) false (link (dcfg false).base false) (host (dcfg false) false)
      0 ⟨(sha256 false).iv, []⟩ calls =
      [(0, none), (0, none), (0, none), (0, some (List.replicate 32 (sum ([1, 2, 3] ++ bytesOf mem 0x240 220 ++ input 100)))),
        (0, some (List.replicate 32 (sum (bytesOf mem 0x300 9))))] := by
  decide +kernel

/-- **C55**, SHA-2 with DMA, progress: when every request is answered, no buffer is refused and the
crypto library does not fail, all calls return OK, and so the digests are right. -/
theorem C55_sha2_dma_answered_partial {cfg : CryptoDma.Cfg} {cle : Bool} {v : Sha2} {action : UInt16} {t : UInt32} {pad : List UInt8}
    {peer : Nat → List UInt8 → Reply} {h : Host} {M : Md} (hd : 12 + v.struct + v.block ≤ v.dataLen) (hd' : 12 + v.dmaStruct + v.block ≤ v.dataLen)
    (h32 : v.dataLen < 4294967296)
    (hpad : pad.length = 4) (hs : v.Served cfg.base action t) (hs' : v.ServedDma cfg action t) (hpeer : Peer cfg.base cle action peer)
    (hl : Linked cfg cle action h) (hle : cfg.le = cle)
    (hM : M.Runs cfg.base.hashes cfg.le t v.block v.words v.size) (hiv : v.iv = M.state cle []) (ha : Answers v.dataLen peer)
    (ha' : Willing cfg cle action v.dataLen h) (hn : Steady cfg.base.hashes) (calls : List Mixed)
    (hc : ∀ c ∈ calls, c.Sized) (hf : ∀ c ∈ calls, c.Fits (v.proto cle)) :
    outcomes (v.proto cle) (v.lane cle pad) false peer h 0 ⟨v.iv, []⟩ calls =
      (digests M.digest [] (calls.map Mixed.call)).map fun g => (0, g) :=
  outcomes_ok (sane2 hd) (keeps2 hd h32 hs hpeer hle hM hiv) (keepsDma2 hpad hs' hl hle hM hiv)
    (lively2 hd h32 hs hpeer hle hM ha hn) (livelyDma2 hpad hd' hs' ha' hle hM hn) false calls 0 [] _ hc hf
    ⟨[], Nat.zero_mod _, hiv, rfl, (sane2 (cle := cle) hd).block⟩

open ClientHashDmaDemo ClientHashDemo in
/-- The hypotheses hold of the demonstration in both byte orders. -/
example (le : Bool) (calls : List Mixed) (hc : ∀ c ∈ calls, c.Sized) (hf : ∀ c ∈ calls, c.Fits ((sha256 le).proto le)) :
    outcomes ((sha256 le).proto le) ((sha256 le).lane le [0, 0, 0, 0]) false (link (dcfg le).base le) (host (dcfg le) le) 0 ⟨(sha256 le).iv, []⟩ calls =
      (digests md.digest [] (calls.map Mixed.call)).map fun g => (0, g) :=
  C55_sha2_dma_answered_partial (by cases le <;> decide) (by cases le <;> decide) (by cases le <;> decide) (pad := [0, 0, 0, 0]) rfl (ClientHashDemo.served le)
    (ClientHashDmaDemo.served le) (peer_link _ _) (linked _ _) rfl (runs le 6) rfl (answers _ _ _) (willing _ _ _) (steady le) calls hc hf

/-- **Finding**: what `F_C55_sha2_retry` shows of packets is true of DMA, too: a call whose response is
lost has moved the input's last bytes into the context, so repeating it gives a wrong digest with OK. -/
theorem F_C55_sha2_dma_retry :
    ∃ (cfg : CryptoDma.Cfg) (cle : Bool) (v : Sha2) (action : UInt16) (t : UInt32) (pad : List UInt8) (peer : Nat → List UInt8 → Reply)
      (h : Host) (M : Md) (mem : UInt64 → UInt8) (a : UInt64) (n : Nat),
      cfg.le = cle ∧ 12 + v.dmaStruct + v.block ≤ v.dataLen ∧ v.ServedDma cfg action t ∧ Linked cfg cle action h ∧
      M.Runs cfg.base.hashes cfg.le t v.block v.words v.size ∧ v.iv = M.state cle [] ∧
      outcomes (v.proto cle) (v.lane cle pad) false peer h 0 ⟨v.iv, []⟩ [.hash mem a n true, .hash mem a n true] =
        [(Rc.timeout.code, none), (0, some (M.digest ((bytesOf mem a n).drop 64 ++ bytesOf mem a n)))] ∧
      M.digest ((bytesOf mem a n).drop 64 ++ bytesOf mem a n) ≠ M.digest (bytesOf mem a n) := by
  refine ⟨ClientHashDmaDemo.dcfg true, true, ClientHashDemo.sha256 true, 1, 6, [0, 0, 0, 0], ClientHashDemo.link (ClientHashDemo.cfg true) true,
    ClientHashDmaDemo.lossy (ClientHashDmaDemo.dcfg true) true, ClientHashDemo.md, ClientHashDmaDemo.mem, 0, 100, rfl, by decide,
    ClientHashDmaDemo.served true, ClientHashDmaDemo.linked_lossy _ _, ClientHashDemo.runs true 6, rfl, ?_, ?_⟩ <;> decide +kernel

/-- **Finding**: and so is `F_C55_sha2_byte_order`, although the state is "passed inline (not via DMA)
for cross-architecture safety" (`wolfhsm/wh_message_crypto.h:1301-1302`). -/
theorem F_C55_sha2_dma_byte_order :
    ∃ (cfg : CryptoDma.Cfg) (cle : Bool) (v : Sha2) (action : UInt16) (t : UInt32) (pad : List UInt8) (peer : Nat → List UInt8 → Reply)
      (h : Host) (M : Md) (mem : UInt64 → UInt8) (a : UInt64) (n : Nat),
      cfg.le ≠ cle ∧ 12 + v.dmaStruct + v.block ≤ v.dataLen ∧ v.ServedDma cfg action t ∧ Linked cfg cle action h ∧
      M.Runs cfg.base.hashes cfg.le t v.block v.words v.size ∧ v.iv = M.state cle [] ∧
      ∃ g, outcomes (v.proto cle) (v.lane cle pad) false peer h 0 ⟨v.iv, []⟩ [.hash mem a n true] = [(0, some g)] ∧
        g ≠ M.digest (bytesOf mem a n) := by
  refine ⟨ClientHashDmaDemo.dcfg false, true, ClientHashDemo.sha256 true, 1, 6, [0, 0, 0, 0], ClientHashDemo.link (ClientHashDemo.cfg false) true,
    ClientHashDmaDemo.host (ClientHashDmaDemo.dcfg false) true, ClientHashDemo.md, ClientHashDmaDemo.mem, 0, 100, by decide, by decide,
    ⟨rfl, _, rfl, rfl, rfl⟩, ClientHashDmaDemo.linked _ _, ClientHashDemo.runs false 6, rfl, List.replicate 32 87, ?_, ?_⟩ <;> decide +kernel

/-! ## SHA-3 -/

/-- **C55**, SHA-3 with the input in packets or by DMA, mixed in any way, whatever the byte orders. -/
theorem C55_sha3_dma {cfg : CryptoDma.Cfg} {cle : Bool} {v : Sha3} {action : UInt16} {peer : Nat → List UInt8 → Reply} {h : Host} {K : Sponge}
    (hb : 0 < v.block) (hd : 12 + 208 + v.block ≤ v.dataLen) (h32 : v.dataLen < 4294967296)
    (hs : cfg.base.codes.select action v.type 0 = .ok (.sha3 v.block)) (hs' : cfg.select action v.type 0 = .ok (.sha3 v.block))
    (hpeer : Peer cfg.base cle action peer) (hl : Linked cfg cle action h)
    (hK : K.Runs cfg.base.hashes v.block v.size) (calls : List Mixed) (hc : ∀ c ∈ calls, c.Sized)
    (hok : ∀ q ∈ outcomes (v.proto cle) (v.lane cle) true peer h 0 ⟨List.replicate 25 0, []⟩ calls, q.1 = 0) :
    (outcomes (v.proto cle) (v.lane cle) true peer h 0 ⟨List.replicate 25 0, []⟩ calls).map (·.2) =
      digests K.digest [] (calls.map Mixed.call) :=
  outcomes_spec (sane3 hb hd) (keeps3 hd h32 hs hpeer hK) (keepsDma3 (by omega) hs' hl hK) true calls 0 [] _ hc
    ⟨[], Nat.zero_mod _, hK.blank.symm, rfl, hb⟩ hok

open ClientHashDmaDemo ClientHashDemo in
/-- A little-endian client of a big-endian server. -/
example : outcomes (sha3.proto true) (sha3.lane true) true (link (dcfg false).base true) (host (dcfg false) true)
      0 ⟨List.replicate 25 0, []⟩ calls =
      [(0, none), (0, none), (0, none), (0, some (List.replicate 32 (sum ([1, 2, 3] ++ bytesOf mem 0x240 220 ++ input 100) + 1))),
        (0, some (List.replicate 32 (sum (bytesOf mem 0x300 9) + 1)))] := by
  decide +kernel

/-- **C55**, SHA-3 with DMA, progress. -/
theorem C55_sha3_dma_answered {cfg : CryptoDma.Cfg} {cle : Bool} {v : Sha3} {action : UInt16} {peer : Nat → List UInt8 → Reply} {h : Host}
    {K : Sponge} (hb : 0 < v.block) (hd : 12 + 224 + v.block ≤ v.dataLen) (h32 : v.dataLen < 4294967296)
    (hs : cfg.base.codes.select action v.type 0 = .ok (.sha3 v.block)) (hs' : cfg.select action v.type 0 = .ok (.sha3 v.block))
    (hpeer : Peer cfg.base cle action peer) (hl : Linked cfg cle action h)
    (hK : K.Runs cfg.base.hashes v.block v.size) (ha : Answers v.dataLen peer) (ha' : Willing cfg cle action v.dataLen h)
    (hn : Steady cfg.base.hashes) (calls : List Mixed) (hc : ∀ c ∈ calls, c.Sized) (hf : ∀ c ∈ calls, c.Fits (v.proto cle)) :
    outcomes (v.proto cle) (v.lane cle) true peer h 0 ⟨List.replicate 25 0, []⟩ calls =
      (digests K.digest [] (calls.map Mixed.call)).map fun g => (0, g) := by
  have hd0 : 12 + 208 + v.block ≤ v.dataLen := by omega
  exact outcomes_ok (sane3 hb hd0) (keeps3 hd0 h32 hs hpeer hK) (keepsDma3 (by omega) hs' hl hK)
    (lively3 hd0 h32 hs hpeer hK ha hn) (livelyDma3 (by omega) hd hs' ha' hK hn) true calls 0 [] _ hc hf
    ⟨[], Nat.zero_mod _, hK.blank.symm, rfl, hb⟩

open ClientHashDmaDemo ClientHashDemo in
/-- The hypotheses hold of the demonstration, for all byte orders. -/
example (le cle : Bool) (calls : List Mixed) (hc : ∀ c ∈ calls, c.Sized) (hf : ∀ c ∈ calls, c.Fits (sha3.proto cle)) :
    outcomes (sha3.proto cle) (sha3.lane cle) true (link (dcfg le).base cle) (host (dcfg le) cle) 0 ⟨List.replicate 25 0, []⟩ calls =
      (digests sponge.digest [] (calls.map Mixed.call)).map fun g => (0, g) :=
  C55_sha3_dma_answered (by decide) (by decide) (by decide) rfl rfl (peer_link _ _) (linked _ _) (runs3 le) (answers _ _ _)
    (willing _ _ _) (steady le) calls hc hf

/-- **C55**, SHA-3 with DMA, failures: a failed call, be it a lost response or a refused buffer, takes
nothing in. -/
theorem C55_sha3_dma_failures {cfg : CryptoDma.Cfg} {cle : Bool} {v : Sha3} {action : UInt16} {peer : Nat → List UInt8 → Reply} {h : Host}
    {K : Sponge} (hb : 0 < v.block) (hd : 12 + 208 + v.block ≤ v.dataLen) (h32 : v.dataLen < 4294967296)
    (hs : cfg.base.codes.select action v.type 0 = .ok (.sha3 v.block)) (hs' : cfg.select action v.type 0 = .ok (.sha3 v.block))
    (hpeer : Peer cfg.base cle action peer) (hl : Linked cfg cle action h)
    (hK : K.Runs cfg.base.hashes v.block v.size) (calls : List Mixed) (hc : ∀ c ∈ calls, c.Sized) (hw : ∀ c ∈ calls, c.Whole) :
    Kept K.digest [] ((calls.map Mixed.call).zip
      (outcomes (v.proto cle) (v.lane cle) true peer h 0 ⟨List.replicate 25 0, []⟩ calls)) :=
  kept_mixed (sane3 hb hd) (keeps3 hd h32 hs hpeer hK) (keepsDma3 (by omega) hs' hl hK) calls 0 [] _ hc
    ⟨[], Nat.zero_mod _, hK.blank.symm, rfl, hb⟩ hw

open ClientHashDmaDemo ClientHashDemo in
/-- Five bytes by packet; 400 bytes at an address the client may not give away; the same bytes from
elsewhere. -/
example : outcomes (sha3.proto true) (sha3.lane true) true (link (dcfg true).base true) (shy (dcfg true) true) 0 ⟨List.replicate 25 0, []⟩
    [.plain (.hash [1, 2, 3, 4, 5] false), .hash mem 0 400 true, .hash mem 0x200 400 true] =
    [(0, none), (Rc.access.code, none), (0, some (List.replicate 32 (sum ([1, 2, 3, 4, 5] ++ bytesOf mem 0x200 400) + 1)))] := by
  decide +kernel

/-! ## Packets -/

/-- **C55** with DMA: the bytes that wait in the context are always fewer than a block, the inline part
of a request is at most one block, and the part the server fetches lies within the caller's buffer. -/
theorem C55_dma_buffer {σ : Type} {p : Proto σ} {d : Lane σ} {h : Host} (hb : 0 < p.block) {k : Nat} {st : St σ}
    (hs : st.buf.length < p.block) (mem : UInt64 → UInt8) (a : UInt64) (n : Nat) :
    (updateDma p d h k st mem a n).2.1.buf.length < p.block ∧
    (cut p.block st.buf (bytesOf mem a n)).inline.length ≤ p.block ∧
    (cut p.block st.buf (bytesOf mem a n)).off + (cut p.block st.buf (bytesOf mem a n)).sz ≤ n := by
  obtain ⟨-, -, q3, -, q5, q6⟩ := cut_spec (inp := bytesOf mem a n) hb hs
  rw [bytesOf_length] at q5
  refine ⟨?_, q3, q5⟩
  unfold updateDma
  rw [if_neg (by omega)]
  by_cases hi : n = 0
  · rw [if_pos hi]; exact hs
  rw [if_neg hi]
  dsimp only
  generalize cut p.block st.buf (bytesOf mem a n) = q at *
  by_cases hw : q.inline.length = 0 ∧ q.sz = 0
  · rw [if_pos hw]; exact q6
  · rw [if_neg hw]
    generalize (if q.sz = 0 then 0 else a + UInt64.ofNat q.off) = src
    generalize (if q.sz = 0 then (Except.ok 0 : Except Ret UInt64) else h.pre k src q.sz) = x
    rcases x with rc | addr
    · exact hs
    · dsimp only
      generalize h.send k mem src ⟨addr, UInt64.ofNat q.sz⟩ (d.request false st.chain q.inline ⟨addr, UInt64.ofNat q.sz⟩) = y
      rcases y with rc | rc | r
      · exact hs
      · exact q6
      · dsimp only
        generalize d.chain r = c
        rcases c with ⟨rc, _ | c⟩ <;> exact q6

open ClientHashDmaDemo in
/-- Three bytes wait; of 200 more, 61 complete the block, 128 are fetched, 11 wait. -/
example : ((cut 64 [1, 2, 3] (bytesOf mem 0x1000 200)).inline.length, (cut 64 [1, 2, 3] (bytesOf mem 0x1000 200)).off,
    (cut 64 [1, 2, 3] (bytesOf mem 0x1000 200)).sz, (cut 64 [1, 2, 3] (bytesOf mem 0x1000 200)).tail.length) = (64, 61, 128, 11) := by
  decide +kernel

end WolfHsm.Props

import Verif.Proofs.CryptoDmaMem
import Verif.Props.CryptoMsg
import Verif.Props.Dma
import Verif.Proofs.StatefulSigDemo

/-!
# C27, C39, C44 for the DMA crypto request group
-/

namespace WolfHsm.Props

open Server (Req)
open CryptoDma (Op Buf Complete Roomy Bounded SameIn)

/-! ## A concrete server -/

namespace CryptoDmaDemo

/-- AES-CBC, ML-DSA and LMS signatures, ML-KEM decapsulation, random numbers, SHA-256. -/
def select (a : UInt16) (t _sub : UInt32) : Except Rc Op :=
  if a = 2 then if t = 2 then .ok (.aes .cbc) else .error .nohandler
  else if a = 3 then
    if t = 1 then .ok .signMlDsa else if t = 5 then .ok .decaps else if t = 6 then .ok (.sigSign .lms)
    else if t = 7 then .ok (.sigGen .lms) else .error .nohandler
  else if a = 4 then .ok .rng
  else if a = 1 then if t = 6 then .ok (.sha256 6) else .error .nohandler
  else .error .nohandler

/-- A little-endian server. -/
def cfg : CryptoDma.Cfg where
  base := CryptoMsgDemo.cfg
  select := select
  kem _ := (800, 768)
  sigLib _ := StatefulDemo.lib
  sigVerify _ _ _ _ := .ok 1
  sigsLeft _ _ := 5

/-- Client memory holds the low byte of each address.  It may be read from 1000 on and written from
2000 on.  The key an LMS key generation makes is "key 7, index 0". -/
def env : CryptoDma.Env where
  coins := [1, 2, 3]
  random n := .ok (List.replicate n 4)
  locks _ := .ok
  mem a := a.toUInt8
  readPre b := if b.addr < 0x1000 then .access else .ok
  writePre b := if b.addr < 0x2000 then .access else .ok
  writePost _ := .ok
  stack := ⟨0xDEAD, 0xBEEF⟩
  init := .ok
  made _ _ := .ok ([42], [7, 0])

/-- A request of a little-endian client. -/
def req (action : UInt16) (body : List UInt8) : Req := CryptoMsgDemo.req action body

/-- A buffer in a request. -/
def bytes (addr sz : UInt64) : List UInt8 := Wire.w64 true Utils.magicNative addr ++ Wire.w64 true Utils.magicNative sz

/-- Ask for `sz` random bytes at `addr`. -/
def rng (addr sz : UInt64) : List UInt8 := List.replicate 12 0 ++ bytes addr sz
/-- ML-DSA signature by key 7 of two bytes at 1008, to 2000, where there is room for 64 bytes. -/
def sign (msg : UInt64) : List UInt8 := [1, 0, 0, 0, 0, 0, 0, 0, 0, 0, 0, 0] ++ bytes msg 2 ++ bytes 0x2000 64 ++
  [0, 0, 0, 0, 0, 0, 0, 0, 7, 0, 0, 0, 0, 0, 0, 0, 0, 0, 0, 0, 0, 0, 0, 0]
/-- SHA-256 update with 64 bytes at 1040. -/
def sha : List UInt8 := [6, 0, 0, 0, 0, 0, 0, 0, 0, 0, 0, 0] ++ [0, 0, 0, 0, 0, 0, 0, 0] ++ List.replicate 32 1 ++
  bytes 0x1040 64 ++ [0, 0, 0, 0, 0, 0, 0, 0]
/-- Make an LMS key as key 5, its public key goes to 2000. -/
def lmsGen : List UInt8 := [7, 0, 0, 0, 0, 0, 0, 0, 0, 0, 0, 0] ++ bytes 0x2000 8 ++
  [0, 0, 0, 0, 5, 0, 0, 0, 0, 0, 0, 0, 4, 0, 0, 0, 1, 0, 0, 0, 1, 0, 0, 0, 1, 0, 0, 0] ++ List.replicate 60 0
/-- LMS signature by key 5 of one byte at 1009, to 2000. -/
def lmsSign : List UInt8 := [6, 0, 0, 0, 0, 0, 0, 0, 0, 0, 0, 0] ++ bytes 0x1009 1 ++ bytes 0x2000 64 ++ [0, 0, 0, 0, 5, 0, 0, 0]

/-- Key store at boot. -/
def sys : Keystore.Sys := CryptoMsgDemo.sys

theorem roomy : Roomy cfg 1280 where
  room := by decide
  encaps := by
    intro p k c ct ss h
    have := (CryptoMsgDemo.small (Nat.le_refl 64)).encaps _ _ _ _ _ h
    omega
  decaps := by
    intro p k ct ss h
    have := (CryptoMsgDemo.small (Nat.le_refl 64)).decaps _ _ _ _ h
    omega
  aes := fun _ _ _ _ _ _ _ _ h => ((CryptoMsgDemo.small (Nat.le_refl 64)).aes _ _ _ _ _ _ _ _ h).2
  tag := fun _ _ _ _ _ h => (CryptoMsgDemo.small (Nat.le_refl 64)).tag _ _ _ _ _ h
  cmac := fun _ _ _ _ h => (CryptoMsgDemo.small (Nat.le_refl 64)).cmac _ _ _ _ h
  cmacFinal := fun _ _ _ _ _ h => (CryptoMsgDemo.small (Nat.le_refl 64)).cmacFinal _ _ _ _ _ h

theorem fit_max {max : Nat} {b c : List UInt8} (h : CryptoMsgDemo.fit max b = .ok c) : c.length ≤ max := by
  unfold CryptoMsgDemo.fit Crypto.Demo.fit at h
  split at h
  · cases h; omega
  · cases h

/-- The server with an LMS that has room for its signatures. -/
def tidy : CryptoDma.Cfg := { cfg with sigLib := fun _ => { StatefulDemo.lib with
  sign := fun pub priv msg cap => match StatefulDemo.lib.sign pub priv msg cap with
    | .error rc => .error rc
    | .ok (sig, priv') => if sig.length ≤ cap then .ok (sig, priv') else .error .bufferSize } }

theorem bounded : Bounded tidy env where
  aes := fun _ _ _ _ _ _ _ _ h => ((CryptoMsgDemo.small (Nat.le_refl 64)).aes _ _ _ _ _ _ _ _ h).1
  sign := fun _ _ _ _ _ _ _ _ h => fit_max h
  privateDer := fun _ _ _ _ h => fit_max h
  publicDer := fun _ _ _ _ h => fit_max h
  kemPub := by
    intro level coins obj max der _ h
    have := CryptoMsgDemo.fit_le h
    show der.length ≤ 800
    omega
  encaps := by
    intro level k coins ct ss h
    have := (CryptoMsgDemo.small (Nat.le_refl 64)).encaps _ _ _ _ _ h
    show ct.length ≤ 768
    omega
  random := by
    intro n b h
    change Except.ok (List.replicate n _) = _ at h
    cases h
    exact Nat.le_of_eq List.length_replicate
  sigSign := by
    intro a pub priv msg cap sig priv' h
    change (match StatefulDemo.lib.sign pub priv msg cap with
      | .error rc => Except.error rc
      | .ok (sig, priv') => if sig.length ≤ cap then Except.ok (sig, priv') else .error .bufferSize) = _ at h
    split at h
    · cases h
    · split at h
      · cases h; assumption
      · cases h
  sigGen := by
    intro a param pub priv n m h hp
    change Except.ok ([42], [7, 0]) = _ at h
    cases h
    change (if param = [1, 1, 1] ∨ param = [1, 0] then Except.ok (1, 2) else Except.error Rc.badargs) = _ at hp
    split at hp
    · cases hp; exact ⟨by decide, Nat.le_refl 1⟩
    · cases hp

end CryptoDmaDemo

open CryptoDmaDemo in
/-- The key 7 (bytes 5E C2 E7) signs 08 09: the signature is in client memory at 2000, the response
has its length (behind what the stack held). -/
example : (CryptoDma.handle cfg Keystore.Demo.one env (req 3 (sign 0x1008)) sys).1 =
    ([1, 0, 0, 0, 0, 0, 0, 0, 0, 0, 0, 0] ++ bytes 0xDEAD 0xBEEF ++ [2, 0, 0, 0] ++ [0, 0, 0, 0],
     some (0x2000, [0x07 + 0x11, 0x51])) := by decide +kernel

/-! ## C44 -/

/-- **C44**, DMA crypto group: what a request does to the key store and to client memory, and its
response, depend on nothing behind the received bytes, whatever they are.  Partial: of a SHA-224 or
SHA-256 request of less than 108 bytes only the first 104 bytes of the response, see
`F_C44_sha_padding`. -/
theorem C44_cryptoDma_partial (cfg : CryptoDma.Cfg) (v : Keystore.Srv) (e : CryptoDma.Env) (s : Keystore.Sys) (r r' : Req)
    (hm : r'.magic = r.magic) (ha : r'.action = r.action) (hs : r'.size = r.size) (hd : r'.data = r.data) :
    (CryptoDma.handle cfg v e r' s).2 = (CryptoDma.handle cfg v e r s).2 ∧
    (CryptoDma.handle cfg v e r' s).1.2 = (CryptoDma.handle cfg v e r s).1.2 ∧
    (CryptoDma.handle cfg v e r' s).1.1.length = (CryptoDma.handle cfg v e r s).1.1.length ∧
    (CryptoDma.handle cfg v e r' s).1.1.take 104 = (CryptoDma.handle cfg v e r s).1.1.take 104 ∧
    ((108 ≤ r.size ∨ ∀ t, cfg.select r.action (Wire.rd32 cfg.le r.magic r.buf 0) (Wire.rd32 cfg.le r.magic r.buf 4) ≠ .ok (.sha256 t)) →
      (CryptoDma.handle cfg v e r' s).1.1 = (CryptoDma.handle cfg v e r s).1.1) := by
  have hsame : CryptoMsg.Same r r' := ⟨hm, ha, hs, by have := hd; unfold Req.data at this; rwa [hs] at this⟩
  obtain ⟨h1, h2, h3, h4, h5⟩ := CryptoDma.handle_same (cfg := cfg) hsame v e s
  refine ⟨h1, h2, h3, h4, fun h => h5 ?_⟩
  rintro ⟨h6, t, h7⟩
  rcases h with h | h
  · omega
  · exact h t h7

open CryptoDmaDemo in
/-- The sign request in front of different leftovers of earlier packets. -/
example : (⟨Utils.magicNative, 3, 1, sign 0x1008 ++ [1, 2], 68⟩ : Req).data = (⟨Utils.magicNative, 3, 1, sign 0x1008 ++ [3], 68⟩ : Req).data ∧
    (CryptoDma.handle cfg Keystore.Demo.one env ⟨Utils.magicNative, 3, 1, sign 0x1008 ++ [1, 2], 68⟩ sys).1 =
    (CryptoDma.handle cfg Keystore.Demo.one env (req 3 (sign 0x1008)) sys).1 := by decide +kernel

open CryptoDmaDemo in
/-- Two SHA-256 requests with the same bytes get different responses: the padding at the end of the
response shows what earlier packets left in the buffer. -/
theorem F_C44_sha_padding : ∃ r r' : Req, r'.magic = r.magic ∧ r'.action = r.action ∧ r'.size = r.size ∧ r'.data = r.data ∧
    (CryptoDma.handle cfg Keystore.Demo.one env r' sys).1.1 ≠ (CryptoDma.handle cfg Keystore.Demo.one env r sys).1.1 :=
  ⟨⟨Utils.magicNative, 1, 1, sha ++ List.replicate 32 0x55, 76⟩, ⟨Utils.magicNative, 1, 1, sha ++ List.replicate 32 0x66, 76⟩,
    by decide +kernel⟩

/-- **C44**, DMA crypto group: a request that does not hold its structure or the data it announces
changes nothing, in the key store and in client memory, and the answer is the error and nothing else. -/
theorem C44_cryptoDma_refused (cfg : CryptoDma.Cfg) (v : Keystore.Srv) (e : CryptoDma.Env) (s : Keystore.Sys) (r : Req)
    (h12 : 12 ≤ r.size) {op : Op}
    (ho : cfg.select r.action (Wire.rd32 cfg.le r.magic r.buf 0) (Wire.rd32 cfg.le r.magic r.buf 4) = .ok op)
    (hc : ¬ Complete cfg.le r op) :
    CryptoDma.handle cfg v e r s =
      ((Wire.w32 cfg.le r.magic (Wire.rd32 cfg.le r.magic r.buf 0) ++ Wire.w32 cfg.le r.magic Rc.badargs.code ++
        Wire.w32 cfg.le r.magic 0, none), s) := by
  unfold CryptoDma.handle
  rw [if_neg (by omega), ho]
  dsimp only
  rw [CryptoDma.decode_incomplete e hc]
  rfl

open CryptoDmaDemo in
/-- The sign request without its last byte. -/
example : ¬ Complete cfg.le (req 3 (sign 0x1008).dropLast) .signMlDsa ∧ Complete cfg.le (req 3 (sign 0x1008)) .signMlDsa := by
  unfold Complete
  decide +kernel

/-- **C44**, DMA crypto group: a request for an algorithm the server does not have changes nothing,
and the answer is the error and nothing else. -/
theorem C44_cryptoDma_unknown (cfg : CryptoDma.Cfg) (v : Keystore.Srv) (e : CryptoDma.Env) (s : Keystore.Sys) (r : Req)
    (h12 : 12 ≤ r.size) {rc : Rc}
    (ho : cfg.select r.action (Wire.rd32 cfg.le r.magic r.buf 0) (Wire.rd32 cfg.le r.magic r.buf 4) = .error rc) :
    CryptoDma.handle cfg v e r s =
      ((Wire.w32 cfg.le r.magic (Wire.rd32 cfg.le r.magic r.buf 0) ++ Wire.w32 cfg.le r.magic rc.code ++
        Wire.w32 cfg.le r.magic 0, none), s) := by
  unfold CryptoDma.handle
  rw [if_neg (by omega), ho]
  rfl

open CryptoDmaDemo in
example : select 9 0 0 = .error .nohandler := by decide

/-- A DMA crypto request of less than twelve bytes changes nothing; it gets its own bytes back as the
answer, with no return code in it. -/
theorem F_cryptoDma_short_echo (cfg : CryptoDma.Cfg) (v : Keystore.Srv) (e : CryptoDma.Env) (s : Keystore.Sys) (r : Req)
    (h : r.size < 12) : CryptoDma.handle cfg v e r s = ((r.data, none), s) := by
  unfold CryptoDma.handle; rw [if_pos h]

example : (⟨Utils.magicNative, 3, 1, [3, 0, 0, 0], 4⟩ : Req).size < 12 := by decide

/-- **C44**, DMA crypto group: whatever the bytes of a packet, the key store afterwards is the one
after a handler run of `Model/Crypto.lean` on some request, or after one LMS or XMSS request of
`Model/StatefulSig.lean`, or it does not change.  So the theorems on handler runs (C19, C20, C46,
C51) and on stateful signatures (C48) cover all packets. -/
theorem C44_cryptoDma_packets_are_events (cfg : CryptoDma.Cfg) (ncfg : NvmServer.Cfg) (v : Keystore.Srv) (hv : v.client < 16)
    (e : CryptoDma.Env) (r : Req) (s : Keystore.Sys) (hp : s.nvm.powered = true) (hs : StatefulSig.Reach cfg.sig ncfg s) :
    StatefulSig.Reach cfg.sig ncfg (CryptoDma.handle cfg v e r s).2 ∧
    ((CryptoDma.handle cfg v e r s).2 = s ∨
      (∃ q es o, Crypto.Exec cfg.base.crypto.ks ncfg v s (Crypto.handler cfg.base.crypto cfg.base.lib v q) es o ∧
        Keystore.run cfg.base.crypto.ks ncfg s es = (CryptoDma.handle cfg v e r s).2) ∨
      (∃ q, (StatefulSig.step cfg.sig ncfg s (.sign v q)).2 = (CryptoDma.handle cfg v e r s).2) ∨
      (∃ q, (StatefulSig.step cfg.sig ncfg s (.keyGen v q)).2 = (CryptoDma.handle cfg v e r s).2) ∨
      ∃ lock lock2 i ev, (StatefulSig.step cfg.sig ncfg s (.look v lock lock2 i ev)).2 = (CryptoDma.handle cfg v e r s).2) := by
  have key : (CryptoDma.handle cfg v e r s).2 = s ∨
      (∃ q, (CryptoDma.handle cfg v e r s).2 =
        (CryptoMsg.exec cfg.base.crypto.ks v e.locks 0 (Crypto.handler cfg.base.crypto cfg.base.lib v q) s).2) ∨
      (∃ q, (StatefulSig.step cfg.sig ncfg s (.sign v q)).2 = (CryptoDma.handle cfg v e r s).2) ∨
      (∃ q, (StatefulSig.step cfg.sig ncfg s (.keyGen v q)).2 = (CryptoDma.handle cfg v e r s).2) ∨
      ∃ lock lock2 i ev, (StatefulSig.step cfg.sig ncfg s (.look v lock lock2 i ev)).2 = (CryptoDma.handle cfg v e r s).2 := by
    unfold CryptoDma.handle StatefulSig.step
    simp only [hp, if_true]
    by_cases h12 : r.size < 12
    · rw [if_pos h12]; exact .inl rfl
    rw [if_neg h12]
    generalize cfg.select r.action _ _ = x
    rcases x with rc | op
    · exact .inl rfl
    dsimp only
    generalize CryptoDma.decode cfg e r op = y
    rcases y with rc | t
    · exact .inl rfl
    cases t with
    | keys q =>
      refine .inr (.inl ⟨q, ?_⟩)
      dsimp only
      generalize CryptoMsg.exec cfg.base.crypto.ks v e.locks 0 (Crypto.handler cfg.base.crypto cfg.base.lib v q) s = z
      rcases z with ⟨_ | _, _⟩ <;> rfl
    | sign q => exact .inr (.inr (.inl ⟨q, rfl⟩))
    | gen q => exact .inr (.inr (.inr (.inl ⟨q, rfl⟩)))
    | verify a i ev sg ms pre => exact .inr (.inr (.inr (.inr ⟨_, _, i, ev, rfl⟩)))
    | left a i => exact .inr (.inr (.inr (.inr ⟨_, _, i, false, rfl⟩)))
    | rng | sha2 | sha3 => exact .inl rfl
  rcases key with h | ⟨q, h⟩ | ⟨q, h⟩ | ⟨q, h⟩ | ⟨a, b, c, d, h⟩
  · exact ⟨by rw [h]; exact hs, .inl h⟩
  · obtain ⟨es, h1, h2, h3⟩ := CryptoMsg.exec_is_exec cfg.base.crypto.ks ncfg v e.locks (Crypto.handler cfg.base.crypto cfg.base.lib v q) 0 s hp
    refine ⟨?_, .inr (.inl ⟨q, es, _, h1, h2.trans h.symm⟩)⟩
    rw [h, ← h2]
    clear h h1 h2 hp
    induction es generalizing s with
    | nil => exact hs
    | cons ev es ih =>
      rw [Keystore.run_cons]
      refine ih _ ?_ fun x hx => h3 x (by simp [hx])
      obtain ⟨lock, q, rfl⟩ := h3 ev (by simp)
      exact StatefulSig.Reach.step (.base (.key v lock q)) hv hs
  · exact ⟨by rw [← h]; exact .step (.sign v q) hv hs, .inr (.inr (.inl ⟨q, h⟩))⟩
  · exact ⟨by rw [← h]; exact .step (.keyGen v q) hv hs, .inr (.inr (.inr (.inl ⟨q, h⟩)))⟩
  · exact ⟨by rw [← h]; exact .step (.look v a b c d) hv hs, .inr (.inr (.inr (.inr ⟨a, b, c, d, h⟩)))⟩

open CryptoDmaDemo in
/-- An LMS key is made (its public key goes to client memory) and signs twice: the second signature
has the next index. -/
example : sys.nvm.powered = true ∧
    (let p := CryptoDma.handle cfg Keystore.Demo.one env (req 3 lmsGen) sys
     let p1 := CryptoDma.handle cfg Keystore.Demo.one env (req 3 lmsSign) p.2
     let p2 := CryptoDma.handle cfg Keystore.Demo.one env (req 3 lmsSign) p1.2
     (p.1.2, p1.1.2, p2.1.2) = (some (0x2000, [42]), some (0x2000, [7, 0, 9]), some (0x2000, [7, 1, 9]))) := by decide +kernel

/-! ## C27 -/

/-- **C27**, DMA crypto group: every response fits the packet.  Partial: `Roomy` asks that shared
secrets leave room for headers, which is a matter of the choice of packet size. -/
theorem C27_cryptoDma_fits_partial (cfg : CryptoDma.Cfg) {dataLen : Nat} (h : Roomy cfg dataLen) (v : Keystore.Srv)
    (e : CryptoDma.Env) (r : Req) (hr : r.size ≤ dataLen) (s : Keystore.Sys) :
    (CryptoDma.handle cfg v e r s).1.1.length ≤ dataLen :=
  CryptoDma.handle_fits h e hr s

/-- The demonstration server meets the hypotheses. -/
example : Roomy CryptoDmaDemo.cfg 1280 := CryptoDmaDemo.roomy

/-! ## C39 -/

/-- **C39**, DMA crypto group: the response, the key store afterwards and what is written to client
memory do not depend on client memory other than the buffers for which the check before reading
passed. -/
theorem C39_cryptoDma_reads (cfg : CryptoDma.Cfg) (v : Keystore.Srv) (e : CryptoDma.Env) (r : Req) (s : Keystore.Sys)
    (mem' : UInt64 → UInt8) (h : ∀ b, e.readPre b = .ok → SameIn e.mem mem' b) :
    CryptoDma.handle cfg v { e with mem := mem' } r s = CryptoDma.handle cfg v e r s :=
  CryptoDma.handle_blind h s

/-- **C39**, DMA crypto group: what is written to client memory lies in a buffer for which the check
before writing passed. -/
theorem C39_cryptoDma_writes (cfg : CryptoDma.Cfg) (v : Keystore.Srv) (e : CryptoDma.Env) (hb : Bounded cfg e) (r : Req)
    (s : Keystore.Sys) {a : UInt64} {d : List UInt8} (h : (CryptoDma.handle cfg v e r s).1.2 = some (a, d)) :
    ∃ b, e.writePre b = .ok ∧ b.addr = a ∧ d.length ≤ b.sz.toNat :=
  (CryptoDma.handle_lands hb h).2

open CryptoDmaDemo in
/-- With the message at 0008 the request is refused, and nothing is written; with the message at 1008
the signature is written. -/
example : (CryptoDma.handle tidy Keystore.Demo.one env (req 3 (sign 8)) sys).1 =
      ([1, 0, 0, 0] ++ Wire.w32 true Utils.magicNative Rc.access.code ++ [0, 0, 0, 0], none) ∧
    (CryptoDma.handle tidy Keystore.Demo.one env (req 3 (sign 0x1008)) sys).1.2 = some (0x2000, [0x18, 0x51]) := by decide +kernel

/-- The client memory of a 64-bit server: the DMA checks are those of `src/wh_server_dma.c` with an
allow list and no address translation. -/
structure Listed (al : Dma.AllowList) (e : CryptoDma.Env) : Prop where
  read : ∀ b : Buf, e.readPre b =
    (Dma.processClientAddress (2 ^ 64) ⟨some al, none, false⟩ b.addr.toNat b.sz.toNat .readPre).1
  write : ∀ b : Buf, e.writePre b =
    (Dma.processClientAddress (2 ^ 64) ⟨some al, none, false⟩ b.addr.toNat b.sz.toNat .writePre).1

/-- **C39**, DMA crypto group, with an allow list: what is written to client memory lies inside one
region that may be written. -/
theorem C39_cryptoDma_write_list (cfg : CryptoDma.Cfg) (v : Keystore.Srv) (e : CryptoDma.Env) (hb : Bounded cfg e)
    (al : Dma.AllowList) (hl : Listed al e) (hr : ∀ x ∈ al.readList, x.size < 2 ^ 64) (hw : ∀ x ∈ al.writeList, x.size < 2 ^ 64)
    (r : Req) (s : Keystore.Sys) {a : UInt64} {d : List UInt8} (h : (CryptoDma.handle cfg v e r s).1.2 = some (a, d)) :
    Dma.Allowed al (.write a.toNat d.length) := by
  obtain ⟨hne, b, h1, rfl, h3⟩ := CryptoDma.handle_lands hb h
  have hpos : 0 < d.length := List.length_pos_iff.mpr hne
  rw [hl.write] at h1
  have h2 : Dma.checkMemOper (2 ^ 64) (some al) .writePre b.addr.toNat b.sz.toNat = .ok := by
    have h := Dma.process_ok (by omega) h1
    have e : (Dma.processClientAddress (2 ^ 64) ⟨some al, none, false⟩ b.addr.toNat b.sz.toNat .writePre).2 = b.addr.toNat := by
      unfold Dma.processClientAddress
      dsimp only
      rw [if_neg (by simp)]
      split <;> rfl
    rw [e] at h
    exact h
  obtain ⟨_, _, x, hx, _, hin⟩ := (Dma.C39_check_exact (2 ^ 64) al b.addr.toNat b.sz.toNat b.sz.toNat_lt hr hw).2.mp h2
  exact ⟨x, hx, fun y hy1 hy2 => hin y hy1 (by omega)⟩

/-- **C39**, DMA crypto group, with an allow list: nothing depends on client memory outside the
regions that may be read. -/
theorem C39_cryptoDma_read_list (cfg : CryptoDma.Cfg) (v : Keystore.Srv) (e : CryptoDma.Env)
    (al : Dma.AllowList) (hl : Listed al e) (hr : ∀ x ∈ al.readList, x.size < 2 ^ 64) (hw : ∀ x ∈ al.writeList, x.size < 2 ^ 64)
    (r : Req) (s : Keystore.Sys) (mem' : UInt64 → UInt8)
    (h : ∀ x ∈ al.readList, ∀ i, x.addr ≤ i → i < x.addr + x.size → mem' (UInt64.ofNat i) = e.mem (UInt64.ofNat i)) :
    CryptoDma.handle cfg v { e with mem := mem' } r s = CryptoDma.handle cfg v e r s := by
  refine CryptoDma.handle_blind (fun b hb i hi => ?_) s
  rw [hl.read] at hb
  have h2 : Dma.checkMemOper (2 ^ 64) (some al) .readPre b.addr.toNat b.sz.toNat = .ok := by
    have h := Dma.process_ok (by omega) hb
    have e : (Dma.processClientAddress (2 ^ 64) ⟨some al, none, false⟩ b.addr.toNat b.sz.toNat .readPre).2 = b.addr.toNat := by
      unfold Dma.processClientAddress
      dsimp only
      rw [if_neg (by simp)]
      split <;> rfl
    rw [e] at h
    exact h
  obtain ⟨_, hlt, x, hx, _, hin⟩ := (Dma.C39_check_exact (2 ^ 64) al b.addr.toNat b.sz.toNat b.sz.toNat_lt hr hw).1.mp h2
  obtain ⟨h3, h4⟩ := hin (b.addr.toNat + i) (by omega) (by omega)
  have := h x hx _ h3 h4
  have he : UInt64.ofNat (b.addr.toNat + i) = b.addr + UInt64.ofNat i := by
    rw [UInt64.ofNat_add, UInt64.ofNat_toNat]
  rwa [he] at this

namespace CryptoDmaDemo

/-- May be read: 1000 to 1FFF.  May be written: 2000 to 2FFF. -/
def list : Dma.AllowList := ⟨[⟨0x1000, 0x1000⟩], [⟨0x2000, 0x1000⟩]⟩

/-- The environment with these checks. -/
def listed : CryptoDma.Env := { env with
  readPre := fun b => (Dma.processClientAddress (2 ^ 64) ⟨some list, none, false⟩ b.addr.toNat b.sz.toNat .readPre).1
  writePre := fun b => (Dma.processClientAddress (2 ^ 64) ⟨some list, none, false⟩ b.addr.toNat b.sz.toNat .writePre).1 }

theorem boundedL : Bounded tidy listed := ⟨bounded.aes, bounded.sign, bounded.privateDer, bounded.publicDer, bounded.kemPub,
  bounded.encaps, bounded.random, bounded.sigSign, bounded.sigGen⟩

end CryptoDmaDemo

open CryptoDmaDemo in
example : Listed list listed ∧ (∀ x ∈ list.readList, x.size < 2 ^ 64) ∧ (∀ x ∈ list.writeList, x.size < 2 ^ 64) ∧
    Bounded tidy listed ∧
    (CryptoDma.handle tidy Keystore.Demo.one listed (req 3 (sign 0x1008)) sys).1.2 = some (0x2000, [0x18, 0x51]) ∧
    (CryptoDma.handle tidy Keystore.Demo.one listed (req 4 (rng 0x2FFF 2)) sys).1.2 = none := by
  refine ⟨⟨fun _ => rfl, fun _ => rfl⟩, by decide, by decide, boundedL, by decide +kernel, by decide +kernel⟩

/-! ## What responses tell -/

/-- The response to a DMA crypto request that failed (the return code in its header is not 0) is the
header alone: it never says which address was refused, although the response structures have a field
for that. -/
theorem F_C39_bad_address_not_told (cfg : CryptoDma.Cfg) (v : Keystore.Srv) (e : CryptoDma.Env) (r : Req) (s : Keystore.Sys)
    (h12 : 12 ≤ r.size)
    (hrc : ((CryptoDma.handle cfg v e r s).1.1.drop 4).take 4 ≠ [0, 0, 0, 0]) :
    (CryptoDma.handle cfg v e r s).1.1.length ≤ 12 := by
  rcases CryptoDma.handle_shaped (cfg := cfg) (v := v) (e := e) h12 s with h | ⟨rc, h⟩ | h
  · rw [h]; exact Nat.zero_le _
  · rw [h, CryptoMsg.header_length]
  · refine absurd ?_ hrc
    have e1 : ((CryptoDma.handle cfg v e r s).1.1.drop 4).take 4 = (((CryptoDma.handle cfg v e r s).1.1.take 12).drop 4).take 4 := by
      rw [List.drop_take, List.take_take]; rfl
    rw [e1, h]
    unfold CryptoMsg.header
    rw [List.append_assoc, List.drop_append_of_le_length (by simp [Wire.w32_length]),
      List.drop_of_length_le (by simp [Wire.w32_length]), List.nil_append,
      List.take_append_of_le_length (by simp [Wire.w32_length]),
      List.take_of_length_le (by simp [Wire.w32_length])]
    show Wire.w32 cfg.le r.magic 0 = _
    unfold Wire.w32
    unfold Utils.translate32
    cases cfg.le <;> (split <;> decide)

open CryptoDmaDemo in
/-- The refused signature request of above. -/
example : ((CryptoDma.handle cfg Keystore.Demo.one env (req 3 (sign 8)) sys).1.1.drop 4).take 4 ≠ [0, 0, 0, 0] := by decide +kernel

open CryptoDmaDemo in
/-- The response to ML-DSA sign, and the one to a random number request, carry 16 bytes that the
server did not write: the same request gets different responses depending on what the stack held. -/
theorem F_C27_dma_stack_bytes : ∃ e e' : CryptoDma.Env, e' = { e with stack := e'.stack } ∧
    (CryptoDma.handle cfg Keystore.Demo.one e' (req 3 (sign 0x1008)) sys).1.1 ≠
      (CryptoDma.handle cfg Keystore.Demo.one e (req 3 (sign 0x1008)) sys).1.1 ∧
    (CryptoDma.handle cfg Keystore.Demo.one e' (req 4 (rng 0x2000 2)) sys).1.1 ≠
      (CryptoDma.handle cfg Keystore.Demo.one e (req 4 (rng 0x2000 2)) sys).1.1 :=
  ⟨env, { env with stack := ⟨1, 2⟩ }, rfl, by decide +kernel⟩

open CryptoDmaDemo in
/-- A request for 2^32 random bytes succeeds and delivers none: sizes are 64 bits in the message and
32 bits for the library. -/
theorem F_C57_dma_size_truncated :
    (CryptoDma.handle cfg Keystore.Demo.one env (req 4 (rng 0x2000 0x100000000)) sys).1.2 = none ∧
    ((CryptoDma.handle cfg Keystore.Demo.one env (req 4 (rng 0x2000 0x100000000)) sys).1.1.drop 4).take 4 = [0, 0, 0, 0] ∧
    (CryptoDma.handle cfg Keystore.Demo.one env (req 4 (rng 0x2000 2)) sys).1.2 = some (0x2000, [4, 4]) := by decide +kernel

end WolfHsm.Props

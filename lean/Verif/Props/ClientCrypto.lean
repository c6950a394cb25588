import Verif.Proofs.ClientCryptoCall
import Verif.Props.CryptoMsg

/-!
# C56 Crypto calls through the server, C57 random numbers through the server
-/

namespace WolfHsm.Props

open ClientCrypto
open ClientHash (Ret Reply)
open CryptoMsg (Op Codes Roomy)

/-! ## A concrete client and server -/

namespace ClientCryptoDemo

/-- The operations; each has its position as its number. -/
def ops : List Op :=
  [.aes .ctr, .aes .ecb, .aes .cbc, .aes .gcm, .keyGen .rsa, .keyGen .ecc, .keyGen .curve25519, .keyGen .ed25519,
   .keyGen .mldsa, .keyGen .mlkem, .rsa, .rsaGetSize, .secret25519, .secretEcc, .signEcc, .signEd, .signMlDsa, .verifyEcc,
   .verifyEd, .verifyMlDsa, .makePub, .checkPub, .encaps, .decaps, .rng, .hkdf, .cmacKdf, .cmac]

def numbers : Numbers where
  code op := ⟨3, UInt16.ofNat (ops.idxOf op), 0⟩
  rsaOp | .publicEncrypt => 0 | .publicDecrypt => 1 | .privateEncrypt => 2 | .privateDecrypt => 3
  edPlain := 0xFF
  edCtx := 0
  edPh := 1

def codes : Codes where
  select _ t _ := match ops[t.toNat]? with
    | some op => .ok op
    | none => .error .nohandler
  rsaOp i :=
    if i = 0 then some .publicEncrypt else if i = 1 then some .publicDecrypt else if i = 2 then some .privateEncrypt
    else if i = 3 then some .privateDecrypt else none
  badFuncArg := .badargs
  edPlain := 0xFF
  edCtx := 0
  edPh := 1
  sha512Type t := t

/-- The server in either byte order. -/
def cfg (le : Bool) : CryptoMsg.Cfg := { CryptoMsgDemo.cfg with codes := codes, le := le }

theorem roomy (le : Bool) : Roomy (cfg le) 1280 := ⟨CryptoMsgDemo.small (by decide), by decide, by decide, rfl⟩

theorem agree (c : Call) : Agree numbers codes c.op := by
  refine ⟨?_, fun o => by cases o <;> rfl, rfl, rfl, rfl⟩
  cases c <;> rfl

theorem agree_rng : Agree numbers codes .rng := ⟨rfl, fun o => by cases o <;> rfl, rfl, rfl, rfl⟩

/-- Room for 64 bytes of output, and an object for a key. -/
def want : Want := ⟨64, 64, true⟩

/-- Sign with the stored key 7. -/
def sign : Call := .eccSign false 7 false [8, 9]
/-- Make an ECC key with id 5 for signing. -/
def make : Call := .eccKeyGen 5 Flag.usageSign [65] 32 7
/-- CBC with a key given by the caller. -/
def cbc : Call := .aesCbc true 0 (List.replicate 16 1) (List.replicate 32 2) (List.replicate 16 3)
/-- GCM. -/
def gcm : Call := .gcmEncrypt 0 (List.replicate 16 1) [5, 6, 7] (List.replicate 12 3) [9] 16
/-- Check a signature with the stored key 7. -/
def verify : Call := .eccVerify false 7 false true [1, 2] [8, 9]

/-- The server at work for a client. -/
def at' (le cle : Bool) (c : Call) (s : Keystore.Sys) (body : List UInt8) : List UInt8 × Keystore.Sys :=
  served (cfg le) cle (numbers.code c.op).action 1 Keystore.Demo.one CryptoMsgDemo.env [0xEE] s body

/-- A call of a client of the server. -/
def call (le cle : Bool) (c : Call) (s : Keystore.Sys) : Result × Keystore.Sys :=
  (run numbers cle 1280 0 (1, 2) want (fun b => .got (at' le cle c s b).1) c,
   match send numbers cle 1280 0 (1, 2) c with
   | .packet b n => (at' le cle c s (b.take n)).2
   | _ => s)

end ClientCryptoDemo

/-! ## C56 -/

/-- **C56**: a crypto call of the client that passes its checks and fits a packet has the effect on the
server of the operation its arguments describe (`Call.asks`), and the caller gets the outcome of that
operation (`Call.result`), or its error; for every kind of call, all arguments and lengths, and each of
the byte orders of client and server.

Partial: the calls over DMA and those with stateful signatures are not covered, nor is the import of
keys that are not on the server. -/
theorem C56_call_partial {cfg : CryptoMsg.Cfg} {dataLen : Nat} (hroom : Roomy cfg dataLen) {n : Numbers} (cle : Bool) (c : Call)
    (hag : Agree n cfg.codes c.op) (hc : c.Sane) (hr : refusal n dataLen c = none) (hi : idle c = false) (hb : c.bytes ≤ dataLen)
    (affinity : UInt32) (pad : UInt8 × UInt8) (w : Want) (v : Keystore.Srv) (e : CryptoMsg.Env) (seq : UInt16) (junk : List UInt8)
    (s : Keystore.Sys) :
    ∃ packet, send n cle dataLen affinity pad c = .packet packet packet.length ∧ packet.length = c.bytes ∧
      (served cfg cle (n.code c.op).action seq v e junk s packet).2 = (performed cfg v e (c.asks e.coins) s).2 ∧
      (∀ o, (performed cfg v e (c.asks e.coins) s).1 = some (.ok o) →
        run n cle dataLen affinity pad w (fun b => .got (served cfg cle (n.code c.op).action seq v e junk s b).1) c = c.result w o) ∧
      (∀ rc, (performed cfg v e (c.asks e.coins) s).1 = some (.error rc) → 0x80000000 ≤ rc.code →
        run n cle dataLen affinity pad w (fun b => .got (served cfg cle (n.code c.op).action seq v e junk s b).1) c =
          (rc.code, none)) := by
  have hsend := send_whole (n := n) (cle := cle) (a := affinity) (pad := pad) hc hr hi hb hroom.short
  have hlen := bytes_eq (n := n) (cle := cle) (a := affinity) (pad := pad) hc
  refine ⟨_, hsend, hlen, ?_⟩
  have hshort := hroom.short
  have hpair := Wire.paired_server cle cfg.le rfl
  have hrun : ∀ peer, run n cle dataLen affinity pad w peer c =
      match peer (request n cle affinity pad c) with
      | .unsent rc | .lost rc => (rc, none)
      | .got R => receive n cle w c R := by
    intro peer
    unfold run
    rw [hsend]
    dsimp only
    rw [List.take_length]
    cases peer (request n cle affinity pad c) <;> rfl
  unfold served
  generalize hq : (⟨if cfg.le = cle then Utils.magicNative else Utils.magicSwap, (n.code c.op).action, seq, request n cle affinity pad c ++ junk,
    (request n cle affinity pad c).length⟩ : Server.Req) = r
  have ha : Arrived n cle (if cfg.le = cle then Utils.magicNative else Utils.magicSwap) affinity pad c junk r := by
    subst hq; exact ⟨rfl, rfl, rfl⟩
  have hact : r.action = (n.code c.op).action := by subst hq; rfl
  have hz : r.size < 4294967296 := by rw [ha.size, hlen]; omega
  have hs := served_eq (v := v) (e := e) hpair.symm ha hact hag hc hr hz s
  have hd := decode_request e.coins hpair.symm hag hc hr ha hz
  rw [hrun, hq, hs]
  generalize hx : performed cfg v e (c.asks e.coins) s = x
  obtain ⟨x1, x2⟩ := x
  refine ⟨by cases x1 <;> rfl, ?_, ?_⟩
  · rintro o rfl
    have hgood := CryptoMsg.yields_exec _ _ _ (CryptoMsg.good_handler hd) hx
    have hfine := CryptoMsg.yields_exec _ _ _ (fine_handler (L := cfg.lib) e.coins c (by unfold Call.bytes at hb; omega)) hx
    have hgl := hgood.2 dataLen hroom (by rw [ha.size, hlen]; exact hb)
    exact receive_reply hpair ha hc hz hfine hroom.small hgood.1 (by omega)
  · rintro rc rfl hrc
    exact receive_error hpair ha.magic (ha.head hpair.symm).1 hrc

open ClientCryptoDemo in
/-- The hypotheses hold of calls with and without stored keys, in all byte orders. -/
example : ∀ c ∈ [sign, make, cbc, gcm, verify],
    c.Sane ∧ refusal numbers 1280 c = none ∧ idle c = false ∧ c.bytes ≤ 1280 := by
  simp only [List.forall_mem_cons]
  refine ⟨⟨trivial, ?_⟩, ⟨trivial, ?_⟩, ⟨rfl, ?_⟩, ⟨trivial, ?_⟩, ⟨trivial, ?_⟩, nofun⟩ <;> decide +kernel

open ClientCryptoDemo in
/-- A big-endian client of a little-endian server signs with the stored key 7, which does not serve
to verify; it encrypts with its own key. -/
example :
    (call true false sign CryptoMsgDemo.sys).1 = (0, some { num := 2, out := [0x18, 0x51] }) ∧
    (call true false verify CryptoMsgDemo.sys).1 = (Rc.usage.code, none) ∧
    (call true false cbc CryptoMsgDemo.sys).1 =
      (0, some { out := List.replicate 32 18, more := List.replicate 16 16 }) ∧
    (call false true gcm CryptoMsgDemo.sys).1 = (0, some { out := [21, 22, 23], more := List.replicate 16 16 }) := by decide +kernel

open ClientCryptoDemo in
/-- A key made by one call signs in the next. -/
example : (call true false make CryptoMsgDemo.sys).1 = (0, some { id := 5, out := [6] }) ∧
    (call true false (.eccSign false 5 false [8, 9]) (call true false make CryptoMsgDemo.sys).2).1 =
      (0, some { num := 2, out := [23, 0x51] }) := by decide +kernel

/-- **C56**: a call that fails the client's checks, or has no data to process, sends nothing; otherwise
what is sent is the whole request, or, if the request is longer than a packet, nothing, unless its
length exceeds the type in which the client adds it up. -/
theorem C56_sent {n : Numbers} {cle : Bool} {dataLen : Nat} {affinity : UInt32} {pad : UInt8 × UInt8} {c : Call} (hc : c.Sane)
    {packet : List UInt8} {size : Nat} (h : send n cle dataLen affinity pad c = .packet packet size)
    (hw : width c = 0 ∨ c.bytes < width c) :
    refusal n dataLen c = none ∧ packet.length = c.bytes ∧ size = packet.length ∧ size ≤ dataLen := by
  unfold send at h
  cases hr : refusal n dataLen c with
  | some rc => rw [hr] at h; cases h
  | none =>
    rw [hr] at h
    dsimp only at h
    have hlen := bytes_eq (n := n) (cle := cle) (a := affinity) (pad := pad) hc
    have hm : (request n cle affinity pad c).length % width c = (request n cle affinity pad c).length := by
      rcases hw with hw | hw
      · rw [hw, Nat.mod_zero]
      · exact Nat.mod_eq_of_lt (by omega)
    rw [hm] at h
    by_cases hi : idle c = true
    · rw [if_pos hi] at h; cases h
    · rw [if_neg hi] at h
      by_cases hd : (request n cle affinity pad c).length ≤ dataLen
      · rw [if_pos hd] at h
        injection h with h1 h2
        subst h1; subst h2
        exact ⟨rfl, hlen, rfl, hd⟩
      · rw [if_neg hd] at h; cases h

open ClientCryptoDemo in
example : (match send numbers true 1280 0 (1, 2) cbc with | .packet b n => (b.length, n) | _ => (0, 0)) = (92, 92) ∧
    width cbc = 4294967296 ∧ cbc.bytes = 92 := by decide +kernel

/-- **C56, finding**: the blocking ECC sign call adds up the length of its request in 16 bits.  With a
hash of 65535 bytes the sum is 23: the check passes, the client writes 65559 bytes to its packet
buffer, and sends the first 23 of them. -/
theorem F_C56_ecc_wrap (n : Numbers) (cle : Bool) (dataLen : Nat) (hd : 23 ≤ dataLen) (affinity : UInt32) (pad : UInt8 × UInt8)
    (id : UInt16) (hid : KeyId.isErased id = false) (evict : Bool) {hash : List UInt8} (hh : hash.length = 65535) :
    ∃ packet, send n cle dataLen affinity pad (.eccSign true id evict hash) = .packet packet 23 ∧ packet.length = 65559 := by
  have hlen : (request n cle affinity pad (.eccSign true id evict hash)).length = 65559 := by
    rw [bytes_eq (c := .eccSign true id evict hash) trivial]
    unfold Call.bytes trailer
    have h12 : CryptoMsg.structSize (Call.op (.eccSign true id evict hash)) = 12 := rfl
    dsimp only
    rw [hh, h12]
  refine ⟨_, ?_, hlen⟩
  have hr : refusal n dataLen (.eccSign true id evict hash) = none := by
    unfold refusal
    simp only [hid]
    rfl
  have hi : idle (.eccSign true id evict hash) = false := rfl
  have hw : width (.eccSign true id evict hash) = 65536 := rfl
  unfold send
  rw [hr]
  dsimp only
  rw [hi, hlen, hw, if_neg Bool.false_ne_true, show (65559 : Nat) % 65536 = 23 by norm_num, if_pos hd]

example : ∃ hash : List UInt8, hash.length = 65535 := ⟨List.replicate 65535 0, List.length_replicate⟩

/-- **C56, finding**: AES-ECB and AES-CBC count the blocks of the input in 16 bits.  The request call
for an input of a multiple of 2²⁰ bytes reports success and sends nothing, where other inputs that do
not fit a packet are refused; nothing is encrypted, and the matching response call has no response to
wait for. -/
theorem F_C56_no_blocks (n : Numbers) (cle : Bool) (dataLen : Nat) (affinity : UInt32) (pad : UInt8 × UInt8) (enc : Bool)
    (id : UInt16) (key iv : List UInt8) {input : List UInt8} {k : Nat} (hl : input.length = k * 1048576) :
    send n cle dataLen affinity pad (.aesEcb enc id key input) = .nothing ∧
    send n cle dataLen affinity pad (.aesCbc enc id key input iv) = .nothing := by
  have h0 : (UInt16.ofNat (input.length / 16) == 0) = true := by
    rw [beq_iff_eq, ← UInt16.toNat_inj, UInt16.toNat_ofNat']
    show _ % 65536 = 0
    omega
  have h1 : input.length % 16 = 0 := by omega
  constructor
  · unfold send refusal idle
    simp only [h0, h1, if_true]
  · unfold send refusal idle
    simp only [h0, h1, if_true]

example : ∃ input : List UInt8, input.length = 1 * 1048576 := ⟨List.replicate 1048576 0, List.length_replicate⟩

/-! ## C57 -/

/-- **C57**: a successful call for `size` random bytes (of any number) has written exactly that many
bytes: those the server's generator gave for the requests of the call, in their order, each once. -/
theorem C57_rng {cfg : CryptoMsg.Cfg} {n : Numbers} {cle : Bool} {dataLen : Nat} {affinity : UInt32} {e : Nat → CryptoMsg.Env}
    {peer : Nat → List UInt8 → Reply} (hag : Agree n cfg.codes .rng) (hpeer : RngPeer cfg cle (n.code .rng).action e peer)
    (hx : Exact e) {size : Nat} (h32 : size < 4294967296) {out : List UInt8} (h : rng n cle dataLen affinity peer size = (0, out)) :
    out.length = size ∧ ∃ draws : List (List UInt8), out = draws.flatten ∧
      ∀ i (h : i < draws.length), (e i).random draws[i].length = .ok draws[i] := by
  obtain ⟨h1, ds, h2, h3⟩ := rngLoop_draws hag hpeer hx size 0 size out (Nat.le_refl _) h32 h
  refine ⟨h1, ds, h2, fun i hi => ?_⟩
  have := h3 i hi
  rwa [Nat.zero_add] at this

/-- **C57**: when every request is answered and the generator does not fail, the call succeeds. -/
theorem C57_rng_answered {cfg : CryptoMsg.Cfg} {n : Numbers} {cle : Bool} {dataLen : Nat} {affinity : UInt32} {e : Nat → CryptoMsg.Env}
    {peer : Nat → List UInt8 → Reply} (hag : Agree n cfg.codes .rng) (hx : Exact e) (hd : 16 < dataLen)
    (hcomm : cfg.crypto.ks.commLen = dataLen) (hgen : ∀ k i, ∃ b, (e k).random i = .ok b)
    (hpeer : ∀ k body, ∃ seq v junk s, peer k body = .got (served cfg cle (n.code .rng).action seq v (e k) junk s body).1)
    {size : Nat} (h32 : size < 4294967296) :
    (rng n cle dataLen affinity peer size).1 = 0 :=
  rngLoop_ok hag hx hd hcomm hgen hpeer size 0 size (Nat.le_refl _) h32

namespace ClientCryptoDemo

/-- A generator that counts its calls. -/
def noise (k : Nat) : CryptoMsg.Env := ⟨[], fun n => .ok (List.replicate n (UInt8.ofNat k)), fun _ => .ok⟩

/-- The server of the demonstration for random numbers. -/
def tap (le cle : Bool) (k : Nat) (body : List UInt8) : Reply :=
  .got (served (cfg le) cle 3 1 Keystore.Demo.one (noise k) [] CryptoMsgDemo.sys body).1

theorem exact_noise : Exact noise := by
  intro k n b h
  change Except.ok (List.replicate n _) = _ at h
  cases h
  exact List.length_replicate

end ClientCryptoDemo

open ClientCryptoDemo in
/-- 3000 bytes take three requests. -/
example : rng numbers false 1280 0 (tap true false) 3000 =
    (0, List.replicate 1264 0 ++ List.replicate 1264 1 ++ List.replicate 472 2) := by decide +kernel

open ClientCryptoDemo in
/-- The hypotheses hold of the demonstration. -/
example (le cle : Bool) (size : Nat) (h : size < 4294967296) : (rng numbers cle 1280 0 (tap le cle) size).1 = 0 ∧
    RngPeer (cfg le) cle (numbers.code .rng).action noise (tap le cle) :=
  ⟨C57_rng_answered (cfg := cfg le) agree_rng exact_noise (dataLen := 1280) (by decide) rfl (fun _ _ => ⟨_, rfl⟩) (fun _ _ => ⟨1, _, _, _, rfl⟩) h,
   fun _ _ => .inr ⟨1, _, _, _, rfl⟩⟩

end WolfHsm.Props

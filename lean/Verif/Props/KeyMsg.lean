import Verif.Proofs.KeyMsgSafe
import Verif.Proofs.KeystoreDemo
import Verif.Props.Server

/-!
# C25, C27, C44 for the key request group
-/

namespace WolfHsm.Props

open Comm (Rx header)
open Server

/-! ## A concrete device -/

namespace KeyMsgDemo

/-- The key store of the demonstration server, with packets of 1280 bytes and a toy extractor of
public keys. -/
def ks : Keystore.Cfg :=
  { Keystore.Demo.cfg with
    commLen := 1280
    publicOf := fun algo key => if algo = 1 then (.ok, (key.map (· + 1)).take 100) else (.badargs, []) }

/-- Little-endian server of the key group; the cipher's number is 6. -/
def kcfg : KeyMsg.Cfg := ⟨ks, true, true, true, 6⟩

/-- Its clients. -/
def ccfg : ClientKey.Cfg := ⟨1280, 64, 64⟩

/-- A free lock, client memory full of nines, a random generator. -/
def env : KeyMsg.Env := ⟨.ok, fun _ _ => .ok, fun _ _ => .ok, fun _ _ => 9, .ok fun i => UInt8.ofNat (i + 1), .ok (Vector.replicate 12 3)⟩

/-- What a client's packet buffer holds. -/
def stale : Nat → UInt8 := fun i => UInt8.ofNat (200 + i)

theorem lengths : KeyMsg.Lengths kcfg := by
  constructor
  · intro key dom iv pt ct tag h
    injection h with h; injection h with h1 h2
    subst h1; subst h2
    exact ⟨rfl, by simp [Keystore.Demo.tag]⟩
  · intro key dom iv ct tag pt h
    change (if tag = _ then some ct else none) = some pt at h
    split at h
    · injection h with h; rw [h]
    · cases h

theorem publicFits : KeyMsg.PublicFits kcfg := by
  intro algo key
  show (if algo = 1 then (Rc.ok, (key.map (· + 1)).take 100) else (Rc.badargs, [])).2.length ≤ 1280 - 36
  split
  · rw [List.length_take]; omega
  · exact Nat.zero_le _

theorem fit : ClientKey.Fit kcfg ccfg := ⟨by decide, by decide, rfl, by decide, by decide⟩

def cfg : Cfg (KeyMsg.Rest Unit) where
  comm := ⟨1280, true⟩
  le := true
  auth := AuthDemo.cfg
  enableAuth := true
  globalKeys := true
  noCrypto := false
  dma := true
  she := false
  certs := false
  serverId := 5
  info := Vector.replicate 12 1
  version := Vector.replicate 18 65
  handler := fun g x c r m => if g = .key then KeyMsg.handler kcfg (fun _ => env) (fun q _ => q) x c r m else ((.ok, []), m)

theorem fits : Fits cfg := by
  refine ⟨by decide, by decide, ?_⟩
  intro g y c r m h
  show (((if g = .key then KeyMsg.handler kcfg (fun _ => env) (fun q _ => q) y c r m else ((.ok, []), m)).1.2)).length ≤ 1280
  split
  · exact KeyMsg.handle_fits lengths (by decide) _ env r h _ r.buf
  · exact Nat.zero_le _

/-- The users of `SrvDemo.dev` on a device whose NVM holds the keys of `Keystore.Demo`. -/
def dev : Dev (KeyMsg.Rest Unit) where
  auth := { SrvDemo.dev.auth with nvm := (Keystore.Demo.boot Keystore.Demo.fine).nvm }
  rest := ⟨Keystore.Demo.empty, fun _ => Keystore.Demo.empty, ()⟩
  ctx := fun _ => ⟨true, 1, true⟩

/-- Its key store. -/
def sys : Keystore.Sys := Keystore.Demo.boot Keystore.Demo.fine

theorem wf : Keystore.WF ⟨dev.auth.nvm, dev.rest.global, dev.rest.loc⟩ :=
  (Keystore.Demo.boot_reach Keystore.Demo.fine).wf Keystore.Demo.good

end KeyMsgDemo

/-! ## C44 -/

/-- **C44**, key group: response, writes to client memory and effect depend on nothing behind the
received bytes.  Partial: for EXPORT_PUBLIC and EXPORT_PUBLIC_DMA only if the request has the size
of its structure, see `F_export_public_short`; and the padding of the response structures keeps what
the packet held, see `F_key_padding`. -/
theorem C44_key_partial (cfg : KeyMsg.Cfg) (v : Keystore.Srv) (e : KeyMsg.Env) (s : Keystore.Sys) (r r' : Req)
    (hm : r'.magic = r.magic) (ha : r'.action = r.action) (hs : r'.size = r.size) (hd : r'.data = r.data)
    (h13 : r.action = 13 → 8 ≤ r.size) (h14 : r.action = 14 → 24 ≤ r.size) :
    KeyMsg.handle cfg v e r' s = KeyMsg.handle cfg v e r s := by
  refine KeyMsg.handle_same cfg v e s hm ha hs ?_ h13 h14
  have := hd; unfold Req.data at this; rwa [hs] at this

/-- An EVICT of key 7 followed by different garbage. -/
example : (⟨Utils.magicNative, 1, 1, [7, 0, 0, 0, 0, 0, 0, 0, 1, 2], 8⟩ : Req).data =
      (⟨Utils.magicNative, 1, 1, [7, 0, 0, 0, 0, 0, 0, 0, 3], 8⟩ : Req).data ∧
    (1 : UInt16) ≠ 13 ∧ (1 : UInt16) ≠ 14 := by decide

/-- The size an action asks for, src/wh_server_keystore.c:2588-3617: that of its structure, with the
bytes it announces. -/
def KeyWellSized (cfg : KeyMsg.Cfg) (r : Req) : Prop :=
  match r.action.toNat with
  | 0 => 40 ≤ r.size ∧ (Wire.rd32 cfg.le r.magic r.buf 4).toNat ≤ r.size - 40
  | 1 | 2 | 3 | 4 | 5 => 8 ≤ r.size
  | 6 => cfg.dma = true ∧ 56 ≤ r.size
  | 7 => cfg.dma = true ∧ 24 ≤ r.size
  | 8 => cfg.keywrap = true ∧ 38 + (Wire.rd16 cfg.le r.magic r.buf 0).toNat ≤ r.size
  | 9 | 10 => cfg.keywrap = true ∧ 8 + (Wire.rd16 cfg.le r.magic r.buf 0).toNat ≤ r.size
  | 11 | 12 => cfg.keywrap = true ∧ 8 + (Wire.rd32 cfg.le r.magic r.buf 0).toNat ≤ r.size
  | 13 => True
  | 14 => cfg.dma = true
  | 15 => 40 ≤ r.size
  | 16 => cfg.keywrap = true ∧ 8 ≤ r.size
  | _ => False

/-- **C44**, key group: a request that is too short for its action or for the bytes it announces,
or whose action the server does not have, changes nothing and writes nothing. -/
theorem C44_key_refused (cfg : KeyMsg.Cfg) (v : Keystore.Srv) (e : KeyMsg.Env) (s : Keystore.Sys) (r : Req)
    (hw : ¬ KeyWellSized cfg r) : (KeyMsg.handle cfg v e r s).2 = s ∧ (KeyMsg.handle cfg v e r s).1.2 = none := by
  have key : ∀ q, KeyMsg.decode cfg e r ≠ .req q := by
    intro q hq
    apply hw
    unfold KeyMsg.decode at hq
    unfold KeyWellSized
    have hsz : ∀ {n : Nat} {k : KeyMsg.Decoded}, KeyMsg.sized r n k = .req q → n ≤ r.size ∧ k = .req q := by
      intro n k hk
      unfold KeyMsg.sized at hk
      split at hk
      · cases hk
      · exact ⟨by omega, hk⟩
    have hite : ∀ {b : Bool} {k : KeyMsg.Decoded}, (if b then k else .unknown) = .req q → b = true ∧ k = .req q := by
      intro b k hk
      cases b
      · cases hk
      · exact ⟨rfl, hk⟩
    split at hq <;> rename_i h <;> (try rw [h])
    · obtain ⟨h1, h2⟩ := hsz hq
      dsimp only at h2
      split at h2
      · cases h2
      · exact ⟨h1, by omega⟩
    · exact (hsz hq).1
    · exact (hsz hq).1
    · exact (hsz hq).1
    · exact (hsz hq).1
    · exact (hsz hq).1
    · exact ⟨(hite hq).1, (hsz (hite hq).2).1⟩
    · exact ⟨(hite hq).1, (hsz (hite hq).2).1⟩
    · obtain ⟨h0, hq⟩ := hite hq
      obtain ⟨h1, h2⟩ := hsz hq
      refine ⟨h0, ?_⟩
      dsimp only at h2
      split at h2
      · cases h2
      · split at h2
        · cases h2
        · omega
    · obtain ⟨h0, hq⟩ := hite hq
      obtain ⟨h1, h2⟩ := hsz hq
      refine ⟨h0, ?_⟩
      dsimp only at h2
      split at h2
      · cases h2
      · omega
    · obtain ⟨h0, hq⟩ := hite hq
      obtain ⟨h1, h2⟩ := hsz hq
      refine ⟨h0, ?_⟩
      dsimp only at h2
      split at h2
      · cases h2
      · omega
    · obtain ⟨h0, hq⟩ := hite hq
      obtain ⟨h1, h2⟩ := hsz hq
      refine ⟨h0, ?_⟩
      dsimp only at h2
      split at h2
      · cases h2
      · split at h2
        · cases h2
        · omega
    · obtain ⟨h0, hq⟩ := hite hq
      obtain ⟨h1, h2⟩ := hsz hq
      refine ⟨h0, ?_⟩
      dsimp only at h2
      split at h2
      · cases h2
      · omega
    · trivial
    · exact (hite hq).1
    · exact (hsz hq).1
    · exact ⟨(hite hq).1, (hsz (hite hq).2).1⟩
    · cases hq
  unfold KeyMsg.handle KeyMsg.serve
  cases hd : KeyMsg.decode cfg e r with
  | unknown => exact ⟨rfl, rfl⟩
  | early => exact ⟨rfl, rfl⟩
  | late rc c =>
    dsimp only
    by_cases hk : e.lock = .ok
    · rw [if_pos hk]; exact ⟨rfl, rfl⟩
    · rw [if_neg hk]; exact ⟨rfl, rfl⟩
  | req q => exact absurd hd (key q)

/-- A CACHE request that announces a megabyte and carries two bytes, and a COMMIT of three bytes. -/
example : ¬ KeyWellSized KeyMsgDemo.kcfg ⟨Utils.magicNative, 0, 1, [0, 0, 0, 0, 0, 0, 16, 0] ++ List.replicate 34 0, 42⟩ ∧
    ¬ KeyWellSized KeyMsgDemo.kcfg ⟨Utils.magicNative, 3, 1, [7, 0, 0, 9, 9, 9, 9, 9, 9], 3⟩ := by
  constructor
  · intro h
    have h : 40 ≤ 42 ∧ _ ≤ 42 - 40 := h
    exact absurd h (by decide +kernel)
  · intro h
    have h : 8 ≤ 3 := h
    exact absurd h (by decide)

/-- C44 does not hold for EXPORT_PUBLIC: an empty request is served from what an earlier packet
left in the buffer.  Two empty requests, the same device, and different keys exported. -/
theorem F_export_public_short :
    let r : Req := ⟨Utils.magicNative, 13, 1, [7, 0, 1, 0, 0, 0, 0, 0], 0⟩
    let r' : Req := ⟨Utils.magicNative, 13, 1, [8, 0, 1, 0, 0, 0, 0, 0], 0⟩
    r.data = r'.data ∧
    (KeyMsg.handle KeyMsgDemo.kcfg Keystore.Demo.one KeyMsgDemo.env r KeyMsgDemo.sys).1.1.tail = [0x5F, 0xC3, 0xE8] ∧
    (KeyMsg.handle KeyMsgDemo.kcfg Keystore.Demo.one KeyMsgDemo.env r' KeyMsgDemo.sys).1.1.tail = [] := by decide +kernel

/-- The response to an EVICT is longer than the request, and its last four bytes are whatever the
packet buffer held. -/
theorem F_key_padding :
    let r : Req := ⟨Utils.magicNative, 1, 1, [7, 0, 0, 0, 0, 0, 0, 0, 1, 2, 3, 4], 8⟩
    let p := (KeyMsg.handle KeyMsgDemo.kcfg Keystore.Demo.one KeyMsgDemo.env r KeyMsgDemo.sys).1.1
    (p.bytes r.buf).drop 8 = [1, 2, 3, 4] := by decide +kernel

/-! ## C27 -/

/-- **C27**, key group: every response fits the packet. -/
theorem C27_key_fits (cfg : KeyMsg.Cfg) (hl : KeyMsg.Lengths cfg) (h52 : 52 ≤ cfg.ks.commLen) (v : Keystore.Srv) (e : KeyMsg.Env) (r : Req)
    (hr : r.size ≤ cfg.ks.commLen) (s : Keystore.Sys) :
    ((KeyMsg.handle cfg v e r s).1.1.bytes r.buf).length ≤ cfg.ks.commLen :=
  KeyMsg.handle_fits hl h52 v e r hr s r.buf

/-- The demonstration device meets the hypotheses. -/
example : KeyMsg.Lengths KeyMsgDemo.kcfg ∧ 52 ≤ KeyMsgDemo.kcfg.ks.commLen := ⟨KeyMsgDemo.lengths, by decide⟩

/-- A request whose action the server does not have is answered with the request itself. -/
theorem F_key_unknown_echo (cfg : KeyMsg.Cfg) (v : Keystore.Srv) (e : KeyMsg.Env) (r : Req) (s : Keystore.Sys)
    (h : 17 ≤ r.action.toNat) : (KeyMsg.handle cfg v e r s).1.1.bytes r.buf = r.data := by
  have hd : KeyMsg.decode cfg e r = .unknown := (KeyMsg.known cfg e r).resolve_right (by omega)
  unfold KeyMsg.handle KeyMsg.serve
  rw [hd]
  rfl

example : 17 ≤ (0x63 : UInt16).toNat := by decide

/-! ## Every packet is an event of the key store -/

/-- Whatever the bytes of a key packet, the key store afterwards is one that the histories of
C11 to C21, C47 and C51 range over. -/
theorem C44_key_packets_are_events (cfg : KeyMsg.Cfg) (ncfg : NvmServer.Cfg) (v : Keystore.Srv) (hv : v.client < 16) (e : KeyMsg.Env) (r : Req)
    (s : Keystore.Sys) (hp : s.nvm.powered = true) (hs : Keystore.Reach cfg.ks ncfg s) :
    Keystore.Reach cfg.ks ncfg (KeyMsg.handle cfg v e r s).2 := by
  rcases KeyMsg.handle_state cfg v e r s with h | ⟨q, h⟩
  · rw [h]; exact hs
  · rw [h]
    have := Keystore.Reach.step (.key v e.lock q) hv hs
    unfold Keystore.step at this
    dsimp only at this
    rw [if_pos hp] at this
    exact this

/-- A CACHE packet of the client with id 1 on the demonstration server. -/
example : Keystore.Demo.one.client < 16 ∧ KeyMsgDemo.sys.nvm.powered = true ∧
    (Keystore.cached KeyMsgDemo.ks 0 (KeyMsg.handle KeyMsgDemo.kcfg Keystore.Demo.one KeyMsgDemo.env
      ⟨Utils.magicNative, 0, 1, [0, 0, 0, 0, 2, 0, 0, 0, 0, 0, 0, 0, 5, 0, 0, 0] ++ List.replicate 24 0 ++ [7, 8], 42⟩ KeyMsgDemo.sys).2
      (KeyId.make KeyId.typeCrypto 1 5)).map (·.data) = some [7, 8] := by decide +kernel

/-! ## C25 -/

variable {Q : Type}

/-- **C25** for every key call of the client library, whatever the byte orders of client and server:
the request built from the arguments makes the server, if the session has the right, perform exactly
that key store operation (`expected`), and the one response packet gives the caller its result and
the returned values.  `cap`: the size of the caller's buffer; `ci`: the cipher of the call.
Partial: a refused call reports ABORTED instead of the permission error, and for the calls with a
cipher the server's lock is supposed to be free, see `F_wrap_lock_hidden`. -/
theorem C25_key_rpc_partial (cfg : Cfg (KeyMsg.Rest Q)) (hf : Fits cfg) (hcr : cfg.noCrypto = false) (kcfg : KeyMsg.Cfg)
    (env : Q → KeyMsg.Env) (next : Q → Option (UInt64 × List UInt8) → Q)
    (hh : ∀ y c r m, cfg.handler .key y c r m = KeyMsg.handler kcfg env next y c r m) (hle : kcfg.le = cfg.le)
    (hl : KeyMsg.Lengths kcfg) (hpub : KeyMsg.PublicFits kcfg) (ccfg : ClientKey.Cfg) (hfit : ClientKey.Fit kcfg ccfg)
    (hlen : ccfg.dataLen = cfg.comm.dataLen) (d : Dev (KeyMsg.Rest Q)) (x : Nat) (hcon : (d.ctx x).connected = true)
    (hw : Keystore.WF ⟨d.auth.nvm, d.rest.global, d.rest.loc⟩) (cle : Bool) (stale : Nat → UInt8) (c : ClientKey.Call)
    (hdma : c.IsDma → kcfg.dma = true) (hkw : c.cipher? ≠ none → kcfg.keywrap = true)
    (hlock : c.cipher? ≠ none → (env d.rest.other).lock = .ok) (a : UInt16) (body : List UInt8)
    (he : ClientKey.encode cle ccfg stale c = .ok (a, body)) (cap : Nat) (ci : UInt16) (hci : ∀ y, c.cipher? = some y → y = ci)
    (seq aux aux' : UInt16) (junk : List UInt8) (txs : List Rc) (ht : Accepts txs) :
    ∃ pkt payload d', handle cfg d x (Rx.of (header cle Utils.magicNative (0x0300 ||| a) seq aux ++ body) junk)
        aux' txs = ((some .ok, [pkt]), d') ∧
      SeenAs cfg cle pkt (0x0300 ||| a) seq payload ∧
      if cfg.enableAuth = true ∧ (d.ctx x).hasAuth = true ∧ Auth.checkRequest cfg.auth d.auth x 0x0300 a ≠ .ok then
        ClientKey.decode cle cap ci a ⟨.ok, Utils.magicNative, 0x0300 ||| a, seq, payload⟩ = .err .aborted ∧ d' = d
      else
        let q := ClientKey.expected kcfg ⟨x, (d.ctx x).client.toUInt16⟩ (env d.rest.other) cap ⟨d.auth.nvm, d.rest.global, d.rest.loc⟩ c
        ClientKey.decode cle cap ci a ⟨.ok, Utils.magicNative, 0x0300 ||| a, seq, payload⟩ = q.1.1 ∧
        d' = { d with
          auth := { d.auth with nvm := q.2.nvm }
          rest := ⟨q.2.global, q.2.loc, next d.rest.other q.1.2⟩ } := by
  have hmtu : 8 + cfg.comm.dataLen < 65536 := hf.2.1
  have h510 := hf.1
  obtain ⟨hbl, ha⟩ := ClientKey.encode_fits (by omega) he
  have hk : groupOf (0x0300 ||| a) = 0x0300 ∧ actionOf (0x0300 ||| a) = a := ClientKey.kind_ok ha
  have hp := Wire.paired_server cle cfg.le (m := if cfg.le = cle then Utils.magicNative else Utils.magicSwap) rfl
  obtain ⟨pkt, h1, h2⟩ := handle_client cfg hf d x cle (0x0300 ||| a) seq aux aux' body junk (by omega) txs hcon ht rfl
  refine ⟨pkt, _, _, h1, h2, ?_⟩
  unfold answer
  dsimp only
  rw [hk.1, hk.2]
  by_cases hok : cfg.enableAuth = true ∧ (d.ctx x).hasAuth = true ∧ Auth.checkRequest cfg.auth d.auth x 0x0300 a ≠ .ok
  · rw [if_pos hok, if_pos hok]
    exact ⟨ClientKey.dec_refusal cle cap ci ha seq _ (by rw [ClientKey.refusal_len]), rfl⟩
  · rw [if_neg hok, if_neg hok]
    have hcall := ClientKey.handle_call (cfg := kcfg) (by rw [hle]; exact hp) hl hpub hfit he hdma hkw hlock hw
      ⟨x, (d.ctx x).client.toUInt16⟩ cap hci seq junk (body ++ junk)
    dsimp only
    rw [← hcall]
    unfold dispatch
    rw [if_neg (by decide), if_neg (by decide), if_neg (by decide)]
    have hg : groupFor cfg 0x0300 = some .key := by
      unfold groupFor
      rw [if_neg (by decide), if_neg (by decide), if_pos ⟨rfl, hcr⟩]
    rw [hg]
    dsimp only
    rw [hh]
    exact ⟨rfl, rfl⟩

/-- All hypotheses hold on the demonstration device for a big-endian client that caches a key of two
bytes with id 5 and a label of one byte, wraps a key under the key-encryption key, and asks for the
public part of a key by DMA. -/
example : Fits KeyMsgDemo.cfg ∧ KeyMsgDemo.cfg.noCrypto = false ∧
    (∀ y c r m, KeyMsgDemo.cfg.handler .key y c r m = KeyMsg.handler KeyMsgDemo.kcfg (fun _ => KeyMsgDemo.env) (fun q _ => q) y c r m) ∧
    KeyMsg.Lengths KeyMsgDemo.kcfg ∧ KeyMsg.PublicFits KeyMsgDemo.kcfg ∧ ClientKey.Fit KeyMsgDemo.kcfg KeyMsgDemo.ccfg ∧
    (KeyMsgDemo.dev.ctx 0).connected = true ∧
    Keystore.WF ⟨KeyMsgDemo.dev.auth.nvm, KeyMsgDemo.dev.rest.global, KeyMsgDemo.dev.rest.loc⟩ ∧
    (ClientKey.encode false KeyMsgDemo.ccfg KeyMsgDemo.stale (.cache 5 0x10 [65] [7, 8])).toOption.isSome = true ∧
    (ClientKey.encode false KeyMsgDemo.ccfg KeyMsgDemo.stale
      (.wrap 6 0x0109 ⟨0x4105, 0, 0, 2, Vector.replicate 24 0⟩ [7, 8])).toOption.isSome = true ∧
    (ClientKey.encode false KeyMsgDemo.ccfg KeyMsgDemo.stale (.exportPublicDma 7 1 0x2000 64)).toOption.isSome = true :=
  ⟨KeyMsgDemo.fits, rfl, fun _ _ _ _ => rfl, KeyMsgDemo.lengths, KeyMsgDemo.publicFits, KeyMsgDemo.fit, rfl, KeyMsgDemo.wf,
    by decide +kernel, by decide +kernel, by decide +kernel⟩

/-- What the theorem promises there: caching succeeds with id 5; the key wrapped under the trusted
key comes back as nonce, tag and ciphertext; the public key arrives in client memory. -/
example :
    (ClientKey.expected KeyMsgDemo.kcfg Keystore.Demo.one KeyMsgDemo.env 64 KeyMsgDemo.sys (.cache 5 0x10 [65] [7, 8])).1.1 = .keyId 5 ∧
    (match (ClientKey.expected KeyMsgDemo.kcfg Keystore.Demo.one KeyMsgDemo.env 64 KeyMsgDemo.sys
      (.wrap 6 0x0109 ⟨0x4105, 0, 0, 2, Vector.replicate 24 0⟩ [7, 8])).1.1 with
      | .bytes b => b.length | _ => 0) = 62 ∧
    (ClientKey.expected KeyMsgDemo.kcfg Keystore.Demo.one KeyMsgDemo.env 64 KeyMsgDemo.sys (.exportPublicDma 7 1 0x2000 64)).1.2 =
      some (0x2000, [0x5F, 0xC3, 0xE8]) := by decide +kernel

/-! ## Findings -/

/-- A refusal by the permission check never reaches the caller of a key call as such: the response
is the bare code, every key call takes it for a truncated message and returns ABORTED. -/
theorem F_key_refusal_hidden {R : Type} (cfg : Cfg R) (r : Req) (cle : Bool) (ccfg : ClientKey.Cfg) (hd : 56 ≤ ccfg.dataLen)
    (stale : Nat → UInt8) (c : ClientKey.Call) (a : UInt16) (body : List UInt8) (he : ClientKey.encode cle ccfg stale c = .ok (a, body))
    (cap : Nat) (ci seq : UInt16) :
    ClientKey.decode cle cap ci a ⟨.ok, Utils.magicNative, 0x0300 ||| a, seq, refusal cfg 0x0300 r⟩ = .err .aborted :=
  ClientKey.dec_refusal cle cap ci (ClientKey.encode_fits hd he).2 seq _ (ClientKey.refusal_len cfg r)

/-- Any call that can be sent will do. -/
example : ClientKey.encode true KeyMsgDemo.ccfg KeyMsgDemo.stale (.commit 7) = .ok (3, [7, 0] ++ ClientKey.pad 6 KeyMsgDemo.stale) ∧
    56 ≤ KeyMsgDemo.ccfg.dataLen := ⟨rfl, by decide⟩

/-- The client compares the length of a wrapped blob with the limit for keys, though the blob is 60
bytes longer than its key: what it wraps, it refuses to unwrap once the key comes within 60 bytes of
the limit. -/
theorem F_unwrap_limit (cle : Bool) (ccfg : ClientKey.Cfg) (stale : Nat → UInt8) (cipher kek : UInt16) (key blob : List UInt8)
    (hb : blob.length = 60 + key.length) (hk : ccfg.maxKey < key.length + 60) :
    ClientKey.encode cle ccfg stale (.unwrapExport cipher kek blob) = .error .badargs ∧
    ClientKey.encode cle ccfg stale (.unwrapCache cipher kek blob) = .error .badargs := by
  have h : blob.length = 0 ∨ ccfg.maxKey < blob.length ∨ ccfg.dataLen < 8 + blob.length := .inr (.inl (by omega))
  exact ⟨if_pos h, if_pos h⟩

/-- With the limit at 64 bytes the demonstration server wraps a key of 5 bytes into 65. -/
example : (match (ClientKey.expected KeyMsgDemo.kcfg Keystore.Demo.one KeyMsgDemo.env 512 KeyMsgDemo.sys
      (.wrap 6 0x0109 ⟨0x4105, 0, 0, 5, Vector.replicate 24 0⟩ [1, 2, 3, 4, 5])).1.1 with
      | .bytes b => b.length | _ => 0) = 60 + 5 ∧
    (ClientKey.encode true KeyMsgDemo.ccfg KeyMsgDemo.stale
      (.wrap 6 0x0109 ⟨0x4105, 0, 0, 5, Vector.replicate 24 0⟩ [1, 2, 3, 4, 5])).toOption.isSome = true ∧
    KeyMsgDemo.ccfg.maxKey < 5 + 60 := by decide +kernel

/-- The same for wrapped data, which is 28 bytes longer than the data. -/
theorem F_data_unwrap_limit (cle : Bool) (ccfg : ClientKey.Cfg) (stale : Nat → UInt8) (cipher kek : UInt16) (data blob : List UInt8)
    (hb : blob.length = 28 + data.length) (hk : ccfg.maxData < data.length + 28) :
    ClientKey.encode cle ccfg stale (.dataUnwrap cipher kek blob) = .error .badargs := by
  have h : blob.length = 0 ∨ ccfg.maxData < blob.length ∨ ccfg.dataLen < 8 + blob.length := .inr (.inl (by omega))
  exact if_pos h

/-- With the limit at 64 bytes the demonstration server wraps 40 bytes into 68. -/
example : (match (ClientKey.expected KeyMsgDemo.kcfg Keystore.Demo.one KeyMsgDemo.env 512 KeyMsgDemo.sys
      (.dataWrap 6 0x0109 (List.replicate 40 1))).1.1 with
      | .bytes b => b.length | _ => 0) = 28 + 40 ∧
    (ClientKey.encode true KeyMsgDemo.ccfg KeyMsgDemo.stale (.dataWrap 6 0x0109 (List.replicate 40 1))).toOption.isSome = true ∧
    KeyMsgDemo.ccfg.maxData < 40 + 28 := by decide +kernel

/-- If the server's lock fails, a wrap call returns ABORTED and not the server's error: the response
carries the error with cipher number 0, and the client looks at the cipher first. -/
theorem F_wrap_lock_hidden :
    let env : KeyMsg.Env := { KeyMsgDemo.env with lock := .locked }
    let r : Req := ⟨Utils.magicNative, 11, 1, [1, 0, 0, 0, 9, 1, 6, 0, 42], 9⟩
    let p := (KeyMsg.handle KeyMsgDemo.kcfg Keystore.Demo.one env r KeyMsgDemo.sys).1.1.bytes r.buf
    ClientKey.encode true KeyMsgDemo.ccfg KeyMsgDemo.stale (.dataWrap 6 0x0109 [42]) = .ok (11, r.buf) ∧
    p.take 4 = Utils.bytes32 true Rc.locked.code ∧
    ClientKey.decode true 64 6 11 ⟨.ok, Utils.magicNative, 0x030B, 1, p⟩ = .err .aborted := by decide +kernel

end WolfHsm.Props

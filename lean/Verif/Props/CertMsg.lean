import Verif.Proofs.CertMsgSafe
import Verif.Props.Cert
import Verif.Props.Server

/-!
# C25, C27, C42, C44 for the certificate request group
-/

namespace WolfHsm.Props

open Comm (Rx header)
open Server

variable {E : Type}

/-! ## A concrete device -/

namespace CertMsgDemo

/-- The certificate server of `CertDemo`, big-endian, with packets of 1280 bytes, DMA and attribute
certificates. -/
def ccfg : CertMsg.Cfg Nat := ⟨CertDemo.cfg, false, 1280, true, true⟩

/-- Its clients. -/
def client : ClientCert.Cfg := ⟨1280, 4, 64⟩

/-- Day 10; locks are free; client memory at 0x1000 holds the chain X, L. -/
def env : CertMsg.Env Nat :=
  ⟨.ok, .ok, CertDemo.calm, 10, fun _ _ => .ok, fun _ _ => .ok, fun _ addr i =>
    if addr = 0x1000 then (CertDemo.interX ++ CertDemo.leafL).getD i 0 else 7⟩

theorem fit : ClientCert.Fit ccfg client := ⟨rfl, rfl, by decide, by decide⟩

def cfg : Cfg (CertMsg.Rest Unit) where
  comm := ⟨1280, true⟩
  le := false
  auth := AuthDemo.cfg
  enableAuth := true
  globalKeys := false
  noCrypto := false
  dma := true
  she := false
  certs := true
  serverId := 5
  info := Vector.replicate 12 1
  version := Vector.replicate 18 65
  handler := fun g x c r m => if g = .cert then CertMsg.handler ccfg (fun _ => env) (fun q _ => q) x c r m else ((.ok, []), m)

/-- The users of `SrvDemo.dev`. -/
def dev : Dev (CertMsg.Rest Unit) where
  auth := SrvDemo.dev.auth
  rest := ⟨Keystore.Demo.empty, fun _ => Keystore.Demo.empty, fun _ => Cert.VCache.fresh 4, [], ()⟩
  ctx := fun _ => ⟨true, 1, true⟩

/-- A packet of a client with the server's byte order. -/
def req (c : ClientCert.Call) : Req :=
  match ClientCert.encode false client c with
  | .ok (a, body) => ⟨Utils.magicNative, a, 1, body ++ [9, 9, 9], body.length⟩
  | .error _ => ⟨0, 0, 0, [], 0⟩

/-- Root A is stored, the chain X, L in the packet is verified, then the same by DMA. -/
def history : List (CertMsg.PEv Nat) :=
  [.packet 0 1 env (req (.add 0x20 0xFFFF 0 [65] CertDemo.rootA)),
   .packet 0 1 env (req (.verifyMulti [0x20, 0x21] 0 0 0 (CertDemo.interX ++ CertDemo.leafL))),
   .packet 0 1 env (req (.verifyDma 0x20 0 0 0 0x1000 16))]

/-- The state after root A has been stored. -/
def stored : Cert.State := CertMsg.prun ccfg CertDemo.boot (history.take 1)

end CertMsgDemo

/-! ## C44 -/

/-- **C44**, certificate group: the effect of a packet, its writes to client memory, the length and
the result code of the response depend on nothing behind the received bytes, and nor does the rest
of the response once the request has eight bytes.  Partial: ERASETRUSTED and READTRUSTED read an id
of two bytes even from a shorter request, see `F_cert_erase_short`, `F_cert_read_short`; the
padding of the response structures keeps what the packet held, see `F_cert_padding`. -/
theorem C44_cert_partial (cfg : CertMsg.Cfg E) (x : Nat) (client : UInt16) (e : CertMsg.Env E) (s : Cert.State) (r r' : Req)
    (hm : r'.magic = r.magic) (ha : r'.action = r.action) (hs : r'.size = r.size) (hd : r'.data = r.data)
    (h34 : r.action = 3 ∨ r.action = 4 → 2 ≤ r.size) :
    let q := CertMsg.handle cfg x client e r s
    let q' := CertMsg.handle cfg x client e r' s
    q'.2 = q.2 ∧ q'.1.2 = q.1.2 ∧ q'.1.1.length = q.1.1.length ∧ q'.1.1.take 4 = q.1.1.take 4 ∧ (8 ≤ r.size → q'.1.1 = q.1.1) := by
  refine CertMsg.handle_same cfg x client e s hm ha hs ?_ h34
  have := hd; unfold Req.data at this; rwa [hs] at this

/-- An ERASETRUSTED of 0x20 followed by different garbage. -/
example : (⟨Utils.magicNative, 3, 1, [0, 0x20, 0, 0, 0, 0, 0, 0, 1, 2], 8⟩ : Req).data =
      (⟨Utils.magicNative, 3, 1, [0, 0x20, 0, 0, 0, 0, 0, 0, 3], 8⟩ : Req).data ∧
    (CertMsg.handle CertMsgDemo.ccfg 0 1 CertMsgDemo.env ⟨Utils.magicNative, 3, 1, [0, 0x20, 0, 0, 0, 0, 0, 0, 1, 2], 8⟩
      CertMsgDemo.stored).1.1 = [0, 0, 0, 0, 0, 0, 0, 0] := by decide +kernel

/-- **C44**, certificate group: a request that has not the size of its structure or not the
certificate it announces, or whose action the server does not have, changes nothing and writes
nothing. -/
theorem C44_cert_refused (cfg : CertMsg.Cfg E) (x : Nat) (client : UInt16) (e : CertMsg.Env E) (s : Cert.State) (r : Req)
    (h : ¬ CertMsg.WellSized cfg r) :
    (CertMsg.handle cfg x client e r s).2 = s ∧ (CertMsg.handle cfg x client e r s).1.2 = none :=
  CertMsg.handle_refused cfg x client e r s h

/-- An ADDTRUSTED that announces nine bytes and has eight; a VERIFY_MULTI_ROOT whose id array is cut;
an action without number. -/
example :
    let b := (CertMsgDemo.req (.add 0x20 0xFFFF 0 [65] CertDemo.rootA)).buf
    ¬ CertMsg.WellSized CertMsgDemo.ccfg ⟨Utils.magicNative, 2, 1, [0, 0, 0, 9] ++ b.drop 4, 44⟩ ∧
    ¬ CertMsg.WellSized CertMsgDemo.ccfg ⟨Utils.magicNative, 6, 1, [0, 0, 0, 0, 0, 2, 0, 0, 0, 0, 0, 0, 0, 0, 0, 0, 0, 0x20, 0], 19⟩ ∧
    ¬ CertMsg.WellSized CertMsgDemo.ccfg ⟨Utils.magicNative, 9, 1, b, 44⟩ := by
  refine ⟨?_, ?_, ?_⟩
  · show ¬ (36 ≤ 44 ∧ _)
    decide +kernel
  · show ¬ (16 + 2 * _ + _ ≤ 19)
    decide +kernel
  · exact fun h => h

/-- An empty ERASETRUSTED erases the object whose id is left in the buffer. -/
theorem F_cert_erase_short :
    let r : Req := ⟨Utils.magicNative, 3, 1, [0, 0x20, 0, 0, 0, 0, 0, 0], 0⟩
    r.data = [] ∧ (CertMsgDemo.stored.sys.nvm.store 0x20).isSome = true ∧
    ((CertMsg.handle CertMsgDemo.ccfg 0 1 CertMsgDemo.env r CertMsgDemo.stored).2.sys.nvm.store 0x20).isSome = false := by
  decide +kernel

/-- An empty READTRUSTED returns the object whose id is left in the buffer. -/
theorem F_cert_read_short :
    let r : Req := ⟨Utils.magicNative, 4, 1, [0, 0x20, 0, 0, 0, 0, 0, 0], 0⟩
    (CertMsg.handle CertMsgDemo.ccfg 0 1 CertMsgDemo.env r CertMsgDemo.stored).1.1 = [0, 0, 0, 0, 0, 0, 0, 8] ++ CertDemo.rootA := by
  decide +kernel

/-- The answer to an INIT, which has no data, ends with four bytes an earlier packet left in the
buffer. -/
theorem F_cert_padding (cfg : CertMsg.Cfg E) (x : Nat) (client : UInt16) (e : CertMsg.Env E) (s : Cert.State) (magic seq : UInt16)
    (b0 b1 b2 b3 b4 b5 b6 b7 : UInt8) :
    (CertMsg.handle cfg x client e ⟨magic, 1, seq, [b0, b1, b2, b3, b4, b5, b6, b7], 0⟩ s).1.1.drop 4 = [b4, b5, b6, b7] := by
  show (Wire.over (Wire.w32 cfg.le magic _) [b0, b1, b2, b3, b4, b5, b6, b7] 8).drop 4 = _
  unfold Wire.over
  rw [List.drop_left' (Wire.w32_length ..), Wire.w32_length]
  rfl

/-! ## C27 -/

/-- **C27**, certificate group: every response fits the packet. -/
theorem C27_cert_fits (cfg : CertMsg.Cfg E) (h8 : 8 ≤ cfg.commLen) (x : Nat) (client : UInt16) (e : CertMsg.Env E) (r : Req) (s : Cert.State) :
    (CertMsg.handle cfg x client e r s).1.1.length ≤ cfg.commLen :=
  CertMsg.handle_fits cfg h8 x client e r s

/-- It applies to the demonstration server. -/
theorem CertMsgDemo.fits : Fits CertMsgDemo.cfg := by
  refine ⟨by decide, by decide, ?_⟩
  intro g y c r m h
  show ((if g = .cert then CertMsg.handler CertMsgDemo.ccfg (fun _ => CertMsgDemo.env) (fun q _ => q) y c r m else ((.ok, []), m)).1.2).length ≤ 1280
  split
  · exact C27_cert_fits CertMsgDemo.ccfg (by decide) _ _ _ _ _
  · exact Nat.zero_le _

/-! ## C42 -/

/-- Whatever the bytes of a certificate packet, its effect is that of an event of the histories of
C42, and never that of a power-up.  (Reading certificates and verifying attribute certificates are
among the "other" events, and leave the root certificates as they are.) -/
theorem C42_cert_packets_are_events (cfg : CertMsg.Cfg E) (P : UInt16 → Prop) (x : Nat) (client : UInt16) (e : CertMsg.Env E) (r : Req)
    (s : Cert.State) (hl : e.cacheLock = .ok) (hmem : ∀ k, e.mem k = e.mem 0) (hb : r.size ≤ r.buf.length) :
    ∃ ev : Cert.Ev E, (CertMsg.handle cfg x client e r s).2 = Cert.step cfg.cert s ev ∧ Cert.Respects P s ev ∧ ∀ sys, ev ≠ .restart sys :=
  CertMsg.handle_event P x client s hl hmem hb

example : CertMsgDemo.env.cacheLock = .ok ∧ (∀ k, CertMsgDemo.env.mem k = CertMsgDemo.env.mem 0) ∧
    (CertMsgDemo.req (.verifyDma 0x20 0 0 0 0x1000 16)).size ≤ (CertMsgDemo.req (.verifyDma 0x20 0 0 0 0x1000 16)).buf.length :=
  ⟨rfl, fun _ => rfl, by decide +kernel⟩

/-- **C42** on packets.  After any history of certificate packets, whatever their bytes, other
requests and power-ups that respects the root ids `P`: when the packet `r` asks to verify the chain
of `len` bytes in `mem` against root ids of `P` and is answered with OK, the chain consists of
certificates each of which is anchored in the root certificates stored now under these ids.
Partial: see `C42_accepted_is_anchored_partial` for what `PGuarded` asks and why. -/
theorem C42_packet_accepted_is_anchored_partial (cfg : CertMsg.Cfg E) (P : UInt16 → Prop) (s0 : Cert.State) (h0 : Cert.Fresh s0)
    (evs : List (CertMsg.PEv E)) (hg : CertMsg.PGuarded cfg P s0 evs) (x : Nat) (client : UInt16) (e : CertMsg.Env E) (r : Req)
    (hmem : ∀ k, e.mem k = e.mem 0) (hb : r.size ≤ r.buf.length) (mem : Nat → List UInt8) (len : Nat) (roots : List UInt16)
    (f kf ki : UInt16) (hd : CertMsg.decode cfg e r = .job (.verify mem len roots f kf ki)) (hP : ∀ i ∈ roots, P i)
    (a : CertMsg.Answer) (s' : Cert.State) (hs : CertMsg.serve cfg x client e r (CertMsg.prun cfg s0 evs) = (some a, s')) (hok : a.rc = .ok) :
    ∃ certs, certs ≠ [] ∧ Cert.Splits cfg.cert.x509.derLen ((mem 0).take len) certs ∧
      ∀ d ∈ certs, Cert.Anchored cfg.cert.x509 s'.log (roots.filterMap (Cert.rootBytes (CertMsg.prun cfg s0 evs).sys.nvm))
        (cfg.cert.x509.hash d) := by
  obtain ⟨evs', k1, k2⟩ := CertMsg.prun_events evs s0 hg
  obtain ⟨g1, g2⟩ := CertMsg.verify_steady hmem hb hd
  unfold CertMsg.serve at hs
  rw [hd] at hs
  simp only [CertMsg.perform] at hs
  by_cases hn : e.nvmLock = .ok
  · rw [if_neg (not_not_intro hn)] at hs
    simp only [Prod.mk.injEq, Option.some.injEq] at hs
    obtain ⟨ha, hs'⟩ := hs
    rw [← ha] at hok
    have := C42_accepted_is_anchored_partial cfg.cert P s0 h0 evs' k2 ⟨x, e.x509, e.sched, mem, roots, f, kf⟩ len
      (KeyId.fromClient cfg.cert.ks.ids KeyId.typeCrypto client ki) g1 g2 hP (by rw [k1]; exact hok)
    rw [k1, hs'] at this
    exact this
  · rw [if_pos hn] at hs
    simp only [Prod.mk.injEq, Option.some.injEq] at hs
    rw [← hs.1] at hok
    exact absurd hok hn

/-- The history of the demonstration server respects the root ids; its last packet is the verification
of X, L by DMA against root 0x20, accepted. -/
example : Cert.Fresh CertDemo.boot ∧ CertMsg.PGuarded CertMsgDemo.ccfg CertDemo.P CertDemo.boot (CertMsgDemo.history.take 2) ∧
    (match CertMsg.decode CertMsgDemo.ccfg CertMsgDemo.env (CertMsgDemo.req (.verifyDma 0x20 0 0 0 0x1000 16)) with
     | .job (.verify mem len roots _ _ _) => decide (mem 0 = CertDemo.interX ++ CertDemo.leafL ∧ len = 16 ∧ roots = [0x20])
     | _ => false) = true ∧
    (CertMsg.serve CertMsgDemo.ccfg 0 1 CertMsgDemo.env (CertMsgDemo.req (.verifyDma 0x20 0 0 0 0x1000 16))
      (CertMsg.prun CertMsgDemo.ccfg CertDemo.boot (CertMsgDemo.history.take 2))).1.map (·.rc) = some .ok := by
  refine ⟨⟨?_, rfl⟩, ⟨rfl, fun _ => rfl, by decide +kernel, rfl, fun _ => rfl, by decide +kernel, trivial⟩, ?_, by decide +kernel⟩
  · unfold Cert.VCache.Empty; decide +kernel
  · decide +kernel

/-! ## C25 -/

variable {Q : Type}

/-- **C25** for every certificate call of the client library, whatever the byte orders of client and
server: the caller gets the outcome of the operation on the device, which has its effect.  `cap`: the
size of the caller's buffer.  A call refused by the permission check reports the permission error and
changes nothing; one the server is not built for reports ABORTED and changes nothing.  Partial: a
refused verification also reports a key id that means nothing, see `F_cert_refused_keyid`. -/
theorem C25_cert_rpc_partial (cfg : Cfg (CertMsg.Rest Q)) (hf : Fits cfg) (hcr : cfg.noCrypto = false) (hce : cfg.certs = true)
    (ccfg : CertMsg.Cfg E) (env : Q → CertMsg.Env E) (next : Q → Option (UInt64 × List UInt8) → Q)
    (hh : ∀ y c r m, cfg.handler .cert y c r m = CertMsg.handler ccfg env next y c r m) (hle : ccfg.le = cfg.le)
    (hcl : ccfg.commLen = cfg.comm.dataLen) (client : ClientCert.Cfg) (hfit : ClientCert.Fit ccfg client)
    (hmr : CertMsg.multiDmaSize ccfg.cert.maxRoots ≤ ccfg.commLen) (d : Dev (CertMsg.Rest Q)) (x : Nat)
    (hcon : (d.ctx x).connected = true) (cle : Bool) (c : ClientCert.Call)
    (hdis : c.Distinct ccfg (env d.rest.other) (CertMsg.view ccfg x d.auth.nvm d.rest)) (a : UInt16) (body : List UInt8)
    (he : ClientCert.encode cle client c = .ok (a, body)) (cap : Nat) (seq aux aux' : UInt16) (junk : List UInt8) (txs : List Rc)
    (ht : Accepts txs) :
    ∃ pkt payload d', handle cfg d x (Rx.of (header cle Utils.magicNative (0x0C00 ||| a) seq aux ++ body) junk)
        aux' txs = ((some .ok, [pkt]), d') ∧
      SeenAs cfg cle pkt (0x0C00 ||| a) seq payload ∧
      let p := ClientCert.decode cle cap a ⟨.ok, Utils.magicNative, 0x0C00 ||| a, seq, payload⟩
      if cfg.enableAuth = true ∧ (d.ctx x).hasAuth = true ∧ Auth.checkRequest cfg.auth d.auth x 0x0C00 a ≠ .ok then
        ((c.verifies ∧ ∃ k, p = .verified Rc.authPermissionError.code k) ∨ (¬ c.verifies ∧ p = .code Rc.authPermissionError.code)) ∧ d' = d
      else
        (c.Offered ccfg →
          let q := ClientCert.expected ccfg x (d.ctx x).client.toUInt16 (env d.rest.other) cap (CertMsg.view ccfg x d.auth.nvm d.rest) c
          p = q.1.1 ∧ d' = { d with
            auth := { d.auth with nvm := q.2.sys.nvm }
            rest := CertMsg.put ccfg x d.rest q.2 (next d.rest.other q.1.2) }) ∧
        (¬ c.Offered ccfg → p = .err .aborted ∧ d'.auth = d.auth ∧ d'.rest.global = d.rest.global ∧ d'.rest.loc = d.rest.loc ∧
          d'.rest.vc = d.rest.vc ∧ d'.rest.log = d.rest.log ∧ d'.ctx = d.ctx) := by
  have hmtu : 8 + cfg.comm.dataLen < 65536 := hf.2.1
  have h510 := hf.1
  have hbl := ClientCert.encode_fits hfit (by omega) hmr he
  have ha := ClientCert.encode_action he
  have hk : groupOf (0x0C00 ||| a) = 0x0C00 ∧ actionOf (0x0C00 ||| a) = a := ClientCert.kind_ok ha
  have hp := Wire.paired_server cle cfg.le (m := if cfg.le = cle then Utils.magicNative else Utils.magicSwap) rfl
  obtain ⟨pkt, h1, h2⟩ := handle_client cfg hf d x cle (0x0C00 ||| a) seq aux aux' body junk (by omega) txs hcon ht rfl
  refine ⟨pkt, _, _, h1, h2, ?_⟩
  unfold answer
  dsimp only
  rw [hk.1, hk.2]
  by_cases hok : cfg.enableAuth = true ∧ (d.ctx x).hasAuth = true ∧ Auth.checkRequest cfg.auth d.auth x 0x0C00 a ≠ .ok
  · rw [if_pos hok, if_pos hok]
    refine ⟨?_, rfl⟩
    have hr : ∀ r : Req, refusal cfg 0x0C00 r = Wire.over (Wire.w32 cfg.le r.magic Rc.authPermissionError.code) r.buf 8 := by
      intro r
      unfold refusal
      dsimp only
      rw [if_neg (by decide), if_neg (by decide), if_pos ⟨rfl, hce, hcr⟩]
      rfl
    rw [hr]
    have := ClientCert.dec_refusal hp cap ha seq (body ++ junk)
    unfold ClientCert.gotOf at this
    dsimp only
    rw [this]
    have hv := ClientCert.encode_verifies he
    by_cases hv' : c.verifies
    · rw [if_pos (hv.1 hv')]; exact .inl ⟨hv', _, rfl⟩
    · rw [if_neg (fun h => hv' (hv.2 h))]; exact .inr ⟨hv', rfl⟩
  · rw [if_neg hok, if_neg hok]
    have hg : groupFor cfg 0x0C00 = some .cert := by
      unfold groupFor
      rw [if_neg (by decide), if_neg (by decide), if_neg (fun h => absurd h.1 (by decide)), if_neg (fun h => absurd h.1 (by decide)),
        if_neg (fun h => absurd h.1 (by decide)), if_neg (fun h => absurd h.1 (by decide)), if_neg (by decide), if_pos ⟨rfl, hce, hcr⟩]
    unfold dispatch
    rw [if_neg (by decide), if_neg (by decide), if_neg (by decide), hg]
    dsimp only
    rw [hh]
    rw [← hle] at hp
    refine ⟨fun hoff => ?_, fun hoff => ?_⟩
    · have hcall := ClientCert.handle_call (cfg := ccfg) hfit hp.symm x (d.ctx x).client.toUInt16 (env d.rest.other)
        (CertMsg.view ccfg x d.auth.nvm d.rest) cap c hoff hdis he (seq := seq) junk
      dsimp only at hcall
      rw [← hcall, ← hle]
      exact ⟨rfl, rfl⟩
    · have hun := ClientCert.not_offered hoff he (env d.rest.other) seq (if cfg.le = cle then Utils.magicNative else Utils.magicSwap) junk
      have hhand : CertMsg.handle ccfg x (d.ctx x).client.toUInt16 (env d.rest.other)
          (ClientCert.reqOf (if cfg.le = cle then Utils.magicNative else Utils.magicSwap) a seq body junk)
          (CertMsg.view ccfg x d.auth.nvm d.rest) = (([], none), CertMsg.view ccfg x d.auth.nvm d.rest) := by
        unfold CertMsg.handle CertMsg.serve
        rw [hun]
      unfold CertMsg.handler
      unfold ClientCert.reqOf at hhand
      dsimp only
      rw [hhand]
      refine ⟨ClientCert.decode_empty cle cap ha seq, rfl, rfl, rfl, ?_, rfl, rfl⟩
      funext y
      show (if y = CertMsg.slotOf ccfg x then _ else _) = _
      split
      · next hy => rw [hy]; rfl
      · rfl

/-- The hypotheses hold on the demonstration device for a little-endian client that stores root A,
verifies a chain against two roots, reads a certificate, and verifies by DMA; the device has the
caches to clear. -/
example : Fits CertMsgDemo.cfg ∧ CertMsgDemo.cfg.noCrypto = false ∧ CertMsgDemo.cfg.certs = true ∧
    (∀ y c r m, CertMsgDemo.cfg.handler .cert y c r m = CertMsg.handler CertMsgDemo.ccfg (fun _ => CertMsgDemo.env) (fun q _ => q) y c r m) ∧
    ClientCert.Fit CertMsgDemo.ccfg CertMsgDemo.client ∧ CertMsg.multiDmaSize CertMsgDemo.ccfg.cert.maxRoots ≤ CertMsgDemo.ccfg.commLen ∧
    (CertMsgDemo.dev.ctx 0).connected = true ∧ ClientCert.Call.clear.Offered CertMsgDemo.ccfg ∧
    (ClientCert.encode true CertMsgDemo.client (.add 0x20 0xFFFF 0 [65] CertDemo.rootA)).toOption.isSome = true ∧
    (ClientCert.encode true CertMsgDemo.client (.verifyMulti [0x20, 0x21] 0 0 0 (CertDemo.interX ++ CertDemo.leafL))).toOption.isSome = true ∧
    (ClientCert.encode true CertMsgDemo.client (.verifyMultiDma [0x20, 0x21] 0 0 0 0x1000 16)).toOption.isSome = true ∧
    (ClientCert.Call.read 0x20).Distinct CertMsgDemo.ccfg CertMsgDemo.env CertMsgDemo.stored ∧
    Auth.checkRequest CertMsgDemo.cfg.auth CertMsgDemo.dev.auth 0 0x0C00 2 = .ok := by
  refine ⟨CertMsgDemo.fits, rfl, rfl, fun _ _ _ _ => rfl, CertMsgDemo.fit, by decide, rfl, rfl, by decide +kernel, by decide +kernel,
    by decide +kernel, ?_, by decide +kernel⟩
  show ClientCert.Distinct _
  unfold ClientCert.Distinct
  decide +kernel

/-- What the theorem promises there: the root is stored, the chain is accepted with key id 0, by DMA
too, and the certificate is read back; a caller with too small a buffer is told its length. -/
example :
    let s := (ClientCert.expected CertMsgDemo.ccfg 0 1 CertMsgDemo.env 64 CertDemo.boot (.add 0x20 0xFFFF 0 [65] CertDemo.rootA)).2
    (ClientCert.expected CertMsgDemo.ccfg 0 1 CertMsgDemo.env 64 s
      (.verifyMulti [0x20, 0x21] 0 0 0 (CertDemo.interX ++ CertDemo.leafL))).1.1 = .verified 0 0 ∧
    (ClientCert.expected CertMsgDemo.ccfg 0 1 CertMsgDemo.env 64 s (.verifyMultiDma [0x20, 0x21] 0 0 0 0x1000 16)).1.1 = .verified 0 0 ∧
    (ClientCert.expected CertMsgDemo.ccfg 0 1 CertMsgDemo.env 64 s (.verify 0x20 0 0 0 CertDemo.evil)).1.1 = .verified Rc.certVerify.code 0 ∧
    (ClientCert.expected CertMsgDemo.ccfg 0 1 CertMsgDemo.env 64 s (.read 0x20)).1.1 = .cert CertDemo.rootA ∧
    (ClientCert.expected CertMsgDemo.ccfg 0 1 CertMsgDemo.env 4 s (.read 0x20)).1.1 = .tooLong 8 := by decide +kernel

/-! ## Findings -/

/-- A refused verification reports the permission error, and as the id of the leaf key the id of the
root the client asked for (with its bytes swapped if client and server differ in byte order): the
refusal leaves these bytes of the request in the packet. -/
theorem F_cert_refused_keyid :
    let r := CertMsgDemo.req (.verify 0x20 1 0 0 CertDemo.interX)
    let b := refusal CertMsgDemo.cfg 0x0C00 r
    ClientCert.decode false 0 5 ⟨.ok, Utils.magicNative, 0x0C05, 1, b⟩ = .verified Rc.authPermissionError.code 0x20 := by
  decide +kernel

/-- A read by DMA does not tell the caller how long the certificate is: the result for a root of
eight bytes and one of five is the same. -/
theorem F_cert_read_dma_length :
    let long := CertMsg.prun CertMsgDemo.ccfg CertDemo.boot [.packet 0 1 CertMsgDemo.env (CertMsgDemo.req (.add 0x20 0xFFFF 0 [65] CertDemo.rootA))]
    let short := CertMsg.prun CertMsgDemo.ccfg CertDemo.boot
      [.packet 0 1 CertMsgDemo.env (CertMsgDemo.req (.add 0x20 0xFFFF 0 [65] (CertDemo.rootA.take 5)))]
    (ClientCert.expected CertMsgDemo.ccfg 0 1 CertMsgDemo.env 64 long (.readDma 0x20 0x2000 64)).1 = (.code 0, some (0x2000, CertDemo.rootA)) ∧
    (ClientCert.expected CertMsgDemo.ccfg 0 1 CertMsgDemo.env 64 short (.readDma 0x20 0x2000 64)).1 =
      (.code 0, some (0x2000, CertDemo.rootA.take 5)) := by decide +kernel

/-- A read by DMA into a buffer larger than the largest certificate the server is built for is never
answered with OK, whatever the certificate. -/
theorem F_cert_read_dma_large (cfg : CertMsg.Cfg E) (x : Nat) (client : UInt16) (e : CertMsg.Env E) (cap : Nat) (s : Cert.State) (id : UInt16)
    (addr : UInt64) (len : UInt32) (h : cfg.cert.maxCert < len.toNat) :
    (ClientCert.expected cfg x client e cap s (.readDma id addr len)).1.2 = none := by
  simp only [ClientCert.expected]
  split
  · dsimp only
    rw [if_neg]
    intro hok
    have := (ClientCert.readChecked_ok hok).2.2.2
    omega
  · rfl

example : CertMsgDemo.ccfg.cert.maxCert < (65 : UInt32).toNat := by decide

end WolfHsm.Props

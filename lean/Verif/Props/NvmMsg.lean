import Verif.Proofs.NvmMsg
import Verif.Props.Server

/-!
# C25, C27, C44 for the NVM request group
-/

namespace WolfHsm.Props

open Comm (Rx header)
open Server

variable {R : Type}

/-! ## A concrete device -/

namespace NvmMsgDemo

/-- Little-endian server of the NVM group with packets of 1280 bytes. -/
def ncfg : NvmMsg.Cfg where
  nvm := ⟨1276, fun _ => false, fun _ _ _ _ => (.ok, 2, 7), fun _ => (.ok, [100, 3, 64, 1])⟩
  le := true
  dma := true
  serverId := 5

/-- Client memory: zeros, but at 0x1000 a metadata structure with id 5, access 0, flags 0, length 2,
as a big-endian client writes it. -/
def env : NvmMsg.Env where
  lock := .ok
  pre := fun _ _ _ => .ok
  null := fun a => a == 0
  mem1 := fun a n => if a = 0x1000 then [0, 5, 0, 0, 0, 0, 0, 2] ++ List.replicate 24 0 else List.replicate n 9
  mem2 := fun a n => if a = 0x1000 then [0, 5, 0, 0, 0, 0, 0, 2] ++ List.replicate 24 0 else List.replicate n 9

def cfg : Cfg Unit where
  comm := ⟨1280, true⟩
  le := true
  auth := AuthDemo.cfg
  enableAuth := true
  globalKeys := false
  noCrypto := true
  dma := false
  she := false
  certs := false
  serverId := 5
  info := Vector.replicate 12 1
  version := Vector.replicate 18 65
  handler := fun g _ _ r m => if g = .nvm then NvmMsg.handler ncfg (fun _ => env) (fun q _ => q) r m else ((.ok, []), m)

theorem fits : Fits cfg := by
  refine ⟨by decide, by decide, ?_⟩
  intro g y c r m h
  show (((if g = .nvm then NvmMsg.handler ncfg (fun _ => env) (fun q _ => q) r m else ((.ok, []), m)).1.2)).length ≤ 1280
  split
  · exact NvmMsg.handle_fits (by decide) (by decide) env r m.1
  · exact Nat.zero_le _

end NvmMsgDemo

/-! ## C44 -/

/-- **C44**, NVM group: response, writes to client memory and effect depend on nothing behind the
received bytes. -/
theorem C44_nvm (cfg : NvmMsg.Cfg) (e : NvmMsg.Env) (n : Nvm) (r r' : Req) (hm : r'.magic = r.magic)
    (ha : r'.action = r.action) (hs : r'.size = r.size) (hd : r'.data = r.data) :
    NvmMsg.handle cfg e r' n = NvmMsg.handle cfg e r n := by
  have hd' : r'.buf.take r.size = r.buf.take r.size := by
    have := hd; unfold Req.data at this; rwa [hs] at this
  have hdec := NvmMsg.decode_same cfg e hm ha hs hd'
  unfold NvmMsg.handle
  rw [hdec]
  dsimp only
  have he : ∀ q, NvmMsg.encode cfg r' q = NvmMsg.encode cfg r q := by
    intro q; unfold NvmMsg.encode; rw [hm, ha]
  have hw : NvmMsg.written cfg r' (NvmServer.handle cfg.nvm n e.lock (NvmMsg.decode cfg e r)).1 =
      NvmMsg.written cfg r (NvmServer.handle cfg.nvm n e.lock (NvmMsg.decode cfg e r)).1 := by
    by_cases h28 : r.action = 0x28
    · by_cases hz : 8 ≤ r.size
      · unfold NvmMsg.written
        rw [ha, hm, Wire.rd64_eq hd' hz]
      · have hb : ∀ rc data, (NvmServer.handle cfg.nvm n e.lock (NvmMsg.decode cfg e r)).1 ≠ .bytes rc data := by
          intro rc data
          have : NvmMsg.decode cfg e r = .malformed ∨ NvmMsg.decode cfg e r = .unknown := by
            unfold NvmMsg.decode
            dsimp only
            rw [h28, if_neg (by decide), if_neg (by decide), if_neg (by decide), if_neg (by decide),
              if_neg (by decide), if_neg (by decide), if_neg (by decide), if_neg (by decide),
              if_neg (fun h => absurd h.1 (by decide))]
            by_cases hc : (0x28 : UInt16) = 0x28 ∧ cfg.dma = true
            · rw [if_pos hc, if_neg (by omega)]; exact Or.inl rfl
            · rw [if_neg hc]; exact Or.inr rfl
          rcases this with h | h <;> rw [h] <;> intro q <;> cases q
        generalize (NvmServer.handle cfg.nvm n e.lock (NvmMsg.decode cfg e r)).1 = q at *
        cases q <;> first | rfl | exact absurd rfl (hb _ _)
    · unfold NvmMsg.written
      rw [ha]
      split
      · rw [if_neg h28, if_neg h28]
      · rfl
  rw [he, hw]

/-- **C44**, NVM group: a request whose size does not fit its action (for ADDOBJECT: fits neither
the structure nor the announced length) has no effect on the objects nor on client memory, and is
answered with ABORTED, an empty packet for an unknown action, or, for an ADDOBJECT whose length
field does not fit, with a bare code. -/
theorem C44_nvm_refused (cfg : NvmMsg.Cfg) (e : NvmMsg.Env) (n : Nvm) (r : Req) (hb : r.size ≤ r.buf.length)
    (hw : ¬ NvmMsg.WellSized cfg r) :
    (NvmMsg.handle cfg e r n).2 = n ∧ (NvmMsg.handle cfg e r n).1.2 = none ∧
    ((NvmMsg.handle cfg e r n).1.1 = [] ∨
     (∃ rest, (NvmMsg.handle cfg e r n).1.1 = Wire.w32 cfg.le r.magic Rc.aborted.code ++ rest) ∨
     (r.action = 4 ∧ 32 ≤ r.size)) := by
  unfold NvmMsg.handle
  dsimp only
  rcases NvmMsg.decode_refused (e := e) hb hw with h | h | ⟨md, payload, h4, h, hl⟩
  · rw [h]; exact ⟨rfl, rfl, Or.inr (Or.inl ⟨_, rfl⟩)⟩
  · rw [h]; exact ⟨rfl, rfl, Or.inl rfl⟩
  · have h32 : 32 ≤ r.size := by
      by_cases h32 : 32 ≤ r.size
      · exact h32
      · exfalso
        unfold NvmMsg.decode at h
        dsimp only at h
        rw [h4, if_neg (by decide), if_neg (by decide), if_neg (by decide), if_pos rfl, if_pos (by omega)] at h
        cases h
    rw [h]
    unfold NvmServer.handle NvmServer.handleAdd
    dsimp only
    rw [if_neg hl]
    exact ⟨rfl, rfl, Or.inr (Or.inr ⟨h4, h32⟩)⟩

/-- A LIST request of five bytes, and a READ of six bytes followed by different garbage. -/
example : ¬ NvmMsg.WellSized NvmMsgDemo.ncfg ⟨Utils.magicNative, 5, 1, [0, 0, 0, 0, 0, 7, 7, 7], 5⟩ ∧
    (⟨Utils.magicNative, 8, 1, [7, 0, 0, 0, 4, 0, 1, 2], 6⟩ : Req).data =
      (⟨Utils.magicNative, 8, 1, [7, 0, 0, 0, 4, 0, 3], 6⟩ : Req).data := by
  constructor
  · intro h
    have h : (5 : Nat) = 6 := h
    cases h
  · rfl

/-- C44 does not hold to the letter for ADDOBJECT: a request that announces more bytes than it
carries is answered with success. -/
theorem F_nvm_add_short_ok : (NvmMsg.handle NvmMsgDemo.ncfg NvmMsgDemo.env
    ⟨Utils.magicNative, 4, 1, [7, 0, 0, 0, 0, 0, 9, 0] ++ List.replicate 24 0 ++ [1, 2], 34⟩
    SrvDemo.dev.auth.nvm).1.1 = [0, 0, 0, 0] := by decide +kernel

/-! ## C27 -/

/-- **C27**, NVM group: every response fits the packet. -/
theorem C27_nvm_fits (cfg : NvmMsg.Cfg) (dataLen : Nat) (h1 : 36 ≤ dataLen) (h2 : cfg.nvm.maxRead + 4 ≤ dataLen)
    (e : NvmMsg.Env) (r : Req) (n : Nvm) : (NvmMsg.handle cfg e r n).1.1.length ≤ dataLen :=
  NvmMsg.handle_fits h1 h2 e r n

/-- With the packets of the demonstration device a READ of 1276 bytes just fits. -/
example : NvmMsgDemo.ncfg.nvm.maxRead + 4 ≤ 1280 ∧ 36 ≤ 1280 := by decide

/-! ## C25 -/

/-- **C25** for every NVM call of the client library, whatever the byte orders of client and server:
the request built from the arguments makes the server, if the session has the right, perform exactly
that call on its NVM (`expected`), and the one response packet gives the caller its result and the
returned values; without the right the caller gets the permission error and nothing changes.
Partial: for ADDOBJECTDMA, `expected` reads the client's metadata structure in the server's byte
order, see `F_dma_metadata_byte_order`. -/
theorem C25_nvm_rpc_partial (cfg : Cfg R) (hf : Fits cfg) (ncfg : NvmMsg.Cfg) (env : R → NvmMsg.Env)
    (next : R → Option (UInt64 × List UInt8) → R)
    (hh : ∀ y c r m, cfg.handler .nvm y c r m = NvmMsg.handler ncfg env next r m) (hle : ncfg.le = cfg.le)
    (hrd : ncfg.nvm.maxRead = cfg.comm.dataLen - 4) (d : Dev R) (x : Nat) (hcon : (d.ctx x).connected = true)
    (cle : Bool) (c : ClientNvm.Call) (hdma : c.IsDma → ncfg.dma = true) (a : UInt16) (body : List UInt8)
    (he : ClientNvm.encode cle cfg.comm.dataLen c = .ok (a, body))
    (seq aux aux' : UInt16) (junk : List UInt8) (txs : List Rc) (ht : Accepts txs) :
    ∃ pkt payload d', handle cfg d x (Rx.of (header cle Utils.magicNative (0x0200 ||| a) seq aux ++ body) junk)
        aux' txs = ((some .ok, [pkt]), d') ∧
      SeenAs cfg cle pkt (0x0200 ||| a) seq payload ∧
      if cfg.enableAuth = true ∧ (d.ctx x).hasAuth = true ∧ Auth.checkRequest cfg.auth d.auth x 0x0200 a ≠ .ok then
        ClientNvm.decode cle cfg.comm.dataLen a ⟨.ok, Utils.magicNative, 0x0200 ||| a, seq, payload⟩ =
          ClientNvm.refusedResult c ∧ d' = d
      else
        let q := ClientNvm.expected ncfg (env d.rest) d.auth.nvm c
        ClientNvm.decode cle cfg.comm.dataLen a ⟨.ok, Utils.magicNative, 0x0200 ||| a, seq, payload⟩ = q.1.1 ∧
        d' = { d with auth := { d.auth with nvm := q.2 }, rest := next d.rest q.1.2 } := by
  have hmtu : 8 + cfg.comm.dataLen < 65536 := hf.2.1
  have h510 := hf.1
  obtain ⟨hl, ha⟩ := ClientNvm.encode_fits (by omega) he
  have hk : groupOf (0x0200 ||| a) = 0x0200 ∧ actionOf (0x0200 ||| a) = a := by
    rcases ha with h | h | h | h | h | h | h | h | h | h <;> subst h <;> decide
  have hp := Wire.paired_server cle cfg.le (m := if cfg.le = cle then Utils.magicNative else Utils.magicSwap) rfl
  obtain ⟨pkt, h1, h2⟩ := handle_client cfg hf d x cle (0x0200 ||| a) seq aux aux' body junk hl txs hcon ht rfl
  refine ⟨pkt, _, _, h1, h2, ?_⟩
  unfold answer
  dsimp only
  rw [hk.1, hk.2]
  by_cases hok : cfg.enableAuth = true ∧ (d.ctx x).hasAuth = true ∧ Auth.checkRequest cfg.auth d.auth x 0x0200 a ≠ .ok
  · rw [if_pos hok, if_pos hok]
    exact ⟨ClientNvm.dec_refusal hp (by omega) he seq _ _, rfl⟩
  · rw [if_neg hok, if_neg hok]
    have hcall := ClientNvm.handle_call (cfg := ncfg) (by rw [hle]; exact hp) (by omega) (by omega) (by omega) he hdma
      (env d.rest) d.auth.nvm seq junk rfl
    rw [← hcall]
    unfold dispatch
    rw [if_neg (by decide), if_neg (by decide), if_neg (by decide)]
    have hg : groupFor cfg 0x0200 = some .nvm := if_pos rfl
    rw [hg]
    dsimp only
    rw [hh]
    exact ⟨rfl, rfl⟩

/-- The administrator of the demonstration device stores an object, and the caller is told so; the
caller of `getMetadata` on an object that does not exist is told that. -/
example : (ClientNvm.encode false 1280 (.add 7 0 0 [65, 66] [1, 2, 3])).toBool = true ∧
    Auth.checkRequest AuthDemo.cfg SrvDemo.dev.auth 0 0x0200 4 = .ok ∧
    (ClientNvm.expected NvmMsgDemo.ncfg NvmMsgDemo.env SrvDemo.dev.auth.nvm (.add 7 0 0 [65, 66] [1, 2, 3])).1.1 =
      .simple 0 ∧
    ((ClientNvm.expected NvmMsgDemo.ncfg NvmMsgDemo.env SrvDemo.dev.auth.nvm (.add 7 0 0 [65, 66] [1, 2, 3])).2.store 7).map (·.2) =
      some [1, 2, 3] ∧
    (ClientNvm.expected NvmMsgDemo.ncfg NvmMsgDemo.env SrvDemo.dev.auth.nvm (.getMetadata 7)).1.1 =
      .metadata Rc.notfound.code ClientNvm.zeroMeta := by decide +kernel

/-- The hypothesis on the handler is met by the demonstration device. -/
example : ∀ y c r m, NvmMsgDemo.cfg.handler .nvm y c r m =
    NvmMsg.handler NvmMsgDemo.ncfg (fun _ => NvmMsgDemo.env) (fun q _ => q) r m := fun _ _ _ _ => rfl

/-- C25 does not hold for ADDOBJECTDMA: the metadata structure in client memory is not translated.
A big-endian client that asks to store object 5 gets object 0x0500 on a little-endian server. -/
theorem F_dma_metadata_byte_order :
    let n' := (ClientNvm.expected NvmMsgDemo.ncfg NvmMsgDemo.env SrvDemo.dev.auth.nvm (.addDma 0x1000 0x2000 2)).2
    (n'.store 5 = none) ∧ (n'.store 0x0500).map (·.2) = some [9, 9] := by decide +kernel

end WolfHsm.Props

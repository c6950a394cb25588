import Verif.Props.CryptoDma
import Verif.Props.KeystorePersist

/-!
# C14, C56: verification with a stateful key over DMA uses the client's own key

A response of more than the 12 bytes of the header reports success.
-/

namespace WolfHsm.Props

open Server (Req)
open CryptoDma (Op Buf)
open Keystore (ownId view Reachable Reach GoodCfg WF)

/-- A key that a handler could load is the client's, as the server context sees it. -/
theorem slot_view {cfg : CryptoDma.Cfg} {v : Keystore.Srv} {s : Keystore.Sys} {lock : Rc} {a : StatefulSig.Alg}
    {rid : UInt16} {k : List UInt8} (hw : WF s) (h : CryptoDma.slot cfg v s lock a rid = .ok k) :
    ∃ md, view cfg.base.crypto.ks v.ctx s (ownId cfg.base.crypto.ks v rid) = some (md, k) := by
  unfold CryptoDma.slot at h
  dsimp only at h
  split at h
  · cases h
  split at h
  · cases h
  revert h
  have hid : KeyId.fromClient cfg.base.crypto.ks.ids KeyId.typeCrypto v.client rid = ownId cfg.base.crypto.ks v rid := rfl
  rw [hid]
  refine Keystore.freshen_cases (cfg := cfg.base.crypto.ks) (x := v.ctx) (id := ownId cfg.base.crypto.ks v rid) hw
    (P := fun z => (match z with
      | (.ok, some k, _) => (StatefulSig.deserialize cfg.sig a k.data).map fun _ => k.data
      | (rc, _, _) => Except.error (errRc rc)) = .ok k → _) ?_ ?_ ?_ ?_
  · intro k' hk h
    dsimp only at h
    rcases hd : StatefulSig.deserialize cfg.sig a k'.data with e | d
    · rw [hd] at h; cases h
    · rw [hd] at h
      cases h
      exact ⟨k'.md, by unfold view; rw [hk]⟩
  · intro md bs s' _ hl h
    dsimp only at h
    rcases hd : StatefulSig.deserialize cfg.sig a bs with e | d
    · rw [hd] at h; cases h
    · rw [hd] at h
      cases h
      exact ⟨md, by unfold view; rw [hl.before]; exact hl.stored⟩
  · intro rc s' hrc _ _ h
    cases rc <;> first | exact absurd rfl hrc | cases h
  · intro rc hrc h
    cases rc <;> first | exact absurd rfl hrc | cases h

/-- A response of more than 12 bytes is not a header. -/
theorem not_header {le : Bool} {r : Req} {rc : Rc} (h : 12 < (CryptoMsg.header le r rc).length) : False := by
  rw [CryptoMsg.header_length] at h; omega

/-- **C14**, **C56**: LMS and XMSS verify over DMA.  When the request succeeds, the key that was used is
the one of the client that asked, under the id in the request (byte 48); signature and message are the bytes
of client memory that the request names (bytes 12 and 28); the server was allowed to read both; and the
verdict in the response (byte 28) is what the library says about the three. -/
theorem C14_sigVerify_own_key {cfg : CryptoDma.Cfg} {ncfg : NvmServer.Cfg} {v : Keystore.Srv} {e : CryptoDma.Env}
    {r : Req} {s : Keystore.Sys} {a : StatefulSig.Alg} (hsg : GoodCfg cfg.base.crypto.ks)
    (hlib : ∀ b, ∃ m, (cfg.sigLib b).Sound m) (hs : StatefulSig.Reach cfg.sig ncfg s) (hc : v.client < 16)
    (hop : cfg.select r.action (Wire.rd32 cfg.le r.magic r.buf 0) (Wire.rd32 cfg.le r.magic r.buf 4) = .ok (.sigVerify a))
    (h12 : 12 ≤ r.size) (hok : 12 < (CryptoDma.handle cfg v e r s).1.1.length) :
    let id := ownId cfg.base.crypto.ks v (Wire.rd32 cfg.le r.magic r.buf 48).toUInt16
    let sig : Buf := ⟨Wire.rd64 cfg.le r.magic r.buf 12, Wire.rd64 cfg.le r.magic r.buf 20⟩
    let msg : Buf := ⟨Wire.rd64 cfg.le r.magic r.buf 28, Wire.rd64 cfg.le r.magic r.buf 36⟩
    Reachable cfg.base.crypto.ks v.client id ∧ e.readPre sig = .ok ∧ e.readPre msg = .ok ∧
    ∃ md key n, view cfg.base.crypto.ks v.ctx s id = some (md, key) ∧
      cfg.sigVerify a key (e.read sig) (e.read msg) = .ok n ∧
      ((CryptoDma.handle cfg v e r s).1.1.drop 28).take 4 = Wire.w32 cfg.le r.magic (UInt32.ofNat n) := by
  intro id sig msg
  have hw : WF s := StatefulSig.Reach.wf hsg hlib hs
  refine ⟨Keystore.reach_own _ hc _ _, ?_⟩
  revert hok
  unfold CryptoDma.handle
  rw [if_neg (by omega), hop]
  dsimp only
  unfold CryptoDma.decode CryptoMsg.sized
  dsimp only
  by_cases h40 : CryptoMsg.inSize r < 40
  · rw [if_pos h40]; intro h; exact (not_header h).elim
  rw [if_neg h40]
  dsimp only
  unfold CryptoDma.verify
  dsimp only
  have hk : CryptoMsg.half cfg.le r 9 = (Wire.rd32 cfg.le r.magic r.buf 48).toUInt16 := rfl
  have hb1 : CryptoDma.buf cfg.le r 0 = sig := rfl
  have hb2 : CryptoDma.buf cfg.le r 16 = msg := rfl
  rw [hk, hb1, hb2]
  rcases hsl : CryptoDma.slot cfg v s (CryptoDma.first [e.init, e.locks 0]) a
    (Wire.rd32 cfg.le r.magic r.buf 48).toUInt16 with rc | k
  · intro h; exact (not_header h).elim
  obtain ⟨md, hv⟩ := slot_view hw hsl
  dsimp only
  by_cases hp : CryptoDma.first [e.readPre sig, e.readPre msg] = .ok
  · rw [if_pos hp]
    have hp2 : e.readPre sig = .ok ∧ e.readPre msg = .ok := by
      unfold CryptoDma.first at hp
      split at hp
      · rename_i h1
        unfold CryptoDma.first at hp
        split at hp
        · rename_i h2; exact ⟨h1, h2⟩
        · rename_i h2; exact absurd hp h2
      · rename_i h1; exact absurd hp h1
    rcases hn : cfg.sigVerify a k (e.read sig) (e.read msg) with rc | n
    · intro h; exact (not_header h).elim
    intro _
    refine ⟨hp2.1, hp2.2, md, k, n, hv, hn, ?_⟩
    dsimp only
    unfold CryptoMsg.reply Wire.over
    have h16 : (CryptoDma.clear cfg.le r).length = 16 := by
      simp [CryptoDma.clear, CryptoDma.status, Wire.w64_length]
    have h4 : (CryptoMsg.num cfg.le r n).length = 4 := CryptoMsg.num_length ..
    rw [List.append_nil, ← List.append_assoc, List.append_assoc (_ ++ _),
      List.drop_append_of_le_length (by simp [CryptoMsg.header_length, h16]),
      List.drop_of_length_le (by simp [CryptoMsg.header_length, h16]), List.nil_append,
      List.take_append_of_le_length (by omega), List.take_of_length_le (by omega)]
    rfl
  · rw [if_neg hp]; intro h; exact (not_header h).elim

/-- **C14**, **C56**: how many signatures a stateful key has left.  When the request succeeds, the number in
the response (byte 12) is that of the client's own key under the id in the request. -/
theorem C14_sigsLeft_own_key {cfg : CryptoDma.Cfg} {ncfg : NvmServer.Cfg} {v : Keystore.Srv} {e : CryptoDma.Env}
    {r : Req} {s : Keystore.Sys} {a : StatefulSig.Alg} (hsg : GoodCfg cfg.base.crypto.ks)
    (hlib : ∀ b, ∃ m, (cfg.sigLib b).Sound m) (hs : StatefulSig.Reach cfg.sig ncfg s) (hc : v.client < 16)
    (hop : cfg.select r.action (Wire.rd32 cfg.le r.magic r.buf 0) (Wire.rd32 cfg.le r.magic r.buf 4) = .ok (.sigLeft a))
    (h12 : 12 ≤ r.size) (hok : 12 < (CryptoDma.handle cfg v e r s).1.1.length) :
    let id := ownId cfg.base.crypto.ks v (Wire.rd32 cfg.le r.magic r.buf 12).toUInt16
    Reachable cfg.base.crypto.ks v.client id ∧
    ∃ md key, view cfg.base.crypto.ks v.ctx s id = some (md, key) ∧
      (CryptoDma.handle cfg v e r s).1.1.drop 12 = Wire.w32 cfg.le r.magic (cfg.sigsLeft a key) := by
  intro id
  have hw : WF s := StatefulSig.Reach.wf hsg hlib hs
  refine ⟨Keystore.reach_own _ hc _ _, ?_⟩
  revert hok
  unfold CryptoDma.handle
  rw [if_neg (by omega), hop]
  dsimp only
  unfold CryptoDma.decode CryptoMsg.sized
  dsimp only
  by_cases h40 : CryptoMsg.inSize r < 4
  · rw [if_pos h40]; intro h; exact (not_header h).elim
  rw [if_neg h40]
  dsimp only
  unfold CryptoDma.sigsLeft
  dsimp only
  have hk : CryptoMsg.half cfg.le r 0 = (Wire.rd32 cfg.le r.magic r.buf 12).toUInt16 := rfl
  rw [hk]
  rcases hsl : CryptoDma.slot cfg v s (if a = .lms then CryptoDma.first [e.init, e.locks 0] else e.locks 0) a
    (Wire.rd32 cfg.le r.magic r.buf 12).toUInt16 with rc | k
  · intro h; exact (not_header h).elim
  obtain ⟨md, hv⟩ := slot_view hw hsl
  dsimp only
  generalize (if a = .lms then .ok () else if e.init ≠ .ok then .error e.init else
          (StatefulSig.load cfg.sig a k).map fun _ => () : Except Rc Unit) = z
  rcases z with rc | _
  · intro h; exact (not_header h).elim
  intro _
  refine ⟨md, k, hv, ?_⟩
  dsimp only
  unfold CryptoMsg.reply Wire.over
  rw [List.append_nil, List.append_assoc,
    List.drop_append_of_le_length (by simp [CryptoMsg.header_length]),
    List.drop_of_length_le (by simp [CryptoMsg.header_length]), List.nil_append]
  simp [CryptoMsg.header_length, Wire.w32_length]

namespace CryptoDmaDemo

/-- The server, with verification; the verdict tells the length of the key in the slot,
if signature and message are equally long; so does the number of signatures left. -/
def checking : CryptoDma.Cfg := { cfg with
  select := fun a t sub => if a = 3 ∧ t = 8 then .ok (.sigVerify .lms) else if a = 3 ∧ t = 9 then .ok (.sigLeft .lms)
    else cfg.select a t sub
  sigVerify := fun _ k sig msg => if sig.length = msg.length then .ok k.length else .ok 0
  sigsLeft := fun _ k => UInt32.ofNat k.length }

/-- Verify by key 5: signature of one byte at 1009, message of one byte at 1010. -/
def lmsVerify : List UInt8 := [8, 0, 0, 0, 0, 0, 0, 0, 0, 0, 0, 0] ++ bytes 0x1009 1 ++ bytes 0x1010 1 ++ [0, 0, 0, 0, 5, 0, 0, 0]
/-- How many signatures has key 5 left? -/
def lmsLeft : List UInt8 := [9, 0, 0, 0, 0, 0, 0, 0, 0, 0, 0, 0] ++ [5, 0, 0, 0]
/-- The key store after client 1 made key 5. -/
def made : Keystore.Sys := (CryptoDma.handle checking Keystore.Demo.one env (req 3 lmsGen) sys).2

end CryptoDmaDemo

open CryptoDmaDemo in
/-- Client 1 made key 5: its requests succeed; those of client 2 do not. -/
example :
    12 < (CryptoDma.handle checking Keystore.Demo.one env (req 3 lmsVerify) made).1.1.length ∧
    12 < (CryptoDma.handle checking Keystore.Demo.one env (req 3 lmsLeft) made).1.1.length ∧
    (CryptoDma.handle checking Keystore.Demo.two env (req 3 lmsVerify) made).1.1.length = 12 ∧
    (CryptoDma.handle checking Keystore.Demo.two env (req 3 lmsLeft) made).1.1.length = 12 := by decide +kernel

open CryptoDmaDemo in
/-- The other hypotheses. -/
example : GoodCfg checking.base.crypto.ks ∧ (∀ b, ∃ m, (checking.sigLib b).Sound m) ∧
    StatefulSig.Reach checking.sig Keystore.Demo.ncfg made := by
  refine ⟨(by intro h; cases h), fun _ => ⟨_, StatefulDemo.sound⟩, ?_⟩
  exact (C44_cryptoDma_packets_are_events checking Keystore.Demo.ncfg Keystore.Demo.one (by decide) env (req 3 lmsGen) sys rfl 
    (.base (.boot _ rfl (fun _ => rfl) rfl ((Keystore.Demo.boot_reach Keystore.Demo.fine).wf Keystore.Demo.good).nvm))).1

end WolfHsm.Props

import Verif.Spec.CertMsg
import Verif.Proofs.KeyMsgReply
import Verif.Proofs.SmallMsg

/-! # Client and server agree on the certificate messages -/

namespace WolfHsm.ClientCert

open Utils (bytes16 bytes32 bytes64 magicNative)
open Wire
open ClientKey (labelField labelField_length len32 len16 here_all over_shape)
open CertMsg (Env Job Decoded Answer)
open Cert (State)

variable {E : Type} {cle : Bool} {m : UInt16}

/-- The request of a call as the server sees it. -/
def reqOf (m a seq : UInt16) (body junk : List UInt8) : Server.Req := ⟨m, a, seq, body ++ junk, body.length⟩

theorem zeros_length (n : Nat) : (zeros n).length = n := List.length_replicate

theorem zeros_skip {n k l : Nat} {rest : List UInt8} : rdBytes (zeros n ++ rest) (k + n) l = rdBytes rest k l :=
  rdBytes_skip (zeros_length n)

theorem zeros_skip16 {a : Bool} {ma : UInt16} {n k : Nat} {rest : List UInt8} : rd16 a ma (zeros n ++ rest) (k + n) = rd16 a ma rest k :=
  rd16_skip (zeros_length n)

theorem label_object (l : List UInt8) : NvmMsg.label (labelField l) = Vector.ofFn fun i : Fin 24 => l.getD i.val 0 := by
  unfold NvmMsg.label
  congr 1
  funext i
  have hi := i.isLt
  unfold labelField
  simp only [List.getD_eq_getElem?_getD, List.getElem?_append, List.getElem?_take, List.length_take, if_pos hi, List.getElem?_replicate]
  by_cases h : i.val < l.length
  · rw [if_pos (by omega)]
  · rw [if_neg (by omega), if_pos (by omega), List.getElem?_eq_none (by omega)]; rfl

theorem dec_add {cfg : CertMsg.Cfg E} (hp : Paired cfg.le cle m magicNative) (e : Env E) (seq : UInt16) (junk : List UInt8)
    {id access flags : UInt16} {label cert : List UInt8} (hk : cert.length < 65536) :
    CertMsg.decode cfg e (reqOf m 2 seq (bytes32 cle (UInt32.ofNat cert.length) ++ (bytes16 cle id ++ (bytes16 cle access ++
      (bytes16 cle flags ++ (labelField label ++ (zeros 2 ++ cert)))))) junk) = .job (.add (object id access flags label) cert) := by
  show CertMsg.decAdd cfg _ = _
  unfold CertMsg.decAdd
  have hs : (reqOf m 2 seq (bytes32 cle (UInt32.ofNat cert.length) ++ (bytes16 cle id ++ (bytes16 cle access ++
      (bytes16 cle flags ++ (labelField label ++ (zeros 2 ++ cert)))))) junk).size = 36 + cert.length := by
    simp only [reqOf, bytes32_eq, bytes16_eq, List.length_append, w32_length, w16_length, labelField_length, zeros_length]
    omega
  have hz : rdBytes (labelField label ++ (zeros 2 ++ (cert ++ junk))) 26 cert.length = cert := by
    rw [show (26 : Nat) = 2 + 24 from rfl, rdBytes_skip (labelField_length label), show (2 : Nat) = 0 + 2 from rfl, zeros_skip, here_all]
  rw [hs]
  simp only [reqOf, bytes32_eq, bytes16_eq, List.append_assoc, rd32_here hp, rd16_w32, rd16_w16, rd16_here hp, rdBytes_w32,
    rdBytes_w16, rdBytes_here (labelField_length label)]
  rw [len32 hk, if_neg (by omega), if_neg (by omega), hz]
  unfold CertMsg.metaOf object
  rw [label_object]

theorem dec_verify {cfg : CertMsg.Cfg E} (hp : Paired cfg.le cle m magicNative) (e : Env E) (seq : UInt16) (junk : List UInt8)
    {root flags keyFlags keyId : UInt16} {cert : List UInt8} (hk : cert.length < 65536) :
    CertMsg.decode cfg e (reqOf m 5 seq (bytes32 cle (UInt32.ofNat cert.length) ++ (bytes16 cle root ++ (bytes16 cle flags ++
      (bytes16 cle keyFlags ++ (bytes16 cle keyId ++ cert))))) junk) =
    .job (.verify (fun _ => cert) cert.length [root] flags keyFlags keyId) := by
  show CertMsg.decVerify cfg _ = _
  unfold CertMsg.decVerify
  have hs : (reqOf m 5 seq (bytes32 cle (UInt32.ofNat cert.length) ++ (bytes16 cle root ++ (bytes16 cle flags ++
      (bytes16 cle keyFlags ++ (bytes16 cle keyId ++ cert))))) junk).size = 12 + cert.length := by
    simp only [reqOf, bytes32_eq, bytes16_eq, List.length_append, w32_length, w16_length]
    omega
  rw [hs]
  simp only [reqOf, bytes32_eq, bytes16_eq, List.append_assoc, rd32_here hp, rd16_w32, rd16_w16, rd16_here hp, rdBytes_w32,
    rdBytes_w16]
  rw [len32 hk, if_neg (by omega), if_neg (by omega), here_all]

/-- The ids of an array behind a structure. -/
theorem ids_read {a b : Bool} {ma mb : UInt16} (hp : Paired a b ma mb) {pre post : List UInt8} {n : Nat} (hn : pre.length = n) (l : List UInt16) :
    ((List.range l.length).map fun i => rd16 a ma (pre ++ (l.flatMap (w16 b mb) ++ post)) (n + 2 * i)) = l := by
  apply List.ext_getElem
  · simp
  · intro i h1 h2
    rw [List.getElem_map, List.getElem_range, Nat.add_comm, rd16_skip hn, rd16_array hp l i h2]

theorem idArray_eq (l : List UInt16) : idArray cle l = l.flatMap (w16 cle magicNative) := by
  unfold idArray
  congr 1

theorem idArray_length (l : List UInt16) : (idArray cle l).length = 2 * l.length := by rw [idArray_eq, flat16_length]

theorem dec_multi {cfg : CertMsg.Cfg E} (hp : Paired cfg.le cle m magicNative) (e : Env E) (seq : UInt16) (junk : List UInt8)
    {roots : List UInt16} {flags keyFlags keyId : UInt16} {cert : List UInt8} (hk : cert.length < 65536) (hr : roots.length < 65536)
    (h0 : roots.length ≠ 0) (hmax : roots.length ≤ cfg.cert.maxRoots) :
    CertMsg.decode cfg e (reqOf m 6 seq (bytes32 cle (UInt32.ofNat cert.length) ++ (bytes16 cle (UInt16.ofNat roots.length) ++
      (bytes16 cle flags ++ (bytes16 cle keyFlags ++ (bytes16 cle keyId ++ (zeros 4 ++ (idArray cle roots ++ cert))))))) junk) =
    .job (.verify (fun _ => cert) cert.length roots flags keyFlags keyId) := by
  show CertMsg.decMulti cfg _ = _
  unfold CertMsg.decMulti
  have hs : (reqOf m 6 seq (bytes32 cle (UInt32.ofNat cert.length) ++ (bytes16 cle (UInt16.ofNat roots.length) ++
      (bytes16 cle flags ++ (bytes16 cle keyFlags ++ (bytes16 cle keyId ++ (zeros 4 ++ (idArray cle roots ++ cert))))))) junk).size =
      16 + 2 * roots.length + cert.length := by
    simp only [reqOf, bytes32_eq, bytes16_eq, List.length_append, w32_length, w16_length, zeros_length, idArray_length]
    omega
  rw [hs]
  have hids : ((List.range roots.length).map fun i => rd16 cfg.le m (reqOf m 6 seq (bytes32 cle (UInt32.ofNat cert.length) ++
      (bytes16 cle (UInt16.ofNat roots.length) ++ (bytes16 cle flags ++ (bytes16 cle keyFlags ++ (bytes16 cle keyId ++
      (zeros 4 ++ (idArray cle roots ++ cert))))))) junk).buf (16 + 2 * i)) = roots := by
    have := ids_read hp (pre := bytes32 cle (UInt32.ofNat cert.length) ++ (bytes16 cle (UInt16.ofNat roots.length) ++
      (bytes16 cle flags ++ (bytes16 cle keyFlags ++ (bytes16 cle keyId ++ zeros 4))))) (post := cert ++ junk) (n := 16)
      (by simp only [bytes32_eq, bytes16_eq, List.length_append, w32_length, w16_length, zeros_length]) roots
    rw [← idArray_eq] at this
    simp only [List.append_assoc] at this
    simp only [reqOf, List.append_assoc]
    exact this
  have hc : rdBytes (reqOf m 6 seq (bytes32 cle (UInt32.ofNat cert.length) ++
      (bytes16 cle (UInt16.ofNat roots.length) ++ (bytes16 cle flags ++ (bytes16 cle keyFlags ++ (bytes16 cle keyId ++
      (zeros 4 ++ (idArray cle roots ++ cert))))))) junk).buf (16 + 2 * roots.length) cert.length = cert := by
    have := rdBytes_at (f := cert) (pre := bytes32 cle (UInt32.ofNat cert.length) ++ (bytes16 cle (UInt16.ofNat roots.length) ++
      (bytes16 cle flags ++ (bytes16 cle keyFlags ++ (bytes16 cle keyId ++ (zeros 4 ++ idArray cle roots)))))) (post := junk)
      (off := 16 + 2 * roots.length) (n := cert.length)
      (by simp only [bytes32_eq, bytes16_eq, List.length_append, w32_length, w16_length, zeros_length, idArray_length]; omega) rfl
    simp only [List.append_assoc] at this
    simp only [reqOf, List.append_assoc]
    exact this
  have hlen : rd32 cfg.le m (reqOf m 6 seq (bytes32 cle (UInt32.ofNat cert.length) ++
      (bytes16 cle (UInt16.ofNat roots.length) ++ (bytes16 cle flags ++ (bytes16 cle keyFlags ++ (bytes16 cle keyId ++
      (zeros 4 ++ (idArray cle roots ++ cert))))))) junk).buf 0 = UInt32.ofNat cert.length := by
    simp only [reqOf, bytes32_eq, List.append_assoc, rd32_here hp]
  have hn : rd16 cfg.le m (reqOf m 6 seq (bytes32 cle (UInt32.ofNat cert.length) ++
      (bytes16 cle (UInt16.ofNat roots.length) ++ (bytes16 cle flags ++ (bytes16 cle keyFlags ++ (bytes16 cle keyId ++
      (zeros 4 ++ (idArray cle roots ++ cert))))))) junk).buf 4 = UInt16.ofNat roots.length := by
    simp only [reqOf, bytes32_eq, bytes16_eq, List.append_assoc, rd16_w32, rd16_here hp]
  have hfl : ∀ b, b = (reqOf m 6 seq (bytes32 cle (UInt32.ofNat cert.length) ++
      (bytes16 cle (UInt16.ofNat roots.length) ++ (bytes16 cle flags ++ (bytes16 cle keyFlags ++ (bytes16 cle keyId ++
      (zeros 4 ++ (idArray cle roots ++ cert))))))) junk).buf → rd16 cfg.le m b 6 = flags ∧ rd16 cfg.le m b 8 = keyFlags ∧ rd16 cfg.le m b 10 = keyId := by
    rintro _ rfl
    simp only [reqOf, bytes32_eq, bytes16_eq, List.append_assoc, rd16_w32, rd16_w16, rd16_here hp, and_self]
  obtain ⟨f1, f2, f3⟩ := hfl _ rfl
  generalize hq : reqOf m 6 seq (bytes32 cle (UInt32.ofNat cert.length) ++
      (bytes16 cle (UInt16.ofNat roots.length) ++ (bytes16 cle flags ++ (bytes16 cle keyFlags ++ (bytes16 cle keyId ++
      (zeros 4 ++ (idArray cle roots ++ cert))))))) junk = q at *
  have hm : q.magic = m := by rw [← hq]; rfl
  simp only [hm, hlen, hn, len16 hr, len32 hk, f1, f2, f3, hc, hids]
  rw [if_neg (by omega), if_neg (by omega), if_neg (by omega)]

theorem dec_addDma {cfg : CertMsg.Cfg E} (hd : cfg.dma = true) (hp : Paired cfg.le cle m magicNative) (e : Env E) (seq : UInt16)
    (junk : List UInt8) {id access flags : UInt16} {label : List UInt8} {addr : UInt64} {len : UInt32} :
    CertMsg.decode cfg e (reqOf m 0x22 seq (bytes64 cle addr ++ (bytes32 cle len ++ (bytes16 cle id ++ (bytes16 cle access ++
      (bytes16 cle flags ++ (labelField label ++ zeros 6)))))) junk) =
    if e.dmaRead addr len ≠ .ok then .bad (e.dmaRead addr len) else .job (.add (object id access flags label) (e.bytes 0 addr len)) := by
  show (if cfg.dma then CertMsg.decAddDma cfg e _ else .unknown) = _
  rw [if_pos hd]
  unfold CertMsg.decAddDma
  have hs : (reqOf m 0x22 seq (bytes64 cle addr ++ (bytes32 cle len ++ (bytes16 cle id ++ (bytes16 cle access ++
      (bytes16 cle flags ++ (labelField label ++ zeros 6)))))) junk).size = 48 := by
    simp only [reqOf, bytes64_eq, bytes32_eq, bytes16_eq, List.length_append, w64_length, w32_length, w16_length, labelField_length, zeros_length]
  rw [hs, if_neg (fun h => h rfl)]
  simp only [reqOf, bytes64_eq, bytes32_eq, bytes16_eq, List.append_assoc, rd64_here hp, rd32_w64, rd32_here hp, rd16_w64, rd16_w32,
    rd16_w16, rd16_here hp, rdBytes_w64, rdBytes_w32, rdBytes_w16, rdBytes_here (labelField_length label)]
  unfold CertMsg.metaOf object
  rw [label_object]

theorem dec_readDma {cfg : CertMsg.Cfg E} (hd : cfg.dma = true) (hp : Paired cfg.le cle m magicNative) (e : Env E) (seq : UInt16)
    (junk : List UInt8) {id : UInt16} {addr : UInt64} {len : UInt32} :
    CertMsg.decode cfg e (reqOf m 0x24 seq (bytes64 cle addr ++ (bytes32 cle len ++ (bytes16 cle id ++ zeros 2))) junk) =
    if e.dmaWrite addr len ≠ .ok then .bad (e.dmaWrite addr len) else .job (.readDma id addr len) := by
  show (if cfg.dma then CertMsg.decReadDma cfg e _ else .unknown) = _
  rw [if_pos hd]
  unfold CertMsg.decReadDma
  have hs : (reqOf m 0x24 seq (bytes64 cle addr ++ (bytes32 cle len ++ (bytes16 cle id ++ zeros 2))) junk).size = 16 := by
    simp only [reqOf, bytes64_eq, bytes32_eq, bytes16_eq, List.length_append, w64_length, w32_length, w16_length, zeros_length]
  rw [hs, if_neg (fun h => h rfl)]
  simp only [reqOf, bytes64_eq, bytes32_eq, bytes16_eq, List.append_assoc, rd64_here hp, rd32_w64, rd32_here hp, rd16_w64, rd16_w32,
    rd16_here hp]

theorem dec_verifyDma {cfg : CertMsg.Cfg E} (hd : cfg.dma = true) (hp : Paired cfg.le cle m magicNative) (e : Env E) (seq : UInt16)
    (junk : List UInt8) {root flags keyFlags keyId : UInt16} {addr : UInt64} {len : UInt32} :
    CertMsg.decode cfg e (reqOf m 0x25 seq (bytes64 cle addr ++ (bytes32 cle len ++ (bytes16 cle root ++ (bytes16 cle flags ++
      (bytes16 cle keyFlags ++ (bytes16 cle keyId ++ zeros 4)))))) junk) =
    if e.dmaRead addr len ≠ .ok then .bad (e.dmaRead addr len)
    else .job (.verify (fun k => e.bytes k addr len) len.toNat [root] flags keyFlags keyId) := by
  show (if cfg.dma then CertMsg.decVerifyDma cfg e _ else .unknown) = _
  rw [if_pos hd]
  unfold CertMsg.decVerifyDma
  have hs : (reqOf m 0x25 seq (bytes64 cle addr ++ (bytes32 cle len ++ (bytes16 cle root ++ (bytes16 cle flags ++
      (bytes16 cle keyFlags ++ (bytes16 cle keyId ++ zeros 4)))))) junk).size = 24 := by
    simp only [reqOf, bytes64_eq, bytes32_eq, bytes16_eq, List.length_append, w64_length, w32_length, w16_length, zeros_length]
  rw [hs, if_neg (fun h => h rfl)]
  simp only [reqOf, bytes64_eq, bytes32_eq, bytes16_eq, List.append_assoc, rd64_here hp, rd32_w64, rd32_here hp, rd16_w64, rd16_w32,
    rd16_w16, rd16_here hp]

theorem dec_acert {cfg : CertMsg.Cfg E} (ha : cfg.acert = true) (hp : Paired cfg.le cle m magicNative) (e : Env E) (seq : UInt16)
    (junk : List UInt8) {root : UInt16} {cert : List UInt8} (hk : cert.length < 65536) :
    CertMsg.decode cfg e (reqOf m 0x26 seq (bytes32 cle (UInt32.ofNat cert.length) ++ (bytes16 cle root ++ (zeros 2 ++ cert))) junk) =
    .job (.acert root cert) := by
  show (if cfg.acert then CertMsg.decAcert cfg _ else .unknown) = _
  rw [if_pos ha]
  unfold CertMsg.decAcert
  have hs : (reqOf m 0x26 seq (bytes32 cle (UInt32.ofNat cert.length) ++ (bytes16 cle root ++ (zeros 2 ++ cert))) junk).size =
      8 + cert.length := by
    simp only [reqOf, bytes32_eq, bytes16_eq, List.length_append, w32_length, w16_length, zeros_length]
    omega
  have hz : rdBytes (zeros 2 ++ (cert ++ junk)) 2 cert.length = cert := by
    rw [show (2 : Nat) = 0 + 2 from rfl, zeros_skip, here_all]
  rw [hs]
  simp only [reqOf, bytes32_eq, bytes16_eq, List.append_assoc, rd32_here hp, rd16_w32, rd16_here hp, rdBytes_w32, rdBytes_w16]
  rw [len32 hk, if_neg (by omega), if_neg (by omega), hz]

theorem dec_acertDma {cfg : CertMsg.Cfg E} (ha : cfg.acert = true) (hd : cfg.dma = true) (hp : Paired cfg.le cle m magicNative) (e : Env E)
    (seq : UInt16) (junk : List UInt8) {root : UInt16} {addr : UInt64} {len : UInt32} :
    CertMsg.decode cfg e (reqOf m 0x27 seq (bytes64 cle addr ++ (bytes32 cle len ++ (bytes16 cle root ++ zeros 10))) junk) =
    if e.dmaRead addr len ≠ .ok then .bad (e.dmaRead addr len) else .job (.acert root (e.bytes 0 addr len)) := by
  show (if cfg.acert && cfg.dma then CertMsg.decAcertDma cfg e _ else .unknown) = _
  rw [if_pos (by rw [ha, hd]; rfl)]
  unfold CertMsg.decAcertDma
  have hs : (reqOf m 0x27 seq (bytes64 cle addr ++ (bytes32 cle len ++ (bytes16 cle root ++ zeros 10))) junk).size = 24 := by
    simp only [reqOf, bytes64_eq, bytes32_eq, bytes16_eq, List.length_append, w64_length, w32_length, w16_length, zeros_length]
  rw [hs, if_neg (fun h => h rfl)]
  simp only [reqOf, bytes64_eq, bytes32_eq, bytes16_eq, List.append_assoc, rd64_here hp, rd32_w64, rd32_here hp, rd16_w64, rd16_w32,
    rd16_here hp]

theorem dec_multiDma {cfg : CertMsg.Cfg E} (hd : cfg.dma = true) (hp : Paired cfg.le cle m magicNative) (e : Env E) (seq : UInt16)
    (junk : List UInt8) {roots : List UInt16} {flags keyFlags keyId : UInt16} {addr : UInt64} {len : UInt32} (hr : roots.length < 65536)
    (hmax : roots.length ≤ cfg.cert.maxRoots) :
    CertMsg.decode cfg e (reqOf m 0x28 seq (bytes64 cle addr ++ (bytes32 cle len ++ (bytes16 cle (UInt16.ofNat roots.length) ++ (bytes16 cle flags ++
      (bytes16 cle keyFlags ++ (bytes16 cle keyId ++ (zeros 4 ++ (idArray cle roots ++
        zeros (CertMsg.multiDmaSize cfg.cert.maxRoots - 24 - 2 * roots.length))))))))) junk) =
    if e.dmaRead addr len ≠ .ok then .bad (e.dmaRead addr len)
    else .job (.verify (fun k => e.bytes k addr len) len.toNat roots flags keyFlags keyId) := by
  show (if cfg.dma then CertMsg.decMultiDma cfg e _ else .unknown) = _
  rw [if_pos hd]
  unfold CertMsg.decMultiDma
  generalize hz : zeros (CertMsg.multiDmaSize cfg.cert.maxRoots - 24 - 2 * roots.length) = z
  have hzl : 24 + 2 * roots.length + z.length = CertMsg.multiDmaSize cfg.cert.maxRoots := by
    rw [← hz, zeros_length]; unfold CertMsg.multiDmaSize; omega
  have hs : (reqOf m 0x28 seq (bytes64 cle addr ++ (bytes32 cle len ++ (bytes16 cle (UInt16.ofNat roots.length) ++ (bytes16 cle flags ++
      (bytes16 cle keyFlags ++ (bytes16 cle keyId ++ (zeros 4 ++ (idArray cle roots ++ z)))))))) junk).size = CertMsg.multiDmaSize cfg.cert.maxRoots := by
    simp only [reqOf, bytes64_eq, bytes32_eq, bytes16_eq, List.length_append, w64_length, w32_length, w16_length, zeros_length, idArray_length]
    omega
  have hids : ((List.range roots.length).map fun i => rd16 cfg.le m (bytes64 cle addr ++ (bytes32 cle len ++
      (bytes16 cle (UInt16.ofNat roots.length) ++ (bytes16 cle flags ++ (bytes16 cle keyFlags ++ (bytes16 cle keyId ++ (zeros 4 ++
        (idArray cle roots ++ (z ++ junk))))))))) (24 + 2 * i)) = roots := by
    have := ids_read hp (pre := bytes64 cle addr ++ (bytes32 cle len ++ (bytes16 cle (UInt16.ofNat roots.length) ++
      (bytes16 cle flags ++ (bytes16 cle keyFlags ++ (bytes16 cle keyId ++ zeros 4)))))) (post := z ++ junk) (n := 24)
      (by simp only [bytes64_eq, bytes32_eq, bytes16_eq, List.length_append, w64_length, w32_length, w16_length, zeros_length]) roots
    rw [← idArray_eq] at this
    simp only [List.append_assoc] at this
    exact this
  rw [hs, if_neg (fun h => h rfl)]
  simp only [reqOf, List.append_assoc]
  have h12 : rd16 cfg.le m (bytes64 cle addr ++ (bytes32 cle len ++
      (bytes16 cle (UInt16.ofNat roots.length) ++ (bytes16 cle flags ++ (bytes16 cle keyFlags ++ (bytes16 cle keyId ++ (zeros 4 ++
        (idArray cle roots ++ (z ++ junk))))))))) 12 = UInt16.ofNat roots.length := by
    simp only [bytes64_eq, bytes32_eq, bytes16_eq, rd16_w64, rd16_w32, rd16_here hp]
  rw [h12, len16 hr, hids]
  simp only [bytes64_eq, bytes32_eq, bytes16_eq, rd64_here hp, rd32_w64, rd32_here hp, rd16_w64, rd16_w32, rd16_w16, rd16_here hp]

/-! ## Responses -/

/-- A response as the client sees it. -/
def gotOf (a seq : UInt16) (b : List UInt8) : Comm.Got := ⟨.ok, magicNative, 0x0C00 ||| a, seq, b⟩

/-- The actions. -/
def known (a : UInt16) : Prop :=
  a = 1 ∨ a = 2 ∨ a = 3 ∨ a = 4 ∨ a = 5 ∨ a = 6 ∨ a = 7 ∨ a = 8 ∨ a = 0x22 ∨ a = 0x24 ∨ a = 0x25 ∨ a = 0x26 ∨ a = 0x27 ∨ a = 0x28

theorem kind_ok {a : UInt16} (h : known a) : Server.groupOf (0x0C00 ||| a) = 0x0C00 ∧ Server.actionOf (0x0C00 ||| a) = a := by
  rcases h with rfl | rfl | rfl | rfl | rfl | rfl | rfl | rfl | rfl | rfl | rfl | rfl | rfl | rfl <;> decide

theorem got_simple {sle : Bool} (hp : Paired cle sle magicNative m) (cap : Nat) {a : UInt16} (ha : known a) (h4 : a ≠ 4)
    (hv : ¬ (a = 5 ∨ a = 6 ∨ a = 0x25 ∨ a = 0x28)) (seq : UInt16) (v : UInt32) (buf : List UInt8) :
    decode cle cap a (gotOf a seq (over (w32 sle m v) buf 8)) = .code v := by
  obtain ⟨p, hpl, ho⟩ := over_shape (f := w32 sle m v) (n := 8) (by rw [w32_length]; omega) buf
  unfold decode gotOf
  dsimp only
  rw [(kind_ok ha).1, (kind_ok ha).2, if_neg (by simp), if_neg h4, if_neg (by rw [over_length (by rw [w32_length]; omega)]; simp),
    if_neg hv, ho, rd32_here hp]

theorem got_verified {sle : Bool} (hp : Paired cle sle magicNative m) (cap : Nat) {a : UInt16} (ha : known a) (h4 : a ≠ 4)
    (hv : a = 5 ∨ a = 6 ∨ a = 0x25 ∨ a = 0x28) (seq : UInt16) (v : UInt32) (k : UInt16) (buf : List UInt8) :
    decode cle cap a (gotOf a seq (over (w32 sle m v ++ w16 sle m k) buf 8)) = .verified v k := by
  have hl : (w32 sle m v ++ w16 sle m k).length ≤ 8 := by rw [List.length_append, w32_length, w16_length]; omega
  obtain ⟨p, hpl, ho⟩ := over_shape (f := w32 sle m v ++ w16 sle m k) (n := 8) hl buf
  unfold decode gotOf
  dsimp only
  rw [(kind_ok ha).1, (kind_ok ha).2, if_neg (by simp), if_neg h4, if_neg (by rw [over_length hl]; simp),
    if_pos hv, ho, List.append_assoc, rd32_here hp, rd16_w32 (k := 0), rd16_here hp]

theorem got_read_err {sle : Bool} (hp : Paired cle sle magicNative m) (cap : Nat) (seq : UInt16) {rc : Rc} (h : rc ≠ .ok) (hd : Distinct rc) (len : UInt32)
    (buf : List UInt8) :
    decode cle cap 4 (gotOf 4 seq (over (w32 sle m rc.code ++ w32 sle m len) buf 8)) =
    if rc = .bufferSize then .tooLong len else .code rc.code := by
  have hl : (w32 sle m rc.code ++ w32 sle m len).length ≤ 8 := by simp [w32_length]
  obtain ⟨p, hpl, ho⟩ := over_shape (f := w32 sle m rc.code ++ w32 sle m len) (n := 8) hl buf
  have hk := kind_ok (a := 4) (by unfold known; simp)
  unfold decode gotOf
  dsimp only
  rw [hk.1, hk.2, if_neg (by simp), if_pos rfl, if_neg (by rw [over_length hl]; omega), ho, List.append_assoc, rd32_here hp,
    rd32_w32 (k := 0), rd32_here hp, if_neg (fun hc => h (hd.1 hc))]
  by_cases hb : rc = .bufferSize
  · rw [if_pos (by rw [hb]), if_pos hb]
  · rw [if_neg (fun hc => hb (hd.2 hc)), if_neg hb]

theorem got_read_ok {sle : Bool} (hp : Paired cle sle magicNative m) (cap : Nat) (seq : UInt16) (bytes buf : List UInt8)
    (hl : bytes.length < 65536) :
    decode cle cap 4 (gotOf 4 seq (over (w32 sle m Rc.ok.code ++ (w32 sle m (UInt32.ofNat bytes.length) ++ bytes)) buf (8 + bytes.length))) =
    if cap < bytes.length then .tooLong (UInt32.ofNat bytes.length) else .cert bytes := by
  have hle : (w32 sle m Rc.ok.code ++ (w32 sle m (UInt32.ofNat bytes.length) ++ bytes)).length ≤ 8 + bytes.length := by
    rw [List.length_append, List.length_append, w32_length, w32_length]; omega
  obtain ⟨p, hpl, ho⟩ := over_shape hle buf
  have hk := kind_ok (a := 4) (by unfold known; simp)
  unfold decode gotOf
  dsimp only
  rw [hk.1, hk.2, if_neg (by simp), if_pos rfl, over_length hle, if_neg (by omega), ho]
  simp only [List.append_assoc, rd32_here hp, rd32_w32, rdBytes_w32]
  rw [if_pos (by decide), len32 hl, if_neg (by omega), here_all]

theorem slice_ok {s : NvmFlash.Store} {id : UInt16} {off n : Nat} (h : (s.slice id off n).1 = .ok) : (s.slice id off n).2.length = n := by
  unfold NvmFlash.Store.slice at h ⊢
  split
  · next hn => rw [hn] at h; cases h
  · next hs =>
    rw [hs] at h
    dsimp only at h
    split at h
    · next hc => rw [if_pos hc, List.length_take, List.length_drop]; omega
    · cases h

theorem errRc_ne (rc : Rc) : errRc rc ≠ .ok := by unfold errRc; split <;> simp_all

theorem read_ok {n : Nvm} {id : UInt16} {off k : Nat} (h : (n.read id off k).1.1 = .ok) : (n.read id off k).1.2.length = k := by
  unfold Nvm.read at h ⊢
  by_cases hp : n.powered = true
  · rw [if_pos hp] at h ⊢
    split
    · next ho => rw [ho] at h; exact slice_ok h
    · next ho => rw [ho] at h; exact absurd h (errRc_ne _)
    · next ho => rw [ho] at h; cases h
  · rw [if_neg hp] at h; cases h

theorem readChecked_ok {mc : Nat} {n : Nvm} {nl : Rc} {id : UInt16} {b : Nat} (h : (Cert.readChecked mc n nl id b).1.1 = .ok) :
    (Cert.readChecked mc n nl id b).1.2.2.length = (Cert.readChecked mc n nl id b).1.2.1 ∧
    (Cert.readChecked mc n nl id b).1.2.1 < 65536 ∧ (Cert.readChecked mc n nl id b).1.2.1 ≤ b ∧ b ≤ mc := by
  unfold Cert.readChecked at h ⊢
  by_cases hl : nl ≠ .ok
  · rw [if_pos hl] at h; exact absurd h hl
  · rw [if_neg hl] at h ⊢
    split
    · next md hm =>
      rw [hm] at h
      dsimp only at h
      split at h
      · cases h
      · next hf =>
        rw [if_neg hf]
        unfold Cert.readTrusted at h ⊢
        by_cases hb : b > mc
        · rw [if_pos hb] at h; cases h
        · rw [if_neg hb, hm] at h ⊢
          dsimp only at h ⊢
          split at h
          · cases h
          · next hs =>
            rw [if_neg hs]
            exact ⟨read_ok h, md.len.toNat_lt, by dsimp only; omega, by omega⟩
    · next rc o hne hm =>
      rw [hm] at h
      split at h
      · next hm' => cases hm'; exact (hne _ rfl rfl).elim
      · next hm' => cases hm'; exact absurd h (by intro hh; subst hh; exact (by
          unfold Nvm.metadata NvmFlash.Store.info at hm
          split at hm
          · cases hm
          · cases hm; exact hne _ rfl rfl))

/-! ## A call, request to response -/

theorem encode_fits {cfg : CertMsg.Cfg E} {ccfg : Cfg} (hf : Fit cfg ccfg) (h8 : 48 ≤ cfg.commLen)
    (hmd : CertMsg.multiDmaSize cfg.cert.maxRoots ≤ cfg.commLen) {c : Call} {a : UInt16} {body : List UInt8}
    (he : encode cle ccfg c = .ok (a, body)) : body.length ≤ cfg.commLen := by
  obtain ⟨f1, f2, f3, f4⟩ := hf
  cases c <;> simp only [encode] at he <;> (try split at he) <;> first | (cases he; done) | skip
  all_goals cases he
  all_goals
    simp only [bytes64_eq, bytes32_eq, bytes16_eq, List.length_append, w64_length, w32_length, w16_length, labelField_length, zeros_length,
      idArray_length, List.length_cons, List.length_nil]
  all_goals first | omega | (unfold CertMsg.multiDmaSize at *; omega)

theorem encode_action {ccfg : Cfg} {c : Call} {a : UInt16} {body : List UInt8} (he : encode cle ccfg c = .ok (a, body)) : known a := by
  cases c <;> simp only [encode] at he <;> (try split at he) <;> first | (cases he; done) | skip
  all_goals (cases he; unfold known; simp)

theorem handle_bad {cfg : CertMsg.Cfg E} {x : Nat} {client : UInt16} {e : Env E} {r : Server.Req} {s : State} {rc : Rc}
    (h : CertMsg.decode cfg e r = .bad rc) : CertMsg.handle cfg x client e r s = ((CertMsg.reply cfg r { rc := rc }, none), s) := by
  unfold CertMsg.handle CertMsg.serve; rw [h]

theorem handle_job {cfg : CertMsg.Cfg E} {x : Nat} {client : UInt16} {e : Env E} {r : Server.Req} {s : State} {j : Job E}
    (h : CertMsg.decode cfg e r = .job j) : CertMsg.handle cfg x client e r s =
      ((CertMsg.reply cfg r (CertMsg.perform cfg x client e s j).1, (CertMsg.perform cfg x client e s j).1.write),
        (CertMsg.perform cfg x client e s j).2) := by
  unfold CertMsg.handle CertMsg.serve; rw [h]

/-- What a simple response comes to. -/
theorem reply_code {cfg : CertMsg.Cfg E} (hp : Paired cle cfg.le magicNative m) (cap : Nat) {a seq : UInt16} (ha : known a) (h4 : a ≠ 4)
    (hv : ¬ (a = 5 ∨ a = 6 ∨ a = 0x25 ∨ a = 0x28)) (body junk : List UInt8) (q : Answer) :
    decode cle cap a (gotOf a seq (CertMsg.reply cfg (reqOf m a seq body junk) q)) = .code q.rc.code := by
  have : CertMsg.reply cfg (reqOf m a seq body junk) q = over (w32 cfg.le m q.rc.code) (body ++ junk) 8 := by
    rcases ha with rfl | rfl | rfl | rfl | rfl | rfl | rfl | rfl | rfl | rfl | rfl | rfl | rfl | rfl <;>
      first | rfl | exact absurd rfl h4 | exact absurd (by simp) hv
  rw [this]
  exact got_simple hp cap ha h4 hv seq _ _

theorem reply_verified {cfg : CertMsg.Cfg E} (hp : Paired cle cfg.le magicNative m) (cap : Nat) {a seq : UInt16}
    (hv : a = 5 ∨ a = 6 ∨ a = 0x25 ∨ a = 0x28) (body junk : List UInt8) (q : Answer) :
    decode cle cap a (gotOf a seq (CertMsg.reply cfg (reqOf m a seq body junk) q)) = .verified q.rc.code q.keyId := by
  have : CertMsg.reply cfg (reqOf m a seq body junk) q = over (w32 cfg.le m q.rc.code ++ w16 cfg.le m q.keyId) (body ++ junk) 8 := by
    rcases hv with rfl | rfl | rfl | rfl <;> rfl
  rw [this]
  refine got_verified hp cap ?_ ?_ hv seq _ _ _
  · unfold known; rcases hv with rfl | rfl | rfl | rfl <;> simp
  · rcases hv with rfl | rfl | rfl | rfl <;> decide

theorem range_bytes (e : Env E) (k : Nat) (addr : UInt64) (len : UInt32) :
    e.bytes k addr len = (List.range len.toNat).map (e.mem k addr) := rfl

/-- The calls that hand back a result code only. -/
theorem call_code {cfg : CertMsg.Cfg E} (hp : Paired cle cfg.le magicNative m) (cap : Nat) {x : Nat} {client : UInt16} {e : Env E}
    {s : State} {a seq : UInt16} (ha : known a) (h4 : a ≠ 4) (hv : ¬ (a = 5 ∨ a = 6 ∨ a = 0x25 ∨ a = 0x28)) {body junk : List UInt8} {j : Job E}
    (h : CertMsg.decode cfg e (reqOf m a seq body junk) = .job j) :
    let q := CertMsg.handle cfg x client e (reqOf m a seq body junk) s
    ((decode cle cap a (gotOf a seq q.1.1), q.1.2), q.2) =
      ((.code (CertMsg.perform cfg x client e s j).1.rc.code, (CertMsg.perform cfg x client e s j).1.write),
        (CertMsg.perform cfg x client e s j).2) := by
  dsimp only
  rw [handle_job h, reply_code hp cap ha h4 hv]

/-- The calls that verify a chain. -/
theorem call_verified {cfg : CertMsg.Cfg E} (hp : Paired cle cfg.le magicNative m) (cap : Nat) {x : Nat} {client : UInt16} {e : Env E}
    {s : State} {a seq : UInt16} (hv : a = 5 ∨ a = 6 ∨ a = 0x25 ∨ a = 0x28) {body junk : List UInt8} {mem : Nat → List UInt8} {len : Nat}
    {roots : List UInt16} {flags keyFlags keyId : UInt16}
    (h : CertMsg.decode cfg e (reqOf m a seq body junk) = .job (.verify mem len roots flags keyFlags keyId)) :
    let q := CertMsg.handle cfg x client e (reqOf m a seq body junk) s
    let v := verification cfg x client e s mem len roots flags keyFlags keyId
    ((decode cle cap a (gotOf a seq q.1.1), q.1.2), q.2) = ((v.1, none), v.2) := by
  dsimp only
  rw [handle_job h, reply_verified hp cap hv]
  unfold verification
  by_cases hl : e.nvmLock = .ok
  · simp only [CertMsg.perform, hl, ne_eq, not_true_eq_false, if_false, if_true]
  · simp only [CertMsg.perform, hl, ne_eq, not_false_eq_true, if_false, if_true]

/-- A call that hands over the right memory or none. -/
theorem call_bad {cfg : CertMsg.Cfg E} (hp : Paired cle cfg.le magicNative m) (cap : Nat) {x : Nat} {client : UInt16} {e : Env E}
    {s : State} {a seq : UInt16} (ha : known a) (h4 : a ≠ 4) {body junk : List UInt8} {rc : Rc}
    (h : CertMsg.decode cfg e (reqOf m a seq body junk) = .bad rc) :
    let q := CertMsg.handle cfg x client e (reqOf m a seq body junk) s
    ((decode cle cap a (gotOf a seq q.1.1), q.1.2), q.2) =
      ((if a = 5 ∨ a = 6 ∨ a = 0x25 ∨ a = 0x28 then .verified rc.code 0 else .code rc.code, none), s) := by
  dsimp only
  rw [handle_bad h]
  by_cases hv : a = 5 ∨ a = 6 ∨ a = 0x25 ∨ a = 0x28
  · rw [if_pos hv, reply_verified hp cap hv]
  · rw [if_neg hv, reply_code hp cap ha h4 hv]

/-- A call, from the request on the wire to the result: what was expected. -/
theorem handle_call {cfg : CertMsg.Cfg E} {ccfg : Cfg} (hf : Fit cfg ccfg) (hp : Paired cfg.le cle m magicNative) (x : Nat) (client : UInt16)
    (e : Env E) (s : State) (cap : Nat) (c : Call) (hoff : c.Offered cfg) (hd : c.Distinct cfg e s) {a seq : UInt16} {body : List UInt8}
    (he : encode cle ccfg c = .ok (a, body)) (junk : List UInt8) :
    let q := CertMsg.handle cfg x client e (reqOf m a seq body junk) s
    ((decode cle cap a (gotOf a seq q.1.1), q.1.2), q.2) = expected cfg x client e cap s c := by
  have hp' := hp.symm
  obtain ⟨f1, f2, f3, f4⟩ := hf
  cases c with
  | init =>
    cases he
    exact call_code hp' cap (by unfold known; simp) (by decide) (by decide) (j := .init) rfl
  | add id access flags label cert =>
    simp only [encode] at he
    split at he
    · cases he
    · next hb =>
      cases he
      have hj := dec_add (cfg := cfg) hp e seq junk (id := id) (access := access) (flags := flags) (label := label) (cert := cert) (by omega)
      refine (call_code hp' cap (by unfold known; simp) (by decide) (by decide) hj).trans ?_
      simp only [expected, CertMsg.perform, locked]
      by_cases hl : e.nvmLock = .ok <;> simp [hl]
  | erase id =>
    cases he
    have hj : CertMsg.decode cfg e (reqOf m 3 seq (bytes16 cle id ++ zeros 6) junk) = .job (.erase id) := by
      show Decoded.job (.erase (rd16 cfg.le m ((bytes16 cle id ++ zeros 6) ++ junk) 0)) = _
      rw [bytes16_eq, List.append_assoc, rd16_here hp]
    refine (call_code hp' cap (by unfold known; simp) (by decide) (by decide) hj).trans ?_
    simp only [expected, CertMsg.perform, locked]
    by_cases hl : e.nvmLock = .ok <;> simp [hl]
  | read id =>
    cases he
    have hj : CertMsg.decode cfg e (reqOf m 4 seq (bytes16 cle id ++ zeros 6) junk) = .job (.read id) := by
      show Decoded.job (.read (rd16 cfg.le m ((bytes16 cle id ++ zeros 6) ++ junk) 0)) = _
      rw [bytes16_eq, List.append_assoc, rd16_here hp]
    dsimp only
    rw [handle_job hj]
    simp only [Call.Distinct] at hd
    have hro := readChecked_ok (mc := cfg.cert.maxCert) (n := s.sys.nvm) (nl := e.nvmLock) (id := id) (b := min cfg.cert.maxCert (cfg.commLen - 8))
    rcases hz : Cert.readChecked cfg.cert.maxCert s.sys.nvm e.nvmLock id (min cfg.cert.maxCert (cfg.commLen - 8)) with ⟨⟨rc, len, bytes⟩, n'⟩
    rw [hz] at hd hro
    simp only [expected, CertMsg.perform, CertMsg.readRoom, hz]
    dsimp only at hd hro
    by_cases hok : rc = .ok
    · subst hok
      obtain ⟨h1, h2, h3, h4⟩ := hro rfl
      subst h1
      have := got_read_ok hp' cap seq bytes (bytes16 cle id ++ zeros 6 ++ junk) h2
      refine Prod.ext (Prod.ext ?_ rfl) rfl
      refine Eq.trans ?_ this
      rfl
    · have := got_read_err hp' cap seq hok hd (UInt32.ofNat (if rc = .ok ∨ rc = .bufferSize then len else 0)) (bytes16 cle id ++ zeros 6 ++ junk)
      refine Prod.ext (Prod.ext ?_ rfl) rfl
      dsimp only
      have hr : CertMsg.reply cfg (reqOf m 4 seq (bytes16 cle id ++ zeros 6) junk)
          { rc := rc, len := if rc = .ok ∨ rc = .bufferSize then len else 0, bytes := if rc = .ok then bytes else [] } =
          over (w32 cfg.le m rc.code ++ w32 cfg.le m (UInt32.ofNat (if rc = .ok ∨ rc = .bufferSize then len else 0))) (bytes16 cle id ++ zeros 6 ++ junk) 8 := by
        show over (w32 cfg.le m rc.code ++ (w32 cfg.le m (UInt32.ofNat _) ++ (if rc = .ok then bytes else []))) _
          (8 + (if rc = .ok then _ else 0)) = _
        rw [if_neg hok, if_neg hok, List.append_nil]
        rfl
      rw [hr, this]
      rw [if_neg hok]
      by_cases hb : rc = .bufferSize
      · subst hb; rfl
      · rw [if_neg hb, if_neg hb]
  | verify root flags keyFlags keyId cert =>
    simp only [encode] at he
    split at he
    · cases he
    · next hb =>
      cases he
      have hj := dec_verify (cfg := cfg) hp e seq junk (root := root) (flags := flags) (keyFlags := keyFlags) (keyId := keyId) (cert := cert) (by omega)
      exact call_verified hp' cap (by simp) hj
  | verifyMulti roots flags keyFlags keyId cert =>
    simp only [encode] at he
    split at he
    · cases he
    · next hb =>
      cases he
      have hj := dec_multi (cfg := cfg) hp e seq junk (roots := roots) (flags := flags) (keyFlags := keyFlags) (keyId := keyId) (cert := cert)
        (by omega) (by omega) (by omega) (by omega)
      exact call_verified hp' cap (by simp) hj
  | clear =>
    cases he
    have hj : CertMsg.decode cfg e (reqOf m 7 seq [] junk) = .job .clear := by
      show (if cfg.cert.caching then _ else _) = _
      exact if_pos hoff
    refine (call_code hp' cap (by unfold known; simp) (by decide) (by decide) hj).trans ?_
    simp only [expected, CertMsg.perform]
    by_cases hl : e.nvmLock = .ok <;> by_cases hg : cfg.cert.globalCache = true <;> simp [hl, hg]
  | enable b =>
    cases he
    have hj : CertMsg.decode cfg e (reqOf m 8 seq ((if b then 1 else 0) :: zeros 7) junk) = .job (.enable b) := by
      show (if cfg.cert.caching then CertMsg.decEnable _ else _) = _
      refine (if_pos hoff).trans ?_
      unfold CertMsg.decEnable
      rw [if_neg (by simp [reqOf, zeros_length])]
      cases b <;> rfl
    refine (call_code hp' cap (by unfold known; simp) (by decide) (by decide) hj).trans ?_
    simp only [expected, CertMsg.perform]
    by_cases hl : e.nvmLock = .ok <;> by_cases hg : cfg.cert.globalCache = true <;> simp [hl, hg]
  | addDma id access flags label addr len =>
    simp only [encode] at he
    split at he
    · cases he
    · next hb =>
      cases he
      have hj := dec_addDma (cfg := cfg) hoff hp e seq junk (id := id) (access := access) (flags := flags) (label := label) (addr := addr) (len := len)
      by_cases hr : e.dmaRead addr len = .ok
      · rw [if_neg (not_not_intro hr)] at hj
        refine (call_code hp' cap (by unfold known; simp) (by decide) (by decide) hj).trans ?_
        simp only [expected, CertMsg.perform, locked, hr, if_true, range_bytes]
        by_cases hl : e.nvmLock = .ok <;> simp [hl]
      · rw [if_pos hr] at hj
        refine (call_bad hp' cap (by unfold known; simp) (by decide) hj).trans ?_
        simp only [expected, hr, if_false]
        rw [if_neg (by decide)]
  | readDma id addr len =>
    cases he
    have hj := dec_readDma (cfg := cfg) hoff hp e seq junk (id := id) (addr := addr) (len := len)
    by_cases hr : e.dmaWrite addr len = .ok
    · rw [if_neg (not_not_intro hr)] at hj
      refine (call_code hp' cap (by unfold known; simp) (by decide) (by decide) hj).trans ?_
      simp only [expected, CertMsg.perform, hr, if_true]
    · rw [if_pos hr] at hj
      refine (call_bad hp' cap (by unfold known; simp) (by decide) hj).trans ?_
      simp only [expected, hr, if_false]
      rw [if_neg (by decide)]
  | verifyDma root flags keyFlags keyId addr len =>
    cases he
    have hj := dec_verifyDma (cfg := cfg) hoff hp e seq junk (root := root) (flags := flags) (keyFlags := keyFlags) (keyId := keyId) (addr := addr)
      (len := len)
    by_cases hr : e.dmaRead addr len = .ok
    · rw [if_neg (not_not_intro hr)] at hj
      refine (call_verified hp' cap (by simp) hj).trans ?_
      simp only [expected, hr, if_true, range_bytes]
    · rw [if_pos hr] at hj
      refine (call_bad hp' cap (by unfold known; simp) (by decide) hj).trans ?_
      simp only [expected, hr, if_false]
      rw [if_pos (by decide)]
  | verifyMultiDma roots flags keyFlags keyId addr len =>
    simp only [encode] at he
    split at he
    · cases he
    · next hb =>
      cases he
      rw [f2] at hb
      have hj := dec_multiDma (cfg := cfg) hoff hp e seq junk (roots := roots) (flags := flags) (keyFlags := keyFlags) (keyId := keyId) (addr := addr)
        (len := len) (by omega) (by omega)
      rw [← f2] at hj
      by_cases hr : e.dmaRead addr len = .ok
      · rw [if_neg (not_not_intro hr)] at hj
        refine (call_verified hp' cap (by simp) hj).trans ?_
        simp only [expected, hr, if_true, range_bytes]
      · rw [if_pos hr] at hj
        refine (call_bad hp' cap (by unfold known; simp) (by decide) hj).trans ?_
        simp only [expected, hr, if_false]
        rw [if_pos (by decide)]
  | acert root cert =>
    simp only [encode] at he
    split at he
    · cases he
    · next hb =>
      cases he
      have hj := dec_acert (cfg := cfg) hoff hp e seq junk (root := root) (cert := cert) (by omega)
      refine (call_code hp' cap (by unfold known; simp) (by decide) (by decide) hj).trans ?_
      simp only [expected, CertMsg.perform, locked]
      by_cases hl : e.nvmLock = .ok <;> simp [hl]
  | acertDma root addr len =>
    cases he
    have hj := dec_acertDma (cfg := cfg) hoff.1 hoff.2 hp e seq junk (root := root) (addr := addr) (len := len)
    by_cases hr : e.dmaRead addr len = .ok
    · rw [if_neg (not_not_intro hr)] at hj
      refine (call_code hp' cap (by unfold known; simp) (by decide) (by decide) hj).trans ?_
      simp only [expected, CertMsg.perform, locked, hr, if_true, range_bytes]
      by_cases hl : e.nvmLock = .ok <;> simp [hl]
    · rw [if_pos hr] at hj
      refine (call_bad hp' cap (by unfold known; simp) (by decide) hj).trans ?_
      simp only [expected, hr, if_false]
      rw [if_neg (by decide)]

end WolfHsm.ClientCert

import Verif.Spec.ClientKey
import Verif.Proofs.NvmMsg

/-! # Client and server agree on the key messages: requests -/

namespace WolfHsm.ClientKey

open Utils (bytes16 bytes32 bytes64 magicNative)
open Wire
open NvmFlash (Meta)
open KeyMsg (Env Answer)
open Keystore (Srv Sys)

variable {cle : Bool} {m : UInt16}

theorem two_skip {rest : List UInt8} {l : Nat} : rdBytes ([0, 0] ++ rest) 2 l = rdBytes rest 0 l := rfl
theorem four_skip {rest : List UInt8} {l : Nat} : rdBytes ([0, 0, 0, 0] ++ rest) 4 l = rdBytes rest 0 l := rfl
theorem two_skip' {rest : List UInt8} {l : Nat} : rdBytes ([0, 0] ++ rest) 26 l = rdBytes rest 24 l := rfl

theorem pad_length (n : Nat) (stale : Nat → UInt8) : (pad n stale).length = n := by simp [pad]

theorem labelField_length (l : List UInt8) : (labelField l).length = 24 := by
  unfold labelField
  rw [List.length_append, List.length_take, List.length_replicate]
  omega

theorem label24_skip {l rest : List UInt8} {n : Nat} : rdBytes (labelField l ++ rest) 24 n = rdBytes rest 0 n :=
  rdBytes_skip (k := 0) (labelField_length l)

theorem labelSz_toNat (l : List UInt8) : (labelSz l).toNat = min l.length 24 := by
  unfold labelSz
  rw [UInt32.toNat_ofNat']
  exact Nat.mod_eq_of_lt (by omega)

theorem cut_label (l : List UInt8) : KeyMsg.cutLabel (labelSz l) (labelField l) = kept l := by
  unfold KeyMsg.cutLabel NvmMsg.label kept
  congr 1
  funext i
  have hi := i.isLt
  rw [labelSz_toNat]
  unfold labelField
  have h : (l.take 24 ++ List.replicate (24 - l.length) 0).take (min l.length 24) = l.take 24 := by
    rw [List.take_append_of_le_length (by rw [List.length_take]; omega), List.take_take,
      Nat.min_assoc, Nat.min_self, ← List.take_take, List.take_of_length_le (i := l.length) (by rw [List.length_take]; omega)]
  rw [h]
  simp only [List.getD_eq_getElem?_getD, List.getElem?_take, if_pos hi]

theorem len32 {n : Nat} (h : n < 65536) : (UInt32.ofNat n).toNat = n := by
  rw [UInt32.toNat_ofNat']; exact Nat.mod_eq_of_lt (by omega)

theorem len16 {n : Nat} (h : n < 65536) : (UInt16.ofNat n).toNat = n := by
  rw [UInt16.toNat_ofNat']; exact Nat.mod_eq_of_lt (by omega)

theorem here_all {f rest : List UInt8} : rdBytes (f ++ rest) 0 f.length = f := rdBytes_here rfl

theorem sized_ok {r : Server.Req} {n : Nat} {k : KeyMsg.Decoded} (h : n ≤ r.size) : KeyMsg.sized r n k = k :=
  if_neg (by omega)

/-- The request of a call as the server sees it. -/
def reqOf (m a seq : UInt16) (body junk : List UInt8) : Server.Req := ⟨m, a, seq, body ++ junk, body.length⟩

theorem dec_cache {cfg : KeyMsg.Cfg} (hp : Paired cfg.le cle m magicNative) (e : Env) (seq : UInt16) (junk : List UInt8)
    {id : UInt16} {flags : UInt32} {label key : List UInt8} (hk : key.length < 65536) :
    KeyMsg.decode cfg e (reqOf m 0 seq (bytes32 cle flags ++ (bytes32 cle (UInt32.ofNat key.length) ++ (bytes32 cle (labelSz label) ++
      (bytes16 cle id ++ ([0, 0] ++ (labelField label ++ key)))))) junk) =
    .req (.cache id flags.toUInt16 (kept label) key) := by
  show KeyMsg.decCache cfg _ = _
  unfold KeyMsg.decCache
  have hs : (reqOf m 0 seq (bytes32 cle flags ++ (bytes32 cle (UInt32.ofNat key.length) ++ (bytes32 cle (labelSz label) ++
      (bytes16 cle id ++ ([0, 0] ++ (labelField label ++ key)))))) junk).size = 40 + key.length := by
    simp only [reqOf, bytes32_eq, bytes16_eq, List.length_append, w32_length, w16_length, labelField_length, List.length_cons,
      List.length_nil]
    omega
  rw [sized_ok (by omega), hs]
  simp only [reqOf, bytes32_eq, bytes16_eq, List.append_assoc, rd32_here hp, rd32_w32, rd16_w32, rd16_here hp, rdBytes_w32,
    rdBytes_w16, two_skip, two_skip', rdBytes_here (labelField_length label), label24_skip, cut_label]
  rw [len32 hk, if_neg (by omega), here_all]

theorem dec_cacheRandom {cfg : KeyMsg.Cfg} (hp : Paired cfg.le cle m magicNative) (e : Env) (seq : UInt16) (junk : List UInt8)
    {id sz : UInt16} {flags : UInt32} {label : List UInt8} :
    KeyMsg.decode cfg e (reqOf m 15 seq (bytes32 cle flags ++ (bytes32 cle (labelSz label) ++ (bytes16 cle sz ++ (bytes16 cle id ++
      ([0, 0, 0, 0] ++ labelField label))))) junk) =
    .req (.cacheRandom id flags.toUInt16 (kept label) sz e.rng) := by
  show KeyMsg.decCacheRandom cfg e _ = _
  unfold KeyMsg.decCacheRandom
  have hs : (reqOf m 15 seq (bytes32 cle flags ++ (bytes32 cle (labelSz label) ++ (bytes16 cle sz ++ (bytes16 cle id ++
      ([0, 0, 0, 0] ++ labelField label))))) junk).size = 40 := by
    simp only [reqOf, bytes32_eq, bytes16_eq, List.length_append, w32_length, w16_length, labelField_length, List.length_cons,
      List.length_nil]
  rw [sized_ok (by omega)]
  simp only [reqOf, bytes32_eq, bytes16_eq, List.append_assoc, rd32_here hp, rd32_w32, rd16_w32, rd16_w16, rd16_here hp, rdBytes_w32,
    rdBytes_w16, four_skip, rdBytes_here (labelField_length label), cut_label]

theorem toUInt16_of_64 (sz : UInt16) : sz.toUInt64.toUInt16 = sz := by simp

theorem dec_cacheDma {cfg : KeyMsg.Cfg} (hd : cfg.dma = true) (hp : Paired cfg.le cle m magicNative) (e : Env) (seq : UInt16)
    (junk : List UInt8) {id sz : UInt16} {addr : UInt64} {flags : UInt32} {label : List UInt8} :
    KeyMsg.decode cfg e (reqOf m 6 seq (bytes64 cle addr ++ (bytes64 cle sz.toUInt64 ++ (bytes32 cle flags ++ (bytes32 cle (labelSz label) ++
      (bytes16 cle id ++ (labelField label ++ [0, 0, 0, 0, 0, 0])))))) junk) =
    .req (.cacheDma id flags.toUInt16 (kept label) sz.toUInt64 (e.dmaIn addr sz.toNat) (e.mem addr)) := by
  show (if cfg.dma then KeyMsg.decCacheDma cfg e _ else .unknown) = _
  rw [if_pos hd]
  unfold KeyMsg.decCacheDma
  have hs : (reqOf m 6 seq (bytes64 cle addr ++ (bytes64 cle sz.toUInt64 ++ (bytes32 cle flags ++ (bytes32 cle (labelSz label) ++
      (bytes16 cle id ++ (labelField label ++ [0, 0, 0, 0, 0, 0])))))) junk).size = 56 := by
    simp only [reqOf, bytes32_eq, bytes16_eq, bytes64_eq, List.length_append, w32_length, w16_length, w64_length, labelField_length,
      List.length_cons, List.length_nil]
  rw [sized_ok (by omega)]
  simp only [reqOf, bytes32_eq, bytes16_eq, bytes64_eq, List.append_assoc, rd64_here hp, rd64_w64, rd32_w64, rd32_here hp, rd32_w32,
    rd16_w64, rd16_w32, rd16_w16, rd16_here hp, rdBytes_w64, rdBytes_w32, rdBytes_w16, rdBytes_here (labelField_length label), cut_label,
    toUInt16_of_64]

theorem dec_exportDma {cfg : KeyMsg.Cfg} (hd : cfg.dma = true) (hp : Paired cfg.le cle m magicNative) (e : Env) (seq : UInt16)
    (junk : List UInt8) {id sz : UInt16} {addr : UInt64} (stale : Nat → UInt8) :
    KeyMsg.decode cfg e (reqOf m 7 seq (bytes64 cle addr ++ (bytes64 cle sz.toUInt64 ++ (bytes16 cle id ++ pad 6 stale))) junk) =
    .req (.exportDma id sz.toUInt64 (e.dmaOut addr)) := by
  show (if cfg.dma then KeyMsg.decExportDma cfg e _ else .unknown) = _
  rw [if_pos hd]
  unfold KeyMsg.decExportDma
  have hs : (reqOf m 7 seq (bytes64 cle addr ++ (bytes64 cle sz.toUInt64 ++ (bytes16 cle id ++ pad 6 stale))) junk).size = 24 := by
    simp only [reqOf, bytes16_eq, bytes64_eq, List.length_append, w16_length, w64_length, pad_length]
  rw [sized_ok (by omega)]
  simp only [reqOf, bytes16_eq, bytes64_eq, List.append_assoc, rd64_here hp, rd64_w64, rd16_w64, rd16_here hp]

theorem dec_exportPublicDma {cfg : KeyMsg.Cfg} (hd : cfg.dma = true) (hp : Paired cfg.le cle m magicNative) (e : Env) (seq : UInt16)
    (junk : List UInt8) {id algo sz : UInt16} {addr : UInt64} (stale : Nat → UInt8) :
    KeyMsg.decode cfg e (reqOf m 14 seq
      (bytes64 cle addr ++ (bytes64 cle sz.toUInt64 ++ (bytes16 cle id ++ (bytes16 cle algo ++ pad 4 stale)))) junk) =
    .req (.exportPublic id algo) := by
  show (if cfg.dma then KeyMsg.Decoded.req (.exportPublic _ _) else KeyMsg.Decoded.unknown) = _
  rw [if_pos hd]
  simp only [reqOf, bytes16_eq, bytes64_eq, List.append_assoc, rd16_w16, rd16_w64, rd16_here hp]

theorem dec_exportPublic {cfg : KeyMsg.Cfg} (hp : Paired cfg.le cle m magicNative) (e : Env) (seq : UInt16)
    (junk : List UInt8) {id algo : UInt16} (stale : Nat → UInt8) :
    KeyMsg.decode cfg e (reqOf m 13 seq (bytes16 cle id ++ (bytes16 cle algo ++ pad 4 stale)) junk) =
    .req (.exportPublic id algo) := by
  show KeyMsg.Decoded.req (.exportPublic _ _) = _
  simp only [reqOf, bytes16_eq, List.append_assoc, rd16_w16, rd16_here hp]

theorem dec_id {cfg : KeyMsg.Cfg} (hp : Paired cfg.le cle m magicNative) (a seq : UInt16)
    (junk : List UInt8) {id : UInt16} (stale : Nat → UInt8) (f : UInt16 → Keystore.Req) :
    KeyMsg.decId cfg (reqOf m a seq (bytes16 cle id ++ pad 6 stale) junk) f = .req (f id) := by
  unfold KeyMsg.decId
  have hs : (reqOf m a seq (bytes16 cle id ++ pad 6 stale) junk).size = 8 := by
    simp only [reqOf, bytes16_eq, List.length_append, w16_length, pad_length]
  rw [sized_ok (by omega)]
  simp only [reqOf, bytes16_eq, List.append_assoc, rd16_here hp]

theorem label_vec (v : Vector UInt8 24) : NvmMsg.label v.toList = v := by
  apply Vector.ext
  intro i hi
  simp [NvmMsg.label, List.getD_eq_getElem?_getD]

theorem vec_length (v : Vector UInt8 24) : v.toList.length = 24 := by simp

theorem metaBytes_length (le : Bool) (md : Meta) : (metaBytes le md).length = 32 := by
  simp only [metaBytes, bytes16_eq, List.length_append, w16_length, vec_length]

theorem dec_wrap {cfg : KeyMsg.Cfg} (hw : cfg.keywrap = true) (hp : Paired cfg.le cle m magicNative) (e : Env) (seq : UInt16)
    (junk : List UInt8) {cipher kek : UInt16} {md : Meta} {key : List UInt8} (hk : key.length < 65536)
    (hm : key.length ≤ cfg.ks.maxWrapKey) :
    KeyMsg.decode cfg e (reqOf m 8 seq (bytes16 cle (UInt16.ofNat key.length) ++ (bytes16 cle kek ++ (bytes16 cle cipher ++
      (metaBytes cle md ++ key)))) junk) =
    if cipher = cfg.gcm then .req (.wrap kek md key e.ivBytes) else .late .badargs true := by
  show (if cfg.keywrap then KeyMsg.decWrap cfg e _ else .unknown) = _
  rw [if_pos hw]
  unfold KeyMsg.decWrap
  have hs : (reqOf m 8 seq (bytes16 cle (UInt16.ofNat key.length) ++ (bytes16 cle kek ++ (bytes16 cle cipher ++
      (metaBytes cle md ++ key)))) junk).size = 38 + key.length := by
    simp only [reqOf, bytes16_eq, List.length_append, w16_length, metaBytes_length]
    omega
  have hmd : KeyMsg.metaAt cfg (reqOf m 8 seq (bytes16 cle (UInt16.ofNat key.length) ++ (bytes16 cle kek ++ (bytes16 cle cipher ++
      (metaBytes cle md ++ key)))) junk) 6 = md := by
    simp only [KeyMsg.metaAt, metaBytes, reqOf, bytes16_eq, List.append_assoc, rd16_w16, rd16_here hp, rdBytes_w16,
      rdBytes_here (vec_length md.label), label_vec]
  rw [sized_ok (by omega), hs, hmd]
  simp only [reqOf, bytes16_eq, List.append_assoc, rd16_w16, rd16_here hp, rdBytes_w16]
  rw [len16 hk, if_neg (by omega), if_neg (by omega)]
  have hb : rdBytes (metaBytes cle md ++ (key ++ junk)) 32 key.length = key := by
    rw [show (32 : Nat) = 0 + 32 from rfl, rdBytes_skip (metaBytes_length ..), here_all]
  rw [hb]
  exact ite_not ..

theorem dec_wrapExport {cfg : KeyMsg.Cfg} (hw : cfg.keywrap = true) (hp : Paired cfg.le cle m magicNative) (e : Env) (seq : UInt16)
    (junk : List UInt8) {cipher id type kek : UInt16} :
    KeyMsg.decode cfg e (reqOf m 16 seq (bytes16 cle id ++ (bytes16 cle type ++ (bytes16 cle kek ++ bytes16 cle cipher))) junk) =
    .req (.wrapExport (cipher == cfg.gcm) kek type id e.ivBytes) := by
  show (if cfg.keywrap then KeyMsg.decWrapExport cfg e _ else .unknown) = _
  rw [if_pos hw]
  unfold KeyMsg.decWrapExport
  have hs : (reqOf m 16 seq (bytes16 cle id ++ (bytes16 cle type ++ (bytes16 cle kek ++ bytes16 cle cipher))) junk).size = 8 := by
    simp only [reqOf, bytes16_eq, List.length_append, w16_length]
  rw [sized_ok (by omega)]
  simp only [reqOf, bytes16_eq, List.append_assoc, rd16_w16, rd16_here hp]

theorem dec_unwrap {cfg : KeyMsg.Cfg} (hp : Paired cfg.le cle m magicNative) (a seq : UInt16)
    (junk : List UInt8) {cipher kek : UInt16} {blob : List UInt8} (stale : Nat → UInt8) (hk : blob.length < 65536)
    (f : UInt16 → List UInt8 → Keystore.Req) :
    KeyMsg.decUnwrap cfg (reqOf m a seq (bytes16 cle (UInt16.ofNat blob.length) ++ (bytes16 cle kek ++ (bytes16 cle cipher ++
      (pad 2 stale ++ blob)))) junk) f =
    if cipher = cfg.gcm then .req (f kek blob) else .late .badargs true := by
  unfold KeyMsg.decUnwrap
  have hs : (reqOf m a seq (bytes16 cle (UInt16.ofNat blob.length) ++ (bytes16 cle kek ++ (bytes16 cle cipher ++
      (pad 2 stale ++ blob)))) junk).size = 8 + blob.length := by
    simp only [reqOf, bytes16_eq, List.length_append, w16_length, pad_length]
    omega
  rw [sized_ok (by omega), hs]
  simp only [reqOf, bytes16_eq, List.append_assoc, rd16_w16, rd16_here hp, rdBytes_w16]
  rw [len16 hk, if_neg (by omega)]
  have hb : rdBytes (pad 2 stale ++ (blob ++ junk)) 2 blob.length = blob := by
    rw [show (2 : Nat) = 0 + 2 from rfl, rdBytes_skip (pad_length ..), here_all]
  rw [hb]
  exact ite_not ..

theorem dec_dataWrap {cfg : KeyMsg.Cfg} (hw : cfg.keywrap = true) (hp : Paired cfg.le cle m magicNative) (e : Env) (seq : UInt16)
    (junk : List UInt8) {cipher kek : UInt16} {data : List UInt8} (hk : data.length < 65536)
    (hm : data.length ≤ cfg.ks.maxWrapData) :
    KeyMsg.decode cfg e (reqOf m 11 seq (bytes32 cle (UInt32.ofNat data.length) ++ (bytes16 cle kek ++ (bytes16 cle cipher ++ data))) junk) =
    if cipher = cfg.gcm then .req (.dataWrap kek data e.ivBytes) else .late .badargs true := by
  show (if cfg.keywrap then KeyMsg.decDataWrap cfg e _ else .unknown) = _
  rw [if_pos hw]
  unfold KeyMsg.decDataWrap
  have hs : (reqOf m 11 seq (bytes32 cle (UInt32.ofNat data.length) ++ (bytes16 cle kek ++ (bytes16 cle cipher ++ data))) junk).size =
      8 + data.length := by
    simp only [reqOf, bytes32_eq, bytes16_eq, List.length_append, w16_length, w32_length]
    omega
  rw [sized_ok (by omega), hs]
  simp only [reqOf, bytes32_eq, bytes16_eq, List.append_assoc, rd32_here hp, rd16_w32, rd16_w16, rd16_here hp, rdBytes_w32, rdBytes_w16]
  rw [len32 hk, if_neg (by omega), if_neg (by omega), here_all]
  exact ite_not ..

theorem dec_dataUnwrap {cfg : KeyMsg.Cfg} (hw : cfg.keywrap = true) (hp : Paired cfg.le cle m magicNative) (e : Env) (seq : UInt16)
    (junk : List UInt8) {cipher kek : UInt16} {data : List UInt8} (hk : data.length < 65536) :
    KeyMsg.decode cfg e (reqOf m 12 seq (bytes32 cle (UInt32.ofNat data.length) ++ (bytes16 cle kek ++ (bytes16 cle cipher ++ data))) junk) =
    if cipher = cfg.gcm then .req (.dataUnwrap kek data) else .late .badargs true := by
  show (if cfg.keywrap then KeyMsg.decDataUnwrap cfg _ else .unknown) = _
  rw [if_pos hw]
  unfold KeyMsg.decDataUnwrap
  have hs : (reqOf m 12 seq (bytes32 cle (UInt32.ofNat data.length) ++ (bytes16 cle kek ++ (bytes16 cle cipher ++ data))) junk).size =
      8 + data.length := by
    simp only [reqOf, bytes32_eq, bytes16_eq, List.length_append, w16_length, w32_length]
    omega
  rw [sized_ok (by omega), hs]
  simp only [reqOf, bytes32_eq, bytes16_eq, List.append_assoc, rd32_here hp, rd16_w32, rd16_w16, rd16_here hp, rdBytes_w32, rdBytes_w16]
  rw [len32 hk, if_neg (by omega), here_all]
  exact ite_not ..

end WolfHsm.ClientKey

import Verif.Model.KeyMsg

/-!
# The client side of the key requests: `src/wh_client.c`, `src/wh_client_keywrap.c`

As in `ClientAuth`: requests in the client's own byte order, responses read without translation.
For the DMA calls the addresses are those given by the client's DMA callback, whose release after
the response is not modelled.  A NULL output buffer (only the length is wanted) is not modelled.
-/

namespace WolfHsm.ClientKey

open NvmFlash (Meta)
open Utils (bytes16 bytes32 bytes64 magicNative)
open Wire

/-- The calls of the client's key API. -/
inductive Call where
  | cache (id : UInt16) (flags : UInt32) (label key : List UInt8)
  | cacheRandom (id : UInt16) (flags : UInt32) (label : List UInt8) (sz : UInt16)
  | evict (id : UInt16)
  | exportKey (id : UInt16)
  | exportPublic (id algo : UInt16)
  | commit (id : UInt16)
  | erase (id : UInt16)
  | revoke (id : UInt16)
  | cacheDma (id : UInt16) (flags : UInt32) (label : List UInt8) (addr : UInt64) (sz : UInt16)
  | exportDma (id : UInt16) (addr : UInt64) (sz : UInt16)
  | exportPublicDma (id algo : UInt16) (addr : UInt64) (sz : UInt16)
  | wrap (cipher kek : UInt16) (md : Meta) (key : List UInt8)
  | wrapExport (cipher id type kek : UInt16)
  | unwrapExport (cipher kek : UInt16) (blob : List UInt8)
  | unwrapCache (cipher kek : UInt16) (blob : List UInt8)
  | dataWrap (cipher kek : UInt16) (data : List UInt8)
  | dataUnwrap (cipher kek : UInt16) (blob : List UInt8)

/-- Sizes the client library is compiled with. -/
structure Cfg where
  /-- `WOLFHSM_CFG_COMM_DATA_LEN` -/
  dataLen : Nat
  /-- `WOLFHSM_CFG_KEYWRAP_MAX_KEY_SIZE` -/
  maxKey : Nat
  /-- `WOLFHSM_CFG_KEYWRAP_MAX_DATA_SIZE` -/
  maxData : Nat

/-- A label field: at most 24 bytes of the label, zeros behind. -/
def labelField (l : List UInt8) : List UInt8 := l.take 24 ++ List.replicate (24 - l.length) 0

/-- The length field of a label. -/
def labelSz (l : List UInt8) : UInt32 := UInt32.ofNat (min l.length 24)

/-- Padding that the client does not write: what its packet buffer holds. -/
def pad (n : Nat) (stale : Nat → UInt8) : List UInt8 := (List.range n).map stale

/-- A structure in the client's memory. -/
def metaBytes (le : Bool) (md : Meta) : List UInt8 :=
  bytes16 le md.id ++ (bytes16 le md.access ++ (bytes16 le md.flags ++ (bytes16 le md.len ++ md.label.toList)))

/-- A request that only names a key; `WH_KEYID_ERASED` is refused. -/
def idReq (le : Bool) (stale : Nat → UInt8) (action id : UInt16) : Except Rc (UInt16 × List UInt8) :=
  if id = 0 then .error .badargs else .ok (action, bytes16 le id ++ pad 6 stale)

/-- The data of a request: action and bytes, or the error returned before anything is sent.
src/wh_client.c: `KeyCacheRequest_ex` 800-838, `KeyCacheRandomRequest` 904-936, `KeyEvictRequest`
1001-1016, `KeyExportRequest` 1067-1082, `KeyExportPublicRequest` 1154-1174, `KeyCommitRequest`
1244-1259, `KeyEraseRequest` 1308-1323, `KeyRevokeRequest` 1372-1387, `KeyCacheDmaRequest`
1717-1769, `KeyExportDmaRequest` 1840-1881, `KeyExportPublicDmaRequest` 1962-2006;
src/wh_client_keywrap.c: `KeyWrapRequest` 15-56, `KeyWrapExportRequest` 134-162,
`KeyUnwrapAndExportRequest` 239-280, `KeyUnwrapAndCacheRequest` 365-403, `DataWrapRequest`
472-510, `DataUnwrapRequest` 587-626. -/
def encode (le : Bool) (cfg : Cfg) (stale : Nat → UInt8) : Call → Except Rc (UInt16 × List UInt8)
  | .cache id flags label key =>
    if key.length = 0 ∨ 40 + key.length > cfg.dataLen then .error .badargs
    else .ok (0, bytes32 le flags ++ (bytes32 le (UInt32.ofNat key.length) ++ (bytes32 le (labelSz label) ++
      (bytes16 le id ++ ([0, 0] ++ (labelField label ++ key))))))
  | .cacheRandom id flags label sz =>
    if sz = 0 then .error .badargs
    else .ok (15, bytes32 le flags ++ (bytes32 le (labelSz label) ++ (bytes16 le sz ++ (bytes16 le id ++
      ([0, 0, 0, 0] ++ labelField label)))))
  | .evict id => idReq le stale 1 id
  | .exportKey id => idReq le stale 2 id
  | .commit id => idReq le stale 3 id
  | .erase id => idReq le stale 4 id
  | .revoke id => idReq le stale 5 id
  | .exportPublic id algo =>
    if id = 0 then .error .badargs else .ok (13, bytes16 le id ++ (bytes16 le algo ++ pad 4 stale))
  | .cacheDma id flags label addr sz =>
    .ok (6, bytes64 le addr ++ (bytes64 le sz.toUInt64 ++ (bytes32 le flags ++ (bytes32 le (labelSz label) ++
      (bytes16 le id ++ (labelField label ++ [0, 0, 0, 0, 0, 0]))))))
  | .exportDma id addr sz =>
    if id = 0 then .error .badargs
    else .ok (7, bytes64 le addr ++ (bytes64 le sz.toUInt64 ++ (bytes16 le id ++ pad 6 stale)))
  | .exportPublicDma id algo addr sz =>
    if id = 0 then .error .badargs
    else .ok (14, bytes64 le addr ++ (bytes64 le sz.toUInt64 ++ (bytes16 le id ++ (bytes16 le algo ++ pad 4 stale))))
  | .wrap cipher kek md key =>
    if key.length = 0 ∨ key.length > cfg.maxKey ∨ 38 + key.length > cfg.dataLen then .error .badargs
    else .ok (8, bytes16 le (UInt16.ofNat key.length) ++ (bytes16 le kek ++ (bytes16 le cipher ++
      (metaBytes le md ++ key))))
  | .wrapExport cipher id type kek =>
    .ok (16, bytes16 le id ++ (bytes16 le type ++ (bytes16 le kek ++ bytes16 le cipher)))
  | .unwrapExport cipher kek blob =>
    if blob.length = 0 ∨ blob.length > cfg.maxKey ∨ 8 + blob.length > cfg.dataLen then .error .badargs
    else .ok (9, bytes16 le (UInt16.ofNat blob.length) ++ (bytes16 le kek ++ (bytes16 le cipher ++
      (pad 2 stale ++ blob))))
  | .unwrapCache cipher kek blob =>
    if blob.length = 0 ∨ blob.length > cfg.maxKey ∨ 8 + blob.length > cfg.dataLen then .error .badargs
    else .ok (10, bytes16 le (UInt16.ofNat blob.length) ++ (bytes16 le kek ++ (bytes16 le cipher ++
      (pad 2 stale ++ blob))))
  | .dataWrap cipher kek data =>
    if data.length = 0 ∨ data.length > cfg.maxData ∨ 8 + data.length > cfg.dataLen then .error .badargs
    else .ok (11, bytes32 le (UInt32.ofNat data.length) ++ (bytes16 le kek ++ (bytes16 le cipher ++ data)))
  | .dataUnwrap cipher kek blob =>
    if blob.length = 0 ∨ blob.length > cfg.maxData ∨ 8 + blob.length > cfg.dataLen then .error .badargs
    else .ok (12, bytes32 le (UInt32.ofNat blob.length) ++ (bytes16 le kek ++ (bytes16 le cipher ++ blob)))

/-- What the caller of a client function gets: an error of the client library, the nonzero return
code of the server, or success with the values returned. -/
inductive Result where
  | err (rc : Rc)
  | failed (code : UInt32)
  | done
  | keyId (id : UInt16)
  | key (label bytes : List UInt8)
  /-- Length and label of what was put into the caller's buffer by DMA. -/
  | dma (len : UInt16) (label : List UInt8)
  | bytes (data : List UInt8)
  | unwrapped (md : Meta) (key : List UInt8)
deriving DecidableEq

/-- `if (resp->rc != 0) ret = resp->rc`. -/
def checked (code : UInt32) (k : Result) : Result := if code ≠ 0 then .failed code else k

/-- The metadata structure at an offset of the response. -/
def metaAt (le : Bool) (b : List UInt8) (off : Nat) : Meta :=
  ⟨rd16 le magicNative b off, rd16 le magicNative b (off + 2), rd16 le magicNative b (off + 4),
   rd16 le magicNative b (off + 6), NvmMsg.label (rdBytes b (off + 8) 24)⟩

/-- The response functions on a received response: `cap` is the size of the caller's buffer,
`cipher` the cipher type given to the call.  Only the calls checked to do so compare group and
action.  src/wh_client.c: `KeyCacheResponse` 849-882, `KeyCacheRandomResponse` 938-973,
`KeyEvictResponse` 1018-1047, `KeyExportResponse` 1084-1139, `KeyExportPublicResponse` 1176-1229,
`KeyCommitResponse` 1261-1292, `KeyEraseResponse` 1325-1356, `KeyRevokeResponse` 1389-1420,
`KeyCacheDmaResponse` 1771-1819, `KeyExportDmaResponse` 1883-1945, `KeyExportPublicDmaResponse`
2008-2062; src/wh_client_keywrap.c: `KeyWrapResponse` 58-106, `KeyWrapExportResponse` 164-212,
`KeyUnwrapAndExportResponse` 282-336, `KeyUnwrapAndCacheResponse` 405-447, `DataWrapResponse`
512-560, `DataUnwrapResponse` 628-676. -/
def decode (le : Bool) (cap : Nat) (cipher action : UInt16) (g : Comm.Got) : Result :=
  match g.rc with
  | .ok =>
    let b := g.payload
    let f16 := rd16 le magicNative b
    let f32 := rd32 le magicNative b
    let mine := g.kind &&& 0xFF00 = 0x0300 ∧ g.kind &&& 0x00FF = action
    match action.toNat with
    | 0 | 15 => if b.length < 12 then .err .aborted else checked (f32 0) (.keyId (f16 4))
    | 1 => if b.length > 12 then .err .bufferSize else if b.length < 12 then .err .aborted else checked (f32 0) .done
    | 3 | 4 => if b.length < 12 then .err .aborted else checked (f32 0) .done
    | 5 => if b.length < 8 then .err .aborted else checked (f32 0) .done
    | 2 | 13 =>
      if b.length < 36 then .err .aborted
      else checked (f32 0) <|
        if (f32 4).toNat > b.length - 36 then .err .aborted
        else if cap < (f32 4).toNat then .err .aborted
        else .key (rdBytes b 8 24) (rdBytes b 36 (f32 4).toNat)
    | 6 => if ¬ mine ∨ b.length ≠ 24 then .err .aborted else checked (f32 16) (.keyId (f16 20))
    | 7 => if ¬ mine ∨ b.length ≠ 48 then .err .aborted
      else checked (f32 16) (.dma (f32 20).toUInt16 (rdBytes b 24 24))
    | 14 => if b.length ≠ 48 then .err .aborted
      else checked (f32 16) (.dma (f32 20).toUInt16 (rdBytes b 24 24))
    | 8 | 16 =>
      if ¬ mine ∨ b.length < 8 ∨ b.length < 8 + (f16 4).toNat ∨ f16 6 ≠ cipher then .err .aborted
      else checked (f32 0) <|
        if (f16 4).toNat > cap then .err .bufferSize else .bytes (rdBytes b 8 (f16 4).toNat)
    | 9 =>
      if ¬ mine ∨ b.length < 8 ∨ b.length < 40 + (f16 4).toNat ∨ f16 6 ≠ cipher then .err .aborted
      else checked (f32 0) <|
        if (f16 4).toNat > cap then .err .bufferSize
        else .unwrapped (metaAt le b 8) (rdBytes b 40 (f16 4).toNat)
    | 10 =>
      if ¬ mine ∨ b.length < 8 ∨ f16 6 ≠ cipher then .err .aborted
      else checked (f32 0) (.keyId (f16 4))
    | _ =>
      if ¬ mine ∨ b.length < 12 ∨ b.length < 12 + (f32 4).toNat ∨ f16 8 ≠ cipher then .err .aborted
      else checked (f32 0) <|
        if (f32 4).toNat > cap then .err .bufferSize else .bytes (rdBytes b 12 (f32 4).toNat)
  | rc => .err rc

end WolfHsm.ClientKey

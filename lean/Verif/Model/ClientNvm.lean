import Verif.Model.NvmMsg

/-!
# The client side of the NVM requests: `src/wh_client_nvm.c`

As in `ClientAuth`: requests in the client's own byte order, responses read without translation.
For the DMA calls the addresses are those given by the client's DMA callback.
-/

namespace WolfHsm.ClientNvm

open NvmFlash (Meta)
open Utils (bytes16 bytes32 bytes64 magicNative)
open Wire

/-- The calls of the client's NVM API. -/
inductive Call where
  | init (clientId : UInt32)
  | cleanup
  | getAvailable
  | add (id access flags : UInt16) (label data : List UInt8)
  | list (access flags start : UInt16)
  | getMetadata (id : UInt16)
  | destroy (ids : List UInt16)
  | read (id off len : UInt16)
  | addDma (metaAddr dataAddr : UInt64) (len : UInt16)
  | readDma (id off len : UInt16) (addr : UInt64)

/-- The data of a request: action and bytes, or the error returned before anything is sent.
`wh_Client_NvmInitRequest` 44-57, `CleanupRequest` 120-129, `GetAvailableRequest` 183-192,
`AddObjectRequest` 264-297, `ListRequest` 356-372, `GetMetadataRequest` 436-448,
`DestroyObjectsRequest` 526-546, `ReadRequest` 602-617, `AddObjectDmaRequest` 686-741,
`ReadDmaRequest` 808-848. -/
def encode (le : Bool) (dataLen : Nat) : Call → Except Rc (UInt16 × List UInt8)
  | .init c => .ok (1, bytes32 le c)
  | .cleanup => .ok (2, [])
  | .getAvailable => .ok (3, [])
  | .add id access flags label data =>
    if label.length > 24 then .error .badargs
    else if data.length > dataLen - 32 then .error .badargs
    else .ok (4, bytes16 le id ++ (bytes16 le access ++ (bytes16 le flags ++
      (bytes16 le (UInt16.ofNat data.length) ++ ((label ++ List.replicate (24 - label.length) 0) ++ data)))))
  | .list a f s => .ok (5, bytes16 le a ++ (bytes16 le f ++ bytes16 le s))
  | .getMetadata id => .ok (6, bytes16 le id)
  | .destroy ids =>
    if ids.length > 19 then .error .badargs
    else .ok (7, bytes16 le (UInt16.ofNat ids.length) ++
      (ids ++ List.replicate (19 - ids.length) 0).flatMap (bytes16 le))
  | .read id off len => .ok (8, bytes16 le id ++ (bytes16 le off ++ bytes16 le len))
  | .addDma ma da len => .ok (0x24, bytes64 le ma ++ (bytes64 le da ++ (bytes16 le len ++ List.replicate 6 0)))
  | .readDma id off len addr =>
    .ok (0x28, bytes64 le addr ++ (bytes16 le id ++ (bytes16 le off ++ (bytes16 le len ++ [0, 0]))))

/-- What the caller of a client function gets: an error of the client library, or the server's
return code `code` and the returned values. -/
inductive Result where
  | err (rc : Rc)
  | simple (code : UInt32)
  | init (code clientId serverId : UInt32)
  | avail (code availSize : UInt32) (availObjects : UInt16) (reclaimSize : UInt32) (reclaimObjects : UInt16)
  | listed (code : UInt32) (count id : UInt16)
  | metadata (code : UInt32) (md : Meta)
  | bytes (code : UInt32) (data : List UInt8)
deriving DecidableEq

/-- The response functions, e.g. `wh_Client_NvmInitResponse` 59-95, on a received response. -/
def decode (le : Bool) (dataLen : Nat) (action : UInt16) (g : Comm.Got) : Result :=
  match g.rc with
  | .ok =>
    let b := g.payload
    let code := rd32 le magicNative b 0
    if g.kind &&& 0xFF00 ≠ 0x0200 ∨ g.kind &&& 0x00FF ≠ action then .err .aborted
    else if action = 8 then
      if b.length < 4 ∨ b.length > dataLen ∨ b.length - 4 > dataLen - 4 then .err .aborted
      else .bytes code (b.drop 4)
    else if b.length ≠ NvmMsg.respSize action then .err .aborted
    else if action = 1 then .init code (rd32 le magicNative b 8) (rd32 le magicNative b 4)
    else if action = 3 then
      .avail code (rd32 le magicNative b 4) (rd16 le magicNative b 12) (rd32 le magicNative b 8)
        (rd16 le magicNative b 14)
    else if action = 5 then .listed code (rd16 le magicNative b 4) (rd16 le magicNative b 6)
    else if action = 6 then
      .metadata code ⟨rd16 le magicNative b 4, rd16 le magicNative b 6, rd16 le magicNative b 8,
        rd16 le magicNative b 10, NvmMsg.label (rdBytes b 12 24)⟩
    else .simple code
  | rc => .err rc

end WolfHsm.ClientNvm

import Verif.Model.She
import Verif.Model.ClientHash

/-!
# The client side of the SHE requests: `src/wh_client_she.c`

Requests are structures in the client's own byte order, responses are read without translation.
NULL checks are left out, and so are the loops around NOTREADY: `Reply` is the outcome after them.
`sizeof(*req) + sz` is added in `size_t`; the model adds without overflow, as on a 64-bit client.
`wh_Client_ShePreProgramKey` is an NVM request (`Model/ClientNvm.lean`).
-/

namespace WolfHsm.ClientShe

open Utils (bytes32 magicNative)
open Wire
open ClientHash (Ret Reply)
open She (Mode)

/-- The calls and their arguments.  `room`: size of the output buffer. -/
inductive Call where
  | setUid (uid : List UInt8)
  | getStatus
  | loadKey (m1 m2 m3 : List UInt8)
  | loadPlain (key : List UInt8)
  | exportRam
  | initRnd
  | rnd (room : Nat)
  | extendSeed (entropy : List UInt8)
  /-- Encryption and decryption; ECB has no `iv`. -/
  | cipher (m : Mode) (id : UInt8) (iv input : List UInt8)
  | genMac (id : UInt8) (input : List UInt8) (room : Nat)
  | verifyMac (id : UInt8) (msg mac : List UInt8)

/-- `enum WH_SHE_ACTION…`, wolfhsm/wh_message.h. -/
def Call.action : Call → UInt16
  | .setUid _ => 0 | .getStatus => 4 | .loadKey .. => 5 | .loadPlain _ => 6 | .exportRam => 7 | .initRnd => 8
  | .rnd _ => 9 | .extendSeed _ => 10
  | .cipher .encEcb .. => 11 | .cipher .encCbc .. => 12 | .cipher .decEcb .. => 13 | .cipher .decCbc .. => 14
  | .genMac .. => 15 | .verifyMac .. => 16

/-- The checks of the request functions: `SheSetUidRequest` src/wh_client_she.c:79-81,
`SheLoadPlainKeyRequest` 373-375, `SheExtendSeedRequest` 597-599, `SheEncEcbRequest` 658-661,
`SheEncCbcRequest` 734-738, `SheDecEcbRequest` 813-816, `SheDecCbcRequest` 888-892,
`SheGenerateMacRequest` 967-970, `SheVerifyMacRequest` 1038-1042. -/
def refusal (dataLen : Nat) : Call → Option Rc
  | .setUid uid => if uid.length < 15 then some .badargs else none
  | .loadPlain key => if key.length < 16 then some .badargs else none
  | .extendSeed e => if e.length ≠ 16 then some .badargs else none
  | .cipher m _ iv input =>
    if input.length < 16 ∨ (m.fixed = 24 ∧ iv.length < 16) ∨ m.fixed + input.length > dataLen then some .badargs else none
  | .genMac _ input _ => if input.length < 16 ∨ 8 + input.length > dataLen then some .badargs else none
  | .verifyMac _ msg mac =>
    if msg.length < 16 ∨ mac.length < 16 ∨ 16 + msg.length + 16 > dataLen then some .badargs else none
  | _ => none

/-- The request functions, src/wh_client_she.c:74-90, 240-252, 296-319, 368-383, 423-432, 491-500,
538-546, 591-611, 652-673, 728-753, 807-828, 882-907, 961-983, 1029-1061.  `pad`: what the packet
buffer holds where the structure has padding.  Of a longer IV only the first 16 bytes remain, the
others are overwritten by the input (but see `written`). -/
def request (cle : Bool) (pad : Fin 4 → UInt8) : Call → List UInt8
  | .setUid uid => uid.take 15 ++ [pad 0]
  | .loadKey m1 m2 m3 => m1.take 16 ++ (m2.take 32 ++ m3.take 16)
  | .loadPlain key => key.take 16
  | .extendSeed e => e.take 16
  | .cipher m id iv input =>
    bytes32 cle (UInt32.ofNat input.length) ++ ([id, pad 0, pad 1, pad 2] ++
      ((if m.fixed = 24 then iv.take 16 else []) ++ input))
  | .genMac id input _ => bytes32 cle id.toUInt32 ++ (bytes32 cle (UInt32.ofNat input.length) ++ input)
  | .verifyMac id msg mac =>
    bytes32 cle id.toUInt32 ++ (bytes32 cle (UInt32.ofNat msg.length) ++ (bytes32 cle 16 ++
      ([pad 0, pad 1, pad 2, pad 3] ++ (msg ++ mac.take 16))))
  | .getStatus | .exportRam | .initRnd | .rnd _ => []

/-- How far into its packet buffer the client writes: `memcpy(req->iv, iv, ivSz)` copies all of the
IV, src/wh_client_she.c:746, 900. -/
def written (cle : Bool) (pad : Fin 4 → UInt8) (c : Call) : Nat :=
  match c with
  | .cipher m _ iv _ => if m.fixed = 24 then max (request cle pad c).length (8 + iv.length) else (request cle pad c).length
  | _ => (request cle pad c).length

/-- Return code, and what is written to the caller's output. -/
abbrev Result := Ret × Option (List UInt8)

/-- The return code of a response that has at least `n` bytes, and the rest of the function if it is 0. -/
def opened (cle : Bool) (r : List UInt8) (n : Nat) (k : Result) : Result :=
  if r.length < n then (Rc.aborted.code, none)
  else if rd32 cle magicNative r 0 ≠ 0 then (rd32 cle magicNative r 0, none)
  else k

/-- The response functions, src/wh_client_she.c:92-114, 254-282, 321-352, 385-409, 434-474, 502-524,
548-577, 613-637, 675-713, 755-792, 830-867, 909-946, 985-1014, 1063-1090.  The output of
`LOAD_KEY` and `EXPORT_RAM_KEY` is the messages one after the other. -/
def receive (cle : Bool) (c : Call) (r : List UInt8) : Result :=
  match c with
  | .setUid _ | .initRnd | .extendSeed _ => opened cle r 8 (0, some [])
  | .loadPlain _ => opened cle r 4 (0, some [])
  | .getStatus | .verifyMac .. => opened cle r 12 (0, some (rdBytes r 4 1))
  | .loadKey .. => opened cle r 52 (0, some (rdBytes r 4 48))
  | .exportRam => opened cle r 116 (0, some (rdBytes r 4 112))
  | .rnd _ | .genMac .. => opened cle r 20 (0, some (rdBytes r 4 16))
  | .cipher _ _ _ input =>
    let sz := (rd32 cle magicNative r 4).toNat
    opened cle r 8 <|
      if sz > r.length - 8 then (Rc.aborted.code, none)
      else if input.length < sz then (Rc.badargs.code, none)
      else (0, some (rdBytes r 8 sz))

/-- The check of the output buffer at the head of `SheRndResponse` and `SheGenerateMacResponse`,
src/wh_client_she.c:556-558, 994-996: it comes after the request was sent. -/
def lateRefusal : Call → Bool
  | .rnd room | .genMac _ _ room => decide (room < 16)
  | _ => false

/-- A whole call. -/
def run (cle : Bool) (dataLen : Nat) (pad : Fin 4 → UInt8) (peer : UInt16 → List UInt8 → Reply) (c : Call) : Result :=
  match refusal dataLen c with
  | some rc => (rc.code, none)
  | none =>
    match peer c.action (request cle pad c) with
    | .unsent rc => (rc, none)
    | .lost rc => if lateRefusal c then (Rc.badargs.code, none) else (rc, none)
    | .got r => if lateRefusal c then (Rc.badargs.code, none) else receive cle c r

/-! ## Secure boot -/

/-- One request of `wh_Client_SheSecureBoot` and its response of at least 8 bytes; the result is the
return code of the communication and that in the response.  `σ`: state of the other side. -/
def ask {σ : Type} (cle : Bool) (peer : σ → UInt16 → List UInt8 → Reply × σ) (w : σ) (action : UInt16) (body : List UInt8) :
    (Ret × Ret) × σ :=
  match peer w action body with
  | (.unsent rc, w') | (.lost rc, w') => ((rc, 0), w')
  | (.got r, w') => if r.length < 8 then ((Rc.aborted.code, 0), w') else ((0, rd32 cle magicNative r 0), w')

/-- The loop of `wh_Client_SheSecureBoot`, src/wh_client_she.c:168-213, and what follows it.  `rc`: the
code of the last response, which `initResp` points to all the time.  `pad`: padding of the request. -/
def bootLoop {σ : Type} (cle : Bool) (dataLen : Nat) (pad : List UInt8) (peer : σ → UInt16 → List UInt8 → Reply × σ) :
    Nat → σ → Ret → List UInt8 → Ret × σ
  | 0, w, _, _ => (0, w)
  | fuel + 1, w, rc, image =>
    if image.length = 0 then
      let q := ask cle peer w 3 []
      (if q.1.1 ≠ 0 then q.1.1 else q.1.2, q.2)
    else if rc ≠ 0 then (rc, w)
    else
      let n := min image.length (dataLen - 8)
      let q := ask cle peer w 2 (bytes32 cle (UInt32.ofNat n) ++ (pad ++ image.take n))
      if q.1.1 ≠ 0 then (q.1.1, q.2) else bootLoop cle dataLen pad peer fuel q.2 q.1.2 (image.drop n)

/-- `wh_Client_SheSecureBoot`, src/wh_client_she.c:128-238.  Each round of the loop sends at least one
byte if the packets have room for one, so as many rounds as bytes suffice. -/
def secureBoot {σ : Type} (cle : Bool) (dataLen : Nat) (pad : List UInt8) (peer : σ → UInt16 → List UInt8 → Reply × σ)
    (w : σ) (image : List UInt8) : Ret × σ :=
  if image.length = 0 then (Rc.badargs.code, w)
  else
    let q := ask cle peer w 1 (bytes32 cle (UInt32.ofNat image.length) ++ pad)
    if q.1.1 ≠ 0 then (q.1.1, q.2) else bootLoop cle dataLen pad peer (image.length + 1) q.2 q.1.2 image

end WolfHsm.ClientShe

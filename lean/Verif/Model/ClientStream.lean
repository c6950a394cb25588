import Verif.Model.ClientCrypto

/-!
# Ciphers and MACs in several calls, src/wh_client_crypto.c

The `Aes` and `Cmac` objects of the client carry the state from one call to the next; the server keeps
none.  The calls are those of `Model/ClientCrypto.lean`; here is what they do to the objects.
-/

namespace WolfHsm.ClientStream

open ClientCrypto
open ClientHash (Ret Reply)

/-- What the client is configured with: wolfhsm/wh_message_crypto.h:41-75 (numbers), wolfhsm/wh_comm.h (byte order,
`WOLFHSM_CFG_COMM_DATA_LEN`). -/
structure Cfg where
  n : Numbers
  le : Bool
  dataLen : Nat

/-- The circumstances of one request: affinity, bytes of padding, and what the other side does; src/wh_client.c:236-300
(`wh_Client_SendRequest`, `wh_Client_RecvResponse`). -/
structure Turn where
  affinity : UInt32
  pad : UInt8 × UInt8
  peer : List UInt8 → Reply

/-- One request and its response, waited for as in src/wh_client_crypto.c:566-582. -/
def Cfg.ask (f : Cfg) (t : Turn) (w : Want) (c : Call) : Result :=
  ClientCrypto.run f.n f.le f.dataLen t.affinity t.pad w t.peer c

/-- The parts of an `Aes` object the client uses: `devCtx`, `devKey` with `keylen`, `reg`, `tmp`, `left`. -/
structure Aes where
  id : UInt16
  key : List UInt8
  reg : List UInt8
  tmp : List UInt8
  left : UInt32
deriving DecidableEq

/-- The request an object makes in counter mode, src/wh_client_crypto.c:447-511. -/
def Aes.ctrCall (a : Aes) (enc : Bool) (input : List UInt8) : Call := .aesCtr enc a.id a.key input a.reg a.tmp a.left

/-- `wh_Client_AesCtr`, src/wh_client_crypto.c:513-582: return code, output, the object afterwards. -/
def ctr (f : Cfg) (t : Turn) (a : Aes) (enc : Bool) (input : List UInt8) : Ret × List UInt8 × Aes :=
  match f.ask t ⟨0, 0, false⟩ (a.ctrCall enc input) with
  | (rc, some g) => (rc, g.out, { a with reg := g.more.take 16, tmp := g.more.drop 16, left := g.num })
  | (rc, none) => (rc, [], a)

/-- The request an object makes in CBC mode, src/wh_client_crypto.c:1110-1186. -/
def Aes.cbcCall (a : Aes) (enc : Bool) (input : List UInt8) : Call := .aesCbc enc a.id a.key input a.reg

/-- `wh_Client_AesCbc`, src/wh_client_crypto.c:1188-1259.  With a multiple of 2^20 bytes nothing is sent, and it
waits for ever; this counts as not ready. -/
def cbc (f : Cfg) (t : Turn) (a : Aes) (enc : Bool) (input : List UInt8) : Ret × List UInt8 × Aes :=
  if input = [] then (0, [], a)
  else if idle (a.cbcCall enc input) && input.length % 16 == 0 then (Rc.notready.code, [], a)
  else match f.ask t ⟨0, 0, false⟩ (a.cbcCall enc input) with
    | (rc, some g) => (rc, g.out, { a with reg := g.more })
    | (rc, none) => (rc, [], a)

/-- The parts of a `Cmac` object the client uses: `devCtx`, `aes.devKey` with `aes.keylen`, and the state that
travels. -/
structure Cmac where
  id : UInt16
  key : List UInt8
  st : CmacState
deriving DecidableEq

/-- `_CmacResolveClientKey`, src/wh_client_crypto.c:5629-5640. -/
def Cmac.resolve (c : Cmac) (key : List UInt8) : List UInt8 :=
  if key = [] ∧ KeyId.isErased c.id = true then c.key else key

/-- The request went out: `wh_Client_SendRequest` succeeded, src/wh_client_crypto.c:5723-5724, 5853-5854. -/
def sent (f : Cfg) (t : Turn) (q : Call) : Bool :=
  match send f.n f.le f.dataLen t.affinity t.pad q with
  | .packet buf size => match t.peer (buf.take size) with
    | .unsent _ => false
    | _ => true
  | _ => false

/-- The key is kept once the request went out, src/wh_client_crypto.c:5724-5731, 5855-5862. -/
def Cmac.keep (c : Cmac) (went : Bool) (key : List UInt8) : Cmac :=
  if went = true ∧ key ≠ [] ∧ KeyId.isErased c.id = true then { c with key := key } else c

/-- The state of a response is taken over, src/wh_client_crypto.c:5736-5786, 5867-5906, 5964-6013. -/
def Cmac.take (c : Cmac) (g : Option Got) : Cmac :=
  match g with
  | some g => match g.state with
    | some st => { c with st := st }
    | none => c
  | none => c

/-- The MAC of a response, src/wh_client_crypto.c:5964-6013; none when the call fails. -/
def outOf (g : Option Got) : List UInt8 := (g.map Got.out).getD []

/-- The requests of a `Cmac` object, src/wh_client_crypto.c:5665-5722, 5788-5853, 5908-5962. -/
def Cmac.updateCall (c : Cmac) (key input : List UInt8) : Call := .cmacUpdate c.id (c.resolve key) c.st input
/-- src/wh_client_crypto.c:5908-5962. -/
def Cmac.finalCall (c : Cmac) : Call := .cmacFinal c.id (c.resolve []) c.st
/-- src/wh_client_crypto.c:5665-5722. -/
def Cmac.generateCall (c : Cmac) (key input : List UInt8) (len : Nat) : Call :=
  .cmacGenerate c.id (c.resolve key) input (UInt32.ofNat len)

/-- `wh_Client_CmacUpdateRequest` and `…Response`, src/wh_client_crypto.c:5788-5906. -/
def update (f : Cfg) (t : Turn) (c : Cmac) (key input : List UInt8) : Ret × Cmac :=
  let q := c.updateCall key input
  let r := f.ask t ⟨0, 0, false⟩ q
  (r.1, (c.keep (sent f t q) (c.resolve key)).take r.2)

/-- `wh_Client_CmacFinalRequest` and `…Response`, src/wh_client_crypto.c:5908-6013.  `len`: the room for the MAC. -/
def final (f : Cfg) (t : Turn) (c : Cmac) (len : Nat) : Ret × List UInt8 × Cmac :=
  let r := f.ask t ⟨len, 0, false⟩ c.finalCall
  (r.1, outOf r.2, c.take r.2)

/-- `wh_Client_CmacGenerateRequest` and `…Response`, src/wh_client_crypto.c:5665-5786. -/
def generate (f : Cfg) (t : Turn) (c : Cmac) (key input : List UInt8) (len : Nat) : Ret × List UInt8 × Cmac :=
  let q := c.generateCall key input len
  let r := f.ask t ⟨len, 0, false⟩ q
  (r.1, outOf r.2, (c.keep (sent f t q) (c.resolve key)).take r.2)

/-- `wh_Client_Cmac`, src/wh_client_crypto.c:6015-6100; `out`: the length of the MAC asked for, if any.  `t`, `t'`: the
circumstances of the first request and of the second. -/
def cmac (f : Cfg) (t t' : Turn) (c : Cmac) (key input : List UInt8) (out : Option Nat) : Ret × List UInt8 × Cmac :=
  match out with
  | none =>
    if input = [] ∧ key = [] then (0, [], c)
    else
      let r := update f t c key input
      (r.1, [], r.2)
  | some len =>
    if tagLenOk len = false then (Rc.bufferSize.code, [], c)
    else if input ≠ [] ∧ len > 0 ∧ input.length ≤ f.dataLen - 100 ∧ (key ≠ [] ∨ (c.st.filled = 0 ∧ c.st.total = 0)) then
      generate f t c key input len
    else
      let r := if input = [] ∧ key = [] then (0, c) else update f t c key input
      if r.1 = 0 then final f t' r.2 len else (r.1, [], r.2)

end WolfHsm.ClientStream

import Verif.Model.ClientStream
import Verif.Spec.ClientCrypto

/-!
# Ciphers and MACs in several calls: what they should give (C64)

The modes as in NIST SP 800-38A, and what is assumed of the crypto library: that it implements them, and
that it goes on from the state it is given.
-/

namespace WolfHsm.ClientStream

open ClientCrypto
open ClientHash (Ret Reply)
open Crypto (aesLen)

/-! ## Modes of operation; `E`, `D`: the block cipher under some key -/

/-- Add one to a counter block, last byte first. -/
def carry : List UInt8 → List UInt8
  | [] => []
  | b :: l => if b = 255 then 0 :: carry l else (b + 1) :: l

def inc (l : List UInt8) : List UInt8 := (carry l.reverse).reverse

/-- The `i`-th counter block. -/
def count (iv : List UInt8) : Nat → List UInt8
  | 0 => iv
  | i + 1 => inc (count iv i)

/-- Byte `i` of the key stream. -/
def stream (E : List UInt8 → List UInt8) (iv : List UInt8) (i : Nat) : UInt8 := (E (count iv (i / 16))).getD (i % 16) 0

/-- Counter mode from byte `p` of the key stream on. -/
def ctrText (E : List UInt8 → List UInt8) (iv : List UInt8) (p : Nat) (input : List UInt8) : List UInt8 :=
  input.mapIdx fun i b => b ^^^ stream E iv (p + i)

def xor (a b : List UInt8) : List UInt8 := List.zipWith (· ^^^ ·) a b

/-- CBC encryption of `n` blocks. -/
def cbcEnc (E : List UInt8 → List UInt8) : Nat → (iv input : List UInt8) → List UInt8
  | 0, _, _ => []
  | n + 1, iv, x => E (xor (x.take 16) iv) ++ cbcEnc E n (E (xor (x.take 16) iv)) (x.drop 16)

/-- CBC decryption of `n` blocks. -/
def cbcDec (D : List UInt8 → List UInt8) : Nat → (iv input : List UInt8) → List UInt8
  | 0, _, _ => []
  | n + 1, iv, x => xor (D (x.take 16)) iv ++ cbcDec D n (x.take 16) (x.drop 16)

/-- The block the next one is chained to: the last one of the ciphertext. -/
def lastBlock (iv cipher : List UInt8) : List UInt8 := if cipher = [] then iv else cipher.drop (cipher.length - 16)

/-! ## The crypto library -/

/-- The counter state after `p` bytes: the next counter block, the number of bytes of the last key-stream block not
yet used, and these bytes at the end of `tmp`. -/
structure At (E : List UInt8 → List UInt8) (iv : List UInt8) (p : Nat) (reg tmp : List UInt8) (left : Nat) : Prop where
  next : reg = count iv ((p + 15) / 16)
  unused : left = (16 - p % 16) % 16
  len : tmp.length = 16
  rest : left ≠ 0 → tmp.drop (16 - left) = (E (count iv (p / 16))).drop (16 - left)

/-- `wc_AesCtrEncrypt` goes on where it is told to. -/
def CtrLib (L : Crypto.Lib) (E : List UInt8 → List UInt8 → List UInt8) : Prop :=
  ∀ enc k iv p reg tmp left input, aesLen k.length = true → iv.length = 16 → At (E k) iv p reg tmp left →
    ∃ reg' tmp', L.aes .ctr enc left k input (reg ++ tmp) = .ok (ctrText (E k) iv p input, reg' ++ tmp') ∧
      At (E k) iv (p + input.length) reg' tmp' (L.aesLeft left input.length)

/-- `wc_AesCbcEncrypt` and `wc_AesCbcDecrypt`. -/
structure CbcLib (L : Crypto.Lib) (E D : List UInt8 → List UInt8 → List UInt8) : Prop where
  len : ∀ k b, b.length = 16 → (E k b).length = 16
  enc : ∀ k iv input n, aesLen k.length = true → iv.length = 16 → input.length = 16 * n →
    L.aes .cbc true 0 k input iv = .ok (cbcEnc (E k) n iv input, lastBlock iv (cbcEnc (E k) n iv input))
  dec : ∀ k iv input n, aesLen k.length = true → iv.length = 16 → input.length = 16 * n →
    L.aes .cbc false 0 k input iv = .ok (cbcDec (D k) n iv input, lastBlock iv input)

/-- `wc_AesCmacGenerate_ex`, `wc_CmacUpdate` and `wc_CmacFinal`, for messages whose length fits the 32 bits of
`totalSz`: `st k m` is the state after the message `m`, `mac k m` its MAC. -/
structure CmacLib (L : Crypto.Lib) (mac : List UInt8 → List UInt8 → List UInt8) (st : List UInt8 → List UInt8 → CmacState) :
    Prop where
  zero : ∀ k, st k [] = .zero
  fresh : ∀ k m, m.length < 4294967280 → m ≠ [] → (st k m).filled ≠ 0 ∨ (st k m).total ≠ 0
  room : ∀ k m, (st k m).filled ≤ 16
  bytes : ∀ k m, (st k m).bytes.length = 32
  update : ∀ k m x, aesLen k.length = true → (m ++ x).length < 4294967280 → L.cmacUpdate k (st k m).flat x = .ok (st k (m ++ x)).flat
  final : ∀ k m, aesLen k.length = true → m.length < 4294967280 → L.cmacFinal k (st k m).flat [] 16 = .ok (mac k m)
  once : ∀ k m n, aesLen k.length = true → m.length < 4294967280 → m ≠ [] → tagLenOk n = true → n ≠ 0 → L.cmac k m n = .ok ((mac k m).take n)

/-! ## The server -/

/-- Whenever a key is found under the id, it is `K`. -/
def Gives (ks : Keystore.Cfg) (v : Keystore.Srv) (s : Keystore.Sys) (id : UInt16) (K : List UInt8) : Prop :=
  ∀ lock required b, Crypto.loaded (Keystore.handle ks v s lock (.useKey id required 32)).1 = .ok b → b = K

/-- An AES request of an object with this id and key is done with the key `K`: the key is in the object, or in the
key store. -/
def AesKey (cfg : CryptoMsg.Cfg) (id : UInt16) (key K : List UInt8) (v : Keystore.Srv) (s : Keystore.Sys) : Prop :=
  if KeyId.isErased (Crypto.own cfg.crypto v id) then key = K else Gives cfg.crypto.ks v s id K

/-- A stored key for CMAC, which is looked up twice. -/
def MacKey (cfg : CryptoMsg.Cfg) (id : UInt16) (K : List UInt8) (v : Keystore.Srv) (s : Keystore.Sys) : Prop :=
  KeyId.isErased id = false → Gives cfg.crypto.ks v s id K ∧
    ∀ lock required, Gives cfg.crypto.ks v (Keystore.handle cfg.crypto.ks v s lock (.useKey id required 32)).2 id K

/-- The request `c` fails on the way, or it is answered by a server in a state in which `ok` holds, with a result or an
error. -/
def Fair (cfg : CryptoMsg.Cfg) (f : Cfg) (ok : Keystore.Srv → Keystore.Sys → Prop) (t : Turn) (c : Call) : Prop :=
  (∃ rc, rc ≠ 0 ∧ (t.peer (request f.n f.le t.affinity t.pad c) = .unsent rc ∨
      t.peer (request f.n f.le t.affinity t.pad c) = .lost rc)) ∨
    ∃ seq v e junk s, ok v s ∧
      t.peer (request f.n f.le t.affinity t.pad c) =
        .got (served cfg f.le (f.n.code c.op).action seq v e junk s (request f.n f.le t.affinity t.pad c)).1 ∧
      ((∃ o, (performed cfg v e (c.asks e.coins) s).1 = some (.ok o)) ∨
        ∃ rc, (performed cfg v e (c.asks e.coins) s).1 = some (.error rc) ∧ 0x80000000 ≤ rc.code)

/-! ## Histories -/

/-- An object in counter mode, started with `iv`, after any calls, failed ones too: inputs and outputs of the
successful ones. -/
inductive Ctrs (cfg : CryptoMsg.Cfg) (f : Cfg) (K iv : List UInt8) : Aes → List (List UInt8 × List UInt8) → Prop
  | start (a : Aes) : a.reg = iv → a.tmp.length = 16 → a.left = 0 → a.key.length ≤ 32 → Ctrs cfg f K iv a []
  | call {a log} (t : Turn) (enc : Bool) (input : List UInt8) : Ctrs cfg f K iv a log →
      Fair cfg f (AesKey cfg a.id a.key K) t (a.ctrCall enc input) → input.length < 2147483648 →
      Ctrs cfg f K iv (ctr f t a enc input).2.2
        (if (ctr f t a enc input).1 = 0 then log ++ [(input, (ctr f t a enc input).2.1)] else log)

/-- An object in CBC mode, always encrypting or always decrypting. -/
inductive Cbcs (cfg : CryptoMsg.Cfg) (f : Cfg) (K iv : List UInt8) (enc : Bool) : Aes → List (List UInt8 × List UInt8) → Prop
  | start (a : Aes) : a.reg = iv → a.key.length ≤ 32 → Cbcs cfg f K iv enc a []
  | call {a log} (t : Turn) (input : List UInt8) : Cbcs cfg f K iv enc a log →
      Fair cfg f (AesKey cfg a.id a.key K) t (a.cbcCall enc input) → input.length < 2147483648 →
      Cbcs cfg f K iv enc (cbc f t a enc input).2.2
        (if (cbc f t a enc input).1 = 0 then log ++ [(input, (cbc f t a enc input).2.1)] else log)

def ins (log : List (List UInt8 × List UInt8)) : List UInt8 := (log.map Prod.fst).flatten
def outs (log : List (List UInt8 × List UInt8)) : List UInt8 := (log.map Prod.snd).flatten

/-- The key of a CMAC object is `K`: it is stored on the server and calls bring none, or calls bring it (it is not
empty), once at least. -/
def Brings (id : UInt16) (K key : List UInt8) : Prop :=
  if KeyId.isErased id then key = [] ∨ key = K else key = []

/-- A MAC object after any calls: the message so far, and each message for which there was a MAC, with its
requested length and the MAC. -/
inductive Macs (cfg : CryptoMsg.Cfg) (f : Cfg) (K : List UInt8) :
    Cmac → List UInt8 → List (List UInt8 × Nat × List UInt8) → Prop
  | start (c : Cmac) : c.st = .zero → c.key = [] → Macs cfg f K c [] []
  | update {c m log} (t : Turn) (key input : List UInt8) : Macs cfg f K c m log → Brings c.id K key →
      Fair cfg f (MacKey cfg c.id K) t (c.updateCall key input) → (m ++ input).length < 4294967280 →
      Macs cfg f K (update f t c key input).2 (if (update f t c key input).1 = 0 then m ++ input else m) log
  | final {c m log} (t : Turn) (len : Nat) : Macs cfg f K c m log → tagLenOk len = true →
      Fair cfg f (MacKey cfg c.id K) t c.finalCall →
      Macs cfg f K (final f t c len).2.2 (if (final f t c len).1 = 0 then [] else m)
        (if (final f t c len).1 = 0 then log ++ [(m, len, (final f t c len).2.1)] else log)
  | generate {c m log} (t : Turn) (key input : List UInt8) (len : Nat) : Macs cfg f K c m log → Brings c.id K key →
      tagLenOk len = true → Fair cfg f (MacKey cfg c.id K) t (c.generateCall key input len) → input.length < 4294967280 →
      Macs cfg f K (generate f t c key input len).2.2 (if (generate f t c key input len).1 = 0 then [] else m)
        (if (generate f t c key input len).1 = 0 then log ++ [(input, len, (generate f t c key input len).2.1)] else log)

end WolfHsm.ClientStream

import Verif.Spec.CryptoMsg
import Verif.Proofs.WireSimp

/-!
# Crypto packets: what the handlers read, and how long their responses are
-/

namespace WolfHsm.CryptoMsg

open Wire
open Server (Req)
open Crypto (Alg AesMode RsaOp Prog Resp Lib)
open Keystore (Srv Sys)

/-! ## Only the received bytes are read -/

section same

variable {le : Bool} {r r' : Req}

/-- Same magic, action, size and data. -/
structure Same (r r' : Req) : Prop where
  magic : r'.magic = r.magic
  action : r'.action = r.action
  size : r'.size = r.size
  data : r'.buf.take r.size = r.buf.take r.size

theorem Same.u32 (h : Same r r') {i n : Nat} (hn : n ≤ inSize r) (hi : 4 * i + 4 ≤ n) : u32 le r' i = u32 le r i := by
  unfold CryptoMsg.u32
  unfold inSize at hn
  rw [h.magic]
  exact rd32_eq h.data (by omega)

theorem Same.u16 (h : Same r r') {i n : Nat} (hn : n ≤ inSize r) (hi : i + 2 ≤ n) : u16 le r' i = u16 le r i := by
  unfold CryptoMsg.u16
  unfold inSize at hn
  rw [h.magic]
  exact rd16_eq h.data (by omega)

theorem Same.str (h : Same r r') {i n : Nat} (hi : i + n ≤ inSize r) : str r' i n = str r i n := by
  unfold CryptoMsg.str
  unfold inSize at hi
  by_cases hz : r.size < 12
  · have : n = 0 := by omega
    subst this
    simp [rdBytes]
  · exact rdBytes_eq h.data (by omega)

theorem Same.inSize (h : Same r r') : inSize r' = inSize r := by unfold CryptoMsg.inSize; rw [h.size]

theorem sized_same (h : Same r r') {n : Nat} {α : Type} {k k' : Except Rc α} (hk : n ≤ inSize r → k' = k) :
    sized r' n k' = sized r n k := by
  unfold sized
  rw [h.inSize]
  by_cases hn : inSize r < n
  · rw [if_pos hn, if_pos hn]
  · rw [if_neg hn, if_neg hn, hk (by omega)]

theorem fits_same {p p' : Prop} [Decidable p] [Decidable p'] (hp : p' ↔ p) {α : Type} {k k' : Except Rc α} (hk : p → k' = k) :
    fits p' k' = fits p k := by
  unfold fits
  by_cases h : p
  · rw [if_pos h, if_pos (hp.2 h), hk h]
  · rw [if_neg h, if_neg (fun q => h (hp.1 q))]

/-- Words of the structure agree. -/
theorem Same.words (h : Same r r') {n : Nat} (hn : n ≤ CryptoMsg.inSize r) :
    ∀ i, 4 * i + 4 ≤ n → CryptoMsg.u32 le r' i = CryptoMsg.u32 le r i := fun _ hi => h.u32 hn hi
theorem Same.halves (h : Same r r') {n : Nat} (hn : n ≤ CryptoMsg.inSize r) :
    ∀ i, i + 2 ≤ n → CryptoMsg.u16 le r' i = CryptoMsg.u16 le r i := fun _ hi => h.u16 hn hi

set_option hygiene false in
/-- Structure fields agree. -/
macro "fields" h:ident : tactic => `(tactic| (
  refine sized_same $h fun hn => ?_
  have hw := Same.words (le := le) $h hn
  have hh := Same.halves (le := le) $h hn
  simp (config := { failIfUnchanged := false }) only [len, half, opt, lab, hw, hh, Same.inSize $h, Nat.reduceMul, Nat.reduceAdd, Nat.reduceLeDiff]
  try clear hw hh))

/-- Data behind the structure agree. -/
macro "tails" h:ident : tactic => `(tactic| (
  repeat refine fits_same Iff.rfl fun _ => ?_
  repeat rw [Same.str $h (by omega)]))

theorem decodeAes_same (h : Same r r') (m : AesMode) : decodeAes le r' m = decodeAes le r m := by
  cases m with
  | ctr => unfold decodeAes; fields h; tails h
  | ecb => unfold decodeAes; fields h; tails h
  | cbc => unfold decodeAes; fields h; tails h
  | gcm => unfold decodeAes; fields h; tails h

theorem decodeKeyGen_same (h : Same r r') (coins : List UInt8) (a : Alg) :
    decodeKeyGen le coins r' a = decodeKeyGen le coins r a := by
  cases a <;> (unfold decodeKeyGen; fields h; tails h)

theorem decode_same (c : Codes) (h : Same r r') (coins : List UInt8) (op : Op) :
    decode c le coins r' op = decode c le coins r op := by
  cases op with
  | aes m => exact decodeAes_same h m
  | keyGen a => exact decodeKeyGen_same h coins a
  | rsa =>
    unfold decode; fields h
    refine fits_same Iff.rfl fun _ => ?_
    rw [Same.str h (by omega)]
  | decaps =>
    unfold decode; fields h
    refine congrArg _ (congrArg _ ?_)
    by_cases hc : (CryptoMsg.u32 le r 3).toNat ≤ CryptoMsg.inSize r - 16
    · refine (if_pos hc).trans (.trans ?_ (if_pos hc).symm)
      rw [Same.str h (by omega)]
    · exact (if_neg hc).trans (if_neg hc).symm
  | cmac =>
    unfold decode; fields h
    have hs : cmacState le r' = cmacState le r := by
      unfold cmacState
      rw [Same.str h (by omega), Same.words (le := le) h hn 12 (by omega), Same.words (le := le) h hn 13 (by omega)]
    rw [hs]
    tails h
  | sha3 block =>
    unfold decode; fields h
    refine fits_same Iff.rfl fun hf => ?_
    have hf := hf.1
    rw [Same.str h (by omega)]
    refine congrArg _ (congrArg (fun l => Todo.sha3 _ _ l _) (List.map_congr_left fun i hi => ?_))
    have hi := List.mem_range.1 hi
    have hz : 208 ≤ r.size - 12 := hn
    rw [h.magic]
    exact rd64_eq h.data (by omega)
  | sha256 t =>
    unfold decode; fields h
    refine fits_same Iff.rfl fun hf => ?_
    have hf := hf.1
    repeat rw [Same.str h (by omega)]
  | sha384 t =>
    unfold decode; fields h
    refine fits_same Iff.rfl fun hf => ?_
    have hf := hf.1
    repeat rw [Same.str h (by omega)]
  | sha512 =>
    unfold decode; fields h
    refine fits_same Iff.rfl fun hf => ?_
    have hf := hf.1
    repeat rw [Same.str h (by omega)]
  | _ => unfold decode; fields h; tails h

end same

/-! ## Incomplete packets -/

section refused

variable {le : Bool} {r : Req}

theorem sized_err {α : Type} {n : Nat} {k : Except Rc α} (h : n ≤ inSize r → k = .error .badargs) :
    sized r n k = .error .badargs := by
  unfold sized
  by_cases hn : inSize r < n
  · exact if_pos hn
  · rw [if_neg hn]; exact h (by omega)

theorem fits_err {α : Type} {p : Prop} [Decidable p] {k : Except Rc α} (h : p → k = .error .badargs) :
    fits p k = .error .badargs := by
  unfold fits
  by_cases hp : p
  · rw [if_pos hp]; exact h hp
  · exact if_neg hp

theorem word_eq (i : Nat) : word le r i = len le r i := rfl

theorem enc_word : (u32 le r 0 != 0) = false ↔ word le r 0 = 0 := by
  unfold word u32
  rw [bne_eq_false_iff_eq, ← UInt32.toNat_inj]
  rfl

/-- A packet that ends before what it announces is refused; a decapsulation only after its key id and
options were read. -/
theorem decode_incomplete (c : Codes) (coins : List UInt8) {op : Op} (hc : ¬Complete le r op) (hd : op ≠ .decaps) :
    decode c le coins r op = .error .badargs := by
  unfold Complete at hc
  cases op with
  | aes m =>
    cases m with
    | gcm =>
      unfold decode decodeAes
      refine sized_err fun h0 => fits_err fun h1 => absurd ?_ hc
      simp only [structSize, announced, inSize] at *
      cases he : (u32 le r 0 != 0) with
      | true =>
        have : ¬ word le r 0 = 0 := fun h => by rw [enc_word.2 h] at he; cases he
        rw [he, if_pos rfl] at h1
        rw [if_neg this]
        simp only [word_eq]
        omega
      | false =>
        have : word le r 0 = 0 := enc_word.1 he
        rw [he, if_neg (by decide)] at h1
        rw [if_pos this]
        simp only [word_eq]
        omega
    | _ =>
      unfold decode decodeAes
      refine sized_err fun h0 => fits_err fun h1 => absurd ?_ hc
      simp only [structSize, announced, word_eq, inSize] at *
      omega
  | keyGen a =>
    cases a <;>
    · unfold decode decodeKeyGen
      refine sized_err fun h0 => absurd ?_ hc
      simp only [structSize, announced, inSize] at *
      omega
  | decaps => exact absurd rfl hd
  | sha256 | sha384 | sha512 | sha3 =>
    unfold decode
    refine sized_err fun h0 => fits_err fun h1 => absurd ?_ hc
    have h1 := h1.1
    simp only [structSize, announced, word_eq, inSize] at *
    omega
  | _ =>
    unfold decode
    refine sized_err fun h0 => ?_
    repeat refine fits_err fun _ => ?_
    refine absurd ?_ hc
    simp only [structSize, announced, word_eq, inSize] at *
    omega

theorem decode_decaps (c : Codes) (coins : List UInt8) (hc : ¬Complete le r .decaps) :
    decode c le coins r .decaps = .error .badargs ∨
      decode c le coins r .decaps = .ok (.keys (.refused (half le r 2) (opt le r 0 1))) := by
  by_cases h0 : inSize r < 16
  · exact .inl (if_pos h0)
  · right
    refine (if_neg h0).trans (congrArg Except.ok (congrArg Todo.keys (if_neg fun h => hc ?_)))
    simp only [Complete, structSize, announced, word_eq, inSize] at *
    omega

end refused

/-! ## Length of responses -/

/-- What a program answers, whatever the key store answers. -/
def Yields (Q : Crypto.Out → Prop) : Prog → Prop
  | .done (.ok o) => Q o
  | .done (.error _) => True
  | .call _ _ k => ∀ a, Yields Q (k a)

theorem yields_exec {Q : Crypto.Out → Prop} {ks : Keystore.Cfg} {v : Srv} {locks : Nat → Rc} {o : Crypto.Out} {s' : Sys} :
    ∀ (p : Prog) (k : Nat) (s : Sys), Yields Q p → exec ks v locks k p s = (some (.ok o), s') → Q o
  | .done (.ok a), k, s, h, he => by
    unfold exec at he
    injection he with he _
    injection he with he
    injection he with he
    subst he; exact h
  | .done (.error a), k, s, h, he => by
    unfold exec at he
    injection he with he _
    injection he with he
    cases he
  | .call l q f, k, s, h, he => by
    unfold exec at he
    dsimp only at he
    generalize Keystore.handle ks v s (if l = true then locks k else Rc.ok) q = y at he
    split at he
    · exact yields_exec _ _ _ (h _) he
    · injection he with he _; exact absurd he (by simp)

section yields

variable {Q : Crypto.Out → Prop} {cfg : Crypto.Cfg} {L : Lib} {v : Srv}

theorem yields_done {a : Resp} (h : ∀ o, a = .ok o → Q o) : Yields Q (.done a) := by
  cases a with
  | ok o => exact h o rfl
  | error e => trivial

theorem yields_load {l : Bool} {id req : UInt16} {k : Except Rc (List UInt8) → Prog} (h : ∀ x, Yields Q (k x)) :
    Yields Q (Crypto.load cfg v l id req k) := by
  unfold Crypto.load
  by_cases hi : KeyId.isErased (Crypto.own cfg v id) = true
  · rw [if_pos hi]; exact h _
  · rw [if_neg hi]; exact fun _ => h _

theorem yields_read {id req : UInt16} {n : Nat} {k : Except Rc (List UInt8) → Prog} (h : ∀ x, Yields Q (k x)) :
    Yields Q (Crypto.read id req n k) := fun _ => h _

theorem yields_evict {l e : Bool} {id : UInt16} {p : Prog} (h : Yields Q p) : Yields Q (Crypto.evictOpt cfg v l e id p) := by
  unfold Crypto.evictOpt
  by_cases hi : (e && !KeyId.isErased (Crypto.own cfg v id)) = true
  · rw [if_pos hi]; exact fun _ => h
  · rw [if_neg hi]; exact h

theorem yields_store {id flags : UInt16} {label : Vector UInt8 24} {cap : UInt16} {der : Except Rc (List UInt8)}
    {k : Except Rc UInt16 → Prog} (h : ∀ x, Yields Q (k x)) : Yields Q (Crypto.store id flags label cap der k) := by
  intro a
  cases a with
  | keyId rc rid => cases rc <;> exact h _
  | _ => exact h _

theorem yields_useOne {l e : Bool} {id req : UInt16} {op : List UInt8 → Resp} (h : ∀ k o, op k = .ok o → Q o) :
    Yields Q (Crypto.useOne cfg v l id req e op) :=
  yields_load fun x => yields_evict (yields_done fun o ho => by
    cases x with
    | error e => cases ho
    | ok k => exact h k o ho)

theorem yields_two {a b : Bool} {p q : UInt16} {x : Resp} (h : ∀ o, x = .ok o → Q o) :
    Yields Q (Crypto.evictTwo cfg v a b p q x) := yields_evict (yields_evict (yields_done h))

theorem map_ok {α β : Type} {x : Except Rc α} {f : α → β} {o : β} (h : x.map f = .ok o) : ∃ a, x = .ok a ∧ o = f a := by
  cases x with
  | error e => cases h
  | ok a => exact ⟨a, rfl, by injection h with h; exact h.symm⟩

theorem bind_ok {α β : Type} {x : Except Rc α} {f : α → Except Rc β} {o : β} (h : x.bind f = .ok o) :
    ∃ a, x = .ok a ∧ f a = .ok o := by
  cases x with
  | error e => cases h
  | ok a => exact ⟨a, rfl, h⟩

/-- A response of fixed size whose body is small if the library's results are. -/
def Short (L : Lib) (n fixed : Nat) (o : Crypto.Out) : Prop := o.fixed = fixed ∧ (Small L n → o.body.length ≤ n)

theorem yields_keyGen {n : Nat} (alg : Alg) (id flags : UInt16) (label : Vector UInt8 24) (params : List Nat)
    (coins : List UInt8) : Yields (Short L n 8) (Crypto.keyGen cfg L alg id flags label params coins) := by
  unfold Crypto.keyGen
  split
  · trivial
  · split
    · trivial
    · rename_i obj _
      split
      · refine yields_done fun o ho => ?_
        obtain ⟨d, hd, rfl⟩ := map_ok ho
        exact ⟨rfl, fun h => h.privateDer _ _ _ _ hd⟩
      · refine yields_store fun x => yields_done fun o ho => ?_
        obtain ⟨rid, _, rfl⟩ := map_ok ho
        refine ⟨rfl, fun h => ?_⟩
        show ((L.publicDer alg (cfg.ks.commLen - 8) obj).toOption.getD []).length ≤ n
        cases hp : L.publicDer alg (cfg.ks.commLen - 8) obj with
        | error e => exact Nat.zero_le _
        | ok b => exact h.publicDer _ _ _ _ hp

theorem yields_rsa {n : Nat} (op : RsaOp) (id : UInt16) (ev : Bool) (input : List UInt8) (outLen : Nat) (coins : List UInt8) :
    Yields (Short L n 4) (Crypto.rsaFunction cfg L v op id ev input outLen coins) := by
  have fin : ∀ key : Except Rc (List UInt8), Yields (Short L n 4) (Crypto.evictOpt cfg v true ev id
      (.done (key.bind fun k => (L.rsa op outLen k input coins).map fun out => { fixed := 4, body := out }))) := by
    intro key
    refine yields_evict (yields_done fun o ho => ?_)
    obtain ⟨k, _, hk⟩ := bind_ok ho
    obtain ⟨b, hb, rfl⟩ := map_ok hk
    exact ⟨rfl, fun h => h.rsa _ _ _ _ _ _ hb⟩
  unfold Crypto.rsaFunction
  refine yields_load fun x => ?_
  split
  · exact yields_load fin
  · exact fin _

theorem yields_secret {n : Nat} (alg : Alg) (opts : Nat) (prv pub : UInt16) (a b : Bool) (id flags : UInt16)
    (label : Vector UInt8 24) : Yields (Short L n 8) (Crypto.sharedSecret cfg L v alg opts prv pub a b id flags label) := by
  unfold Crypto.sharedSecret
  refine yields_load fun x => ?_
  cases x with
  | error e => exact yields_two fun o ho => by cases ho
  | ok k1 =>
    refine yields_load fun y => ?_
    cases y with
    | error e => exact yields_two fun o ho => by cases ho
    | ok k2 =>
      dsimp only
      split
      · exact yields_two fun o ho => by cases ho
      · rename_i z hz
        split
        · refine yields_two fun o ho => ?_
          injection ho with ho; subst ho
          exact ⟨rfl, fun h => h.secret _ _ _ _ _ _ hz⟩
        · refine yields_store fun w => ?_
          cases w with
          | error e => exact yields_two fun o ho => by cases ho
          | ok rid =>
            refine yields_two fun o ho => ?_
            injection ho with ho; subst ho
            exact ⟨rfl, fun _ => Nat.zero_le _⟩

theorem yields_sign {n : Nat} (alg : Alg) (id : UInt16) (ev : Bool) (opts : Nat) (msg ctx coins : List UInt8) :
    Yields (Short L n (Crypto.sigFixed alg)) (Crypto.sign cfg L v alg id ev opts msg ctx coins) := by
  refine yields_useOne fun k o ho => ?_
  split at ho
  · cases ho
  · rename_i sig hsig
    split at ho
    · cases ho
    · injection ho with ho; subst ho
      exact ⟨rfl, fun hs => hs.sign _ _ _ _ _ _ _ _ hsig⟩

theorem yields_verify {n k : Nat} {alg : Alg} {exp : Bool} (hk : k = if alg = .ed25519 then 4 else 8) (id : UInt16) (ev : Bool)
    (opts : Nat) (sig msg ctx : List UInt8) : Yields (Short L n k) (Crypto.verify cfg L v alg id ev exp opts sig msg ctx) := by
  subst hk
  refine yields_useOne fun k o ho => ?_
  split at ho
  · cases ho
  · split at ho
    · rename_i hh
      obtain ⟨b, hb, rfl⟩ := map_ok ho
      exact ⟨by rw [hh.1]; rfl, fun hs => hs.publicFrom _ _ _ hb⟩
    · injection ho with ho; subst ho
      exact ⟨rfl, fun _ => Nat.zero_le _⟩

theorem yields_encaps {n : Nat} (params : List Nat) (id : UInt16) (ev : Bool) (coins : List UInt8) :
    Yields (Short L n 8) (Crypto.encaps cfg L v params id ev coins none) := by
  unfold Crypto.encaps
  split
  · exact yields_evict trivial
  · refine yields_useOne fun k o ho => ?_
    split at ho
    · cases ho
    · rename_i ct ss he
      dsimp only at ho
      split at ho
      · cases ho
      · injection ho with ho; subst ho
        exact ⟨rfl, fun hs => by
          have := hs.encaps _ _ _ _ _ he
          show (ct ++ ss).length ≤ n
          rw [List.length_append]; exact this⟩

theorem yields_decaps {n : Nat} (params : List Nat) (id : UInt16) (ev : Bool) (ct : List UInt8) :
    Yields (Short L n 8) (Crypto.decaps cfg L v params id ev ct none) := by
  unfold Crypto.decaps
  split
  · exact yields_evict trivial
  · refine yields_useOne fun k o ho => ?_
    dsimp only at ho
    split at ho
    · cases ho
    · rename_i ss he
      split at ho
      · cases ho
      · injection ho with ho; subst ho
        exact ⟨rfl, fun hs => hs.decaps _ _ _ _ he⟩

theorem yields_deliver {n : Nat} {id flags : UInt16} {label : Vector UInt8 24} {okm : Except Rc (List UInt8)}
    (h : ∀ b, okm = .ok b → Small L n → b.length ≤ n) : Yields (Short L n 8) (Crypto.deliver id flags label okm) := by
  unfold Crypto.deliver
  split
  · trivial
  · rename_i b
    split
    · exact ⟨rfl, h b rfl⟩
    · refine yields_store fun x => yields_done fun o ho => ?_
      obtain ⟨_, _, rfl⟩ := map_ok ho
      exact ⟨rfl, fun _ => Nat.zero_le _⟩

theorem yields_hkdf {n : Nat} (hn : cfg.ks.commLen - 20 = n) (idIn idOut flags : UInt16) (label : Vector UInt8 24)
    (hash : Nat) (inKey salt info : List UInt8) (outSz : Nat) :
    Yields (Short L n 8) (Crypto.hkdf cfg L v idIn idOut flags label hash inKey salt info outSz) := by
  have go : ∀ ikm : List UInt8, Yields (Short L n 8) (if outSz > cfg.ks.commLen - 20 then .done (.error .badargs)
      else Crypto.deliver idOut flags label (L.hkdf hash (48 + inKey.length + salt.length) ikm salt info outSz)) := by
    intro ikm
    split
    · trivial
    · exact yields_deliver fun b hb hs => by have := hs.hkdf _ _ _ _ _ _ _ hb; omega
  unfold Crypto.hkdf
  dsimp only
  split
  · refine yields_read fun x => ?_
    cases x with
    | error e => trivial
    | ok k => exact go k
  · exact go _

theorem yields_kdfInput {inline : List UInt8} {id : UInt16} {size : Nat} {k : List UInt8 → Prog} (h : ∀ b, Yields Q (k b)) :
    Yields Q (Crypto.kdfInput cfg v inline id size k) := by
  unfold Crypto.kdfInput
  split
  · split
    · trivial
    · refine yields_read fun x => ?_
      cases x with
      | error e => trivial
      | ok b => exact h b
  · exact h _

theorem yields_cmacKdf {n : Nat} (hn : cfg.ks.commLen - 20 = n) (idS idZ idOut flags : UInt16) (label : Vector UInt8 24)
    (salt z info : List UInt8) (outSz : Nat) :
    Yields (Short L n 8) (Crypto.cmacKdf cfg L v idS idZ idOut flags label salt z info outSz) := by
  unfold Crypto.cmacKdf
  refine yields_kdfInput fun _ => yields_kdfInput fun _ => ?_
  split
  · trivial
  · exact yields_deliver fun b hb hs => by have := hs.cmacKdf _ _ _ _ _ _ hb; omega

theorem yields_cmac {n : Nat} (id : UInt16) (key state input : List UInt8) (outSz : Nat) :
    Yields (fun o => o.fixed = 48 ∧ (Small L n → o.body.length ≤ 16)) (Crypto.cmac L id key state input outSz) := by
  have fin : ∀ x : Except Rc (List UInt8), Yields (fun o => o.fixed = 48 ∧ (Small L n → o.body.length ≤ 16))
      (.done (x.bind (Crypto.cmacWith L id 48 state input outSz (input ≠ [] && outSz ≠ 0)))) := by
    intro x
    refine yields_done fun o ho => ?_
    obtain ⟨k, _, hk⟩ := bind_ok ho
    unfold Crypto.cmacWith at hk
    split at hk
    · obtain ⟨b, hb, rfl⟩ := map_ok hk
      exact ⟨rfl, fun h => h.cmac _ _ _ _ hb⟩
    · split at hk
      · obtain ⟨b, hb, rfl⟩ := map_ok hk
        exact ⟨rfl, fun h => h.cmacFinal _ _ _ _ _ hb⟩
      · obtain ⟨b, hb, rfl⟩ := map_ok hk
        exact ⟨rfl, fun h => Nat.zero_le _⟩
  unfold Crypto.cmac Crypto.cmacKey
  dsimp only
  split
  · exact fin _
  · split
    · exact fin _
    · refine yields_read fun x => ?_
      split
      · exact yields_read fun _ => fin _
      · exact fin _

/-- The response of an AES request. -/
def AesShort (L : Lib) (n : Nat) (cfg : Crypto.Cfg) (mode : AesMode) (enc : Bool) (input extra : List UInt8) (o : Crypto.Out) : Prop :=
  o.fixed = Crypto.aesFixed mode ∧ (Small L n → o.body.length = input.length + tailSize enc extra mode ∧
    (mode = .gcm → input.length < 65536 → 28 + o.body.length ≤ cfg.ks.commLen - 12))

theorem yields_aes {n : Nat} (mode : AesMode) (enc : Bool) (id : UInt16) (key input extra : List UInt8) (left tagLen : Nat)
    (ht : mode = .gcm → gcmTag extra = tagLen) :
    Yields (AesShort L n cfg mode enc input extra) (Crypto.aes cfg L v mode enc id key input extra left tagLen) := by
  unfold Crypto.aes
  by_cases hg : mode = .gcm ∧ (28 + input.length + (if enc then tagLen else 0)) % 4294967296 > cfg.ks.commLen - 12
  · rw [if_pos hg]; trivial
  rw [if_neg hg]
  dsimp only
  have fin : ∀ x : Except Rc (List UInt8), Yields (AesShort L n cfg mode enc input extra)
      (.done ((Crypto.aesWith L mode enc left input extra x).map fun (out, tail) =>
        { fixed := Crypto.aesFixed mode, res := if mode = .ctr then L.aesLeft left input.length else 0,
          body := out ++ tail })) := by
    intro x
    refine yields_done fun o ho => ?_
    obtain ⟨⟨out, tail⟩, hb, rfl⟩ := map_ok ho
    refine ⟨rfl, fun hs => ?_⟩
    have ha : ∃ k, L.aes mode enc left k input extra = .ok (out, tail) := by
      unfold Crypto.aesWith at hb
      split at hb
      · cases hb
      · split at hb
        · cases hb
        · split at hb
          · cases hb
          · exact ⟨_, hb⟩
    obtain ⟨k, ha⟩ := ha
    have hl := hs.aes _ _ _ _ _ _ _ _ ha
    have hlen : (out ++ tail).length = input.length + tailSize enc extra mode := by
      rw [List.length_append, hl.1, hl.2]
    refine ⟨hlen, fun hm hi => ?_⟩
    show 28 + (out ++ tail).length ≤ _
    rw [hlen]
    subst hm
    have hg' : ¬ (28 + input.length + (if enc then tagLen else 0)) % 4294967296 > cfg.ks.commLen - 12 := fun h => hg ⟨rfl, h⟩
    cases enc with
    | true =>
      have h16 := hs.tag _ _ _ _ _ ha
      rw [if_pos rfl, ← ht rfl, Nat.mod_eq_of_lt (by omega)] at hg'
      show 28 + (input.length + gcmTag extra) ≤ _
      omega
    | false =>
      rw [if_neg (by decide), Nat.mod_eq_of_lt (by omega)] at hg'
      show 28 + (input.length + 0) ≤ _
      omega
  split
  · exact fin _
  · exact yields_read fin

end yields

/-! ## The decoded request and its response -/

/-- Bytes of the response structure. -/
def respSize : Op → Nat
  | .aes m => Crypto.aesFixed m
  | .keyGen _ | .secretEcc | .secret25519 | .signMlDsa | .verifyEcc | .verifyMlDsa | .encaps | .decaps | .hkdf | .cmacKdf => 8
  | .cmac => 48
  | _ => 4

theorem sized_ok {α : Type} {r : Req} {n : Nat} {k : Except Rc α} {t : α} (h : sized r n k = .ok t) : n ≤ inSize r ∧ k = .ok t := by
  unfold sized at h
  by_cases hn : inSize r < n
  · rw [if_pos hn] at h; cases h
  · rw [if_neg hn] at h; exact ⟨by omega, h⟩

theorem fits_ok {α : Type} {p : Prop} [Decidable p] {k : Except Rc α} {t : α} (h : fits p k = .ok t) : p ∧ k = .ok t := by
  unfold fits at h
  by_cases hp : p
  · rw [if_pos hp] at h; exact ⟨hp, h⟩
  · rw [if_neg hp] at h; cases h

theorem keys_inj {q q' : Crypto.Req} (h : (Except.ok (Todo.keys q) : Except Rc Todo) = .ok (.keys q')) : q = q' := by
  injection h with h; injection h

theorem gcmTag_extra (a b c : UInt32) (x : List UInt8) : gcmTag (gcmExtra a b c x) = c.toNat := by
  unfold gcmTag gcmExtra
  have h : ((Utils.bytes32 true a ++ Utils.bytes32 true b ++ Utils.bytes32 true c ++ x).drop 8).take 4 = Utils.bytes32 true c := by
    rw [List.append_assoc]
    exact take_at (by rw [List.length_append, bytes32_len, bytes32_len]) (bytes32_len ..)
  rw [h, Utils.read32_bytes32]
  rfl

/-- The response to a decoded request fits, if the library's results leave room. -/
def Good (cfg : Cfg) (r : Req) (op : Op) (o : Crypto.Out) : Prop :=
  o.fixed = respSize op ∧ ∀ dataLen, Roomy cfg dataLen → r.size ≤ dataLen → 12 + o.fixed + o.body.length ≤ dataLen

theorem Short.good {cfg : Cfg} {r : Req} {op : Op} {o : Crypto.Out} {k : Nat} (hk : k = respSize op) (h8 : k ≤ 8)
    (h : ∀ n, Short cfg.lib n k o) : Good cfg r op o := by
  refine ⟨(h 0).1.trans hk, fun d hr hd => ?_⟩
  have := (h (d - 20)).2 hr.small
  have := (h 0).1
  have := hr.room
  omega

theorem yields_mono {Q Q' : Crypto.Out → Prop} (h : ∀ o, Q o → Q' o) : ∀ p : Prog, Yields Q p → Yields Q' p
  | .done (.ok o), hp => h o hp
  | .done (.error _), _ => trivial
  | .call _ _ k, hp => fun a => yields_mono h (k a) (hp a)

theorem yields_all {Q : Nat → Crypto.Out → Prop} : ∀ p : Prog, (∀ n, Yields (Q n) p) → Yields (fun o => ∀ n, Q n o) p
  | .done (.ok _), hp => fun n => hp n
  | .done (.error _), _ => trivial
  | .call _ _ k, hp => fun a => yields_all (k a) fun n => hp n a

theorem str_length_le (r : Req) (i n : Nat) : (str r i n).length ≤ n := by
  unfold str rdBytes; rw [List.length_take]; omega

variable {cfg : Cfg} {v : Srv} {r : Req}

theorem good_aes {coins : List UInt8} {m : AesMode} {q : Crypto.Req}
    (h : decode cfg.codes cfg.le coins r (.aes m) = .ok (.keys q)) :
    Yields (Good cfg r (.aes m)) (Crypto.handler cfg.crypto cfg.lib v q) := by
  cases m with
  | gcm =>
    obtain ⟨h0, h⟩ := sized_ok h
    obtain ⟨h1, h⟩ := fits_ok h
    have h := keys_inj h
    subst h
    have hy := fun n => yields_aes (cfg := cfg.crypto) (L := cfg.lib) (v := v) (n := n) .gcm (u32 cfg.le r 0 != 0) (u16 cfg.le r 24)
      (str r (28 + len cfg.le r 2) (len cfg.le r 1)) (str r 28 (len cfg.le r 2))
      (gcmExtra (u32 cfg.le r 3) (u32 cfg.le r 4) (u32 cfg.le r 5) (str r (28 + len cfg.le r 2 + len cfg.le r 1)
        (len cfg.le r 3 + len cfg.le r 4 + if u32 cfg.le r 0 != 0 then 0 else len cfg.le r 5)))
      0 (len cfg.le r 5) (fun _ => gcmTag_extra ..)
    refine yields_mono (fun o ho => ?_) _ (yields_all _ hy)
    refine ⟨(ho 0).1, fun d hr hd => ?_⟩
    have h2 := ((ho (d - 20)).2 hr.small).2 rfl
    have h3 := str_length_le r 28 (len cfg.le r 2)
    have h4 := (ho 0).1
    have h4 : o.fixed = 28 := h4
    have := hr.short
    have := hr.room
    have hc := hr.comm
    unfold inSize at h1
    have h2 := h2 (by omega)
    omega
  | ctr | ecb | cbc =>
    obtain ⟨h0, h⟩ := sized_ok h
    obtain ⟨h1, h⟩ := fits_ok h
    have h := keys_inj h
    subst h
    refine yields_mono (fun o ho => ?_) _ (yields_all _ fun n => yields_aes (L := cfg.lib) (n := n) _ _ _ _ _ _ _ _ (by intro h; cases h))
    refine ⟨(ho 0).1, fun d hr hd => ?_⟩
    have h2 := ((ho (d - 20)).2 hr.small).1
    rw [(ho 0).1, h2]
    unfold inSize at h1
    simp only [tailSize, Crypto.aesFixed] at *
    have h3 := str_length_le r 20 (len cfg.le r 2)
    have h4 := str_length_le r 16 (len cfg.le r 2)
    omega

theorem good_short {op : Op} {p : Prog} (h8 : respSize op ≤ 8) (h : ∀ n, Yields (Short cfg.lib n (respSize op)) p) :
    Yields (Good cfg r op) p :=
  yields_mono (fun _ ho => Short.good rfl h8 ho) _ (yields_all _ h)

theorem good_kdf {op : Op} {p : Prog} (h8 : respSize op = 8) (h : Yields (Short cfg.lib (cfg.crypto.ks.commLen - 20) 8) p) :
    Yields (Good cfg r op) p := by
  refine yields_mono (fun o ho => ?_) _ h
  refine ⟨ho.1.trans h8.symm, fun d hr hd => ?_⟩
  have h1 := ho.1
  have h2 := ho.2 (by rw [hr.comm]; exact hr.small)
  rw [hr.comm] at h2
  have := hr.room
  omega

theorem good_handler {coins : List UInt8} {op : Op} {q : Crypto.Req}
    (h : decode cfg.codes cfg.le coins r op = .ok (.keys q)) :
    Yields (Good cfg r op) (Crypto.handler cfg.crypto cfg.lib v q) := by
  cases op with
  | aes m => exact good_aes h
  | keyGen a =>
    have : ∃ id flags label params, q = .keyGen a id flags label params coins := by
      cases a <;> (obtain ⟨_, h⟩ := sized_ok h; exact ⟨_, _, _, _, (keys_inj h).symm⟩)
    obtain ⟨id, flags, label, params, rfl⟩ := this
    exact good_short (Nat.le_refl 8) fun n => yields_keyGen ..
  | rsa =>
    obtain ⟨_, h⟩ := sized_ok h
    obtain ⟨_, h⟩ := fits_ok h
    cases ho : cfg.codes.rsaOp (u32 cfg.le r 0) with
    | none => rw [ho] at h; cases h
    | some op =>
      rw [ho] at h
      have h := keys_inj h; subst h
      exact good_short (by decide) fun n => yields_rsa ..
  | rsaGetSize =>
    obtain ⟨_, h⟩ := sized_ok h
    have h := keys_inj h; subst h
    refine good_short (by decide) fun n => yields_useOne fun k o ho => ?_
    obtain ⟨b, hb, rfl⟩ := map_ok ho
    exact ⟨rfl, fun _ => Nat.zero_le _⟩
  | secretEcc | secret25519 =>
    obtain ⟨_, h⟩ := sized_ok h
    have h := keys_inj h; subst h
    exact good_short (by decide) fun n => yields_secret ..
  | signEcc =>
    obtain ⟨_, h⟩ := sized_ok h
    obtain ⟨_, h⟩ := fits_ok h
    have h := keys_inj h; subst h
    exact good_short (by decide) fun n => yields_sign .ecc ..
  | signMlDsa =>
    obtain ⟨_, h⟩ := sized_ok h
    obtain ⟨_, h⟩ := fits_ok h
    obtain ⟨_, h⟩ := fits_ok h
    obtain ⟨_, h⟩ := fits_ok h
    have h := keys_inj h; subst h
    exact good_short (by decide) fun n => yields_sign .mldsa ..
  | signEd =>
    obtain ⟨_, h⟩ := sized_ok h
    obtain ⟨_, h⟩ := fits_ok h
    obtain ⟨_, h⟩ := fits_ok h
    obtain ⟨_, h⟩ := fits_ok h
    obtain ⟨_, h⟩ := fits_ok h
    obtain ⟨_, h⟩ := fits_ok h
    have h := keys_inj h; subst h
    exact good_short (by decide) fun n => yields_sign .ed25519 ..
  | verifyEcc =>
    obtain ⟨_, h⟩ := sized_ok h
    obtain ⟨_, h⟩ := fits_ok h
    obtain ⟨_, h⟩ := fits_ok h
    have h := keys_inj h; subst h
    exact good_short (by decide) fun n => yields_verify (by decide) ..
  | verifyMlDsa =>
    obtain ⟨_, h⟩ := sized_ok h
    obtain ⟨_, h⟩ := fits_ok h
    obtain ⟨_, h⟩ := fits_ok h
    obtain ⟨_, h⟩ := fits_ok h
    have h := keys_inj h; subst h
    exact good_short (by decide) fun n => yields_verify (by decide) ..
  | verifyEd =>
    obtain ⟨_, h⟩ := sized_ok h
    obtain ⟨_, h⟩ := fits_ok h
    obtain ⟨_, h⟩ := fits_ok h
    obtain ⟨_, h⟩ := fits_ok h
    obtain ⟨_, h⟩ := fits_ok h
    obtain ⟨_, h⟩ := fits_ok h
    have h := keys_inj h; subst h
    exact good_short (by decide) fun n => yields_verify (by decide) ..
  | makePub =>
    obtain ⟨_, h⟩ := sized_ok h
    have h := keys_inj h; subst h
    refine good_short (by decide) fun n => yields_useOne fun k o ho => ?_
    obtain ⟨b, hb, rfl⟩ := map_ok ho
    exact ⟨rfl, fun hs => hs.makePub _ _ _ _ hb⟩
  | checkPub =>
    obtain ⟨_, h⟩ := sized_ok h
    obtain ⟨_, h⟩ := fits_ok h
    have h := keys_inj h; subst h
    refine good_short (by decide) fun n => yields_useOne fun k o ho => ?_
    obtain ⟨b, hb, rfl⟩ := map_ok ho
    exact ⟨rfl, fun _ => Nat.zero_le _⟩
  | encaps =>
    obtain ⟨_, h⟩ := sized_ok h
    have h := keys_inj h; subst h
    refine good_short (by decide) fun n => ?_
    exact yields_encaps ..
  | decaps =>
    obtain ⟨_, h⟩ := sized_ok h
    have h := keys_inj h; subst h
    refine good_short (by decide) fun n => ?_
    by_cases hc : len cfg.le r 3 ≤ inSize r - 16
    · rw [if_pos hc]
      exact yields_decaps ..
    · rw [if_neg hc]
      exact yields_evict trivial
  | hkdf =>
    obtain ⟨_, h⟩ := sized_ok h
    obtain ⟨_, h⟩ := fits_ok h
    obtain ⟨_, h⟩ := fits_ok h
    obtain ⟨_, h⟩ := fits_ok h
    have h := keys_inj h; subst h
    exact good_kdf rfl (yields_hkdf rfl ..)
  | cmacKdf =>
    obtain ⟨_, h⟩ := sized_ok h
    obtain ⟨_, h⟩ := fits_ok h
    obtain ⟨_, h⟩ := fits_ok h
    obtain ⟨_, h⟩ := fits_ok h
    have h := keys_inj h; subst h
    exact good_kdf rfl (yields_cmacKdf rfl ..)
  | cmac =>
    obtain ⟨_, h⟩ := sized_ok h
    obtain ⟨_, h⟩ := fits_ok h
    obtain ⟨_, h⟩ := fits_ok h
    obtain ⟨_, h⟩ := fits_ok h
    have h := keys_inj h; subst h
    refine yields_mono (fun o ho => ?_) _ (yields_all _ fun n => yields_cmac (L := cfg.lib) (n := n) ..)
    refine ⟨(ho 0).1, fun d hr hd => ?_⟩
    have := (ho (d - 20)).2 hr.small
    have := (ho 0).1
    have := hr.room
    omega
  | rng =>
    obtain ⟨_, h⟩ := sized_ok h
    injection h with h; cases h
  | sha256 | sha384 | sha512 | sha3 =>
    obtain ⟨_, h⟩ := sized_ok h
    obtain ⟨_, h⟩ := fits_ok h
    injection h with h; cases h

theorem header_length (le : Bool) (r : Req) (rc : Rc) : (header le r rc).length = 12 := by
  unfold header; simp [w32_length]

theorem num_length (le : Bool) (r : Req) (n : Nat) : (num le r n).length = 4 := w32_length ..

theorem stateOut_length (le : Bool) (r : Req) (st : List UInt8) : (stateOut le r st).length = 40 := by
  unfold stateOut
  simp only [List.length_append, w32_length, List.length_take, List.length_replicate]
  omega

theorem hash64_length (h : List UInt8) : (hash64 h).length = 64 := by
  unfold hash64
  simp only [List.length_append, List.length_take, List.length_replicate]
  omega

theorem fieldsOf_length (le : Bool) (r : Req) (op : Op) (o : Crypto.Out) : (fieldsOf le r op o).length ≤ respSize op := by
  cases op with
  | aes m => cases m <;> simp [fieldsOf, respSize, Crypto.aesFixed, num_length]
  | _ => simp [fieldsOf, respSize, num_length, w32_length, w16_length, stateOut_length]

theorem reply_length {le : Bool} {r : Req} {f body : List UInt8} {n : Nat} (h : f.length ≤ n) :
    (reply le r f n body).length = 12 + n + body.length := by
  unfold reply
  rw [List.length_append, over_length (by rw [List.length_append, header_length]; omega)]

theorem flat64_length (le : Bool) (m : UInt16) : ∀ l : List UInt64, (l.flatMap (w64 le m)).length = 8 * l.length
  | [] => rfl
  | v :: l => by rw [List.flatMap_cons, List.length_append, w64_length, flat64_length le m l, List.length_cons]; omega

theorem sha2_length (cfg : Cfg) (r : Req) (t : UInt32) (last : Bool) (hi lo : UInt32) (d b : List UInt8) :
    (sha2 cfg r t last hi lo d b).length ≤ 88 := by
  have out : ∀ (hi lo : UInt32) (h : List UInt8), (reply cfg.le r (w32 cfg.le r.magic hi ++ w32 cfg.le r.magic lo ++ hash64 h ++
      w32 cfg.le r.magic t) 76 []).length ≤ 88 := by
    intro hi lo h
    rw [reply_length (by simp [w32_length, hash64_length])]
    simp
  unfold sha2
  dsimp only
  split
  · split
    · rw [header_length]; omega
    · exact out ..
  · split
    · rw [header_length]; omega
    · exact out ..

theorem sha3_length (cfg : Cfg) (r : Req) (block : Nat) (last : Bool) (st : List UInt64) (b : List UInt8) :
    (sha3 cfg r block last st b).length ≤ 276 := by
  have out : ∀ (st : List UInt64) (h : List UInt8),
      (reply cfg.le r (((st ++ List.replicate 25 0).take 25).flatMap (w64 cfg.le r.magic) ++ hash64 h) 264 []).length ≤ 276 := by
    intro st h
    rw [reply_length (by
      rw [List.length_append, hash64_length, flat64_length, List.length_take, List.length_append, List.length_replicate]
      omega)]
    simp
  unfold sha3
  dsimp only
  split
  · split
    · rw [header_length]; omega
    · exact out ..
  · split
    · rw [header_length]; omega
    · exact out ..

/-- Responses fit the packet. -/
theorem handle_fits {dataLen : Nat} (h : Roomy cfg dataLen) {e : Env} (he : e.Fair) (hz : r.size ≤ dataLen) (s : Sys) :
    (handle cfg v e r s).1.length ≤ dataLen := by
  have h510 := h.room
  unfold handle
  by_cases hs : r.size < 12
  · rw [if_pos hs]
    show r.data.length ≤ _
    unfold Req.data
    rw [List.length_take]; omega
  rw [if_neg hs]
  have hh : ∀ rc, (header cfg.le r rc).length ≤ dataLen := fun rc => by rw [header_length]; omega
  split
  · exact hh _
  · rename_i op _
    split
    · exact hh _
    · rename_i q hq
      split
      · rename_i a s' ha
        cases a with
        | error rc => exact hh _
        | ok o =>
          have hg := yields_exec _ _ _ (good_handler (cfg := cfg) (v := v) hq) ha
          show (reply cfg.le r (fieldsOf cfg.le r op o) o.fixed o.body).length ≤ _
          rw [reply_length (by rw [hg.1]; exact fieldsOf_length ..)]
          exact hg.2 _ h hz
      · exact Nat.zero_le _
    · rename_i sz _
      show (rng cfg e r sz).length ≤ _
      unfold rng
      split
      · exact hh _
      · rename_i b hb
        rw [reply_length (by rw [num_length])]
        have := he _ _ hb
        have := h.comm
        omega
    · have := sha2_length cfg r
      rename_i t last hi lo d b _
      have := this t last hi lo d b
      show (sha2 ..).length ≤ _
      omega
    · have := sha3_length cfg r
      rename_i bl last st b _
      have := this bl last st b
      show (sha3 ..).length ≤ _
      omega

/-! ## Responses depend on the received bytes -/

theorem over_take {f b b' : List UInt8} {n k : Nat} (hb : b'.take k = b.take k) (hn : n ≤ k) : over f b' n = over f b n := by
  have h : ∀ b : List UInt8, ((b ++ List.replicate n 0).drop f.length).take (n - f.length) =
      ((b.take k ++ List.replicate n 0).drop f.length).take (n - f.length) := by
    intro b
    by_cases hl : b.length ≤ k
    · rw [List.take_of_length_le hl]
    · rw [List.take_drop, List.take_drop]
      by_cases hf : f.length ≤ n
      · rw [Nat.add_sub_cancel' hf, List.take_append_of_le_length (by omega),
          List.take_append_of_le_length (by rw [List.length_take]; omega), List.take_take, Nat.min_eq_left hn]
      · rw [Nat.sub_eq_zero_of_le (by omega), Nat.add_zero]
        rw [List.drop_eq_nil_of_le (by rw [List.length_take]; omega), List.drop_eq_nil_of_le (by rw [List.length_take]; omega)]
  unfold over
  rw [h b', h b, hb]

theorem over_full {f b b' : List UInt8} {n : Nat} (hf : n ≤ f.length) : over f b' n = over f b n := by
  unfold over
  rw [Nat.sub_eq_zero_of_le hf, List.take_zero, List.take_zero]

section same

variable {le : Bool} {r' : Req}

theorem header_same (h : Same r r') (hz : 12 ≤ r.size) (rc : Rc) : header le r' rc = header le r rc := by
  unfold header
  rw [h.magic, rd32_eq h.data (by omega)]

theorem reply_same (h : Same r r') (hz : 12 ≤ r.size) {f body : List UInt8} {n : Nat} (hn : 12 + n ≤ r.size ∨ n ≤ f.length) :
    reply le r' f n body = reply le r f n body := by
  unfold reply
  rw [header_same h hz]
  rcases hn with hn | hn
  · rw [over_take h.data hn]
  · rw [over_full (b := r.buf) (b' := r'.buf) (by rw [List.length_append, header_length]; omega)]

theorem decode_ok_size {c : Codes} {coins : List UInt8} {op : Op} {t : Todo} (h : decode c le coins r op = .ok t) :
    structSize op ≤ inSize r := by
  by_cases hd : op = .decaps
  · subst hd; exact (sized_ok h).1
  · by_cases hc : Complete le r op
    · have := hc.1; unfold inSize; omega
    · rw [decode_incomplete c coins hc hd] at h; cases h

theorem respSize_le : ∀ op : Op, respSize op ≤ structSize op := by
  intro op
  cases op with
  | aes m => cases m <;> decide
  | keyGen a => cases a <;> decide
  | sha256 | sha384 | sha3 => simp [respSize, structSize]
  | _ => decide

theorem num_same (h : Same r r') (n : Nat) : num le r' n = num le r n := by unfold num; rw [h.magic]

theorem fieldsOf_same (h : Same r r') {op : Op} (hn : structSize op ≤ inSize r) (o : Crypto.Out) :
    fieldsOf le r' op o = fieldsOf le r op o := by
  cases op with
  | aes m =>
    have hw : ∀ i, 4 * i + 4 ≤ structSize (.aes m) → CryptoMsg.u32 le r' i = CryptoMsg.u32 le r i := Same.words h hn
    cases m with
    | gcm => simp only [fieldsOf, len, num_same h, hw 0 (by decide), hw 2 (by decide), hw 5 (by decide)]
    | _ => simp only [fieldsOf, len, num_same h, hw 2 (by decide)]
  | _ => simp only [fieldsOf, num_same h, h.magic, stateOut]

/-- Effect and response depend only on the received bytes. -/
theorem handle_same (h : Same r r') (v : Srv) (e : Env) (s : Sys) : handle cfg v e r' s = handle cfg v e r s := by
  unfold handle
  rw [h.size]
  by_cases hs : r.size < 12
  · rw [if_pos hs, if_pos hs]
    unfold Req.data
    rw [h.size, h.data]
  have hz : 12 ≤ r.size := by omega
  have hh : ∀ rc, header cfg.le r' rc = header cfg.le r rc := header_same h hz
  rw [if_neg hs, if_neg hs, h.action, h.magic, rd32_eq (a := cfg.le) (m := r.magic) h.data (off := 0) (by omega),
    rd32_eq (a := cfg.le) (m := r.magic) h.data (off := 4) (by omega)]
  cases cfg.codes.select r.action (rd32 cfg.le r.magic r.buf 0) (rd32 cfg.le r.magic r.buf 4) with
  | error rc => dsimp only; rw [hh]
  | ok op =>
    dsimp only
    rw [decode_same cfg.codes h]
    cases hq : decode cfg.codes cfg.le e.coins r op with
    | error rc => dsimp only; rw [hh]
    | ok t =>
      have hn := decode_ok_size hq
      cases t with
      | keys q =>
        dsimp only
        cases ha : exec cfg.crypto.ks v e.locks 0 (Crypto.handler cfg.crypto cfg.lib v q) s with
        | mk a s' =>
          cases a with
          | none => rfl
          | some a =>
            cases a with
            | error rc => dsimp only [encode]; rw [hh]
            | ok o =>
              have hg := yields_exec _ _ _ (good_handler (cfg := cfg) (v := v) hq) ha
              dsimp only [encode]
              rw [fieldsOf_same h hn, reply_same h hz (.inl (by
                have := respSize_le op
                rw [hg.1]; unfold inSize at hn; omega))]
      | rng sz =>
        dsimp only
        unfold rng
        cases e.random (min sz (cfg.crypto.ks.commLen - 16)) with
        | error rc => dsimp only; rw [hh]
        | ok b => dsimp only; rw [num_same h, reply_same h hz (.inr (by rw [num_length]))]
      | sha2 t last hi lo d b =>
        dsimp only
        have ho : ∀ (hi lo : UInt32) (x : List UInt8), reply cfg.le r' (w32 cfg.le r.magic hi ++ w32 cfg.le r.magic lo ++ hash64 x ++
            w32 cfg.le r.magic t) 76 [] = reply cfg.le r (w32 cfg.le r.magic hi ++ w32 cfg.le r.magic lo ++ hash64 x ++
            w32 cfg.le r.magic t) 76 [] := fun hi lo x => reply_same h hz (.inr (by simp [w32_length, hash64_length]))
        unfold sha2
        simp only [h.magic, ho, hh]
      | sha3 bl last st b =>
        dsimp only
        have ho : ∀ (st : List UInt64) (x : List UInt8),
            reply cfg.le r' (((st ++ List.replicate 25 0).take 25).flatMap (w64 cfg.le r.magic) ++ hash64 x) 264 [] =
            reply cfg.le r (((st ++ List.replicate 25 0).take 25).flatMap (w64 cfg.le r.magic) ++ hash64 x) 264 [] :=
          fun st x => reply_same h hz (.inr (by
            rw [List.length_append, hash64_length, flat64_length, List.length_take, List.length_append, List.length_replicate]
            omega))
        unfold sha3
        simp only [h.magic, ho, hh]

end same

end WolfHsm.CryptoMsg

import Verif.Spec.CryptoDma
import Verif.Proofs.CryptoMsg

/-!
# DMA crypto packets: what the handlers read, and how long their responses are
-/

namespace WolfHsm.CryptoDma

open Wire
open Server (Req)
open Crypto (Alg AesMode Prog Resp Lib)
open Keystore (Srv Sys)
open CryptoMsg (inSize u32 u16 len half opt str sized fits gcmExtra header reply num hash64 stateOut
  exec hashFits Hashes Same sized_same fits_same sized_err fits_err sized_ok fits_ok word word_eq Yields yields_exec
  yields_done yields_evict yields_store yields_useOne yields_read yields_load yields_mono map_ok bind_ok header_length
  num_length stateOut_length hash64_length reply_length flat64_length header_same reply_same num_same gcmTag tailSize gcmTag_extra)

section same

variable {le : Bool} {r r' : Req}

theorem buf_same (h : Same r r') {n : Nat} (hn : n ≤ inSize r) : ∀ off, off + 16 ≤ n → buf le r' off = buf le r off := by
  intro off hi
  unfold buf
  unfold inSize at hn
  rw [h.magic, rd64_eq h.data (by omega), rd64_eq h.data (by omega)]

set_option hygiene false in
/-- Structure fields agree. -/
macro "dfields" h:ident : tactic => `(tactic| (
  refine sized_same $h fun hn => ?_
  have hw := Same.words (le := le) $h hn
  have hh := Same.halves (le := le) $h hn
  have hb := buf_same (le := le) $h hn
  simp (config := { failIfUnchanged := false }) only [len, half, opt, hw, hh, hb, Same.inSize $h, Nat.reduceMul, Nat.reduceAdd, Nat.reduceLeDiff]
  try clear hw hh hb))

/-- Data behind the structure agree. -/
macro "dtails" h:ident : tactic => `(tactic| (
  repeat refine fits_same Iff.rfl fun _ => ?_
  repeat rw [Same.str $h (by omega)]))

theorem decodeAes_same (h : Same r r') (e : Env) (m : AesMode) : decodeAes le e r' m = decodeAes le e r m := by
  cases m <;> (unfold decodeAes; dfields h; dtails h)

theorem decodeKeyGen_same (kem : UInt32 → UInt64 × UInt64) (h : Same r r') (e : Env) (a : Alg) :
    decodeKeyGen kem le e r' a = decodeKeyGen kem le e r a := by
  unfold decodeKeyGen; dfields h; dtails h
  rfl

end same

theorem decode_same {cfg : Cfg} {r r' : Req} (h : Same r r') (e : Env) (op : Op) : decode cfg e r' op = decode cfg e r op := by
  generalize hle : cfg.le = le
  cases op with
  | aes m => exact decodeAes_same h e m
  | keyGenMlDsa => exact decodeKeyGen_same _ h e _
  | keyGenMlKem => exact decodeKeyGen_same _ h e _
  | sha256 t =>
    unfold decode; rw [hle]; dfields h
    refine fits_same Iff.rfl fun hf => fits_same Iff.rfl fun _ => ?_
    have hf := hf.1
    repeat rw [Same.str h (by omega)]
  | sha384 t =>
    unfold decode; rw [hle]; dfields h
    refine fits_same Iff.rfl fun hf => fits_same Iff.rfl fun _ => ?_
    have hf := hf.1
    repeat rw [Same.str h (by omega)]
  | sha512 =>
    unfold decode; rw [hle]; dfields h
    refine fits_same Iff.rfl fun hf => fits_same Iff.rfl fun _ => ?_
    have hf := hf.1
    repeat rw [Same.str h (by omega)]
  | sha3 block =>
    unfold decode; rw [hle]; dfields h
    refine fits_same Iff.rfl fun hf => fits_same Iff.rfl fun _ => ?_
    have hf := hf.1
    rw [Same.str h (by omega)]
    refine congrArg _ (congrArg (fun l => Todo.sha3 _ _ l _ _) (List.map_congr_left fun i hi => ?_))
    have hi := List.mem_range.1 hi
    have hz : 224 ≤ r.size - 12 := hn
    rw [h.magic]
    exact rd64_eq h.data (by omega)
  | sigGen a =>
    unfold decode; rw [hle]
    have hp : 104 ≤ inSize r → sigParam le r' a = sigParam le r a := by
      intro hn
      have hw := Same.words (le := le) h hn
      cases a with
      | lms =>
        simp only [sigParam, len, hw, Nat.reduceMul, Nat.reduceAdd, Nat.reduceLeDiff]
        rfl
      | xmss => unfold sigParam; rw [Same.str h (by omega)]
    refine sized_same h fun hn => ?_
    have hw := Same.words (le := le) h hn
    have hb := buf_same (le := le) h hn
    simp only [len, half, hw, hb, hp hn, Nat.reduceMul, Nat.reduceAdd, Nat.reduceLeDiff]
    rw [Same.str h (by omega)]
  | _ => unfold decode; rw [hle]; dfields h; dtails h

/-! ## Incomplete packets -/

theorem decode_incomplete {cfg : Cfg} {r : Req} (e : Env) {op : Op} (hc : ¬Complete cfg.le r op) :
    decode cfg e r op = .error .badargs := by
  unfold Complete at hc
  cases op with
  | aes m =>
    cases m with
    | gcm =>
      unfold decode decodeAes
      refine sized_err fun h0 => fits_err fun h1 => absurd ?_ hc
      have hw : (u32 cfg.le r 12 != 0) = false ↔ word cfg.le r 12 = 0 := by
        unfold word u32
        rw [bne_eq_false_iff_eq, ← UInt32.toNat_inj]
        rfl
      simp only [structSize, announced, inSize] at *
      cases he : (u32 cfg.le r 12 != 0) with
      | true =>
        have : ¬ word cfg.le r 12 = 0 := fun h => by rw [hw.2 h] at he; cases he
        rw [he, if_pos rfl] at h1
        rw [if_neg this]
        simp only [word_eq]
        omega
      | false =>
        rw [he, if_neg (by decide)] at h1
        rw [if_pos (hw.1 he)]
        simp only [word_eq]
        omega
    | _ =>
      unfold decode decodeAes
      refine sized_err fun h0 => fits_err fun h1 => absurd ?_ hc
      simp only [structSize, announced, word_eq, inSize] at *
      omega
  | keyGenMlDsa | keyGenMlKem =>
    unfold decode decodeKeyGen
    refine sized_err fun h0 => absurd ?_ hc
    simp only [structSize, announced, inSize] at *
    omega
  | sha256 | sha384 | sha512 | sha3 =>
    unfold decode
    refine sized_err fun h0 => fits_err fun h1 => absurd ?_ hc
    have h1 := h1.1
    simp only [structSize, announced, word_eq, inSize] at *
    omega
  | _ =>
    unfold decode
    refine sized_err fun h0 => ?_
    repeat refine fits_err fun _ => ?_
    refine absurd ?_ hc
    simp only [structSize, announced, word_eq, inSize] at *
    omega

theorem decode_ok_size {cfg : Cfg} {r : Req} {e : Env} {op : Op} {t : Todo} (h : decode cfg e r op = .ok t) :
    structSize op ≤ inSize r := by
  by_cases hc : Complete cfg.le r op
  · have := hc.1; unfold inSize; omega
  · rw [decode_incomplete e hc] at h; cases h

/-! ## Length of responses -/

/-- Bytes of the response structure of the operations on the key store. -/
def respSize : Op → Nat
  | .cmac => 64
  | _ => 24

/-- The response to a decoded request fits, if the library's results leave room. -/
def Good (cfg : Cfg) (op : Op) (o : Crypto.Out) : Prop :=
  o.fixed = respSize op ∧ ∀ dataLen, Roomy cfg dataLen → 12 + o.fixed + o.body.length ≤ dataLen

theorem good_nil {cfg : Cfg} {op : Op} {o : Crypto.Out} (hf : o.fixed = respSize op) (hb : o.body = []) : Good cfg op o := by
  refine ⟨hf, fun d hr => ?_⟩
  rw [hf, hb]
  have := hr.room
  cases op <;> simp [respSize] <;> omega

theorem keys_inj {q q' : Crypto.Req} (h : (Except.ok (Todo.keys q) : Except Rc Todo) = .ok (.keys q')) : q = q' := by
  injection h with h; injection h

variable {cfg : Cfg} {v : Srv} {r : Req}

theorem good_keyGen {op : Op} (ho : respSize op = 24) (alg : Alg) (id flags : UInt16) (label : Vector UInt8 24)
    (params : List Nat) (coins : List UInt8) (sz : UInt64) (pre post : Rc) :
    Yields (Good cfg op) (Crypto.keyGenDma cfg.base.crypto cfg.base.lib v alg id flags label params coins sz pre post) := by
  unfold Crypto.keyGenDma
  split
  · trivial
  · split
    · trivial
    · split
      · split
        · split
          · trivial
          · split
            · exact good_nil ho.symm rfl
            · trivial
        · trivial
      · refine yields_store fun x => ?_
        cases x with
        | error rc => trivial
        | ok rid =>
          dsimp only
          split
          · exact good_nil ho.symm rfl
          · exact yields_evict trivial

theorem good_signDma {op : Op} (ho : respSize op = 24) (alg : Alg) (id : UInt16) (ev : Bool) (opts : Nat)
    (msg ctx coins : List UInt8) (n : Nat) (pre : Rc) :
    Yields (Good cfg op) (Crypto.signDma cfg.base.crypto cfg.base.lib v alg id ev opts msg ctx coins n pre) := by
  unfold Crypto.signDma
  split
  · exact yields_evict trivial
  · refine yields_useOne fun k o h => ?_
    split at h
    · obtain ⟨b, hb, rfl⟩ := map_ok h
      exact good_nil ho.symm rfl
    · cases h

theorem good_verifyDma {op : Op} (ho : respSize op = 24) (alg : Alg) (id : UInt16) (ev : Bool) (opts : Nat)
    (sig msg ctx : List UInt8) (pre : Rc) :
    Yields (Good cfg op) (Crypto.verifyDma cfg.base.crypto cfg.base.lib v alg id ev opts sig msg ctx pre) := by
  unfold Crypto.verifyDma
  split
  · exact yields_evict trivial
  · refine yields_useOne fun k o h => ?_
    split at h
    · obtain ⟨b, hb, rfl⟩ := map_ok h
      exact good_nil ho.symm rfl
    · cases h

theorem good_encaps (params : List Nat) (id : UInt16) (ev : Bool) (coins : List UInt8) (dma : Nat × Rc) :
    Yields (Good cfg .encaps) (Crypto.encaps cfg.base.crypto cfg.base.lib v params id ev coins (some dma)) := by
  unfold Crypto.encaps
  split
  · exact yields_evict trivial
  · refine yields_useOne fun k o ho => ?_
    split at ho
    · cases ho
    · rename_i ct ss he
      obtain ⟨sz, pre⟩ := dma
      dsimp only at ho
      split at ho
      · cases ho
      · split at ho
        · injection ho with ho; subst ho
          refine ⟨rfl, fun d hr => ?_⟩
          have := hr.encaps _ _ _ _ _ he
          show 12 + 24 + ss.length ≤ d
          omega
        · cases ho

theorem good_decaps (params : List Nat) (id : UInt16) (ev : Bool) (ct : List UInt8) (pre : Rc) :
    Yields (Good cfg .decaps) (Crypto.decaps cfg.base.crypto cfg.base.lib v params id ev ct (some pre)) := by
  unfold Crypto.decaps
  split
  · exact yields_evict trivial
  · refine yields_useOne fun k o ho => ?_
    dsimp only at ho
    split at ho
    · cases ho
    · split at ho
      · cases ho
      · rename_i ss he
        split at ho
        · cases ho
        · injection ho with ho; subst ho
          refine ⟨rfl, fun d hr => ?_⟩
          have := hr.decaps _ _ _ _ he
          show 12 + 24 + ss.length ≤ d
          omega

theorem good_cmac (id : UInt16) (key state inline mem : List UInt8) (outSz : Nat) (pre : Rc) :
    Yields (Good cfg .cmac) (Crypto.cmacDma cfg.base.lib id key state inline mem outSz pre) := by
  have with_ : ∀ (input : List UInt8) (one : Bool) (k : List UInt8) (o : Crypto.Out),
      Crypto.cmacWith cfg.base.lib id 64 state input outSz one k = .ok o → Good cfg .cmac o := by
    intro input one k o hk
    unfold Crypto.cmacWith at hk
    split at hk
    · obtain ⟨b, hb, rfl⟩ := map_ok hk
      refine ⟨rfl, fun d hr => ?_⟩
      have := hr.cmac _ _ _ _ hb
      have := hr.room
      show 12 + 64 + b.length ≤ d
      omega
    · split at hk
      · obtain ⟨b, hb, rfl⟩ := map_ok hk
        refine ⟨rfl, fun d hr => ?_⟩
        have := hr.cmacFinal _ _ _ _ _ hb
        have := hr.room
        show 12 + 64 + b.length ≤ d
        omega
      · obtain ⟨b, hb, rfl⟩ := map_ok hk
        exact good_nil rfl rfl
  have key_ : ∀ f : Except Rc (List UInt8) → Prog, (∀ x, Yields (Good cfg .cmac) (f x)) →
      Yields (Good cfg .cmac) (Crypto.cmacKey id key f) := by
    intro f hf
    unfold Crypto.cmacKey
    dsimp only
    split
    · exact hf _
    · split
      · exact hf _
      · refine yields_read fun x => ?_
        split
        · exact yields_read fun _ => hf _
        · exact hf _
  unfold Crypto.cmacDma
  split
  · split
    · refine key_ _ fun x => yields_done fun o ho => ?_
      obtain ⟨k, _, hk⟩ := bind_ok ho
      exact with_ _ _ _ _ hk
    · trivial
  · refine key_ _ fun x => yields_done fun o ho => ?_
    obtain ⟨k, _, hk⟩ := bind_ok ho
    split at hk
    · cases hk
    · exact with_ _ _ _ _ hk

theorem good_aes (mode : AesMode) (enc : Bool) (id : UInt16) (key input extra : List UInt8) (left : Nat) (pre post : Rc) :
    Yields (Good cfg (.aes mode)) (Crypto.aesDma cfg.base.crypto cfg.base.lib v mode enc id key input extra left pre post) := by
  have fin : ∀ x : Except Rc (List UInt8), Yields (Good cfg (.aes mode)) (.done (match x with
      | .error rc => .error rc
      | .ok k =>
        if Crypto.aesLen k.length = false then .error .badargs
        else if pre ≠ .ok then .error pre
        else
          match Crypto.aesWith cfg.base.lib mode enc left input extra (.ok k) with
          | .error rc => .error rc
          | .ok (out, tail) =>
            if post = .ok then .ok { fixed := 24, body := tail, dma := out } else .error post)) := by
    intro x
    refine yields_done fun o ho => ?_
    cases x with
    | error e => cases ho
    | ok k =>
      dsimp only at ho
      split at ho
      · cases ho
      split at ho
      · cases ho
      split at ho
      · cases ho
      · rename_i out tail hw
        split at ho
        · injection ho with ho; subst ho
          refine ⟨rfl, fun d hr => ?_⟩
          have ha : cfg.base.lib.aes mode enc left k input extra = .ok (out, tail) := by
            unfold Crypto.aesWith at hw
            dsimp only at hw
            split at hw
            · cases hw
            split at hw
            · cases hw
            exact hw
          have ht := hr.aes _ _ _ _ _ _ _ _ ha
          have := hr.room
          show 12 + 24 + tail.length ≤ d
          rw [ht]
          cases mode with
          | gcm =>
            cases enc with
            | true =>
              have := hr.tag _ _ _ _ _ ha
              show 12 + 24 + gcmTag extra ≤ d
              omega
            | false =>
              show 12 + 24 + 0 ≤ d
              omega
          | _ => simp only [tailSize]; omega
        · cases ho
  unfold Crypto.aesDma
  dsimp only
  split
  · exact fin (.ok key)
  · exact yields_read fin

theorem good_handler {e : Env} {op : Op} {q : Crypto.Req} (h : decode cfg e r op = .ok (.keys q)) :
    Yields (Good cfg op) (Crypto.handler cfg.base.crypto cfg.base.lib v q) := by
  cases op with
  | aes m =>
    cases m <;>
    · obtain ⟨_, h⟩ := sized_ok h
      obtain ⟨_, h⟩ := fits_ok h
      obtain ⟨_, h⟩ := fits_ok h
      have h := keys_inj h; subst h
      exact good_aes ..
  | keyGenMlDsa | keyGenMlKem =>
    obtain ⟨_, h⟩ := sized_ok h
    obtain ⟨_, h⟩ := fits_ok h
    have h := keys_inj h; subst h
    exact good_keyGen rfl ..
  | signMlDsa =>
    obtain ⟨_, h⟩ := sized_ok h
    obtain ⟨_, h⟩ := fits_ok h
    obtain ⟨_, h⟩ := fits_ok h
    have h := keys_inj h; subst h
    exact good_signDma rfl ..
  | verifyMlDsa =>
    obtain ⟨_, h⟩ := sized_ok h
    obtain ⟨_, h⟩ := fits_ok h
    obtain ⟨_, h⟩ := fits_ok h
    have h := keys_inj h; subst h
    exact good_verifyDma rfl ..
  | signEd =>
    obtain ⟨_, h⟩ := sized_ok h
    obtain ⟨_, h⟩ := fits_ok h
    obtain ⟨_, h⟩ := fits_ok h
    obtain ⟨_, h⟩ := fits_ok h
    have h := keys_inj h; subst h
    exact good_signDma rfl ..
  | verifyEd =>
    obtain ⟨_, h⟩ := sized_ok h
    obtain ⟨_, h⟩ := fits_ok h
    obtain ⟨_, h⟩ := fits_ok h
    obtain ⟨_, h⟩ := fits_ok h
    have h := keys_inj h; subst h
    exact good_verifyDma rfl ..
  | encaps =>
    obtain ⟨_, h⟩ := sized_ok h
    have h := keys_inj h; subst h
    exact good_encaps (cfg := cfg) (v := v) _ _ _ _ (_, _)
  | decaps =>
    obtain ⟨_, h⟩ := sized_ok h
    have h := keys_inj h; subst h
    exact good_decaps ..
  | cmac =>
    obtain ⟨_, h⟩ := sized_ok h
    obtain ⟨_, h⟩ := fits_ok h
    obtain ⟨_, h⟩ := fits_ok h
    obtain ⟨_, h⟩ := fits_ok h
    have h := keys_inj h; subst h
    exact good_cmac ..
  | sha256 | sha384 | sha512 | sha3 =>
    obtain ⟨_, h⟩ := sized_ok h
    obtain ⟨_, h⟩ := fits_ok h
    obtain ⟨_, h⟩ := fits_ok h
    injection h with h; cases h
  | _ =>
    obtain ⟨_, h⟩ := sized_ok h
    injection h with h; cases h

theorem status_length (le : Bool) (r : Req) (b : Buf) : (status le r b).length = 16 := by
  unfold status; rw [List.length_append, w64_length, w64_length]

theorem clear_length (le : Bool) (r : Req) : (clear le r).length = 16 := status_length ..

theorem fieldsOf_length (e : Env) (op : Op) (o : Crypto.Out) : (fieldsOf cfg e r op o).length ≤ respSize op := by
  cases op with
  | aes m => cases m <;> simp [fieldsOf, respSize, num_length, clear_length]
  | _ => simp [fieldsOf, respSize, num_length, clear_length, status_length, w32_length, w16_length, stateOut_length]

theorem sha2_length (e : Env) (t : UInt32) (last : Bool) (hi lo : UInt32) (d i : List UInt8) (b : Buf) :
    (sha2 cfg e r t last hi lo d i b).length ≤ 108 := by
  have out : ∀ (hi lo : UInt32) (h : List UInt8), (reply cfg.le r (clear cfg.le r ++ hash64 h ++ w32 cfg.le r.magic hi ++
      w32 cfg.le r.magic lo ++ w32 cfg.le r.magic t) 96 []).length ≤ 108 := by
    intro hi lo h
    rw [reply_length (by simp [w32_length, hash64_length, clear_length])]
    simp
  have hh : ∀ rc, (header cfg.le r rc).length ≤ 108 := fun rc => by rw [header_length]; omega
  unfold sha2
  dsimp only
  split
  · split
    · exact hh _
    · exact out ..
  · split
    · exact hh _
    · split
      · split
        · exact hh _
        · exact out ..
      · exact hh _

theorem state_length (le : Bool) (m : UInt16) (st : List UInt64) :
    (((st ++ List.replicate 25 0).take 25).flatMap (w64 le m)).length = 200 := by
  rw [flat64_length, List.length_take, List.length_append, List.length_replicate]
  omega

theorem sha3_length (e : Env) (block : Nat) (last : Bool) (st : List UInt64) (i : List UInt8) (b : Buf) :
    (sha3 cfg e r block last st i b).length ≤ 292 := by
  have out : ∀ (st : List UInt64) (h : List UInt8),
      (reply cfg.le r (((st ++ List.replicate 25 0).take 25).flatMap (w64 cfg.le r.magic) ++ clear cfg.le r ++ hash64 h)
        280 []).length ≤ 292 := by
    intro st h
    rw [reply_length (by
      rw [List.length_append, List.length_append, hash64_length, state_length, clear_length])]
    simp
  have hh : ∀ rc, (header cfg.le r rc).length ≤ 292 := fun rc => by rw [header_length]; omega
  unfold sha3
  dsimp only
  split
  · split
    · exact hh _
    · exact out ..
  · split
    · exact hh _
    · split
      · split
        · exact hh _
        · exact out ..
      · exact hh _

/-- Responses fit the packet. -/
theorem handle_fits {dataLen : Nat} (h : Roomy cfg dataLen) (e : Env) (hz : r.size ≤ dataLen) (s : Sys) :
    (handle cfg v e r s).1.1.length ≤ dataLen := by
  have h510 := h.room
  unfold handle
  by_cases hs : r.size < 12
  · rw [if_pos hs]
    show r.data.length ≤ _
    unfold Req.data
    rw [List.length_take]; omega
  rw [if_neg hs]
  have hh : ∀ rc, (header cfg.le r rc).length ≤ dataLen := fun rc => by rw [header_length]; omega
  have h24 : ∀ f : List UInt8, f.length ≤ 24 → (reply cfg.le r f 24 []).length ≤ dataLen := fun f hf => by
    rw [reply_length hf]; simp; omega
  split
  · exact hh _
  · rename_i op _
    split
    · exact hh _
    · rename_i q hq
      split
      · rename_i a s' ha
        cases a with
        | error rc => exact hh _
        | ok o =>
          have hg := yields_exec _ _ _ (good_handler (cfg := cfg) (v := v) hq) ha
          show (reply cfg.le r (fieldsOf cfg e r op o) o.fixed o.body).length ≤ _
          rw [reply_length (by rw [hg.1]; exact fieldsOf_length ..)]
          exact hg.2 _ h
      · exact Nat.zero_le _
    · dsimp only
      unfold encodeSign
      split
      · split
        · exact h24 _ (by simp [clear_length, num_length])
        · exact hh _
      · exact Nat.zero_le _
    · dsimp only
      unfold encodeGen
      split
      · split
        · exact h24 _ (by simp [clear_length, num_length, w32_length])
        · exact hh _
      · exact Nat.zero_le _
    · dsimp only
      unfold verify
      dsimp only
      split
      · exact hh _
      · split
        · split
          · exact hh _
          · exact h24 _ (by simp [clear_length, num_length])
        · exact hh _
    · dsimp only
      unfold sigsLeft
      dsimp only
      split
      · exact hh _
      · split
        · exact hh _
        · rw [reply_length (by rw [w32_length])]; simp; omega
    · dsimp only
      unfold rng
      split
      · split
        · exact hh _
        · split
          · dsimp only
            rw [reply_length (by rw [status_length])]; simp; omega
          · exact hh _
      · exact hh _
    · exact Nat.le_trans (sha2_length ..) (by omega)
    · exact Nat.le_trans (sha3_length ..) (by omega)

/-! ## Responses depend on the received bytes -/

section same

variable {r' : Req}

theorem status_same (h : Same r r') (b : Buf) : status cfg.le r' b = status cfg.le r b := by unfold status; rw [h.magic]

theorem clear_same (h : Same r r') : clear cfg.le r' = clear cfg.le r := status_same h _

theorem fieldsOf_same (h : Same r r') {op : Op} (hn : structSize op ≤ inSize r) (e : Env) (o : Crypto.Out) :
    fieldsOf cfg e r' op o = fieldsOf cfg e r op o := by
  cases op with
  | aes m =>
    have hw : ∀ i, 4 * i + 4 ≤ structSize (.aes m) → CryptoMsg.u32 cfg.le r' i = CryptoMsg.u32 cfg.le r i := Same.words h hn
    have hb := buf_same (le := cfg.le) h hn
    cases m with
    | gcm => simp only [fieldsOf, len, num_same h, clear_same h, hw 12 (by decide), hw 16 (by decide), hb 0 (by decide)]
    | ctr => simp only [fieldsOf, len, num_same h, clear_same h, hw 9 (by decide), hb 0 (by decide)]
    | _ => simp only [fieldsOf, num_same h, clear_same h, hb 0 (by decide)]
  | _ => simp only [fieldsOf, num_same h, clear_same h, status_same h, h.magic, stateOut]

theorem target_same (h : Same r r') {op : Op} (hn : 32 ≤ inSize r) : target cfg.le r' op = target cfg.le r op := by
  have h0 := buf_same (le := cfg.le) h hn 0 (by omega)
  have h1 := buf_same (le := cfg.le) h hn 16 (by omega)
  cases op <;> simp only [target, h0, h1]

/-- The operations whose result is written somewhere have two buffers' worth of structure. -/
theorem keys_size {e : Env} {op : Op} {q : Crypto.Req} (h : decode cfg e r op = .ok (.keys q)) : 32 ≤ structSize op := by
  cases op with
  | aes m => cases m <;> decide
  | rng =>
    obtain ⟨_, h⟩ := sized_ok h
    injection h with h; cases h
  | sigLeft a =>
    obtain ⟨_, h⟩ := sized_ok h
    injection h with h; cases h
  | _ => simp [structSize]

theorem respSize_le {op : Op} (h : 32 ≤ structSize op) : respSize op ≤ structSize op := by
  cases op with
  | cmac => decide
  | _ => exact Nat.le_trans (by decide : 24 ≤ 32) h

/-- A hash request whose response may be longer than it. -/
def Tight (cfg : Cfg) (r : Req) : Prop :=
  r.size < 108 ∧ ∃ t, cfg.select r.action (rd32 cfg.le r.magic r.buf 0) (rd32 cfg.le r.magic r.buf 4) = .ok (.sha256 t)

/-- Which decoded requests an operation has. -/
def Kind : Op → Todo → Prop
  | .sigSign a, .sign q => q.alg = a
  | .sigGen a, .gen q => q.alg = a
  | .sigVerify a, .verify b .. => b = a
  | .sigLeft a, .left b _ => b = a
  | .rng, .rng _ => True
  | .sha256 _, .sha2 .. => True
  | .sha384 _, .sha2 .. => True
  | .sha512, .sha2 .. => True
  | .sha3 _, .sha3 .. => True
  | .sigSign _, _ => False
  | .sigGen _, _ => False
  | .sigVerify _, _ => False
  | .sigLeft _, _ => False
  | .rng, _ => False
  | .sha256 _, _ => False
  | .sha384 _, _ => False
  | .sha512, _ => False
  | .sha3 _, _ => False
  | _, .keys _ => True
  | _, _ => False

theorem decode_kind {e : Env} {op : Op} {t : Todo} (h : decode cfg e r op = .ok t) : Kind op t := by
  cases op with
  | aes m =>
    cases m <;>
    · obtain ⟨_, h⟩ := sized_ok h
      obtain ⟨_, h⟩ := fits_ok h
      obtain ⟨_, h⟩ := fits_ok h
      injection h with h; subst h; trivial
  | keyGenMlDsa | keyGenMlKem =>
    obtain ⟨_, h⟩ := sized_ok h
    obtain ⟨_, h⟩ := fits_ok h
    injection h with h; subst h; trivial
  | signMlDsa | verifyMlDsa | sha256 | sha384 | sha512 | sha3 =>
    obtain ⟨_, h⟩ := sized_ok h
    obtain ⟨_, h⟩ := fits_ok h
    obtain ⟨_, h⟩ := fits_ok h
    injection h with h; subst h; trivial
  | signEd | verifyEd | cmac =>
    obtain ⟨_, h⟩ := sized_ok h
    obtain ⟨_, h⟩ := fits_ok h
    obtain ⟨_, h⟩ := fits_ok h
    obtain ⟨_, h⟩ := fits_ok h
    injection h with h; subst h; trivial
  | encaps | decaps | rng =>
    obtain ⟨_, h⟩ := sized_ok h
    injection h with h; subst h; trivial
  | sigGen | sigSign | sigVerify | sigLeft =>
    obtain ⟨_, h⟩ := sized_ok h
    injection h with h; subst h; rfl

/-- Effect and response depend only on the received bytes; a SHA-2 response may be longer than the
request and then ends with four bytes of the buffer. -/
theorem handle_same (h : Same r r') (v : Srv) (e : Env) (s : Sys) :
    (handle cfg v e r' s).2 = (handle cfg v e r s).2 ∧
    (handle cfg v e r' s).1.2 = (handle cfg v e r s).1.2 ∧
    (handle cfg v e r' s).1.1.length = (handle cfg v e r s).1.1.length ∧
    (handle cfg v e r' s).1.1.take 104 = (handle cfg v e r s).1.1.take 104 ∧
    (¬Tight cfg r → (handle cfg v e r' s).1.1 = (handle cfg v e r s).1.1) := by
  suffices hg : handle cfg v e r' s = handle cfg v e r s ∨
      (Tight cfg r ∧ ∃ f : List UInt8, f.length = 92 ∧ handle cfg v e r' s = ((reply cfg.le r' f 96 [], none), s) ∧
        handle cfg v e r s = ((reply cfg.le r f 96 [], none), s)) by
    rcases hg with hg | ⟨ht, f, hf, h1, h2⟩
    · rw [hg]; exact ⟨rfl, rfl, rfl, rfl, fun _ => rfl⟩
    · rw [h1, h2]
      refine ⟨rfl, rfl, ?_, ?_, fun hn => absurd ht hn⟩
      · show (reply ..).length = (reply ..).length
        rw [reply_length (by omega), reply_length (by omega)]
      · by_cases hz : 12 ≤ r.size
        · have hx : ∀ r : Req, (reply cfg.le r f 96 []).take 104 = header cfg.le r .ok ++ f := by
            intro r
            unfold reply over
            rw [List.append_nil, List.take_append_of_le_length (by rw [List.length_append, header_length]; omega),
              List.take_of_length_le (by rw [List.length_append, header_length]; omega)]
          show List.take 104 (reply cfg.le r' f 96 []) = List.take 104 (reply cfg.le r f 96 [])
          rw [hx, hx, header_same h hz]
        · exfalso
          have : handle cfg v e r s = ((r.data, none), s) := if_pos (by omega)
          rw [this] at h2
          injection h2 with h2 _
          injection h2 with h2 _
          have := congrArg List.length h2
          rw [reply_length (by omega)] at this
          unfold Req.data at this
          rw [List.length_take] at this
          simp only [List.length_nil] at this
          omega
  unfold handle
  rw [h.size]
  by_cases hs : r.size < 12
  · rw [if_pos hs, if_pos hs]
    left
    unfold Req.data
    rw [h.size, h.data]
  have hz : 12 ≤ r.size := by omega
  have hh : ∀ rc, header cfg.le r' rc = header cfg.le r rc := header_same h hz
  rw [if_neg hs, if_neg hs, h.action, h.magic, rd32_eq (a := cfg.le) (m := r.magic) h.data (off := 0) (by omega),
    rd32_eq (a := cfg.le) (m := r.magic) h.data (off := 4) (by omega)]
  unfold Tight
  cases cfg.select r.action (rd32 cfg.le r.magic r.buf 0) (rd32 cfg.le r.magic r.buf 4) with
  | error rc => left; dsimp only; rw [hh]
  | ok op =>
    dsimp only
    rw [decode_same h]
    cases hq : decode cfg e r op with
    | error rc => left; dsimp only; rw [hh]
    | ok t =>
      have hn := decode_ok_size hq
      have hk := decode_kind hq
      have h24 : ∀ f body, 24 ≤ inSize r → reply cfg.le r' f 24 body = reply cfg.le r f 24 body := fun f body h24 =>
        reply_same h hz (.inl (by unfold inSize at h24; omega))
      cases t with
      | keys q =>
        left
        have h32 := keys_size hq
        dsimp only
        cases ha : exec cfg.base.crypto.ks v e.locks 0 (Crypto.handler cfg.base.crypto cfg.base.lib v q) s with
        | mk a s' =>
          cases a with
          | none => rfl
          | some a =>
            cases a with
            | error rc => dsimp only [encode]; rw [hh]
            | ok o =>
              have hg := yields_exec _ _ _ (good_handler (cfg := cfg) (v := v) hq) ha
              dsimp only [encode]
              rw [fieldsOf_same h hn, target_same h (by omega), reply_same h hz (.inl (by
                have := respSize_le h32
                rw [hg.1]; unfold inSize at hn; omega))]
      | sign q =>
        left
        cases op <;> try exact hk.elim
        rename_i a
        have hn : 40 ≤ inSize r := hn
        dsimp only
        unfold encodeSign
        simp only [hh, clear_same h, num_same h, target_same h (show 32 ≤ inSize r by omega), h24 _ _ (show 24 ≤ inSize r by omega)]
      | gen q =>
        left
        cases op <;> try exact hk.elim
        rename_i a
        have hn : 104 ≤ inSize r := hn
        dsimp only
        unfold encodeGen
        simp only [hh, clear_same h, num_same h, h.magic, buf_same h hn 0 (by omega), h24 _ _ (show 24 ≤ inSize r by omega)]
      | verify a id ev sig msg pre =>
        left
        cases op <;> try exact hk.elim
        have hn : 40 ≤ inSize r := hn
        dsimp only
        unfold verify
        simp only [hh, clear_same h, num_same h, h24 _ _ (show 24 ≤ inSize r by omega)]
      | left a id =>
        left
        dsimp only
        unfold sigsLeft
        have h4 : ∀ x, reply cfg.le r' (w32 cfg.le r.magic x) 4 [] = reply cfg.le r (w32 cfg.le r.magic x) 4 [] := fun x =>
          reply_same h hz (.inr (by rw [w32_length]))
        simp only [hh, h.magic, h4]
      | rng b =>
        left
        dsimp only
        unfold rng
        have h16 : reply cfg.le r' (status cfg.le r e.stack) 16 [] = reply cfg.le r (status cfg.le r e.stack) 16 [] :=
          reply_same h hz (.inr (by rw [status_length]))
        simp only [hh, status_same h, h16]
      | sha2 t last hi lo d i b =>
        dsimp only
        by_cases hl : 108 ≤ r.size
        · left
          have ho : ∀ f, reply cfg.le r' f 96 [] = reply cfg.le r f 96 [] := fun f => reply_same h hz (.inl (by omega))
          unfold sha2
          simp only [h.magic, ho, hh, clear_same h]
        · have ht : ∃ t, op = .sha256 t := by
            cases op <;> first | exact hk.elim | exact ⟨_, rfl⟩ | exact absurd hn (by show ¬ 104 ≤ r.size - 12; omega)
          obtain ⟨t', rfl⟩ := ht
          have ho : ∀ (hi lo : UInt32) (x : List UInt8), (clear cfg.le r ++ CryptoMsg.hash64 x ++ w32 cfg.le r.magic hi ++
              w32 cfg.le r.magic lo ++ w32 cfg.le r.magic t).length = 92 := by
            intro hi lo x
            simp [w32_length, hash64_length, clear_length]
          have hd : ∀ {p q : List UInt8 × Option (UInt64 × List UInt8)} {f : List UInt8}, f.length = 92 →
              p = (reply cfg.le r' f 96 [], none) → q = (reply cfg.le r f 96 [], none) → (p, s) = (q, s) ∨
              ((r.size < 108 ∧ ∃ t, (Except.ok (Op.sha256 t') : Except Rc Op) = .ok (.sha256 t)) ∧ ∃ f : List UInt8, f.length = 92 ∧
                (p, s) = ((reply cfg.le r' f 96 [], none), s) ∧ (q, s) = ((reply cfg.le r f 96 [], none), s)) := by
            intro p q f hf hp hq
            exact .inr ⟨⟨by omega, t', rfl⟩, f, hf, by rw [hp], by rw [hq]⟩
          unfold sha2
          simp only [h.magic, hh, clear_same h]
          cases last with
          | true =>
            rw [if_pos rfl, if_pos rfl]
            cases cfg.base.hashes.final t hi lo d i with
            | error rc => exact .inl rfl
            | ok x => exact hd (ho _ _ _) rfl rfl
          | false =>
            rw [if_neg (by decide), if_neg (by decide)]
            cases feed cfg.base.hashes t (hi, lo, d) i with
            | error rc => exact .inl rfl
            | ok st =>
              dsimp only
              by_cases hp : some? e.readPre b = .ok
              · rw [if_pos hp, if_pos hp]
                cases feed cfg.base.hashes t st (e.read b) with
                | error rc => exact .inl rfl
                | ok x => exact hd (ho _ _ _) rfl rfl
              · rw [if_neg hp, if_neg hp]
                exact .inl rfl
      | sha3 bl last st i b =>
        left
        dsimp only
        have ho : ∀ (st : List UInt64) (x : List UInt8),
            reply cfg.le r' (((st ++ List.replicate 25 0).take 25).flatMap (w64 cfg.le r.magic) ++ clear cfg.le r ++ hash64 x) 280 [] =
            reply cfg.le r (((st ++ List.replicate 25 0).take 25).flatMap (w64 cfg.le r.magic) ++ clear cfg.le r ++ hash64 x) 280 [] :=
          fun st x => reply_same h hz (.inr (by
            rw [List.length_append, List.length_append, hash64_length, state_length, clear_length]))
        unfold sha3
        simp only [h.magic, ho, hh, clear_same h]

end same

end WolfHsm.CryptoDma

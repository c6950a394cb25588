import Verif.Proofs.ClientStreamDemo

/-!
# C64 A message in pieces gives what one call gives
-/

namespace WolfHsm.Props

open ClientCrypto ClientStream
open ClientHash (Ret Reply)
open CryptoMsg (Roomy)
open Crypto (aesLen)

/-! ## A concrete client and server -/

namespace ClientStreamDemo

def K : List UInt8 := List.replicate 16 3
def iv : List UInt8 := List.replicate 15 7 ++ [255]

/-- A little-endian server with the toy library. -/
def cfg : CryptoMsg.Cfg := { ClientCryptoDemo.cfg true with lib := ClientStream.Demo.lib }

/-- Its client, which is big-endian. -/
def f : ClientStream.Cfg := ⟨ClientCryptoDemo.numbers, false, 1280⟩

theorem roomy : Roomy cfg f.dataLen := ⟨ClientStream.Demo.small (by decide), by decide, by decide, rfl⟩

theorem agree (c : Call) : Agree f.n cfg.codes c.op := ClientCryptoDemo.agree c

/-- The client has put the key `K` on the server, as key 5. -/
def sys : Keystore.Sys :=
  (Keystore.handle cfg.crypto.ks Keystore.Demo.one CryptoMsgDemo.sys .ok
    (.cache 5 (Flag.usageEncrypt ||| Flag.usageDecrypt ||| Flag.usageSign) Keystore.Demo.label K)).2

/-- The server answers. -/
def up : Turn :=
  ⟨0, (1, 2), fun b => .got (served cfg f.le 3 1 Keystore.Demo.one CryptoMsgDemo.env [0xEE] sys b).1⟩

/-- The response does not come. -/
def down : Turn := ⟨0, (1, 2), fun _ => .lost Rc.aborted.code⟩

/-- Whether an operation has a result or an error. -/
def ends (c : Call) : Bool :=
  match (performed cfg Keystore.Demo.one CryptoMsgDemo.env (c.asks CryptoMsgDemo.env.coins) sys).1 with
  | some (.ok _) => true
  | some (.error rc) => decide (0x80000000 ≤ rc.code)
  | none => false

theorem up_fair {ok : Keystore.Srv → Keystore.Sys → Prop} (h : ok Keystore.Demo.one sys) {c : Call} (he : ends c = true) :
    Fair cfg f ok up c := by
  refine .inr ⟨1, Keystore.Demo.one, CryptoMsgDemo.env, [0xEE], sys, h, rfl, ?_⟩
  unfold ends at he
  cases hx : (performed cfg Keystore.Demo.one CryptoMsgDemo.env (c.asks CryptoMsgDemo.env.coins) sys).1 with
  | none => rw [hx] at he; cases he
  | some r =>
    rw [hx] at he
    cases r with
    | ok o => exact .inl ⟨o, rfl⟩
    | error rc => exact .inr ⟨rc, rfl, of_decide_eq_true he⟩

theorem down_fair {ok : Keystore.Srv → Keystore.Sys → Prop} (c : Call) : Fair cfg f ok down c :=
  .inl ⟨_, by decide, .inr rfl⟩

theorem sys_view : ∃ md, Keystore.view cfg.crypto.ks 0 sys (Keystore.ownId cfg.crypto.ks Keystore.Demo.one 5) = some (md, K) := by
  have h : (Keystore.view cfg.crypto.ks 0 sys (Keystore.ownId cfg.crypto.ks Keystore.Demo.one 5)).map Prod.snd = some K := by
    decide +kernel
  cases hx : Keystore.view cfg.crypto.ks 0 sys (Keystore.ownId cfg.crypto.ks Keystore.Demo.one 5) with
  | none => rw [hx] at h; cases h
  | some q => rw [hx] at h; exact ⟨q.1, by rw [← Option.some.inj h]⟩

theorem good : Keystore.GoodCfg cfg.crypto.ks := by intro h; cases h

theorem sys_reach : Keystore.Reach cfg.crypto.ks Keystore.Demo.ncfg sys := by
  have h : Keystore.Reach cfg.crypto.ks Keystore.Demo.ncfg CryptoMsgDemo.sys := by
    refine .boot _ rfl (fun _ => rfl) rfl ?_
    intro id md bs h
    change Keystore.Demo.store id = _ at h
    unfold Keystore.Demo.store at h
    split at h
    · rename_i e; cases h; exact ⟨e.symm, rfl⟩
    · split at h
      · rename_i e; cases h; exact ⟨e.symm, rfl⟩
      · split at h
        · rename_i e; cases h; exact ⟨e.symm, rfl⟩
        · cases h
  exact .step (.key Keystore.Demo.one .ok
    (.cache 5 (Flag.usageEncrypt ||| Flag.usageDecrypt ||| Flag.usageSign) Keystore.Demo.label K)) (by decide) h

theorem inline_key {id : UInt16} {key : List UInt8} (h : KeyId.isErased (Crypto.own cfg.crypto Keystore.Demo.one id) = true)
    (hk : key = K) : AesKey cfg id key K Keystore.Demo.one sys := by
  unfold AesKey; rw [if_pos h]; exact hk

/-- An object with its own key, and one with the key on the server. -/
def own : Aes := ⟨0, K, iv, List.replicate 16 0, 0⟩
def far : Aes := ⟨5, [], iv, List.replicate 16 0, 0⟩

/-- A MAC object with the key on the server, and one whose key the caller brings. -/
def macFar : Cmac := ⟨5, [], .zero⟩
def macOwn : Cmac := ⟨0, [], .zero⟩

/-- Other bytes for a key. -/
def K' : List UInt8 := List.replicate 16 9

end ClientStreamDemo

variable {cfg : CryptoMsg.Cfg} {f : ClientStream.Cfg} {K iv : List UInt8}

/-! ## Keys on the server -/

/-- **C64**, where the key comes from: for a key that client sees under an id in a reachable state of the key store, the
histories' assumptions on keys hold, for ciphers and for MACs. -/
theorem C64_stored_key {ncfg : NvmServer.Cfg} (hsg : Keystore.GoodCfg cfg.crypto.ks) {s : Keystore.Sys}
    (hs : Keystore.Reach cfg.crypto.ks ncfg s) {v : Keystore.Srv} (hc : v.client < 16) {rid : UInt16} {md : NvmFlash.Meta}
    (hview : Keystore.view cfg.crypto.ks v.ctx s (Keystore.ownId cfg.crypto.ks v rid) = some (md, K))
    (hid : KeyId.isErased (Crypto.own cfg.crypto v rid) = false) (key : List UInt8) :
    AesKey cfg rid key K v s ∧ MacKey cfg rid K v s := by
  have hw := hs.wf hsg
  refine ⟨?_, fun _ => ⟨gives_view hw hc hview, fun lock required => ?_⟩⟩
  · unfold AesKey
    rw [hid, if_neg (by decide)]
    exact gives_view hw hc hview
  · obtain ⟨h1, h2⟩ := useKey_keeps hw lock required hview
    exact gives_view h1 hc h2

open ClientStreamDemo in
/-- The key the client has put on the server. -/
theorem ClientStreamDemo.stored (key : List UInt8) : AesKey ClientStreamDemo.cfg 5 key ClientStreamDemo.K Keystore.Demo.one sys ∧
    MacKey ClientStreamDemo.cfg 5 ClientStreamDemo.K Keystore.Demo.one sys := by
  obtain ⟨md, h⟩ := sys_view
  exact C64_stored_key good sys_reach (by decide) h (by decide +kernel) key

open ClientStreamDemo in
theorem ClientStreamDemo.far_key {id : UInt16} (h : id = 5) (key : List UInt8) :
    AesKey ClientStreamDemo.cfg id key ClientStreamDemo.K Keystore.Demo.one sys := h ▸ (stored key).1

/-! ## Counter mode -/

theorem ctrs_inv {E : List UInt8 → List UInt8 → List UInt8} (hroom : Roomy cfg f.dataLen) (hag : ∀ c, Agree f.n cfg.codes (Call.op c))
    (hL : CtrLib cfg.lib E) (hiv : iv.length = 16) {a : Aes} {log : List (List UInt8 × List UInt8)} (h : Ctrs cfg f K iv a log) :
    outs log = ctrText (E K) iv 0 (ins log) ∧ a.key.length ≤ 32 ∧
      At (E K) iv (ins log).length a.reg a.tmp a.left.toNat := by
  induction h with
  | start a h1 h2 h3 h4 =>
    exact ⟨rfl, h4, ⟨h1, by rw [h3]; rfl, h2, fun h => absurd (by rw [h3]; rfl) h⟩⟩
  | @call a log t enc input _ hf hin ih =>
    obtain ⟨i1, i2, i3⟩ := ih
    rcases ctr_step hroom hag hL hiv i3 i2 hf hin with ⟨h0, h1⟩ | ⟨h0, h1, -, h2, h3⟩
    · rw [if_neg h0, h1]
      exact ⟨i1, i2, i3⟩
    · rw [if_pos h0, ins_append, outs_append, List.length_append, i1, ctrText_append, Nat.zero_add]
      have e1 : ins [(input, (ctr f t a enc input).2.1)] = input := by simp [ins]
      have e2 : outs [(input, (ctr f t a enc input).2.1)] = (ctr f t a enc input).2.1 := by simp [outs]
      rw [e1, e2, h1]
      exact ⟨rfl, by rw [h2]; exact i2, h3⟩

/-- **C64**, counter mode: however a message is cut into calls, of whatever lengths, some of which may fail, with
the key in the object or on the server: the outputs of the successful calls together are the message under the key
stream that begins at the IV.  A call that fails changes nothing. -/
theorem C64_ctr {E : List UInt8 → List UInt8 → List UInt8} (hroom : Roomy cfg f.dataLen) (hag : ∀ c, Agree f.n cfg.codes (Call.op c))
    (hL : CtrLib cfg.lib E) (hiv : iv.length = 16) {a : Aes} {log : List (List UInt8 × List UInt8)} (h : Ctrs cfg f K iv a log) :
    outs log = ctrText (E K) iv 0 (ins log) := (ctrs_inv hroom hag hL hiv h).1

/-- **C64**, counter mode: what one object encrypts in pieces another one decrypts in other pieces. -/
theorem C64_ctr_round_trip {E : List UInt8 → List UInt8 → List UInt8} (hroom : Roomy cfg f.dataLen)
    (hag : ∀ c, Agree f.n cfg.codes (Call.op c)) (hL : CtrLib cfg.lib E) (hiv : iv.length = 16) {a b : Aes}
    {log log' : List (List UInt8 × List UInt8)} (h : Ctrs cfg f K iv a log) (h' : Ctrs cfg f K iv b log')
    (heq : ins log' = outs log) : outs log' = ins log := by
  rw [C64_ctr hroom hag hL hiv h', heq, C64_ctr hroom hag hL hiv h, ctrText_twice]

open ClientStreamDemo in
/-- Five bytes, seventeen that get no response, then twenty: the two parts continue each other across blocks, and the
counter block, which ends in 255, carries. -/
example : ∃ a log, Ctrs ClientStreamDemo.cfg ClientStreamDemo.f ClientStreamDemo.K ClientStreamDemo.iv a log ∧ a.id = 5 ∧
    log.map (fun e => e.1.length) = [5, 20] ∧
    outs log = ctrText (ClientStream.Demo.E ClientStreamDemo.K) ClientStreamDemo.iv 0 (List.replicate 5 1 ++ List.replicate 20 2) := by
  refine ⟨_, _, .call up true (List.replicate 20 2) (.call down true (List.replicate 17 9)
    (.call up true (List.replicate 5 1) (.start far rfl rfl rfl (by decide)) (up_fair (far_key ?_ _) ?_) (by decide))
    (down_fair _) (by decide)) (up_fair (far_key ?_ _) ?_) (by decide), ?_, ?_, ?_⟩
  all_goals decide +kernel

/-! ## CBC -/

theorem cbcs_inv {E D : List UInt8 → List UInt8 → List UInt8} (hroom : Roomy cfg f.dataLen)
    (hag : ∀ c, Agree f.n cfg.codes (Call.op c)) (hL : CbcLib cfg.lib E D) (hiv : iv.length = 16) {enc : Bool} {a : Aes}
    {log : List (List UInt8 × List UInt8)} (h : Cbcs cfg f K iv enc a log) :
    ∃ n, (ins log).length = 16 * n ∧
      outs log = (if enc then cbcEnc (E K) n iv (ins log) else cbcDec (D K) n iv (ins log)) ∧ a.key.length ≤ 32 ∧
      a.reg = lastBlock iv (if enc then outs log else ins log) := by
  have hE : ∀ b, b.length = 16 → (E K b).length = 16 := hL.len K
  induction h with
  | start a h1 h2 => exact ⟨0, rfl, by cases enc <;> rfl, h2, by rw [h1]; cases enc <;> rfl⟩
  | @call a log t input _ hf hin ih =>
    obtain ⟨n, i1, i2, i3, i4⟩ := ih
    have hout : enc = true → (outs log).length = 16 * n := by
      intro he
      subst he
      rw [i2]
      exact cbcEnc_length hE n iv _ hiv i1
    have hreg : a.reg.length = 16 := by
      rw [i4]
      cases enc
      · exact lastBlock_length hiv i1
      · exact lastBlock_length hiv (hout rfl)
    have e1 : ∀ o, ins [(input, o)] = input := fun o => by simp [ins]
    have e2 : ∀ o, outs [(input, o)] = o := fun o => by simp [outs]
    rcases cbc_step hroom hag hreg i3 hf hin with ⟨h0, h1⟩ | ⟨h0, h1, h2⟩ | ⟨h0, hm, hK, out, tail, hx, h2⟩
    · rw [if_neg h0, h1]
      exact ⟨n, i1, i2, i3, i4⟩
    · rw [if_pos h0, ins_append, outs_append, e1, e2, h2, h1]
      simp only [List.append_nil]
      exact ⟨n, i1, i2, i3, i4⟩
    · obtain ⟨k, hk⟩ : ∃ k, input.length = 16 * k := ⟨input.length / 16, by omega⟩
      rw [if_pos h0, ins_append, outs_append, e1, e2, h2]
      refine ⟨n + k, by rw [List.length_append]; omega, ?_, i3, ?_⟩
      · cases enc
        · rw [hL.dec K a.reg input k hK hreg hk] at hx
          cases hx
          simp only [Bool.false_eq_true, if_false] at i2 i4 ⊢
          rw [cbcDec_append n k iv _ _ i1, i2, i4]
        · rw [hL.enc K a.reg input k hK hreg hk] at hx
          cases hx
          simp only [if_true] at i2 i4 ⊢
          rw [cbcEnc_append hE n k iv _ _ hiv i1 hk, ← i2, i4]
      · cases enc
        · rw [hL.dec K a.reg input k hK hreg hk] at hx
          cases hx
          simp only [Bool.false_eq_true, if_false] at i4 ⊢
          rw [lastBlock_append hE (fun h => by have : input.length ≠ 0 := fun h' => h (List.eq_nil_of_length_eq_zero h')
                                               omega), i4]
        · rw [hL.enc K a.reg input k hK hreg hk] at hx
          cases hx
          simp only [if_true] at i4 ⊢
          have hl := cbcEnc_length hE k a.reg input hreg hk
          rw [lastBlock_append hE (fun h => by
            have : (cbcEnc (E K) k a.reg input).length ≠ 0 := fun h' => h (List.eq_nil_of_length_eq_zero h')
            omega), ← i4]

/-- **C64**, CBC: however a message is cut into calls, some of which may fail, the outputs of the successful calls
together are the CBC encryption (or decryption) of their inputs together, from the IV the object began with. -/
theorem C64_cbc {E D : List UInt8 → List UInt8 → List UInt8} (hroom : Roomy cfg f.dataLen)
    (hag : ∀ c, Agree f.n cfg.codes (Call.op c)) (hL : CbcLib cfg.lib E D) (hiv : iv.length = 16) {enc : Bool} {a : Aes}
    {log : List (List UInt8 × List UInt8)} (h : Cbcs cfg f K iv enc a log) :
    ∃ n, (ins log).length = 16 * n ∧
      outs log = if enc then cbcEnc (E K) n iv (ins log) else cbcDec (D K) n iv (ins log) := by
  obtain ⟨n, h1, h2, -⟩ := cbcs_inv hroom hag hL hiv h
  exact ⟨n, h1, h2⟩

/-- **C64**, CBC: what one object encrypts in pieces another one decrypts in other pieces. -/
theorem C64_cbc_round_trip {E D : List UInt8 → List UInt8 → List UInt8} (hroom : Roomy cfg f.dataLen)
    (hag : ∀ c, Agree f.n cfg.codes (Call.op c)) (hL : CbcLib cfg.lib E D) (hiv : iv.length = 16)
    (hD : ∀ b, b.length = 16 → D K (E K b) = b) {a b : Aes} {log log' : List (List UInt8 × List UInt8)}
    (h : Cbcs cfg f K iv true a log) (h' : Cbcs cfg f K iv false b log') (heq : ins log' = outs log) : outs log' = ins log := by
  obtain ⟨n, h1, h2⟩ := C64_cbc hroom hag hL hiv h
  obtain ⟨n', h3, h4⟩ := C64_cbc hroom hag hL hiv h'
  simp only [if_true, Bool.false_eq_true, if_false] at h2 h4
  have hl := cbcEnc_length (hL.len K) n iv _ hiv h1
  have hn : n' = n := by rw [heq, h2] at h3; omega
  rw [h4, heq, h2, hn, cbc_round_trip (hL.len K) hD n iv _ hiv h1]

open ClientStreamDemo in
/-- An object with its own key encrypts two blocks and then one; one with the key on the server decrypts one and then two. -/
example : ∃ a b log log', Cbcs ClientStreamDemo.cfg ClientStreamDemo.f ClientStreamDemo.K ClientStreamDemo.iv true a log ∧
    Cbcs ClientStreamDemo.cfg ClientStreamDemo.f ClientStreamDemo.K ClientStreamDemo.iv false b log' ∧
    ins log = List.replicate 48 6 ∧ ins log' = outs log ∧ log.length = 2 ∧ log'.length = 2 := by
  let c := cbcEnc (ClientStream.Demo.E ClientStreamDemo.K) 3 ClientStreamDemo.iv (List.replicate 48 6)
  refine ⟨_, _, _, _, .call up (List.replicate 16 6)
    (.call up (List.replicate 32 6) (.start own rfl (by decide)) (up_fair (inline_key ?_ ?_) ?_) (by decide))
      (up_fair (inline_key ?_ ?_) ?_) (by decide),
    .call up (c.drop 16) (.call up (c.take 16) (.start far rfl (by decide)) (up_fair (far_key ?_ _) ?_) ?_)
      (up_fair (far_key ?_ _) ?_) ?_, ?_, ?_, ?_, ?_⟩
  all_goals decide +kernel

/-! ## CMAC -/

variable {mac : List UInt8 → List UInt8 → List UInt8} {st : List UInt8 → List UInt8 → CmacState}

theorem macs_inv (hroom : Roomy cfg f.dataLen) (hag : ∀ c, Agree f.n cfg.codes (Call.op c)) (hL : CmacLib cfg.lib mac st)
    (hK : aesLen K.length = true) {c : Cmac} {m : List UInt8} {log : List (List UInt8 × Nat × List UInt8)}
    (h : Macs cfg f K c m log) : Has K m st c ∧ ∀ e ∈ log, e.2.2 = (mac K e.1).take e.2.1 := by
  induction h with
  | start c h1 h2 => exact ⟨⟨by rw [h1, hL.zero], .inl h2, by decide⟩, fun e h => absurd h (by simp)⟩
  | @update c m log t key input _ hb hf hin ih =>
    rcases (update_step hroom hag hL hK ih.1 hb hf hin).2 with ⟨h0, h1⟩ | ⟨h0, h1⟩
    · rw [if_neg h0]; exact ⟨h1, ih.2⟩
    · rw [if_pos h0]; exact ⟨h1, ih.2⟩
  | @final c m log t len _ hlen hf ih =>
    rcases (final_step hroom hag hL hK ih.1 hlen hf).2 with ⟨h0, h1⟩ | ⟨h0, h1, h2⟩
    · rw [if_neg h0, if_neg h0, h1]; exact ih
    · rw [if_pos h0, if_pos h0]
      refine ⟨h2, fun e he => ?_⟩
      rcases List.mem_append.1 he with he | he
      · exact ih.2 e he
      · rw [List.mem_singleton.1 he]; exact h1
  | @generate c m log t key input len _ hb hlen hf hin ih =>
    rcases (generate_step hroom hag hL hK ih.1 hb hlen hf hin).2 with ⟨h0, h1⟩ | ⟨h0, h1, h2⟩
    · rw [if_neg h0, if_neg h0]; exact ⟨h1, ih.2⟩
    · rw [if_pos h0, if_pos h0]
      refine ⟨h2, fun e he => ?_⟩
      rcases List.mem_append.1 he with he | he
      · exact ih.2 e he
      · rw [List.mem_singleton.1 he]; exact h1

/-- **C64**, CMAC: after any updates, MACs taken and one-shot MACs with one object, some of which may fail, each MAC is
that of the message made of the pieces since the last one, cut to the length asked for; the key is stored on the
server, or the caller brings it at least once.

Partial: an object with a stored key to which the caller also gives one mixes the keys (`F_C64_cmac_two_keys`); MACs of
2 or 3 bytes lose the message (`F_C64_short_tag`). -/
theorem C64_cmac_partial (hroom : Roomy cfg f.dataLen) (hag : ∀ c, Agree f.n cfg.codes (Call.op c)) (hL : CmacLib cfg.lib mac st)
    (hK : aesLen K.length = true) {c : Cmac} {m : List UInt8} {log : List (List UInt8 × Nat × List UInt8)}
    (h : Macs cfg f K c m log) : ∀ m n tag, (m, n, tag) ∈ log → tag = (mac K m).take n :=
  fun m n tag he => (macs_inv hroom hag hL hK h).2 (m, n, tag) he

/-- **C64**, the blocking call `wh_Client_Cmac`, which sends one or two requests: if it succeeds the input has become part
of the message, and with an output the MAC of the whole message is there and a new one begins.  A key is given with the
first piece or not at all. -/
theorem C64_cmac_call_partial (hroom : Roomy cfg f.dataLen) (hag : ∀ c, Agree f.n cfg.codes (Call.op c)) (hL : CmacLib cfg.lib mac st)
    (hK : aesLen K.length = true) {c : Cmac} {m : List UInt8} {log : List (List UInt8 × Nat × List UInt8)}
    (h : Macs cfg f K c m log) {t t' : Turn} {key input : List UInt8} {out : Option Nat} (hb : Brings c.id K key)
    (hnew : key = [] ∨ m = []) (hin : (m ++ input).length < 4294967280)
    (hu : Fair cfg f (MacKey cfg c.id K) t (c.updateCall key input))
    (hg : ∀ len, out = some len → Fair cfg f (MacKey cfg c.id K) t (c.generateCall key input len))
    (hf : Fair cfg f (MacKey cfg c.id K) t' c.finalCall)
    (hf' : Fair cfg f (MacKey cfg c.id K) t' (update f t c key input).2.finalCall)
    (h0 : (cmac f t t' c key input out).1 = 0) :
    match out with
    | none => ∀ len t'', tagLenOk len = true → Fair cfg f (MacKey cfg c.id K) t'' (cmac f t t' c key input none).2.2.finalCall →
        (final f t'' (cmac f t t' c key input none).2.2 len).1 = 0 →
        (final f t'' (cmac f t t' c key input none).2.2 len).2.1 = (mac K (m ++ input)).take len
    | some len => (cmac f t t' c key input out).2.1 = (mac K (m ++ input)).take len ∧
        (cmac f t t' c key input out).2.2.st = CmacState.zero := by
  obtain ⟨hh, -⟩ := macs_inv hroom hag hL hK h
  obtain ⟨hid, hstep⟩ := update_step hroom hag hL hK hh hb hu hin
  cases out with
  | none =>
    dsimp only
    intro len t'' hlen hf2 h2
    have key' : Has K (m ++ input) st (cmac f t t' c key input none).2.2 ∧ (cmac f t t' c key input none).2.2.id = c.id := by
      unfold ClientStream.cmac at h0 ⊢
      dsimp only at h0 ⊢
      split
      · rename_i hz
        rw [hz.1, List.append_nil]
        exact ⟨hh, rfl⟩
      · rename_i hz
        rw [if_neg hz] at h0
        rcases hstep with ⟨h1, -⟩ | ⟨-, h1⟩
        · exact absurd h0 h1
        · exact ⟨h1, hid⟩
    rw [← key'.2] at hf2
    rcases (final_step hroom hag hL hK key'.1 hlen hf2).2 with ⟨h1, -⟩ | ⟨-, h1, -⟩
    · exact absurd h2 h1
    · exact h1
  | some len =>
    dsimp only
    unfold ClientStream.cmac at h0 ⊢
    dsimp only at h0 ⊢
    by_cases hl : tagLenOk len = false
    · rw [if_pos hl] at h0
      exact absurd h0 (by decide : Rc.bufferSize.code ≠ 0)
    · rw [if_neg hl] at h0 ⊢
      have hl' : tagLenOk len = true := by simpa using hl
      split
      · rename_i hc
        rw [if_pos hc] at h0
        have hm : m = [] := by
          rcases hc.2.2.2 with hk | ⟨h1, h2⟩
          · exact hnew.resolve_left hk
          · by_cases hm : m = []
            · exact hm
            · rw [hh.st] at h1 h2
              rcases hL.fresh K m hh.len hm with h3 | h3
              · exact absurd h1 h3
              · exact absurd h2 h3
        rcases (generate_step hroom hag hL hK hh hb hl' (hg len rfl) (by rw [List.length_append] at hin; omega)).2 with
          ⟨h1, -⟩ | ⟨-, h1, h2⟩
        · exact absurd h0 h1
        · rw [h1, hm, List.nil_append, h2.st, hL.zero]
          exact ⟨rfl, rfl⟩
      · rename_i hc
        rw [if_neg hc] at h0
        by_cases hz : input = [] ∧ key = []
        · simp only [if_pos hz, if_true] at h0 ⊢
          rcases (final_step hroom hag hL hK hh hl' hf).2 with ⟨h1, -⟩ | ⟨-, h1, h2⟩
          · exact absurd h0 h1
          · rw [h1, hz.1, List.append_nil, h2.st, hL.zero]
            exact ⟨rfl, rfl⟩
        · simp only [if_neg hz] at h0 ⊢
          rcases hstep with ⟨h1, -⟩ | ⟨h1, h2⟩
          · rw [if_neg h1] at h0
            exact absurd h0 h1
          · rw [if_pos h1] at h0 ⊢
            rw [← hid] at hf'
            rcases (final_step hroom hag hL hK h2 hl' hf').2 with ⟨h3, -⟩ | ⟨-, h3, h4⟩
            · exact absurd h0 h3
            · rw [h3, h4.st, hL.zero]
              exact ⟨rfl, rfl⟩

open ClientStreamDemo in
/-- The hypotheses hold: the caller brings the key with the first piece, one request gets no response, then the MAC; a
one-shot MAC with a stored key. -/
example : ∃ c m log, Macs ClientStreamDemo.cfg ClientStreamDemo.f ClientStreamDemo.K c m log ∧ m = [7] ∧
    log = [([1, 2, 3], 16, ClientStream.Demo.mac ClientStreamDemo.K [1, 2, 3])] := by
  have hk : ∀ id, KeyId.isErased id = true → MacKey ClientStreamDemo.cfg id ClientStreamDemo.K Keystore.Demo.one sys :=
    fun id h h' => by rw [h] at h'; cases h'
  have hb : ∀ (id : UInt16) key, (key = [] ∨ key = ClientStreamDemo.K) → KeyId.isErased id = true → Brings id ClientStreamDemo.K key :=
    fun id key h h' => by unfold Brings; rw [if_pos h']; exact h
  have hu : ∀ {c c' : Cmac} {m log} (key input), Macs ClientStreamDemo.cfg ClientStreamDemo.f ClientStreamDemo.K c m log →
      (key = [] ∨ key = ClientStreamDemo.K) → (m ++ input).length < 4294967280 →
      (KeyId.isErased c.id = true ∧ ends (c.updateCall key input) = true ∧
        update ClientStreamDemo.f up c key input = (0, c')) →
      Macs ClientStreamDemo.cfg ClientStreamDemo.f ClientStreamDemo.K c' (m ++ input) log := by
    intro c c' m log key input h h1 h2 ⟨h3, h4, h5⟩
    have h6 := Macs.update up key input h (hb _ _ h1 h3) (up_fair (hk _ h3) h4) h2
    rw [h5] at h6
    exact h6
  have hf : ∀ {c c' : Cmac} {m log tag}, Macs ClientStreamDemo.cfg ClientStreamDemo.f ClientStreamDemo.K c m log →
      (KeyId.isErased c.id = true ∧ ends c.finalCall = true ∧ final ClientStreamDemo.f up c 16 = (0, tag, c')) →
      Macs ClientStreamDemo.cfg ClientStreamDemo.f ClientStreamDemo.K c' [] (log ++ [(m, 16, tag)]) := by
    intro c c' m log tag h ⟨h3, h4, h5⟩
    have h6 := Macs.final up 16 h (by decide) (up_fair (hk _ h3) h4)
    rw [h5] at h6
    exact h6
  have hd : ∀ {c : Cmac} {m log}, Macs ClientStreamDemo.cfg ClientStreamDemo.f ClientStreamDemo.K c m log →
      final ClientStreamDemo.f down c 16 = (Rc.aborted.code, [], c) → Macs ClientStreamDemo.cfg ClientStreamDemo.f ClientStreamDemo.K c m log := by
    intro c m log h h5
    have h6 := Macs.final down 16 h (by decide) (down_fair _)
    rw [h5] at h6
    exact h6
  have s1 := hu (c' := ⟨0, ClientStreamDemo.K, ClientStream.Demo.st ClientStreamDemo.K [1, 2]⟩) ClientStreamDemo.K [1, 2]
    (.start macOwn rfl rfl) (.inr rfl) (by decide) (by decide +kernel)
  have s2 := hu (c' := ⟨0, ClientStreamDemo.K, ClientStream.Demo.st ClientStreamDemo.K [1, 2, 3]⟩) [] [3] s1 (.inl rfl)
    (by decide) (by decide +kernel)
  have s3 := hf (c' := ⟨0, ClientStreamDemo.K, .zero⟩) (tag := ClientStream.Demo.mac ClientStreamDemo.K [1, 2, 3])
    (hd s2 (by decide +kernel)) (by decide +kernel)
  exact ⟨_, _, _, hu (c' := ⟨0, ClientStreamDemo.K, ClientStream.Demo.st ClientStreamDemo.K [7]⟩) [] [7] s3 (.inl rfl) (by decide)
    (by decide +kernel), rfl, rfl⟩

open ClientStreamDemo in
example : cmac ClientStreamDemo.f up up macFar [] [1, 2, 3] (some 8) =
    (0, (ClientStream.Demo.mac ClientStreamDemo.K [1, 2, 3]).take 8, macFar) := by decide +kernel

open ClientStreamDemo in
/-- **Finding**: an object with a stored key (as `wh_Client_CmacSetKeyId` makes it), to which the caller gives a key with the
first piece: the update is done with that key, but it is not kept (src/wh_client_crypto.c:5855-5862), and the MAC is
finished with the stored key.  All calls succeed, and the MAC is that of neither key. -/
theorem F_C64_cmac_two_keys : Roomy ClientStreamDemo.cfg ClientStreamDemo.f.dataLen ∧
    CmacLib ClientStreamDemo.cfg.lib ClientStream.Demo.mac ClientStream.Demo.st ∧
    ∃ c tag c', cmac ClientStreamDemo.f up up macFar K' [1, 2] none = (0, [], c) ∧
      cmac ClientStreamDemo.f up up c [] [] (some 16) = (0, tag, c') ∧
      tag ≠ ClientStream.Demo.mac K' [1, 2] ∧ tag ≠ ClientStream.Demo.mac ClientStreamDemo.K [1, 2] := by
  refine ⟨roomy, ClientStream.Demo.cmacLib, (cmac ClientStreamDemo.f up up macFar K' [1, 2] none).2.2, List.replicate 16 224,
    macFar, ?_, ?_, ?_, ?_⟩ <;> decide +kernel

open ClientStreamDemo in
/-- **Finding**: a call of `wh_Client_Cmac` with the last piece fails in its second request; called again with the same
arguments it succeeds, with the MAC of a message that has the piece twice. -/
theorem F_C64_cmac_retry : ∃ c c' tag c'' rc, cmac ClientStreamDemo.f up up macFar [] [1, 2] none = (0, [], c) ∧
    cmac ClientStreamDemo.f up down c [] [3] (some 16) = (rc, [], c') ∧ rc ≠ 0 ∧
    cmac ClientStreamDemo.f up up c' [] [3] (some 16) = (0, tag, c'') ∧
    tag = ClientStream.Demo.mac ClientStreamDemo.K [1, 2, 3, 3] ∧ tag ≠ ClientStream.Demo.mac ClientStreamDemo.K [1, 2, 3] := by
  refine ⟨(cmac ClientStreamDemo.f up up macFar [] [1, 2] none).2.2,
    { macFar with st := ClientStream.Demo.st ClientStreamDemo.K [1, 2, 3] }, _, macFar, Rc.aborted.code,
    ?_, ?_, ?_, ?_, rfl, ?_⟩ <;> decide +kernel

open ClientStreamDemo in
/-- **Finding**: `wh_Client_CmacFinalResponse` checks the length of the caller's buffer after it has taken over the new
state.  With room for 3 bytes it fails, and the message is gone: asked again with enough room, it gives the MAC of
nothing. -/
theorem F_C64_short_tag : ∃ c tag, (update ClientStreamDemo.f up macFar [] [1, 2]) = (0, c) ∧
    final ClientStreamDemo.f up c 3 = (Rc.bufferSize.code, [], macFar) ∧
    final ClientStreamDemo.f up macFar 16 = (0, tag, macFar) ∧ tag = ClientStream.Demo.mac ClientStreamDemo.K [] ∧
    tag ≠ ClientStream.Demo.mac ClientStreamDemo.K [1, 2] := by
  refine ⟨(update ClientStreamDemo.f up macFar [] [1, 2]).2, _, ?_, ?_, ?_, rfl, ?_⟩ <;> decide +kernel

/-- **Finding**: a call of `wh_Client_Cmac` with an output, an input and the key (the same key) in the middle of a message:
if the input fits one packet the MAC is that of this input alone, and the pieces before are dropped; if
it does not quite fit (but an update does), the MAC is that of the whole message. -/
theorem F_C64_cmac_size_dependent (hroom : Roomy cfg f.dataLen) (hag : ∀ c, Agree f.n cfg.codes (Call.op c))
    (hL : CmacLib cfg.lib mac st) (hK : aesLen K.length = true) {c : Cmac} {m : List UInt8}
    {log : List (List UInt8 × Nat × List UInt8)} (h : Macs cfg f K c m log) {t t' : Turn} {input : List UInt8} {len : Nat}
    (hid : KeyId.isErased c.id = true) (hlen : 4 ≤ len ∧ len ≤ 16) (hne : input ≠ []) (hin : (m ++ input).length < 4294967280)
    (hu : Fair cfg f (MacKey cfg c.id K) t (c.updateCall K input))
    (hg : Fair cfg f (MacKey cfg c.id K) t (c.generateCall K input len))
    (hf : Fair cfg f (MacKey cfg c.id K) t' (update f t c K input).2.finalCall)
    (h0 : (cmac f t t' c K input (some len)).1 = 0) :
    (cmac f t t' c K input (some len)).2.1 =
      if input.length ≤ f.dataLen - 100 then (mac K input).take len else (mac K (m ++ input)).take len := by
  obtain ⟨hh, -⟩ := macs_inv hroom hag hL hK h
  have hb : Brings c.id K K := by unfold Brings; rw [if_pos hid]; exact .inr rfl
  have hl' : tagLenOk len = true := by unfold tagLenOk; simp; omega
  have hk0 := (aes_len_le hK).2
  unfold ClientStream.cmac at h0 ⊢
  dsimp only at h0 ⊢
  rw [if_neg (by rw [hl']; decide)] at h0 ⊢
  by_cases hs : input.length ≤ f.dataLen - 100
  · rw [if_pos ⟨hne, by omega, hs, .inl hk0⟩] at h0 ⊢
    rw [if_pos hs]
    rcases (generate_step hroom hag hL hK hh hb hl' hg (by rw [List.length_append] at hin; omega)).2 with ⟨h1, -⟩ | ⟨-, h1, -⟩
    · exact absurd h0 h1
    · exact h1
  · rw [if_neg (fun h => hs h.2.2.1)] at h0 ⊢
    rw [if_neg hs]
    simp only [if_neg (fun h : input = [] ∧ K = [] => hne h.1)] at h0 ⊢
    obtain ⟨hi, hstep⟩ := update_step hroom hag hL hK hh hb hu hin
    rcases hstep with ⟨h1, -⟩ | ⟨h1, h2⟩
    · rw [if_neg h1] at h0
      exact absurd h0 h1
    · rw [if_pos h1] at h0 ⊢
      rw [← hi] at hf
      rcases (final_step hroom hag hL hK h2 hl' hf).2 with ⟨h3, -⟩ | ⟨-, h3, -⟩
      · exact absurd h0 h3
      · exact h3

end WolfHsm.Props

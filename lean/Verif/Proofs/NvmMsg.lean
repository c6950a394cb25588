import Verif.Spec.ClientNvm
import Verif.Proofs.WireSimp

/-! # Client and server agree on the NVM messages -/

namespace WolfHsm.NvmMsg

open Wire
open Server (Req)
open NvmFlash (Meta)

/-! ## Only the received bytes matter -/

theorem label_congr {l l' : List UInt8} (h : l = l') : label l = label l' := by rw [h]

theorem decode_same (cfg : Cfg) (e : Env) {r r' : Req} (hm : r'.magic = r.magic) (ha : r'.action = r.action)
    (hs : r'.size = r.size) (hd : r'.buf.take r.size = r.buf.take r.size) : decode cfg e r' = decode cfg e r := by
  unfold decode
  rw [hm, ha, hs]
  dsimp only
  have f16 : ∀ off, off + 2 ≤ r.size → rd16 cfg.le r.magic r'.buf off = rd16 cfg.le r.magic r.buf off :=
    fun off h => rd16_eq hd h
  have f32 : ∀ off, off + 4 ≤ r.size → rd32 cfg.le r.magic r'.buf off = rd32 cfg.le r.magic r.buf off :=
    fun off h => rd32_eq hd h
  have f64 : ∀ off, off + 8 ≤ r.size → rd64 cfg.le r.magic r'.buf off = rd64 cfg.le r.magic r.buf off :=
    fun off h => rd64_eq hd h
  have fb : ∀ off n, off + n ≤ r.size → rdBytes r'.buf off n = rdBytes r.buf off n :=
    fun off n h => rdBytes_eq hd h
  refine ite_congr rfl (fun _ => ite_congr rfl (fun h => ?_) fun _ => rfl) fun _ => ?_
  · rw [f32 0 (by omega)]
  refine ite_congr rfl (fun _ => rfl) fun _ => ?_
  refine ite_congr rfl (fun _ => rfl) fun _ => ?_
  refine ite_congr rfl (fun _ => ite_congr rfl (fun _ => rfl) fun h => ?_) fun _ => ?_
  · rw [f16 0 (by omega), f16 2 (by omega), f16 4 (by omega), f16 6 (by omega), fb 8 24 (by omega),
      fb 32 (r.size - 32) (by omega)]
  refine ite_congr rfl (fun _ => ite_congr rfl (fun h => ?_) fun _ => rfl) fun _ => ?_
  · rw [f16 0 (by omega), f16 2 (by omega), f16 4 (by omega)]
  refine ite_congr rfl (fun _ => ite_congr rfl (fun h => ?_) fun _ => rfl) fun _ => ?_
  · rw [f16 0 (by omega)]
  refine ite_congr rfl (fun _ => ite_congr rfl (fun h => ?_) fun _ => rfl) fun _ => ?_
  · rw [f16 0 (by omega)]
    congr 2
    funext i
    have := i.isLt
    exact f16 _ (by omega)
  refine ite_congr rfl (fun _ => ite_congr rfl (fun h => ?_) fun _ => rfl) fun _ => ?_
  · rw [f16 0 (by omega), f16 2 (by omega), f16 4 (by omega)]
  refine ite_congr rfl (fun _ => ite_congr rfl (fun h => ?_) fun _ => rfl) fun _ => ?_
  · rw [f64 0 (by omega), f64 8 (by omega), f16 16 (by omega)]
  refine ite_congr rfl (fun _ => ite_congr rfl (fun h => ?_) fun _ => rfl) fun _ => rfl
  · rw [f64 0 (by omega), f16 8 (by omega), f16 10 (by omega), f16 12 (by omega)]

/-! ## Requests of the wrong size -/

theorem decode_refused {cfg : Cfg} {e : Env} {r : Req} (hb : r.size ≤ r.buf.length) (hw : ¬ WellSized cfg r) :
    decode cfg e r = .malformed ∨ decode cfg e r = .unknown ∨
    ∃ md payload, r.action = 4 ∧ decode cfg e r = .add md payload ∧ payload.length ≠ md.len.toNat := by
  unfold WellSized at hw
  unfold decode
  dsimp only
  by_cases h1 : r.action = 1
  · rw [if_pos h1, if_neg (by rw [h1] at hw; exact hw)]; exact Or.inl rfl
  rw [if_neg h1]
  by_cases h2 : r.action = 2
  · rw [if_pos h2, if_neg (by rw [h2] at hw; exact hw)]; exact Or.inl rfl
  rw [if_neg h2]
  by_cases h3 : r.action = 3
  · rw [if_pos h3, if_neg (by rw [h3] at hw; exact hw)]; exact Or.inl rfl
  rw [if_neg h3]
  by_cases h4 : r.action = 4
  · rw [if_pos h4]
    by_cases hs : r.size < 32
    · rw [if_pos hs]; exact Or.inl rfl
    · rw [if_neg hs]
      refine Or.inr (Or.inr ⟨_, _, h4, rfl, ?_⟩)
      rw [h4] at hw
      have hw : ¬ (32 ≤ r.size ∧ r.size = 32 + (rd16 cfg.le r.magic r.buf 6).toNat) := hw
      unfold rdBytes
      rw [List.length_take, List.length_drop, Nat.min_eq_left (by omega)]
      dsimp only
      omega
  rw [if_neg h4]
  by_cases h5 : r.action = 5
  · rw [if_pos h5, if_neg (by rw [h5] at hw; exact hw)]; exact Or.inl rfl
  rw [if_neg h5]
  by_cases h6 : r.action = 6
  · rw [if_pos h6, if_neg (by rw [h6] at hw; exact hw)]; exact Or.inl rfl
  rw [if_neg h6]
  by_cases h7 : r.action = 7
  · rw [if_pos h7, if_neg (by rw [h7] at hw; exact hw)]; exact Or.inl rfl
  rw [if_neg h7]
  by_cases h8 : r.action = 8
  · rw [if_pos h8, if_neg (by rw [h8] at hw; exact hw)]; exact Or.inl rfl
  rw [if_neg h8]
  by_cases h9 : r.action = 0x24 ∧ cfg.dma
  · rw [if_pos h9, if_neg (by rw [h9.1] at hw; exact fun q => hw ⟨h9.2, q⟩)]; exact Or.inl rfl
  rw [if_neg h9]
  by_cases h10 : r.action = 0x28 ∧ cfg.dma
  · rw [if_pos h10, if_neg (by rw [h10.1] at hw; exact fun q => hw ⟨h10.2, q⟩)]; exact Or.inl rfl
  rw [if_neg h10]
  exact Or.inr (Or.inl rfl)

/-! ## Sizes -/

theorem slice_length (s : NvmFlash.Store) (id : UInt16) (off n : Nat) : (s.slice id off n).2.length ≤ n := by
  unfold NvmFlash.Store.slice
  split
  · exact Nat.zero_le _
  · split
    · exact List.length_take_le ..
    · exact Nat.zero_le _

theorem read_length (n : Nvm) (id : UInt16) (off k : Nat) : (n.read id off k).1.2.length ≤ k := by
  unfold Nvm.read
  (repeat' split) <;> first | exact slice_length .. | exact Nat.zero_le _

theorem readChecked_length (n : Nvm) (id : UInt16) (off k : Nat) : (n.readChecked id off k).1.2.length ≤ k := by
  unfold Nvm.readChecked
  split
  · exact read_length ..
  · exact Nat.zero_le _

theorem handleRead_length (cfg : NvmServer.Cfg) (n : Nvm) (id off len : UInt16) :
    (NvmServer.handleRead cfg n id off len).1.2.length ≤ cfg.maxRead := by
  unfold NvmServer.handleRead
  split
  · exact Nat.zero_le _
  · rename_i h
    split
    · split
      · exact Nat.zero_le _
      · dsimp only
        refine Nat.le_trans (readChecked_length ..) ?_
        split
        · rename_i h'
          have : (_ : UInt16).toNat < len.toNat := UInt16.lt_iff_toNat_lt.1 h'
          omega
        · omega
    · exact Nat.zero_le _

theorem respSize_le (a : UInt16) : respSize a ≤ 36 := by
  unfold respSize; (repeat' split) <;> omega

theorem respSize_ge (a : UInt16) : 4 ≤ respSize a := by
  unfold respSize; (repeat' split) <;> omega
/-- Every response fits the packet. -/
theorem handle_fits {cfg : Cfg} {dataLen : Nat} (h1 : 36 ≤ dataLen) (h2 : cfg.nvm.maxRead + 4 ≤ dataLen)
    (e : Env) (r : Req) (n : Nvm) : (handle cfg e r n).1.1.length ≤ dataLen := by
  have hr := respSize_le r.action
  have hg := respSize_ge r.action
  have key : ∀ resp, (∀ rc data, resp = NvmServer.Resp.bytes rc data → r.action = 8 → data.length ≤ cfg.nvm.maxRead) →
      (encode cfg r resp).length ≤ dataLen := by
    intro resp hb
    cases resp with
    | simple rc =>
      show (w32 _ _ _ ++ List.replicate _ _).length ≤ _
      rw [List.length_append, w32_length, List.length_replicate]; omega
    | initResp rc c =>
      unfold encode; dsimp only
      simp only [List.length_append, w32_length]; omega
    | listed rc c i =>
      unfold encode; dsimp only
      simp only [List.length_append, w32_length, w16_length]; omega
    | avail rc v =>
      unfold encode; dsimp only
      simp only [List.length_append, w32_length, w16_length]; omega
    | metadata rc md =>
      unfold encode
      dsimp only
      split
      · simp only [List.length_append, w32_length, w16_length, Vector.length_toList]; omega
      · simp only [List.length_append, w32_length, List.length_replicate]; omega
    | bytes rc data =>
      unfold encode
      dsimp only
      rw [List.length_append, w32_length]
      by_cases h : rc = .ok ∧ r.action = 8
      · rw [if_pos h]
        have := hb rc data rfl h.2
        omega
      · rw [if_neg h]; simp only [List.length_nil]; omega
    | empty => exact Nat.zero_le _
  unfold handle
  dsimp only
  refine key _ fun rc data h ha => ?_
  have hd : decode cfg e r = .malformed ∨ ∃ a b c, decode cfg e r = .read a b c := by
    unfold decode
    dsimp only
    rw [ha]
    rw [if_neg (by decide), if_neg (by decide), if_neg (by decide), if_neg (by decide), if_neg (by decide),
      if_neg (by decide), if_neg (by decide), if_pos rfl]
    by_cases hs : r.size = 6
    · rw [if_pos hs]; exact Or.inr ⟨_, _, _, rfl⟩
    · rw [if_neg hs]; exact Or.inl rfl
  rcases hd with hd | ⟨a, b, c, hd⟩
  · rw [hd] at h; cases h
  · rw [hd] at h
    unfold NvmServer.handle at h
    dsimp only at h
    split at h
    · injection h with _ h
      rw [← h]
      exact handleRead_length ..
    · injection h with _ h
      rw [← h]; exact Nat.zero_le _

end WolfHsm.NvmMsg

namespace WolfHsm.ClientNvm

open Wire
open NvmMsg (Cfg Env label)
open Utils (magicNative)

theorem label_list (v : Vector UInt8 24) : label v.toList = v := by
  unfold label
  apply Vector.ext
  intro i hi
  simp [List.getD_eq_getElem?_getD]

theorem label_zero : label (List.replicate 24 0) = Vector.replicate 24 0 := by decide

theorem padded_length {l : List UInt8} (h : ¬ l.length > 24) : (l ++ List.replicate (24 - l.length) 0).length = 24 := by
  simp; omega

theorem len16 {l : List UInt8} (h : l.length < 65536) : (UInt16.ofNat l.length).toNat = l.length :=
  Comm.ofNat_toNat_len l h

variable {cle sle : Bool} {m : UInt16}

theorem dec_simple (hp : Paired cle sle magicNative m) (dataLen : Nat) {a : UInt16}
    (ha : a = 2 ∨ a = 4 ∨ a = 7 ∨ a = 0x24 ∨ a = 0x28) (seq : UInt16) (code : UInt32) :
    decode cle dataLen a ⟨.ok, magicNative, 0x0200 ||| a, seq,
      w32 sle m code ++ List.replicate (NvmMsg.respSize a - 4) 0⟩ = .simple code := by
  have hz : NvmMsg.respSize a = 4 := by rcases ha with h | h | h | h | h <;> subst h <;> decide
  have hk : (0x0200 ||| a) &&& 0xFF00 = 0x0200 ∧ (0x0200 ||| a) &&& 0x00FF = a := by
    rcases ha with h | h | h | h | h <;> subst h <;> decide
  have hn : a ≠ 8 ∧ a ≠ 1 ∧ a ≠ 3 ∧ a ≠ 5 ∧ a ≠ 6 := by
    rcases ha with h | h | h | h | h <;> subst h <;> decide
  unfold decode
  dsimp only
  rw [if_neg (by simp [hk]), if_neg hn.1, if_neg (by simp [w32_length, hz]), if_neg hn.2.1, if_neg hn.2.2.1,
    if_neg hn.2.2.2.1, if_neg hn.2.2.2.2, rd32_here hp]

theorem dec_code (hp : Paired cle sle magicNative m) (dataLen : Nat) {a : UInt16}
    (ha : a = 2 ∨ a = 4 ∨ a = 7 ∨ a = 0x24 ∨ a = 0x28) (seq : UInt16) (code : UInt32) :
    decode cle dataLen a ⟨.ok, magicNative, 0x0200 ||| a, seq, w32 sle m code⟩ = .simple code := by
  have h := dec_simple hp dataLen ha seq code
  have hz : NvmMsg.respSize a = 4 := by rcases ha with h | h | h | h | h <;> subst h <;> decide
  rwa [hz, Nat.sub_self, List.replicate_zero, List.append_nil] at h

theorem dec_bytes (hp : Paired cle sle magicNative m) {dataLen : Nat} {data : List UInt8}
    (hl : data.length + 4 ≤ dataLen) (seq : UInt16) (code : UInt32) :
    decode cle dataLen 8 ⟨.ok, magicNative, 0x0200 ||| 8, seq, w32 sle m code ++ data⟩ = .bytes code data := by
  unfold decode
  dsimp only
  rw [if_neg (by decide), if_pos rfl, if_neg (by simp [w32_length]; omega), rd32_here hp,
    List.drop_left' (w32_length ..)]

theorem dec_init (hp : Paired cle sle magicNative m) (dataLen : Nat) (seq : UInt16) (code s c : UInt32) :
    decode cle dataLen 1 ⟨.ok, magicNative, 0x0200 ||| 1, seq, w32 sle m code ++ (w32 sle m s ++ w32 sle m c)⟩ =
      .init code c s := by
  unfold decode
  dsimp only
  rw [if_neg (by decide), if_neg (by decide), if_neg (by simp [w32_length, NvmMsg.respSize]), if_pos rfl]
  simp only [rd32_here hp, rd32_last hp, rd16_here hp, rd16_last hp, rd32_w32, rd16_w32, rd16_w16]

theorem dec_listed (hp : Paired cle sle magicNative m) (dataLen : Nat) (seq : UInt16) (code : UInt32) (k i : UInt16) :
    decode cle dataLen 5 ⟨.ok, magicNative, 0x0200 ||| 5, seq, w32 sle m code ++ (w16 sle m k ++ w16 sle m i)⟩ =
      .listed code k i := by
  unfold decode
  dsimp only
  rw [if_neg (by decide), if_neg (by decide), if_neg (by simp [w32_length, w16_length, NvmMsg.respSize]),
    if_neg (by decide), if_neg (by decide), if_pos rfl]
  simp only [rd32_here hp, rd32_last hp, rd16_here hp, rd16_last hp, rd32_w32, rd16_w32, rd16_w16]

theorem dec_avail (hp : Paired cle sle magicNative m) (dataLen : Nat) (seq : UInt16) (code x y : UInt32) (k i : UInt16) :
    decode cle dataLen 3 ⟨.ok, magicNative, 0x0200 ||| 3, seq,
      w32 sle m code ++ (w32 sle m x ++ (w32 sle m y ++ (w16 sle m k ++ w16 sle m i)))⟩ = .avail code x k y i := by
  unfold decode
  dsimp only
  rw [if_neg (by decide), if_neg (by decide), if_neg (by simp [w32_length, w16_length, NvmMsg.respSize]),
    if_neg (by decide), if_pos rfl]
  simp only [rd32_here hp, rd32_last hp, rd16_here hp, rd16_last hp, rd32_w32, rd16_w32, rd16_w16]

theorem dec_meta (hp : Paired cle sle magicNative m) (dataLen : Nat) (seq : UInt16) (code : UInt32)
    (a b c d : UInt16) {l : List UInt8} (hl : l.length = 24) :
    decode cle dataLen 6 ⟨.ok, magicNative, 0x0200 ||| 6, seq,
      w32 sle m code ++ (w16 sle m a ++ (w16 sle m b ++ (w16 sle m c ++ (w16 sle m d ++ l))))⟩ =
      .metadata code ⟨a, b, c, d, label l⟩ := by
  unfold decode
  dsimp only
  have hr : rdBytes (w32 sle m code ++ (w16 sle m a ++ (w16 sle m b ++ (w16 sle m c ++ (w16 sle m d ++ l))))) 12 24 = l := by
    rw [show 12 = 0 + 2 + 2 + 2 + 2 + 4 from rfl, rdBytes_w32, rdBytes_w16, rdBytes_w16, rdBytes_w16, rdBytes_w16]
    have := rdBytes_here (rest := []) hl
    rwa [List.append_nil] at this
  rw [if_neg (by decide), if_neg (by decide), if_neg (by simp [w32_length, w16_length, NvmMsg.respSize, hl]),
    if_neg (by decide), if_neg (by decide), if_neg (by decide), if_pos rfl, hr]
  simp only [rd32_here hp, rd32_last hp, rd16_here hp, rd16_last hp, rd32_w32, rd16_w32, rd16_w16]

theorem dec_meta_zero (hp : Paired cle sle magicNative m) (dataLen : Nat) (seq : UInt16) (code : UInt32) :
    decode cle dataLen 6 ⟨.ok, magicNative, 0x0200 ||| 6, seq, w32 sle m code ++ List.replicate 32 0⟩ =
      .metadata code zeroMeta := by
  have h0 : ∀ v, v = (0 : UInt16) → w16 sle m v = [0, 0] := by
    intro v hv; subst hv
    unfold w16 Utils.translate16
    split <;> cases sle <;> decide
  have : (List.replicate 32 0 : List UInt8) =
      w16 sle m 0 ++ (w16 sle m 0 ++ (w16 sle m 0 ++ (w16 sle m 0 ++ List.replicate 24 0))) := by
    rw [h0 0 rfl]; rfl
  rw [this, dec_meta hp dataLen seq code 0 0 0 0 (by simp), label_zero]
  rfl

theorem written_simple (cfg : Cfg) (r : Server.Req) (rc : Rc) : NvmMsg.written cfg r (.simple rc) = none := rfl

/-- The whole call on the server. -/
theorem handle_call {cfg : Cfg} (hp : Paired cle cfg.le magicNative m) {dataLen : Nat}
    (hd : dataLen < 65536) (h36 : 36 ≤ dataLen) (h2 : cfg.nvm.maxRead + 4 ≤ dataLen) {c : Call} {a : UInt16}
    {body : List UInt8} (he : encode cle dataLen c = .ok (a, body)) (hdma : c.IsDma → cfg.dma = true)
    (e : Env) (n : Nvm) (seq : UInt16) (junk : List UInt8) {q : (List UInt8 × Option (UInt64 × List UInt8)) × Nvm}
    (hq : NvmMsg.handle cfg e ⟨m, a, seq, body ++ junk, body.length⟩ n = q) :
    ((decode cle dataLen a ⟨.ok, magicNative, 0x0200 ||| a, seq, q.1.1⟩, q.1.2), q.2) = expected cfg e n c := by
  have hp' := hp.symm
  subst hq
  unfold NvmMsg.handle
  dsimp only
  cases c with
  | init id =>
    injection he with he; injection he with h1 h2; subst h1; subst h2
    rw [bytes32_eq]
    have hdc : NvmMsg.decode cfg e ⟨m, 1, seq, w32 cle magicNative id ++ junk, (w32 cle magicNative id).length⟩ = .init id := by
      unfold NvmMsg.decode
      dsimp only
      rw [if_pos rfl, if_pos (w32_length ..), rd32_here hp']
    rw [hdc]
    exact congrArg (fun x => ((x, none), n)) (dec_init hp dataLen seq _ _ _)
  | cleanup =>
    injection he with he; injection he with h1 h2; subst h1; subst h2
    exact congrArg (fun x => ((x, none), n)) (dec_simple hp dataLen (Or.inl rfl) seq 0)
  | getAvailable =>
    injection he with he; injection he with h1 h2; subst h1; subst h2
    show _ = expected cfg e n .getAvailable
    have hdc : NvmMsg.decode cfg e ⟨m, 3, seq, [] ++ junk, ([] : List UInt8).length⟩ = .getAvailable := rfl
    rw [hdc]
    unfold expected NvmServer.handle
    dsimp only
    by_cases hl : e.lock = .ok
    · rw [hl, if_pos rfl]
      exact congrArg (fun x => ((x, none), n)) (dec_avail hp dataLen seq _ _ _ _ _)
    · rw [if_neg hl]
      cases hl' : e.lock <;> first | exact absurd hl' hl | exact congrArg (fun x => ((x, none), n)) (dec_avail hp dataLen seq _ _ _ _ _)
  | list x y z =>
    injection he with he; injection he with h1 h2; subst h1; subst h2
    simp only [bytes16_eq]
    have hdc : NvmMsg.decode cfg e ⟨m, 5, seq, (w16 cle magicNative x ++ (w16 cle magicNative y ++ w16 cle magicNative z)) ++ junk,
        (w16 cle magicNative x ++ (w16 cle magicNative y ++ w16 cle magicNative z)).length⟩ = .list x y z := by
      unfold NvmMsg.decode
      dsimp only
      rw [if_neg (by decide), if_neg (by decide), if_neg (by decide), if_neg (by decide), if_pos rfl,
        if_pos (by simp [w16_length])]
      simp only [List.append_assoc, rd16_w16, rd16_here hp']
    rw [hdc]
    unfold expected NvmServer.handle
    dsimp only
    by_cases hl : e.lock = .ok
    · rw [hl, if_pos rfl]
      exact congrArg (fun x => ((x, none), n)) (dec_listed hp dataLen seq _ _ _)
    · rw [if_neg hl]
      cases hl' : e.lock <;> first | exact absurd hl' hl | exact congrArg (fun x => ((x, none), n)) (dec_listed hp dataLen seq _ _ _)
  | getMetadata id =>
    injection he with he; injection he with h1 h2; subst h1; subst h2
    simp only [bytes16_eq]
    have hdc : NvmMsg.decode cfg e ⟨m, 6, seq, w16 cle magicNative id ++ junk, (w16 cle magicNative id).length⟩ = .getMetadata id := by
      unfold NvmMsg.decode
      dsimp only
      rw [if_neg (by decide), if_neg (by decide), if_neg (by decide), if_neg (by decide), if_neg (by decide), if_pos rfl,
        if_pos (by simp [w16_length]), rd16_here hp']
    rw [hdc]
    unfold expected NvmServer.handle
    dsimp only
    by_cases hl : e.lock = .ok
    · rw [hl, if_pos rfl]
      unfold Nvm.metadata NvmFlash.Store.info
      cases hs : n.store id with
      | none => exact congrArg (fun x => ((x, none), n)) (dec_meta_zero hp dataLen seq _)
      | some q =>
        obtain ⟨md, bs⟩ := q
        refine congrArg (fun x => ((x, none), n)) ((dec_meta hp dataLen seq _ _ _ _ _ (Vector.length_toList ..)).trans ?_)
        rw [label_list]; rfl
    · rw [if_neg hl]
      cases hl' : e.lock <;> first | exact absurd hl' hl | exact congrArg (fun x => ((x, none), n)) (dec_meta_zero hp dataLen seq _)
  | read x y z =>
    injection he with he; injection he with h1 h2; subst h1; subst h2
    simp only [bytes16_eq]
    have hdc : NvmMsg.decode cfg e ⟨m, 8, seq, (w16 cle magicNative x ++ (w16 cle magicNative y ++ w16 cle magicNative z)) ++ junk,
        (w16 cle magicNative x ++ (w16 cle magicNative y ++ w16 cle magicNative z)).length⟩ = .read x y z := by
      unfold NvmMsg.decode
      dsimp only
      rw [if_neg (by decide), if_neg (by decide), if_neg (by decide), if_neg (by decide), if_neg (by decide),
        if_neg (by decide), if_neg (by decide), if_pos rfl, if_pos (by simp [w16_length])]
      simp only [List.append_assoc, rd16_w16, rd16_here hp']
    rw [hdc]
    unfold expected NvmServer.handle
    dsimp only
    have hw : ∀ rc data r', r' = (⟨m, 8, seq, (w16 cle magicNative x ++ (w16 cle magicNative y ++ w16 cle magicNative z)) ++ junk,
        (w16 cle magicNative x ++ (w16 cle magicNative y ++ w16 cle magicNative z)).length⟩ : Server.Req) →
        NvmMsg.written cfg r' (.bytes rc data) = none := by
      intro rc data r' hr; subst hr
      cases rc <;> first | rfl | exact if_neg (show ¬ (8 : UInt16) = 0x28 by decide)
    by_cases hl : e.lock = .ok
    · rw [hl, if_pos rfl]
      dsimp only
      rw [hw _ _ _ rfl]
      have hlen := NvmMsg.handleRead_length cfg.nvm n x y z
      generalize NvmServer.handleRead cfg.nvm n x y z = q at *
      obtain ⟨⟨rc, data⟩, n'⟩ := q
      dsimp only at *
      have : (if rc = .ok ∧ (8 : UInt16) = 8 then data else []) = if rc = .ok then data else [] := by simp
      refine congrArg (fun x => ((x, none), n')) ?_
      refine Eq.trans ?_ (dec_bytes hp (data := if rc = .ok then data else []) (dataLen := dataLen) ?_ seq rc.code)
      · unfold NvmMsg.encode; dsimp only; rw [this]
      · split
        · omega
        · simp only [List.length_nil]; omega
    · rw [if_neg hl]
      have key : ∀ rc : Rc, rc ≠ .ok → ((decode cle dataLen 8 ⟨.ok, magicNative, 0x0200 ||| 8, seq,
          NvmMsg.encode cfg ⟨m, 8, seq, (w16 cle magicNative x ++ (w16 cle magicNative y ++ w16 cle magicNative z)) ++ junk,
          (w16 cle magicNative x ++ (w16 cle magicNative y ++ w16 cle magicNative z)).length⟩ (.bytes rc [])⟩,
          (none : Option (UInt64 × List UInt8))), n) = ((.bytes rc.code [], none), n) := by
        intro rc hrc
        refine congrArg (fun x => ((x, none), n)) ?_
        refine Eq.trans ?_ (dec_bytes hp (data := []) (dataLen := dataLen) (by simp only [List.length_nil]; omega) seq rc.code)
        unfold NvmMsg.encode; dsimp only; rw [if_neg (fun h => hrc h.1)]
      have hk := key e.lock hl
      cases hl' : e.lock <;> first | exact absurd hl' hl | (rw [hl'] at hk; exact hk)
  | add id acc fl lb data =>
    unfold encode at he
    dsimp only at he
    by_cases h1 : lb.length > 24
    · rw [if_pos h1] at he; cases he
    rw [if_neg h1] at he
    by_cases h3 : data.length > dataLen - 32
    · rw [if_pos h3] at he; cases he
    rw [if_neg h3] at he
    injection he with he; injection he with h4 h5; subst h4; subst h5
    have hpl := padded_length h1
    have hl16 := len16 (l := data) (by omega)
    simp only [bytes16_eq]
    generalize hlb : lb ++ List.replicate (24 - lb.length) 0 = pl at *
    have hlen : (w16 cle magicNative id ++ (w16 cle magicNative acc ++ (w16 cle magicNative fl ++
      (w16 cle magicNative (UInt16.ofNat data.length) ++ (pl ++ data))))).length = 32 + data.length := by
      simp only [List.length_append, w16_length, hpl]; omega
    rw [hlen]
    have hdc : NvmMsg.decode cfg e ⟨m, 4, seq, (w16 cle magicNative id ++ (w16 cle magicNative acc ++ (w16 cle magicNative fl ++
      (w16 cle magicNative (UInt16.ofNat data.length) ++ (pl ++ data))))) ++ junk, 32 + data.length⟩ =
        .add (newMeta id acc fl lb data) data := by
      unfold NvmMsg.decode
      dsimp only
      rw [if_neg (by decide), if_neg (by decide), if_neg (by decide), if_pos rfl, if_neg (by omega)]
      simp only [List.append_assoc, rd16_w16, rd16_here hp', rdBytes_w16, rdBytes_here hpl]
      have : rdBytes (pl ++ (data ++ junk)) 24 (32 + data.length - 32) = data := by
        have h := rdBytes_skip (rest := data ++ junk) (k := 0) (l := 32 + data.length - 32) hpl
        rw [Nat.zero_add] at h
        rw [h]; exact rdBytes_here (by omega)
      rw [this]
      unfold newMeta
      rw [hlb]
      rfl
    rw [hdc]
    unfold expected NvmServer.handle NvmServer.handleAdd
    dsimp only
    rw [if_pos (by exact hl16.symm)]
    by_cases hsb : cfg.nvm.statefulBlob data = true
    · rw [if_pos hsb, if_pos hsb]
      exact congrArg (fun x => ((x, none), n)) (dec_simple hp dataLen (Or.inr (Or.inl rfl)) seq _)
    · rw [if_neg hsb, if_neg hsb]
      unfold locked
      by_cases hl : e.lock = .ok
      · rw [hl, if_pos rfl]
        exact congrArg (fun x => ((x, none), _)) (dec_simple hp dataLen (Or.inr (Or.inl rfl)) seq _)
      · rw [if_neg hl]
        cases hl' : e.lock <;> first | exact absurd hl' hl | exact congrArg (fun x => ((x, none), n)) (dec_simple hp dataLen (Or.inr (Or.inl rfl)) seq _)
  | destroy ids =>
    unfold encode at he
    dsimp only at he
    by_cases h1 : ids.length > 19
    · rw [if_pos h1] at he; cases he
    rw [if_neg h1] at he
    injection he with he; injection he with h4 h5; subst h4; subst h5
    simp only [bytes16_eq, funext (bytes16_eq cle)]
    have hil : (ids ++ List.replicate (19 - ids.length) (0 : UInt16)).length = 19 := by simp; omega
    have htk : (ids ++ List.replicate (19 - ids.length) (0 : UInt16)).take ids.length = ids := List.take_left' rfl
    generalize ids ++ List.replicate (19 - ids.length) (0 : UInt16) = pl at *
    have hcnt : (UInt16.ofNat ids.length).toNat = ids.length := by
      rw [UInt16.toNat_ofNat']; omega
    have hlen : (w16 cle magicNative (UInt16.ofNat ids.length) ++ pl.flatMap (w16 cle magicNative)).length = 40 := by
      rw [List.length_append, w16_length, flat16_length]; omega
    rw [hlen]
    have hdc : ∃ v, v.toList = pl ∧ NvmMsg.decode cfg e ⟨m, 7, seq, (w16 cle magicNative (UInt16.ofNat ids.length) ++
        pl.flatMap (w16 cle magicNative)) ++ junk, 40⟩ = .destroy (UInt16.ofNat ids.length) v := by
      unfold NvmMsg.decode
      dsimp only
      rw [if_neg (by decide), if_neg (by decide), if_neg (by decide), if_neg (by decide), if_neg (by decide),
        if_neg (by decide), if_pos rfl, if_pos rfl, List.append_assoc, rd16_here hp']
      refine ⟨_, ?_, rfl⟩
      apply List.ext_getElem
      · rw [Vector.length_toList, hil]
      · intro i hi1 hi2
        rw [Vector.getElem_toList, Vector.getElem_ofFn, Nat.add_comm 2, rd16_w16, rd16_array hp' pl i hi2]
    obtain ⟨v, hv, hdc⟩ := hdc
    rw [hdc]
    unfold expected NvmServer.handle NvmServer.handleDestroy locked
    dsimp only
    rw [hcnt, if_pos (by omega), hv, htk]
    by_cases hl : e.lock = .ok
    · rw [hl, if_pos rfl]
      exact congrArg (fun x => ((x, none), _)) (dec_simple hp dataLen (Or.inr (Or.inr (Or.inl rfl))) seq _)
    · rw [if_neg hl]
      cases hl' : e.lock <;> first | exact absurd hl' hl | exact congrArg (fun x => ((x, none), n)) (dec_simple hp dataLen (Or.inr (Or.inr (Or.inl rfl))) seq _)
  | addDma x y z =>
    have hdm := hdma trivial
    injection he with he; injection he with h1 h2; subst h1; subst h2
    simp only [bytes16_eq, bytes64_eq]
    have hdc : NvmMsg.decode cfg e ⟨m, 0x24, seq, (w64 cle magicNative x ++ (w64 cle magicNative y ++ (w16 cle magicNative z ++ List.replicate 6 0))) ++ junk,
        (w64 cle magicNative x ++ (w64 cle magicNative y ++ (w16 cle magicNative z ++ List.replicate 6 0))).length⟩ =
        .addDma (e.pre false x 32) (e.pre false y z.toNat) (e.null x) (NvmMsg.rawMeta cfg.le (e.mem1 x 32))
          (NvmMsg.rawMeta cfg.le (e.mem2 x 32)) (e.mem1 y z.toNat) (e.mem2 y z.toNat) := by
      unfold NvmMsg.decode
      dsimp only
      rw [if_neg (by decide), if_neg (by decide), if_neg (by decide), if_neg (by decide), if_neg (by decide),
        if_neg (by decide), if_neg (by decide), if_neg (by decide), if_pos ⟨rfl, hdm⟩,
        if_pos (by simp [w16_length, w64_length])]
      simp only [List.append_assoc, rd16_w16, rd16_w64, rd64_w64, rd64_here hp', rd16_here hp']
    rw [hdc]
    have key := fun rc => dec_simple hp dataLen (a := 0x24) (Or.inr (Or.inr (Or.inr (Or.inl rfl)))) seq (Rc.code rc)
    unfold expected NvmServer.handle NvmServer.handleAddDma
    dsimp only
    by_cases p1 : e.pre false x 32 = .ok
    · rw [if_neg (c := e.pre false x 32 ≠ .ok) (fun h => h p1), p1]
      by_cases p2 : e.pre false y z.toNat = .ok
      · rw [if_neg (c := e.pre false y z.toNat ≠ .ok) (fun h => h p2), p2]
        dsimp only
        by_cases hz : e.null x = true
        · rw [if_pos hz, if_pos hz]
          exact congrArg (fun x => ((x, none), n)) (key _)
        rw [if_neg hz, if_neg hz]
        by_cases hsb : cfg.nvm.statefulBlob (e.mem1 y z.toNat) = true
        · rw [if_pos hsb, if_pos hsb]
          exact congrArg (fun x => ((x, none), n)) (key _)
        rw [if_neg hsb, if_neg hsb]
        unfold locked
        by_cases hl : e.lock = .ok
        · rw [hl, if_pos rfl]
          exact congrArg (fun x => ((x, none), _)) (key _)
        · rw [if_neg hl]
          cases hl' : e.lock <;> first | exact absurd hl' hl | exact congrArg (fun x => ((x, none), n)) (key _)
      · rw [if_pos p2]
        cases p2' : e.pre false y z.toNat <;> first | exact absurd p2' p2 | exact congrArg (fun x => ((x, none), n)) (key _)
    · rw [if_pos p1]
      cases p1' : e.pre false x 32 <;> first | exact absurd p1' p1 | exact congrArg (fun x => ((x, none), n)) (key _)
  | readDma x y z ad =>
    have hdm := hdma trivial
    injection he with he; injection he with h1 h2; subst h1; subst h2
    simp only [bytes16_eq, bytes64_eq]
    generalize hbuf : (w64 cle magicNative ad ++ (w16 cle magicNative x ++ (w16 cle magicNative y ++ (w16 cle magicNative z ++ [0, 0])))) ++ junk = buf
    have hbl : (w64 cle magicNative ad ++ (w16 cle magicNative x ++ (w16 cle magicNative y ++ (w16 cle magicNative z ++ [0, 0])))).length = 16 := by
      simp [w16_length, w64_length]
    rw [hbl]
    have had : rd64 cfg.le m buf 0 = ad := by
      rw [← hbuf]; simp only [List.append_assoc, rd64_here hp']
    have hdc : NvmMsg.decode cfg e ⟨m, 0x28, seq, buf, 16⟩ = .readDma x y z (e.pre true ad z.toNat) := by
      unfold NvmMsg.decode
      dsimp only
      rw [if_neg (by decide), if_neg (by decide), if_neg (by decide), if_neg (by decide), if_neg (by decide),
        if_neg (by decide), if_neg (by decide), if_neg (by decide), if_neg (fun h => absurd h.1 (by decide)), if_pos ⟨rfl, hdm⟩,
        if_pos rfl, had, ← hbuf]
      simp only [List.append_assoc, rd16_w16, rd16_w64, rd16_here hp']
    rw [hdc]
    have key : ∀ rc data, decode cle dataLen 0x28 ⟨.ok, magicNative, 0x0200 ||| 0x28, seq,
        NvmMsg.encode cfg ⟨m, 0x28, seq, buf, 16⟩ (.bytes rc data)⟩ = .simple rc.code := by
      intro rc data
      refine Eq.trans ?_ (dec_simple hp dataLen (a := 0x28) (Or.inr (Or.inr (Or.inr (Or.inr rfl)))) seq (Rc.code rc))
      unfold NvmMsg.encode
      dsimp only
      rw [if_neg (fun h => absurd h.2 (by decide))]
      rfl
    have hw : ∀ rc data, NvmMsg.written cfg ⟨m, 0x28, seq, buf, 16⟩ (.bytes rc data) = if rc = .ok then some (ad, data) else none := by
      intro rc data
      cases rc <;> first | rfl | (unfold NvmMsg.written; dsimp only; rw [if_pos rfl, if_pos rfl, had])
    unfold expected NvmServer.handle
    dsimp only
    by_cases hl : e.lock = .ok
    · rw [hl, if_pos rfl]
      dsimp only
      rw [key, hw]
    · rw [if_neg hl]
      have hk : ((decode cle dataLen 0x28 ⟨.ok, magicNative, 0x0200 ||| 0x28, seq,
        NvmMsg.encode cfg ⟨m, 0x28, seq, buf, 16⟩ (.bytes e.lock [])⟩, NvmMsg.written cfg ⟨m, 0x28, seq, buf, 16⟩ (.bytes e.lock [])), n)
        = ((Result.simple e.lock.code, none), n) := by rw [key, hw, if_neg hl]
      cases hl' : e.lock <;> first | exact absurd hl' hl | (rw [hl'] at hk; exact hk)

/-- Requests fit the packet. -/
theorem encode_fits {cle : Bool} {dataLen : Nat} (h : 40 ≤ dataLen) {c : Call} {a : UInt16} {body : List UInt8}
    (he : encode cle dataLen c = .ok (a, body)) : body.length ≤ dataLen ∧
      (a = 1 ∨ a = 2 ∨ a = 3 ∨ a = 4 ∨ a = 5 ∨ a = 6 ∨ a = 7 ∨ a = 8 ∨ a = 0x24 ∨ a = 0x28) := by
  unfold encode at he
  simp only [bytes16_eq, bytes32_eq, bytes64_eq, funext (bytes16_eq cle)] at he
  cases c <;> dsimp only at he
  case add id acc fl lb data =>
    by_cases h1 : lb.length > 24
    · rw [if_pos h1] at he; cases he
    rw [if_neg h1] at he
    by_cases h3 : data.length > dataLen - 32
    · rw [if_pos h3] at he; cases he
    rw [if_neg h3] at he
    injection he with he; injection he with h4 h5; subst h4; subst h5
    refine ⟨?_, by decide⟩
    simp only [List.length_append, w16_length, List.length_replicate]; omega
  case destroy ids =>
    by_cases h1 : ids.length > 19
    · rw [if_pos h1] at he; cases he
    rw [if_neg h1] at he
    injection he with he; injection he with h4 h5; subst h4; subst h5
    refine ⟨?_, by decide⟩
    simp only [List.length_append, w16_length, flat16_length, List.length_replicate]; omega
  all_goals
    injection he with he; injection he with h4 h5; subst h4; subst h5
    refine ⟨?_, by decide⟩
    simp only [List.length_append, w16_length, w32_length, w64_length, List.length_replicate, List.length_nil, List.length_cons]
    omega

theorem zero_words (sle : Bool) (m : UInt16) : w16 sle m 0 = [0, 0] ∧ w32 sle m 0 = [0, 0, 0, 0] := by
  constructor
  · unfold w16 Utils.translate16
    split <;> cases sle <;> decide
  · unfold w32 Utils.translate32
    split <;> cases sle <;> decide

/-- A refusal, as the client's response functions see it. -/
theorem dec_refusal {R : Type} {cfg : Server.Cfg R} (hp : Paired cle cfg.le magicNative m) {dataLen : Nat} (h4 : 4 ≤ dataLen)
    {c : Call} {a : UInt16} {body : List UInt8} (he : encode cle dataLen c = .ok (a, body)) (seq : UInt16)
    (buf : List UInt8) (n : Nat) :
    decode cle dataLen a ⟨.ok, magicNative, 0x0200 ||| a, seq, Server.refusal cfg 0x0200 ⟨m, a, seq, buf, n⟩⟩ =
      refusedResult c := by
  obtain ⟨z16, z32⟩ := zero_words cfg.le m
  cases c with
  | init id =>
    injection he with he; injection he with h1 h2; subst h1
    refine Eq.trans ?_ (dec_init hp dataLen seq Rc.authPermissionError.code 0 0)
    rw [z32]; rfl
  | cleanup =>
    injection he with he; injection he with h1 h2; subst h1
    exact dec_code hp dataLen (Or.inl rfl) seq _
  | getAvailable =>
    injection he with he; injection he with h1 h2; subst h1
    refine Eq.trans ?_ (dec_avail hp dataLen seq Rc.authPermissionError.code 0 0 0 0)
    rw [z32, z16]; rfl
  | list x y z =>
    injection he with he; injection he with h1 h2; subst h1
    refine Eq.trans ?_ (dec_listed hp dataLen seq Rc.authPermissionError.code 0 0)
    rw [z16]; rfl
  | getMetadata id =>
    injection he with he; injection he with h1 h2; subst h1
    exact dec_meta_zero hp dataLen seq _
  | read x y z =>
    injection he with he; injection he with h1 h2; subst h1
    refine Eq.trans ?_ (dec_bytes hp (data := []) (dataLen := dataLen) (by simpa using h4) seq _)
    rw [List.append_nil]; rfl
  | add id acc fl lb data =>
    unfold encode at he
    dsimp only at he
    by_cases h1 : lb.length > 24
    · rw [if_pos h1] at he; cases he
    rw [if_neg h1] at he
    by_cases h3 : data.length > dataLen - 32
    · rw [if_pos h3] at he; cases he
    rw [if_neg h3] at he
    injection he with he; injection he with h4 h5; subst h4
    refine Eq.trans ?_ (dec_code hp dataLen (Or.inr (Or.inl rfl)) seq _)
    rfl
  | destroy ids =>
    unfold encode at he
    dsimp only at he
    by_cases h1 : ids.length > 19
    · rw [if_pos h1] at he; cases he
    rw [if_neg h1] at he
    injection he with he; injection he with h4 h5; subst h4
    refine Eq.trans ?_ (dec_code hp dataLen (Or.inr (Or.inr (Or.inl rfl))) seq _)
    rfl
  | addDma x y z =>
    injection he with he; injection he with h1 h2; subst h1
    refine Eq.trans ?_ (dec_code hp dataLen (Or.inr (Or.inr (Or.inr (Or.inl rfl)))) seq _)
    rfl
  | readDma x y z ad =>
    injection he with he; injection he with h1 h2; subst h1
    refine Eq.trans ?_ (dec_code hp dataLen (Or.inr (Or.inr (Or.inr (Or.inr rfl)))) seq _)
    rfl

end WolfHsm.ClientNvm

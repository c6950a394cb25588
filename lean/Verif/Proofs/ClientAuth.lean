import Verif.Spec.ClientAuth
import Verif.Proofs.Server
import Verif.Proofs.AuthCodec

/-! # Client and server agree on the authentication messages -/

namespace WolfHsm.ClientAuth

open Auth (Call Perms)
open Utils (bytes16 magicNative translate16)
open Wire
open Server (Req simpleResp idResp getResp handleAuth parseLogin parseAdd parseSetCred)

variable {R : Type}

theorem bytes16_w16 (le : Bool) (v : UInt16) : bytes16 le v = w16 le magicNative v := by
  unfold w16; rw [Comm.translate16_native]

theorem len16 {l : List UInt8} (h : l.length < 65536) : (UInt16.ofNat l.length).toNat = l.length :=
  Comm.ofNat_toNat_len l h

/-! ## Requests -/

theorem nameOk {name : List UInt8} (h : nameValid name ≠ false) (hc : ∀ b ∈ name, b ≠ 0) : Auth.NameOk name := by
  have : name ≠ [] ∧ name.length < 32 := by
    unfold nameValid at h; simpa using h
  exact ⟨by show name.length ≤ 31; omega, hc⟩

theorem rdName_at {name pre post : List UInt8} {off : Nat} (hn : Auth.NameOk name) (hp : pre.length = off) :
    Server.rdName (pre ++ (Auth.nameBytes name ++ post)) off = name := by
  unfold Server.rdName
  rw [rdBytes_at hp (Auth.nameBytes_length hn), Auth.nameOf_nameBytes hn]

theorem unflatten_flat (p : Perms) (rest : List UInt8) : Auth.unflatten (p.clamp.bytes ++ rest) = some p.clamp := by
  unfold Auth.unflatten
  have hl : (p.clamp.bytes ++ rest).length = 473 + rest.length := by
    rw [List.length_append, Auth.perms_bytes_length]
  rw [if_neg (by rw [hl]; show ¬ 473 + rest.length < 473; omega), Auth.perms_roundtrip]
  have : ¬ p.clamp.keyIdCount.toNat > 2 := by
    unfold Perms.clamp
    dsimp only
    split
    · show ¬ 2 > 2; omega
    · assumption
  dsimp only
  rw [if_neg (by exact this)]

theorem parse_login {cfg : Server.Cfg R} {cle : Bool} {m : UInt16} (hp : Paired cfg.le cle m magicNative)
    (hmtu : cfg.comm.mtu < 65536) {a : UInt16} {pad : UInt8} {meth : UInt16} {name data body : List UInt8}
    (hc : ∀ b ∈ name, b ≠ 0) (he : encode cle cfg.comm.dataLen pad (.login meth name data) = .ok (a, body))
    (seq : UInt16) (junk : List UInt8) :
    a = 0 ∧ parseLogin cfg ⟨m, a, seq, body ++ junk, body.length⟩ = .ok (meth, name, data) := by
  unfold encode at he; try dsimp only at he
  by_cases h1 : nameValid name = false
  · rw [if_pos h1] at he; cases he
  rw [if_neg h1] at he
  by_cases h2 : data.length > cfg.comm.dataLen - 36
  · rw [if_pos h2] at he; cases he
  rw [if_neg h2] at he
  by_cases h3 : 36 + data.length > cfg.comm.dataLen
  · rw [if_pos h3] at he; cases he
  rw [if_neg h3] at he
  injection he with he
  injection he with ha hb
  subst ha; subst hb
  refine ⟨rfl, ?_⟩
  have hn := nameOk h1 hc
  have hnl := Auth.nameBytes_length hn
  have hdl : (UInt16.ofNat data.length).toNat = data.length := len16 (by unfold Comm.Cfg.mtu at hmtu; omega)
  unfold parseLogin
  dsimp only
  simp only [bytes16_w16, List.length_append, w16_length, hnl, List.append_assoc]
  have e34 : rd16 cfg.le m (w16 cle magicNative meth ++ (Auth.nameBytes name ++
      (w16 cle magicNative (UInt16.ofNat data.length) ++ (data ++ junk)))) 34 = UInt16.ofNat data.length := by
    rw [← List.append_assoc]
    exact rd16_at hp _ (by rw [List.length_append, w16_length, hnl])
  have e0 : rd16 cfg.le m (w16 cle magicNative meth ++ (Auth.nameBytes name ++
      (w16 cle magicNative (UInt16.ofNat data.length) ++ (data ++ junk)))) 0 = meth :=
    rd16_at (pre := []) hp _ rfl
  rw [if_neg (by omega), e34, e0, hdl, if_neg (by unfold Comm.Cfg.mtu at hmtu; omega),
    rdName_at hn (w16_length ..)]
  have e36 : rdBytes (w16 cle magicNative meth ++ (Auth.nameBytes name ++
      (w16 cle magicNative (UInt16.ofNat data.length) ++ (data ++ junk)))) 36 data.length = data := by
    rw [← List.append_assoc, ← List.append_assoc]
    exact rdBytes_at (by simp [w16_length, hnl]) rfl
  rw [e36]

theorem parse_add {cfg : Server.Cfg R} {cle : Bool} {m : UInt16} (hp : Paired cfg.le cle m magicNative)
    (hmtu : cfg.comm.mtu < 65536) {a : UInt16} {pad : UInt8} {meth : UInt16} {name cred body : List UInt8}
    {p : Perms} (hc : ∀ b ∈ name, b ≠ 0)
    (he : encode cle cfg.comm.dataLen pad (.add name p meth cred) = .ok (a, body))
    (seq : UInt16) (junk : List UInt8) :
    a = 2 ∧ parseAdd cfg ⟨m, a, seq, body ++ junk, body.length⟩ = .ok (name, p.clamp, meth, cred) := by
  unfold encode at he; try dsimp only at he
  by_cases h1 : nameValid name = false
  · rw [if_pos h1] at he; cases he
  rw [if_neg h1] at he
  by_cases h2 : cred.length > cfg.comm.dataLen - 510
  · rw [if_pos h2] at he; cases he
  rw [if_neg h2] at he
  by_cases h3 : 510 + cred.length > cfg.comm.dataLen
  · rw [if_pos h3] at he; cases he
  rw [if_neg h3] at he
  have hfl : Auth.flatten p 473 = some p.clamp.bytes := if_neg (by show ¬ 473 < 473; omega)
  rw [hfl] at he
  dsimp only at he
  injection he with he
  injection he with ha hb
  subst ha; subst hb
  refine ⟨rfl, ?_⟩
  have hn := nameOk h1 hc
  have hnl := Auth.nameBytes_length hn
  have hpl : p.clamp.bytes.length = 473 := Auth.perms_bytes_length p.clamp
  have hdl : (UInt16.ofNat cred.length).toNat = cred.length := len16 (by unfold Comm.Cfg.mtu at hmtu; omega)
  unfold parseAdd
  dsimp only
  have hlen : (Auth.nameBytes name ++ (p.clamp.bytes ++ ([pad] ++ (bytes16 cle meth ++
          (bytes16 cle (UInt16.ofNat cred.length) ++ cred))))).length = 510 + cred.length := by
    simp only [bytes16_w16, List.length_append, w16_length, hnl, hpl, List.length_singleton]; omega
  rw [hlen]
  simp only [bytes16_w16, List.append_assoc]
  generalize hB : Auth.nameBytes name ++ (p.clamp.bytes ++ ([pad] ++ (w16 cle magicNative meth ++
          (w16 cle magicNative (UInt16.ofNat cred.length) ++ (cred ++ junk))))) = B
  have eName : Server.rdName B 0 = name := by
    rw [← hB]; exact rdName_at (pre := []) hn rfl
  have e32 : rdBytes B 32 473 = p.clamp.bytes := by
    rw [← hB]; exact rdBytes_at hnl hpl
  have e506 : rd16 cfg.le m B 506 = meth := by
    rw [← hB, ← List.append_assoc, ← List.append_assoc]
    exact rd16_at hp _ (by simp [hnl, hpl])
  have e508 : rd16 cfg.le m B 508 = UInt16.ofNat cred.length := by
    rw [← hB, ← List.append_assoc, ← List.append_assoc, ← List.append_assoc]
    exact rd16_at hp _ (by simp [hnl, hpl, w16_length])
  have e510 : rdBytes B 510 cred.length = cred := by
    rw [← hB, ← List.append_assoc, ← List.append_assoc, ← List.append_assoc, ← List.append_assoc]
    exact rdBytes_at (by simp [hnl, hpl, w16_length]) rfl
  have hu := unflatten_flat p []
  rw [List.append_nil] at hu
  rw [if_neg (by omega), e508, hdl, if_neg (by unfold Comm.Cfg.mtu at hmtu; omega), e32, hu, eName, e506, e510]

theorem parse_setCred {cfg : Server.Cfg R} {cle : Bool} {m : UInt16} (hp : Paired cfg.le cle m magicNative)
    (hmtu : cfg.comm.mtu < 65536) (h510 : 510 ≤ cfg.comm.dataLen) {a : UInt16} {pad : UInt8} {id meth : UInt16} {cur new body : List UInt8}
    (he : encode cle cfg.comm.dataLen pad (.setCred id meth cur new) = .ok (a, body))
    (seq : UInt16) (junk : List UInt8) :
    a = 6 ∧ parseSetCred cfg ⟨m, a, seq, body ++ junk, body.length⟩ = .ok (id, meth, cur, new) := by
  unfold encode at he; try dsimp only at he
  by_cases h1 : cur.length > (cfg.comm.dataLen - 8) / 2
  · rw [if_pos h1] at he; cases he
  rw [if_neg h1] at he
  by_cases h2 : new.length > (cfg.comm.dataLen - 8) / 2
  · rw [if_pos h2] at he; cases he
  rw [if_neg h2] at he
  by_cases h3 : (8 + cur.length + new.length) % 65536 > cfg.comm.dataLen
  · rw [if_pos h3] at he; cases he
  rw [if_neg h3] at he
  injection he with he
  injection he with ha hb
  subst ha; subst hb
  refine ⟨rfl, ?_⟩
  have hm8 : 8 + cfg.comm.dataLen < 65536 := hmtu
  have hcl : (UInt16.ofNat cur.length).toNat = cur.length := len16 (by omega)
  have hnl : (UInt16.ofNat new.length).toNat = new.length := len16 (by omega)
  unfold parseSetCred
  dsimp only
  have hlen : (bytes16 cle id ++ (bytes16 cle meth ++ (bytes16 cle (UInt16.ofNat cur.length) ++
      (bytes16 cle (UInt16.ofNat new.length) ++ (cur ++ new))))).length = 8 + cur.length + new.length := by
    simp only [bytes16_w16, List.length_append, w16_length]; omega
  rw [hlen]
  simp only [bytes16_w16, List.append_assoc]
  generalize hB : w16 cle magicNative id ++ (w16 cle magicNative meth ++
    (w16 cle magicNative (UInt16.ofNat cur.length) ++
      (w16 cle magicNative (UInt16.ofNat new.length) ++ (cur ++ (new ++ junk))))) = B
  have e0 : rd16 cfg.le m B 0 = id := by
    rw [← hB]; exact rd16_at (pre := []) hp _ rfl
  have e2 : rd16 cfg.le m B 2 = meth := by
    rw [← hB]; exact rd16_at hp _ (w16_length ..)
  have e4 : rd16 cfg.le m B 4 = UInt16.ofNat cur.length := by
    rw [← hB, ← List.append_assoc]; exact rd16_at hp _ (by simp [w16_length])
  have e6 : rd16 cfg.le m B 6 = UInt16.ofNat new.length := by
    rw [← hB, ← List.append_assoc, ← List.append_assoc]; exact rd16_at hp _ (by simp [w16_length])
  have e8 : rdBytes B 8 cur.length = cur := by
    rw [← hB, ← List.append_assoc, ← List.append_assoc, ← List.append_assoc]
    exact rdBytes_at (by simp [w16_length]) rfl
  have e9 : rdBytes B (8 + cur.length) new.length = new := by
    rw [← hB, ← List.append_assoc, ← List.append_assoc, ← List.append_assoc, ← List.append_assoc]
    exact rdBytes_at (by simp only [List.length_append, w16_length] <;> omega) rfl
  rw [if_neg (by omega), e4, e6, hcl, hnl, if_neg h1, if_neg h2, if_neg (by omega), e0, e2, e8, e9]

/-! ## Responses -/

theorem zero_flat : Auth.unflatten (List.replicate 473 0) = some Perms.zero := by decide +kernel

theorem dec_simple {cle sle : Bool} {m : UInt16} (hp : Paired cle sle magicNative m) (code : UInt32)
    (seq : UInt16) {a : UInt16} (ha : a = 1 ∨ a = 3 ∨ a = 5 ∨ a = 6) :
    decode cle a ⟨.ok, magicNative, 0x0D00 ||| a, seq, w32 sle m code⟩ = ⟨.ok, code, 0, none⟩ := by
  have e : rd32 cle magicNative (w32 sle m code) 0 = code := by
    have := rd32_at (pre := []) (post := []) hp code rfl
    simpa using this
  rcases ha with h | h | h | h <;> subst h <;> unfold decode respSize <;> dsimp only <;>
    rw [e, w32_length, if_neg (by decide), if_neg (by decide), if_neg (by decide)]

theorem dec_id {cle sle : Bool} {m : UInt16} (hp : Paired cle sle magicNative m) (code : UInt32) (id : UInt16)
    (seq : UInt16) (buf : List UInt8) {a : UInt16} (ha : a = 0 ∨ a = 2) :
    decode cle a ⟨.ok, magicNative, 0x0D00 ||| a, seq, over (w32 sle m code ++ w16 sle m id) buf 8⟩ =
      ⟨.ok, code, id, none⟩ := by
  have hl : (over (w32 sle m code ++ w16 sle m id) buf 8).length = 8 :=
    over_length (by simp [w32_length, w16_length])
  have e : rd32 cle magicNative (over (w32 sle m code ++ w16 sle m id) buf 8) 0 = code := by
    unfold over; rw [List.append_assoc]; exact rd32_at (pre := []) hp code rfl
  have e4 : rd16 cle magicNative (over (w32 sle m code ++ w16 sle m id) buf 8) 4 = id := by
    unfold over; rw [List.append_assoc]; exact rd16_at hp id (w32_length ..)
  generalize over (w32 sle m code ++ w16 sle m id) buf 8 = q at *
  rcases ha with h | h <;> subst h <;> unfold decode respSize <;> dsimp only <;> rw [e, e4, hl, if_neg (by decide), if_pos (by decide)]

theorem dec_get {cle sle : Bool} {m : UInt16} (hp : Paired cle sle magicNative m) (code : UInt32) (id : UInt16)
    (seq : UInt16) (buf l : List UInt8) (hl : l.length = 473) :
    decode cle 4 ⟨.ok, magicNative, 0x0D00 ||| 4, seq, over (w32 sle m code ++ w16 sle m id ++ l) buf 480⟩ =
      ⟨.ok, code, id, Auth.unflatten l⟩ := by
  have hn : (over (w32 sle m code ++ w16 sle m id ++ l) buf 480).length = 480 :=
    over_length (by simp [w32_length, w16_length, hl])
  have e : rd32 cle magicNative (over (w32 sle m code ++ w16 sle m id ++ l) buf 480) 0 = code := by
    unfold over; simp only [List.append_assoc]; exact rd32_at (pre := []) hp code rfl
  have e4 : rd16 cle magicNative (over (w32 sle m code ++ w16 sle m id ++ l) buf 480) 4 = id := by
    unfold over; simp only [List.append_assoc]; exact rd16_at hp id (w32_length ..)
  have e6 : rdBytes (over (w32 sle m code ++ w16 sle m id ++ l) buf 480) 6 473 = l := by
    unfold over; rw [List.append_assoc]
    exact rdBytes_at (by simp [w32_length, w16_length]) hl
  generalize over (w32 sle m code ++ w16 sle m id ++ l) buf 480 = q at *
  unfold decode respSize
  dsimp only
  rw [e, e4, e6, hn, if_neg (by decide), if_neg (by decide), if_pos (by decide)]

/-! ## The handler -/

/-- A request built by the client makes the server call the authentication manager as asked, and
the client gets the outcome. -/
theorem handleAuth_call {cfg : Server.Cfg R} {cle : Bool} {m : UInt16} (hp : Paired cfg.le cle m magicNative)
    (hmtu : cfg.comm.mtu < 65536) (h510 : 510 ≤ cfg.comm.dataLen) {a : UInt16} {pad : UInt8} {c : Call}
    {body : List UInt8} (hc : CStr c) (he : encode cle cfg.comm.dataLen pad c = .ok (a, body))
    (s : Auth.St) (x : Nat) (seq : UInt16) (junk : List UInt8) :
    (handleAuth cfg s x ⟨m, a, seq, body ++ junk, body.length⟩).2 = (Auth.act cfg.auth s x (sent c)).2 ∧
    decode cle a ⟨.ok, magicNative, 0x0D00 ||| a, seq,
      (handleAuth cfg s x ⟨m, a, seq, body ++ junk, body.length⟩).1.2⟩ = expected cfg.auth s x c := by
  cases c with
  | login meth name data =>
    obtain ⟨ha, hq⟩ := parse_login hp hmtu hc he seq junk
    subst ha
    unfold handleAuth
    rw [if_pos rfl]
    unfold Server.handleLogin
    rw [hq]
    unfold expected sent Auth.act
    dsimp only
    generalize Auth.login cfg.auth s x meth name data = q
    obtain ⟨⟨rc, b⟩, t⟩ := q
    cases rc <;> cases b <;> exact ⟨rfl, dec_id hp.symm _ _ _ _ (Or.inl rfl)⟩
  | logout id =>
    unfold encode at he; try dsimp only at he
    injection he with he
    injection he with ha hb
    subst ha; subst hb
    have hsz : (bytes16 cle id ++ [0, 0]).length = 4 := by rw [bytes16_w16, List.length_append, w16_length]; rfl
    have e0 : rd16 cfg.le m (bytes16 cle id ++ [0, 0] ++ junk) 0 = id := by
      rw [bytes16_w16, List.append_assoc]; exact rd16_at (pre := []) hp _ rfl
    unfold handleAuth
    dsimp only
    rw [if_neg (by decide), if_pos rfl, if_neg (by rw [hsz]; simp), e0]
    exact ⟨rfl, dec_simple hp.symm _ _ (Or.inl rfl)⟩
  | add name p meth cred =>
    obtain ⟨ha, hq⟩ := parse_add hp hmtu hc he seq junk
    subst ha
    unfold handleAuth
    dsimp only
    rw [if_neg (by decide), if_neg (by decide), if_pos rfl, hq]
    exact ⟨rfl, dec_id hp.symm _ _ _ _ (Or.inr rfl)⟩
  | delete id =>
    unfold encode at he; try dsimp only at he
    injection he with he
    injection he with ha hb
    subst ha; subst hb
    have hsz : (bytes16 cle id ++ [0, 0]).length = 4 := by rw [bytes16_w16, List.length_append, w16_length]; rfl
    have e0 : rd16 cfg.le m (bytes16 cle id ++ [0, 0] ++ junk) 0 = id := by
      rw [bytes16_w16, List.append_assoc]; exact rd16_at (pre := []) hp _ rfl
    unfold handleAuth
    dsimp only
    rw [if_neg (by decide), if_neg (by decide), if_neg (by decide), if_pos rfl, if_neg (by rw [hsz]; simp), e0]
    exact ⟨rfl, dec_simple hp.symm _ _ (Or.inr (Or.inl rfl))⟩
  | get name =>
    unfold encode at he; try dsimp only at he
    by_cases h1 : nameValid name = false
    · rw [if_pos h1] at he; cases he
    rw [if_neg h1] at he
    injection he with he
    injection he with ha hb
    subst ha; subst hb
    have hn := nameOk h1 hc
    have hsz : (Auth.nameBytes name ++ [0, 0]).length = 34 := by
      rw [List.length_append, Auth.nameBytes_length hn]; rfl
    have e0 : Server.rdName (Auth.nameBytes name ++ [0, 0] ++ junk) 0 = name := by
      rw [List.append_assoc]; exact rdName_at (pre := []) hn rfl
    unfold handleAuth
    dsimp only
    rw [if_neg (by decide), if_neg (by decide), if_neg (by decide), if_neg (by decide), if_pos rfl,
      if_neg (by rw [hsz]; simp), e0]
    unfold expected sent Auth.act
    dsimp only
    have hz : ∀ rc : Rc, decode cle 4 ⟨.ok, magicNative, 0x0D00 ||| 4, seq,
        getResp cfg ⟨m, 4, seq, Auth.nameBytes name ++ [0, 0] ++ junk, (Auth.nameBytes name ++ [0, 0]).length⟩
          rc 0 (List.replicate 473 0)⟩ = ⟨.ok, rc.code, 0, some Perms.zero⟩ := by
      intro rc
      rw [← zero_flat]
      exact dec_get hp.symm _ _ _ _ _ List.length_replicate
    generalize Auth.userGet s x name = q
    obtain ⟨rc, o⟩ := q
    cases rc <;> cases o <;> first
      | exact ⟨rfl, hz _⟩
      | skip
    rename_i v
    obtain ⟨id, p⟩ := v
    refine ⟨rfl, ?_⟩
    have hu := unflatten_flat p []
    rw [List.append_nil] at hu
    show _ = Result.mk .ok 0 id (some p.clamp)
    rw [← hu]
    exact dec_get hp.symm _ _ _ _ _ (Auth.perms_bytes_length _)
  | setPerms id p =>
    unfold encode at he; try dsimp only at he
    have hfl : Auth.flatten p 473 = some p.clamp.bytes := if_neg (by show ¬ 473 < 473; omega)
    rw [hfl] at he
    dsimp only at he
    injection he with he
    injection he with ha hb
    subst ha; subst hb
    have hpl : p.clamp.bytes.length = 473 := Auth.perms_bytes_length p.clamp
    have hsz : (bytes16 cle id ++ (p.clamp.bytes ++ [0])).length = 476 := by
      rw [bytes16_w16, List.length_append, w16_length, List.length_append, hpl]; rfl
    have e0 : rd16 cfg.le m (bytes16 cle id ++ (p.clamp.bytes ++ [0]) ++ junk) 0 = id := by
      rw [bytes16_w16, List.append_assoc]; exact rd16_at (pre := []) hp _ rfl
    have e2 : rdBytes (bytes16 cle id ++ (p.clamp.bytes ++ [0]) ++ junk) 2 473 = p.clamp.bytes := by
      rw [bytes16_w16, List.append_assoc, List.append_assoc]
      exact rdBytes_at (w16_length ..) hpl
    have hu := unflatten_flat p []
    rw [List.append_nil] at hu
    unfold handleAuth
    dsimp only
    rw [if_neg (by decide), if_neg (by decide), if_neg (by decide), if_neg (by decide), if_neg (by decide),
      if_pos rfl, if_neg (by rw [hsz]; simp), e0, e2, hu]
    exact ⟨rfl, dec_simple hp.symm _ _ (Or.inr (Or.inr (Or.inl rfl)))⟩
  | setCred id meth cur new =>
    obtain ⟨ha, hq⟩ := parse_setCred hp hmtu h510 he seq junk
    subst ha
    unfold handleAuth
    dsimp only
    rw [if_neg (by decide), if_neg (by decide), if_neg (by decide), if_neg (by decide), if_neg (by decide),
      if_neg (by decide), if_pos rfl, hq]
    exact ⟨rfl, dec_simple hp.symm _ _ (Or.inr (Or.inr (Or.inr rfl)))⟩
  | disconnect => unfold encode at he; cases he
  | provision n p mm cc => unfold encode at he; cases he

/-- Encoded requests fit the packet; actions are 0 to 6. -/
theorem encode_fits {cle : Bool} {n : Nat} (h : 510 ≤ n) {pad : UInt8} {c : Call} {a : UInt16} {body : List UInt8}
    (hc : CStr c) (hn : n < 65528) (he : encode cle n pad c = .ok (a, body)) :
    body.length ≤ n ∧ (a = 0 ∨ a = 1 ∨ a = 2 ∨ a = 3 ∨ a = 4 ∨ a = 5 ∨ a = 6) := by
  have hfl : ∀ p, Auth.flatten p 473 = some p.clamp.bytes := fun p => if_neg (by show ¬ 473 < 473; omega)
  have hpl : ∀ p : Perms, p.clamp.bytes.length = 473 := fun p => Auth.perms_bytes_length p.clamp
  cases c <;> unfold encode at he <;> (try dsimp only at he)
  case login meth name data =>
    by_cases h1 : nameValid name = false
    · rw [if_pos h1] at he; cases he
    rw [if_neg h1] at he
    have hnl := Auth.nameBytes_length (nameOk h1 hc)
    split at he
    · cases he
    · split at he
      · cases he
      · cases he
        simp only [bytes16_w16, List.length_append, w16_length, hnl]
        exact ⟨by omega, by simp⟩
  case add name p meth cred =>
    rw [hfl] at he
    by_cases h1 : nameValid name = false
    · rw [if_pos h1] at he; cases he
    rw [if_neg h1] at he
    have hnl := Auth.nameBytes_length (nameOk h1 hc)
    split at he
    · cases he
    · split at he
      · cases he
      · cases he
        simp only [bytes16_w16, List.length_append, w16_length, hnl, hpl, List.length_singleton]
        exact ⟨by omega, by simp⟩
  case get name =>
    by_cases h1 : nameValid name = false
    · rw [if_pos h1] at he; cases he
    rw [if_neg h1] at he
    have hnl := Auth.nameBytes_length (nameOk h1 hc)
    cases he
    simp only [List.length_append, hnl, List.length_cons, List.length_nil]
    exact ⟨by omega, by simp⟩
  case setCred =>
    split at he
    · cases he
    · split at he
      · cases he
      · split at he
        · cases he
        · cases he
          simp only [bytes16_w16, List.length_append, w16_length]
          exact ⟨by omega, by simp⟩
  case setPerms id p =>
    rw [hfl] at he
    cases he
    simp only [bytes16_w16, List.length_append, w16_length, hpl, List.length_cons, List.length_nil]
    exact ⟨by omega, by simp⟩
  case logout =>
    cases he
    simp only [bytes16_w16, List.length_append, w16_length, List.length_cons, List.length_nil]
    exact ⟨by omega, by simp⟩
  case delete =>
    cases he
    simp only [bytes16_w16, List.length_append, w16_length, List.length_cons, List.length_nil]
    exact ⟨by omega, by simp⟩
  case disconnect => cases he
  case provision => cases he

/-- A refused request as the client sees it. -/
theorem dec_refusal {cfg : Server.Cfg R} {cle : Bool} {m : UInt16} (hp : Paired cle cfg.le magicNative m)
    {a : UInt16} (ha : a = 0 ∨ a = 1 ∨ a = 2 ∨ a = 3 ∨ a = 4 ∨ a = 5 ∨ a = 6) (seq : UInt16)
    (buf : List UInt8) (n : Nat) :
    decode cle a ⟨.ok, magicNative, 0x0D00 ||| a, seq, Server.refusal cfg 0x0D00 ⟨m, a, seq, buf, n⟩⟩ =
      refusedResult a := by
  unfold Server.refusal refusedResult
  dsimp only
  rw [if_pos rfl]
  rcases ha with h | h | h | h | h | h | h <;> subst h
  · rw [if_pos (by decide)]; exact dec_id hp _ _ _ _ (Or.inl rfl)
  · rw [if_neg (by decide), if_neg (by decide)]; exact dec_simple hp _ _ (Or.inl rfl)
  · rw [if_pos (by decide)]; exact dec_id hp _ _ _ _ (Or.inr rfl)
  · rw [if_neg (by decide), if_neg (by decide)]; exact dec_simple hp _ _ (Or.inr (Or.inl rfl))
  · rw [if_neg (by decide), if_pos rfl, if_pos rfl, ← zero_flat]
    exact dec_get hp _ _ _ _ _ List.length_replicate
  · rw [if_neg (by decide), if_neg (by decide)]; exact dec_simple hp _ _ (Or.inr (Or.inr (Or.inl rfl)))
  · rw [if_neg (by decide), if_neg (by decide)]; exact dec_simple hp _ _ (Or.inr (Or.inr (Or.inr rfl)))

end WolfHsm.ClientAuth

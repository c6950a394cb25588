import Verif.Proofs.SmallMsg
import Verif.Props.Server

/-!
# C25, C27, C44 for the counter, connection and custom request groups
-/

namespace WolfHsm.Props

open Comm (Rx header)
open Server

/-! ## A concrete device -/

namespace SmallDemo

/-- Eight custom callbacks with 32 bytes of data. -/
def ucfg : CustomMsg.Cfg := ⟨8, 32, false⟩

/-- Callback 3 stores what it is given in object 9 and answers code 7 with the data reversed, in the
type it was asked with; callback 4 answers with bytes. -/
def table : Nat → Option (CustomMsg.Callback (Nvm × Unit)) := fun i =>
  if i = 3 then some fun q m =>
    ((q.type, 7, q.data.reverse), ({ m.1 with store := m.1.store.set ⟨9, 0, 0, 0, Vector.replicate 24 0⟩ q.data }, ()))
  else if i = 4 then some fun _ m => ((8, 0, List.replicate 32 4), m)
  else none

/-- Big-endian server. -/
def cfg : Server.Cfg Unit :=
  { SrvDemo.cfg with
    handler := fun g _ c r m =>
      if g = .counter then CounterMsg.handler false (fun _ => .ok) c r m
      else if g = .custom then CustomMsg.handler ucfg table r m
      else ((.ok, []), m) }

def stale : Nat → UInt8 := fun i => UInt8.ofNat (200 + i)

/-- A request to callback 3: four words. -/
def words : CustomMsg.CbReq := ⟨3, 1, [1, 0, 0, 0, 2, 0, 0, 0, 3, 0, 0, 0, 4, 0, 0, 0] ++ List.replicate 16 9⟩

end SmallDemo

/-! ## C44 -/

/-- **C44**, counter group: the effect of a packet depends on nothing behind the received bytes, and
neither does the response.  Partial: except for that of a truncated DESTROY, see
`F_counter_padding`. -/
theorem C44_counter_partial (le : Bool) (client : UInt16) (lock : Rc) (n : Nvm) (r r' : Req) (hm : r'.magic = r.magic)
    (ha : r'.action = r.action) (hs : r'.size = r.size) (hd : r'.data = r.data) :
    (CounterMsg.handle le client lock r' n).2 = (CounterMsg.handle le client lock r n).2 ∧
    ((r.action = 3 → 8 ≤ r.size) → (CounterMsg.handle le client lock r' n).1 = (CounterMsg.handle le client lock r n).1) := by
  have ht : r'.buf.take r.size = r.buf.take r.size := by have := hd; unfold Req.data at this; rwa [hs] at this
  have hdec : CounterMsg.decode le r' = CounterMsg.decode le r := by
    unfold CounterMsg.decode
    rw [ha, hs, hm]
    by_cases h8 : r.size < 8
    · simp only [if_pos h8]
    · rw [Wire.rd16_eq ht (by omega), Wire.rd32_eq ht (by omega), Wire.rd16_eq (off := 0) ht (by omega)]
  unfold CounterMsg.handle
  dsimp only
  rw [hdec, ha, hm, hd]
  refine ⟨rfl, fun h => ?_⟩
  by_cases hu : CounterMsg.decode le r = .unknown
  · rw [if_pos hu, if_pos hu]
  · rw [if_neg hu, if_neg hu]
    by_cases h3 : r.action = 3
    · rw [if_pos h3, if_pos h3]
      have h8 := h h3
      have ht8 : r'.buf.take 8 = r.buf.take 8 := by
        have := congrArg (List.take 8) ht
        rwa [List.take_take, List.take_take, Nat.min_eq_left h8] at this
      have ho : ∀ (f b : List UInt8), f.length ≤ 8 → (Wire.over f b 8).take 8 = Wire.over f b 8 := by
        intro f b hf
        exact List.take_of_length_le (by rw [Wire.over_length hf])
      rw [← ho _ r'.buf (by rw [Wire.w32_length]; omega), ← ho _ r.buf (by rw [Wire.w32_length]; omega)]
      exact Wire.over_take ht8 _ 8
    · rw [if_neg h3, if_neg h3]

/-- An INCREMENT and a DESTROY of counter 7 followed by different garbage. -/
example : (⟨Utils.magicNative, 1, 1, [7, 0, 0, 0, 0, 0, 0, 0, 1, 2], 8⟩ : Req).data =
      (⟨Utils.magicNative, 1, 1, [7, 0, 0, 0, 0, 0, 0, 0, 3], 8⟩ : Req).data ∧
    (CounterMsg.handle true 1 .ok ⟨Utils.magicNative, 1, 1, [7, 0, 0, 0, 0, 0, 0, 0, 1, 2], 8⟩
      (CounterMsg.handle true 1 .ok ⟨Utils.magicNative, 0, 1, [5, 0, 0, 0, 7, 0, 0, 0], 8⟩ SrvDemo.dev.auth.nvm).2).1 =
        [0, 0, 0, 0, 6, 0, 0, 0] := by decide +kernel

/-- **C44**, counter group: a truncated packet or one of an action the server does not have changes
nothing. -/
theorem C44_counter_refused (le : Bool) (client : UInt16) (lock : Rc) (n : Nvm) (r : Req) (h : r.size < 8 ∨ 4 ≤ r.action.toNat) :
    (CounterMsg.handle le client lock r n).2 = n := by
  have hd : CounterMsg.decode le r = .malformed ∨ CounterMsg.decode le r = .unknown := by
    have hn : ∀ {k : UInt16}, k.toNat < 4 → r.action = k → r.size < 8 := by
      intro k hk he
      rcases h with h | h
      · exact h
      · rw [he] at h; omega
    unfold CounterMsg.decode
    by_cases h0 : r.action = 0
    · rw [if_pos h0, if_pos (hn (by decide) h0)]; exact .inl rfl
    · rw [if_neg h0]
      by_cases h1 : r.action = 1
      · rw [if_pos h1, if_pos (hn (by decide) h1)]; exact .inl rfl
      · rw [if_neg h1]
        by_cases h2 : r.action = 2
        · rw [if_pos h2, if_pos (hn (by decide) h2)]; exact .inl rfl
        · rw [if_neg h2]
          by_cases h3 : r.action = 3
          · rw [if_pos h3, if_pos (hn (by decide) h3)]; exact .inl rfl
          · rw [if_neg h3]; exact .inr rfl
  unfold CounterMsg.handle
  rcases hd with hd | hd <;> rw [hd] <;> rfl

/-- A DESTROY of six bytes. -/
example : (⟨Utils.magicNative, 3, 1, [7, 0, 0, 0, 0, 0, 1, 2], 6⟩ : Req).size < 8 := by decide

/-- The answer to an empty DESTROY has four bytes that an earlier packet left in the buffer. -/
theorem F_counter_padding (le : Bool) (client : UInt16) (lock : Rc) (n : Nvm) (magic seq : UInt16) (b0 b1 b2 b3 b4 b5 b6 b7 : UInt8) :
    (CounterMsg.handle le client lock ⟨magic, 3, seq, [b0, b1, b2, b3, b4, b5, b6, b7], 0⟩ n).1.drop 4 = [b4, b5, b6, b7] := by
  have hd : CounterMsg.decode le ⟨magic, 3, seq, [b0, b1, b2, b3, b4, b5, b6, b7], 0⟩ = .malformed := by
    unfold CounterMsg.decode
    dsimp only
    rw [if_neg (by decide), if_neg (by decide), if_neg (by decide), if_pos rfl, if_pos (by decide)]
  unfold CounterMsg.handle
  dsimp only
  rw [hd, if_neg (by intro h; cases h), if_pos rfl]
  unfold Wire.over
  rw [List.drop_left' (Wire.w32_length ..), Wire.w32_length]
  rfl

/-- Whatever the bytes of a counter packet, its effect is that of a counter request as the histories
of C22 have it. -/
theorem C22_counter_packets_are_events (le : Bool) (client : UInt16) (lock : Rc) (r : Req) (n : Nvm) :
    ∃ q : Counter.Req, (CounterMsg.handle le client lock r n).2 = (Counter.handle n client lock q).2 :=
  ⟨_, rfl⟩

/-- **C44**, custom group: the effect of a packet depends on nothing behind the received bytes, nor
do as many bytes of the response as were received.  Partial: the response is eight bytes longer, see
`F_custom_padding`. -/
theorem C44_custom_partial {S : Type} (cfg : CustomMsg.Cfg) (h32 : 32 ≤ cfg.len) (table : Nat → Option (CustomMsg.Callback S)) (s : S)
    (r r' : Req) (hm : r'.magic = r.magic) (ha : r'.action = r.action) (hs : r'.size = r.size) (hd : r'.data = r.data) :
    (CustomMsg.handle cfg table r' s).2 = (CustomMsg.handle cfg table r s).2 ∧
    (CustomMsg.handle cfg table r' s).1.take r.size = (CustomMsg.handle cfg table r s).1.take r.size := by
  have ht : r'.buf.take r.size = r.buf.take r.size := by have := hd; unfold Req.data at this; rwa [hs] at this
  unfold CustomMsg.handle
  dsimp only
  rw [ha, hs, hd, hm]
  by_cases hc : cfg.count ≤ r.action.toNat
  · rw [if_pos hc, if_pos hc]; exact ⟨rfl, rfl⟩
  · rw [if_neg hc, if_neg hc]
    by_cases hz : r.size ≠ 8 + cfg.len
    · rw [if_pos hz, if_pos hz]; exact ⟨rfl, rfl⟩
    · rw [if_neg hz, if_neg hz, Wire.rd32_eq (off := 0) ht (by omega), Wire.rd32_eq (off := 4) ht (by omega)]
      have htd : (r'.buf.drop 8).take cfg.len = (r.buf.drop 8).take cfg.len := by
        rw [List.take_drop, List.take_drop, show 8 + cfg.len = r.size by omega, ht]
      have hin : ∀ type, CustomMsg.dataIn cfg r.magic type (r'.buf.drop 8) = CustomMsg.dataIn cfg r.magic type (r.buf.drop 8) := by
        intro type
        unfold CustomMsg.dataIn
        dsimp only
        rw [Wire.rd32_eq (off := 0) htd (by omega), Wire.rd32_eq (off := 4) htd (by omega), Wire.rd32_eq (off := 8) htd (by omega),
          Wire.rd32_eq (off := 12) htd (by omega), Wire.rd64_eq (off := 0) htd (by omega), Wire.rd64_eq (off := 8) htd (by omega),
          Wire.rd64_eq (off := 16) htd (by omega), Wire.rd64_eq (off := 24) htd (by omega), Wire.rdBytes_eq htd (by omega)]
      cases table r.action.toNat with
      | none => exact ⟨rfl, Wire.over_take ht _ _⟩
      | some cb =>
        dsimp only
        split
        · rw [hin]; exact ⟨rfl, Wire.over_take ht _ _⟩
        · exact ⟨rfl, Wire.over_take ht _ _⟩

/-- **C44**, custom group: a packet of the wrong size, or for a callback number the server does not
have, invokes no callback, changes nothing and goes back as it came. -/
theorem C44_custom_refused {S : Type} (cfg : CustomMsg.Cfg) (table : Nat → Option (CustomMsg.Callback S)) (s : S) (r : Req)
    (h : r.size ≠ 8 + cfg.len ∨ cfg.count ≤ r.action.toNat) : CustomMsg.handle cfg table r s = (r.data, s) := by
  unfold CustomMsg.handle
  rcases h with h | h
  · by_cases hc : cfg.count ≤ r.action.toNat
    · rw [if_pos hc]
    · rw [if_neg hc, if_pos h]
  · rw [if_pos h]

/-- Both theorems are about packets the demonstration server gets: the first is of full size and for
an existing callback. -/
example : 32 ≤ SmallDemo.ucfg.len ∧ (CustomMsg.encode true SmallDemo.words).2.length = 8 + SmallDemo.ucfg.len ∧
    (SmallDemo.table 3).isSome = true ∧ SmallDemo.ucfg.count ≤ (9 : UInt16).toNat := by decide +kernel

/-- The last eight bytes of a response that carries words are from behind the received bytes. -/
theorem F_custom_padding :
    let r : Req := ⟨Utils.magicSwap, 3, 1, (CustomMsg.encode true SmallDemo.words).2 ++ [11, 12, 13, 14, 15, 16, 17, 18], 40⟩
    (CustomMsg.handle SmallDemo.ucfg SmallDemo.table r (SrvDemo.dev.auth.nvm, ())).1.drop 40 = [11, 12, 13, 14, 15, 16, 17, 18] := by
  decide +kernel

/-! ## C27 -/

/-- **C27**, counter group: every response fits the packet. -/
theorem C27_counter_fits (le : Bool) (client : UInt16) (lock : Rc) (r : Req) (n : Nvm) (k : Nat) (hk : 8 ≤ k) (hr : r.size ≤ k) :
    (CounterMsg.handle le client lock r n).1.length ≤ k := by
  have hd : r.data.length ≤ k := by unfold Req.data; rw [List.length_take]; omega
  unfold CounterMsg.handle
  dsimp only
  split
  · exact hd
  · split
    · rw [Wire.over_length (by rw [Wire.w32_length]; omega)]; exact hk
    · rw [List.length_append, Wire.w32_length, Wire.w32_length]; exact hk

/-- **C27**, custom group: every response fits the packet. -/
theorem C27_custom_fits {S : Type} (cfg : CustomMsg.Cfg) (h32 : 32 ≤ cfg.len) (k : Nat) (hk : 16 + cfg.len ≤ k)
    (table : Nat → Option (CustomMsg.Callback S)) (r : Req) (hr : r.size ≤ k) (s : S) :
    (CustomMsg.handle cfg table r s).1.length ≤ k :=
  CustomMsg.handle_fits h32 hk table r hr s

/-- Both apply to the demonstration server with its packets of 1280 bytes. -/
theorem SmallDemo.fits : Fits SmallDemo.cfg := by
  refine ⟨by decide, by decide, ?_⟩
  intro g y c r m h
  show ((if g = .counter then CounterMsg.handler false (fun _ => .ok) c r m
      else if g = .custom then CustomMsg.handler SmallDemo.ucfg SmallDemo.table r m else ((.ok, []), m)).1.2).length ≤ 1280
  split
  · exact C27_counter_fits _ _ _ _ _ _ (by decide) h
  · split
    · exact C27_custom_fits _ (by decide) _ (by decide) _ _ h _
    · exact Nat.zero_le _

/-! ## C25 -/

variable {R : Type}

/-- **C25** for every counter call of the client library, whatever the byte orders of client and
server: the caller gets the outcome of the counter operation on the device, which has its effect.
Partial: a call refused by the permission check reports ABORTED instead of the permission error. -/
theorem C25_counter_rpc_partial (cfg : Cfg R) (hf : Fits cfg) (lock : R → Rc)
    (hh : ∀ y c r m, cfg.handler .counter y c r m = CounterMsg.handler cfg.le lock c r m) (d : Dev R) (x : Nat)
    (hcon : (d.ctx x).connected = true) (cle : Bool) (stale : Nat → UInt8) (c : ClientCounter.Call) (a : UInt16) (body : List UInt8)
    (he : ClientCounter.encode cle stale c = .ok (a, body)) (seq aux aux' : UInt16) (junk : List UInt8) (txs : List Rc) (ht : Accepts txs) :
    ∃ pkt payload d', handle cfg d x (Rx.of (header cle Utils.magicNative (0x0800 ||| a) seq aux ++ body) junk)
        aux' txs = ((some .ok, [pkt]), d') ∧
      SeenAs cfg cle pkt (0x0800 ||| a) seq payload ∧
      if cfg.enableAuth = true ∧ (d.ctx x).hasAuth = true ∧ Auth.checkRequest cfg.auth d.auth x 0x0800 a ≠ .ok then
        ClientCounter.decode cle a ⟨.ok, Utils.magicNative, 0x0800 ||| a, seq, payload⟩ = .err .aborted ∧ d' = d
      else
        let q := ClientCounter.expected (d.ctx x).client.toUInt16 (lock d.rest) d.auth.nvm c
        ClientCounter.decode cle a ⟨.ok, Utils.magicNative, 0x0800 ||| a, seq, payload⟩ = q.1 ∧
        d' = { d with auth := { d.auth with nvm := q.2 } } := by
  have h510 := hf.1
  obtain ⟨hbl, ha⟩ := ClientCounter.encode_fits he
  have hk : groupOf (0x0800 ||| a) = 0x0800 ∧ actionOf (0x0800 ||| a) = a := by
    rcases ha with rfl | rfl | rfl | rfl <;> decide
  have hp := Wire.paired_server cle cfg.le (m := if cfg.le = cle then Utils.magicNative else Utils.magicSwap) rfl
  obtain ⟨pkt, h1, h2⟩ := handle_client cfg hf d x cle (0x0800 ||| a) seq aux aux' body junk (by omega) txs hcon ht rfl
  refine ⟨pkt, _, _, h1, h2, ?_⟩
  unfold answer
  dsimp only
  rw [hk.1, hk.2]
  by_cases hok : cfg.enableAuth = true ∧ (d.ctx x).hasAuth = true ∧ Auth.checkRequest cfg.auth d.auth x 0x0800 a ≠ .ok
  · rw [if_pos hok, if_pos hok]
    refine ⟨?_, rfl⟩
    rw [refusal_bare cfg _ (by decide) (by decide) (by decide)]
    unfold ClientCounter.decode
    dsimp only
    rw [if_pos (by rw [Wire.w32_length]; decide)]
  · rw [if_neg hok, if_neg hok]
    have hcall := ClientCounter.handle_call (le := cfg.le) hp he (d.ctx x).client.toUInt16 (lock d.rest) d.auth.nvm seq junk (0x0800 ||| a)
    dsimp only at hcall ⊢
    rw [← hcall]
    unfold dispatch
    rw [if_neg (by decide), if_neg (by decide), if_neg (by decide)]
    have hg : groupFor cfg 0x0800 = some .counter := by
      unfold groupFor
      rw [if_neg (by decide), if_pos rfl]
    rw [hg]
    dsimp only
    rw [hh]
    exact ⟨rfl, rfl⟩

/-- The hypotheses hold on the demonstration device for a little-endian client that starts counter 7
at 0x01020304 and increments it. -/
example : Fits SmallDemo.cfg ∧ (∀ y c r m, SmallDemo.cfg.handler .counter y c r m = CounterMsg.handler SmallDemo.cfg.le (fun _ => .ok) c r m) ∧
    (SrvDemo.dev.ctx 0).connected = true ∧
    (ClientCounter.encode true SmallDemo.stale (.init 7 0x01020304)).toOption.isSome = true ∧
    Auth.checkRequest SmallDemo.cfg.auth SrvDemo.dev.auth 0 0x0800 0 = .ok ∧
    (let q := ClientCounter.expected 1 .ok SrvDemo.dev.auth.nvm (.init 7 0x01020304)
     q.1 = .value 0x01020304 ∧ (ClientCounter.expected 1 .ok q.2 (.increment 7)).1 = .value 0x01020305) :=
  ⟨SmallDemo.fits, fun _ _ _ _ => rfl, rfl, rfl, by decide +kernel, by decide +kernel⟩

/-- **C25** for custom callbacks, whatever the byte orders of client and server: the callback whose
number is the low byte of the requested id gets id and type of the request and its words, double
words or bytes as they are for its machine, with zeros behind; the client gets the callback's type,
code and data as they are for its machine.  Where there is no such callback or the client only asks
whether there is one, none is invoked.  Partial: a call refused by the permission check reports
ABORTED instead of the permission error; behind the data the client gets what was in the packet; the
reserved types 3 to 7 carry nothing, see `F_custom_reserved`; ids that agree in the low byte are the
same callback, see `F_custom_alias`. -/
theorem C25_custom_rpc_partial (cfg : Cfg R) (hf : Fits cfg) (ucfg : CustomMsg.Cfg) (hle : ucfg.le = cfg.le) (h32 : 32 ≤ ucfg.len)
    (hlen : 8 + ucfg.len ≤ cfg.comm.dataLen) (table : Nat → UInt32 → Nat → Option (CustomMsg.Callback (Nvm × R)))
    (hh : ∀ y c r m, cfg.handler .custom y c r m = CustomMsg.handler ucfg (table y c) r m) (d : Dev R) (x : Nat)
    (hcon : (d.ctx x).connected = true) (cle : Bool) (q : CustomMsg.CbReq) (hq : q.data.length = ucfg.len)
    (seq aux aux' : UInt16) (junk : List UInt8) (txs : List Rc) (ht : Accepts txs) :
    let a := (CustomMsg.encode cle q).1
    ∃ pkt payload d', handle cfg d x (Rx.of (header cle Utils.magicNative (0x0A00 ||| a) seq aux ++ (CustomMsg.encode cle q).2) junk)
        aux' txs = ((some .ok, [pkt]), d') ∧
      SeenAs cfg cle pkt (0x0A00 ||| a) seq payload ∧
      let p := CustomMsg.decode cle ucfg.len ⟨.ok, Utils.magicNative, 0x0A00 ||| a, seq, payload⟩
      if cfg.enableAuth = true ∧ (d.ctx x).hasAuth = true ∧ Auth.checkRequest cfg.auth d.auth x 0x0A00 a ≠ .ok then
        p = .error .aborted ∧ d' = d
      else if ucfg.count ≤ q.id.toNat % 256 then p = .error .aborted ∧ d' = d
      else match table x (d.ctx x).client (q.id.toNat % 256) with
        | none => (∃ rest, p = .ok ⟨q.id, 0, 0, Rc.nohandler.code, rest⟩) ∧ d' = d
        | some cb =>
          if q.type = 0 then (∃ rest, p = .ok ⟨q.id, 0, 0, 0, rest⟩) ∧ d' = d
          else
            let o := cb ⟨q.id, q.type, CustomMsg.filled ucfg.len (CustomMsg.carried cle cfg.le ucfg.len q.type q.data)⟩ (d.auth.nvm, d.rest)
            (∃ rest, p = .ok ⟨q.id, o.1.1, o.1.2.1, 0, CustomMsg.carried cfg.le cle ucfg.len o.1.1 o.1.2.2 ++ rest⟩) ∧
            d' = { d with auth := { d.auth with nvm := o.2.1 }, rest := o.2.2 } := by
  intro a
  have hal : a.toNat = q.id.toNat % 256 := CustomMsg.action_lt q cle
  have hk := CustomMsg.kind_ok a (by omega)
  have hbl := CustomMsg.encode_length (cle := cle) q
  have hp := Wire.paired_server cle cfg.le (m := if cfg.le = cle then Utils.magicNative else Utils.magicSwap) rfl
  obtain ⟨pkt, h1, h2⟩ := handle_client cfg hf d x cle (0x0A00 ||| a) seq aux aux' (CustomMsg.encode cle q).2 junk (by omega) txs hcon ht rfl
  refine ⟨pkt, _, _, h1, h2, ?_⟩
  unfold answer
  dsimp only
  rw [hk.1, hk.2]
  by_cases hok : cfg.enableAuth = true ∧ (d.ctx x).hasAuth = true ∧ Auth.checkRequest cfg.auth d.auth x 0x0A00 a ≠ .ok
  · rw [if_pos hok, if_pos hok]
    refine ⟨?_, rfl⟩
    rw [refusal_bare cfg _ (by decide) (by decide) (by decide)]
    unfold CustomMsg.decode
    dsimp only
    rw [if_pos (.inl (by rw [Wire.w32_length]; omega))]
  · rw [if_neg hok, if_neg hok]
    generalize hm : (if cfg.le = cle then Utils.magicNative else Utils.magicSwap) = m at hp ⊢
    rw [← hle] at hp
    have hd : dispatch cfg d x 0x0A00 ⟨m, a, seq, (CustomMsg.encode cle q).2 ++ junk, (CustomMsg.encode cle q).2.length⟩ =
        (let o := CustomMsg.handle ucfg (table x (d.ctx x).client) ⟨m, a, seq, (CustomMsg.encode cle q).2 ++ junk, (CustomMsg.encode cle q).2.length⟩
          (d.auth.nvm, d.rest)
         ((Rc.ok, o.1), { d with auth := { d.auth with nvm := o.2.1 }, rest := o.2.2 })) := by
      unfold dispatch
      rw [if_neg (by decide), if_neg (by decide), if_neg (by decide)]
      have hg : groupFor cfg 0x0A00 = some .custom := by
        unfold groupFor
        rw [if_neg (by decide), if_neg (by decide), if_neg (fun h => absurd h.1 (by decide)), if_neg (fun h => absurd h.1 (by decide)),
          if_neg (fun h => absurd h.1 (by decide)), if_neg (fun h => absurd h.1 (by decide)), if_pos rfl]
      rw [hg]
      dsimp only
      rw [hh]
      rfl
    rw [hd]
    unfold CustomMsg.handle
    dsimp only
    obtain ⟨hr1, hr2, hr3⟩ := CustomMsg.rd_call hp q junk
    rw [hal, hr1, hr2, hr3]
    by_cases hc : ucfg.count ≤ q.id.toNat % 256
    · rw [if_pos hc, if_pos hc]
      refine ⟨CustomMsg.decode_echo ?_, rfl⟩
      unfold Req.data
      rw [List.length_take, List.length_append]
      dsimp only
      omega
    · rw [if_neg hc, if_neg hc, if_neg (by omega)]
      have hkg : (0x0A00 ||| a) &&& 0xFF00 = 0x0A00 := hk.1
      cases table x (d.ctx x).client (q.id.toNat % 256) with
      | none =>
        dsimp only
        obtain ⟨st, hst⟩ := CustomMsg.decode_sent hp h32 q.id 0 0 Rc.nohandler.code [] ((CustomMsg.encode cle q).2 ++ junk) hkg seq
        exact ⟨⟨_, hst⟩, rfl⟩
      | some cb =>
        dsimp only
        by_cases h0 : q.type = 0
        · rw [if_pos h0, if_neg (fun h => h h0)]
          obtain ⟨st, hst⟩ := CustomMsg.decode_sent hp h32 q.id 0 0 Rc.ok.code [] ((CustomMsg.encode cle q).2 ++ junk) hkg seq
          exact ⟨⟨_, hst⟩, rfl⟩
        · rw [if_neg h0, if_pos h0, CustomMsg.dataIn_eq hp q.type hq h32 junk, hle]
          generalize cb _ _ = o
          obtain ⟨st, hst⟩ := CustomMsg.decode_sent hp h32 q.id o.1.1 o.1.2.1 Rc.ok.code o.1.2.2 ((CustomMsg.encode cle q).2 ++ junk) hkg seq
          rw [hle] at hst
          exact ⟨⟨_, hst⟩, rfl⟩

/-- The hypotheses hold on the demonstration device, and the big-endian callback 3 is given the
little-endian client's four words in its own order and zeros, which its answer has reversed. -/
example : Fits SmallDemo.cfg ∧ (∀ y c r m, SmallDemo.cfg.handler .custom y c r m = CustomMsg.handler SmallDemo.ucfg SmallDemo.table r m) ∧
    (SrvDemo.dev.ctx 0).connected = true ∧ SmallDemo.words.data.length = SmallDemo.ucfg.len ∧
    Auth.checkRequest SmallDemo.cfg.auth SrvDemo.dev.auth 0 0x0A00 3 = .ok ∧
    CustomMsg.filled 32 (CustomMsg.carried true false 32 1 SmallDemo.words.data) =
      [0, 0, 0, 1, 0, 0, 0, 2, 0, 0, 0, 3, 0, 0, 0, 4] ++ List.replicate 16 0 :=
  ⟨SmallDemo.fits, fun _ _ _ _ => rfl, rfl, rfl, by decide +kernel, by decide +kernel⟩

/-- **C25** for the connection calls: the caller gets the client and server ids, the server's
information, or the echoed bytes; CLOSE ends the session.  Partial: a refused INIT, INFO or CLOSE
reports ABORTED instead of the permission error, and a refused ECHO reports success with the error
code as the echoed data, see `F_echo_refused`. -/
theorem C25_comm_rpc_partial (cfg : Cfg R) (hf : Fits cfg) (d : Dev R) (x : Nat) (hcon : (d.ctx x).connected = true) (cle : Bool)
    (c : ClientComm.Call) (a : UInt16) (body : List UInt8) (he : ClientComm.encode cle cfg.comm.dataLen c = .ok (a, body))
    (seq aux aux' : UInt16) (junk : List UInt8) (txs : List Rc) (ht : Accepts txs) :
    ∃ pkt payload d', handle cfg d x (Rx.of (header cle Utils.magicNative (0x0100 ||| a) seq aux ++ body) junk)
        aux' txs = ((some .ok, [pkt]), d') ∧
      SeenAs cfg cle pkt (0x0100 ||| a) seq payload ∧
      if cfg.enableAuth = true ∧ (d.ctx x).hasAuth = true ∧ Auth.checkRequest cfg.auth d.auth x 0x0100 a ≠ .ok then
        ClientComm.decode cle a ⟨.ok, Utils.magicNative, 0x0100 ||| a, seq, payload⟩ =
          (match c with
           | .echo _ => .echoed (Utils.bytes32 cle Rc.authPermissionError.code)
           | _ => .err .aborted) ∧ d' = d
      else (ClientComm.decode cle a ⟨.ok, Utils.magicNative, 0x0100 ||| a, seq, payload⟩, d') = ClientComm.expected cfg d x c := by
  have h510 := hf.1
  obtain ⟨hbl, ha⟩ := ClientComm.encode_fits (by omega) he
  have hk : groupOf (0x0100 ||| a) = 0x0100 ∧ actionOf (0x0100 ||| a) = a := by
    rcases ha with ⟨_, rfl, _⟩ | ⟨rfl, _⟩ | ⟨rfl, _⟩ | ⟨rfl, _⟩ <;> decide
  have hp := Wire.paired_server cle cfg.le (m := if cfg.le = cle then Utils.magicNative else Utils.magicSwap) rfl
  obtain ⟨pkt, h1, h2⟩ := handle_client cfg hf d x cle (0x0100 ||| a) seq aux aux' body junk hbl txs hcon ht rfl
  refine ⟨pkt, _, _, h1, h2, ?_⟩
  unfold answer
  dsimp only
  rw [hk.1, hk.2]
  by_cases hok : cfg.enableAuth = true ∧ (d.ctx x).hasAuth = true ∧ Auth.checkRequest cfg.auth d.auth x 0x0100 a ≠ .ok
  · rw [if_pos hok, if_pos hok]
    refine ⟨?_, rfl⟩
    rw [refusal_bare cfg _ (by decide) (by decide) (by decide)]
    have hl : ∀ v, (Wire.w32 cfg.le (if cfg.le = cle then Utils.magicNative else Utils.magicSwap) v).length = 4 := fun v => Wire.w32_length ..
    rcases ha with ⟨v, rfl, rfl⟩ | ⟨rfl, rfl⟩ | ⟨rfl, rfl⟩ | ⟨rfl, rfl⟩ <;> unfold ClientComm.decode <;> dsimp only
    · rw [if_neg (by decide), if_neg (by decide), if_pos rfl, if_pos (by rw [hl]; decide)]
    · rw [if_neg (by decide), if_neg (by decide), if_neg (by decide), if_pos rfl, if_pos (by rw [hl]; decide)]
    · rw [if_neg (by decide), if_neg (by decide), if_neg (by decide), if_neg (by decide), if_pos (by rw [hl]; decide)]
    · rw [if_neg (by decide), if_pos rfl]
      have := CustomMsg.w32_client (cfg := ⟨0, 0, cfg.le⟩) hp Rc.authPermissionError.code
      exact congrArg ClientComm.Result.echoed this
  · rw [if_neg hok, if_neg hok]
    have := ClientComm.decode_call cfg hp d x he seq junk
    dsimp only at this
    rw [← this]
    unfold dispatch
    rw [if_pos rfl]

/-- The demonstration device meets the hypotheses for each call, and the outcomes are as they should
be; a client id above 15 is not accepted. -/
example : Fits SmallDemo.cfg ∧ (SrvDemo.dev.ctx 0).connected = true ∧
    (ClientComm.encode true 1280 (.init 6)).toOption.isSome = true ∧ (ClientComm.encode true 1280 (.echo [1, 2, 3])).toOption.isSome = true ∧
    Auth.checkRequest SmallDemo.cfg.auth SrvDemo.dev.auth 0 0x0100 1 = .ok ∧
    (ClientComm.expected SmallDemo.cfg SrvDemo.dev 0 (.init 6)).1 = .ids 6 5 ∧
    ((ClientComm.expected SmallDemo.cfg SrvDemo.dev 0 (.init 6)).2.ctx 0).client = 6 ∧
    (ClientComm.expected SmallDemo.cfg SrvDemo.dev 0 (.init 16)).1 = .err .aborted ∧
    ((ClientComm.expected SmallDemo.cfg SrvDemo.dev 0 .close).2.auth.sess 0).id = 0 ∧ (SrvDemo.dev.auth.sess 0).id ≠ 0 :=
  ⟨SmallDemo.fits, rfl, rfl, rfl, by decide +kernel, by decide +kernel, by decide +kernel, by decide +kernel, by decide +kernel, by decide +kernel⟩

/-! ## Findings -/

/-- A counter request whose action the server does not have is answered with the request itself. -/
theorem F_counter_unknown_echo (le : Bool) (client : UInt16) (lock : Rc) (r : Req) (n : Nvm) (h : 4 ≤ r.action.toNat) :
    (CounterMsg.handle le client lock r n).1 = r.data := by
  have hne : ∀ {k : UInt16}, k.toNat < 4 → ¬ r.action = k := by
    intro k hk he
    rw [he] at h; omega
  have hd : CounterMsg.decode le r = .unknown := by
    unfold CounterMsg.decode
    rw [if_neg (hne (by decide)), if_neg (hne (by decide)), if_neg (hne (by decide)), if_neg (hne (by decide))]
  unfold CounterMsg.handle
  dsimp only
  rw [hd, if_pos rfl]

/-- For a client that takes such an answer for one of a counter call, the first word of the request
is its outcome. -/
example : ClientCounter.decode true 1 ⟨.ok, Utils.magicNative, 0x0809, 1,
    (CounterMsg.handle true 1 .ok ⟨Utils.magicNative, 9, 1, [0, 0, 0, 0, 42, 0, 0, 0], 8⟩ SrvDemo.dev.auth.nvm).1⟩ = .value 42 := by
  decide +kernel

/-- A permission refusal of an echo is success for the caller, with the error code as the echoed
data: bob, who may not do it, asks for an echo of eight bytes and gets four others. -/
theorem F_echo_refused :
    Auth.checkRequest SmallDemo.cfg.auth SrvDemo.dev.auth 1 0x0100 5 ≠ .ok ∧
    (answer SmallDemo.cfg SrvDemo.dev 1 0x0105 ⟨Utils.magicSwap, 5, 1, [1, 2, 3, 4, 5, 6, 7, 8], 8⟩).1 =
      Utils.bytes32 true Rc.authPermissionError.code ∧
    ClientComm.decode true 5 ⟨.ok, Utils.magicNative, 0x0105, 1,
      (answer SmallDemo.cfg SrvDemo.dev 1 0x0105 ⟨Utils.magicSwap, 5, 1, [1, 2, 3, 4, 5, 6, 7, 8], 8⟩).1⟩ =
      .echoed (Utils.bytes32 true Rc.authPermissionError.code) := by decide +kernel

/-- Ids that agree in the low byte are the same callback: 259 is served by callback 3. -/
theorem F_custom_alias (cle : Bool) (type : UInt32) (data : List UInt8) (k : UInt32) (hk : k.toNat < 256) :
    (CustomMsg.encode cle ⟨k + 256, type, data⟩).1 = (CustomMsg.encode cle ⟨k, type, data⟩).1 := by
  apply UInt16.toNat_inj.1
  rw [CustomMsg.action_lt, CustomMsg.action_lt]
  dsimp only
  rw [UInt32.toNat_add, show (256 : UInt32).toNat = 256 from rfl]
  omega

example : (3 : UInt32).toNat < 256 ∧ (CustomMsg.encode true ⟨259, 1, []⟩).1 = 3 := by decide

/-- Nothing of the data reaches a callback asked with one of the reserved types 3 to 7. -/
theorem F_custom_reserved (cfg : CustomMsg.Cfg) (magic : UInt16) (type : UInt32) (h : 3 ≤ type.toNat ∧ type.toNat < 8) (buf : List UInt8) :
    CustomMsg.dataIn cfg magic type buf = List.replicate cfg.len 0 := by
  unfold CustomMsg.dataIn
  dsimp only
  rw [if_pos h.2, if_neg (by rintro rfl; exact absurd h.1 (by decide)), if_neg (by rintro rfl; exact absurd h.1 (by decide)), Nat.sub_zero]

example : 3 ≤ (5 : UInt32).toNat ∧ (5 : UInt32).toNat < 8 := by decide

/-- In the application's view of `wh_Client_CustomCbCheckRegistered` a callback number beyond the
server's table is not "not registered" but a broken message. -/
theorem F_custom_check_beyond :
    let check := fun (id : UInt16) =>
      let e := CustomMsg.encodeCheck true 32 id
      CustomMsg.decodeCheck true 32 ⟨.ok, Utils.magicNative, 0x0A00 ||| e.1, 1,
        (CustomMsg.handle { SmallDemo.ucfg with le := true } SmallDemo.table ⟨Utils.magicNative, e.1, 1, e.2, e.2.length⟩
          (SrvDemo.dev.auth.nvm, ())).1⟩
    (check 3).toOption = some true ∧ (check 5).toOption = some false ∧ (check 8).toOption = none := by decide +kernel

end WolfHsm.Props

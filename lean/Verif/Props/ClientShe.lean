import Verif.Proofs.ClientSheBoot
import Verif.Proofs.SheBoot
import Verif.Proofs.SheGen
import Verif.Proofs.SheDemo

/-!
# C58 SHE calls through the server
-/

namespace WolfHsm.Props

open ClientShe
open ClientHash (Ret Reply)
open Keystore (Sys Srv)
open She (St Env World Mode zeros)
open Utils (bytes32)

/-! ## A concrete device -/

namespace ClientSheDemo

open She.Demo

/-- The demo device with packets of 64 bytes and either byte order. -/
def cfg (le : Bool) : She.Cfg := { She.Demo.cfg with ks := { She.Demo.cfg.ks with commLen := 64 }, le := le }

/-- Padding. -/
def pad : Fin 4 → UInt8 := fun _ => 0xCC

/-- After a boot without boot MAC key: SHE is ready. -/
def ready : World := She.run (cfg true) ncfg (dev false fine) openBoot

/-- Encrypt 32 bytes with key 5 in CBC mode. -/
def enc : Call := .cipher .encCbc 5 (List.replicate 16 9) (List.replicate 20 1 ++ List.replicate 12 2)

/-- A good boot: the packets have room for 3 bytes, so that the 5 bytes of the image take two. -/
def bootCfg : She.Cfg := { She.Demo.cfg with ks := { She.Demo.cfg.ks with commLen := 11 } }
/-- All requests are served, each in the key store of the device at boot. -/
def steps : Nat → Step := fun _ => ⟨none, calm, 1, [], (dev true fine).sys⟩
/-- The UID has been set. -/
def uidSet : St := { St.boot with uidSet := true, uid := uid }

end ClientSheDemo

variable {cfg : She.Cfg} {ncfg : NvmServer.Cfg}

/-! ## One call -/

theorem she_uid {w : World} (hr : She.Reach cfg ncfg w) (x : Nat) : (w.she x).uid.length = 15 := by
  obtain ⟨w0, evs, h0, hv, rfl⟩ := hr
  revert hv x
  induction evs using She.snoc_induction with
  | h0 => intro x _; show (w0.she x).uid.length = 15; rw [h0.1 x]; rfl
  | h1 evs e ih =>
    intro x hv
    have ih' := fun x => ih x fun e he => hv e (by simp [he])
    have he0 := hv e (by simp)
    rw [She.run_snoc]
    by_cases he : e.isRestart
    · rw [She.restart_she he]; rfl
    · by_cases hx : ∀ v env r, e = .she v env r → v.ctx ≠ x
      · rw [She.step_she_other he hx]; exact ih' x
      · simp only [Classical.not_forall, Classical.not_not] at hx
        obtain ⟨v, env, r, rfl, rfl⟩ := hx
        cases hp : (She.run cfg ncfg w0 evs).sys.nvm.powered with
        | false => simp only [She.step, hp]; exact ih' _
        | true =>
          rw [She.step_she hp, She.set_ctx]
          exact handle_uid15 he0.2.2 (ih' _)

/-- **C58, calls.**  A SHE call that passes the client's checks returns what the command it stands for
gives on the server in the state it is in — the output, or the SHE error code (other codes as GENERAL
ERROR) — and leaves the server in the state after that command; for every call and its arguments,
either byte order on either side, every state of the device that requests and power cycles lead to,
and every content of uninitialised memory and of the rest of the packet buffers. -/
theorem C58_she_call (hs : cfg.cr.Sized) {w : World} (hw : She.Reach cfg ncfg w) {v : Srv} {env : Env} {cle : Bool} {dataLen : Nat}
    {pad : Fin 4 → UInt8} {seq : UInt16} {junk : List UInt8} {c : Call} (hc : c.Sane) (hr : refusal dataLen c = none)
    (hq : lateRefusal c = false) (hd : cfg.ks.commLen = dataLen) (h16 : dataLen < 65536) :
    run cle dataLen pad (fun a b => .got (served cfg cle v env seq junk (w.she v.ctx) w.sys a b).1) c =
      result (c.performed cfg v env (w.she v.ctx) w.sys) ∧
    (served cfg cle v env seq junk (w.she v.ctx) w.sys c.action (request cle pad c)).2 =
      states (w.she v.ctx) w.sys (c.performed cfg v env (w.she v.ctx) w.sys) :=
  run_served hs (she_uid hw v.ctx) hc hr hq hd h16

/-- The hypotheses are met: an encryption on a device that has booted succeeds, also for a client of
the other byte order, and the ciphertext is that of the key in slot 5. -/
example : She.Reach (ClientSheDemo.cfg true) She.Demo.ncfg ClientSheDemo.ready ∧ (ClientSheDemo.cfg true).cr.Sized ∧
    ClientSheDemo.enc.Sane ∧ refusal 64 ClientSheDemo.enc = none ∧ lateRefusal ClientSheDemo.enc = false ∧
    result (ClientSheDemo.enc.performed (ClientSheDemo.cfg true) She.Demo.one She.Demo.calm (ClientSheDemo.ready.she 0) ClientSheDemo.ready.sys) =
      (0, some (She.cbcEnc She.Demo.cr She.Demo.key5 2 (List.replicate 16 9) (List.replicate 20 1 ++ List.replicate 12 2))) ∧
    run false 64 ClientSheDemo.pad (fun a b => .got (served (ClientSheDemo.cfg true) false She.Demo.one She.Demo.calm 1 [7]
      (ClientSheDemo.ready.she 0) ClientSheDemo.ready.sys a b).1) ClientSheDemo.enc =
      (0, some (She.cbcEnc She.Demo.cr She.Demo.key5 2 (List.replicate 16 9) (List.replicate 20 1 ++ List.replicate 12 2))) := by
  refine ⟨⟨_, _, She.Demo.booted false She.Demo.fine, by decide +kernel, rfl⟩, She.Demo.sized, trivial, ?_, ?_, ?_, ?_⟩ <;> decide +kernel

theorem performed_ok {v : Srv} {env : Env} {t : St} {s : Sys} {c : Call} {out : List UInt8}
    (h : result (c.performed cfg v env t s) = (0, some out)) : (c.does cfg v env t s).rc = .ok ∧ (c.does cfg v env t s).out = out := by
  unfold Call.performed at h
  split at h
  · exact absurd (congrArg Prod.snd h) (by simp [result])
  split at h
  · exact absurd (congrArg Prod.snd h) (by simp [result])
  unfold result at h
  dsimp only at h
  split at h
  · rename_i hok
    injection h with _ h
    injection h with h
    exact ⟨hok, h⟩
  · injection h with _ h
    cases h

theorem withKey_ok {v : Srv} {env : Env} {t : St} {s : Sys} {id : UInt8} {short : Rc} {f : List UInt8 → List UInt8}
    (hs : short ≠ .ok) (h : (withKey cfg v env t s id short f).rc = .ok) :
    ∃ md key, (She.readSlot cfg v s id.toUInt16).1 = (.ok, some (md, key)) ∧ (withKey cfg v env t s id short f).out = f key := by
  revert h
  unfold withKey
  obtain ⟨⟨rc, q⟩, s1⟩ := She.readSlot cfg v s id.toUInt16
  cases rc
  case ok =>
    cases q with
    | none => exact nofun
    | some q =>
      dsimp only
      split
      · exact fun h => absurd h hs
      · split
        · exact nofun
        · exact fun _ => ⟨q.1, q.2, rfl, rfl⟩
  all_goals exact nofun

/-- The decryption that belongs to an encryption. -/
def inverse : Mode → Mode
  | .encEcb => .decEcb
  | .encCbc => .decCbc
  | m => m

theorem ecb_inv (hs : cfg.cr.Sized) (hd : ∀ k b, b.length = 16 → cfg.cr.dec k (cfg.cr.enc k b) = b) (key : List UInt8) :
    ∀ (n : Nat) (d : List UInt8), d.length = 16 * n → She.ecbDec cfg.cr key n (She.ecbEnc cfg.cr key n d) = d
  | 0, d, h => by
    have : d = [] := List.eq_nil_of_length_eq_zero (by omega)
    subst this; rfl
  | n + 1, d, h => by
    simp only [She.ecbEnc, She.ecbDec]
    have hl : (cfg.cr.enc key (d.take 16)).length = 16 := hs.enc ..
    rw [List.take_left' hl, List.drop_left' hl, hd _ _ (by simp; omega), ecb_inv hs hd key n _ (by simp; omega), List.take_append_drop]

/-- **C58, round trip.**  If a block cipher inverts its encryption, what was encrypted by a call is
given back by the decryption call with the same key slot, key and IV — the whole blocks of it. -/
theorem C58_round_trip (hs : cfg.cr.Sized) (hinv : ∀ k b, b.length = 16 → cfg.cr.dec k (cfg.cr.enc k b) = b)
    {w w' : World} (hw : She.Reach cfg ncfg w) (hw' : She.Reach cfg ncfg w') {v : Srv} {env env' : Env} {cle : Bool} {dataLen : Nat}
    {pad pad' : Fin 4 → UInt8} {seq seq' : UInt16} {junk junk' : List UInt8} {m : Mode} (hm : m = .encEcb ∨ m = .encCbc)
    {id : UInt8} {iv input ct pt : List UInt8} (hr : refusal dataLen (.cipher m id iv input) = none)
    (hd : cfg.ks.commLen = dataLen) (h16 : dataLen < 65536)
    (hkey : (She.readSlot cfg v w.sys id.toUInt16).1.2 = (She.readSlot cfg v w'.sys id.toUInt16).1.2)
    (he : run cle dataLen pad (fun a b => .got (served cfg cle v env seq junk (w.she v.ctx) w.sys a b).1) (.cipher m id iv input) =
      (0, some ct))
    (hde : run cle dataLen pad' (fun a b => .got (served cfg cle v env' seq' junk' (w'.she v.ctx) w'.sys a b).1)
      (.cipher (inverse m) id iv ct) = (0, some pt)) :
    pt = input.take (input.length / 16 * 16) := by
  have hr2 : refusal dataLen (.cipher (inverse m) id iv ct) = none := by
    apply Classical.byContradiction
    intro hne
    obtain ⟨rc, hrc⟩ := Option.ne_none_iff_exists'.1 hne
    unfold run at hde
    rw [hrc] at hde
    injection hde with _ h
    cases h
  rw [(C58_she_call (c := .cipher m id iv input) hs hw trivial hr rfl hd h16).1] at he
  rw [(C58_she_call (c := .cipher (inverse m) id iv ct) hs hw' trivial hr2 rfl hd h16).1] at hde
  obtain ⟨e1, e2⟩ := performed_ok he
  obtain ⟨d1, d2⟩ := performed_ok hde
  obtain ⟨md, key, k1, k2⟩ := withKey_ok (by split <;> simp [She.cryptoErr]) e1
  obtain ⟨md', key', k1', k2'⟩ := withKey_ok (by split <;> simp [She.cryptoErr]) d1
  rw [k1, k1'] at hkey
  injection hkey with hkey
  injection hkey with _ hkey
  subst hkey
  rw [show (Call.does cfg v env (w.she v.ctx) w.sys (.cipher m id iv input)).out = _ from k2] at e2
  rw [show (Call.does cfg v env' (w'.she v.ctx) w'.sys (.cipher (inverse m) id iv ct)).out = _ from k2'] at d2
  have hbl : (blocks input).length = 16 * (input.length / 16) := by unfold blocks; rw [List.length_take]; omega
  unfold refusal at hr
  dsimp only at hr
  have hr' : ¬(input.length < 16 ∨ (m.fixed = 24 ∧ iv.length < 16) ∨ m.fixed + input.length > dataLen) := by
    split at hr
    · cases hr
    · assumption
  have hcl : ct.length = 16 * (input.length / 16) := by
    rw [← e2]
    exact apply_exact hs _ _ _ _ _ (fun hf => by rw [List.length_take]; simp only [not_or, not_and] at hr'; have := hr'.2.1 hf; omega)
      (by rw [hbl])
  have hcb : blocks ct = ct := by
    unfold blocks
    rw [show ct.length / 16 * 16 = ct.length by omega, List.take_length]
  have hdiv : ct.length / 16 = input.length / 16 := by omega
  show pt = blocks input
  rw [← d2, hcb, hdiv, ← e2]
  rcases hm with rfl | rfl
  · exact ecb_inv hs hinv _ _ _ hbl
  · refine She.cbc_inv hs hinv _ _ _ _ ?_ hbl
    simp only [not_or, not_and] at hr'
    have := hr'.2.1 rfl
    rw [List.length_take]; omega

theorem demo_inv (k b : List UInt8) (h : b.length = 16) : She.Demo.cr.dec k (She.Demo.cr.enc k b) = b := by
  have hf : ∀ l : List UInt8, l.length = 16 → She.Demo.fit l = l := fun l hl => by
    unfold She.Demo.fit; rw [List.take_left' hl]
  have hx : (She.xorBytes b (She.Demo.fit k)).length = 16 := by rw [She.xorBytes_length, She.Demo.fit_length, h]; rfl
  simp only [She.Demo.cr]
  rw [hf b h, hf _ (by rw [List.length_map]; exact hx), List.map_map,
    show ((fun x : UInt8 => x - 1) ∘ fun x => x + 1) = id by funext x; simp, List.map_id, She.xor_xor (by rw [h, She.Demo.fit_length])]

/-- The hypotheses are met. -/
example : (∀ k b, b.length = 16 → She.Demo.cr.dec k (She.Demo.cr.enc k b) = b) ∧
    run false 64 ClientSheDemo.pad (fun a b => .got (served (ClientSheDemo.cfg true) false She.Demo.one She.Demo.calm 1 [7]
      (ClientSheDemo.ready.she 0) ClientSheDemo.ready.sys a b).1)
      (.cipher .decCbc 5 (List.replicate 16 9)
        (She.cbcEnc She.Demo.cr She.Demo.key5 2 (List.replicate 16 9) (List.replicate 20 1 ++ List.replicate 12 2))) =
      (0, some (List.replicate 20 1 ++ List.replicate 12 2)) :=
  ⟨demo_inv, by decide +kernel⟩

/-! ## Secure boot -/

/-- In every state that requests and power cycles lead to, a context in which no secure boot is going
on has counted no bytes: the hypothesis of `C58_secure_boot`. -/
theorem she_idle {w : World} (hr : She.Reach cfg ncfg w) (hp : w.sys.nvm.powered = true) (x : Nat)
    (h : (w.she x).sb = .init) : (w.she x).blRecv = 0 := by
  obtain ⟨w0, evs, h0, hv, rfl⟩ := hr
  exact (She.boot_history h0 x evs hv hp).start h

/-- **C58, secure boot.**  The secure boot call returns success only if at its first request there was
a boot MAC key of 16 bytes in its slot, and at its last request the stored boot MAC was the CMAC under
that key of the length of the image and the image, all of it and in order; and then SHE is in the
state after a successful boot.  For every image (shorter than 2^32 bytes), any size of packets, either
byte order on either side, whatever requests are lost, whatever other contexts do to the key store
between the requests, and whichever locks and ciphers fail. -/
theorem C58_secure_boot {v : Srv} {cle : Bool} {dataLen : Nat} {pad : List UInt8} {steps : Nat → Step} {k0 : Nat} {t : St}
    {image : List UInt8} (hl : ∀ k rc, (steps k).lost = some rc → rc ≠ 0) (hp : pad.length = 4)
    (hd : cfg.ks.commLen = dataLen) (h8 : 8 < dataLen) (h32 : image.length < 2 ^ 32) (h0 : t.sb = .init → t.blRecv = 0)
    (hres : (secureBoot cle dataLen pad (bootPeer cfg cle v steps) (k0, t) image).1 = 0) :
    ∃ key mac k, (steps k0).holds cfg v 2 key ∧ key.length = 16 ∧ (steps k).holds cfg v 3 mac ∧
      (secureBoot cle dataLen pad (bootPeer cfg cle v steps) (k0, t) image).2.1 = k + 1 ∧ Genuine cfg (steps k) key mac image ∧
      (secureBoot cle dataLen pad (bootPeer cfg cle v steps) (k0, t) image).2.2.sb = .success := by
  obtain ⟨_, key, k, mac, a, b, c, _, d, e, f⟩ := secureBoot_ok hl hp hd h8 h32 h0 hres
  exact ⟨key, mac, k, a, b, d, c, e, f⟩

/-- **C58, secure boot succeeds.**  When nothing fails, on a server with its UID set and no secure boot
going on, with a boot MAC key and a boot MAC, the call returns success exactly if the MAC is that of
the image. -/
theorem C58_secure_boot_exact {v : Srv} {cle : Bool} {dataLen : Nat} {pad : List UInt8} {steps : Nat → Step} {k0 : Nat} {t : St}
    {image key mac : List UInt8} (hs : Smooth steps) (hp : pad.length = 4) (hd : cfg.ks.commLen = dataLen) (h8 : 8 < dataLen)
    (hne : image ≠ []) (h32 : image.length < 2 ^ 32) (hi : t.sb = .init) (h0 : t.blRecv = 0) (hu : t.uidSet = true)
    (hk : (steps k0).holds cfg v 2 key) (hkl : key.length = 16) (hm : (steps (k0 + 1 + packets dataLen image)).holds cfg v 3 mac) :
    (secureBoot cle dataLen pad (bootPeer cfg cle v steps) (k0, t) image).1 = 0 ↔
      Genuine cfg (steps (k0 + 1 + packets dataLen image)) key mac image :=
  secureBoot_smooth (w := (k0, t)) hs hp hd h8 hne h32 hi h0 hu hk hkl hm

/-- The hypotheses are met: an image in two packets boots from a client of the other byte order; a
changed image does not. -/
example : Smooth ClientSheDemo.steps ∧ ClientSheDemo.bootCfg.ks.commLen = 11 ∧
    ((ClientSheDemo.steps 0).holds ClientSheDemo.bootCfg She.Demo.one 2 She.Demo.bootKey) ∧
    ((ClientSheDemo.steps (0 + 1 + packets 11 She.Demo.image)).holds ClientSheDemo.bootCfg She.Demo.one 3 She.Demo.bootMac) ∧
    (secureBoot false 11 [1, 2, 3, 4] (bootPeer ClientSheDemo.bootCfg false She.Demo.one ClientSheDemo.steps) (0, ClientSheDemo.uidSet)
      She.Demo.image).1 = 0 ∧
    (secureBoot false 11 [1, 2, 3, 4] (bootPeer ClientSheDemo.bootCfg false She.Demo.one ClientSheDemo.steps) (0, ClientSheDemo.uidSet)
      [1, 2, 3, 4, 6]).1 = Rc.sheGeneralError.code :=
  ⟨fun _ => ⟨rfl, rfl, fun _ => rfl⟩, rfl, ⟨She.Demo.md 2 1 0, by decide +kernel⟩, ⟨She.Demo.md 3 1 0, by decide +kernel⟩,
    by decide +kernel, by decide +kernel⟩

/-! ## Findings -/

/-- **Finding** (src/wh_client_she.c:746, 900): a CBC call with an IV longer than 16 bytes passes the
client's checks although it writes past its packet buffer, however large that is: all of the IV is
copied. -/
theorem F_C58_iv_overrun (cle : Bool) (pad : Fin 4 → UInt8) (id : UInt8) {dataLen : Nat} (hd : 40 ≤ dataLen) {iv : List UInt8}
    (hi : iv.length = dataLen) :
    refusal dataLen (.cipher .encCbc id iv (zeros 16)) = none ∧ dataLen < written cle pad (.cipher .encCbc id iv (zeros 16)) := by
  have hz : (zeros 16).length = 16 := rfl
  have hf : Mode.encCbc.fixed = 24 := rfl
  constructor
  · unfold refusal
    dsimp only
    rw [hz, hi, hf, if_neg (by omega)]
  · unfold written
    dsimp only
    rw [if_pos hf, hi]
    omega

/-- **Finding** (src/wh_client_she.c:556-558, 994-996): with an output buffer of less than 16 bytes the
random number call sends its request all the same: the server has advanced its generator, the caller
gets BADARGS, and the response stays unread. -/
theorem F_C58_small_room : ∃ t s, refusal 64 (.rnd 8) = none ∧
    run true 64 ClientSheDemo.pad (fun a b => .got (served (ClientSheDemo.cfg true) true She.Demo.one She.Demo.calm 1 [] t s a b).1) (.rnd 8) =
      (Rc.badargs.code, none) ∧
    (served (ClientSheDemo.cfg true) true She.Demo.one She.Demo.calm 1 [] t s 9 (request true ClientSheDemo.pad (.rnd 8))).2.1.prngState ≠
      t.prngState :=
  ⟨{ ClientSheDemo.uidSet with sb := .success, rndInited := true }, (She.Demo.dev true She.Demo.fine).sys, by decide +kernel⟩

/-- **Finding** (src/wh_server_she.c:1209, 1285, 1368, 1449): a cipher call whose input is not whole
blocks succeeds, and the bytes after the last whole block are not encrypted: the caller's output buffer
keeps what it held there, and the call reports no length. -/
theorem F_C58_tail : ∃ input out, input.length = 20 ∧
    run true 64 ClientSheDemo.pad (fun a b => .got (served (ClientSheDemo.cfg true) true She.Demo.one She.Demo.calm 1 []
      (ClientSheDemo.ready.she 0) ClientSheDemo.ready.sys a b).1) (.cipher .encEcb 5 [] input) = (0, some out) ∧ out.length = 16 :=
  ⟨List.replicate 20 1, She.ecbEnc She.Demo.cr She.Demo.key5 1 (List.replicate 20 1), by decide +kernel⟩

end WolfHsm.Props

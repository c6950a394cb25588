import Verif.Proofs.StatefulSigInv
import Verif.Proofs.KeystoreDemo

/-! # A small concrete server for the examples beside the stateful signature theorems -/

namespace WolfHsm.Props.StatefulDemo

open NvmFlash (Meta)
open Keystore (Sys Srv GoodCfg)
open StatefulSig

open Keystore.Demo (label)

/-- A toy algorithm: the private state is the key and the next index, the signature shows both. -/
def lib : Lib where
  params p := if p = [1, 1, 1] ∨ p = [1, 0] then .ok (1, 2) else .error .badargs
  reload _ _ := .ok
  sign _ priv msg _ := match priv with
    | [k, i] => if i = 255 then .error .aborted else .ok (k :: i :: msg, [k, i + 1])
    | _ => .error .badargs

/-- How to read them. -/
def meaning : Meaning := ⟨fun p => p.take 1, fun p => (p.getD 1 0).toNat, fun g => g.take 1, fun g => (g.getD 1 0).toNat⟩

theorem sound : lib.Sound meaning := by
  intro pub priv msg cap sig priv' h
  unfold lib at h
  dsimp only at h
  split at h
  · rename_i k i
    split at h
    · cases h
    · rename_i hi
      cases h
      refine ⟨rfl, rfl, rfl, ?_, rfl⟩
      show i.toNat < (i + 1).toNat
      have h1 := i.toNat_lt
      have h2 : i.toNat ≠ 255 := fun h => hi (UInt8.toNat.inj h)
      rw [UInt8.toNat_add]
      show i.toNat < (i.toNat + 1) % 256
      omega
  · cases h

/-- The configuration: the small server with the guards on. -/
def cfg : StatefulSig.Cfg := ⟨{ Keystore.Demo.cfg with statefulBlob := isPrivBlob true }, true, fun _ => lib⟩
/-- The NVM request group, likewise. -/
def ncfg : NvmServer.Cfg := { Keystore.Demo.ncfg with statefulBlob := isPrivBlob true }

theorem good : GoodCfg cfg.ks := by intro h; cases h

/-- Boot. -/
def boot (outs : Nat → Out) : Sys := Keystore.Demo.boot outs

theorem boot_reach (outs : Nat → Out) : StatefulSig.Reach cfg ncfg (boot outs) := by
  refine .base (.boot _ rfl (fun _ => rfl) rfl ?_)
  intro id md bs h
  change Keystore.Demo.store id = _ at h
  unfold Keystore.Demo.store at h
  split at h
  · rename_i e; cases h; exact ⟨e.symm, rfl⟩
  · split at h
    · rename_i e; cases h; exact ⟨e.symm, rfl⟩
    · split at h
      · rename_i e; cases h; exact ⟨e.symm, rfl⟩
      · cases h

/-- Client 1 generates its key 5, an LMS key with private state "key 7, index 0". -/
def gen : Ev := .keyGen Keystore.Demo.one ⟨.lms, 5, 0, label, 4, [1, 1, 1], 8, .ok, .ok, .ok, .ok ([42], [7, 0])⟩
/-- A server serving client 1 signs with key 5. -/
def signAt (ctx : Nat) (m : UInt8) (evict : Bool) : Ev :=
  .sign ⟨ctx, 1⟩ ⟨.lms, 5, [m], 64, evict, .ok, .ok, .ok, .ok⟩
/-- Client 1 signs with key 5. -/
def sign5 (m : UInt8) : Ev := signAt 0 m false
/-- The sign request. -/
def req5 (m : UInt8) : SignReq := ⟨.lms, 5, [m], 64, false, .ok, .ok, .ok, .ok⟩
/-- Client 1 revokes key 5. -/
def revoke5 : Ev := .base (.key Keystore.Demo.one .ok (.revoke 5))
/-- Client 1 caches private state as its key 5. -/
def cachePriv (priv : List UInt8) : Ev :=
  .base (.key Keystore.Demo.one .ok (.cache 5 0 label (encode true .lms [1, 1, 1] [42] priv)))
/-- The same state, with a header that says that there is none. -/
def disguised : List UInt8 := encode true .lms [1, 1, 1] [42] [] ++ [7, 0]
/-- Client 1 caches it. -/
def cacheDisguised : Ev := .base (.key Keystore.Demo.one .ok (.cache 5 0 label disguised))
/-- Power is lost when the sign request after the generation writes the state. -/
def cutAtSign : Nat → Out := fun n => if n = 3 then .cut false else .ok
/-- The id of that key. -/
def id5 : UInt16 := KeyId.make KeyId.typeCrypto 1 5

/-- A DMA add of the key as an NVM object; the memory changes between the two reads. -/
def addRace : Ev :=
  let b := encode true .lms [1, 1, 1] [42] [7, 0]
  .base (.nvm .ok (.addDma .ok .ok false ⟨id5, 0, 0, 18, label⟩ ⟨id5, 0, 0, 18, label⟩ (b.map fun _ => 0) b))

theorem boot_noState (outs : Nat → Out) : NoState cfg (boot outs) := by
  refine ⟨?_, ?_, fun _ _ h => by cases h⟩
  · intro y i k hk
    refine absurd hk ?_
    unfold Keystore.cached Keystore.cacheOf boot Keystore.Demo.boot
    split <;> (intro h; cases h)
  · intro i md d h
    change Keystore.Demo.store i = _ at h
    unfold Keystore.Demo.store at h
    split at h
    · cases h; rfl
    · split at h
      · cases h; rfl
      · split at h
        · cases h; rfl
        · cases h

/-- Nothing is under the key at boot. -/
theorem boot_onlyUnder (outs : Nat → Out) : OnlyUnder cfg .lms meaning [7] id5 0 (boot outs) := by
  have hno : ∀ d : List UInt8, d.length < 12 → ¬Holds cfg .lms meaning [7] d := by
    rintro d hd ⟨h, pub, priv, hl, _⟩
    unfold load deserialize at hl
    rw [if_pos hd] at hl
    cases hl
  refine ⟨?_, ?_, (fun _ _ h => by cases h), ?_⟩
  · intro y i k hk
    refine absurd hk ?_
    unfold Keystore.cached Keystore.cacheOf boot Keystore.Demo.boot
    split <;> (intro h; cases h)
  · intro i md d h hh
    refine absurd hh (hno d ?_)
    change Keystore.Demo.store i = _ at h
    unfold Keystore.Demo.store at h
    split at h
    · cases h; decide
    · split at h
      · cases h; decide
      · split at h
        · cases h; decide
        · cases h
  · intro _ y _
    unfold Keystore.cached Keystore.cacheOf boot Keystore.Demo.boot
    split <;> rfl

/-- Key 5 after generation. -/
def made (outs : Nat → Out) : Sys := (StatefulSig.step cfg ncfg (boot outs) gen).2

/-- A history: sign, a write failure, evict and sign again, power cut while signing, restart, sign. -/
def outs : Nat → Out := fun n => if n = 5 then .fail .aborted false else if n = 9 then .cut false else .ok
/-- See `outs`. -/
def evs : List Ev :=
  [sign5 1, sign5 2, .base (.key Keystore.Demo.one .ok (.cache 6 0 label [1, 2, 3])), signAt 0 3 true, sign5 4,
    .base (.restart false), sign5 5, sign5 6]

theorem valid1 : (1 : UInt16) < 16 := by decide

theorem evs_fit : ∀ e ∈ evs, e.Valid ∧ e.Clean cfg ncfg .lms meaning [7] ∧ e.Served cfg 0 id5 := by
  have hno : ¬ (∃ h pub priv, load cfg .lms [1, 2, 3] = .ok (h, pub, priv)) := by
    rintro ⟨h, pub, priv, hl⟩; revert hl; unfold load deserialize; rw [if_pos (by decide)]; intro h; cases h
  intro e h
  simp only [evs, List.mem_cons, List.not_mem_nil, or_false] at h
  rcases h with rfl | rfl | rfl | rfl | rfl | rfl | rfl | rfl
  all_goals first
    | exact ⟨valid1, trivial, fun _ _ => rfl⟩
    | exact ⟨trivial, trivial, trivial⟩
    | refine ⟨valid1, ?_, fun _ _ => rfl⟩
  rintro md d ⟨-, rfl, -⟩
  exact ⟨fun ⟨h, pub, priv, hl, _⟩ => hno ⟨h, pub, priv, hl⟩, fun h => absurd h (fun h => h)⟩

end WolfHsm.Props.StatefulDemo


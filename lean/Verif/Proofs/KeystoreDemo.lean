import Verif.Proofs.KeystoreInv

/-!
# A small concrete server for the examples beside the key store theorems

Two regular cache slots and one big one per cache, one provisioned TRUSTED key-encryption
key in the NVM, and a toy cipher that satisfies the law of an authenticated encryption.
-/

namespace WolfHsm.Keystore.Demo

open NvmFlash (Meta Store)

/-- A toy tag: depends on the key and the domain. -/
def tag (key : List UInt8) (d : Bool) : List UInt8 :=
  List.replicate 15 (key.foldl (· + ·) 7) ++ [if d then 1 else 0]

/-- The toy cipher. -/
def aead : Aead where
  enc key d _ pt := some (pt, tag key d)
  dec key d _ ct t := if t = tag key d then some ct else none

/-- The configuration. -/
def cfg : Cfg where
  ids := ⟨true, true, true⟩
  bufSize := 32
  bigBufSize := 64
  she := true
  sheGlobal := false
  statefulBlob _ := false
  maxWrapKey := 64
  maxWrapData := 64
  commLen := 512
  aead := aead
  hwKey id := if KeyId.idOf id = 3 then (.ok, [9, 9, 9]) else (.notfound, [])
  publicOf _ _ := (.badargs, [])

/-- The NVM request group. -/
def ncfg : NvmServer.Cfg where
  maxRead := 64
  statefulBlob _ := false
  list _ _ _ _ := (.ok, 0, 0)
  avail _ := (.ok, [])

theorem good : GoodCfg cfg := by intro h; cases h

/-- A label. -/
def label : Vector UInt8 24 := Vector.replicate 24 5

/-- Global key 9: the provisioned key-encryption key. -/
def kekId : UInt16 := KeyId.make KeyId.typeCrypto KeyId.userGlobal 9

/-- Its metadata. -/
def kekMd : Meta :=
  ⟨kekId, 0xFFFF, Flag.trusted ||| Flag.usageWrap ||| Flag.nonExportable, 4, label⟩

/-- A non-exportable key of client 1 in the NVM, number 7. -/
def secretMd : Meta :=
  ⟨KeyId.make KeyId.typeCrypto 1 7, 0xFFFF, Flag.nonExportable ||| Flag.usageSign, 3, label⟩

/-- SHE key 4 of client 1 in the NVM. -/
def sheMd : Meta :=
  ⟨KeyId.make KeyId.typeShe 1 4, 0xFFFF, 0, 3, label⟩

/-- NVM content at boot. -/
def store : Store := fun id =>
  if id = kekId then some (kekMd, [1, 2, 3, 4])
  else if id = secretMd.id then some (secretMd, [0x5E, 0xC2, 0xE7])
  else if id = sheMd.id then some (sheMd, [0x11, 0x12, 0x13])
  else none

/-- An empty cache. -/
def empty : Cache := ⟨[none, none], [none]⟩

/-- Boot; `outs`: the outcomes of the NVM backend. -/
def boot (outs : Nat → Out) : Sys := ⟨⟨store, none, true, outs, 0⟩, empty, fun _ => empty⟩

/-- The NVM never fails. -/
def fine : Nat → Out := fun _ => .ok

theorem boot_reach (outs : Nat → Out) : Reach cfg ncfg (boot outs) := by
  refine .boot _ rfl (fun _ => rfl) rfl ?_
  intro id md bs h
  change store id = _ at h
  unfold store at h
  split at h
  · rename_i e; cases h; exact ⟨e.symm, rfl⟩
  · split at h
    · rename_i e; cases h; exact ⟨e.symm, rfl⟩
    · split at h
      · rename_i e; cases h; exact ⟨e.symm, rfl⟩
      · cases h

/-- Client 1 is served by context 0, client 2 by context 1. -/
def one : Srv := ⟨0, 1⟩
/-- See `one`. -/
def two : Srv := ⟨1, 2⟩

/-- Client 1 caches its key 5. -/
def cache5 : Ev := .key one .ok (.cache 5 Flag.usageEncrypt label [1, 2, 3])
/-- Client 1 caches the global key 6. -/
def cacheG6 : Ev := .key one .ok (.cache 0x0106 Flag.usageEncrypt label [6, 6, 6])
/-- Client 1 commits the global key 6. -/
def commitG6 : Ev := .key one .ok (.commit 0x0106)
/-- Client 2 lets the server choose an id. -/
def fresh2 : Ev := .key two .ok (.cache 0 0 label [8, 8])
/-- Client 2 caches a global key under a chosen id. -/
def freshG : Ev := .key two .ok (.cache 0x0100 0 label [4, 4])

end WolfHsm.Keystore.Demo

namespace WolfHsm.Keystore

theorem reach_run {cfg : Cfg} {ncfg : NvmServer.Cfg} {s : Sys} (hs : Reach cfg ncfg s) :
    ∀ (evs : List Ev), (∀ e ∈ evs, e.Valid) → Reach cfg ncfg (run cfg ncfg s evs) := by
  intro evs
  induction evs generalizing s with
  | nil => intro _; exact hs
  | cons e evs ih =>
    intro hv
    rw [run_cons]
    exact ih (.step e (hv e (by simp)) hs) fun e he => hv e (by simp [he])

theorem cached_global {cfg : Cfg} {s : Sys} {id : UInt16} (h : isGlobal cfg id = true) (y : Nat) :
    cached cfg y s id = s.global.find id := by
  unfold cached cacheOf; rw [if_pos h]

/-- For a global key only the shared cache matters. -/
theorem coherent_global {cfg : Cfg} {s : Sys} {id : UInt16} (h : isGlobal cfg id = true)
    (hc : ∀ k, s.global.find id = some k → k.committed = true → s.nvm.store id = some (k.md, k.data)) :
    Coherent cfg s id := by
  intro y k hk hcm
  rw [cached_global h] at hk
  exact hc k hk hcm

theorem onlyAt_global {cfg : Cfg} {s : Sys} {id : UInt16} {x : Nat} (h : isGlobal cfg id = true) :
    OnlyAt cfg x s id := by
  intro h'; rw [h] at h'; cases h'

instance (e : Ev) : Decidable e.Valid := by
  unfold Ev.Valid; split <;> infer_instance

instance (c : UInt16) (e : Ev) : Decidable (e.ByOther c) := by
  unfold Ev.ByOther; split <;> infer_instance

/-- The demo server after a history without NVM failures. -/
def Demo.after (evs : List Ev) : Sys := run Demo.cfg Demo.ncfg (Demo.boot Demo.fine) evs

theorem Demo.after_reach (evs : List Ev) (h : ∀ e ∈ evs, e.Valid) :
    Reach Demo.cfg Demo.ncfg (Demo.after evs) := reach_run (Demo.boot_reach _) evs h

theorem Demo.boot_cached (y : Nat) (id : UInt16) : cached Demo.cfg y (Demo.after []) id = none := by
  unfold cached cacheOf; split <;> rfl

theorem Demo.boot_view (y : Nat) (id : UInt16) :
    view Demo.cfg y (Demo.after []) id = Demo.store id := by
  unfold view; rw [Demo.boot_cached]; rfl

theorem Demo.boot_coherent (id : UInt16) : Coherent Demo.cfg (Demo.after []) id := by
  intro y k h; rw [Demo.boot_cached] at h; cases h

end WolfHsm.Keystore

import Verif.Proofs.DeviceDma
import Verif.Props.Device

/-!
# C39 for the whole device
-/

namespace WolfHsm.Props

open Device (Booted Sound Sized Agree sent)

variable {A E : Type}

/-! ## A concrete device -/

namespace DmaDevDemo

/-- May be read: 1000 to 1FFF.  May be written: 2000 to 2FFF. -/
abbrev list : Dma.AllowList := CryptoDmaDemo.list

/-- The checks before reading and writing. -/
def may (write : Bool) (a : UInt64) (n : Nat) : Rc :=
  Dma.checkMemOper (2 ^ 64) (some list) (if write then .writePre else .readPre) a.toNat n

/-- The surroundings of `DevDemo`, with the DMA checks of the allow list. -/
def env : Device.Env Nat :=
  { DevDemo.env with
    nvm := { DevDemo.env.nvm with pre := may }
    key := { DevDemo.env.key with dmaIn := may false, dmaOut := may true }
    cert := { DevDemo.env.cert with dmaRead := fun a n => may false a n.toNat, dmaWrite := fun a n => may true a n.toNat }
    cryptoDma := { DevDemo.env.cryptoDma with readPre := fun b => may false b.addr b.sz.toNat,
                                              writePre := fun b => may true b.addr b.sz.toNat } }

/-- The device of `DevDemo` with these surroundings, and an LMS that has room for its signatures. -/
def cfg : Device.Cfg Unit Nat := { DevDemo.cfg with sigLib := CryptoDmaDemo.tidy.sigLib, world := fun _ => env }

theorem guarded (k : Nat) : Device.Guarded list (cfg.world k) :=
  ⟨fun _ _ _ h => h, fun _ _ _ h => h, fun _ _ _ h => h, fun _ _ _ h => h, fun _ _ _ h => h, fun _ _ _ h => h,
    fun _ _ h => h, fun _ _ h => h⟩

theorem sized : Sized list := by
  constructor <;> (intro x hx; cases List.mem_singleton.mp hx; decide)

theorem bounded (k : Nat) : CryptoDma.Bounded cfg.cryptoDma (cfg.world k).cryptoDma :=
  have b := CryptoDmaDemo.bounded
  ⟨b.aes, b.sign, b.privateDer, b.publicDer, b.kemPub, b.encaps, b.random, b.sigSign, b.sigGen⟩

theorem sound : Sound cfg :=
  have s := DevDemo.sound
  ⟨s.shared, s.commLen, s.dataLen, s.mtu, s.big, s.read, s.custom, s.aead, s.aes, fun a pub priv msg cap sig priv' h => by
    change (match StatefulDemo.lib.sign pub priv msg cap with
      | .error rc => Except.error rc
      | .ok (sig, priv') => if sig.length ≤ cap then Except.ok (sig, priv') else .error .bufferSize) = _ at h
    split at h
    · cases h
    · next h1 =>
      split at h
      · cases h; exact s.sign a _ _ _ _ _ _ h1
      · exact (by cases h), s.mem⟩

/-- A client memory with one byte everywhere in the part that may be read and another outside. -/
def memory (inside outside : UInt8) (_k _j : Nat) (a : UInt64) : UInt8 := if 0x1000 ≤ a ∧ a < 0x2000 then inside else outside

theorem agree (i o o' : UInt8) (k j : Nat) : Agree list (memory i o k j) (memory i o' k j) := by
  intro x hx n h1 h2
  cases List.mem_singleton.mp hx
  dsimp only at h1 h2
  have e : (UInt64.ofNat n).toNat = n := by
    rw [UInt64.toNat_ofNat']; exact Nat.mod_eq_of_lt (by omega)
  have : (0x1000 : UInt64) ≤ UInt64.ofNat n ∧ UInt64.ofNat n < 0x2000 := by
    rw [UInt64.le_iff_toNat_le, UInt64.lt_iff_toNat_lt, e]; exact ⟨h1, by show n < 0x2000; omega⟩
  unfold memory
  rw [if_pos this, if_pos this]

/-- Requests that name client memory: store three bytes from 1100, and four bytes from 1FFE, with the metadata
at 1200; the note to 2000, and to 2FFF; an LMS key and signature, with their results at 2000. -/
def dmas : List Device.Ev :=
  [DevDemo.ask 0 0x0224 (DevDemo.bytes (ClientNvm.encode true 1280 (.addDma 0x1200 0x1100 3))),
   DevDemo.ask 0 0x0224 (DevDemo.bytes (ClientNvm.encode true 1280 (.addDma 0x1200 0x1FFE 4))),
   DevDemo.ask 0 0x0228 (DevDemo.bytes (ClientNvm.encode true 1280 (.readDma 0x21 0 2 0x2000))),
   DevDemo.ask 0 0x0228 (DevDemo.bytes (ClientNvm.encode true 1280 (.readDma 0x21 0 2 0x2FFF))),
   DevDemo.ask 0 0x0B03 CryptoDmaDemo.lmsGen, DevDemo.ask 0 0x0B03 CryptoDmaDemo.lmsSign]

end DmaDevDemo

/-! ## C39 -/

/-- **C39** for the whole device, reading.  Take any device whose DMA checks are those of an allow list, and
two runs of it with the same packets and the same surroundings, in which client memory differs, at any
time, only outside the regions that the list opens for reading.  The device ends up in the same state, with
the same stored objects, keys and users, has written the same to client memory, and has sent the same
packets. -/
theorem C39_device_reads (cfg : Device.Cfg A E) {al : Dma.AllowList} (hz : Sized al) (hg : ∀ k, Device.Guarded al (cfg.world k))
    {m m' : Nat → Nat → UInt64 → UInt8} (ha : ∀ k j, Agree al (m k j) (m' k j)) (d : Device.Dev A) (evs : List Device.Ev) :
    Device.run (cfg.seeing m') d evs = Device.run (cfg.seeing m) d evs ∧ sent (cfg.seeing m') d evs = sent (cfg.seeing m) d evs :=
  Device.run_blind hz hg ha d evs

/-- **C39** for the whole device, writing.  Whatever the packets of a history from power-up were, everything
the device wrote to client memory since then lies inside one region that the list opens for
writing. -/
theorem C39_device_writes {cfg : Device.Cfg A E} (hs : Sound cfg) {al : Dma.AllowList} (hz : Sized al)
    (hg : ∀ k, Device.Guarded al (cfg.world k)) (hb : ∀ k, CryptoDma.Bounded cfg.cryptoDma (cfg.world k).cryptoDma)
    {d0 : Device.Dev A} (h0 : Booted d0) (evs : List Device.Ev) :
    ∃ l, (Device.run cfg d0 evs).rest.sent = d0.rest.sent ++ l ∧
      ∀ a bytes, (a, bytes) ∈ l → bytes ≠ [] → Dma.Allowed al (.write a.toNat bytes.length) := by
  obtain ⟨l, h1, h2⟩ := Device.run_lands hz hs hg hb evs d0 h0.inv
  exact ⟨l, h1, fun a b h => h2 (a, b) h⟩

section
open DmaDevDemo
open DevDemo (dev start booted)

/-- The hypotheses are met. -/
example : Sound cfg ∧ Sized list ∧ (∀ k, Device.Guarded list (cfg.world k)) ∧
    (∀ k, CryptoDma.Bounded cfg.cryptoDma (cfg.world k).cryptoDma) ∧ Booted dev ∧
    (∀ k j, Agree list (memory 1 2 k j) (memory 1 3 k j)) := ⟨sound, sized, guarded, bounded, booted, agree 1 2 3⟩

/-- What lands in client memory: the note at 2000, not the one at 2FFF; the LMS public key and the signature
of a byte that was read. -/
example : (Device.run (cfg.seeing (memory 1 2)) dev (start ++ dmas)).rest.sent =
    [(0x2000, [5, 6]), (0x2000, [42]), (0x2000, [7, 0, 1])] := by decide +kernel

/-- The object made of client memory; the second request for it is refused. -/
example : ((Device.run (cfg.seeing (memory 1 2)) dev (start ++ dmas)).auth.nvm.store 0x0101).map (·.2) = some [1, 1, 1] := by
  decide +kernel

/-- What the client holds inside the region shows: the signature is one of another byte. -/
example : (Device.run (cfg.seeing (memory 4 2)) dev (start ++ dmas)).rest.sent =
    [(0x2000, [5, 6]), (0x2000, [42]), (0x2000, [7, 0, 4])] := by decide +kernel
end

end WolfHsm.Props

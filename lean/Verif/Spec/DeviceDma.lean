import Verif.Spec.Device
import Verif.Spec.CryptoDma
import Verif.Props.Dma

/-!
# Specification vocabulary for client memory and the whole device (C39)
-/

namespace WolfHsm.Device

variable {A E : Type}

/-- `n` bytes of a memory from an address on. -/
def bytesAt (m : UInt64 → UInt8) (a : UInt64) (n : Nat) : List UInt8 :=
  (List.range n).map fun i => m (a + UInt64.ofNat i)

/-- The surroundings of a request in which client memory is `m`; `m j` is what the server finds when it
looks for the `j`-th time while it serves the request (the client may write to it meanwhile). -/
def Env.seeing (e : Env E) (m : Nat → UInt64 → UInt8) : Env E :=
  { e with
    nvm := { e.nvm with mem1 := bytesAt (m 0), mem2 := bytesAt (m 1) }
    key := { e.key with mem := fun a i => m 0 (a + UInt64.ofNat i) }
    cert := { e.cert with mem := fun j a i => m j (a + UInt64.ofNat i) }
    cryptoDma := { e.cryptoDma with mem := m 0 } }

/-- The device when client memory is `m k` while the `k`-th request is served. -/
def Cfg.seeing (c : Cfg A E) (m : Nat → Nat → UInt64 → UInt8) : Cfg A E :=
  { c with world := fun k => (c.world k).seeing (m k) }

/-- The DMA checks of all groups are, or contain, those of the allow list with 64-bit addresses; addresses are not
translated. -/
structure Guarded (al : Dma.AllowList) (e : Env E) : Prop where
  nvmRead : ∀ a n, 0 < n → e.nvm.pre false a n = .ok → Dma.checkMemOper (2 ^ 64) (some al) .readPre a.toNat n = .ok
  nvmWrite : ∀ a n, 0 < n → e.nvm.pre true a n = .ok → Dma.checkMemOper (2 ^ 64) (some al) .writePre a.toNat n = .ok
  keyRead : ∀ a n, 0 < n → e.key.dmaIn a n = .ok → Dma.checkMemOper (2 ^ 64) (some al) .readPre a.toNat n = .ok
  keyWrite : ∀ a n, 0 < n → e.key.dmaOut a n = .ok → Dma.checkMemOper (2 ^ 64) (some al) .writePre a.toNat n = .ok
  certRead : ∀ a n, 0 < n → e.cert.dmaRead a n = .ok → Dma.checkMemOper (2 ^ 64) (some al) .readPre a.toNat n.toNat = .ok
  certWrite : ∀ a n, 0 < n → e.cert.dmaWrite a n = .ok → Dma.checkMemOper (2 ^ 64) (some al) .writePre a.toNat n.toNat = .ok
  cryptoRead : ∀ b, 0 < b.sz → e.cryptoDma.readPre b = .ok →
    Dma.checkMemOper (2 ^ 64) (some al) .readPre b.addr.toNat b.sz.toNat = .ok
  cryptoWrite : ∀ b, 0 < b.sz → e.cryptoDma.writePre b = .ok →
    Dma.checkMemOper (2 ^ 64) (some al) .writePre b.addr.toNat b.sz.toNat = .ok

/-- An allow list whose sizes are machine integers. -/
def Sized (al : Dma.AllowList) : Prop :=
  (∀ x ∈ al.readList, x.size < 2 ^ 64) ∧ ∀ x ∈ al.writeList, x.size < 2 ^ 64

/-- Two client memories agree on the regions the allow list opens for reading. -/
def Agree (al : Dma.AllowList) (m m' : UInt64 → UInt8) : Prop :=
  ∀ x ∈ al.readList, ∀ i, x.addr ≤ i → i < x.addr + x.size → m' (UInt64.ofNat i) = m (UInt64.ofNat i)

end WolfHsm.Device

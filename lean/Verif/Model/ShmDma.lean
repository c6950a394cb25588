import Verif.Model.Dma

/-!
# DMA callbacks of the POSIX shared-memory transport, port/posix/posix_transport_shm.c:543-620, 682-725

The client's memory is a function from addresses; the DMA area is the part from `base` on, which the server
has mapped at `sbase`.  Addresses have 64 bits and no buffer goes beyond them.
-/

namespace WolfHsm.ShmDma

open Dma (Oper)

abbrev Memory := Nat → UInt8

/-- The DMA area as `posixTransportShm_GetDma` gives it, lines 366-380; `base = 0`: NULL (not connected). -/
structure Area where
  base : Nat
  size : Nat

/-- `memcpy(dst, src, n)`. -/
def copy (m : Memory) (dst src n : Nat) : Memory :=
  fun a => if dst ≤ a ∧ a < dst + n then m (src + (a - dst)) else m a

/-- Lines 574-577: the buffer is taken to be in the DMA area. -/
def Area.has (a : Area) (addr len : Nat) : Bool :=
  decide (a.base ≠ 0 ∧ a.size > 0 ∧ len < a.size ∧ a.base ≤ addr ∧ addr < a.base + a.size - len)

/-- What a call of the client's callback does: result, the transformed address, memory, the block
allocated and the block freed. -/
structure Did where
  rc : Rc
  x : Nat
  mem : Memory
  taken : Option Nat
  freed : Option Nat

/-- `posixTransportShm_ClientStaticMemDmaCallback`, lines 549-620.  `heap`: a heap hint has been set; `alloc`: what
`XMALLOC` gives; `x`: the transformed address on entry.  The subtraction wraps. -/
def clientCb (a : Area) (heap : Bool) (alloc : Option Nat) (m : Memory) (op : Oper) (addr len x : Nat) : Did :=
  if addr = 0 ∨ len = 0 then ⟨.ok, 0, m, none, none⟩
  else if !a.has addr len && !heap then ⟨.notready, x, m, none, none⟩
  else match op with
    | .readPre | .writePre =>
      if a.has addr len then ⟨.ok, addr - a.base, m, none, none⟩
      else match alloc with
        | none => ⟨.nospace, x, m, none, none⟩
        | some p => ⟨.ok, (p + 2 ^ 64 - a.base) % 2 ^ 64, copy m p addr len, some p, none⟩
    | .readPost => if a.has addr len then ⟨.ok, x, m, none, none⟩ else ⟨.ok, x, m, none, some (a.base + x)⟩
    | .writePost =>
      if a.has addr len then ⟨.ok, x, m, none, none⟩ else ⟨.ok, x, copy m addr (a.base + x) len, none, some (a.base + x)⟩
    | .invalid => ⟨.ok, x, m, none, none⟩

/-- `posixTransportShm_ServerStaticMemDmaCallback`, lines 685-725: result and address in the server's memory.
`off`: the address in the request. -/
def serverCb (sbase size off len : Nat) : Rc × Nat :=
  if sbase = 0 ∨ size = 0 then (.notready, off)
  else if len > size ∨ off > size - len then (.badargs, off)
  else (.ok, sbase + off)

/-- The server writes `bs` at `p` in its memory; it shows in the client's. -/
def serverWrites (a : Area) (sbase : Nat) (m : Memory) (p : Nat) (bs : List UInt8) : Memory :=
  fun x => if a.base + (p - sbase) ≤ x ∧ x < a.base + (p - sbase) + bs.length then
    bs.getD (x - (a.base + (p - sbase))) 0 else m x

/-- What the server reads at `p`. -/
def serverReads (a : Area) (sbase : Nat) (m : Memory) (p n : Nat) : List UInt8 :=
  (List.range n).map fun i => m (a.base + (p - sbase) + i)

end WolfHsm.ShmDma

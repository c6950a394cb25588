import Verif.Model.Basic

/-!
# `src/wh_log_ringbuf.c` (and the dispatch of `src/wh_log.c`)

The entry type is abstract.  `W` is `SIZE_MAX + 1`, the modulus of the `size_t`
counter.  The user buffer is a list of `capacity` entries.
-/

namespace WolfHsm.RingBuf

/-- `whLogRingbufContext`, wolfhsm/wh_log_ringbuf.h:42-47. -/
structure Ctx (E : Type) where
  entries : List E
  capacity : Nat
  count : Nat
  initialized : Bool

variable {E : Type}

/-- `whLogRingbuf_Init`, src/wh_log_ringbuf.c:34-61.  `bufferSize` and
`entrySize` are in bytes; `initial` is the (arbitrary) previous content of the
buffer viewed as entries. -/
def init (bufferSize entrySize : Nat) (initial : Nat → E) : Except Rc (Ctx E) :=
  if bufferSize < entrySize then .error .badargs
  else if bufferSize / entrySize = 0 then .error .badargs
  else
    let capacity := bufferSize / entrySize
    .ok { entries := (List.range capacity).map initial, capacity, count := 0, initialized := true }

/-- `whLogRingbuf_AddEntry`, src/wh_log_ringbuf.c:79-102. -/
def addEntry (W : Nat) (c : Ctx E) (e : E) : Ctx E × Rc :=
  if !c.initialized then (c, .aborted)
  else
    let head := c.count % c.capacity
    ({ c with entries := c.entries.set head e, count := (c.count + 1) % W }, .ok)

/-- `whLogRingbuf_Clear`, src/wh_log_ringbuf.c:164-179; `zero` is the all-zero
entry. -/
def clear (zero : E) (c : Ctx E) : Ctx E × Rc :=
  ({ c with count := 0, entries := List.replicate c.capacity zero }, .ok)

/-- The loop of `whLogRingbuf_Iterate`, src/wh_log_ringbuf.c:152-159.  The
callback is any state machine `cb`; `none` is an access outside the buffer. -/
def iterLoop {σ : Type} (cb : σ → E → σ × Int) (c : Ctx E) (start : Nat) :
    (todo i : Nat) → σ → Option (σ × Int)
  | 0, _, s => some (s, 0)
  | n + 1, i, s =>
    match c.entries[(start + i) % c.capacity]? with
    | none => none
    | some e =>
      let (s', ret) := cb s e
      if ret ≠ 0 then some (s', ret) else iterLoop cb c start n (i + 1) s'

/-- `whLogRingbuf_Iterate`, src/wh_log_ringbuf.c:111-162. -/
def iterate {σ : Type} (cb : σ → E → σ × Int) (c : Ctx E) (s : σ) : Option (σ × Int × Rc) :=
  if !c.initialized then some (s, 0, .aborted)
  else if c.count = 0 then some (s, 0, .ok)
  else
    let num := if c.count < c.capacity then c.count else c.capacity
    let start := if c.count < c.capacity then 0 else c.count % c.capacity
    (iterLoop cb c start num 0 s).map fun (s', r) => (s', r, .ok)

/-- The modifying calls of the logging API. -/
inductive Op (E : Type)
  | add (e : E)
  | clear

/-- One API call. -/
def step (W : Nat) (zero : E) (c : Ctx E) : Op E → Ctx E
  | .add e => (addEntry W c e).1
  | .clear => (clear zero c).1

/-- A sequence of API calls. -/
def run (W : Nat) (zero : E) (c : Ctx E) (ops : List (Op E)) : Ctx E :=
  ops.foldl (step W zero) c

end WolfHsm.RingBuf

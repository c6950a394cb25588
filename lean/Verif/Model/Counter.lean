import Verif.Model.Nvm
import Verif.Model.KeyId

/-!
# Monotonic counters, `src/wh_server_counter.c`

A counter is an NVM object without data; its value is kept in the first four bytes of
the metadata label.
-/

namespace WolfHsm.Counter

open NvmFlash (Meta)

/-- `*(uint32_t*)&meta->label`, src/wh_server_counter.c:48, on a little-endian server. -/
def get (md : Meta) : UInt32 :=
  md.label[0].toUInt32 ||| (md.label[1].toUInt32 <<< 8) ||| (md.label[2].toUInt32 <<< 16) |||
    (md.label[3].toUInt32 <<< 24)

/-- Assignment to `*counter`. -/
def put (md : Meta) (v : UInt32) : Meta :=
  { md with label := (((md.label.set 0 v.toUInt8).set 1 (v >>> 8).toUInt8).set 2
                        (v >>> 16).toUInt8).set 3 (v >>> 24).toUInt8 }

/-- The id of a counter, src/wh_server_counter.c:72-74. -/
def keyOf (client counterId : UInt16) : UInt16 := KeyId.make KeyId.typeCounter client counterId

/-- Decoded counter requests; `malformed`: the request is shorter than its struct. -/
inductive Req where
  | init (counterId : UInt16) (value : UInt32)
  | increment (counterId : UInt16)
  | read (counterId : UInt16)
  | destroy (counterId : UInt16)
  | malformed
  | unknown
deriving DecidableEq

/-- The response: return code and, for all but destroy, a counter value (0 on errors). -/
structure Resp where
  rc : Rc
  value : UInt32
deriving DecidableEq

/-- `{0}`-initialised metadata with an id. -/
def blankMeta (id : UInt16) : Meta := ⟨id, 0, 0, 0, Vector.replicate 24 0⟩

/-- Lines 78-87: INIT. -/
def initCounter (n : Nvm) (key : UInt16) (value : UInt32) : Resp × Nvm :=
  match n.addWithReclaim (put (blankMeta key) value) [] with
  | (.ok, n') => (⟨.ok, value⟩, n')
  | (rc, n') => (⟨rc, 0⟩, n')

/-- Lines 123-139: the part of INCREMENT after the metadata has been read.  `value` is the
incremented value: 0 means it rolled over. -/
def bump (n : Nvm) (md : Meta) (value : UInt32) : Resp × Nvm :=
  if value = 0 then (⟨.ok, 0xFFFFFFFF⟩, n)
  else match n.addWithReclaim (put md value) [] with
    | (.ok, n') => (⟨.ok, value⟩, n')
    | (rc, n') => (⟨rc, 0⟩, n')

/-- Lines 112-143: INCREMENT. -/
def increment (n : Nvm) (key : UInt16) : Resp × Nvm :=
  match n.metadata key with
  | (.ok, some md) => bump n md (get md + 1)
  | (rc, _) => (⟨rc, 0⟩, n)

/-- Lines 167-184: READ. -/
def readCounter (n : Nvm) (key : UInt16) : Resp :=
  match n.metadata key with
  | (.ok, some md) => ⟨.ok, get md⟩
  | (rc, _) => ⟨rc, 0⟩

/-- `wh_Server_HandleCounter`, src/wh_server_counter.c:40-233.  `lock` is the result of
`WH_SERVER_NVM_LOCK`; `client` the client id of the connection.  An unknown action
leaves the response packet untouched and is reported by the return code. -/
def handle (n : Nvm) (client : UInt16) (lock : Rc) : Req → Resp × Nvm
  | .init cid v =>
    match lock with
    | .ok => initCounter n (keyOf client cid) v
    | rc => (⟨rc, 0⟩, n)
  | .increment cid =>
    match lock with
    | .ok => increment n (keyOf client cid)
    | rc => (⟨rc, 0⟩, n)
  | .read cid =>
    match lock with
    | .ok => (readCounter n (keyOf client cid), n)
    | rc => (⟨rc, 0⟩, n)
  | .destroy cid =>
    match lock with
    | .ok => (⟨(n.destroy [keyOf client cid]).1, 0⟩, (n.destroy [keyOf client cid]).2)
    | rc => (⟨rc, 0⟩, n)
  | .malformed => (⟨.badargs, 0⟩, n)
  | .unknown => (⟨.badargs, 0⟩, n)

end WolfHsm.Counter

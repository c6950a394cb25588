import Verif.Model.TransportMem

/-!
# What a lossless request/response channel may show

Requests and responses alternate.  Between a request and its answer the server may receive
that request (once or repeatedly), and nothing else; the answer follows a reception.  After
the answer the client may receive it, and nothing else, until it sends the next request.
-/

namespace WolfHsm.Mem

inductive Chan where
  /-- The last request (none yet, at the beginning) has been answered with `msg`. -/
  | answered (msg : List UInt8)
  /-- Request `msg` is outstanding; `seen`: the server has received it. -/
  | requested (msg : List UInt8) (seen : Bool)
deriving DecidableEq

/-- A reception with room for `cap` bytes reports the true length of `msg` and delivers its
bytes, cut off at `cap`. -/
def Shows (msg : List UInt8) (cap len : UInt16) (bytes : List UInt8) : Prop :=
  len.toNat = msg.length ∧ bytes = msg.take cap.toNat

instance (msg : List UInt8) (cap len : UInt16) (bytes : List UInt8) :
    Decidable (Shows msg cap len bytes) := by unfold Shows; infer_instance

/-- The allowed observations and their effect; `none`: not allowed. -/
def Chan.next : Chan → Obs → Option Chan
  | .answered _, .sent m => some (.requested m false)
  | .answered r, .got cap len bytes => if Shows r cap len bytes then some (.answered r) else none
  | .requested m _, .received cap len bytes =>
    if Shows m cap len bytes then some (.requested m true) else none
  | .requested _ true, .answered r => some (.answered r)
  | ch, .clientBusy => some ch
  | ch, .serverBusy => some ch
  | ch, .refused => some ch
  | _, _ => none

/-- The observations are those of a lossless channel. -/
def Chan.accepts : Chan → List Obs → Option Chan
  | ch, [] => some ch
  | ch, o :: os => (ch.next o).bind fun ch' => ch'.accepts os

/-- An event of the client. -/
def Ev.ofClient : Ev → Bool
  | .cSend _ | .cRecv _ | .cStep => true
  | _ => false

/-- Number of accesses of the client, of the server. -/
def cSteps (es : List Ev) : Nat := es.countP (· = .cStep)
def sSteps (es : List Ev) : Nat := es.countP (· = .sStep)

end WolfHsm.Mem

import Verif.Model.Server
import Verif.Spec.Auth
import Verif.Spec.Comm

/-!
# Specification vocabulary for the request dispatcher (C27, C28)
-/

namespace WolfHsm.Server

open Comm (Rx)

variable {R : Type}

/-- What happens to a device: a server context is initialised, connected, loses its connection,
or polls for a request. -/
inductive Ev where
  | start (x : Nat) (hasAuth : Bool)
  | connect (x : Nat)
  | drop (x : Nat)
  | request (x : Nat) (rx : Rx) (aux : UInt16) (txs : List Rc)

/-- One event: the packets sent, and the device after it. -/
def step (cfg : Cfg R) (d : Dev R) : Ev → List (List UInt8) × Dev R
  | .start x hasAuth => ([], start cfg d x hasAuth)
  | .connect x => ([], connect d x)
  | .drop x => ([], drop cfg d x)
  | .request x rx aux txs => ((handle cfg d x rx aux txs).1.2, (handle cfg d x rx aux txs).2)

/-- A history: the packets sent, and the device after it. -/
def run (cfg : Cfg R) : Dev R → List Ev → List (List UInt8) × Dev R
  | d, [] => ([], d)
  | d, e :: es => ((step cfg d e).1 ++ (run cfg (step cfg d e).2 es).1, (run cfg (step cfg d e).2 es).2)

/-- What the server finds in a delivered packet. -/
def received (cfg : Cfg R) (rx : Rx) : Comm.Got := Comm.serverRecv cfg.comm cfg.le cfg.comm.dataLen rx

/-- The transport finally takes the packet, possibly after not being ready for a while. -/
def Accepts (txs : List Rc) : Prop := ∃ n more, txs = List.replicate n .notready ++ Rc.ok :: more

/-- The packet `pkt` of the server is, for a client of byte order `cle` that sent a request of
this kind with this sequence number, a response of that kind and number with the given payload:
what `wh_CommClient_RecvResponse` hands to such a client. -/
def SeenAs (cfg : Cfg R) (cle : Bool) (pkt : List UInt8) (kind seq : UInt16) (payload : List UInt8) :
    Prop :=
  ∀ c : Comm.Client, c.le = cle → c.initialized = true → c.pending = true → c.seq = seq →
    ∀ now junk, (c.recvResponse cfg.comm none (Rx.of pkt junk) now).1 =
      ⟨.ok, Utils.magicNative, kind, seq, payload⟩

/-- The handlers of the other groups keep to the size of the packet buffer, as their callers
assume. -/
def Fits (cfg : Cfg R) : Prop :=
  510 ≤ cfg.comm.dataLen ∧ cfg.comm.mtu < 65536 ∧
  ∀ g x c r m, r.size ≤ cfg.comm.dataLen → ((cfg.handler g x c r m).1.2).length ≤ cfg.comm.dataLen

/-- Keys, certificates, application state, NVM objects (counters among them), and the user
database are the same. -/
structure Same (d d' : Dev R) : Prop where
  rest : d'.rest = d.rest
  store : d'.auth.nvm.store = d.auth.nvm.store
  pending : d'.auth.nvm.pending = d.auth.nvm.pending
  users : Auth.view d'.auth = Auth.view d.auth
  ram : d'.auth.ram = d.auth.ram

/-- At no point of the history is a user logged in on any connection. -/
def Nobody (cfg : Cfg R) : Dev R → List Ev → Prop
  | d, [] => ∀ x, (d.auth.sess x).id = 0
  | d, e :: es => (∀ x, (d.auth.sess x).id = 0) ∧ Nobody cfg (step cfg d e).2 es

/-- Authentication is compiled in, without an application callback that overrides it. -/
def AuthOn (cfg : Cfg R) : Prop := cfg.enableAuth = true ∧ cfg.auth.override = none

/-- All contexts have an authentication manager. -/
def Ev.WithAuth : Ev → Prop
  | .start _ h => h = true
  | _ => True

end WolfHsm.Server

namespace WolfHsm.Server
open Comm (Rx)
variable {R : Type}

/-- The requests a device receives in a history: magic, kind and sequence number of each, and the
unused header field of its response. -/
def asked (cfg : Cfg R) : Dev R → List Ev → List (UInt16 × UInt16 × UInt16 × UInt16)
  | _, [] => []
  | d, e :: es =>
    (match e with
      | .request x rx aux _ =>
        if (d.ctx x).connected = true ∧ (received cfg rx).rc = .ok then
          [((received cfg rx).magic, (received cfg rx).kind, (received cfg rx).seq, aux)]
        else []
      | _ => []) ++ asked cfg (step cfg d e).2 es

/-- The transport takes every response of the event. -/
def Ev.Sendable : Ev → Prop
  | .request _ _ _ txs => Accepts txs
  | _ => True

/-- The device's users and sessions are those of some history of the authentication manager (in
which the device's application may have added users) that began without users. -/
def Fresh (cfg : Cfg R) (d : Dev R) : Prop :=
  ∃ s₀ evs, (∀ i, s₀.users i = Auth.Slot.empty) ∧ d.auth = Auth.run cfg.auth s₀ evs

end WolfHsm.Server

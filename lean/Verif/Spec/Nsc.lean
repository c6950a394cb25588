import Verif.Model.Nsc

/-!
# What a client of the secure world may see (C67)
-/

namespace WolfHsm.Nsc

open Utils (magicNative magicSwap)

variable {R : Type}

/-- The device was in state `d` and has handled the request the client has asked: kind, bytes and length, in the client's
byte order `le`; behind the bytes the packet buffer holds anything. -/
def Exec.Of (c : Cfg R) (le : Bool) (kind : UInt16) (data : List UInt8) (d : Server.Dev R) (e : Exec R) : Prop :=
  e.before = d ∧ e.kind = kind ∧ e.req.magic = (if c.srv.le = le then magicNative else magicSwap) ∧
    e.req.action = Server.actionOf kind ∧ e.req.size = data.length ∧ (∃ junk, e.req.buf = data ++ junk) ∧
    Server.answer c.srv d c.x kind e.req = (e.resp, e.after)

/-- The longest response both sides can take. -/
def Cfg.limit (c : Cfg R) : Nat := min c.srv.comm.dataLen c.cli.dataLen

/-- The client waits for nothing, for the response `resp`, or has given up on a response. -/
inductive Turn where
  | none
  | waits (kind : UInt16) (resp : List UInt8)
  | left
deriving DecidableEq

/-- What may come next, and the device after it. -/
inductive Next (c : Cfg R) (le : Bool) : Turn × Server.Dev R → Obs R → Turn × Server.Dev R → Prop
  | ask {d kind data} (e : Exec R) : e.Of c le kind data d → e.resp.length ≤ c.limit →
      Next c le (.none, d) (.sent .ok kind data (some e)) (.waits kind e.resp, e.after)
  /-- Refused, and nothing done. -/
  | refused {s kind data} (rc : Rc) : rc ≠ .ok → Next c le s (.sent rc kind data none) s
  /-- Refused, but done: the response was too long. -/
  | lost {d kind data} (rc : Rc) (e : Exec R) : rc ≠ .ok → e.Of c le kind data d → c.limit < e.resp.length →
      Next c le (.none, d) (.sent rc kind data (some e)) (.none, e.after)
  | reply {kind resp d} (g : Comm.Got) : g.rc = .ok → g.kind = kind → g.payload = resp →
      Next c le (.waits kind resp, d) (.got g) (.none, d)
  /-- The caller's buffer was too small: the response is gone. -/
  | small {kind resp d} (g : Comm.Got) : g.rc = .bufferSize → Next c le (.waits kind resp, d) (.got g) (.none, d)
  | nothing {t d} (g : Comm.Got) : g.rc = .notready → (∀ kind resp, t ≠ .waits kind resp) → Next c le (t, d) (.got g) (t, d)
  | giveUp {kind resp d} : Next c le (.waits kind resp, d) .gaveUp (.left, d)
  | giveUpNone {t d} : (∀ kind resp, t ≠ .waits kind resp) → Next c le (t, d) .gaveUp (t, d)
  | restart {t d} : Next c le (t, d) .restarted (.none, d)
  | change {t d} (d' : Server.Dev R) : Next c le (t, d) (.changed d') (t, d')

def Accepts (c : Cfg R) (le : Bool) : Turn × Server.Dev R → List (Obs R) → Turn × Server.Dev R → Prop
  | s, [], s' => s = s'
  | s, o :: os, s' => ∃ s1, Next c le s o s1 ∧ Accepts c le s1 os s'

/-- The device after what was seen. -/
def devAfter (d : Server.Dev R) : List (Obs R) → Server.Dev R
  | [] => d
  | .sent _ _ _ (some e) :: os => devAfter e.after os
  | .changed d' :: os => devAfter d' os
  | _ :: os => devAfter d os

/-- Nothing is done by this client and nothing is received. -/
def Obs.Idle : Obs R → Prop
  | .sent rc _ _ ran => rc ≠ .ok ∧ ran = none
  | .changed _ => True
  | _ => False

/-- Nothing is done and nothing received. -/
def Obs.Stuck : Obs R → Prop
  | .sent rc _ _ ran => rc ≠ .ok ∧ ran = none
  | .got g => g.rc = .notready
  | _ => True

end WolfHsm.Nsc

import Verif.Model.Stack

/-!
# What a client of a device may see (C65)

One request after the other: it is asked, the device handles it, the client gets the response or gives up.  The device
changes only by handling requests and by what others do to it.
-/

namespace WolfHsm.Stack

open Utils (magicNative magicSwap)

variable {R : Type}

/-- Where the client's last request is; `waits`: the client may still get the response. -/
inductive Turn where
  | none
  | asked (kind : UInt16) (data : List UInt8) (waits : Bool)
  | done (kind : UInt16) (resp : List UInt8) (waits : Bool)

/-- The next request may be asked. -/
def Turn.over : Turn → Bool
  | .asked _ _ _ => false
  | _ => true

def Turn.waits : Turn → Bool
  | .none => false
  | .asked _ _ w => w
  | .done _ _ w => w

/-- The client waits no more. -/
def Turn.stop : Turn → Turn
  | .none => .none
  | .asked k d _ => .asked k d false
  | .done k r _ => .done k r false

/-- The longest response the server can send: the packet must fit the server's packet buffer and the shared buffer with its
control word. -/
def Cfg.limit (c : Cfg R) : Nat := min c.srv.comm.dataLen (c.mem.respSize.toNat - 16)

/-- The request the handlers see is the one the client has asked: kind, bytes and length, in the client's byte order
`le`, no longer than the server's packets may be; behind the bytes the packet buffer holds anything. -/
def Carries (c : Cfg R) (le : Bool) (kind : UInt16) (data : List UInt8) (r : Server.Req) : Prop :=
  r.magic = (if c.srv.le = le then magicNative else magicSwap) ∧ r.action = Server.actionOf kind ∧ r.size = data.length ∧
    data.length ≤ c.srv.comm.dataLen ∧ ∃ junk, r.buf = data ++ junk

/-- What may come next. -/
inductive Next (c : Cfg R) (le : Bool) : Turn × Server.Dev R → Obs R → Turn × Server.Dev R → Prop
  | ask {t d} (kind : UInt16) (data : List UInt8) : t.over = true →
      Next c le (t, d) (.asked kind data) (.asked kind data true, d)
  | run {kind data w d resp d'} (r : Server.Req) : Carries c le kind data r →
      Server.answer c.srv d c.x kind r = (resp, d') → resp.length ≤ c.limit →
      Next c le (.asked kind data w, d) (.ran d kind r resp d') (.done kind resp w, d')
  /-- The response can not be sent: the server handles the request again. -/
  | again {kind data w d resp d'} (r : Server.Req) : Carries c le kind data r →
      Server.answer c.srv d c.x kind r = (resp, d') → c.limit < resp.length →
      Next c le (.asked kind data w, d) (.ran d kind r resp d') (.asked kind data w, d')
  | reply {kind resp d} (g : Comm.Got) : g.rc = .ok → g.kind = kind → g.payload = resp →
      Next c le (.done kind resp true, d) (.got g) (.done kind resp false, d)
  | nothing {s} (g : Comm.Got) : g.rc ≠ .ok → Next c le s (.got g) s
  | refused {s} (rc : Rc) : rc ≠ .ok → Next c le s (.refused rc) s
  | giveUp {t d} : Next c le (t, d) .gaveUp (t.stop, d)
  | change {t d} (d' : Server.Dev R) : Next c le (t, d) (.changed d') (t, d')

def Accepts (c : Cfg R) (le : Bool) : Turn × Server.Dev R → List (Obs R) → Turn × Server.Dev R → Prop
  | s, [], s' => s = s'
  | s, o :: os, s' => ∃ s1, Next c le s o s1 ∧ Accepts c le s1 os s'

/-- The device after what was seen. -/
def devNext (d : Server.Dev R) : Obs R → Server.Dev R
  | .ran _ _ _ _ d' => d'
  | .changed d' => d'
  | _ => d

def devAfter (d : Server.Dev R) (os : List (Obs R)) : Server.Dev R := os.foldl devNext d

def Obs.isAsked : Obs R → Bool
  | .asked _ _ => true
  | _ => false

def Obs.isReply : Obs R → Bool
  | .got g => g.rc == .ok
  | _ => false

/-- The device has handled a request and its response can be sent. -/
def Obs.answers (limit : Nat) : Obs R → Bool
  | .ran _ _ _ resp _ => decide (resp.length ≤ limit)
  | _ => false

/-! ## Endless schedules -/

def Obs.isRan : Obs R → Bool
  | .ran _ _ _ _ _ => true
  | _ => false

/-- The state before event `n`. -/
def states (c : Cfg R) (w : World R) (σ : Nat → Ev R) : Nat → World R
  | 0 => w
  | n + 1 => (step c (states c w σ n) (σ n)).1

/-- What is seen at event `n`. -/
def sees (c : Cfg R) (w : World R) (σ : Nat → Ev R) (n : Nat) : List (Obs R) := (step c (states c w σ n) (σ n)).2

/-- The server is called and goes on, the client goes on and polls with room for any response: all of it again and again. -/
def Fair (σ : Nat → Ev R) : Prop :=
  ∀ n, (∃ m, n ≤ m ∧ σ m = .serve) ∧ (∃ m, n ≤ m ∧ ∃ junk aux, σ m = .sStep junk aux) ∧ (∃ m, n ≤ m ∧ σ m = .cStep) ∧
    ∃ m, n ≤ m ∧ ∃ junk now, σ m = .poll none junk now

/-- The client does not give up, and gives room for any response. -/
def Ev.Patient : Ev R → Prop
  | .abort => False
  | .poll cap _ _ => cap = none
  | _ => True

end WolfHsm.Stack

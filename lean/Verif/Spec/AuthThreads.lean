import Verif.Model.AuthThreads

/-!
# Requests of the authentication manager one after the other (C71)
-/

namespace WolfHsm.AuthThreads

open Auth

/-- One request alone, by the authentication manager of C32. -/
def does (cfg : Cfg) (s : St) (x : Nat) : Req → Ans × St
  | .login m n d => let r := login cfg s x m n d; ((r.1.1, r.1.2, none), r.2)
  | .logout id => let r := logout s x id; ((r.1, false, none), r.2)
  | .delete id => let r := userDelete cfg s x id; ((r.1, false, none), r.2)
  | .setPerms id p => let r := setPerms cfg s x id p; ((r.1, false, none), r.2)
  | .setCred id m c n => let r := setCred cfg s x id m c n; ((r.1, false, none), r.2)
  | .add n p m c =>
    let r := userAdd cfg s x n p m c
    ((r.1.1, false, if r.1.1 = .ok then some (r.1.2, none) else none), r.2)
  | .get n => let r := userGet s x n; ((r.1, false, r.2.map fun u => (u.1, some u.2)), s)
  | .allowed g a => ((checkRequest cfg s x g a, false, none), s)
  | .keyAllowed k => ((checkKey s x k, false, none), s)
  | .reset => ((.ok, false, none), reset s x)

/-- Requests one after the other; one whose attempt to lock failed gets the error and does nothing. -/
def oneByOne (cfg : Cfg) : St → List (Nat × Req × Rc) → List (Nat × Ans) × St
  | s, [] => ([], s)
  | s, (x, r, .ok) :: l =>
    let q := oneByOne cfg (does cfg s x r).2 l
    ((x, (does cfg s x r).1) :: q.1, q.2)
  | s, (x, _, rc) :: l =>
    let q := oneByOne cfg s l
    ((x, (rc, false, none)) :: q.1, q.2)

end WolfHsm.AuthThreads

import Verif.Model.Cert

/-!
# Vocabulary for the certificate properties (C42)

* `rootBytes`: the certificate stored under an NVM id now;
* `Splits`: the certificates a chain consists of;
* `Anchored`: there is a path of successful library verifications from the given root
  certificates to a certificate with the given digest;
* `Guarded`: what a history has to respect for the cache to be able to do its job.
-/

namespace WolfHsm.Cert

open Keystore (Sys)

/-- The certificate stored under id `r`. -/
def rootBytes (n : Nvm) (r : UInt16) : Option Der :=
  (n.store r).map fun o => o.2.take o.1.len.toNat

/-- The chain `b` consists of exactly these certificates, one after the other. -/
inductive Splits (derLen : Der → Except Rc Nat) : List UInt8 → List Der → Prop
  | nil : Splits derLen [] []
  | cons {b : List UInt8} {n : Nat} {cs : List Der} :
      b ≠ [] → derLen b = .ok n → n + 2 ≤ b.length →
      Splits derLen (b.drop (n + 2)) cs → Splits derLen b (b.take (n + 2) :: cs)

/-- A certificate with digest `h` is anchored in the root certificates `roots`: the
library has verified a certificate with that digest (the verification is in `log`),
with a trust store that contained only root certificates and CA certificates which are
themselves anchored. -/
inductive Anchored {E : Type} (x : X509 E) (log : List (List Der × Der)) (roots : List Der) :
    List UInt8 → Prop
  | mk (store : List Der) (d : Der) :
      (store, d) ∈ log →
      (∀ s ∈ store, s ∉ roots → x.parse s = .ok true) →
      (∀ s ∈ store, s ∉ roots → Anchored x log roots (x.hash s)) →
      Anchored x log roots (x.hash d)

/-- One event respects the root ids `P`:
* what happens outside the certificate requests using this cache leaves the root
  certificates as they are, or removes them; it is not a power-up (that is `restart`);
* the cache's own lock works when a root is replaced or erased;
* the chain to be verified does not change in client memory while it is looked at, and
  is as long as the request says. -/
def Respects {E : Type} (P : UInt16 → Prop) (s : State) : Ev E → Prop
  | .other sys =>
    (sys.nvm.powered = true → s.sys.nvm.powered = true) ∧
    ∀ r, P r → rootBytes sys.nvm r = none ∨ rootBytes sys.nvm r = rootBytes s.sys.nvm r
  | .add _ lock _ _ => lock = .ok
  | .erase _ lock _ => lock = .ok
  | .verify _ c n _ => (∀ k, c.mem k = c.mem 0) ∧ n ≤ (c.mem 0).length
  | _ => True

/-- All events of a history respect the root ids `P`. -/
def Guarded {E : Type} (cfg : Cfg E) (P : UInt16 → Prop) : State → List (Ev E) → Prop
  | _, [] => True
  | s, ev :: evs => Respects P s ev ∧ Guarded cfg P (step cfg s ev) evs

/-- Nothing is cached. -/
def VCache.Empty (c : VCache) : Prop := ∀ o ∈ c.slots, o = none

/-- Nothing is cached and the record of verifications starts here: a server that has just
started, or one whose cache has been cleared. -/
def Fresh (s : State) : Prop := s.vc.Empty ∧ s.log = []

/-- The key `k` is in this key cache. -/
def Holds (c : Keystore.Cache) (k : Keystore.CKey) : Prop := some k ∈ c.reg ∨ some k ∈ c.big

/-- The key `k` is in the key cache of some server context or in the shared one. -/
def InCache (s : Sys) (k : Keystore.CKey) : Prop := Holds s.global k ∨ ∃ x, Holds (s.loc x) k

/-- `k` is the public key of the certificate `cert`, not marked as committed, and its
flags are those the client asked for without the ones reserved to the server. -/
def LeafKey {E : Type} (cfg : Cfg E) (keyFlags : UInt16) (cert : Der) (k : Keystore.CKey) : Prop :=
  cfg.x509.pubKey cert = .ok k.data ∧ k.md.flags = keyFlags &&& ~~~Nvm.serverOnly ∧
    k.md.len = UInt16.ofNat k.data.length ∧ k.committed = false

end WolfHsm.Cert

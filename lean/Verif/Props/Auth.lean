import Verif.Proofs.AuthRights
import Verif.Proofs.AuthAny

/-!
# C29–C32, C45: users, sessions and their database

`Spec/Auth.lean` holds the vocabulary: rights (`Grants`, `Lists`, `Within`), calls and
histories (`Call`, `act`, `Ev`, `run`), the database the API shows (`view`) and what a
successful call does to it (`Effect`).
-/

namespace WolfHsm.Props

open Auth
open NvmFlash (Meta Store)

/-! ## A concrete device -/

namespace AuthDemo

/-- No crypto library: PINs are stored as they are. -/
def cfg : Cfg where
  hash := fun _ => none
  noCrypto := true
  certs := false
  verify := fun _ _ => false
  useNvm := true
  nvmOnly := false
  override := none

/-- A blank device whose NVM calls behave as given. -/
def blank (outs : Nat → Out) : St where
  up := false
  users := fun _ => Slot.empty
  ram := fun _ => []
  nvm := { store := fun _ => none, pending := none, powered := false, outs := outs, tick := 0 }
  sess := fun _ => Session.none

/-- All NVM calls succeed. -/
def fine : Nat → Out := fun _ => .ok

theorem spaced_fine : Spaced fine := fun _ _ _ h => Out.noConfusion h
theorem blank_fine : Blank (blank fine) := ⟨rfl, rfl, spaced_fine, fun _ _ => rfl⟩

/-- The permissions the example server gives its administrator. -/
def full : Perms := ⟨Vector.replicate 15 0xFF, Vector.replicate 14 (Vector.replicate 8 0xFFFFFFFF), 0,
  Vector.replicate 2 0⟩
/-- May use the NVM group (2), actions 0 to 3, and key 7. -/
def nvmUser : Perms := ⟨(Vector.replicate 15 0).set 2 1,
  (Vector.replicate 14 (Vector.replicate 8 0)).set 2 ((Vector.replicate 8 0).set 0 0xF), 1, #v[7, 0]⟩
/-- The same without action 3 and the key. -/
def less : Perms := ⟨(Vector.replicate 15 0).set 2 1,
  (Vector.replicate 14 (Vector.replicate 8 0)).set 2 ((Vector.replicate 8 0).set 0 0x7), 0, #v[0, 0]⟩

/-- Names: "adm", "bob", "eve". -/
def adm : List UInt8 := [0x61, 0x64, 0x6d]
def bob : List UInt8 := [0x62, 0x6f, 0x62]
def eve : List UInt8 := [0x65, 0x76, 0x65]

/-- Power on, add the administrator, who logs in on connection 0 and adds bob. -/
def setup : List Ev :=
  [.restart false, .call 9 (.provision adm full mPin [1, 2, 3, 4]), .call 0 (.login mPin adm [1, 2, 3, 4]),
   .call 0 (.add bob nvmUser mPin [9, 9])]

/-- After that, bob logs in on connection 1. -/
def bobIn : List Ev := setup ++ [.call 1 (.login mPin bob [9, 9])]

end AuthDemo

/-! ## C45: permission sets on the wire -/

/-- **C45.** Whatever follows the flattened set in the buffer, unflattening gives back the same
set, with the key id list clamped to its count: the count is at most two, and the ids beyond it are
zero. -/
theorem C45_roundtrip (p : Perms) (bufLen : Nat) (h : 473 ≤ bufLen) :
    ∃ l q, flatten p bufLen = some l ∧ l.length = 473 ∧ (∀ rest, unflatten (l ++ rest) = some q) ∧
      q.groups = p.groups ∧ q.actions = p.actions ∧ q.keyIdCount.toNat = min p.keyIdCount.toNat 2 ∧
      ∀ k : Fin 2, q.keyIds[k] = if k.val < p.keyIdCount.toNat then p.keyIds[k] else 0 := by
  refine ⟨p.clamp.bytes, p.clamp, if_neg (by show ¬ bufLen < 473; omega), perms_bytes_length _,
    fun rest => ?_, rfl, rfl, clamp_count_eq p, fun k => ?_⟩
  · have hc : ¬ p.clamp.keyIdCount.toNat > maxKeyIds := by
      have := clamp_count p
      omega
    unfold unflatten
    rw [if_neg (by simp only [List.length_append, perms_bytes_length]; omega)]
    rw [perms_roundtrip]
    dsimp only
    rw [if_neg hc]
  · have hk := k.isLt
    have : (k.val < p.count) = (k.val < p.keyIdCount.toNat) := by
      show (k.val < min p.keyIdCount.toNat 2) = _
      exact propext ⟨fun h => by omega, fun h => by omega⟩
    unfold Perms.clamp
    simp [this]

/-- Clamping neither adds nor removes a right. -/
theorem C45_clamp_same_rights (p : Perms) : p.clamp.isAdmin = p.isAdmin ∧
    (∀ g a, p.clamp.Grants g a ↔ p.Grants g a) ∧ (∀ k, p.clamp.Lists k ↔ p.Lists k) ∧
    p.clamp.keyIdCount.toNat = min p.keyIdCount.toNat 2 ∧
    (p.keyIdCount.toNat = 2 → p.clamp = p) := by
  refine ⟨(clamp_rights p).1, (clamp_rights p).2.1, (clamp_rights p).2.2, clamp_count_eq p, fun h => ?_⟩
  obtain ⟨g, a, c, k⟩ := p
  have h : c.toNat = 2 := h
  have hc : ¬ c.toNat > maxKeyIds := by show ¬ c.toNat > 2; omega
  unfold Perms.clamp
  simp only [if_neg hc, Perms.mk.injEq, true_and]
  apply Vector.ext
  intro i hi
  have : i < Perms.count ⟨g, a, c, k⟩ := by show i < min c.toNat 2; omega
  simp [this]

/-- **C45.** Truncated buffers are refused on both sides. -/
theorem C45_truncated (p : Perms) (buf : List UInt8) :
    (∀ n, n < 473 → flatten p n = none) ∧ (buf.length < 473 → unflatten buf = none) :=
  ⟨fun _ h => if_pos h, fun h => if_pos h⟩

example : (flatten AuthDemo.nvmUser 600).bind (fun l => unflatten (l ++ [1, 2])) =
    some AuthDemo.nvmUser.clamp := by decide +kernel
example : unflatten (List.replicate 472 0xFF) = none := by decide +kernel

/-! ## C32: logging in and changing credentials -/

/-- **C32.** In every state of every history, with the database in NVM or in RAM and whatever the
NVM does, a successful login is for an existing user (`id ≠ 0`) of that name who is not logged in,
under the user's own method, with credentials matching the stored ones; the connection had no
session and gets that user's id and current permissions. -/
theorem C32_login {cfg : Cfg} {s₀ : St} (h₀ : ∀ i, s₀.users i = Slot.empty) (evs : List Ev) (x : Nat) (m : UInt16)
    (name data : List UInt8) (hrc : (act cfg (run cfg s₀ evs) x (.login m name data)).1 = .ok) :
    ∃ i blob, i < 5 ∧ ((run cfg s₀ evs).users i).id ≠ 0 ∧ ((run cfg s₀ evs).users i).name = name ∧
      ((run cfg s₀ evs).users i).active = false ∧ ((run cfg s₀ evs).users i).method = m ∧
      ((run cfg s₀ evs).sess x).id = 0 ∧ Stored cfg (run cfg s₀ evs) i blob ∧
      blob.length = ((run cfg s₀ evs).users i).credLen ∧
      ((m = mPin ∧ hashPin cfg data = .ok blob) ∨
       (m = mCert ∧ cfg.certLogin = true ∧ cfg.verify blob data = true)) ∧
      (act cfg (run cfg s₀ evs) x (.login m name data)).2.sess =
        upd (run cfg s₀ evs).sess x ⟨((run cfg s₀ evs).users i).id, ((run cfg s₀ evs).users i).perms⟩ ∧
      (act cfg (run cfg s₀ evs) x (.login m name data)).2.users =
        upd (run cfg s₀ evs).users i { (run cfg s₀ evs).users i with active := true } :=
  login_any (run_unused evs (fun i _ => by rw [h₀ i]; rfl)) hrc

/-- **C32**, in terms of the database the API shows: In every state of every history, a successful
login is for an existing user who is
not logged in, under the user's own method, with credentials matching the stored ones; the
connection had no session and gets that user's id and current permissions. -/
theorem C32_login_db {cfg : Cfg} {s₀ : St} (hn : cfg.useNvm = true) (h₀ : Blank s₀) (evs : List Ev)
    (hok : HistOk cfg s₀ evs) (x : Nat) (m : UInt16) (name data : List UInt8)
    (hrc : (act cfg (run cfg s₀ evs) x (.login m name data)).1 = .ok) :
    ∃ i r, view (run cfg s₀ evs) i = some r ∧ r.name = name ∧
      ((run cfg s₀ evs).users i).active = false ∧ ((run cfg s₀ evs).sess x).id = 0 ∧ r.method = m ∧
      r.cred ≠ [] ∧
      ((m = mPin ∧ hashPin cfg data = .ok r.cred) ∨
       (m = mCert ∧ cfg.certLogin = true ∧ cfg.verify r.cred data = true)) ∧
      (act cfg (run cfg s₀ evs) x (.login m name data)).2.sess x = ⟨UInt16.ofNat (i + 1), r.perms⟩ ∧
      ((act cfg (run cfg s₀ evs) x (.login m name data)).2.users i).active = true := by
  obtain ⟨d, hg⟩ := run_good (blank_good hn h₀) evs hok
  generalize run cfg s₀ evs = s at *
  by_cases hp : s.nvm.powered = true
  · by_cases hu : s.up = true
    · have hl := hg.toLive hu hp
      refine login_cases hl x m name data (P := fun r => r.1 = .ok → ∃ i q, view s i = some q ∧ q.name = name ∧
        (s.users i).active = false ∧ (s.sess x).id = 0 ∧ q.method = m ∧ q.cred ≠ [] ∧
        ((m = mPin ∧ hashPin cfg data = .ok q.cred) ∨
         (m = mCert ∧ cfg.certLogin = true ∧ cfg.verify q.cred data = true)) ∧
        r.2.sess x = ⟨UInt16.ofNat (i + 1), q.perms⟩ ∧ (r.2.users i).active = true) ?_ ?_ hrc
      · intro rc n' hne _ _ _ hh; exact absurd hh hne
      · intro i blob n' _ _ _ _ _ hx hlo _
        have hcr : credOf s.nvm.store (s.users i) i = blob := by
          refine credOf_some ?_ hlo.stored
          have := hlo.len
          intro e
          rw [e] at this
          exact this.2 (List.length_eq_zero_iff.mp this.1)
        refine ⟨i, _, viewOf_some hlo.lt hlo.exists_, hlo.name, hlo.inactive, hx, hlo.method, ?_, ?_, ?_, ?_⟩
        · dsimp only; rw [hcr]; exact hlo.len.2
        · dsimp only; rw [hcr]; exact hlo.cred
        · dsimp only
          rw [upd_self, ((hl.mat.wf i hlo.lt).used hlo.exists_).1]
        · dsimp only; rw [upd_self]
    · have hu : s.up = false := by simpa using hu
      unfold act login at hrc
      dsimp only at hrc
      rw [if_pos hu] at hrc
      cases hrc
  · exact absurd hrc (login_off hn (by simpa using hp) _ _ _ _)

/-- bob's login of `bobIn` succeeds, and its user has rights. -/
example : (act AuthDemo.cfg (run AuthDemo.cfg (AuthDemo.blank AuthDemo.fine) AuthDemo.setup) 1
    (.login mPin AuthDemo.bob [9, 9])).1 = .ok := by decide +kernel
/-- Wrong PIN, wrong user, second login: refused. -/
example : (act AuthDemo.cfg (run AuthDemo.cfg (AuthDemo.blank AuthDemo.fine) AuthDemo.setup) 1
    (.login mPin AuthDemo.bob [9, 8])).1 = .authLoginFailed ∧
  (act AuthDemo.cfg (run AuthDemo.cfg (AuthDemo.blank AuthDemo.fine) AuthDemo.setup) 1
    (.login mPin AuthDemo.eve [9, 9])).1 = .authLoginFailed ∧
  (act AuthDemo.cfg (run AuthDemo.cfg (AuthDemo.blank AuthDemo.fine) AuthDemo.bobIn) 2
    (.login mPin AuthDemo.bob [9, 9])).1 = .authLoginFailed := by decide +kernel

/-- The credentials presented match the stored ones: the PIN's hash with a crypto library,
otherwise the bytes themselves. -/
def Presents (cfg : Cfg) (r : Rec) (current : List UInt8) : Prop :=
  if r.method = mPin ∧ cfg.noCrypto = false then hashPin cfg current = .ok r.cred else current = r.cred

/-- **C32.** In every state, with the database in NVM or in RAM and whatever the NVM does,
credentials are changed only by the user or an administrator, of an existing user, and only if the
current credentials are presented (none, if the user has none). -/
theorem C32_set_credentials (cfg : Cfg) (s : St) (x : Nat) (id m : UInt16) (current new : List UInt8)
    (hrc : (act cfg s x (.setCred id m current new)).1 = .ok) :
    (s.sess x).id ≠ 0 ∧ ((s.sess x).id = id ∨ AdminOn s x) ∧
    (s.users (id.toNat - 1)).id ≠ 0 ∧
    (((s.users (id.toNat - 1)).credLen = 0 ∧ current = []) ∨
      ∃ blob, Stored cfg s (id.toNat - 1) blob ∧ blob.length = (s.users (id.toNat - 1)).credLen ∧
        0 < blob.length ∧
        if (s.users (id.toNat - 1)).method = mPin ∧ cfg.noCrypto = false then
          hashPin cfg current = .ok blob
        else current = blob) := by
  obtain ⟨h1, h2, _, h3, h4⟩ := setCred_any hrc
  refine ⟨h1, ?_, h3, h4⟩
  cases h2 with
  | inl h => exact Or.inl h
  | inr h => exact Or.inr (Or.inr ⟨h1, h⟩)

/-- **C32**, in terms of the database the API shows: credentials are changed only by the user or an
administrator, and only if the user's current credentials are presented (none, if the user has
none). -/
theorem C32_set_credentials_db {cfg : Cfg} {s₀ : St} (hn : cfg.useNvm = true) (h₀ : Blank s₀)
    (evs : List Ev) (hok : HistOk cfg s₀ evs) (hp : (run cfg s₀ evs).nvm.powered = true) (x : Nat)
    (id m : UInt16) (current new : List UInt8)
    (hrc : (act cfg (run cfg s₀ evs) x (.setCred id m current new)).1 = .ok) :
    ((run cfg s₀ evs).sess x).id ≠ 0 ∧
    (((run cfg s₀ evs).sess x).id = id ∨ AdminOn (run cfg s₀ evs) x) ∧
    ∃ r, view (run cfg s₀ evs) (id.toNat - 1) = some r ∧
      ((r.cred = [] ∧ current = []) ∨ (r.cred ≠ [] ∧ current ≠ [] ∧ Presents cfg r current)) := by
  obtain ⟨d, hg⟩ := run_good (blank_good hn h₀) evs hok
  generalize run cfg s₀ evs = s at *
  unfold act setCred at hrc
  dsimp only at hrc
  by_cases hu : s.up = false
  · rw [if_pos hu] at hrc; cases hrc
  rw [if_neg hu] at hrc
  have hl := hg.toLive (by simpa using hu) hp
  obtain ⟨h1, h2, h3, h4⟩ := setCred_ok hl hrc
  refine ⟨h1, ?_, h3⟩
  cases h2 with
  | inl h => exact Or.inl h
  | inr h => exact Or.inr (Or.inr ⟨h1, h⟩)

/-- bob changes the PIN; with a wrong current PIN, or on connection 2, it is refused. -/
example : (act AuthDemo.cfg (run AuthDemo.cfg (AuthDemo.blank AuthDemo.fine) AuthDemo.bobIn) 1
    (.setCred 2 mPin [9, 9] [5])).1 = .ok ∧
  (act AuthDemo.cfg (run AuthDemo.cfg (AuthDemo.blank AuthDemo.fine) AuthDemo.bobIn) 1
    (.setCred 2 mPin [9] [5])).1 = .access ∧
  (act AuthDemo.cfg (run AuthDemo.cfg (AuthDemo.blank AuthDemo.fine) AuthDemo.bobIn) 0
    (.setCred 2 mPin [] [5])).1 = .access ∧
  (act AuthDemo.cfg (run AuthDemo.cfg (AuthDemo.blank AuthDemo.fine) AuthDemo.bobIn) 1
    (.setCred 1 mPin [1, 2, 3, 4] [5])).1 = .access := by decide +kernel

/-! ## C29: no escalation -/

/-- **C29**, one call, whatever the NVM does: on a connection whose session is not an
administrator's, adding a user changes nothing or is for permissions within the session's, not
an administrator and with credentials. -/
theorem C29_add (cfg : Cfg) (s : St) (x : Nat) (h : (s.sess x).perms.isAdmin = false)
    (name : List UInt8) (p : Perms) (m : UInt16) (cred : List UInt8) :
    (∃ rc, rc ≠ .ok ∧ act cfg s x (.add name p m cred) = (rc, s)) ∨
    (p.Within (s.sess x).perms ∧ p.isAdmin = false ∧ cred ≠ []) := add_within h name p m cred

/-- **C29**, one call: deleting a user and changing permissions are refused without effect. -/
theorem C29_delete_setPerms (cfg : Cfg) (s : St) (x : Nat) (h : ¬ AdminOn s x) (id : UInt16) (p : Perms) :
    (∃ rc, rc ≠ .ok ∧ act cfg s x (.delete id) = (rc, s)) ∧
    (∃ rc, rc ≠ .ok ∧ act cfg s x (.setPerms id p) = (rc, s)) :=
  ⟨delete_refused h id, setPerms_refused h id p⟩

/-- **C29**, histories.  Take any state reached by a device, and any continuation, with
power cuts, restarts, failing NVM calls and any number of connections, during which no
administrator is logged in.  Every user who existed still does, with the same name and
permissions.  Every new user is no administrator and holds nothing beyond what one of the
non-administrators, or a session, held at the start. -/
theorem C29_history_partial {cfg : Cfg} {s₀ : St} (hn : cfg.useNvm = true) (h₀ : Blank s₀) (evs : List Ev)
    (hok : HistOk cfg s₀ evs) (evs' : List Ev) (hok' : HistOk cfg (run cfg s₀ evs) evs')
    (hna : NoAdmin cfg (run cfg s₀ evs) evs')
    (hup : (run cfg s₀ evs).up = true) (hp : (run cfg s₀ evs).nvm.powered = true)
    (hup' : (run cfg (run cfg s₀ evs) evs').up = true)
    (hp' : (run cfg (run cfg s₀ evs) evs').nvm.powered = true) (i : Nat) :
    (∀ r, view (run cfg s₀ evs) i = some r → ∃ r', view (run cfg (run cfg s₀ evs) evs') i = some r' ∧
      r'.name = r.name ∧ r'.perms = r.perms) ∧
    (view (run cfg s₀ evs) i = none → ∀ r', view (run cfg (run cfg s₀ evs) evs') i = some r' →
      r'.perms.isAdmin = false ∧ ∃ p, r'.perms.Within p ∧
        ((∃ j r, view (run cfg s₀ evs) j = some r ∧ r.perms.isAdmin = false ∧ p = r.perms) ∨
         ∃ x, p = ((run cfg s₀ evs).sess x).perms)) := by
  obtain ⟨d, hg⟩ := run_good (blank_good hn h₀) evs hok
  generalize run cfg s₀ evs = s at *
  have hd := (hg.live hup hp).2
  have hk : Kept (Base s d) d s d :=
    ⟨fun i r h => ⟨r, h, rfl, rfl⟩, fun i r h => Or.inl ⟨r, h, rfl, rfl⟩,
     fun x => ⟨_, Or.inr ⟨x, rfl⟩, .refl _⟩⟩
  obtain ⟨d', hg', hk'⟩ := kept_run (B := Base s d) ⟨_, Or.inr ⟨0, rfl⟩⟩
    (fun i r h ha => Or.inl ⟨i, r, h, rfl, ha⟩) evs' hk hg hok' hna
  have hd' := (hg'.live hup' hp').2
  rw [hd, hd']
  refine ⟨fun r h => ?_, fun h r' h' => ?_⟩
  · obtain ⟨r', a, b⟩ := hk'.old i r h
    exact ⟨r', a, b.1, b.2⟩
  · cases hk'.new i r' h' with
    | inl hh => obtain ⟨r, a, _⟩ := hh; rw [h] at a; cases a
    | inr hh =>
      obtain ⟨a, p, hb, hw⟩ := hh
      refine ⟨a, p, hw, ?_⟩
      cases hb with
      | inl hb =>
        obtain ⟨j, r, e1, e2, e3⟩ := hb
        exact Or.inl ⟨j, r, e1, by rw [e2]; exact e3, e2.symm⟩
      | inr hb =>
        obtain ⟨x, e⟩ := hb
        exact Or.inr ⟨x, e.symm⟩

/-- Connections that do nothing have no session. -/
theorem idle_none {cfg : Cfg} {x : Nat} (evs : List Ev) (h : ∀ e ∈ evs, ∀ y c, e = .call y c → y ≠ x) :
    ∀ {s : St}, s.sess x = Session.none → (run cfg s evs).sess x = Session.none := by
  induction evs with
  | nil => exact fun h => h
  | cons e es ih =>
    intro s hs
    refine ih (fun e' he' => h e' (List.mem_cons_of_mem _ he')) ?_
    cases e with
    | foreign f => unfold step; dsimp only; split <;> exact hs
    | restart b =>
      unfold step init
      dsimp only
      split
      · split <;> rfl
      · rfl
    | call y c =>
      have hy : x ≠ y := fun e => h _ List.mem_cons_self y c rfl e.symm
      show (act cfg s y c).2.sess x = Session.none
      rcases act_sess cfg s y c with h1 | h1 | ⟨m, name, data, i, hc, hrc, hi, h1⟩ | ⟨p, hc, hz, hrc, h1⟩
      · rw [h1]; exact hs
      · rw [h1, upd_ne hy]; exact hs
      · rw [h1, upd_ne hy]; exact hs
      · rw [h1, upd_ne hy]; exact hs

/-- bob, alone on connection 1, adds eve with fewer rights, tries to take more, to delete the
administrator and to change permissions. -/
def bobTries : List Ev :=
  [.call 1 (.add AuthDemo.eve AuthDemo.less mPin [7]), .call 1 (.add [1] AuthDemo.full mPin [7]),
   .call 1 (.delete 1), .call 1 (.setPerms 2 AuthDemo.full)]

/-- The hypotheses of `C29_history_partial` hold: once the administrator has disconnected, none is logged
in, before and after bob adds eve. -/
example : NoAdmin AuthDemo.cfg
    (run AuthDemo.cfg (AuthDemo.blank AuthDemo.fine) (AuthDemo.bobIn ++ [.call 0 .disconnect]))
    [.call 1 (.add AuthDemo.eve AuthDemo.less mPin [7])] := by
  have idle : ∀ (evs : List Ev) (x : Nat), (∀ e ∈ evs, ∀ y c, e = .call y c → y ≠ x) →
      ¬ AdminOn (run AuthDemo.cfg (AuthDemo.blank AuthDemo.fine) evs) x := by
    intro evs x h ha
    unfold AdminOn at ha
    rw [idle_none evs h rfl] at ha
    revert ha
    rintro (h | h)
    · revert h; decide
    · exact h.1 rfl
  have two : ∀ x, x = 0 ∨ x = 1 ∨ x = 9 ∨ (x ≠ 0 ∧ x ≠ 1 ∧ x ≠ 9) := by omega
  refine ⟨fun x => ?_, trivial, fun x => ?_⟩
  · rcases two x with rfl | rfl | rfl | ⟨h0, h1, h9⟩
    · unfold AdminOn; decide +kernel
    · unfold AdminOn; decide +kernel
    · unfold AdminOn; decide +kernel
    · refine idle _ x ?_
      intro e he y c heq
      simp only [AuthDemo.bobIn, AuthDemo.setup, List.cons_append, List.nil_append, List.mem_cons,
        List.not_mem_nil, or_false] at he
      rcases he with rfl | rfl | rfl | rfl | rfl | rfl <;> cases heq <;> omega
  · rw [show step AuthDemo.cfg (run AuthDemo.cfg (AuthDemo.blank AuthDemo.fine)
        (AuthDemo.bobIn ++ [.call 0 .disconnect])) (.call 1 (.add AuthDemo.eve AuthDemo.less mPin [7])) =
      run AuthDemo.cfg (AuthDemo.blank AuthDemo.fine) (AuthDemo.bobIn ++ [.call 0 .disconnect,
        .call 1 (.add AuthDemo.eve AuthDemo.less mPin [7])]) from rfl]
    rcases two x with rfl | rfl | rfl | ⟨h0, h1, h9⟩
    · unfold AdminOn; decide +kernel
    · unfold AdminOn; decide +kernel
    · unfold AdminOn; decide +kernel
    · refine idle _ x ?_
      intro e he y c heq
      simp only [AuthDemo.bobIn, AuthDemo.setup, List.cons_append, List.nil_append, List.mem_cons,
        List.not_mem_nil, or_false] at he
      rcases he with rfl | rfl | rfl | rfl | rfl | rfl | rfl <;> cases heq <;> omega

/-- The answers: only the first call succeeds. -/
example :
    let s := run AuthDemo.cfg (AuthDemo.blank AuthDemo.fine) (AuthDemo.bobIn ++ [.call 0 .disconnect])
    (act AuthDemo.cfg s 1 (.add AuthDemo.eve AuthDemo.less mPin [7])).1 = .ok ∧
    (act AuthDemo.cfg s 1 (.add [1] AuthDemo.full mPin [7])).1 = .authPermissionError ∧
    (act AuthDemo.cfg s 1 (.delete 1)).1 = .access ∧
    (act AuthDemo.cfg s 1 (.setPerms 2 AuthDemo.full)).1 = .access ∧
    (view (run AuthDemo.cfg s bobTries) 2).map (·.perms) = some AuthDemo.less.clamp ∧
    (view (run AuthDemo.cfg s bobTries) 0).map (·.perms) = some AuthDemo.full.clamp := by decide +kernel

/-! ## C30: the end of an authorisation -/

/-- What the request check lets through (no callback configured): without a session the
communication group and login; with one also logout, and the actions its permissions grant. -/
theorem C30_authorised_iff (cfg : Cfg) (s : St) (x : Nat) (hov : cfg.override = none) (hup : s.up = true)
    (g a : UInt16) : checkRequest cfg s x g a = .ok ↔
      if (s.sess x).id = 0 then g = 0x0100 ∨ (g = 0x0D00 ∧ a = 0)
      else (g = 0x0D00 ∧ a = 1) ∨ (s.sess x).perms.Grants (g.toNat / 256) a.toNat := by
  have hg : (g >>> 8).toNat % 256 = g.toNat / 256 := by
    rw [UInt16.toNat_shiftRight]
    show g.toNat >>> 8 % 256 = _
    rw [Nat.shiftRight_eq_div_pow]
    show g.toNat / 256 % 256 = g.toNat / 256
    have := g.toNat_lt
    omega
  unfold checkRequest
  rw [hov, hup]
  dsimp only
  rw [if_neg (by simp)]
  by_cases h0 : (s.sess x).id = 0
  · rw [if_pos h0, if_pos h0]
    show (if g = 0x0100 ∨ (g = 0x0D00 ∧ a = 0) then Rc.ok else Rc.access) = .ok ↔ _
    split <;> simp_all
  · rw [if_neg h0, if_neg h0]
    show (if g = 0x0D00 ∧ a = 1 then Rc.ok else _) = .ok ↔ _
    by_cases h1 : g = 0x0D00 ∧ a = 1
    · rw [if_pos h1]; simp [h1]
    · rw [if_neg h1, hg]
      simp only [h1, false_or]
      by_cases h2 : g.toNat / 256 ≥ 14
      · rw [if_pos h2]
        constructor
        · intro h; cases h
        · intro h; have := h.1; omega
      · rw [if_neg h2]
        by_cases h3 : (s.sess x).perms.group (g.toNat / 256) ≠ 0
        · rw [if_pos h3]
          have := actionBit_iff (s.sess x).perms (g.toNat / 256) a (by omega) h3
          rw [← this]
          cases actionBit (s.sess x).perms (g.toNat / 256) a <;> simp
        · rw [if_neg h3]
          constructor
          · intro h; cases h
          · intro h; exact absurd h.2.2.1 h3

/-- No login on connection `x` succeeds in the history. -/
def NoLogin (cfg : Cfg) (x : Nat) : St → List Ev → Prop
  | _, [] => True
  | s, e :: es => (∀ m name data, e = .call x (.login m name data) →
      (act cfg s x (.login m name data)).1 ≠ .ok) ∧ NoLogin cfg x (step cfg s e) es

theorem noSession_step {cfg : Cfg} {x : Nat} {s : St} (h : (s.sess x).id = 0) (e : Ev)
    (hl : ∀ m name data, e = .call x (.login m name data) →
      (act cfg s x (.login m name data)).1 ≠ .ok) : ((step cfg s e).sess x).id = 0 := by
  cases e with
  | foreign f => unfold step; dsimp only; split <;> exact h
  | restart b =>
    unfold step init
    dsimp only
    split
    · split <;> rfl
    · rfl
  | call y c =>
    show (((act cfg s y c).2.sess) x).id = 0
    rcases act_sess cfg s y c with h1 | h1 | ⟨m, name, data, i, hc, hrc, hi, h1⟩ | ⟨p, hc, hz, hrc, h1⟩
    · rw [h1]; exact h
    · rw [h1]
      by_cases e : x = y
      · subst e; rw [upd_self]; rfl
      · rw [upd_ne e]; exact h
    · by_cases e : x = y
      · subst e; subst hc; exact absurd hrc (hl m name data rfl)
      · rw [h1, upd_ne e]; exact h
    · by_cases e : x = y
      · subst e; exact absurd h hz
      · rw [h1, upd_ne e]; exact h

/-- **C30** (logout and disconnect), for every state, whatever the NVM does and whatever other
connections do afterwards: once a connection has logged out or was closed, and until a login on
it succeeds, only the communication group and login are authorised on it.

Missing from C30: deletion of the user and removal of a permission end nothing that is already
logged in (`F_deleted_user_keeps_session`, `F_removed_permission_kept`), nor does a logout by an
administrator (`F_admin_logout_keeps_session`). -/
theorem C30_after_logout_partial (cfg : Cfg) (hov : cfg.override = none) (s : St) (x : Nat) (c : Call)
    (hc : (c = .logout (s.sess x).id ∧ (act cfg s x c).1 = .ok) ∨ c = .disconnect) (evs : List Ev)
    (hno : NoLogin cfg x (act cfg s x c).2 evs) (g a : UInt16)
    (hok : checkRequest cfg (run cfg (act cfg s x c).2 evs) x g a = .ok) :
    g = 0x0100 ∨ (g = 0x0D00 ∧ a = 0) := by
  have h0 : ((act cfg s x c).2.sess x).id = 0 := by
    cases hc with
    | inl hc =>
      obtain ⟨rfl, hrc⟩ := hc
      refine logout_cases s x (s.sess x).id (P := fun r => r.1 = .ok → (r.2.sess x).id = 0) ?_ ?_ hrc
      · intro rc hne h; exact absurd h hne
      · intro se _ _ _ _ _ _ hse _
        rw [if_pos rfl] at hse
        dsimp only
        rw [hse, upd_self]; rfl
    | inr hc =>
      subst hc
      unfold act
      dsimp only
      obtain ⟨us, h1⟩ := disconnect_eq s x
      cases h1 with
      | inl h1 => rw [h1.1]; dsimp only; rw [upd_self]; rfl
      | inr h1 => rw [h1.1]; exact h1.2
  have hrun : ∀ (evs : List Ev) (t : St), (t.sess x).id = 0 → NoLogin cfg x t evs →
      ((run cfg t evs).sess x).id = 0 := by
    intro evs
    induction evs with
    | nil => intro t h _; exact h
    | cons e es ih => intro t h hn; exact ih _ (noSession_step h e hn.1) hn.2
  have h1 := hrun evs _ h0 hno
  generalize run cfg (act cfg s x c).2 evs = t at *
  by_cases hup : t.up = true
  · have := (C30_authorised_iff cfg t x hov hup g a).mp hok
    rw [if_pos h1] at this
    exact this
  · have hup : t.up = false := by simpa using hup
    unfold checkRequest at hok
    rw [if_pos hup] at hok
    cases hok

/-- **C30** (own permissions): a permission one removes from oneself is gone at once. -/
theorem C30_own_removal_partial (cfg : Cfg) (s : St) (x : Nat) (p : Perms) (hov : cfg.override = none)
    (hrc : (act cfg s x (.setPerms (s.sess x).id p)).1 = .ok) (g a : UInt16)
    (hok : checkRequest cfg (act cfg s x (.setPerms (s.sess x).id p)).2 x g a = .ok) :
    (g = 0x0D00 ∧ a = 1) ∨ p.Grants (g.toNat / 256) a.toNat := by
  have key : (act cfg s x (.setPerms (s.sess x).id p)).2.sess x = ⟨(s.sess x).id, p⟩ ∧ (s.sess x).id ≠ 0 ∧
      s.up = true := by
    revert hrc
    unfold act setPerms
    dsimp only
    by_cases hup : s.up = false
    · rw [if_pos hup]; intro h; cases h
    · rw [if_neg hup]
      have hz : (baseSetPerms cfg s (s.sess x).id (s.sess x).id p).1 = .ok → (s.sess x).id ≠ 0 := by
        intro h e
        rw [e] at h
        revert h
        unfold baseSetPerms
        rw [if_pos (by decide)]
        intro h; cases h
      have h := baseSetPerms_sess cfg s (s.sess x).id (s.sess x).id p
      generalize baseSetPerms cfg s (s.sess x).id (s.sess x).id p = r at *
      obtain ⟨rc, s'⟩ := r
      cases rc <;> first
        | (intro h; cases h; done)
        | (intro _
           dsimp only at h hz ⊢
           rw [if_pos ⟨rfl, hz rfl⟩]
           dsimp only
           rw [upd_self, h]
           exact ⟨rfl, hz rfl, by simpa using hup⟩)
  by_cases hup : (act cfg s x (.setPerms (s.sess x).id p)).2.up = true
  · have := (C30_authorised_iff cfg _ x hov hup g a).mp hok
    rw [key.1, if_neg key.2.1] at this
    exact this
  · have hup : (act cfg s x (.setPerms (s.sess x).id p)).2.up = false := by simpa using hup
    unfold checkRequest at hok
    rw [if_pos hup] at hok
    cases hok

/-- bob is authorised for NVM action 3 while logged in, not after logout. -/
example :
    let s := run AuthDemo.cfg (AuthDemo.blank AuthDemo.fine) AuthDemo.bobIn
    checkRequest AuthDemo.cfg s 1 0x0200 3 = .ok ∧ checkRequest AuthDemo.cfg s 1 0x0200 4 = .access ∧
    (act AuthDemo.cfg s 1 (.logout 2)).1 = .ok ∧
    checkRequest AuthDemo.cfg (act AuthDemo.cfg s 1 (.logout 2)).2 1 0x0200 3 = .access ∧
    checkRequest AuthDemo.cfg (act AuthDemo.cfg s 1 .disconnect).2 1 0x0200 3 = .access := by
  decide +kernel

/-! ## C31: the database survives -/

/-- **C31** (restart): after every history, a power cycle that starts the manager shows the
same users, permissions and credentials; and it does start it if the NVM calls succeed.

Hypotheses beyond the property: `Blank` (NVM calls fail one at a time: `Spaced`) and `HistOk`
(no user without credentials is added over a left-over credential object).  Without them:
`F_delete_rollback_lost`, `F_failed_add_appears`, `F_orphan_credential`. -/
theorem C31_restart_partial {cfg : Cfg} {s₀ : St} (hn : cfg.useNvm = true) (h₀ : Blank s₀)
    (evs : List Ev) (hok : HistOk cfg s₀ evs) (hup : (run cfg s₀ evs).up = true)
    (hp : (run cfg s₀ evs).nvm.powered = true) (b : Bool) :
    ((restart cfg (run cfg s₀ evs) b).up = true → (restart cfg (run cfg s₀ evs) b).nvm.powered = true →
      view (restart cfg (run cfg s₀ evs) b) = view (run cfg s₀ evs)) ∧
    ((∀ t, (run cfg s₀ evs).nvm.outs t = .ok) → (restart cfg (run cfg s₀ evs) b).up = true ∧
      (restart cfg (run cfg s₀ evs) b).nvm.powered = true) := by
  obtain ⟨d, hg⟩ := run_good (blank_good hn h₀) evs hok
  have hr := init_good hn hg.safe hg.disk b
  refine ⟨fun h1 h2 => ?_, fun h => init_up hn hg.safe hg.disk h b⟩
  rw [(hr.live h1 h2).2, (hg.live hup hp).2]

/-- Several power cycles in a row, successful or not. -/
def restarts (cfg : Cfg) (s : St) (bs : List Bool) : St := run cfg s (bs.map .restart)

theorem restarts_good {cfg : Cfg} {d : Db} (bs : List Bool) : ∀ {s : St}, Good cfg s d →
    Good cfg (restarts cfg s bs) d := by
  induction bs with
  | nil => exact id
  | cons b bs ih => intro s h; exact ih (init_good h.nvm h.safe h.disk b)

/-- **C31** (calls): in every state of every history, a call that is answered with success has
its effect on the database, a call that fails has none, and both survive restarts.  A call cut
off by a power loss leaves the old or the new database. -/
theorem C31_call_partial {cfg : Cfg} {s₀ : St} (hn : cfg.useNvm = true) (h₀ : Blank s₀)
    (evs : List Ev) (x : Nat) (c : Call) (hok : HistOk cfg s₀ (evs ++ [.call x c]))
    (hup : (run cfg s₀ evs).up = true) (hp : (run cfg s₀ evs).nvm.powered = true) (bs : List Bool) :
    let s := run cfg s₀ evs
    let r := act cfg s x c
    let after := restarts cfg r.2 bs
    after.up = true → after.nvm.powered = true →
      (r.2.nvm.powered = true → r.1 = .ok → Effect cfg c (view s) (view after)) ∧
      (r.2.nvm.powered = true → r.1 ≠ .ok → view after = view s) ∧
      (r.2.nvm.powered = false → view after = view s ∨ Effect cfg c (view s) (view after)) := by
  intro s r after hau hap
  obtain ⟨h1, h2⟩ := histOk_append hok
  obtain ⟨d, hg⟩ := run_good (blank_good hn h₀) evs h1
  obtain ⟨hc1, hc2⟩ := evOk_call h2.1
  have hl : Live cfg s := hg.toLive hup hp
  have hr := act_res hl x c hc1 hc2
  have hafter : ∀ us, Match r.2.nvm.store us → (r.2.nvm.powered = true → us = r.2.users) →
      view after = viewOf r.2.nvm.store us := by
    intro us hm hus
    have hgr : Good cfg r.2 (viewOf r.2.nvm.store us) := by
      refine ⟨hn, hr.safe, ⟨us, hm, rfl⟩, fun _ hpw => ?_⟩
      have e := hus hpw
      subst e
      exact ⟨hm, rfl⟩
    exact ((restarts_good bs hgr).live hau hap).2
  cases hr.body with
  | inl hb =>
    obtain ⟨hpw, hm, hcase⟩ := hb
    have e : view after = view r.2 := hafter _ hm (fun _ => rfl)
    rw [e]
    refine ⟨fun _ hrc => ?_, fun _ hrc => ?_, fun h => by rw [hpw] at h; cases h⟩
    · cases hcase with
      | inl h => exact h.2
      | inr h => exact absurd hrc h.1
    · cases hcase with
      | inl h => exact absurd h.1 hrc
      | inr h => exact h.2
  | inr hb =>
    obtain ⟨hpw, us, hm, hcase⟩ := hb
    have e : view after = viewOf r.2.nvm.store us :=
      hafter _ hm (fun h => by rw [hpw] at h; cases h)
    rw [e]
    have hno : ∀ {P : Prop}, r.2.nvm.powered = true → P := by
      intro P h; rw [hpw] at h; cases h
    exact ⟨fun h => hno h, fun h => hno h, fun _ => hcase⟩

/-- `HistOk` holds of every history in which all users are added with credentials and C-string
names. -/
theorem histOk_of_creds {cfg : Cfg} (evs : List Ev)
    (h : ∀ e ∈ evs, ∀ x name p m cred, (e = .call x (.add name p m cred) ∨ e = .call x (.provision name p m cred)) →
      (∀ b ∈ name, b ≠ 0) ∧ cred ≠ []) : ∀ s, HistOk cfg s evs := by
  induction evs with
  | nil => intro s; exact trivial
  | cons e es ih =>
    intro s
    refine ⟨?_, ih (fun e' he' => h e' (List.mem_cons_of_mem _ he')) _⟩
    cases e with
    | foreign f => trivial
    | restart b => trivial
    | call x c =>
      cases c <;> first
        | trivial
        | exact ⟨(h _ List.mem_cons_self _ _ _ _ _ (Or.inl rfl)).1,
            fun e => absurd e (h _ List.mem_cons_self _ _ _ _ _ (Or.inl rfl)).2⟩
        | exact ⟨(h _ List.mem_cons_self _ _ _ _ _ (Or.inr rfl)).1,
            fun e => absurd e (h _ List.mem_cons_self _ _ _ _ _ (Or.inr rfl)).2⟩

theorem AuthDemo.setup_ok (s : St) : HistOk AuthDemo.cfg s AuthDemo.setup := by
  apply histOk_of_creds
  intro e he x name p m cred h
  simp only [AuthDemo.setup, List.mem_cons, List.not_mem_nil, or_false] at he
  rcases he with rfl | rfl | rfl | rfl <;> rcases h with h | h <;> cases h <;> decide

/-- Two users, back after a restart. -/
example :
    let s := run AuthDemo.cfg (AuthDemo.blank AuthDemo.fine) AuthDemo.setup
    s.up = true ∧ s.nvm.powered = true ∧
    view s 1 = some ⟨AuthDemo.bob, AuthDemo.nvmUser.clamp, mPin, [9, 9]⟩ ∧
    (restart AuthDemo.cfg s false).up = true ∧
    view (restart AuthDemo.cfg s false) 1 = some ⟨AuthDemo.bob, AuthDemo.nvmUser.clamp, mPin, [9, 9]⟩ ∧
    (view (restart AuthDemo.cfg s false) 0).map (·.name) = some AuthDemo.adm ∧
    view (restart AuthDemo.cfg s false) 2 = none := by decide +kernel

/-- Power lost while bob is added: before the index is written the old database is there, afterwards
the new one. -/
example :
    let s := run AuthDemo.cfg (AuthDemo.blank fun t => if t = 8 then .cut false else .ok) AuthDemo.setup
    let s' := run AuthDemo.cfg (AuthDemo.blank fun t => if t = 8 then .cut true else .ok) AuthDemo.setup
    s.nvm.powered = false ∧ s'.nvm.powered = false ∧
    view (restart AuthDemo.cfg s false) 1 = none ∧
    view (restart AuthDemo.cfg s' false) 1 = some ⟨AuthDemo.bob, AuthDemo.nvmUser.clamp, mPin, [9, 9]⟩ := by
  decide +kernel

/-- A failing NVM call: the addition is refused, nothing changes. -/
example :
    let s := run AuthDemo.cfg (AuthDemo.blank fun t => if t = 8 then .fail .nospace false else .ok)
      (AuthDemo.setup.take 3)
    (act AuthDemo.cfg s 0 (.add AuthDemo.bob AuthDemo.nvmUser mPin [9, 9])).1 = .nospace ∧
    view (restart AuthDemo.cfg (act AuthDemo.cfg s 0 (.add AuthDemo.bob AuthDemo.nvmUser mPin [9, 9])).2
      false) 1 = none := by decide +kernel

end WolfHsm.Props

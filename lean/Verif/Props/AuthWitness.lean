import Verif.Props.Auth

/-!
# Findings about users and sessions: concrete histories

See the Findings section of DESIGN.md.  Where a history needs no failure of the NVM it
starts from the blank device of `AuthDemo`.
-/

namespace WolfHsm.Props

open Auth

/-- The device after a history. -/
def AuthDemo.after (outs : Nat → Out) (evs : List Ev) : St := run AuthDemo.cfg (AuthDemo.blank outs) evs

/-- F (C30): the administrator deletes bob, who stays authorised. -/
theorem F_deleted_user_keeps_session :
    let s := AuthDemo.after AuthDemo.fine (AuthDemo.bobIn ++ [.call 0 (.delete 2)])
    view s 1 = none ∧ checkRequest AuthDemo.cfg s 1 0x0200 3 = .ok := by decide +kernel

/-- F (C30): the administrator removes action 3 of the NVM group from bob, who stays authorised
for it. -/
theorem F_removed_permission_kept :
    let s := AuthDemo.after AuthDemo.fine (AuthDemo.bobIn ++ [.call 0 (.setPerms 2 AuthDemo.less)])
    (view s 1).map (·.perms) = some AuthDemo.less.clamp ∧ actionBit AuthDemo.less 2 3 = false ∧
    checkRequest AuthDemo.cfg s 1 0x0200 3 = .ok := by decide +kernel

/-- F (C30): the administrator logs bob out; the call succeeds, bob stays authorised and can log in
a second time. -/
theorem F_admin_logout_keeps_session :
    let s := AuthDemo.after AuthDemo.fine AuthDemo.bobIn
    (act AuthDemo.cfg s 0 (.logout 2)).1 = .ok ∧
    checkRequest AuthDemo.cfg (act AuthDemo.cfg s 0 (.logout 2)).2 1 0x0200 3 = .ok ∧
    (act AuthDemo.cfg (act AuthDemo.cfg s 0 (.logout 2)).2 2 (.login mPin AuthDemo.bob [9, 9])).1 = .ok := by
  decide +kernel

/-- F (C29, C30): bob is deleted and the slot given to a second administrator, eve.  bob's session,
still open, now deletes the first administrator. -/
theorem F_stale_session_becomes_admin :
    let s := AuthDemo.after AuthDemo.fine (AuthDemo.bobIn ++
      [.call 0 (.delete 2), .call 0 (.add AuthDemo.eve AuthDemo.full mPin [7])])
    (s.sess 1).perms.isAdmin = false ∧ (act AuthDemo.cfg s 1 (.delete 1)).1 = .ok ∧
    view (act AuthDemo.cfg s 1 (.delete 1)).2 0 = none := by decide +kernel

/-- F (C31): power is lost while bob is added, after the credential object was written and before
the index.  Later bob is added without credentials; the next restart gives bob the PIN of the
interrupted call. -/
theorem F_orphan_credential :
    let outs : Nat → Out := fun t => if t = 7 then .cut false else .ok
    let s := AuthDemo.after outs (AuthDemo.setup ++
      [.restart false, .call 0 (.login mPin AuthDemo.adm [1, 2, 3, 4]),
       .call 0 (.add AuthDemo.bob AuthDemo.less mPin [])])
    view s 1 = some ⟨AuthDemo.bob, AuthDemo.less.clamp, mNone, []⟩ ∧
    view (restart AuthDemo.cfg s false) 1 = some ⟨AuthDemo.bob, AuthDemo.less.clamp, mPin, [9, 9]⟩ := by
  decide +kernel

/-- F (C31): deleting bob fails twice (removal of the credential object, then the write that puts the
index back).  The call is refused and the running device still has bob; after a restart bob is
gone. -/
theorem F_delete_rollback_lost :
    let outs : Nat → Out := fun t => if t = 11 ∨ t = 12 then .fail .aborted false else .ok
    let s := AuthDemo.after outs AuthDemo.setup
    (act AuthDemo.cfg s 0 (.delete 2)).1 = .aborted ∧
    (view (act AuthDemo.cfg s 0 (.delete 2)).2 1).isSome = true ∧
    (restart AuthDemo.cfg (act AuthDemo.cfg s 0 (.delete 2)).2 false).up = true ∧
    view (restart AuthDemo.cfg (act AuthDemo.cfg s 0 (.delete 2)).2 false) 1 = none := by decide +kernel

/-- F (C31): the index write of adding eve (without credentials) is reported as failed, but is complete
on the media.  The call is refused and the running device has no such user; after a restart eve
exists. -/
theorem F_failed_add_appears :
    let outs : Nat → Out := fun t => if t = 10 then .fail .aborted true else .ok
    let s := AuthDemo.after outs AuthDemo.setup
    let r := act AuthDemo.cfg s 0 (.add AuthDemo.eve AuthDemo.less mPin [])
    r.1 = .aborted ∧ view r.2 2 = none ∧ (restart AuthDemo.cfg r.2 true).up = true ∧
    view (restart AuthDemo.cfg r.2 true) 2 = some ⟨AuthDemo.eve, AuthDemo.less.clamp, mNone, []⟩ := by
  decide +kernel

/-- F (C32): names are compared before they are cut to 31 bytes, so two users can share a name. -/
theorem F_duplicate_names :
    let long : List UInt8 := List.replicate 32 0x61
    let s := AuthDemo.after AuthDemo.fine (AuthDemo.setup ++
      [.call 0 (.add long AuthDemo.less mPin [1]), .call 0 (.add long AuthDemo.less mPin [2])])
    (view s 2).map (·.name) = (view s 3).map (·.name) ∧ (view s 3).isSome = true := by decide +kernel

/-- F (C45): after setting one's own permissions, the session holds the unclamped set. -/
theorem F_session_unclamped :
    let big : Perms := { AuthDemo.full with keyIdCount := 9 }
    let s := AuthDemo.after AuthDemo.fine (AuthDemo.setup ++ [.call 0 (.setPerms 1 big)])
    (s.sess 0).perms.keyIdCount = 9 ∧ (view s 0).map (·.perms.keyIdCount) = some 2 := by decide +kernel

end WolfHsm.Props

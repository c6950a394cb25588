import Verif.Props.CryptoKeys

/-!
# Findings about crypto requests

Each theorem exhibits an execution on the demo server, with a toy crypto library that keeps to the
sizes it is given.
-/

namespace WolfHsm.Props

open Crypto
open Keystore hiding Cfg Req Resp
open Keystore.Demo (one two cache5 label)

/-- Client 1 caches key 5 with the given usage, 16 bytes. -/
def cacheAs (usage : UInt16) : Ev :=
  .key one .ok (.cache 5 usage label (List.replicate 16 3))

/-- The usage flags of key 5 as client 1's context sees them. -/
def usageOf5 (evs : List Ev) : Option UInt16 :=
  (view Demo.cfg.ks 0 (Keystore.Demo.after evs) (ownId Demo.cfg.ks one 5)).map
    fun p => p.1.flags &&& usageAny

/-- **Finding (C20).** A key whose only usage is VERIFY generates MACs: `_CmacResolveKey` accepts
either usage for the one CMAC request there is (src/wh_server_crypto.c:4472-4486). -/
theorem F_C20_verify_key_makes_mac : ∃ evs es o, usageOf5 evs = some Flag.usageVerify ∧
    Exec Demo.cfg.ks Keystore.Demo.ncfg one (Keystore.Demo.after evs)
      (handler Demo.cfg Demo.lib one (.cmac 5 [] [] [1, 2] 16)) es (some (.ok o)) ∧
    Demo.lib.cmac (List.replicate 16 3) [1, 2] 16 = .ok o.body :=
  ⟨[cacheAs Flag.usageVerify], _, { fixed := 48, body := List.replicate 16 51 }, by decide +kernel,
    Demo.on_exec _ _ _ (by decide +kernel), by decide +kernel⟩

/-- **Finding (C20).** A key whose only usage is ENCRYPT performs the RSA private-key operation of
signing (`RSA_PRIVATE_ENCRYPT`): SIGN is asked for only if ENCRYPT is missing
(src/wh_server_crypto.c:526-563). -/
theorem F_C20_encrypt_key_signs : ∃ evs es o, usageOf5 evs = some Flag.usageEncrypt ∧
    Exec Demo.cfg.ks Keystore.Demo.ncfg one (Keystore.Demo.after evs)
      (handler Demo.cfg Demo.lib one (.rsaFunction .privateEncrypt 5 false [1, 2] 64 [])) es
      (some (.ok o)) ∧ o.body ≠ [] :=
  ⟨[cacheAs Flag.usageEncrypt], _, { fixed := 4, body := [49, 50] }, by decide +kernel,
    Demo.on_exec _ _ _ (by decide +kernel), by decide⟩

/-- **Finding (C20).** An intermediate CMAC state computed with a stored key is handed to the client
(src/wh_server_crypto.c:4589-4606), and a client may hand in any state: what the response discloses
is the library's chaining value for a state of the client's choice. -/
theorem F_C20_cmac_state_disclosed (state input : List UInt8) : ∃ evs es o,
    usageOf5 evs = some Flag.usageSign ∧
    Exec Demo.cfg.ks Keystore.Demo.ncfg one (Keystore.Demo.after evs)
      (handler Demo.cfg Demo.lib one (.cmac 5 [] state input 0)) es (some (.ok o)) ∧
    Demo.lib.cmacUpdate (List.replicate 16 3) state input = .ok o.state :=
  ⟨[cacheAs Flag.usageSign], _,
    { fixed := 48, keyId := 5, state := state ++ [Demo.sum (List.replicate 16 3) + Demo.sum input] },
    by decide +kernel, Demo.on_exec _ _ _ (by
      cases input <;> rfl), rfl⟩

/-- **Finding (C19, C20).** A revoked key still answers requests that ask for no usage: its public
point is computed and delivered (`_HandleEccMakePub`, src/wh_server_crypto.c:1816-1888; the same
holds of checking a public key, of the RSA size and of the public side of a shared secret). -/
theorem F_C19_revoked_key_public_part : ∃ evs es o,
    (view Demo.cfg.ks 0 (Keystore.Demo.after evs) (ownId Demo.cfg.ks one 7)).map
      (fun p => isRevoked p.1) = some true ∧
    Exec Demo.cfg.ks Keystore.Demo.ncfg one (Keystore.Demo.after evs)
      (handler Demo.cfg Demo.lib one (.makePub 7 false [])) es (some (.ok o)) ∧ o.body ≠ [] :=
  ⟨[.key one .ok (.revoke 7)], _, { fixed := 4, body := [7] }, by decide +kernel,
    Demo.on_exec _ _ _ (by decide +kernel), by decide⟩

/-- **Finding (C17, C51).** A key generation with delivery to client memory that fails because of
the address takes the client's previous key with it: the new key has already replaced the cached
one and is then evicted (src/wh_server_crypto.c:6990-7030). -/
theorem F_C17_failed_keygen_loses_key : ∃ es rc,
    (view Demo.cfg.ks 0 (Keystore.Demo.after [cache5]) (ownId Demo.cfg.ks one 5)).map (·.2) =
      some [1, 2, 3] ∧
    Exec Demo.cfg.ks Keystore.Demo.ncfg one (Keystore.Demo.after [cache5])
      (handler Demo.cfg Demo.lib one
        (.keyGenDma .mldsa 5 Flag.usageSign label [] [9, 9] 100 .badargs .ok)) es
      (some (.error rc)) ∧
    view Demo.cfg.ks 0 (run Demo.cfg.ks Keystore.Demo.ncfg (Keystore.Demo.after [cache5]) es)
      (ownId Demo.cfg.ks one 5) = none :=
  ⟨_, .badargs, by decide +kernel, Demo.on_exec _ _ _ (by decide +kernel), by decide +kernel⟩

/-- **Finding (C44).** A response may be longer than the communication buffer although the library
keeps to the room it is given: the room for a generated key is the buffer size less the response
structure, without the 12-byte header (src/wh_server_crypto.c:391-392). -/
theorem F_C44_crypto_response_overruns : ∃ es o,
    (∀ alg max obj der, Demo.lib.privateDer alg max obj = .ok der → der.length ≤ max) ∧
    Exec Demo.cfg.ks Keystore.Demo.ncfg one (Keystore.Demo.after [])
      (handler Demo.cfg Demo.lib one
        (.keyGen .rsa 0 Flag.ephemeral label [] (List.replicate 504 1))) es (some (.ok o)) ∧
    Demo.cfg.ks.commLen < o.size := by
  refine ⟨_, { fixed := 8, body := List.replicate 504 1 }, ?_,
    Demo.on_exec _ _ _ (by decide +kernel), by decide +kernel⟩
  intro alg max obj der h
  change Demo.fit max obj = _ at h
  unfold Demo.fit at h
  split at h
  · cases h; assumption
  · cases h

end WolfHsm.Props

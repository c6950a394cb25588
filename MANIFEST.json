{
 "claims": [
  {
   "property": "C01",
   "status": "proved",
   "theorems": [
    "WolfHsm.Props.C01_add_atomic",
    "WolfHsm.Props.C01_always_boots",
    "WolfHsm.Props.C01_add_durable",
    "WolfHsm.Props.C01_boot_interrupted"
   ],
   "note": "Over all histories of the two-partition flash device with fewer than 2^32-1 destroys; a torn command leaves any subset of its 8-byte units written."
  },
  {
   "property": "C02",
   "status": "proved",
   "theorems": [
    "WolfHsm.Props.C02_destroy_atomic",
    "WolfHsm.Props.C02_destroy_durable",
    "WolfHsm.Props.C02_reclaim_atomic"
   ],
   "note": "Same histories as C01; the 32-bit partition epoch bounds the number of destroys."
  },
  {
   "property": "C03",
   "status": "proved",
   "theorems": [
    "WolfHsm.Props.C03_shows_unique",
    "WolfHsm.Props.C03_always_a_store",
    "WolfHsm.Props.C03_fresh",
    "WolfHsm.Props.C03_reinit",
    "WolfHsm.Props.C03_add",
    "WolfHsm.Props.C03_destroy",
    "WolfHsm.Props.C03_sequence"
   ],
   "note": "Zero-length reads return BADARGS in the code, so the map's read does too."
  },
  {
   "property": "C04",
   "status": "partial",
   "theorems": [
    "WolfHsm.Props.C04_add_error",
    "WolfHsm.Props.C04_add_ok",
    "WolfHsm.Props.C04_boot_close",
    "WolfHsm.Props.C04_destroy_error",
    "WolfHsm.Props.C04_destroy_boot",
    "WolfHsm.Props.C04_destroy_ok",
    "WolfHsm.Props.F_init_read_fault",
    "WolfHsm.Props.F_metadata_read_fault",
    "WolfHsm.Props.F_failed_destroy_then_add_lost",
    "WolfHsm.Props.F_add_retry_refused"
   ],
   "note": "Add: all faults. Destroy: after re-Init all faults; immediately for program, verify and erase faults. Read faults during Init, and continuing without re-Init after a failed destroy, break the claim; counterexamples are the F_ theorems."
  },
  {
   "property": "C05",
   "status": "proved",
   "theorems": [
    "WolfHsm.Props.C05_listing",
    "WolfHsm.Props.C05_id_zero"
   ],
   "note": "For stores without the reserved id 0; with id 0 the claim is false (C05_id_zero). The access and flags arguments are ignored by the code."
  },
  {
   "property": "C06",
   "status": "proved",
   "theorems": [
    "WolfHsm.Props.C06_accounting",
    "WolfHsm.Props.C06_add_fits_iff",
    "WolfHsm.Props.C06_reclaim",
    "WolfHsm.Props.C06_add_with_reclaim"
   ],
   "note": "Histories without flash faults."
  },
  {
   "property": "C07",
   "status": "proved",
   "theorems": [
    "WolfHsm.Props.C07_read_exact",
    "WolfHsm.Props.C07_roundtrip",
    "WolfHsm.Props.C07_refused",
    "WolfHsm.Props.C07_only_blank_changes"
   ],
   "note": "All offsets, sizes and contents, on the RAM-simulated driver model; also under power loss and driver faults for the only-blank-changes part."
  },
  {
   "property": "C08",
   "status": "partial",
   "theorems": [
    "WolfHsm.Props.FlashLog.C08_fresh",
    "WolfHsm.Props.FlashLog.C08_always_boots",
    "WolfHsm.Props.FlashLog.C08_running",
    "WolfHsm.Props.FlashLog.C08_restart",
    "WolfHsm.Props.FlashLog.C08_add",
    "WolfHsm.Props.FlashLog.C08_add_fits_iff",
    "WolfHsm.Props.FlashLog.C08_add_atomic",
    "WolfHsm.Props.FlashLog.C08_destroy",
    "WolfHsm.Props.FlashLog.C08_destroy_atomic",
    "WolfHsm.Props.FlashLog.C08_boot_interrupted",
    "WolfHsm.Props.FlashLog.C08_listing",
    "WolfHsm.Props.FlashLog.C08_accounting",
    "WolfHsm.Props.FlashLog.C08_in_bounds",
    "WolfHsm.Props.FlashLog.C08_sequence",
    "WolfHsm.Props.FlashLog.F_log_destroy_zero",
    "WolfHsm.Props.FlashLog.F_log_id_zero"
   ],
   "note": "All histories and power losses on devices whose 64-byte granules are written atomically, with fewer than 2^32 updates and object ids other than 0. With id 0 the claim is false (F_log_destroy_zero, F_log_id_zero); with smaller granules or after an epoch wrap power loss can lose the contents (F_log_small_granule, F_log_epoch_wrap)."
  },
  {
   "property": "C09",
   "status": "proved",
   "theorems": [
    "WolfHsm.Props.C09_nonmodifiable_immutable"
   ],
   "note": "Over all histories of NVM requests (every handler, every lock and backend outcome) and restarts; the DMA add with a racing client is excluded by the Stable hypothesis and shown to matter by F_add_dma_race."
  },
  {
   "property": "C10",
   "status": "proved",
   "theorems": [
    "WolfHsm.Props.C10_bytes_returned_are_exportable",
    "WolfHsm.Props.C10_read_refused",
    "WolfHsm.Props.C10_cert_read_is_exportable"
   ],
   "note": "NVM read and read-DMA requests and certificate reads, from any state."
  },
  {
   "property": "C11",
   "status": "partial",
   "theorems": [
    "WolfHsm.Props.C11_trusted_untouched",
    "WolfHsm.Props.C11_trusted_not_created",
    "WolfHsm.Props.C11_no_new_trusted_key",
    "WolfHsm.Props.C11_trusted_key_constant",
    "WolfHsm.Props.F_evict_option_drops_trusted",
    "WolfHsm.Props.C11_cert_requests_keep_protected",
    "WolfHsm.Props.C11_cert_leaf_key_not_trusted"
   ],
   "note": "NVM part, key part and certificate requests; NVM part and key part over all histories of client requests, NVM failures and restarts. Missing: a DMA add whose metadata the client changes between the two fetches (F_add_dma_race), and trusted keys that are only cached (F_evict_option_drops_trusted)."
  },
  {
   "property": "C12",
   "status": "partial",
   "theorems": [
    "WolfHsm.Props.C12_nondestroyable_stays_partial",
    "WolfHsm.Props.C12_never_removed_directly",
    "WolfHsm.Props.F_nondestroyable_lost",
    "WolfHsm.Props.C11_cert_requests_keep_protected"
   ],
   "note": "Proved for histories that do not add over the object; a client may replace the object by an ordinary add without the flag, which F_nondestroyable_lost proves."
  },
  {
   "property": "C13",
   "status": "proved",
   "theorems": [
    "WolfHsm.KeyId.C13_fields",
    "WolfHsm.KeyId.C13_fromClient_fields",
    "WolfHsm.KeyId.C13_isolation",
    "WolfHsm.KeyId.C13_injective",
    "WolfHsm.KeyId.C13_roundtrip",
    "WolfHsm.KeyId.C13_roundtrip_server"
   ],
   "note": "All 16-bit ids, all configurations of the translation options."
  },
  {
   "property": "C14",
   "status": "proved",
   "theorems": [
    "WolfHsm.Props.C14_isolation",
    "WolfHsm.Props.C14_view",
    "WolfHsm.Props.C14_stored",
    "WolfHsm.Props.C14_discloses_own",
    "WolfHsm.Props.C14_crypto_isolation",
    "WolfHsm.Props.C14_sigVerify_own_key",
    "WolfHsm.Props.C14_sigsLeft_own_key"
   ],
   "note": "Any number of server contexts and clients; key requests, the key-store part of crypto requests, and LMS/XMSS verification and signatures-left packets over DMA."
  },
  {
   "property": "C15",
   "status": "proved",
   "theorems": [
    "WolfHsm.Props.C15_export_checked",
    "WolfHsm.Props.C15_flag_kept",
    "WolfHsm.Props.C15_never_exported",
    "WolfHsm.Props.C15_never_exported_on_flash",
    "WolfHsm.Props.C15_crypto_flag_kept"
   ],
   "note": "Secret bytes are any set of byte strings whose copies are all NONEXPORTABLE at the start. The last theorem states it about a server on the flash NVM, from erased flash, with power cuts at every flash write (restart after a failed destroy, as in C50)."
  },
  {
   "property": "C16",
   "status": "proved",
   "theorems": [
    "WolfHsm.Props.C16_fresh",
    "WolfHsm.Props.C16_full"
   ],
   "note": ""
  },
  {
   "property": "C17",
   "status": "proved",
   "theorems": [
    "WolfHsm.Props.C17_no_loss",
    "WolfHsm.Props.C17_coherent",
    "WolfHsm.Props.C17_crypto_targets",
    "WolfHsm.Props.F_C17_failed_keygen_loses_key"
   ],
   "note": "Any other key; the key named by the request itself: F_failed_cache_loses_key."
  },
  {
   "property": "C18",
   "status": "partial",
   "theorems": [
    "WolfHsm.Props.C18_committed",
    "WolfHsm.Props.C18_erased_partial",
    "WolfHsm.Props.C18_readable",
    "WolfHsm.Props.C18_exports_what_was_cached",
    "WolfHsm.Props.C18_erased_is_gone",
    "WolfHsm.Props.C18_exports_what_was_cached_on_flash",
    "WolfHsm.Props.C18_erased_is_gone_on_flash",
    "WolfHsm.Props.F_C18_erased_key_comes_back"
   ],
   "note": "Committed keys and readability in full; also in terms of requests and answers only, on the object map and on the flash NVM with power cuts. Erased keys stay gone except after a failed commit of the same key whose object is complete on the media while the NVM shows none; F_C18_erased_key_comes_back shows that case violates the property."
  },
  {
   "property": "C19",
   "status": "partial",
   "theorems": [
    "WolfHsm.Props.C19_revoked_partial",
    "WolfHsm.Props.C19_unusable",
    "WolfHsm.Props.F_revoke_retry",
    "WolfHsm.Props.F_revoke_incoherent",
    "WolfHsm.Props.F_revoked_cached_key_returns",
    "WolfHsm.Props.C19_revoked_is_unusable",
    "WolfHsm.Props.C19_revoked_is_unusable_on_flash",
    "WolfHsm.Props.C19_crypto_refused",
    "WolfHsm.Props.F_C19_revoked_key_public_part",
    "WolfHsm.Props.F_C19_revoked_stateful_key_signs"
   ],
   "note": "Proved for stored keys with coherent cache. The full statement is false: F_revoke_retry, F_revoked_cached_key_returns. C19_revoked_is_unusable(_on_flash): the same in terms of requests and answers only, on the object map and on the flash NVM with power cuts."
  },
  {
   "property": "C20",
   "status": "partial",
   "theorems": [
    "WolfHsm.Props.C20_usage_enforced",
    "WolfHsm.Props.C20_load_enforced",
    "WolfHsm.Props.C20_crypto_request",
    "WolfHsm.Props.C20_crypto_refused",
    "WolfHsm.Props.F_C20_stateful_sign_ignores_usage",
    "WolfHsm.Props.F_C20_verify_key_makes_mac",
    "WolfHsm.Props.F_C20_encrypt_key_signs",
    "WolfHsm.Props.F_C20_cmac_state_disclosed"
   ],
   "note": "Every crypto request except LMS/XMSS (no usage check, F_C20_stateful_sign_ignores_usage): success implies each named key carried one of the usages listed in Spec/Crypto.lean while the request ran, and the response is the library's result for those keys. The full property fails where the code asks for another usage than the operation (F_C20_*)."
  },
  {
   "property": "C21",
   "status": "proved",
   "theorems": [
    "WolfHsm.Props.C21_wrap_content",
    "WolfHsm.Props.C21_roundtrip",
    "WolfHsm.Props.C21_data_roundtrip",
    "WolfHsm.Props.C21_wrapExport_content",
    "WolfHsm.Props.C21_accept",
    "WolfHsm.Props.C21_roundtrip_cache",
    "WolfHsm.Props.F_unwrap_limit",
    "WolfHsm.Props.F_data_unwrap_limit"
   ],
   "note": "AES-GCM is a parameter with its correctness law as hypothesis. Proved for the requests the server receives; the client library refuses to send blobs longer than its limit for plain keys (F_unwrap_limit)."
  },
  {
   "property": "C22",
   "status": "proved",
   "theorems": [
    "WolfHsm.Props.C22_reports_never_decrease",
    "WolfHsm.Props.C22_increment_adds_one",
    "WolfHsm.Props.C22_failed_increment",
    "WolfHsm.Props.C22_read_reports_value",
    "WolfHsm.Props.C22_no_interference",
    "WolfHsm.Props.C22_counter_packets_are_events"
   ],
   "note": "Histories without a re-init, NVM-group write or destroy of the same counter; F_counter_init_lowers, F_counter_ids_alias and F_counter_rewound_by_nvm_add show why each exclusion is needed."
  },
  {
   "property": "C23",
   "status": "proved",
   "theorems": [
    "WolfHsm.Props.C23_response_matches",
    "WolfHsm.Props.C23_at_most_once",
    "WolfHsm.Props.C23_one_outstanding",
    "WolfHsm.Props.F_old_response_after_wrap",
    "WolfHsm.Props.F_restarted_client_gets_old_response"
   ],
   "note": "Histories of sends, server steps, polls (with an arbitrary, lossy, reordering and duplicating link) and aborts. The 16-bit sequence number distinguishes the last 65535 requests only; the F_ theorems show the two ways an older response is accepted."
  },
  {
   "property": "C24",
   "status": "proved",
   "theorems": [
    "WolfHsm.Props.C24_channel",
    "WolfHsm.Props.C24_request_arrives",
    "WolfHsm.Props.C24_response_arrives",
    "WolfHsm.Props.C24_send_succeeds",
    "WolfHsm.Props.F_mem_small_buffer_overflow",
    "WolfHsm.Props.F_mem_refused_answer_redelivers"
   ],
   "note": "Every interleaving of single shared-memory accesses, sequentially consistent memory; buffers at least as large as their control word."
  },
  {
   "property": "C25",
   "status": "partial",
   "theorems": [
    "WolfHsm.Utils.C25_translate16",
    "WolfHsm.Utils.C25_translate32",
    "WolfHsm.Utils.C25_translate64",
    "WolfHsm.Utils.C25_translate_involution",
    "WolfHsm.Props.C25_exchange",
    "WolfHsm.Props.C25_auth_rpc",
    "WolfHsm.Props.C25_nvm_rpc_partial",
    "WolfHsm.Props.F_dma_metadata_byte_order",
    "WolfHsm.Props.C25_key_rpc_partial",
    "WolfHsm.Props.F_key_refusal_hidden",
    "WolfHsm.Props.F_wrap_lock_hidden",
    "WolfHsm.Props.C25_counter_rpc_partial",
    "WolfHsm.Props.C25_custom_rpc_partial",
    "WolfHsm.Props.C25_comm_rpc_partial",
    "WolfHsm.Props.F_echo_refused",
    "WolfHsm.Props.F_custom_alias",
    "WolfHsm.Props.F_custom_reserved",
    "WolfHsm.Props.C25_cert_rpc_partial",
    "WolfHsm.Props.F_cert_refused_keyid",
    "WolfHsm.Props.C58_she_call",
    "WolfHsm.Props.C58_secure_boot_exact",
    "WolfHsm.Props.C56_call_partial"
   ],
   "note": "Scalar fields and packets for all kinds; complete calls (client function, packets, server handler) for the authentication, NVM, key, counter, connection, custom, certificate, SHE and crypto groups (crypto without DMA). Violated by the metadata of ADDOBJECTDMA (F_dma_metadata_byte_order) and, as to the error or the id reported, by refused calls (F_key_refusal_hidden, F_wrap_lock_hidden, F_echo_refused, F_cert_refused_keyid). The DMA messages of the crypto group are not modelled."
  },
  {
   "property": "C26",
   "status": "partial",
   "theorems": [
    "WolfHsm.Props.C26_timeout_partial",
    "WolfHsm.Props.C26_not_early",
    "WolfHsm.Props.F_stale_packet_disables_timeout"
   ],
   "note": "The timeout is reported when only \"not ready\" answers came since the request; a stale packet stops the timer (finding), so the full claim is false of the code."
  },
  {
   "property": "C27",
   "status": "partial",
   "theorems": [
    "WolfHsm.Props.C27_never_more",
    "WolfHsm.Props.C27_one_response_partial",
    "WolfHsm.Props.C27_client_sees_partial",
    "WolfHsm.Props.C27_history_partial",
    "WolfHsm.Props.C27_she_fits",
    "WolfHsm.Props.C27_nvm_fits",
    "WolfHsm.Props.C27_key_fits",
    "WolfHsm.Props.F_key_unknown_echo",
    "WolfHsm.Props.C27_counter_fits",
    "WolfHsm.Props.C27_custom_fits",
    "WolfHsm.Props.F_counter_unknown_echo",
    "WolfHsm.Props.C27_cert_fits",
    "WolfHsm.Props.C27_device_partial",
    "WolfHsm.Props.C27_device_history_partial",
    "WolfHsm.Props.C27_crypto_fits_partial",
    "WolfHsm.Props.C27_cryptoDma_fits_partial",
    "WolfHsm.Props.F_C27_dma_stack_bytes"
   ],
   "note": "Never more than one response: no assumption. Exactly one: for the whole device with the models of all its handlers in place (C27_device_partial, C27_device_history_partial), from any power-up and after any history; the keys, secrets and signatures of the crypto library are assumed to leave room for headers, and the transport must take the packet in the end. C27_one_response_partial and C27_history_partial say the same for arbitrary handlers whose responses fit."
  },
  {
   "property": "C28",
   "status": "proved",
   "theorems": [
    "WolfHsm.Props.C28_refused",
    "WolfHsm.Props.C28_no_effect",
    "WolfHsm.Props.C28_history"
   ],
   "note": "For every packet and history, whatever the handlers of the other groups do. Assumes no application callback overriding the check."
  },
  {
   "property": "C29",
   "status": "partial",
   "theorems": [
    "WolfHsm.Props.C29_add",
    "WolfHsm.Props.C29_delete_setPerms",
    "WolfHsm.Props.C29_history_partial",
    "WolfHsm.Props.F_stale_session_becomes_admin"
   ],
   "note": "Single calls are proved for every state and NVM behaviour; the history theorem covers every history in which no administrator is logged in and NVM failures are spaced (HistOk). F_stale_session_becomes_admin shows that the full claim fails: a stale session of a deleted user becomes an administrator when the slot is reused."
  },
  {
   "property": "C30",
   "status": "partial",
   "theorems": [
    "WolfHsm.Props.C30_authorised_iff",
    "WolfHsm.Props.C30_wire",
    "WolfHsm.Props.C30_after_logout_partial",
    "WolfHsm.Props.C30_own_removal_partial",
    "WolfHsm.Props.F_deleted_user_keeps_session",
    "WolfHsm.Props.F_removed_permission_kept",
    "WolfHsm.Props.F_admin_logout_keeps_session"
   ],
   "note": "Proved for logout, disconnect and removal of one's own permission, over all histories, and on packets. The code violates the claim for deletion, removal of a permission and logout by an administrator on another connection (F_ theorems)."
  },
  {
   "property": "C31",
   "status": "partial",
   "theorems": [
    "WolfHsm.Props.C31_restart_partial",
    "WolfHsm.Props.C31_call_partial",
    "WolfHsm.Props.histOk_of_creds",
    "WolfHsm.Props.F_orphan_credential",
    "WolfHsm.Props.F_delete_rollback_lost",
    "WolfHsm.Props.F_failed_add_appears"
   ],
   "note": "Proved for all histories with spaced NVM failures in which interrupted additions are not followed by credential-less additions to the slot; the F_ theorems show why these hypotheses are needed."
  },
  {
   "property": "C32",
   "status": "proved",
   "theorems": [
    "WolfHsm.Props.C32_login",
    "WolfHsm.Props.C32_set_credentials",
    "WolfHsm.Props.C32_login_db",
    "WolfHsm.Props.C32_set_credentials_db",
    "WolfHsm.Props.C32_wire_login"
   ],
   "note": "For every history and NVM behaviour, with the database in NVM or RAM, down to the bytes of login packets. Hash and certificate verification are parameters."
  },
  {
   "property": "C33",
   "status": "proved",
   "theorems": [
    "WolfHsm.Props.C33_gated",
    "WolfHsm.Props.C33_status"
   ],
   "note": "Every SHE command, every history of requests, restarts and power losses, any number of clients and server contexts. The UID and boot state belong to the server context, as in the code."
  },
  {
   "property": "C34",
   "status": "partial",
   "theorems": [
    "WolfHsm.Props.C34_partial",
    "WolfHsm.Props.C34_no_key_partial",
    "WolfHsm.Props.F_she_boot_fail_open"
   ],
   "note": "Proved for every history: FINISH succeeds only if the CMAC over exactly the announced bytes equals the stored MAC. Missing: stored MACs shorter than 16 bytes are compared together with uninitialised memory, and the boot also completes when the boot key cannot be read (F_she_boot_fail_open)."
  },
  {
   "property": "C35",
   "status": "proved",
   "theorems": [
    "WolfHsm.Props.C35_increasing",
    "WolfHsm.Props.C35_no_replay",
    "WolfHsm.Props.C35_change_authorised",
    "WolfHsm.Props.C35_rejected_unchanged"
   ],
   "note": "Histories of SHE commands, key store and NVM requests that do not write the slot by other means, restarts and power losses; one server context per client at the time of the first update, or global SHE keys; the medium reports NOTFOUND only for missing objects. Updates of the RAM slot are excluded: LOAD_PLAIN_KEY resets it."
  },
  {
   "property": "C36",
   "status": "proved",
   "theorems": [
    "WolfHsm.Props.C36_write_protected",
    "WolfHsm.Props.C36_from_load"
   ],
   "note": "Histories of SHE commands, key store and NVM requests that do not write the slot by other means, restarts and power losses."
  },
  {
   "property": "C37",
   "status": "partial",
   "theorems": [
    "WolfHsm.Props.C37_partial",
    "WolfHsm.Props.F_she_flags"
   ],
   "note": "Acceptance, the counter, the predicted M4 and M5 and the stored key are proved. The flags are not the ones requested: generator and loader disagree about their position (F_she_flags), so a key generated as write protected is not."
  },
  {
   "property": "C38",
   "status": "partial",
   "theorems": [
    "WolfHsm.Props.C38_partial",
    "WolfHsm.Props.F_she_export_loaded",
    "WolfHsm.Props.F_she_export_fault_leaks"
   ],
   "note": "Proved: an export succeeds only if a LOAD_PLAIN_KEY or a LOAD_KEY of the RAM slot was accepted before. The code also exports keys loaded encrypted (F_she_export_loaded), and an export that fails midway answers with the RAM key in clear (F_she_export_fault_leaks)."
  },
  {
   "property": "C39",
   "status": "partial",
   "theorems": [
    "WolfHsm.Dma.C39_check_exact",
    "WolfHsm.Dma.C39_copyFromClient",
    "WolfHsm.Dma.C39_copyToClient_partial",
    "WolfHsm.Dma.C39_custom_copy_escapes",
    "WolfHsm.Props.C39_cryptoDma_reads",
    "WolfHsm.Props.C39_cryptoDma_writes",
    "WolfHsm.Props.C39_cryptoDma_write_list",
    "WolfHsm.Props.C39_cryptoDma_read_list",
    "WolfHsm.Props.F_C39_bad_address_not_told",
    "WolfHsm.Props.C39_device_reads",
    "WolfHsm.Props.C39_device_writes"
   ],
   "note": "Decision exact; reads contained; writes contained except on ports with both an address and a custom copy callback, where a counterexample is proved. For every packet of the DMA crypto group, of any bytes: the handler's outcome does not depend on client memory outside checked buffers, and what it writes lies in a checked buffer; with the checks of wh_server_dma.c and an allow list, inside the list. For the whole server and every history of packets of all groups, connection events, power cuts and restarts, on a port without address translation: state, packets and writes are the same for any two client memories that agree, at all times, on the regions open for reading; and every write lies in one region open for writing (C39_device_reads, C39_device_writes; results of the crypto library are assumed to fit the room it is given)."
  },
  {
   "property": "C40",
   "status": "proved",
   "theorems": [
    "WolfHsm.Utils.C40_constantCompare",
    "WolfHsm.Utils.C40_memeqzero",
    "WolfHsm.Utils.C40_forceZero",
    "WolfHsm.Utils.C40_swap16",
    "WolfHsm.Utils.C40_swap32",
    "WolfHsm.Utils.C40_swap64",
    "WolfHsm.Utils.C40_crc_append",
    "WolfHsm.Utils.C40_crc_detects_byte",
    "WolfHsm.Utils.C40_crc_detects_two_bytes"
   ],
   "note": "Functional correctness; timing is outside the model."
  },
  {
   "property": "C41",
   "status": "proved",
   "theorems": [
    "WolfHsm.RingBuf.C41_ringbuf",
    "WolfHsm.RingBuf.C41_wrap_loses_everything",
    "WolfHsm.Props.C41_message",
    "WolfHsm.Props.C41_formatted"
   ],
   "note": "For histories of fewer than SIZE_MAX+1 calls; at the counter wrap the claim fails, which is proved as a separate theorem. Messages: truncation and zero padding by wh_Log_AddMsg and AddMsgF."
  },
  {
   "property": "C42",
   "status": "partial",
   "theorems": [
    "WolfHsm.Props.C42_accepted_is_anchored_partial",
    "WolfHsm.Props.C42_accepted_was_verified_partial",
    "WolfHsm.Props.C42_log_is_library_calls",
    "WolfHsm.Props.C42_cache_is_transparent",
    "WolfHsm.Props.C42_disabled_is_plain",
    "WolfHsm.Props.C42_disabled_is_empty",
    "WolfHsm.Props.C42_clear_forgets",
    "WolfHsm.Props.C42_acert_accepted_by_stored_root",
    "WolfHsm.Props.C42_cert_packets_are_events",
    "WolfHsm.Props.C42_packet_accepted_is_anchored_partial"
   ],
   "note": "All histories of certificate requests, also as packets with any bytes, with power loss, media failures, failing locks of verify/clear/enable and cache operations of other contexts during a verification. Missing: root replacement by requests of other groups or other contexts, cache lock failure during add/erase, DMA chains changed by the client while they are read; each of them breaks the property (findings in Props/Cert.lean)."
  },
  {
   "property": "C43",
   "status": "proved",
   "theorems": [
    "WolfHsm.Props.C43_scan",
    "WolfHsm.Props.C43_scan_field",
    "WolfHsm.Props.C43_methods_safe",
    "WolfHsm.Props.C43_accept",
    "WolfHsm.Props.C43_accept_iff",
    "WolfHsm.Props.C43_accept_cert",
    "WolfHsm.Props.C43_one_image",
    "WolfHsm.Props.C43_raw",
    "WolfHsm.Props.F_raw_size_truncated",
    "WolfHsm.Props.F_digest_info_garbage",
    "WolfHsm.Props.F_header_tail_unsigned",
    "WolfHsm.Props.C43_raw_steps"
   ],
   "note": "Header scan, validation and all five verification methods; crypto primitives abstract; image memory does not change during verification; headers below 4 GiB. Raw methods truncate the size to 32 bits (F_raw_size_truncated)."
  },
  {
   "property": "C44",
   "status": "partial",
   "theorems": [
    "WolfHsm.Props.C44_she",
    "WolfHsm.Props.C44_she_refused",
    "WolfHsm.Props.C44_nvm",
    "WolfHsm.Props.C44_nvm_refused",
    "WolfHsm.Props.C44_key_partial",
    "WolfHsm.Props.C44_key_refused",
    "WolfHsm.Props.C44_key_packets_are_events",
    "WolfHsm.Props.F_export_public_short",
    "WolfHsm.Props.F_key_padding",
    "WolfHsm.Props.F_nvm_add_short_ok",
    "WolfHsm.Props.F_init_short_request",
    "WolfHsm.Props.F_C44_crypto_response_overruns",
    "WolfHsm.Props.C44_counter_partial",
    "WolfHsm.Props.C44_counter_refused",
    "WolfHsm.Props.C44_custom_partial",
    "WolfHsm.Props.C44_custom_refused",
    "WolfHsm.Props.F_counter_padding",
    "WolfHsm.Props.F_custom_padding",
    "WolfHsm.Props.C44_cert_partial",
    "WolfHsm.Props.C44_cert_refused",
    "WolfHsm.Props.F_cert_erase_short",
    "WolfHsm.Props.F_cert_read_short",
    "WolfHsm.Props.C44_crypto",
    "WolfHsm.Props.C44_crypto_refused",
    "WolfHsm.Props.C44_crypto_unknown",
    "WolfHsm.Props.C44_crypto_refused_decaps",
    "WolfHsm.Props.C44_crypto_packets_are_events",
    "WolfHsm.Props.F_crypto_short_echo",
    "WolfHsm.Props.C44_cryptoDma_partial",
    "WolfHsm.Props.F_C44_sha_padding",
    "WolfHsm.Props.C44_cryptoDma_refused",
    "WolfHsm.Props.C44_cryptoDma_unknown",
    "WolfHsm.Props.F_cryptoDma_short_echo",
    "WolfHsm.Props.C44_cryptoDma_packets_are_events"
   ],
   "note": "Proved for the SHE, NVM, key, counter, custom, certificate, crypto and DMA crypto request groups: effect and answer depend only on the bytes received (up to padding), and a request of the wrong size has no effect; every key, counter, certificate and crypto packet is an event of the histories of the other properties. Violated by COMM INIT, EXPORT_PUBLIC, the certificate requests ERASETRUSTED and READTRUSTED and, as to the answer, by ADDOBJECT (F_ theorems). Partial for DMA SHA-224/256, whose response padding is stale (F_C44_sha_padding)."
  },
  {
   "property": "C45",
   "status": "proved",
   "theorems": [
    "WolfHsm.Props.C45_roundtrip",
    "WolfHsm.Props.C45_clamp_same_rights",
    "WolfHsm.Props.C45_truncated"
   ],
   "note": "All permission sets and buffers."
  },
  {
   "property": "C46",
   "status": "partial",
   "theorems": [
    "WolfHsm.Props.C46_serialised",
    "WolfHsm.Props.C46_order_is_final",
    "WolfHsm.Props.C46_failed_lock_changes_nothing",
    "WolfHsm.Props.C46_released",
    "WolfHsm.Props.C46_owner_never_waits",
    "WolfHsm.Props.C46_can_answer",
    "WolfHsm.Props.C46_counter_alone",
    "WolfHsm.Props.C46_nvm_alone",
    "WolfHsm.Props.C46_key_alone",
    "WolfHsm.Props.F_ecc_make_pub_unlocked",
    "WolfHsm.Props.F_ecc_make_pub_undisciplined"
   ],
   "note": "All schedules of any number of contexts, with lock failures; counter, NVM, key and certificate requests and the key accesses of crypto requests. Missing: CACHE_CLEAR and SET_ENABLED, which are serialised by the cache lock only; ECC make-public and check-key do not lock (finding). Names have no _partial suffix because each theorem is complete for the requests it names."
  },
  {
   "property": "C47",
   "status": "partial",
   "theorems": [
    "WolfHsm.Props.C47_nonmodifiable_key_partial",
    "WolfHsm.Props.F_commit_replaces_nonmodifiable"
   ],
   "note": "False in general: F_commit_replaces_nonmodifiable."
  },
  {
   "property": "C48",
   "status": "partial",
   "theorems": [
    "WolfHsm.Props.C48_index_used_once_partial",
    "WolfHsm.Props.C48_generated_key_index_used_once_partial",
    "WolfHsm.Props.C48_released_index_is_persisted",
    "WolfHsm.Props.C48_failed_sign_releases_nothing",
    "WolfHsm.Props.C48_generated_key_is_protected",
    "WolfHsm.Props.C48_private_state_is_refused",
    "WolfHsm.Props.F_C48_disguised_state_repeats_index",
    "WolfHsm.Props.F_C48_two_contexts_repeat_index",
    "WolfHsm.Props.F_C48_dma_add_race_repeats_index",
    "WolfHsm.Props.F_C48_early_signature_repeats_index"
   ],
   "note": "Proved for every history in which the owner is served by one context and no client sends disguised private state or changes its memory during a DMA add; each of these exceptions is shown to repeat an index (findings). wolfCrypt is a parameter with a stated contract."
  },
  {
   "property": "C49",
   "status": "partial",
   "theorems": [
    "WolfHsm.Props.C49_accepted_image_is_genuine_partial",
    "WolfHsm.Props.C49_fail_closed",
    "WolfHsm.Props.C49_index",
    "WolfHsm.Props.C49_safe",
    "WolfHsm.Props.C49_verify_all",
    "WolfHsm.Props.C49_all_accepted_genuine_partial",
    "WolfHsm.Props.C49_provisioned_key_decides",
    "WolfHsm.Props.F_C49_verify_all_ok_although_refused",
    "WolfHsm.Props.F_C49_cached_key_replaces_boot_key",
    "WolfHsm.Props.F_C49_erased_boot_key_replaced",
    "WolfHsm.Props.F_C49_revoked_key_verifies"
   ],
   "note": "Root certificates are protected only under the hypotheses of C42 (Guarded); the key is the one held at the time of verification, which is the provisioned one if it is NONMODIFIABLE and NONDESTROYABLE. Findings show the other cases."
  },
  {
   "property": "C50",
   "status": "partial",
   "theorems": [
    "WolfHsm.Props.C50_flash_behaves_as_map_partial",
    "WolfHsm.Props.C50_safety",
    "WolfHsm.Props.C50_counter_requests",
    "WolfHsm.Props.C50_nvm_requests",
    "WolfHsm.Props.C50_reclaim_is_code",
    "WolfHsm.Props.C50_counter_never_decreases",
    "WolfHsm.Props.C50_key_requests_partial",
    "WolfHsm.Props.C50_key_server_exists"
   ],
   "note": "Proved for every service written as a program over the NVM API on wh_nvm_flash.c, any crash point and fault pattern. After a failed destroy the device is restarted before the next NVM call (without that the claim is false: F_failed_destroy_then_add_lost). Counter, NVM and key store handlers are shown to be such programs; the NVM queries LIST and GETAVAILABLE depend on the flash layout and are left out."
  },
  {
   "property": "C51",
   "status": "proved",
   "theorems": [
    "WolfHsm.Props.C51_made_key"
   ],
   "note": "Library functions are parameters. A key made by a failed DMA key generation: F_C17_failed_keygen_loses_key."
  },
  {
   "property": "C52",
   "status": "partial",
   "theorems": [
    "WolfHsm.Props.C52_hkdf_partial",
    "WolfHsm.Props.C52_cmac_kdf_partial",
    "WolfHsm.Props.C52_hkdf_request_partial",
    "WolfHsm.Props.F_C52_hkdf_overwrites_info"
   ],
   "note": "Proved when the information is empty or starts no earlier than the last output block; otherwise false (F_C52_hkdf_overwrites_info). HMAC and CMAC are parameters; that the library expands block by block is an assumption about wolfCrypt, which is not in /repo."
  },
  {
   "property": "C53",
   "status": "proved",
   "theorems": [
    "WolfHsm.Props.C53_protected_objects"
   ],
   "note": "About the model of the whole server (Model/Device.lean), with every message group behind the dispatcher; a crypto packet may stand for any crypto request. The exclusions in the statement are shown necessary by F_add_dma_race (client memory changed during the request)."
  },
  {
   "property": "C54",
   "status": "partial",
   "theorems": [
    "WolfHsm.Props.C54_user_database_partial",
    "WolfHsm.Props.F_cert_erases_users"
   ],
   "note": "Holds for all groups but the certificate group, which can erase these objects (F_cert_erases_users)."
  },
  {
   "property": "C55",
   "status": "partial",
   "theorems": [
    "WolfHsm.Props.C55_sha3",
    "WolfHsm.Props.C55_sha3_answered",
    "WolfHsm.Props.C55_sha3_failures",
    "WolfHsm.Props.C55_sha2_partial",
    "WolfHsm.Props.C55_sha2_answered_partial",
    "WolfHsm.Props.C55_buffer",
    "WolfHsm.Props.C55_sha3_dma",
    "WolfHsm.Props.C55_sha3_dma_answered",
    "WolfHsm.Props.C55_sha3_dma_failures",
    "WolfHsm.Props.C55_sha2_dma_partial",
    "WolfHsm.Props.C55_sha2_dma_answered_partial",
    "WolfHsm.Props.C55_dma_buffer",
    "WolfHsm.Props.F_C55_sha2_byte_order",
    "WolfHsm.Props.F_C55_sha2_retry",
    "WolfHsm.Props.F_C55_sha2_fallback",
    "WolfHsm.Props.F_C55_sha2_dma_byte_order",
    "WolfHsm.Props.F_C55_sha2_dma_retry"
   ],
   "note": "Proved for SHA-3 with any byte orders and any failures, input in packets and by DMA mixed in any way. For SHA-2 proved when client and server have the same byte order and all calls return OK; it is false for different byte orders and after a failed call (F_C55_\u2026)."
  },
  {
   "property": "C56",
   "status": "partial",
   "theorems": [
    "WolfHsm.Props.C56_call_partial",
    "WolfHsm.Props.C56_sent",
    "WolfHsm.Props.F_C56_ecc_wrap",
    "WolfHsm.Props.F_C56_no_blocks"
   ],
   "note": "For every non-DMA crypto call of the client except stateful signatures, end to end over packet bytes in both byte orders. Missing: DMA variants, temporary import of keys around a call; F_ theorems show calls whose length arithmetic wraps."
  },
  {
   "property": "C57",
   "status": "proved",
   "theorems": [
    "WolfHsm.Props.C57_rng",
    "WolfHsm.Props.C57_rng_answered",
    "WolfHsm.Props.F_C57_dma_size_truncated"
   ],
   "note": "For all sizes up to 2^32, packet sizes, byte orders and failures. For the request without DMA; a DMA request for 2^32 bytes or more delivers too few (F_C57_dma_size_truncated)."
  },
  {
   "property": "C58",
   "status": "proved",
   "theorems": [
    "WolfHsm.Props.C58_she_call",
    "WolfHsm.Props.C58_round_trip",
    "WolfHsm.Props.C58_secure_boot",
    "WolfHsm.Props.C58_secure_boot_exact",
    "WolfHsm.Props.she_uid",
    "WolfHsm.Props.she_idle",
    "WolfHsm.Props.F_C58_iv_overrun",
    "WolfHsm.Props.F_C58_small_room",
    "WolfHsm.Props.F_C58_tail"
   ],
   "note": "Findings: an IV longer than the packet buffer overruns it; the random number and MAC calls check the output size after sending; input that is not whole blocks is silently cut."
  },
  {
   "property": "C59",
   "status": "partial",
   "theorems": [
    "WolfHsm.Props.C59_no_stray_release_partial",
    "WolfHsm.Props.C59_all_released_partial",
    "WolfHsm.Props.C59_mapped_while_in_use_partial",
    "WolfHsm.Props.C59_copy_back_told_partial",
    "WolfHsm.Props.F_C59_refused_after_mapping",
    "WolfHsm.Props.F_C59_release_of_refused",
    "WolfHsm.Props.F_C59_lost_copy_back",
    "WolfHsm.Props.F_C59_null",
    "WolfHsm.Props.F_C59_timeout",
    "WolfHsm.Props.F_C59_untimed",
    "WolfHsm.Props.F_C59_abort",
    "WolfHsm.Props.F_C59_wrong_response"
   ],
   "note": "For all sequences of calls in which each response function follows its own request, and all worlds. Needed, each shown necessary by a finding: the allow list grants what the callback mapped (leak otherwise), the callback is willing for the blocking functions (stray release otherwise), answers are not lost and no NULL pointer with a length (buffer in use unmapped otherwise); the failure of a copy back is told only by the functions named in the theorem."
  },
  {
   "property": "C60",
   "status": "partial",
   "theorems": [
    "WolfHsm.Props.C60_file_log_partial",
    "WolfHsm.Props.C60_export_partial",
    "WolfHsm.Props.C60_plain_accepted",
    "WolfHsm.Props.C60_message",
    "WolfHsm.Props.C60_success_is_stored",
    "WolfHsm.Props.F_C60_forged",
    "WolfHsm.Props.F_C60_empty_message",
    "WolfHsm.Props.F_C60_no_function",
    "WolfHsm.Props.F_C60_colon",
    "WolfHsm.Props.F_C60_short_write",
    "WolfHsm.Props.F_C60_level"
   ],
   "note": "Round trip for entries whose texts can be told apart in a line and writes that write all or nothing; the last sentence of the property is false: F_C60_forged. sscanf and snprintf as in C, with glibc behaviour for numbers that do not fit."
  },
  {
   "property": "C61",
   "status": "partial",
   "theorems": [
    "WolfHsm.Props.C61_packets_partial",
    "WolfHsm.Props.C61_request_sent",
    "WolfHsm.Props.C61_request_received",
    "WolfHsm.Props.C61_response_sent",
    "WolfHsm.Props.C61_response_received",
    "WolfHsm.Props.C61_comm_polite",
    "WolfHsm.Props.F_C61_other_packet",
    "WolfHsm.Props.F_C61_short_packet",
    "WolfHsm.Props.F_C61_hangup",
    "WolfHsm.Props.F_C61_stuck"
   ],
   "note": "Proved for all histories in which a sender who is told to come back does so with the same packet (the library's comm client does). Without it the property fails (F_C61_other_packet, F_C61_short_packet); the last sentence of the statement fails (F_C61_hangup, F_C61_stuck)."
  },
  {
   "property": "C62",
   "status": "partial",
   "theorems": [
    "WolfHsm.Props.C62_opened",
    "WolfHsm.Props.C62_opening_keeps",
    "WolfHsm.Props.C62_read",
    "WolfHsm.Props.C62_locked",
    "WolfHsm.Props.C62_program",
    "WolfHsm.Props.C62_erase",
    "WolfHsm.Props.C62_compare",
    "WolfHsm.Props.C62_same_as_flash",
    "WolfHsm.Props.C62_nvm_looks",
    "WolfHsm.Props.C62_log_looks",
    "WolfHsm.Props.C62_add_atomic_partial",
    "WolfHsm.Props.C62_destroy_atomic_partial",
    "WolfHsm.Props.C62_restart_partial",
    "WolfHsm.Props.C62_starts_partial",
    "WolfHsm.Props.C62_add_partial",
    "WolfHsm.Props.F_C62_overwrite",
    "WolfHsm.Props.F_C62_stat",
    "WolfHsm.Props.F_C62_shrink",
    "WolfHsm.Props.F_C62_killed_twice",
    "WolfHsm.Props.F_C62_log_bricked"
   ],
   "note": "The driver calls are proved in full. The kill-safety part is proved when an erase or write interrupted by a kill ends on a multiple of 8 bytes; at byte granularity it is false (F_C62_killed_twice, F_C62_log_bricked)."
  },
  {
   "property": "C63",
   "status": "partial",
   "theorems": [
    "WolfHsm.Props.C63_channel_partial",
    "WolfHsm.Props.C63_pair_partial",
    "WolfHsm.Props.C63_connects",
    "WolfHsm.Props.C63_dma_inside",
    "WolfHsm.Props.C63_dma_read",
    "WolfHsm.Props.C63_dma_write",
    "WolfHsm.Props.C63_dma_block",
    "WolfHsm.Props.F_C63_two_clients",
    "WolfHsm.Props.F_C63_wiped",
    "WolfHsm.Props.F_C63_unlinks_other",
    "WolfHsm.Props.F_C63_no_reconnect",
    "WolfHsm.Props.F_C63_dma_null",
    "WolfHsm.Props.F_C63_dma_last"
   ],
   "note": "Channel and pairing proved for all interleavings of any number of servers and clients, kills and failures, as long as no client opens the object while another one is connecting (otherwise false: F_C63_two_clients, F_C63_wiped). Reaching a server again after its client died is false (F_C63_no_reconnect, F_C63_unlinks_other). Missing: process ids and the connect callback."
  },
  {
   "property": "C64",
   "status": "partial",
   "theorems": [
    "WolfHsm.Props.C64_stored_key",
    "WolfHsm.Props.C64_ctr",
    "WolfHsm.Props.C64_ctr_round_trip",
    "WolfHsm.Props.C64_cbc",
    "WolfHsm.Props.C64_cbc_round_trip",
    "WolfHsm.Props.C64_cmac_partial",
    "WolfHsm.Props.C64_cmac_call_partial",
    "WolfHsm.Props.F_C64_cmac_two_keys",
    "WolfHsm.Props.F_C64_cmac_retry",
    "WolfHsm.Props.F_C64_short_tag",
    "WolfHsm.Props.F_C64_cmac_size_dependent"
   ],
   "note": "Counter mode and CBC in full, for all cuts, keys given or stored, lost requests and changes on the server. CMAC for histories with one key, and for wh_Client_Cmac calls in which the key is not given again in the middle of a message; the findings show why the rest is false (two keys, retry after a failed second request, short output buffer, dependence on the size of the last piece). The library is assumed to work block by block; the DMA variants are not part of this property."
  },
  {
   "property": "C65",
   "status": "partial",
   "theorems": [
    "WolfHsm.Props.C65_refines",
    "WolfHsm.Props.C65_reply",
    "WolfHsm.Props.C65_handled",
    "WolfHsm.Props.C65_device",
    "WolfHsm.Props.C65_once_partial",
    "WolfHsm.Props.C65_once_server_partial",
    "WolfHsm.Props.C65_once_device_partial",
    "WolfHsm.Props.C65_completes_partial",
    "WolfHsm.Props.C65_fair_partial",
    "WolfHsm.Props.C65_crypto",
    "WolfHsm.Props.F_C65_executed_again",
    "WolfHsm.Props.F_C65_stuck"
   ],
   "note": "Every response is that of one execution of the request asked last, and nothing else is executed: in full, for all interleavings. At most once: when the response fits the shared buffer, which is shown for the handlers of wolfHSM with buffers that take the longest packet; F_C65_executed_again shows that it is false otherwise. Completion: for one side after the other within a given number of steps (C65_completes_partial), and for every fair interleaving of the two sides, with other contexts changing the device meanwhile (C65_fair_partial); both with packets that fit both sides: F_C65_stuck shows that completion is false when the client's packets are longer than the server's."
  },
  {
   "property": "C66",
   "status": "partial",
   "theorems": [
    "WolfHsm.Props.C66_packets_partial",
    "WolfHsm.Props.C66_server_verified",
    "WolfHsm.Props.C66_client_verified",
    "WolfHsm.Props.C66_request_sent",
    "WolfHsm.Props.C66_request_received",
    "WolfHsm.Props.C66_response_sent",
    "WolfHsm.Props.C66_response_received",
    "WolfHsm.Props.F_C66_other_packet",
    "WolfHsm.Props.F_C66_other_longer",
    "WolfHsm.Props.F_C66_cut",
    "WolfHsm.Props.F_C66_long",
    "WolfHsm.Props.F_C66_no_next_client",
    "WolfHsm.Props.F_C66_never_told",
    "WolfHsm.Props.F_C66_reset"
   ],
   "note": "Whole, once, in order: for packets of at most WH_COMM_MTU bytes, records that take a packet, and senders who come back with the same packet when told to (each shown necessary by a finding). Verification of the peer in full, for certificates; pre-shared keys are not modelled. The last sentence is false: F_C66_no_next_client, F_C66_never_told. wolfSSL is not in /repo; what is assumed of it is stated in Model/Tls.lean."
  },
  {
   "property": "C67",
   "status": "partial",
   "theorems": [
    "WolfHsm.Props.C67_refines",
    "WolfHsm.Props.C67_sent",
    "WolfHsm.Props.C67_reply",
    "WolfHsm.Props.C67_device",
    "WolfHsm.Props.C67_refused_partial",
    "WolfHsm.Props.C67_completes_partial",
    "WolfHsm.Props.F_C67_stuck",
    "WolfHsm.Props.F_C67_done_but_refused"
   ],
   "note": "Proved for all histories of calls: a request reported as sent was handled once in that call, the response received is its response. Missing because the code does not do it: a refused request whose response is too long for the client has been handled (F_C67_done_but_refused); after giving up on a response no request can be made until the client is opened again (F_C67_stuck). The veneer is not in the repository; it is modelled as README.md and the header describe it."
  },
  {
   "property": "C68",
   "status": "proved",
   "theorems": [
    "WolfHsm.Props.C68_one_at_a_time",
    "WolfHsm.Props.C68_released",
    "WolfHsm.Props.C68_story",
    "WolfHsm.Props.C68_paired",
    "WolfHsm.Props.F_C68_no_lock",
    "WolfHsm.Props.F_C68_opened_twice"
   ],
   "note": "With a lock configured, for every backend and schedule. Pairing assumes that the application does not set up a key store that is open; F_C68_opened_twice shows why."
  },
  {
   "property": "C69",
   "status": "partial",
   "theorems": [
    "WolfHsm.Props.C69_all_answered_partial",
    "WolfHsm.Props.C69_no_deadlock_partial",
    "WolfHsm.Props.C69_released_partial",
    "WolfHsm.Props.C69_handler_steps",
    "WolfHsm.Props.C69_handlers",
    "WolfHsm.Props.C69_order_needed"
   ],
   "note": "Proved for all requests that take locks at the places of the table `site`, all schedules and failures; for the counter, storage, key and certificate handlers of C46 after an authorization check the conformance is derived (C69_handlers). Missing: the inner locks of the hardware key store and the verify cache, and the requests of the authentication manager, conform by reading the code, not by handler models; and an answer can be given, but no bound on waiting is claimed (POSIX mutexes do not promise fairness)."
  },
  {
   "property": "C70",
   "status": "partial",
   "theorems": [
    "WolfHsm.Props.C70_printed",
    "WolfHsm.Props.C70_readable_partial",
    "WolfHsm.Props.C70_within",
    "WolfHsm.Props.C70_never_fails",
    "WolfHsm.Props.F_C70_forged"
   ],
   "note": "Reading back needs fields without the bytes that end them (no newline in messages, no colon in file names, no bracket in function names) and a known level; without that it is false (F_C70_forged)."
  },
  {
   "property": "C71",
   "status": "partial",
   "theorems": [
    "WolfHsm.Props.C71_serial_partial",
    "WolfHsm.Props.C71_one_login",
    "WolfHsm.Props.F_C71_two_locks"
   ],
   "note": "Proved for all requests of the authentication manager (logins, logouts, additions, look-ups, deletions and changes of users, checks of what is allowed, clearing a session) on connections that share one lock. False for contexts with locks of their own, since the table of users is shared (F_C71_two_locks). Missing: checking credentials, storing and checking what is allowed are one access each."
  }
 ]
}
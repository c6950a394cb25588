{"id": "C01", "title": "Adding an NVM object is atomic under power loss", "statement": "If power is lost at any moment while wh_Nvm_AddObject (flash backend) is running, then after the next successful wh_Nvm_Init every object id reads back exactly what it read before the call, except that the id being added may instead read back exactly the complete new metadata and data. No third outcome is possible.", "quantifier": "every reachable flash content, every object (id, flags, label, data of any length), every crash point between or inside flash commands (each unit of a torn command independently written or not)", "why_tests_cant": "A test can only cut power at the points and with the contents it enumerates; the claim is over all interleavings of unit writes and all prior contents.", "anchors": ["src/wh_nvm_flash.c:wh_NvmFlash_AddObject", "src/wh_nvm_flash.c:nfObject_Program", "src/wh_nvm_flash.c:nfMemDirectory_Parse"]}
{"id": "C02", "title": "Destroying objects (and reclaiming space) is atomic under power loss", "statement": "If power is lost at any moment during wh_Nvm_DestroyObjects (including the compaction that moves every survivor to the other partition), then after the next wh_Nvm_Init either every id reads as before the call, or every listed id is gone and every other id reads exactly as before.", "quantifier": "every reachable flash content, every list of ids, every crash point, every torn erase/program", "why_tests_cant": "Compaction copies every live object; exhaustive power-cut testing over contents x cut points is impossible.", "anchors": ["src/wh_nvm_flash.c:wh_NvmFlash_DestroyObjects", "src/wh_nvm_flash.c:nfObject_Copy", "src/wh_nvm_flash.c:wh_NvmFlash_Init"]}
{"id": "C03", "title": "The flash NVM behaves as a map from id to (metadata, bytes)", "statement": "For every sequence of AddObject, DestroyObjects, Read, GetMetadata, List and re-Init calls, the results equal those of a plain map: a successful add binds the id to exactly the supplied metadata and bytes, a later add replaces it, destroy unbinds, read returns exactly the requested slice of the latest bytes, and nothing else changes.", "quantifier": "all call sequences of any length, all ids, offsets, lengths and contents", "why_tests_cant": "The state space of histories is unbounded; tests sample a few short ones.", "anchors": ["src/wh_nvm_flash.c", "src/wh_nvm.c"]}
{"id": "C04", "title": "A failed add or destroy does not corrupt what is stored", "statement": "If AddObject or DestroyObjects returns an error because of a flash fault or lack of space, every id other than those named keeps its value, and a named id reads either its old value or the value the successful call would have given it, both immediately and after re-Init.", "quantifier": "every state, every call, every position at which a flash command reports failure", "why_tests_cant": "Fault injection cannot cover every command position in every state.", "anchors": ["src/wh_nvm_flash.c:wh_NvmFlash_AddObject", "src/wh_nvm_flash.c:wh_NvmFlash_DestroyObjects"]}
{"id": "C05", "title": "Listing visits every matching object exactly once", "statement": "Iterating wh_Nvm_List from the start id by feeding back each returned id visits each live object once, reports the right remaining count, and terminates.", "quantifier": "every set of live objects and every insertion/replacement history", "why_tests_cant": "Requires all directory layouts (with superseded duplicates and holes), not a few samples.", "anchors": ["src/wh_nvm_flash.c:wh_NvmFlash_List", "src/wh_nvm.c:wh_Nvm_List"]}
{"id": "C06", "title": "Space accounting is exact", "statement": "The space and object counts reported by wh_Nvm_GetAvailable are sound: an add that fits in the reported available space and objects does not fail for lack of space, an add that does not fit is refused without any effect, and a reclaim makes exactly the reported reclaimable space and objects available.", "quantifier": "every reachable directory and every size", "why_tests_cant": "An off-by-one only shows at the exact boundary of an arbitrary fill history.", "anchors": ["src/wh_nvm_flash.c:wh_NvmFlash_GetAvailable", "src/wh_nvm.c:wh_Nvm_AddObjectWithReclaim"]}
{"id": "C07", "title": "Byte-granular flash access round-trips and never exceeds its range", "statement": "Programming any byte string through the unit layer at a unit-aligned offset of blank flash and reading any sub-range back returns exactly those bytes; bytes outside the rounded-up range are not touched; a unit program whose target is not blank or not in range is refused unchanged; byte programming never changes a byte that was not erased and reports success only if the whole target range was blank.", "quantifier": "all offsets, sizes, contents", "why_tests_cant": "Partial first/last units give a two-dimensional space of alignments and sizes.", "anchors": ["src/wh_flash_unit.c", "src/wh_flash_ramsim.c"]}
{"id": "C08", "title": "The log-structured flash NVM is a crash-atomic map", "statement": "With the flash-log backend every history of add/destroy/read behaves as a map from id to (metadata, bytes), an update is atomic under power loss, and a rejected call leaves the visible contents unchanged.", "quantifier": "all histories, contents and crash points", "why_tests_cant": "Unbounded histories and crash points.", "anchors": ["src/wh_nvm_flash_log.c"]}
{"id": "C09", "title": "Non-modifiable objects are immutable to clients", "statement": "Once an object carries the NONMODIFIABLE flag, no sequence of policy-checked NVM requests changes its bytes or metadata or removes it.", "quantifier": "all histories of checked add/destroy/read requests by any clients", "why_tests_cant": "Policy must survive every sequence, including replace-then-destroy combinations.", "anchors": ["src/wh_nvm.c:wh_Nvm_CheckPolicy", "src/wh_nvm.c:wh_Nvm_AddObjectChecked", "src/wh_nvm.c:wh_Nvm_DestroyObjectsChecked", "src/wh_server_nvm.c", "src/wh_server_cert.c:wh_Server_CertEraseTrusted"]}
{"id": "C10", "title": "Non-exportable objects cannot be read by clients", "statement": "No policy-checked NVM read ever returns bytes of an object whose current metadata carries NONEXPORTABLE.", "quantifier": "all histories and all (id, offset, length) reads", "why_tests_cant": "All offsets/lengths and all histories.", "anchors": ["src/wh_nvm.c:wh_Nvm_ReadChecked", "src/wh_server_nvm.c:_HandleNvmRead"]}
{"id": "C11", "title": "Clients can neither create nor touch trusted (server-only) objects", "statement": "No sequence of client NVM or key requests results in an object or key with the TRUSTED flag that the server did not provision itself, and no such sequence changes, destroys, reads or exports a provisioned trusted object or key.", "quantifier": "all request histories", "why_tests_cant": "Every flag path (cache, cache-DMA, NVM add, unwrap, cert) must sanitise; tests cover the paths somebody thought of.", "anchors": ["src/wh_nvm.c:wh_Nvm_AddObjectChecked", "src/wh_server_keystore.c:_SanitizeClientFlags", "src/wh_server_keystore.c:_KeystoreCheckPolicy"]}
{"id": "C12", "title": "Non-destroyable objects stay", "statement": "An object with the NONDESTROYABLE flag is never removed and never loses that flag by any sequence of checked NVM requests.", "quantifier": "all histories", "why_tests_cant": "Needs sequences mixing overwrite and destroy.", "anchors": ["src/wh_nvm.c:wh_Nvm_CheckPolicy", "src/wh_nvm.c:wh_Nvm_DestroyObjectsChecked"]}
{"id": "C13", "title": "Key id translation isolates clients and round-trips", "statement": "The internal key name the server derives from a client-supplied key id is the same for two (client, id) pairs only if both name the same client's key or both ask for the global namespace; translating back returns the same id and flags the client used.", "quantifier": "all client ids 1..15, all 16-bit client key ids, all key types", "why_tests_cant": "65536 x 15 x 6 combinations with config options; a theorem covers all and composes with histories.", "anchors": ["src/wh_keyid.c:wh_KeyId_TranslateFromClient", "src/wh_keyid.c:wh_KeyId_TranslateToClient"]}
{"id": "C14", "title": "A client's key requests never affect another client's keys", "statement": "For every history of key-management requests by one client, every non-global key of every other client (cached or committed) keeps its existence, bytes, and metadata.", "quantifier": "all histories of all key-group requests by all clients", "why_tests_cant": "Interference through shared caches and NVM depends on history.", "anchors": ["src/wh_server_keystore.c:wh_Server_HandleKeyRequest"]}
{"id": "C15", "title": "Non-exportable key material never leaves through key requests", "statement": "A key whose flags carry NONEXPORTABLE is never returned by key export, export-DMA, or unwrap-and-export, whatever sequence of requests preceded it, and caching requests cannot clear the flag while keeping the bytes.", "quantifier": "all histories of key requests", "why_tests_cant": "Export paths x flag-changing histories.", "anchors": ["src/wh_server_keystore.c:_KeystoreCheckPolicy", "src/wh_server_keystore.c:wh_Server_KeystoreReadKeyChecked", "src/wh_server_keystore.c:_HandleKeyUnwrapAndExportRequest"]}
{"id": "C16", "title": "Generated unique key ids are fresh", "statement": "An id handed out by the server for an unassigned key does not name any existing cached or stored key of that client, and when no id is free the request is refused without effect.", "quantifier": "all cache and NVM contents", "why_tests_cant": "Depends on every combination of cache and NVM occupancy.", "anchors": ["src/wh_server_keystore.c:wh_Server_KeystoreGetUniqueId"]}
{"id": "C17", "title": "Uncommitted keys are never silently evicted", "statement": "Caching, reading or generating a key never removes another key from the cache unless an identical committed copy is in NVM.", "quantifier": "all cache contents and sequences of requests", "why_tests_cant": "Eviction order depends on the full history of the cache.", "anchors": ["src/wh_server_keystore.c:_GetKeyCacheSlot"]}
{"id": "C18", "title": "The key cache and NVM are coherent", "statement": "Through any sequence of cache, commit, evict, read, erase and restart, a committed key reads the same bytes and metadata before eviction, after eviction and after restart; an erased key reads as absent.", "quantifier": "all histories including restarts", "why_tests_cant": "Interleavings of eviction and reload.", "anchors": ["src/wh_server_keystore.c:wh_Server_KeystoreCommitKey", "src/wh_server_keystore.c:wh_Server_KeystoreReadKey", "src/wh_server_keystore.c:wh_Server_KeystoreFreshenKey"]}
{"id": "C19", "title": "Revocation is permanent", "statement": "Once a key revocation has been reported successful, no later sequence of client requests, evictions or restarts makes the key usable for any operation or modifiable again.", "quantifier": "all histories after the revocation, including restarts and NVM write failures", "why_tests_cant": "Needs failure + retry + restart histories.", "anchors": ["src/wh_server_keystore.c:wh_Server_KeystoreRevokeKey"]}
{"id": "C20", "title": "Key usage flags are enforced", "statement": "A cryptographic request that uses a stored key for an operation (encrypt, decrypt, sign, verify, wrap, derive) proceeds only if the key carries the corresponding usage flag, and otherwise key bytes are not left in the output buffer.", "quantifier": "all keys, flag combinations and operations", "why_tests_cant": "Full flag/operation matrix over all key states.", "anchors": ["src/wh_server_keystore.c:wh_Server_KeystoreEnforceKeyUsage", "src/wh_server_keystore.c:wh_Server_KeystoreReadKeyEnforce"]}
{"id": "C21", "title": "Key wrap/unwrap round-trips and authenticates", "statement": "Unwrapping a blob produced by the server under the same KEK returns the same key bytes and metadata; a blob is accepted into the cache only if it authenticates under a trusted KEK, names the requesting client (or global), has a consistent length, and its flags are stripped of server-only bits.", "quantifier": "all keys, metadata, blobs, KEKs (AES-GCM abstract)", "why_tests_cant": "All blobs an attacker may craft.", "anchors": ["src/wh_server_keystore.c:_HandleKeyWrapRequest", "src/wh_server_keystore.c:_HandleKeyUnwrapAndCacheRequest"]}
{"id": "C22", "title": "Counters never go backwards and never wrap", "statement": "Between resets, the value returned for a counter never decreases over any sequence of increment and read requests by any clients and restarts; increments add exactly one until 0xFFFFFFFF and then stay there; different clients' counters and distinct counter ids do not interfere.", "quantifier": "all histories of counter requests, including restarts", "why_tests_cant": "2^32 increments; interleavings of clients.", "anchors": ["src/wh_server_counter.c:wh_Server_HandleCounter"]}
{"id": "C23", "title": "A response is only ever delivered for the request it answers", "statement": "Whatever the network delivers (stale, duplicated, reordered packets), wh_CommClient_RecvResponse returns data only from a packet carrying the sequence number of the one outstanding request, and at most one response per request.", "quantifier": "all packet delivery schedules within a 65536-request window", "why_tests_cant": "All interleavings of stale packets.", "anchors": ["src/wh_comm.c:wh_CommClient_RecvResponse", "src/wh_comm.c:wh_CommClient_SendRequest"]}
{"id": "C24", "title": "The shared-memory transport neither loses, duplicates nor mixes messages", "statement": "Under every interleaving of the client's and the server's individual memory accesses, the server receives exactly the bytes of each request once and in order, and the client receives exactly the server's response to its outstanding request.", "quantifier": "all interleavings of client and server steps, unbounded numbers of messages (counter wrap included)", "why_tests_cant": "Schedules of concurrent memory accesses cannot be enumerated by tests.", "anchors": ["src/wh_transport_mem.c"]}
{"id": "C25", "title": "Messages mean the same on both byte orders", "statement": "Translating a message for the peer's byte order and back yields the original, and client and server of opposite endianness exchange the same field values.", "quantifier": "all 16/32/64-bit values and magics", "why_tests_cant": "2^64 values.", "anchors": ["src/wh_comm.c:wh_Translate16", "src/wh_utils.c:wh_Utils_Swap64", "src/wh_message_comm.c"]}
{"id": "C26", "title": "A request that gets no answer times out", "statement": "With a response timeout configured and started, a client polling for a response whose answer never arrives is told WH_ERROR_TIMEOUT once the period has passed, no matter what stale packets arrive meanwhile, and can send again afterwards.", "quantifier": "all packet schedules and clock readings", "why_tests_cant": "Schedules.", "anchors": ["src/wh_comm.c:wh_CommClient_RecvResponse", "src/wh_timeout.c", "port/posix/posix_timeout.c"]}
{"id": "C27", "title": "The server answers every request exactly once", "statement": "Each successfully received request leads to exactly one sent response with the same kind and sequence number, for every group and action including unknown, malformed and unauthorised ones.", "quantifier": "all requests", "why_tests_cant": "All 65536 kinds and all packet contents.", "anchors": ["src/wh_server.c:wh_Server_HandleRequestMessage"]}
{"id": "C28", "title": "Unauthenticated clients can only connect or log in", "statement": "While no user is logged in, every request other than the communication group and login is refused and has no effect on keys, NVM, counters or users.", "quantifier": "all requests and histories", "why_tests_cant": "All (group, action) pairs and histories.", "anchors": ["src/wh_auth.c:wh_Auth_CheckRequestAuthorization", "src/wh_server.c:wh_Server_HandleRequestMessage"]}
{"id": "C29", "title": "Users cannot escalate privileges", "statement": "A logged-in non-admin user can never create a user with a permission, key id or admin right they do not hold, nor delete users or change permissions of anyone, over any history.", "quantifier": "all permission sets and histories", "why_tests_cant": "Bit-level subset reasoning over 8x256 action bits.", "anchors": ["src/wh_auth.c:wh_Auth_UserAdd", "src/wh_auth_base.c:wh_Auth_BaseUserSetPermissions", "src/wh_auth_base.c:wh_Auth_BaseUserDelete"]}
{"id": "C30", "title": "Access ends when the session or user ends", "statement": "After logout, disconnect, deletion of the user or removal of a permission, no request relying on it is authorised.", "quantifier": "all histories and sessions", "why_tests_cant": "Multi-session histories.", "anchors": ["src/wh_auth.c:wh_Auth_Logout", "src/wh_auth.c:wh_Auth_UserAdd", "src/wh_auth.c:wh_Auth_UserGet", "src/wh_auth.c:wh_Auth_UserDelete", "src/wh_auth.c:wh_Auth_UserSetPermissions", "src/wh_server.c:wh_Server_SetConnected"]}
{"id": "C31", "title": "The user database survives restarts and failures unchanged", "statement": "For every history of user management calls, a restart reproduces the same users, permissions and credentials; a call that fails to persist has no effect; a power cut leaves the old or the new database.", "quantifier": "all histories, NVM failure positions, crash points", "why_tests_cant": "Failure positions x histories.", "anchors": ["src/wh_auth_base.c"]}
{"id": "C32", "title": "Login and credential change require the current credentials", "statement": "A login succeeds only for an existing, inactive user with matching method and credentials; a non-admin credential change succeeds only if the current credentials are presented.", "quantifier": "all users, credentials and histories", "why_tests_cant": "All inputs.", "anchors": ["src/wh_auth_base.c:wh_Auth_BaseLogin", "src/wh_auth_base.c:wh_Auth_BaseUserSetCredentials"]}
{"id": "C33", "title": "SHE commands are gated by UID and secure boot", "statement": "No SHE command other than status and set-UID has any effect before the UID is set, and no key-using SHE command has any effect before secure boot completed, over all command sequences.", "quantifier": "all command sequences", "why_tests_cant": "All sequences.", "anchors": ["src/wh_server_she.c:_ReportInvalidSheState", "src/wh_server_she.c:wh_Server_HandleSheRequest"]}
{"id": "C34", "title": "SHE secure boot succeeds only on a matching MAC", "statement": "Secure boot reports success only if the CMAC of exactly the announced number of bootloader bytes equals the stored boot MAC, or no boot MAC key is provisioned.", "quantifier": "all bootloader contents, chunkings and command sequences", "why_tests_cant": "All chunkings and sequences.", "anchors": ["src/wh_server_she.c:_SecureBootInit", "src/wh_server_she.c:_SecureBootUpdate", "src/wh_server_she.c:_SecureBootFinish"]}
{"id": "C35", "title": "SHE key updates cannot be replayed or rolled back", "statement": "Over all histories of SHE key-load requests, the counter stored with a key slot strictly increases with each accepted update, an accepted update never is accepted again, and a rejected update changes nothing.", "quantifier": "all histories of SHE load-key messages", "why_tests_cant": "Histories.", "anchors": ["src/wh_server_she.c:_LoadKey"]}
{"id": "C36", "title": "Write-protected SHE keys never change", "statement": "Once a key slot is write protected no SHE load-key request changes it.", "quantifier": "all histories", "why_tests_cant": "Histories.", "anchors": ["src/wh_server_she.c:_LoadKey"]}
{"id": "C37", "title": "SHE key flags requested by the generator are the flags the loader stores", "statement": "Loading the M1/M2/M3 messages produced by wh_She_GenerateLoadableKey for (count, flags) stores exactly that count and those flags.", "quantifier": "all counts below 2^28 and all 5-bit flags", "why_tests_cant": "All combinations.", "anchors": ["src/wh_she_crypto.c:wh_She_GenerateLoadableKey", "src/wh_server_she.c:_PopFlags"]}
{"id": "C38", "title": "Only plainly loaded SHE RAM keys can be exported", "statement": "SHE RAM-key export succeeds only if the RAM key currently held was loaded by the plain-key command.", "quantifier": "all command sequences", "why_tests_cant": "Sequences.", "anchors": ["src/wh_server_she.c:_ExportRamKey", "src/wh_server_she.c:_LoadPlainKey"]}
{"id": "C39", "title": "DMA stays inside the allow list", "statement": "With an allow list configured, a client memory range is accepted only if it lies entirely inside a single listed region, without address wrap-around; the direction of access is respected.", "quantifier": "all addresses, sizes and lists", "why_tests_cant": "2^64 x 2^64 ranges.", "anchors": ["src/wh_dma.c", "src/wh_server_dma.c"]}
{"id": "C40", "title": "Constant-time helpers compute what they claim", "statement": "wh_Utils_ConstantCompare returns 0 exactly when the buffers are equal; wh_Utils_memeqzero exactly when all bytes are zero; byte swaps are involutions; the CRC of a concatenation equals the CRC computed in chunks.", "quantifier": "all buffers", "why_tests_cant": "All lengths and contents.", "anchors": ["src/wh_utils.c"]}
{"id": "C41", "title": "The log ring buffer keeps the newest entries in order", "statement": "After any sequence of adds and clears, iterating yields exactly the last min(n, capacity) entries added since the last clear, oldest first, and stops exactly when the callback asks.", "quantifier": "all histories, all capacities", "why_tests_cant": "Histories longer than the capacity; counter wrap.", "anchors": ["src/wh_log_ringbuf.c"]}
{"id": "C42", "title": "The certificate verify cache never weakens verification", "statement": "A certificate is accepted through the verify cache only if an earlier full verification succeeded against a subset of the currently trusted roots that have not been replaced or erased since.", "quantifier": "all histories of add/erase/verify/cache-clear requests", "why_tests_cant": "Histories.", "anchors": ["src/wh_server_cert.c:wh_Server_CertVerifyCache_Lookup", "src/wh_server_cert.c:wh_Server_CertVerifyCache_EvictRoot", "src/wh_server_cert.c:wh_Server_CertAddTrusted"]}
{"id": "C43", "title": "Image header parsing is memory safe and what is verified is what was hashed", "statement": "For every header content and size, scanning a wolfBoot header terminates, never reads outside the header, and a returned field lies inside it; an accepted image's hash covers the whole payload of the size the header declares.", "quantifier": "all header bytes, sizes and field types", "why_tests_cant": "All byte strings.", "anchors": ["src/wh_server_img_mgr.c:_wolfBootImgFindHeaderField", "src/wh_server_img_mgr.c:_wolfBootImgValidateAndHash", "src/wh_server_img_mgr.c:_wolfBootImgDecodeRsaDigestInfo"]}
{"id": "C44", "title": "Malformed requests never make the server read past the message", "statement": "For every request packet and received size, variable-length fields used by the request handlers lie inside the received bytes; otherwise the request is refused without effect.", "quantifier": "all packets and sizes", "why_tests_cant": "All byte strings and lengths (integer wrap-around included).", "anchors": ["src/wh_message_auth.c", "src/wh_server_nvm.c", "src/wh_server_keystore.c", "src/wh_server_crypto.c"]}
{"id": "C45", "title": "Permission serialisation round-trips", "statement": "A permission set flattened by one side and unflattened by the other is the same set (with the key id list clamped to its count), and a truncated buffer is refused.", "quantifier": "all permission sets", "why_tests_cant": "2^2000 permission sets.", "anchors": ["src/wh_message_auth.c:wh_MessageAuth_FlattenPermissions", "src/wh_message_auth.c:wh_MessageAuth_UnflattenPermissions"]}
{"id": "C46", "title": "The NVM lock is held for every storage operation and always released", "statement": "Every key, NVM, counter and certificate request releases the server lock on every path, never acquires it twice, and with a lock configured requests on different server contexts are serialised: each behaves as if executed alone.", "quantifier": "all requests and all schedules of server contexts", "why_tests_cant": "Schedules.", "anchors": ["src/wh_lock.c", "src/wh_server.c:wh_Server_NvmLock", "src/wh_server_nvm.c", "src/wh_server_counter.c"]}
{"id": "C47", "title": "Non-modifiable keys survive key requests", "statement": "A key stored with the NONMODIFIABLE flag keeps its bytes, label and owner through every sequence of key and NVM requests, evictions, failed NVM writes and restarts; the only change a client can make is to revoke it.", "quantifier": "all histories of key and NVM requests by any clients at any server contexts, with NVM failures and restarts", "why_tests_cant": "Histories mix cache, commit, revoke, erase, NVM requests and failures; tests cover a few.", "anchors": ["src/wh_server_keystore.c:_KeystoreCheckPolicy", "src/wh_server_keystore.c:wh_Server_KeystoreCommitKey", "src/wh_server_keystore.c:wh_Server_KeystoreRevokeKey"]}
{"id": "C48", "title": "A one-time signature index is used at most once", "statement": "Every signature a client gets from an LMS or XMSS key kept by the server uses an index no earlier signature of that key used, the advanced private state is stored before the request succeeds, and a failed sign request returns no signature. Generated keys are committed, non-exportable and cannot be brought in by clients.", "quantifier": "all histories of key, NVM, key generation, sign and verify requests with NVM failures, power cuts and restarts", "why_tests_cant": "One repeated index breaks the key; it depends on every interleaving of signing, eviction, failures and power loss.", "anchors": ["src/wh_server_crypto.c:_HandleLmsSignDma", "src/wh_server_crypto.c:_HandleXmssSignDma", "src/wh_server_crypto.c:_LmsSlotWriteCb", "src/wh_server_crypto.c:_HandleLmsKeyGenDma", "src/wh_crypto.c:wh_Crypto_IsStatefulSigPrivBlob", "src/wh_crypto.c:wh_Crypto_LmsDeserializeKey"]}
{"id": "C49", "title": "An accepted image is genuine with respect to the configured key", "statement": "The image manager accepts a firmware image only if it is authenticated by the key (or the certificate chain anchored in the root) the server holds under the ids configured for that image, over the whole payload. A verification that ends with an error leaves a result that says neither method nor action succeeded, unconfigured images are never accepted, and verifying a table reports the verdict of every image at its own index. A key provisioned NONMODIFIABLE and NONDESTROYABLE is the key that decides, whatever clients do.", "quantifier": "all images, headers, keys, signatures and all histories of key, NVM, certificate and image events, NVM failures, power cuts and restarts", "why_tests_cant": "Images and histories are unbounded; whether a client can get its own key or root in place depends on their interleaving.", "anchors": ["src/wh_server_img_mgr.c:wh_Server_ImgMgrVerifyImg", "src/wh_server_img_mgr.c:wh_Server_ImgMgrVerifyAll", "src/wh_server_img_mgr.c:wh_Server_ImgMgrVerifyImgIdx", "src/wh_server_img_mgr.c:wh_Server_ImgMgrInit", "src/wh_server_img_mgr.c:wh_Server_ImgMgrVerifyMethodWolfBootCertChainRsa4096WithSha256"]}
{"id": "C50", "title": "Services on the flash NVM behave as on an atomic object map", "statement": "Whatever clients of a server with flash NVM observe, through flash errors, power losses between any two flash writes and interrupted boots, they could also observe from the same requests and power cycles on an object map whose calls succeed, fail or are cut off atomically; at the end the flash shows exactly the objects of that map. So what holds of the request handlers on the map holds on the flash: for example, a counter never goes backwards.", "quantifier": "all histories of requests and power cycles, all crash points, all flash faults, any request handler built from the NVM API", "why_tests_cant": "Crash points, faults and request histories multiply; no test enumerates their combinations.", "anchors": ["src/wh_nvm.c:wh_Nvm_AddObjectWithReclaim", "src/wh_nvm_flash.c:wh_NvmFlash_AddObject", "src/wh_nvm_flash.c:wh_NvmFlash_DestroyObjects", "src/wh_nvm_flash.c:wh_NvmFlash_Init", "src/wh_server_counter.c:wh_Server_HandleCounter", "src/wh_server_nvm.c:wh_Server_HandleNvmRequest"]}
{"id": "C51", "title": "Keys made on the server stay on the server, under the id and flags asked for", "statement": "When a request to generate a key, agree on a secret or derive a key without the ephemeral flag succeeds, the key computed from exactly the keys the client named is in the key store under the id returned, with the label and flags asked for (less the flags only the server may set); the id is the one asked for or one that named no key before; the response and client memory carry at most the public part of the key.", "quantifier": "all key generation, shared secret and key derivation requests, all states and all interleavings with requests at other server contexts", "why_tests_cant": "Depends on what other contexts do between the steps of the request, on cache contents and on every combination of flags and ids.", "anchors": ["src/wh_server_crypto.c:_HandleEccKeyGen", "src/wh_server_crypto.c:_HandleRsaKeyGen", "src/wh_server_crypto.c:_HandleMlDsaKeyGenDma", "src/wh_server_crypto.c:_HandleEccSharedSecret", "src/wh_server_crypto.c:_HandleHkdf", "src/wh_server_crypto.c:_HandleCmacKdf", "src/wh_server_keystore.c:wh_Server_KeystoreGetUniqueId"]}
{"id": "C52", "title": "Derived keys are the ones of the standards", "statement": "An HKDF or CMAC-KDF request that succeeds yields exactly the output of RFC 5869 or SP 800-56C for the input key, salt, information and length asked for, whether the inputs are in the request or in the key store.", "quantifier": "all inputs and output lengths the server accepts", "why_tests_cant": "Input and output share one buffer; whether one overwrites the other depends on all the lengths together.", "anchors": ["src/wh_server_crypto.c:_HandleHkdf", "src/wh_server_crypto.c:_HandleCmacKdf", "src/wh_server.c:wh_Server_HandleRequestMessage"]}
{"id": "C53", "title": "A protected object survives everything that reaches the device", "statement": "An object or key stored with the NONMODIFIABLE and NONDESTROYABLE flags (not an LMS or XMSS private key, whose state advances, and not in the id ranges of wrapped keys, SHE, counters and users, which have rules of their own) keeps its bytes and metadata, at most with its key usages revoked, through every sequence of packets of any message group and any content on any server contexts, connects, disconnects, failing NVM operations, losses of power and restarts, as long as the client does not change the memory of a DMA request while it is served. Cached copies agree with it.", "quantifier": "all histories of the whole server: packets of every group with arbitrary bytes on every context, connection events, NVM failures, power cuts and restarts", "why_tests_cant": "Each message group reaches the store through different code; the combinations of groups, contexts and failures are unbounded.", "anchors": ["src/wh_server.c:wh_Server_HandleRequestMessage", "src/wh_nvm.c:wh_Nvm_AddObjectChecked", "src/wh_nvm.c:wh_Nvm_DestroyObjectsChecked", "src/wh_server_keystore.c:_KeystoreCheckPolicy", "src/wh_server_cert.c:wh_Server_CertEraseTrusted", "src/wh_server_she.c:wh_Server_HandleSheRequest", "src/wh_server_counter.c:wh_Server_HandleCounter"]}
{"id": "C54", "title": "Only the authentication group changes what is stored about users", "statement": "The stored user index and credentials change only through requests of the authentication group, which require a login: no request of another group, however formed, no disconnect, loss of power or restart changes them.", "quantifier": "all histories of the whole server: packets with arbitrary bytes on every context, connection events, NVM failures, power cuts and restarts", "why_tests_cant": "Every other group works on the same NVM; that none of them reaches these objects is a statement about all their requests.", "anchors": ["src/wh_auth_base.c:wh_Auth_BaseUserAdd", "src/wh_nvm.c:wh_Nvm_AddObjectChecked", "src/wh_server_cert.c:wh_Server_CertEraseTrusted", "src/wh_server.c:wh_Server_HandleRequestMessage"]}
{"id": "C55", "title": "A hash computed through the server is the hash of the whole input", "statement": "When a client hashes with SHA-2 or SHA-3 through the server and all calls return OK, each digest is that of the concatenation of all input since the digest before, however the input was cut into calls and requests and whatever else the server did in between; if every request is answered no call fails; a call that fails takes none of its input in.", "quantifier": "all inputs, all ways to cut them into calls, all packet sizes, both byte orders on either side, all lost requests and responses", "why_tests_cant": "The client buffers part of a block and re-packs the rest for each request; whether bytes are lost or doubled depends on all chunk lengths and failures together.", "anchors": ["src/wh_client_crypto.c:wh_Client_Sha256UpdateRequest", "src/wh_client_crypto.c:wh_Client_Sha256UpdateResponse", "src/wh_client_crypto.c:wh_Client_Sha256FinalRequest", "src/wh_client_crypto.c:wh_Client_Sha256FinalResponse", "src/wh_client_crypto.c:wh_Client_Sha256", "src/wh_client_crypto.c:_Sha3Oneshot", "src/wh_server_crypto.c:_HandleSha256", "src/wh_server_crypto.c:_HandleSha512", "src/wh_message_crypto.c:wh_MessageCrypto_TranslateSha256Request"]}
{"id": "C56", "title": "A crypto call through the server is the operation on the server", "statement": "A crypto call of the client (AES, RSA, ECC, Curve25519, Ed25519, ML-DSA, ML-KEM, HKDF, CMAC) that passes the client's checks and fits a packet makes the server carry out the operation its arguments describe, with these keys, flags, labels and data, and gives the caller exactly the outcome: key id, lengths, output bytes, verdict, or the server's error. A call that does not fit a packet is refused and sends nothing.", "quantifier": "all calls of the crypto API without DMA, all arguments and lengths, all key store states, both byte orders on either side", "why_tests_cant": "Each call packs up to four variable-length fields behind a structure and the server finds them by adding lengths it was sent; that both sides agree is a statement about all lengths and both byte orders.", "anchors": ["src/wh_client_crypto.c:wh_Client_EccSign", "src/wh_client_crypto.c:wh_Client_AesGcm", "src/wh_client_crypto.c:wh_Client_RsaFunction", "src/wh_client_crypto.c:wh_Client_EccMakeCacheKey", "src/wh_client_crypto.c:wh_Client_MlDsaVerify", "src/wh_client_crypto.c:_HkdfMakeKey", "src/wh_client_crypto.c:_CmacKdfMakeKey", "src/wh_server_crypto.c:wh_Server_HandleCryptoRequest", "src/wh_message_crypto.c"]}
{"id": "C57", "title": "Random bytes are the server's, in full", "statement": "A successful request for any number of random bytes fills exactly that many bytes, each of them from the generator of the server and each drawn for this request only once; when every message is answered and the generator works, the request succeeds.", "quantifier": "all sizes, packet sizes, byte orders, and all failures of messages or of the generator", "why_tests_cant": "The client cuts the request to packet size and believes the length in each response; a gap or an overlap depends on all of these.", "anchors": ["src/wh_client_crypto.c:wh_Client_RngGenerate", "src/wh_client_crypto.c:wh_Client_RngGenerateRequest", "src/wh_client_crypto.c:wh_Client_RngGenerateResponse", "src/wh_server_crypto.c:_HandleRng"]}
{"id": "C58", "title": "SHE calls through the server; secure boot of an image in packets", "statement": "A SHE call of the client that passes the client's checks (IV of 16 bytes, output buffer large enough) returns what the command it stands for gives on the server in its present state - its output, or its SHE error code - and leaves the server as that command does; encryption followed by decryption gives back the whole blocks of the input. The secure boot call returns success only if the stored boot MAC is the CMAC, under the stored boot MAC key, of the length of the image and all of its bytes in order, whatever messages are lost and whatever other clients do in between; and if nothing fails it does succeed exactly then.", "quantifier": "all SHE calls and arguments, all reachable states of the server, both byte orders on either side, all images shorter than 2^32 bytes, all packet sizes, all failures of messages, locks and ciphers during a boot", "why_tests_cant": "The boot loader is cut into packets and the client looks at some codes late; that no lost, failed or interleaved request lets a wrong image pass is a statement about all of them.", "anchors": ["src/wh_client_she.c:wh_Client_SheSecureBoot", "src/wh_client_she.c:wh_Client_SheLoadKey", "src/wh_client_she.c:wh_Client_SheEncCbc", "src/wh_client_she.c:wh_Client_SheVerifyMac", "src/wh_server_she.c:wh_Server_HandleSheRequest", "src/wh_message_she.c"]}
{"id": "C59", "title": "Client buffers given away by DMA are mapped, kept and released in pairs", "statement": "Each buffer a DMA call of the client names in a request has been mapped by the client's DMA callback at that address and length before the request leaves, and stays mapped until the server has answered; each mapping is released once, with the address it was mapped to, also when mapping a second buffer, sending or receiving fails, so that nothing stays mapped when no request is pending and nothing is released that was not mapped; a call that reports success has handed back what the server wrote.", "quantifier": "all sequences of DMA and other calls of the client API (requests, polled responses, blocking calls), all buffers, all answers of the callback, the allow list and the transport at every step", "why_tests_cant": "The mappings live in one union shared by all pairs of request and response functions, and every function has its own cleanup; leaks and stray releases show only in particular orders of calls and failures.", "anchors": ["src/wh_client_dma.c:wh_Client_DmaProcessClientAddress", "src/wh_client_dma.c:wh_Client_DmaAsyncPre", "src/wh_client_dma.c:wh_Client_DmaAsyncPost", "src/wh_client_crypto.c:wh_Client_AesGcmDmaRequest", "src/wh_client_crypto.c:wh_Client_RngGenerateDmaRequest", "src/wh_client_nvm.c:wh_Client_NvmAddObjectDmaRequest", "src/wh_client.c:wh_Client_KeyExportDmaResponse", "src/wh_client_crypto.c:wh_Client_LmsSignDma"]}
{"id": "C60", "title": "A log file gives back what was logged", "statement": "After any history of opening, closing, logging and clearing a log kept in a file, iterating over it gives the callback exactly the entries that were logged successfully since the last clear, in order and each with its time, level, file, line, function and message, until the callback stops it; exporting it writes one line per entry. No message, whatever its bytes, makes the log show an entry that nobody logged.", "quantifier": "all histories of calls, all entries and messages, all failures of writes, all callbacks", "why_tests_cant": "Entries become lines of text and are parsed back with sscanf; whether a text breaks out of its field depends on all of its bytes.", "anchors": ["port/posix/posix_log_file.c:posixLogFile_AddEntry", "port/posix/posix_log_file.c:posixLogFile_Iterate", "port/posix/posix_log_file.c:posixLogFile_Export", "port/posix/posix_log_file.c:posixLogFile_Clear", "src/wh_log.c:wh_Log_AddMsg", "src/wh_log.c:wh_Log_AddMsgF"]}
{"id": "C61", "title": "Packets over TCP arrive whole, once and in turn", "statement": "On a TCP connection, however many bytes the sockets take and give in each call, and wherever calls are told to come back or fail: a receive that succeeds returns exactly the packet that the last successful send of the other side was given, each packet is received at most once, requests and responses take turns, and the transport never reads or writes outside its buffers; a packet whose sending goes on byte by byte is sent, and one that was sent is received, after at most as many calls as it has bytes plus four. A server whose client has gone takes the next one, and a client that gave up on a response can send its next request.", "quantifier": "all sequences of calls of both ends, all packets, all results of connect, accept, poll, send and read at every call", "why_tests_cant": "A packet may be cut anywhere, on both sides, in the length word too, and one buffer with one offset serves both directions; the cuts and orders are unbounded.", "anchors": ["port/posix/posix_transport_tcp.c:posixTransportTcp_Send", "port/posix/posix_transport_tcp.c:posixTransportTcp_Recv", "port/posix/posix_transport_tcp.c:posixTransportTcp_SendRequest", "port/posix/posix_transport_tcp.c:posixTransportTcp_RecvResponse", "port/posix/posix_transport_tcp.c:posixTransportTcp_RecvRequest", "port/posix/posix_transport_tcp.c:posixTransportTcp_SendResponse", "src/wh_comm.c:wh_CommClient_SendRequest"]}
{"id": "C62", "title": "Flash memory in a file behaves as flash memory, also when the process is killed", "statement": "Opening the file keeps what fits of its content and fills the rest with the erased byte; reading, programming, erasing, verifying and blank-checking do inside the two partitions what they say and nothing outside them, report success only when everything was done, and change nothing while the flash is locked. Objects stored in an NVM on top of the file give the same answers as on a flash device; a process killed at any point, also while it opens the file, leaves a file from which the next process starts and shows the store as before the interrupted call or as after it.", "quantifier": "all partition sizes, files, offsets, lengths and data, all failures of system calls, all histories of processes that open the file, add, destroy and are killed anywhere", "why_tests_cant": "Erasing writes the file one byte at a time, so that a killed process leaves states a flash device does not have; whether the store survives all of them is a statement about all cut points and histories.", "anchors": ["port/posix/posix_flash_file.c:posixFlashFile_Init", "port/posix/posix_flash_file.c:posixFlashFile_Program", "port/posix/posix_flash_file.c:posixFlashFile_Erase", "port/posix/posix_flash_file.c:posixFlashFile_BlankCheck", "port/posix/posix_flash_file.c:posixFlashFile_Verify", "src/wh_nvm_flash.c:wh_NvmFlash_AddObject", "src/wh_nvm_flash.c:wh_NvmFlash_DestroyObjects", "src/wh_nvm_flash_log.c:wh_NvmFlashLog_Init"]}
{"id": "C63", "title": "Processes that meet in shared memory talk in pairs", "statement": "However servers and clients that use one name of POSIX shared memory start, connect, talk, fail and are killed: on each shared object at most one server and one client ever exchange messages, a receive that succeeds gives the packet the other one sent last, each packet is received once and requests and responses take turns, and no access leaves the object. A client left alone with a server that has started connects to it, and a server can be reached again when its client has gone. With DMA through the shared area the server reads exactly the bytes of the client's buffer, what it writes shows in that buffer and nowhere else, and it never leaves the area whatever addresses the client sends.", "quantifier": "any number of servers and clients, all interleavings of their system calls and accesses to shared memory, all points where a process is killed or a system call fails, all buffer sizes, packets, addresses and lengths", "why_tests_cant": "The processes find each other through a name and a mark in the object, read and set in separate steps; which of the interleavings lose a packet or pair the wrong processes cannot be sampled.", "anchors": ["port/posix/posix_transport_shm.c:posixTransportShm_UseMap", "port/posix/posix_transport_shm.c:posixTransportShm_CreateMap", "port/posix/posix_transport_shm.c:posixTransportShm_HandleMap", "port/posix/posix_transport_shm.c:posixTransportShm_ServerInit", "port/posix/posix_transport_shm.c:posixTransportShm_RecvRequest", "port/posix/posix_transport_shm.c:posixTransportShm_ClientStaticMemDmaCallback", "port/posix/posix_transport_shm.c:posixTransportShm_ServerStaticMemDmaCallback"]}
{"id": "C64", "title": "A message handled in pieces gives what one call gives", "statement": "The outputs of a sequence of client calls on one AES object in counter or CBC mode, put together, are the standard encryption or decryption of the inputs put together, whatever way the message is cut and whichever calls in between fail; decrypting the outputs in any other pieces gives the message back. A MAC built from pieces by update and final, or in one call, is the CMAC of the pieces put together, with the key the caller brought or the key stored on the server, and after it the object starts a new message; a call that fails changes nothing, so that it can be made again.", "quantifier": "all messages, all ways to cut them into pieces, all keys (given or stored) and initial values, all lost or refused requests and states of the server between the calls", "why_tests_cant": "The state between two calls travels to the server and back and is kept in the caller's object; whether pieces continue each other depends on every cut, every key source and every failure in between.", "anchors": ["src/wh_client_crypto.c:wh_Client_AesCtr", "src/wh_client_crypto.c:wh_Client_AesCbc", "src/wh_client_crypto.c:wh_Client_CmacUpdateRequest", "src/wh_client_crypto.c:wh_Client_CmacFinalResponse", "src/wh_client_crypto.c:wh_Client_CmacGenerateRequest", "src/wh_client_crypto.c:wh_Client_Cmac", "src/wh_server_crypto.c:_HandleCmac", "src/wh_server_crypto.c:_HandleAesCtr"]}
{"id": "C65", "title": "A client gets what the device did with its request, once", "statement": "However the accesses of client and server to the shared buffers interleave, and whatever calls the client makes (sending, polling, giving up): every response a client gets is what the device answered to the request the client asked last, with exactly the kind and bytes it asked, handled on the state the device had by then; the device handles nothing a client has not asked, and handles each request at most once; and a client that asks, and lets a connected server and then itself run, gets its response.", "quantifier": "all sequences of calls of both sides, all interleavings of their accesses to shared memory, all requests, responses, byte orders, buffer and packet sizes, all states of the device and all changes others make to it", "why_tests_cant": "The claim joins four layers (framing, transport, dispatcher, handlers), each with its own state and failures; responses of abandoned requests, polls between two accesses, and packets one side cannot hold give combinations no test enumerates.", "anchors": ["src/wh_comm.c:wh_CommClient_SendRequest", "src/wh_comm.c:wh_CommClient_RecvResponse", "src/wh_comm.c:wh_CommServer_RecvRequest", "src/wh_comm.c:wh_CommServer_SendResponse", "src/wh_server.c:wh_Server_HandleRequestMessage", "src/wh_transport_mem.c:wh_TransportMem_SendRequest", "src/wh_transport_mem.c:wh_TransportMem_RecvRequest", "src/wh_transport_mem.c:wh_TransportMem_SendResponse", "src/wh_transport_mem.c:wh_TransportMem_RecvResponse"]}
{"id": "C66", "title": "Packets over TLS arrive whole, once and in order, and only between verified peers", "statement": "On a TLS connection, however many records the sockets take and wherever handshakes and calls are told to come back or fail: a receive that succeeds returns exactly the oldest packet the other side has sent successfully and that was not received yet. Unless verification is switched off, a server receives nothing from a client that shows no certificate or one its CA does not vouch for, and a client sends nothing to a server with such a certificate. On a connection that has not failed, a packet is sent as soon as the socket takes it and received as soon as it has come. When a client has gone the server tells its owner so and takes the next client.", "quantifier": "all sequences of calls of both ends, all packets, all results of connect, accept, handshake, write and read at every call, all certificates and verification options", "why_tests_cant": "The transport puts no length around a packet; whether reads match writes depends on every way a write is cut, retried or refused, and on handshakes that go on inside other calls.", "anchors": ["port/posix/posix_transport_tls.c:posixTransportTls_SendRequest", "port/posix/posix_transport_tls.c:posixTransportTls_RecvResponse", "port/posix/posix_transport_tls.c:posixTransportTls_RecvRequest", "port/posix/posix_transport_tls.c:posixTransportTls_SendResponse", "port/posix/posix_transport_tls.c:posixTransportTls_InitListen", "port/posix/posix_transport_tls.c:LoadTlsCertificates"]}
{"id": "C67", "title": "A request made by a call into the secure world is done once and answered", "statement": "With the transport for Armv8-M TrustZone, whatever calls a client makes: a request that is reported as sent has been handled exactly once, inside that call, with the kind and bytes asked and on the state the device was in; the next response the client receives is the one of that request, and it is received once. A request that is refused has not been handled. When nothing is waited for and the context is connected, one call to send and one to receive complete a request.", "quantifier": "all sequences of calls of the client (sending, receiving with any buffer, giving up, closing and opening again), all requests and responses, all byte orders and packet sizes of both sides, all states of the device and all changes others make to it", "why_tests_cant": "The response is left in the transport until it is fetched; which order of giving up, sending and receiving finds a response there that belongs to another request, or none at all, is a question about all histories.", "anchors": ["port/armv8m-tz/wh_transport_nsc.c:wh_TransportNsc_ClientSend", "port/armv8m-tz/wh_transport_nsc.c:wh_TransportNsc_ClientRecv", "port/armv8m-tz/wh_transport_nsc.c:wh_TransportNsc_ServerRecv", "port/armv8m-tz/wh_transport_nsc.c:wh_TransportNsc_ServerSend", "src/wh_comm.c:wh_CommClient_SendRequest", "src/wh_comm.c:wh_CommClient_RecvResponse", "src/wh_comm.c:wh_CommClient_AbortPending", "src/wh_server.c:wh_Server_HandleRequestMessage"]}
{"id": "C68", "title": "The hardware key store answers one caller at a time and is opened and closed in pairs", "statement": "However threads that ask one hardware key store for keys are scheduled, and whichever attempts to take its lock fail, each caller gets what the backend gives when asked alone, in some order of the calls; no caller keeps the lock, and every caller can get an answer. Over any sequence of setting up, asking and closing, with any failures of lock and backend, every call returns, the backend's error is not hidden by the lock's, a set-up that fails leaves nothing open, and, unless the application sets up a key store that is open, the backend is asked only while it is open and closed once for each time it was opened.", "quantifier": "all backends, all numbers of threads and schedules, all sequences of calls, all failures of the lock, the mutex and the backend", "why_tests_cant": "A backend talks to hardware in several steps; only a statement about all schedules says that none of them falls between the steps of another caller, and only one about all failures says that opening and closing stay paired.", "anchors": ["src/wh_hwkeystore.c:wh_HwKeystore_Init", "src/wh_hwkeystore.c:wh_HwKeystore_Cleanup", "src/wh_hwkeystore.c:wh_HwKeystore_GetKey", "src/wh_lock.c:wh_Lock_Acquire", "src/wh_lock.c:wh_Lock_Release", "port/posix/posix_lock.c:posixLock_Acquire"]}
{"id": "C69", "title": "Requests that take several locks never block each other for good", "statement": "When server contexts in parallel threads handle requests that take the locks of the authentication manager, the NVM, the hardware key store and the verify cache, also one inside the other: however they are scheduled and whichever attempts to lock fail, as long as any context has work to do one of them can go on; no context waits for a lock it holds itself; a context between two requests holds no lock; and every context can still answer each of its requests once.", "quantifier": "all numbers of contexts and lock objects, all requests and what they do with the shared state, all schedules, all failed attempts to lock", "why_tests_cant": "A deadlock needs two requests to be stopped at the wrong places at the same time; tests meet few of these pairs, and with four kinds of lock the claim is about all of them.", "anchors": ["src/wh_auth.c:wh_Auth_Login", "src/wh_auth.c:wh_Auth_CheckRequestAuthorization", "src/wh_auth_base.c:WH_NVM_LOCK", "src/wh_server_keystore.c:wh_HwKeystore_GetKey", "src/wh_server_cert.c:_LockVerifyCache", "src/wh_hwkeystore.c:wh_HwKeystore_GetKey", "src/wh_lock.c:wh_Lock_Acquire", "port/posix/posix_lock.c:posixLock_Acquire"]}
{"id": "C70", "title": "The printed log shows the logged entries, in order, and can be read back", "statement": "With the log that prints, whatever is logged and whenever the log is set up: what is printed is one text for each entry logged while printing is on, in order, and nothing else; printing is on after a set-up that asks for it, and in debug builds after any set-up. Two histories that print the same logged the same entries: time, level, file, line, function and message. Never more than the message buffer of an entry is read.", "quantifier": "all histories of set-ups and entries, all entries, both kinds of build, all sizes of the message buffer", "why_tests_cant": "Whether different entries can print the same text is a question about all pairs of histories; tests compare a few lines with what is expected.", "anchors": ["src/wh_log_printf.c:whLogPrintf_Init", "src/wh_log_printf.c:whLogPrintf_AddEntry", "src/wh_log.c:wh_Log_LevelToString"]}
{"id": "C71", "title": "Authentication requests of parallel connections behave as if made one after the other", "statement": "When connections served by parallel threads log in and out and manage users, however they are scheduled and whichever attempts to lock fail, every request gets the answer, and users and sessions end up, as if the requests had been made one after the other in some order that keeps each connection's own order; in particular of several logins of one user at the same time only one succeeds.", "quantifier": "all numbers of connections, all sequences of requests, all schedules, all failed attempts to lock, all users and sessions at the start", "why_tests_cant": "A login looks at the user, checks credentials, and marks the user as logged in; whether another connection's request can fall in between depends on the schedule, which tests do not control.", "anchors": ["src/wh_auth.c:wh_Auth_Login", "src/wh_auth.c:wh_Auth_Logout", "src/wh_auth.c:wh_Auth_UserAdd", "src/wh_auth.c:wh_Auth_UserGet", "src/wh_auth.c:wh_Auth_UserDelete", "src/wh_auth.c:wh_Auth_UserSetPermissions", "src/wh_auth.c:wh_Auth_UserSetCredentials", "src/wh_auth_base.c:wh_Auth_BaseLogin", "src/wh_auth_base.c:wh_Auth_BaseLogout", "src/wh_lock.c:wh_Lock_Acquire", "wolfhsm/wh_auth.h:whAuthContext"]}

# Formal model of wolfHSM: design

## Technique

The model is a set of total, computable Lean 4 functions under `lean/Verif/`,
one module per C module, each definition citing the file and lines in `/repo`
it models.  Property theorems live in `Verif/Props/*.lean`, apart from the
model (`Verif/Model/*.lean`) and helper lemmas (`Verif/Proofs/*.lean`).

* Flash-backed storage is modelled as *interaction programs*: the code of
  `wh_nvm_flash.c` becomes a tree of device commands (`read`, `program`,
  `erase`).  One semantics runs it to completion, another lets the device stop
  or fail at any command, with every unit of the interrupted command
  independently done or not done.  Crash and fault properties quantify over all
  such executions.
* Everything else is a state machine `step : State → Op → State × Out`; the
  theorems are inductions over arbitrary operation lists.
* Crypto primitives (AES, CMAC, SHA-256, AES-GCM, X.509 verification) are
  parameters; where a law is needed (decrypt ∘ encrypt = id) it is a hypothesis
  of the theorem, shown satisfiable by an example instance.
* Compile-time options are Boolean fields of a configuration structure.
* When the code violates a property, the negation is proved with a concrete
  witness, the surviving part is a `_partial` theorem, and the disagreement is
  listed under "Findings".

## Trusted base

* Lean 4.33.0's kernel.  Axioms: at most `propext`, `Classical.choice`,
  `Quot.sound` for every theorem.  No axiom is added, nothing is left `sorry`,
  no compiled-code tactic is used.
* The reading of the C code: the model is hand-written from the text of
  `/repo`; each definition cites the lines it models and any simplification.
* Device assumptions: a flash unit (8 bytes) is written atomically; a flash
  command that reports success did what it was asked; reads return what is
  stored.

## Plan per property

| Id | Modelled | Proof |
|---|---|---|
| C01, C02, C03, C04 | `wh_nvm_flash.c` Init/Add/Destroy/Read/GetMetadata over a unit-level flash with torn commands | invariant on flash contents preserved by every prefix of commands; abstraction map from flash to `id ⇀ (meta, bytes)` |
| C05, C06 | List, GetAvailable, AddObjectWithReclaim on the parsed directory | induction on the directory, arithmetic |
| C07 | `wh_flash_unit.c` over byte-level `wh_flash_ramsim.c` | round-trip law, frame law |
| C08 | `wh_nvm_flash_log.c` partition image + two-partition epoch protocol | refinement to a map; crash case split on commands |
| C09–C12 | `wh_nvm.c` checked layer + NVM/cert request handlers over a map store | invariant over request histories |
| C13 | `wh_keyid.c` on `BitVec 16` | bit-vector case analysis by kernel-checked lemmas |
| C14–C20 | `wh_server_keystore.c` cache + NVM map + policy + request handler | invariants over request histories |
| C21 | wrap/unwrap handlers with abstract AES-GCM | round-trip law, decision logic |
| C22 | `wh_server_counter.c` over the NVM map | invariant over histories |
| C23, C26 | `wh_comm.c` client state machine against an arbitrary packet source and clock | history invariant |
| C24 | `wh_transport_mem.c` as a fine-grained interleaving of memory accesses | inductive invariant on the two CSRs |
| C25 | `wh_utils.c` swaps, `wh_comm.c` translate, message translators; complete calls of the authentication, NVM, key, counter, connection, custom, certificate, SHE and crypto (without DMA) groups | bit-vector laws; client function, packets and handler composed |
| C27, C28 | `wh_server.c` dispatcher, comm and authentication handlers on packet bytes, `wh_auth.c` request check; handlers of the other groups are parameters that may do anything to NVM and server state but not to users and sessions | case analysis, history induction |
| C29–C32 | `wh_auth.c`, `wh_auth_base.c` | invariants over call histories with persist failures |
| C33–C38 | `wh_server_she.c`, `wh_she_common.c`, `wh_she_crypto.c` | invariants over command histories |
| C39 | `wh_dma.c`, `wh_server_dma.c` on 64-bit addresses; the DMA requests of the NVM, key, certificate and crypto groups in the whole server (`Spec/DeviceDma.lean`, no address translation) | decision logic; each handler gives the same for two client memories equal on checked buffers, and its writes lie in checked buffers; induction over events |
| C40 | `wh_utils.c` | list induction |
| C41 | `wh_log_ringbuf.c` | refinement to the list of all added entries |
| C42 | `wh_server_cert.c` cache + trust store, also on packet bytes | invariant over histories with ghost verification log |
| C43 | `wh_server_img_mgr.c` parsers, out-of-bounds read as distinct outcome | induction on the scan |
| C44 | request handlers of the SHE, NVM, key, counter, custom, certificate and crypto groups on packet bytes (`Model/CryptoMsg.lean`: algorithm numbers and build choice are a parameter; the `ctx->crypto == NULL` check and the choice of device id are left out) and of the DMA crypto group (`Model/CryptoDma.lean`), received bytes and the rest of the buffer kept apart | effect and answer are the same for any two buffers that agree on the received bytes |
| C45 | `wh_message_auth.c` flatten/unflatten | round-trip law |
| C47 | key store histories, profile "same key up to revocation" | invariant over histories |
| C46 | `wh_lock.c` with the POSIX mutex; the counter, NVM, key and certificate handlers and the key accesses of the crypto handlers as programs of lock, access, unlock; several contexts in parallel | invariant over schedules with a ghost serial order; the serial execution is shown to be the sequential model of the other properties |
| C48 | LMS/XMSS slot format (`wh_crypto.c`), key generation, sign and verify handlers (`wh_server_crypto.c`) over the key store; wolfCrypt is a parameter with the contract "sign uses the next index and advances" | invariant "every copy of the private state is past the last released index" over histories |
| C49 | image manager (`wh_server_img_mgr.c`: init, one image, one index, the table; methods from C43, certificate method over the C42 model) over key store, NVM and certificates; primitives and methods of the application are parameters | accepted ⇒ `Genuine` from the invariants of C42 and the key store; the C47 invariant extended to certificate and image events for the provisioned key |
| C50 | request handlers as programs over the NVM API (`Model/NvmProg.lean`), executed on the object map and, with torn writes, faults and power losses, on the flash NVM model | forward simulation per NVM call from `add_wp`, `destroy_wp`, `init_full`, `read_full`; induction on programs and histories; the key store's handlers with their caches as RAM are such programs too (`Spec/KeystoreFlash.lean`, `Proofs/KeystoreProg.lean`), so C15 and C18 are also stated about the flash device (`Props/KeystoreFlash.lean`) |
| C51, and C14, C15, C17, C19, C20 for crypto requests | the key-store side of every crypto handler of `wh_server_crypto.c` except LMS/XMSS (`Model/Crypto.lean`): a program of key-store calls around parameters for the library functions | an execution is a key-store history with events of other contexts in between, so the history theorems apply; a cursor lemma per call (`Proofs/Crypto.lean`) and a description of the calls each handler may make (`Proofs/CryptoOps.lean`) |
| C52 | the KDF handlers' shared request/response buffer and the library's block-wise expansion (`Model/Kdf.lean`) | induction on the blocks: the output region does not reach the information before the last block |
| C27, C53, C54 for the whole server | all message groups behind the dispatcher on one NVM, one set of key caches, SHE contexts, verify caches and users (`Model/Device.lean`); events are packets of any bytes on any context, connection events, power cuts and restarts | each handler is shown to move the key store only by steps that keep a protected object, and to give responses that fit; induction over events |
| C55 hashing through the server | the client's Update, Final and any-length functions of SHA-2 and SHA-3 with their messages (`Model/ClientHash.lean`; with input by DMA `Model/ClientHashDma.lean`), in any mixture on one context, talking to the server's hash handlers on packet bytes (`Model/CryptoMsg.lean`, `Model/CryptoDma.lean`); crypto library = any function that works block by block or fails | invariant: chaining state is that of the whole blocks so far and the buffer is the rest; re-packing keeps the bytes; the fields are read back on both sides. Proved for SHA-3; for SHA-2 for equal byte orders (false otherwise, and after failed calls) |
| C56 crypto calls | the client's functions of the crypto group: AES, RSA, ECC, Curve25519, Ed25519, ML-DSA, ML-KEM, HKDF, CMAC-KDF, CMAC (`Model/ClientCrypto.lean`: checks, request bytes, length arithmetic, response checks), talking to the handlers on packet bytes | the request is read back field by field as the operation the arguments describe, the answer as its outcome; for every call, both byte orders. Partial: no DMA calls, stateful signatures, or temporary import of keys |
| C57 random numbers | `wh_Client_RngGenerate` with its requests, responses and loop, and the server's handler | induction on the bytes left: what is written is the draws of the server, concatenated |
| C58 SHE calls | `wh_client_she.c` (`Model/ClientShe.lean`: checks, request bytes, response checks, the loop of the secure boot) talking to the SHE handlers on packet bytes | each request read back field by field and each response read from the bytes the handler wrote; secure boot: induction on the bytes left, for an arbitrary schedule of losses, failures and key store contents |
| C59 client DMA buffers | `wh_client_dma.c` and the DMA calls of `wh_client.c`, `wh_client_nvm.c`, `wh_client_cert.c`, `wh_client_crypto.c` reduced to what they map, name and release, the union `asyncCtx` word by word (`Model/ClientDma.lean`); callback, allow list and transport arbitrary at each step | invariant by induction over calls: what is mapped is what the words of the union say for the last request, and nothing when none is pending; the specification counts events of a trace only |
| C60 log file; C41 messages | `wh_log.c` (message to entry) and `port/posix/posix_log_file.c`, with `snprintf`, `sscanf` and `fgets` modelled for the formats used (`Model/Log.lean`); failures of lock, write, truncate and seek are parameters | decimal and field-by-field round trip of a line; then an invariant over histories: the file is the concatenation of the lines of the entries kept |
| C61 packets over TCP | `port/posix/posix_transport_tcp.c` (`Model/Tcp.lean`): both ends, two byte streams; what each socket call does is a parameter; the comm client on top (`Model/TcpComm.lean`) | an observer's automaton (one request and its response at a time); invariant: what the receiver holds and what is under way make up a prefix of the length word and packet being sent; progress by induction on the bytes left |
| C62 flash in a file | `port/posix/posix_flash_file.c` (`Model/FlashFile.lean`): the file as bytes, results of `open`, `fstat`, `pread`, `pwrite`, `ftruncate` as parameters; NVM programs run on it, killed anywhere | each driver call on the bytes; simulation of the flash device of C01-C07 for programs that blank-check what they write (both NVM backends are shown to), then C01-C03 carried over for cuts on unit boundaries |
| C63 POSIX shared memory | `port/posix/posix_transport_shm.c` (`Model/PosixShm.lean`, on top of the memory transport of C24; `Model/ShmDma.lean`): any number of processes, one name, objects with size, mark and buffers; each event is one system call or one memory access, and a process may be killed at each | invariant per object: what was seen on it is a run of C24's two-party model, while at most one client connects at a time; a client's connecting steps are followed by induction on the bytes it clears; the DMA callbacks as functions on memory |
| C64 messages in pieces | AES-CTR, AES-CBC and CMAC calls of `src/wh_client_crypto.c` on an object kept by the caller (`Model/ClientStream.lean`), each request through the client and server models of C56 to the key store of C14; the cipher library is assumed to work block by block (`CtrLib`, `CbcLib`, `CmacLib` in `Spec/ClientStream.lean`) | histories of calls as inductive predicates; invariant: the object holds what the library needs to go on after the message so far; laws of counter mode and CBC about cutting and appending by induction on blocks |
| C65 the whole stack | `Model/Stack.lean`: the comm client of C23, the memory transport of C24 at the level of single accesses, the comm server and the dispatcher of C27/C28 with any handlers (those of the device model for `C65_crypto`), joined into one state machine; other clients and the application change the device as events | an observer's automaton over requests, executions and responses (`Spec/Stack.lean`); invariant: the channel of C24 carries the packet that belongs to the automaton's state, and each side's program counter the call it is in; the shape of a trace by induction; completion under fair endless schedules by a rank that the event needed next lowers and no other event raises (`Proofs/StackFair.lean`) |
| C66 TLS | `port/posix/posix_transport_tls.c` (`Model/Tls.lean`): both contexts, handshakes that go on inside any call, certificates and verification options; wolfSSL is assumed to carry records unchanged, to keep a record it could not send, to return bytes of one record per read and to finish a handshake only with a peer that its verification mode admits (`End.write`, `End.read`, `handshake`) | an observer's two queues of packets (`Spec/Tls.lean`); invariant: the records under way are these packets, and what an end keeps is the packet its sender was told to bring again; for verification: no handshake is finished and no record is under way |
| C67 call into the secure world | `port/armv8m-tz/wh_transport_nsc.c` under the comm client, the comm server and the dispatcher of C23, C27 and C28 (`Model/Nsc.lean`); the veneer `wcs_wolfhsm_transmit` is not in the repository and is modelled as `port/armv8m-tz/README.md` and `wh_transport_nsc.h` describe it: it fills in the context and calls `wh_Server_HandleRequestMessage` once | an observer's automaton (`Spec/Nsc.lean`) with three states: nothing, waiting, given up; invariant: what the transport holds is the packet of the response waited for; traces by induction |
| C68 hardware key store | `src/wh_hwkeystore.c` with the lock of C46 (`Model/HwKeystore.lean`); the backend is any program of accesses to the hardware | `GetKey` as a locked program of C46, whose schedule theorem gives the serial order; life cycle: each call from any state by cases, histories by induction; pairing of opening and closing by an automaton over the uses of the backend |
| C69 nested locks | requests as programs that access the shared state and take locks one inside the other (`Model/Locks.lean`); which lock is taken while which is held is a table of the places in the code (`site`, `Spec/Locks.lean`), read from `src/wh_auth.c`, `src/wh_auth_base.c`, `src/wh_server_keystore.c`, `src/wh_server_cert.c`, `src/wh_hwkeystore.c` and not derived from models of all handlers; what is done under a lock is arbitrary | invariant: the locks a thread holds are in the order authentication, NVM, then hardware key store or verify cache; by induction from the last lock to the first every lock can be made free without moving threads that hold only earlier ones; `C69_order_needed` shows the deadlock of a program that breaks the order; the handler programs of C46 are embedded step by step (`ofProg`, `workOf`), so for them, behind the dispatcher's authorization check, conformance is proved (`C69_handlers`) |
| C70 printed log | `src/wh_log_printf.c`, with `printf` modelled for its format as in C60 (`Model/LogPrintf.lean`) | output by induction over the history; reading back: each field ends at a byte it does not contain, decimal numbers and level names are injective, then induction over the entries. False when a field contains its end (`F_C70_forged`) |
| C71 authentication in threads | `wh_Auth_Login`, `wh_Auth_Logout`, `wh_Auth_UserAdd`, `wh_Auth_UserGet`, `wh_Auth_UserDelete`, `wh_Auth_UserSetPermissions`, `wh_Auth_UserSetCredentials`, `wh_Auth_CheckRequestAuthorization`, `wh_Auth_CheckKeyAuthorization` and `wh_Auth_Reset` with their backend as programs of accesses under the authentication lock (`Model/AuthThreads.lean`); checking credentials, storing and checking what is allowed are one access each | each program alone is the sequential function of C32; the schedule theorem of C46 gives the serial order. False when contexts have locks of their own (`F_C71_two_locks`) |

## Not modelled

Client-side wrappers (except the communication layer, `wh_client_auth.c`, `wh_client_nvm.c`, `wh_client_cert.c`, `wh_client_she.c` and the key, counter, connection and custom calls of `wh_client.c`, the calls of `wh_client_crypto.c` without DMA, and what all calls do with DMA buffers), the wolfCrypt callback
glue, pre-shared keys of the TLS transport, tools and examples, vendor
ports other than the transport of `port/armv8m-tz`.  Memory layout, alignment and NULL-pointer checks are not modelled
unless a definition says so.

## Findings

Each is an execution of the modelled code that breaks a natural reading of a property;
the theorem named proves it from a reachable state.

Flash NVM (`src/wh_nvm_flash.c`):

* `F_init_read_fault`: `Init` ignores errors when it reads the two partition states. One
  transient read or blank-check error on the active partition makes both look unused, so
  `Init` erases partition 0, reports success, and everything stored is lost.
* `F_metadata_read_fault`: a transient read error on an object's metadata during `Init`
  leaves the entry "used" with zeroed metadata; the next compaction drops the object.
* `F_failed_destroy_then_add_lost`: if the last word written by `DestroyObjects` takes
  effect but is reported as failed, the device keeps working on the old partition; adds
  that then report success are lost at the next restart.
* `F_add_retry_refused`: after an add that failed midway the next directory entry is not
  blank, and every add is refused with `NOTBLANK` until a restart or compaction.
* `C05_id_zero`: an object with id 0 can be stored and then makes `List` loop forever.
* Zero-length reads of an existing object return `BADARGS` (visible in the specification
  of `Read`, `Store.slice`).

Log-structured flash NVM (`src/wh_nvm_flash_log.c`):

* `F_log_destroy_zero`: `DestroyObjects` with id 0 after a valid id returns `BADARGS` although
  the running device no longer shows the valid object (a restart brings it back).
* `F_log_failed_add_visible`: when the first add to an empty store fails, the object stays
  visible; adding it again is refused for lack of space, and destroying it makes `memmove`
  leave the RAM image.
* `F_log_id_zero`: an object with id 0 can be added and hides every later object.
* `F_log_small_granule`: if the flash can tear within the 64-byte header, a power loss during
  the header write can make `Init` refuse to start for good.
* `F_log_failed_commit_then_cut`: a header write reported as failed although it took effect,
  followed by a power loss during the fallback erase, loses the stored objects.
* `F_log_epoch_wrap`: when the 32-bit epoch wraps, a power loss during the erase of the old
  partition loses both versions.

NVM and counter requests (`src/wh_nvm.c`, `src/wh_server_nvm.c`, `src/wh_server_counter.c`):

* `F_nondestroyable_lost`: the checked add tests only NONMODIFIABLE and TRUSTED, so a client
  replaces a NONDESTROYABLE object by an add without the flag and then destroys it.
* `F_add_dma_race`: the DMA add fetches the client's metadata twice; a client that changes
  the id between the check and the use overwrites a NONMODIFIABLE object.
* `F_add_bad_length_reported_ok`: an add request whose length field disagrees with the
  packet does nothing and is answered with `OK`.
* `F_nvm_add_short_ok`: the same with the packet bytes: the client is told `OK`, nothing is stored.
* `F_dma_metadata_byte_order`: the DMA add copies the client's metadata struct without
  translating it, so a client of the other byte order stores it under another id (the DMA key
  requests do translate). C25 for the NVM group excludes the DMA calls for this reason.
* `F_counter_init_lowers`, `F_counter_ids_alias`, `F_counter_rewound_by_nvm_add`: a counter
  can be re-initialised to a lower value, two counter ids that agree in their low byte are
  the same counter, and an NVM add on the counter's object id rewinds it.

Key store (`src/wh_server_keystore.c`, `src/wh_server_crypto.c`):

* `F_revoke_retry`, `F_revoke_incoherent`: when the NVM write of a revocation fails, the
  cached copy is already marked revoked and still counts as committed. A second revocation
  request reports success without writing, and the key is usable again after a restart.
* `F_revoked_cached_key_returns`: revoking a key that came from a wrapped blob is undone by
  a restart and unwrapping the blob again.
* `F_evict_option_drops_trusted`: the evict option of crypto requests evicts without the
  policy check, so a client removes a TRUSTED (or NONMODIFIABLE, NONDESTROYABLE) key that
  the server application only cached.
* `F_failed_cache_loses_key`: a cache request that fails after the slot was taken (random
  number generator, DMA) has already dropped the old uncommitted key with the same id.
* `F_nvm_reads_other_clients_key`: NVM requests use raw ids, so any client reads (or
  replaces, or destroys) another client's committed key unless its flags forbid it.
* `F_C18_erased_key_comes_back`: a commit fails with the object complete on the media; erasing the key
  is then reported successful without touching the flash, and the key is back after a restart.
* `F_commit_replaces_nonmodifiable`: COMMIT does not look at the flags of the NVM object it
  replaces.

Communication (`src/wh_comm.c`, `src/wh_transport_mem.c`):

* `F_stale_packet_disables_timeout`: a packet that is not the awaited response stops the
  client's timer; the request stays pending and never times out.
* `F_old_response_after_wrap`, `F_restarted_client_gets_old_response`: the response to the
  request 65536 earlier, or to a request sent before the client was restarted, is accepted.
* `F_mem_small_buffer_overflow`: a shared-memory buffer smaller than its control word passes
  initialisation and makes the size check underflow, so messages are written outside it.
* `F_mem_refused_answer_redelivers`: an answer that does not fit the response buffer is
  refused; the server then receives and handles the same request again, for ever, and the
  client can neither send nor receive.

Users and sessions (`src/wh_auth.c`, `src/wh_auth_base.c`):

* `F_deleted_user_keeps_session`, `F_removed_permission_kept`: a session holds a copy of the
  user's permissions. Deleting the user or reducing the permissions from another connection
  leaves the copy, and requests relying on it stay authorised until logout.
* `F_stale_session_becomes_admin`: after the deletion, the slot (and so the user id) can be
  given to a new user. If that user is an administrator, the stale session passes the
  administrator checks, which look the id up in the table.
* `F_admin_logout_keeps_session`: an administrator's logout of another user succeeds, marks
  the user inactive, and leaves that user's session authorised.
* `F_session_unclamped`: the permissions kept in a session after a change of one's own
  permissions are not clamped, unlike the ones in the database.
* `F_orphan_credential`: a power cut between writing a new user's credential and the index
  leaves the credential object; a user later added in that slot without credentials gets the
  old PIN at the next restart.
* `F_delete_rollback_lost`: a deletion that fails twice (removing the credential, then putting
  the index back) is refused, yet the user is gone after a restart.
* `F_failed_add_appears`: an add whose write is reported as failed is refused, and its user
  appears after the next restart (the write can be complete on the media).
* `F_duplicate_names`: names are compared before they are cut to 31 bytes, so two users can
  have one name; only the first can log in.
* The POSIX example server calls `wh_Auth_BaseUserGet` with four arguments although it takes
  five (examples/posix/wh_posix_server/wh_posix_server_cfg.c); read, not proved.

Requests (`src/wh_server.c`):

* `F_close_needs_permission`: CLOSE is subject to the permission check; a user without the
  communication group cannot close, and the session and connection stay.
* `F_init_short_request`: COMM INIT does not look at the request size; with an empty request
  the client id is what the packet buffer held before.
* `F_auth_down_refuses_all`: when the authentication manager did not start, every request is
  refused, COMM INIT and login included.

SHE (`src/wh_server_she.c`, `src/wh_she_crypto.c`, `wolfhsm/wh_she_common.h`):

* `F_she_flags`: the generator puts the key flags in the four bits below the counter, the
  loader reads them four bits higher. A key generated as write protected is stored without
  write protection (and other flags are lost).
* `F_she_boot_fail_open`: if the boot MAC key cannot be read, for whatever reason,
  `SECURE_BOOT_INIT` reports that boot is complete and every command is allowed.
* `F_she_export_loaded`: a RAM key loaded by an encrypted update (`LOAD_KEY`) can be exported,
  although SHE allows this only for keys loaded in plain.
* `F_she_export_fault_leaks`: an `EXPORT_RAM_KEY` whose cipher call fails is answered with an
  error code and the RAM key itself in the packet.
* `F_she_refusal_leaks`: the answer to a refused command consists of uninitialised bytes of
  the server's stack (only the code is written).
* `F_she_seed_stale`: the PRNG seed key is cached with the seed and not refreshed.
* Read, not proved: the boot state is shared by all clients of a server context and reset to
  "init" right after a failure; SHE writes never trigger a compaction, so a full partition
  makes every later key update fail; a flags argument of 16 or more given to the generator
  corrupts the counter; `INIT_RND` and `EXTEND_SEED` rewrite the seed slot even if it is write
  protected; NVM requests can overwrite SHE slots (raw ids).

Certificates (`src/wh_server_cert.c`):

* `F_cert_erases_users`: erasing a trusted certificate refuses only TRUSTED and NONDESTROYABLE
  objects. The user index and the credentials are NONMODIFIABLE and not NONDESTROYABLE, so a user
  with permission for the certificate group alone erases them by id; after the next power-up
  nobody can log in.
* `F_root_replaced_by_nvm_add`: a trusted root replaced (or destroyed) by an NVM request is
  not evicted from the verify cache; chains below the old root stay accepted.
* `F_root_replaced_by_other_context`: without the global cache the same holds for a root
  replaced by a certificate request to another server context.
* `F_root_replaced_lock_failed`: if the cache lock fails during a replacement, the new root is
  stored and the cache keeps the old verdicts.
* `F_cached_after_expiry`: a cached CA certificate is accepted after its expiry.
* `F_cert_erase_short`, `F_cert_read_short`: ERASETRUSTED and READTRUSTED do not look at the size of the
  request; an empty request erases or reads the object whose id an earlier packet left in the buffer.
* `F_cert_padding`: responses carry four bytes of an earlier packet.
* `F_cert_refused_keyid`: a verification refused by the permission check reports the id of the requested
  root as the id of the leaf key.
* `F_cert_read_dma_length`, `F_cert_read_dma_large`: a read by DMA does not tell the length of the
  certificate, and never succeeds when the caller's buffer is larger than the server's limit.
* `F_missing_intermediate_accepted`: a certificate is accepted without its issuer in the chain
  once a chain containing both was verified.
* `F_dma_plants_ca`: the chain of a DMA request is hashed and verified in client memory at
  different times; a client that swaps it in between plants a CA of its own in the cache.
* `F_leaf_key_kept_on_failure`: the leaf key of a chain that is refused afterwards stays in the
  key cache.
* `F_cert_erase_nonmodifiable`: ERASETRUSTED destroys NONMODIFIABLE objects.
* Read, not proved: ADDTRUSTED by DMA of 65536 bytes or more stores the length modulo 65536
  and reports OK (visible in `Cert.addTrusted`).

Image verification (`src/wh_server_img_mgr.c`):

* `F_raw_size_truncated`: the RAW methods hash the image size modulo 2^32.
* `F_digest_info_garbage`: the signed block of a wolfBoot image may name any hash algorithm and
  may be followed by anything, the pattern behind forgeries for small RSA exponents.
* `F_header_tail_unsigned`: header fields after the hash field (image type, say) are not
  covered by the signature.
* Read, not proved: with DMA the header is read in place several times.

Other modules:

* `C41_wrap_loses_everything`: log ring buffer after `SIZE_MAX+1` entries.
* `C39_custom_copy_escapes`: a custom DMA copy callback receives the untranslated client
  address.

Stateful signatures (`src/wh_crypto.c`, `src/wh_server_crypto.c`):

* `F_C48_disguised_state_repeats_index`: the guard against private state from clients looks at the
  header's `privLen`, the read callback at the length of the parameter set. A slot with `privLen` 0 and
  the private state behind it passes the guard and signs; caching it again repeats an index.
* `F_C48_two_contexts_repeat_index`: a client served by two contexts; the stale cached state of one
  of them is used again.
* `F_C48_dma_add_race_repeats_index`: the DMA add reads the data once for the guard and once for the
  write.
* `F_C48_early_signature_repeats_index`: wolfCrypt writes the signature into the client's DMA buffer
  before the state is stored; a power loss in between leaves a signature whose index is used again.
* `F_C20_stateful_sign_ignores_usage`, `F_C19_revoked_stateful_key_signs`: the sign handlers do not
  check usage flags, so a key without the sign flag, or a revoked one, still signs.

Crypto requests (`src/wh_server_crypto.c`):

* `F_C20_verify_key_makes_mac`: the one CMAC request accepts SIGN or VERIFY, so a key that
  may only verify generates MACs.
* `F_C20_encrypt_key_signs`: the RSA private-key operation used for signing is allowed with
  ENCRYPT alone (and the public one used for verifying with DECRYPT alone).
* `F_C20_cmac_state_disclosed`: CMAC update hands the chaining state computed with a stored key
  to the client and accepts any state from it.
* `F_C19_revoked_key_public_part`: a revoked key still answers requests that ask for no usage.
* `F_C17_failed_keygen_loses_key`: a DMA key generation that fails because of the client address
  has already replaced the client's previous key with the same id, and evicts it.
* `F_C44_crypto_response_overruns`: key generation, shared secrets, ECC and ML-DSA signatures and
  ML-KEM compute the room for their output without the 12-byte response header, so up to 12
  bytes are written past the communication buffer. `_HandleRsaFunction` does not compare the
  client's output length with the room at all.
* `F_C52_hkdf_overwrites_info`: output and information of HKDF and CMAC-KDF requests share a
  buffer; with stored inputs a derived key longer than 64 bytes is not the standard's.
* `F_C55_sha2_byte_order`: SHA-2 between a client and a server of different byte order returns OK and a
  wrong digest: the chaining words are sent as raw memory, while SHA-3's are translated.
* `F_C55_sha2_retry`, `F_C55_sha2_fallback`: a SHA-2 call that fails after its request was sent leaves the
  last bytes of its input in the context. Repeating the call, or the software fallback of wolfCrypt after
  `NOT_COMPILED_IN`, then returns OK with a wrong digest. `_Sha3Oneshot` restores the context for this reason.
* `F_C56_ecc_wrap`: the blocking ECC sign (and verify) call computes the request length in a `uint16_t`
  (src/wh_client_crypto.c:2622); with a 65535-byte hash the sum is 23, so the length check passes, the
  client copies 65559 bytes into its packet buffer and sends 23.
* `F_C56_no_blocks`: AES-ECB and AES-CBC count blocks in a `uint16_t`: for an input of k·2²⁰ bytes the
  request function returns OK and sends nothing.
* `F_crypto_short_echo`: a crypto request of less than 12 bytes is answered with its own bytes, no
  return code in it.
* Read, not proved: the room check of AES-GCM adds in 32 bits, so a tag length near 2^32 passes it
  (the library refuses such tags); DMA key generation truncates the client's 64-bit size to 16 bits.

DMA crypto group (`src/wh_server_crypto.c:5800-9437`):

* `F_C39_bad_address_not_told`: every failed DMA crypto request is answered with the 12-byte header
  alone; the handlers fill in the failing address and do not send it.
* `F_C27_dma_stack_bytes` (src/wh_server_crypto.c:7066, 7204 and the random number handler): the
  responses carry 16 bytes of the server's stack, the failing address of a request that did not fail.
* `F_C44_sha_padding`: the last bytes of the SHA-224/256 DMA response are what the packet buffer held.
* `F_C57_dma_size_truncated`: sizes are 64 bits in the message and 32 bits for the library: a request
  for 2^32 random bytes succeeds and delivers none.
* `F_cryptoDma_short_echo`: a request of less than 12 bytes is answered with its own bytes.
* `F_C55_sha2_dma_byte_order`, `F_C55_sha2_dma_retry`: SHA-2 with input by DMA gives wrong digests with
  OK to a client of the other byte order and after a call whose response was lost, as without DMA, although
  the message's comment says the state travels inline "for cross-architecture safety".
* `F_C59_refused_after_mapping` (src/wh_client_dma.c:89-96 and all callers): when the client's own allow
  list refuses the address the callback has just mapped, the call fails and the mapping is never released.
* `F_C59_release_of_refused` (Ed25519, ML-DSA, LMS, XMSS): the blocking functions release buffers whose
  mapping was refused or never asked for.
* `F_C59_lost_copy_back`: random numbers, AES, Ed25519, ML-DSA and ML-KEM ignore a failing release, which
  is where a bounce buffer is copied back: the call returns OK and the caller's buffer has no result.
* `F_C59_null` (src/wh_client_nvm.c:703-741, 826-848): NVM read and add by DMA with a NULL pointer and a
  length name address 0 with that length.
* `F_C59_timeout`, `F_C59_untimed`: after a timeout, or when the timer does not start, the buffer is
  released while the server may still write to it.
* `F_C59_abort`: `wh_CommClient_AbortPending` forgets the request and leaves its buffers mapped.
* `F_C59_wrong_response`: a response function called for another function's request reads the union as its
  own member and releases a buffer made of stale words.
* `F_C60_forged` (port/posix/posix_log_file.c:133-139): a newline in a message starts a line of its own; the
  log then shows an entry that nobody logged.  `F_C60_empty_message` (278-300): an entry with an empty
  message comes back with what the uninitialised `msg_buf` held, usually the message before it.
  `F_C60_no_function`, `F_C60_colon`: entries without function name, or from a file with a colon in its name,
  are accepted and never come back.  `F_C60_short_write`: the rest of a line whose write stopped in the middle
  joins the next entry.  `F_C60_level`: a level outside the enumeration comes back as INFO.
* `F_C61_other_packet`, `F_C61_short_packet` (port/posix/posix_transport_tcp.c:124-133): a sender that, told
  to come back, comes back with another packet is told that this one was sent, while the peer gets the old one
  (or a mixture); if it is shorter, what lies behind the buffer is sent.
* `F_C61_hangup` (lines 175-200): the end of the stream counts as "not ready"; a server whose client has gone
  waits for it for ever and accepts no other client.
* `F_C61_stuck` (lines 483, 526; src/wh_comm.c:255-267, 319-329): after a timeout or an abort the comm layer
  lets the client go on, but the transport still waits for the response, which the comm layer never asks for
  again: every later request is answered NOTREADY, though the response may be there.
* `F_C62_killed_twice` (port/posix/posix_flash_file.c:54-65, 292-320; src/wh_nvm_flash.c): an erase writes one
  byte after another; a process killed inside the state word of a partition leaves it half erased, with a value
  that is neither; killed twice like this, an object whose add had succeeded is gone.
  `F_C62_log_bricked`: with the log-structured NVM one kill after 8 bytes of an erase makes `Init` fail for good.
  C62 is therefore proved for cuts on unit boundaries; what a loss of power does to unsynced writes is outside.
* `F_C62_overwrite`: `Program` writes over what is there.  `F_C62_stat`: when `fstat` fails `Init` succeeds
  without filling the file.  `F_C62_shrink`: opening with smaller partitions cuts the file for good.
* `F_C63_two_clients`, `F_C63_wiped` (port/posix/posix_transport_shm.c:141-163): a client checks the mark in the
  object and sets it in separate steps; two clients that connect at the same time both succeed, one gets the
  response to the other's request, or clears a request away.  C63 is therefore proved for clients that connect
  one after the other.
* `F_C63_unlinks_other` (line 159): the client removes the name, whatever it stands for by then; if the server was
  restarted in between, the client sits on the dead server's object and nobody can ever reach the new server.
* `F_C63_no_reconnect`: when its client has died a server can not be reached any more, and is not told.
* `F_C63_dma_null` (lines 561-565): a NULL buffer with a length becomes offset 0, which the server accepts: it
  uses the first bytes of the DMA area.  `F_C63_dma_last`: a buffer at the very end of the area is not taken to
  be in it.
* `F_C64_cmac_two_keys` (src/wh_client_crypto.c:5855-5862): a key given with the first piece to an object that has
  a stored key is used for this piece and then forgotten; the MAC is finished with the stored key, and is that of
  neither.  `F_C64_cmac_retry` (6015-6100): when the second request of `wh_Client_Cmac` fails, the piece is already
  taken; calling again counts it twice.  `F_C64_short_tag` (5964-6013): with too little room for the MAC the call
  fails after the message is gone.  `F_C64_cmac_size_dependent`: the key given again in the middle of a message
  drops the pieces before if the last piece fits one packet, and not otherwise.  C64 is therefore proved for
  histories in which one key is used, and for CMAC calls of one request each.
* `F_C65_executed_again` (src/wh_server.c:721-729, src/wh_transport_mem.c): a request whose response does not fit the
  shared buffer stays where it is, and each call of `wh_Server_HandleRequestMessage` handles it again.
  `F_C65_stuck` (src/wh_comm.c:366-400): a request longer than the server's packets is taken from the client and
  rejected by the server without a response; from then on no request goes through this transport, also after
  `wh_CommClient_AbortPending`.
* `F_C66_other_packet`, `F_C66_other_longer` (port/posix/posix_transport_tls.c:284-293): wolfSSL keeps the record it could
  not send; a client that comes back with another packet is told that it was sent, and the server gets the first one.
  `F_C66_cut`, `F_C66_long`: nothing on the wire says where a packet ends, so that a packet longer than a record or than
  `WH_COMM_MTU`, which is not checked, arrives as several packets.
* `F_C66_no_next_client` (port/posix/posix_transport_tls.c:511-588): a server whose client has gone keeps the session that
  has failed; every call fails and no other client is accepted until the transport is set up again.
  `F_C66_never_told` (485-487, 565-567): the connect callback is told of connections only, at initialisation already, so
  that the server does not log the user out as it does with the TCP transport.  `F_C66_reset` (251-268, 541-549): the same
  happens when a client gives up a connection in the handshake.
* `F_C67_stuck` (port/armv8m-tz/wh_transport_nsc.c:81-84, src/wh_comm.c:175-179, 319-329): `wh_CommClient_AbortPending`
  leaves the response in the transport; every later send is refused because it is there, and no receive fetches it
  because nothing is pending.  The client is stuck until it is closed and opened again.
  `F_C67_done_but_refused` (90-104): a request whose response is too long for the client's packets is reported as refused
  with the code for wrong arguments, though the device has done it.
* `F_C68_opened_twice` (src/wh_hwkeystore.c:39-81): `wh_HwKeystore_Init` clears a context that is in use and opens the
  backend again; only one of the two is closed later.  `F_C68_no_lock` shows what is given up when no lock is configured.
* C70: a message with a newline prints the same as two entries, so whoever chooses part of a message can make up log lines (`F_C70_forged`); as in the log file (C60) nothing is escaped.
* C71: the lock is part of each authentication context, and a context holds one session, so connections have contexts of their own; but the users are one static table. Unless the configurations of the contexts share one mutex, two connections can log in as the same user at the same time (`F_C71_two_locks`), which the code refuses otherwise.
* Read, not proved: the connect callback can be called twice on the path of `SendRequest`; the descriptor leaks
  when `fstat` fails.
* Read, not proved: the accepted socket is not made non-blocking; after a bad length the stream is out of step.
* Read, not proved: the Ed25519 DMA handlers accept a context with the plain signature type, unlike the
  handlers without DMA; the POST callback is called although PRE failed (Ed25519, LMS and XMSS verify);
  the room check of ML-KEM encapsulation and decapsulation ignores the 12-byte header.

* `F_C58_iv_overrun` (src/wh_client_she.c:746, 900): the CBC calls copy all of the caller's IV, whose
  length is only checked from below: an IV longer than the packet buffer is written past its end.
* `F_C58_small_room` (src/wh_client_she.c:556, 994): the random number and MAC calls check the size of
  the output buffer after the request was sent; with less than 16 bytes the server has drawn a random
  number nobody gets, and its response stays in the channel.
* `F_C58_tail` (src/wh_server_she.c:1209): a cipher call on input that is not whole blocks succeeds; the
  rest of the input is not processed and the caller is not told.

Key messages (`src/wh_server_keystore.c`, `src/wh_client.c`, `src/wh_client_keywrap.c`):

* `F_unwrap_limit`, `F_data_unwrap_limit`: the client compares the length of a wrapped blob with the
  limit for the plain key or data, so a key within 60 bytes (data within 28 bytes) of the limit can be
  wrapped but not unwrapped with the client's functions.
* `F_key_refusal_hidden`: a request refused by the permission check is answered with the bare code,
  which every key call takes for a truncated response: it returns ABORTED.
* `F_wrap_lock_hidden`: likewise, when the server's lock fails, the wrap calls return ABORTED.
* `F_export_public_short`: EXPORT_PUBLIC and EXPORT_PUBLIC_DMA do not check the size of the request; a
  short one is served from what an earlier packet left in the buffer.
* `F_key_padding`: the padding of the responses keeps what the packet buffer held.
* `F_key_unknown_echo`: an unknown action is answered with a copy of the request.

Counter, connection and custom messages (`src/wh_server_counter.c`, `src/wh_server_customcb.c`, `src/wh_client.c`):

* `F_echo_refused`: an echo refused by the permission check is a success for the caller, with the
  four bytes of the error code as the echoed data. A refused counter, custom or other connection call
  returns ABORTED.
* `F_counter_unknown_echo`, `C44_custom_refused`: unknown actions and custom requests of the wrong
  size are answered with a copy of the request.
* `F_counter_padding`, `F_custom_padding`: responses carry bytes from behind the received request.
* `F_custom_alias`: ids of custom callbacks count modulo 256.
* `F_custom_reserved`: the data of a custom request with a reserved type (3 to 7) is dropped.
* `F_custom_check_beyond`: asking whether a callback beyond the server's table is registered fails
  with ABORTED instead of answering no.

Locking (`src/wh_server_crypto.c`):

* `F_ecc_make_pub_unlocked`: `_HandleEccMakePub` (and `_HandleEccCheckPubKey`) use the shared key
  cache and evict from it without taking the lock. Another context that evicts the key and caches a
  different one in the same slot makes the request answer, with success, with the public key of
  the other key. No serial order of the requests gives this answer.
* CACHE_CLEAR and SET_ENABLED of the certificate verify cache take that cache's lock only, so they can
  take effect in the middle of a verification (this is part of the model of C42).
* `F_C49_verify_all_ok_although_refused`: `wh_Server_ImgMgrVerifyAll` returns OK when an image has been
  refused; only the results array tells.  After an error the results of the later images are what was
  in the array before (`C49_verify_all`), so a caller that reuses its array sees old verdicts.
* `F_C49_cached_key_replaces_boot_key`: the key of an image is looked up in the cache first, so a client
  that caches a key under the number of a boot key without NONMODIFIABLE has its own images accepted.
* `F_C49_erased_boot_key_replaced`: NONMODIFIABLE alone does not help, ERASETRUSTED removes the key.
* `F_C49_revoked_key_verifies`: the image manager checks neither usage flags nor revocation.

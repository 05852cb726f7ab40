# Formal model of mutecomm/mute in Lean 4

## Layout

* `lean/Verif/Go.lean` – Go results (`ok`/`err`/`panic`), bytes, fixed-width integers.
* One directory per area, each with
  `Model.lean` (definitions that follow the Go code, every one citing file and lines),
  `Spec.lean` (small independent specification, where the statement needs one),
  `Lemmas.lean` (helpers), and
  `Props.lean` (the property theorems, non-vacuity examples beside them).
* `properties.jsonl` – English properties; `MANIFEST.json` – property → theorems;
  `seeded/LOG.jsonl` – wrong programs tried against the theorems.
  The runs put the edited module and those that depend on it in one file. In some of them a
  proof of the send loop failed for that reason alone, so `C45_next_run_delivers` and
  `C46_terminates` were taken out again from the entries where their failure was not
  confirmed by a second run.

## Plan per property

| id | model | proof |
|----|-------|-------|
| C01 | `writeOuter`/`readOuter` over byte lists, big-endian 16/32-bit fields | round-trip for all headers and trailing bytes; prefix cut ⇒ error by length argument |
| C02 | same for inner headers | round-trip under `len ≤ 65535`; negation above with a witness family |
| C03 | `toByte8/toUint64` etc. with explicit panic | round-trips both directions by arithmetic |
| C04 | pre-header writer/reader (JSON codec is a parameter with a round-trip hypothesis) | round-trip |
| C05 | `generateMessageKeys` with hash/HMAC as parameters | induction over batches: the concatenation of batches equals one batch; sender/recipient symmetry |
| C06 | `deriveRootKey`, `checkKeys`, DH as parameter with commutation hypothesis | equational |
| C07 | memstore as a state machine | invariant over op lists + refinement to an abstract table |
| C08 | keydb SQL tables as row lists with SQLite rowid rules, incl. `LastInsertId` | negation with a witness history; partial refinement for histories that never extend a session |
| C09 | byte-size calculation of `Encrypt` over a writer model | arithmetic for all lengths |
| C10–C12 | `Decrypt` as a step function over an abstract message with crypto as parameters | case analysis; replay over op lists |
| C13, C14 | key-extension arithmetic with 64-bit wrap | induction for counts in range; witness for the failures |
| C15 | chunk splitting on lists | induction |
| C16 | `Map`, `IsMapped`, … on character lists | structural |
| C17 | `VerifySrvSig` with crypto parameters | negation with witness; partial for what is checked |
| C18, C19 | UID chain / KeyInit decision logic | induction over chains; iff characterisation |
| C20–C23 | hash chain entries, validation, sync, search; hash as parameter | induction over chains with injective-hash hypothesis |
| C24–C31 | mix envelope, headers, addresses, lists, message marshalling, retry loops, line splitting | round-trips, iffs, panic witnesses |
| C32–C35 | config client as a state machine over server replies | invariant over histories; witness for the panic |
| C36–C43 | wallet store as a state machine; reissue as a sequence of persistent steps with crash points; key pool | invariants; witnesses |
| C44–C51 | message database tables as row lists; send/fetch/process loops | invariants over op lists; crash = prefix of the atomic step list |
| C52, C53 | key file bytes over an abstract file system with atomic rename | round-trip; crash points as prefixes |
| C54, C55 | text buffer and cursor | structural induction |
| C56–C58 | arithmetic and loops | case analysis / induction |
| C59, C60 | `Decrypt` as modelled for C10 | negation with witness messages; partial positive parts |
| C61 | `Encrypt` and `Decrypt` composed over two stores | invariant over the list of messages |
| C62 | concrete JSON encoder for headers and UID messages | length arithmetic; negation for UIDs with SIGESCROW |
| C63 | `msgid` over hex strings | injectivity of the hex encoding and of the time/nonce pair |
| C64, C65 | MIME writer/parser over the parsed form of the Go library's text layer | round-trip; exact panic condition; negation for an empty subject |
| C66 | CBC/CTR over an abstract invertible block cipher | induction over blocks |
| C67 | creation of an encrypted database as a list of file system steps | negation: one crash point blocks Create and Open |
| C68, C69, C72 | `uid.Create`, `Check`, KeyInit checks; signed bytes with the concrete JSON encoding | iff characterisation of `Check`; parsing argument for injectivity of the encoding; panic witness family |
| C70, C71, C73–C76 | key server as an honest registry, the client's key database as tables | induction over the chain; negations for a refused registration, stale keys and unchecked KeyInit |
| C77–C80 | mix envelopes, address lists, key files, message lists | stability of marks; injectivity; invariants over histories; negations |
| C81 | certificate handling of the config client | success half by case analysis; negation with a failing fetch |
| C82 | reissue to a new own key | negation (nil owner); partial under a named owner |
| C83, C89 | runner goroutine as a transition system (mutex, channel length) | invariants over all interleavings; negations for stop and second start |
| C84, C85, C91 | signing keys, tokens with ASN.1 encodings | round-trips; injectivity; negation by moving a byte |
| C86 | wallet balance vs. take over all well-formed databases | counting lemma |
| C87, C90, C92, C93 | guard client with cached data and key lookup | case analysis, negations |
| C88 | key pool rotation | bound by arithmetic; negation |
| C94–C96 | wallet and lookup RPC loops over arbitrary server replies | induction over the replies; negations |
| C97, C98 | nym deletion with foreign keys and cascades; read/delete ownership | frame conditions over row lists; invariant over histories |
| C99–C101 | contact commands of the control engine | case analysis over the contact table; negation for the shadowed variables |
| C102–C104 | editor drawing and cursor over text buffers of any content | induction over cells; negations on wide characters |
| C105 | the wallet queries for renewal over any token table | minimum over the due rows; negation with a half-way renewal |
| C106, C107 | `upkeep` of accounts against any wallet, server and clock | frame and step lemmas over the account list; invariant over histories; negations with toy servers |
| C108–C111 | the `uid` commands as programs over any environment, with the command loop of `mutecrypt` as a process that answers with lines | weakest-precondition style rules for logs, successful runs and database changes; invariant over command histories; toy worlds for negations |
| C112 | `MailboxAddress`, `NewNymAddress` and the opening of an envelope as functions, composed with the mix model of C26 | composition of C26_relay with base64 and hex lemmas; toy primitives for the concrete case |
| C113 | Go's `bufio.Scanner` with its buffer, old arrays and slices into them; the passphrase dialogs as programs that keep slices | invariant over reads: for short inputs nothing is moved, so a slice keeps its line; computation for the long ones |
| C114 | the disk as two locked databases and a file, a write budget as the crash point; `db create`, `db rekey` of both programs, preparation of commands, as programs over it | case lemmas for all outcomes of every program; an order on disks that every step of a history respects |
| C115 | `InitMute` on the settings, `upkeepFetchconf`, `getConfig`, `prepare`, `upkeep fetchconf`, the arguments of the interactive mode | outcomes of a fetch, invariant over histories (signed, file not newer than database), negations by computation |
| C116 | `checkUpdates` and the decision of `upkeepUpdate`, dates by a parameter `parse` | case analysis; composition with the fetch for the signature |
| C117 | the two processes of a fetch and the three goroutines of `muteprotoFetch` as a transition system: pipes of a given capacity, reads and writes in arbitrary pieces, the unbuffered channels, kills and database failures | invariant over all executions (the unread status output is a rest of the expected stream; the bytes under way are a prefix of the present text); a decreasing measure for termination; progress from the invariant |
| C118 | the web interface: every request a thread of its own, the passphrase, the secret and the database shared; log of what was posted, granted and served | invariant over all interleavings: every entry of the log is justified by the entries before it; witnesses for the violations |
| C119 | the main goroutine, the handler of interrupts and the command as a transition system with unbuffered channels and a signal channel of room one | invariant over all executions, progress by cases from it, a bounded run of own steps after an interrupt; a set of states closed under steps for the hang |
| C120 | `muteproto create` and `deliver` with their exit status and error output, how the engine reads it; composed with the mail client (C29), mix messages (C26, C31) and histories of sending (C45) | decision table over all answers of the server, lemmas on prefixes and suffixes of trimmed texts, an invariant of the log over all histories, composition; a fixed point of the send command for the blocked queue |
| C121 | `msg list` and `msg read` byte by byte over the message database, with `mime.QEncoding` of the Go library; the reader is a separate specification (lines, columns, headers, RFC 2047 words) | reading what was printed, by induction over lines, headers and encoded words; an invariant over all histories for the names and subjects stored; witnesses for identities with tabs and line breaks |
| C122 | `mutecrypt decrypt` and `encrypt` as processes: their writes to the two outputs, stopped after any of them, and how the engine reads the outputs and the exit status; composed with the models of `msg.Decrypt` (C10, C12), of the in-queue (C48) and of the send command | case analysis of the writes and of the scanner (C113); source of every inbox entry by induction over the run; the two disagreements with concrete accepted messages |
| C123 | the cache of key server clients as a state machine over commands with arbitrary worlds per step (`Crypt/Cache`); the maps equal the newest successful answers in the observable log by induction over histories |
| C124 | `packetproto` on the concrete ASN.1 of tokens, packets and keys and the key pool (`Guard/Packet`); blind signatures are a parameter with the law that an honest reply unblinds to a valid signature; composed with the verification of tokens by the receiver |
| C125 | the loop of mutecrypt over `bufio.Scanner` with any chunking and Go's option parser (`Crypt/Loop`, `Util/Flags`, `Ctrl/ScanPending`); refinement to a script executed line by line, by induction over rounds with the pending text as abstraction; violations by witnesses |
| C126 | the interactive shell of mutectrl as a recursive interpreter of prompts (`Ctrl/Shell`); refinement to a session specification by induction over the inputs; termination for every session; violations by witnesses |
| C127 | the options `--mindelay` and `--maxdelay`: Go's `ParseInt`, the check, the conversion to 32 bits, the text handed to muteproto (`Ctrl/Delay`); inverse of printing for all integers, composed with C120; the wrap around by witness |
| C128 | `mail.Parse` on a model of `textproto.ReadMIMEHeader` and the other inputs of `msg add` (`Ctrl/MailInput`); the parser inverts a printer of mails with folded fields, by induction over the fields; composed with the database |
| C129 | the key handlers of the editor (`Tui/Keys`) against a table of moves; reachability of every cell by induction |
| C130 | the dialogue of `contact add` with the command loop of `mutecrypt` (`Ctrl/AddContact`, on `Crypt/Loop` and `Crypt/Model`): by induction on the lines of the dialogue, success is equivalent to the success of the five commands; violated for hostile error texts, interrupts and line feeds |
| C131 | `GetToken` and `WalletToken` (`Guard/GetToken`, on `Guard/Store` and `Guard/Reissue`): the two choices of the store, inversion of the runs, and the invariant of the reissue over all crash points; violated for other errors of the store, the usage, and keys that the client does not take |
| C132 | Accounts of the message database (`Msgdb/Accounts`, on `Msgdb/Model` and the invariant of `Msgdb/Inv`): refinement of a book indexed by nym and contact, over all histories including deletions of nyms that free row numbers. |
| C133 | The maintainer of the keys of a mix (`Mix/Maintain`, on the key list of `Mix/Addr`): a fold over ticks with an invariant for the newest key, a spacing invariant for the number of keys, and two witnesses for configurations that nothing rules out. |
| C134 | The requests to a mix (`Ctrl/MixKeys`, on `Ctrl/Mailbox`): address and statement related by inversion of `NewNymAddress`; the missing verification as a theorem about a forger's key. HTTP, DNS and JSON are parameters. |
| C135 | Key entries (`Uid/Keys`) with the keys held in memory and the two flags; a view of an entry (exported fields and last accepted private key) as specification, invariant over all sequences of calls. |
| C136 | (`Crypt/KeyInits`) The table of private KeyInits, adding and flushing KeyInits with every answer of the server, the lookup of the private key; invariant over histories that every row belongs to a published key, composed with the sender's lookup. |
| C137 | `Ctrl/Source`: the source directory, the commands with every outcome (done, failed, stopped midway), the text of head.go line by line; invariant over histories of attempts, then each step of a working attempt. |
| C138 | `Guard/KeyStore`: the table and the files, the chains of callbacks, `Current` and `SaveKey` with every outcome of a write, restarts and loading; invariant over histories, with the key pool of `Guard/KeyPool`. A cut-off file is shown unreadable from the encoding. |
| C139 | `Ctrl/Calls`: the options and commands of `mutecrypt` and `muteproto`, the flag parser of `Util/Flags` with the rules of the command line library (reordering, help, groups), the file descriptor table and the arguments of every call; one lemma shows that a line written as options, command, options is taken apart again, and each call is an instance. Lines to the loop go through `strings.Fields`. The help request in an identity is a witness. |
| C140 | `Ctrl/Vacuum`: a database as contents, unused pages and mode; case analysis of `Vacuum` and `Incremental` with failing statements; the call of `mutecrypt` through the command line model of `Ctrl/Calls`, which refuses the option. |
| C141 | `Keydb.Store` runs the programs of Encrypt and Decrypt on the tables of the key database (with a new connection per run, and session states stored without private keys) and proves a simulation: a successful run on the store in memory whose calls are covered by C28 gives the same result on the tables. `Keydb.Talk` shows that the runs of a conversation are covered as long as no session has to be extended, which gives the conversation, and that the first extension leaves the sender unable to send for good (`_violated`). |
| C142 | `Msg/AnyOrder`: `sendAll` encrypts a list of messages, `openAll` opens arrivals in any order with repetitions on the memory store. Specification: a `Window` (number of keys made, messages opened) and `expected`. Proved by an invariant of the recipient's session (every key below the number made is there unless its message was opened), exact in both directions; the first arrival may be any message, also one that announces the next session. Cases in `Msg/AnyOrderToy`. Violated for large batches opened newest first. |
| C143 | `Ctrl/Journey`: the models of C142 (encryption, decryption), C120/C121 (envelope, delivery), C26/C112 (mix, nym address), C118 (mailbox and fetch) and C94/C122 (in-queue, calls of mutecrypt) put together: a run of the sender's program, the way of a mail through the mix as a relation, and a run of the in-queue whose answers come from the decrypting program itself; the in-queue proof of C94 is repeated with a state for the answering program, and the any-order theorem of C142 supplies the answers. `Ctrl/JourneyStuck` shows what happens beyond the limit of C142: the in-queue stops at the refused message in this and all later calls, whatever is fetched in between. `Ctrl/JourneyToy` has closed cases. |
| C144 | `Keydb/AnyOrder`: lists of runs of the encrypting and decrypting programs on the tables of the key database. The runs of C142 on the memory store are shown to be covered by the simulation of C141 for every order of arrival, also when the first arrival announces the next session (two sessions are stored at once), so that they give the same on the tables. `Ctrl/JourneyDb` puts the programs with the key database into the journey of C143; the part of C143 after the decryption (`stored_all`) is the same for any decrypting program. |
| C145 | `Msg/TwoWayTalk` (with `Msg/TwoWay`, `TwoWayParty`, `TwoWayEnc`, `TwoWayDec`, `TwoWayJoint`): two memory stores and a list of actions, each of which encrypts a message in one of the directions or gives any earlier message to Decrypt. Sessions are refreshed with the random choices of Encrypt and Decrypt. Specification: inductive `Allowed` over the lists of messages sent, with the headers they were written with, and opened. Proved by an invariant over both stores: a common list of sessions, what each user knows of it (current session, next own key, next key seen), the five ways the two views can be apart, and for every message sent the keys its header names. Hypotheses: the keys drawn are different and the hashes and session names made of them do not collide. `Msg/TwoWayToy` shows a conversation that meets all of this. |
| C146 | `Msg/TwoWayRefresh`: the stores after a list of actions of C145; the keys in use are read off the session states (`UsesA`, `UsesB`). The negation is proved by an invariant (`Half`) on top of that of C145: both users have drawn a next key and no message in flight names the other's, so that neither the condition for preparing nor that for switching a session is ever met again. The exchange in turns is followed message by message. `Msg/TwoWayRefreshToy` shows conversations that meet the hypotheses. |
| C147 | `Msg/TwoWayErase` (cases in `Msg/TwoWayEraseToy`): the invariant of C145 says in addition which private session keys the store has (`PInv.erased`) and that the keys of sent messages are blank (`SInv.gone`); the specification (`KeepsOnly`, `Spent`) reads the store and the header of each message. The negation for the first session computes the message key from what the recipient's store still holds (`recover`). |
| C148 | `Msg/Crossing` (with `Msg/CrossSide`, `Msg/CrossParts`): the actions of C145, with both users having the other's KeyInit (`Contact`). Specification: inductive `Free`, symmetric in the two users. Proved with the invariant of C145, in which each user's view has a part for sessions beside the conversation (`View.base`, `View.ex`): before the users have a session in common each may have one of their own (`First`); then the user with the larger identity starts anew from the other's message, while the messages of the abandoned session are opened beside the common one (`Back`, `Beside`). A case in `Msg/CrossingToy`. |
| C149 | `Msg/CrossErase` (cases in `Msg/CrossEraseToy`): the specification of C147 in the setting of C148. The invariant of C148 says in addition that the session given up by the user with the larger identity is still stored as it was (`Crossed`, `Aside`), so the keys of its sent messages are blank. For the negation `Msg/KeepKey` proves which calls Encrypt and Decrypt can make that change a given session key (`Avoids`): the key of the abandoned session is never named again, and `recoverSent` computes the message key from it. |
| C150 | `Msg/Reset` (cases in `Msg/ResetToy`): the code disagrees with doc/messages.md. `NoSet` collects the programs that never call SetSessionState; Decrypt is one of them whenever the recipient has a state that the tie-break keeps, whatever the status of the header. An answer is then a message of the old session; in the store of the user who started anew that session and the private key it names are missing, so Decrypt stops before it writes anything. `writeAll` writes any list of answers. `Keydb/Reset` (cases in `Keydb/ResetToy`) proves the same of Decrypt on the tables of the key database. |
| C151 | `Msg/Forged` (cases in `Msg/ForgedToy`): the code disagrees. Decrypt stores session, keys and session state before it looks at the body, and nothing in the header is authenticated by the sender's key. `forgery` is a message made of public data and keys of somebody else, without a body; it is read by `decHead_message`, `dec_first` gives the state it leaves, and the invariant `PInv` of that state shows that answers can be written; they are refused as in C150. `C151_first_contact_violated` adds a genuine first message, which is opened and does not change the state (`dec_second`). What holds: unreadable inputs change nothing, and an answered session is not given up for another one. `Keydb/Forged` (cases in `Keydb/ForgedToy`) shows with the key database what the refused message leaves behind: the run of the session handling is carried over from the memory store by `Rel.sim`, the rest does not touch the table of session states (`noset_states`). |
| C152 | Msg/Damaged: the conversation of C145 with an extra action that gives Decrypt a copy of any message whose bytes after the two header packets (7274 bytes) are replaced by arbitrary ones. `dec_damaged` shows that a refused copy leaves the invariant of C145 as it was: session handling and key derivation happen as for the intact message, and the body only writes output; a copy that is accepted contains an HMAC under the key of the message and uses that key up; induction over the actions. Case in Msg/DamagedToy. |

None of the listed properties is out of reach of a model. What no model here covers:
confidentiality (computational), timing, goroutine scheduling inside the Go
runtime, the SQLite engine itself and the TLS/JSON transport.

## How the code is modelled

* A Go function becomes a total Lean function returning `Res ε α` (`ok`, `err`, `panic`), so
  that a panic is an observable outcome. Loops over data are structural recursion; loops with
  a retry bound carry the bound.
* Functions that use a store (`Encrypt`, `Decrypt`, key agreement) are programs in a free
  monad `Prog` over the calls of the session.Store interface; `Prog.run` executes them against
  the in-memory store. Crash points are prefixes of the list of calls.
* SQL tables are lists of rows with SQLite's rules for rowids, uniqueness, foreign keys and
  `ON DELETE CASCADE` where a query relies on them (`Verif/Sql.lean`, `Verif/Msgdb`).
* Persistent multi-step operations (reissue, send, fetch, key file, mix keys) are lists of
  atomic steps; theorems about crashes quantify over every cut of that list.
* Concurrent code (runner, mutexes) is a transition system; theorems quantify over every
  interleaving.
* Integers that can wrap are `UInt8/16/32/64`; all others are unbounded where the code cannot
  reach a wrap, and the comment says so.

## Trusted base

* Lean 4.33.0's kernel, and nothing compiled: no `native_decide`, `bv_decide`,
  `implemented_by` or `unsafe`, no axioms of our own, no Mathlib module is imported.
* Axioms: at most `propext`, `Classical.choice` and `Quot.sound`. The exact set for every
  theorem in MANIFEST.json, produced with `tools/mkaxioms.py` (`#print axioms`):

<!-- axioms -->
* **none** (11 theorems): `Conf.C35_not_pem_panics`, `Conf.C81_certificate_lost`, `Ctrl.App.C118_race_violated`, `Ctrl.Setup.C116_date_violated`, `Guard.C40_rejected`, `Mix.C133_entry`, `Mix.C24_no_recipient`, `Mix.C24_short`, `Mix.C79_lost_key`, `Msgdb.C44_unrestricted_violated`, `Msgdb.C98_read_mark_unchecked`

* **propext** (61 theorems): `Crypt.Cache.C123_other_host_violated`, `Crypt.Loop.C125_order_violated`, `Crypt.Loop.C125_quit_violated`, `Ctrl.App.C118_any_passphrase_violated`, `Ctrl.App.C118_empty_cookie_violated`, `Ctrl.C101_only_white_listed`, `Ctrl.C101_refused`, `Ctrl.C45_empty_envelope_blocks`, `Ctrl.C99_name_and_list_ignored`, `Ctrl.C99_name_and_list_kept_violated`, `Ctrl.C99_stranger_white_listed`, `Ctrl.Calls.C139_contact_lines`, `Ctrl.Deliver.C120_refused_blocks_violated`, `Ctrl.MailInput.C128_text`, `Ctrl.MixKeys.C134_bare_violated`, `Ctrl.Setup.C115_offline_loop_violated`, `Ctrl.Setup.C116_same_date_violated`, `Ctrl.Shell.C126_quit_violated`, `Ctrl.Shell.C126_typo_violated`, `Ctrl.Show.C121_header_violated`, `Ctrl.Show.C121_list_violated`, `Ctrl.Show.C121_subject_violated`, `Ctrl.Shutdown.C119_error_status`, `Ctrl.Source.C137_local_changes`, `Ctrl.Uid.Toy.C108_spent_violated`, `Ctrl.Uid.Toy.C109_lost_violated`, `Ctrl.Uid.Toy.C109_made_violated`, `Ctrl.Uid.Toy.C111_exists_violated`, `Ctrl.Upkeep.C106_not_due`, `Ctrl.Upkeep.C106_period_violated`, `Ctrl.Upkeep.C107_all_violated`, `Ctrl.Upkeep.C107_blocked_violated`, `Ctrl.Upkeep.C107_paid_again_violated`, `Ctrl.Vacuum.C140_command_contents`, `Ctrl.Vacuum.C140_contents`, `Guard.C42_kinds_differ`, `Guard.C42_sign_verify`, `Guard.Runner.C89_kept`, `Guard.Store.C86_empty`, `Mime.C15_decode_sound`, `Mime.C64_empty_subject_unreadable`, `Mime.C65_parse_can_panic`, `Mime.C65_parse_no_panic_partial`, `Mix.C28_add_statement`, `Mix.C29_already_sent`, `Mix.C29_duplicate`, `Mix.C29_tls_required`, `Mix.C30_short_error_crashes`, `Mix.C80_all_listed`, `Mix.C80_not_an_object`, `Mix.C80_prefix_partial`, `Mix.C80_silently_truncated`, `Msg.C14_index_wraparound`, `Msg.C14_index_wraparound_zero`, `Msgdb.C51_removed_unblocks`, `Tui.C104_set_column_violated`, `Tui.C129_disabled`, `Tui.C54_invalid_bytes_changed`, `Tui.C55_beyond_line_violated`, `Tui.C55_no_line_violated`, `Uid.Keys.C135_equal`

* **Quot.sound** (1 theorems): `Ctrl.Uid.C110_not_confirmed`

* **Quot.sound, propext** (184 theorems): `Cipher.C66_aes_round_trip`, `Conf.C115_max_delay`, `Conf.C33_generated_certified`, `Conf.C33_iteration_order`, `Conf.C35_no_panic_partial`, `Conf.C35_second_update_panics`, `Conf.C35_success_keeps_index`, `Crypt.C22_delete_chain`, `Crypt.C22_sync_other_domain`, `Crypt.C70_sync_completes`, `Crypt.C73_refused_reply_is_final`, `Crypt.C73_registers_partial`, `Crypt.C74_delete_removes_partial`, `Crypt.Cache.C123_cached`, `Crypt.Cache.C123_failure`, `Crypt.Cache.C123_first`, `Crypt.Cache.C123_no_panic`, `Crypt.Cache.C123_once`, `Crypt.Cache.C123_shown`, `Crypt.Cache.C123_supported`, `Crypt.Loop.C125_options`, `Ctrl.C100_unblock_only_blocked`, `Ctrl.Calls.C139_globals`, `Ctrl.CryptRun.C122_authenticated`, `Ctrl.CryptRun.C122_delivered`, `Ctrl.CryptRun.C122_encrypted`, `Ctrl.CryptRun.C122_exact`, `Ctrl.CryptRun.C122_no_key`, `Ctrl.CryptRun.C122_nym_source`, `Ctrl.CryptRun.C122_nym_violated`, `Ctrl.Delay.C127_refused`, `Ctrl.Deliver.C120_bare_reply_violated`, `Ctrl.Deliver.C120_recorded_sent`, `Ctrl.Deliver.C120_reply`, `Ctrl.MailInput.C128_mail`, `Ctrl.MailInput.C128_no_recipient`, `Ctrl.MailInput.C128_stored`, `Ctrl.Mailbox.C112_own_mailbox`, `Ctrl.MixKeys.C134_revoke`, `Ctrl.Scan.C113_create_violated`, `Ctrl.Scan.C113_rekey_violated`, `Ctrl.Setup.C114_rekey_half_violated`, `Ctrl.Setup.C114_rekey_outcomes`, `Ctrl.Setup.C115_fresh_partial`, `Ctrl.Setup.C115_offline`, `Ctrl.Setup.C115_offline_violated`, `Ctrl.Setup.C115_stale_violated`, `Ctrl.Setup.C116_not_refused`, `Ctrl.Setup.C116_update_possible`, `Ctrl.Shell.C126_offline_violated`, `Ctrl.Shell.C126_options_partial`, `Ctrl.Shell.C126_session_partial`, `Ctrl.Show.C121_subject_partial`, `Ctrl.Shutdown.C119_early_interrupt_violated`, `Ctrl.Shutdown.C119_interrupt_status_violated`, `Ctrl.Source.C137_abbreviated_violated`, `Ctrl.Source.C137_cut_off_violated`, `Ctrl.Source.C137_installed`, `Ctrl.Source.C137_mixed_violated`, `Ctrl.Source.C137_recovers`, `Ctrl.Source.C137_recovers_partial`, `Ctrl.Source.C137_sources`, `Ctrl.Source.C137_up_to_date`, `Ctrl.Transfer.C117_terminates`, `Ctrl.Uid.C110_failed_unchanged_partial`, `Ctrl.Upkeep.C106_all`, `Ctrl.Upkeep.C107_lost_answer_violated`, `Ctrl.Upkeep.C107_other_server_violated`, `Ctrl.Vacuum.C140_commands_missing_violated`, `Guard.C39_new_owner_lost`, `Guard.C39_no_owner_panics`, `Guard.C40_created_accepted`, `Guard.C42_reissue_injective`, `Guard.C42_spend_injective`, `Guard.C85_hash_injective_partial`, `Guard.C85_owner_not_bound`, `Guard.Client.C92_ownerless_panics`, `Guard.Client.C93_fetched_partial`, `Guard.Client.C93_nothing_loaded`, `Guard.GetToken.C131_lost_violated`, `Guard.GetToken.C131_need_owner`, `Guard.GetToken.C131_nil_violated`, `Guard.GetToken.C131_other_usage_violated`, `Guard.KeyPool.C41_lookup`, `Guard.KeyPool.C41_rejected`, `Guard.KeyPool.C84_moved_byte`, `Guard.KeyPool.C88_half_partial`, `Guard.KeyPool.C88_rotation`, `Guard.Reissue.C82_new_key_panics`, `Guard.Rpc.C94_requests`, `Guard.Runner.C83_exclusive_partial`, `Guard.Runner.C83_never_stops`, `Guard.Runner.C89_continues`, `Guard.Runner.C89_one_load`, `Guard.Store.C105_continued`, `Guard.Store.C36_held_not_taken`, `Guard.Store.C39_others_unchanged`, `Guard.Store.C43_state_kept`, `Guard.Store.C86_added`, `Guard.Store.C86_find`, `Ident.C16_isMapped_iff`, `Ident.C16_mapPlus`, `Ident.C16_map_canonical`, `Ident.C16_map_idempotent_ascii_partial`, `Ident.C16_map_idempotent_partial`, `Keydb.C150_refused_db_violated`, `Keydb.C150_reset_db_violated`, `Keydb.C151_established_db_partial`, `Mime.C64_mime_round_trip_partial`, `Mime.C64_split_message`, `Mix.C133_bounded`, `Mix.C133_grows_violated`, `Mix.C24_round_trip`, `Mix.C24_sound`, `Mix.C24_unknown_key`, `Mix.C25_any_plaintext`, `Mix.C25_length_crashes_mix`, `Mix.C25_owner_no_panic`, `Mix.C25_receive_no_panic_partial`, `Mix.C25_send_no_panic`, `Mix.C26_forward_no_revoke`, `Mix.C27_foreign_header`, `Mix.C27_nym_as_returned`, `Mix.C27_nym_encryption`, `Mix.C28_append_exact`, `Mix.C28_expire_exact`, `Mix.C28_rand`, `Mix.C29_outcomes`, `Mix.C29_reply_code`, `Mix.C30_bounded_calls`, `Mix.C30_first_success`, `Mix.C30_honest_server`, `Mix.C30_short_fetch_crashes`, `Mix.C77_replay_detected`, `Mix.C77_single_use`, `Mix.C78_signed_verifies`, `Mix.C79_expired_key_refused`, `Mix.C79_keys_saved`, `Msg.C05_empty_batch_wipes_chain`, `Msg.C05_number_of_keys`, `Msg.C05_same_message_keys`, `Msg.C06_agreement_symmetric`, `Msg.C06_reflection_rejected`, `Msg.C07_undeleted_key_unchanged`, `Msg.C09_output_size`, `Msg.C09_padding_always_fits`, `Msg.C10_success_is_authenticated`, `Msg.C11_negation_unauthenticated_content_released`, `Msg.C11_no_key_no_output_partial`, `Msg.C13_default_limit`, `Msg.C13_in_order_partial`, `Msg.C13_negation_session_gets_stuck`, `Msg.C14_extension_bounded`, `Msg.C14_key_generation_bounded`, `Msg.C14_too_many_rejected`, `Msg.C150_followed_partial`, `Msg.C150_reset_violated`, `Msg.C150_restart_violated`, `Msg.C150_status_violated`, `Msg.C151_established_partial`, `Msg.C151_unreadable_partial`, `Msg.C59_bound_to_identity_key_partial`, `Msg.C60_negation_bad_signature_key`, `Msg.C60_no_panic_partial`, `Msgdb.C50_unknown_id`, `Tui.C102_all_columns`, `Uid.C69_signature_checks_total`, `Util.C20_split_entry`, `Util.C20_split_entry_exact`, `Util.C57_wallet_polling`, `Util.C63_message_id_sender`, `Util.C63_message_id_unique`, `Wire.C01_outer_truncated`, `Wire.C02_inner_truncated_input`, `Wire.C03_decode_encode`, `Wire.C03_encode_decode`, `Wire.C03_panics_iff`, `Wire.C03_toByte8_spec`, `Wire.C03_toUint64_spec`, `Wire.C04_first_read_sound`, `Wire.C04_first_roundtrip`, `Wire.C04_preheader_read_sound`, `Wire.C04_preheader_roundtrip`, `Wire.C04_preheader_truncated`

* **Classical.choice, Quot.sound, propext** (372 theorems): `Cipher.C66_aes_panics`, `Conf.C32_accepted`, `Conf.C32_certify_exact`, `Conf.C32_date_monotone`, `Conf.C32_failed_keeps`, `Conf.C32_fresh_accepted`, `Conf.C32_stored_signed`, `Conf.C33_image_injective`, `Conf.C33_signed_injective`, `Conf.C34_order`, `Conf.C34_parse`, `Conf.C81_certificate_matches`, `Crypt.C21_linked_validates`, `Crypt.C21_tamper_evident`, `Crypt.C21_validated_linked`, `Crypt.C22_history_kept`, `Crypt.C23_foreign_identity_stored`, `Crypt.C23_stored_vouched_partial`, `Crypt.C71_search_finds_newest`, `Crypt.C74_deleting_leaves_old_keys`, `Crypt.C75_forged_key_init_used`, `Crypt.C75_key_entry_partial`, `Crypt.C76_first_key_init_wins`, `Crypt.KeyInits.C136_found`, `Crypt.KeyInits.C136_lost_violated`, `Crypt.KeyInits.C136_reaches`, `Crypt.KeyInits.C136_signed`, `Crypt.KeyInits.C136_unknown`, `Crypt.Loop.C125_answers_partial`, `Crypt.Loop.C125_homedir_violated`, `Crypt.Loop.C125_pieces_partial`, `Crypt.Loop.C125_refused_violated`, `Crypt.Loop.C125_script_partial`, `Ctrl.AddContact.C130_accepted`, `Ctrl.AddContact.C130_contact_partial`, `Ctrl.AddContact.C130_injected_violated`, `Ctrl.AddContact.C130_interrupted_violated`, `Ctrl.AddContact.C130_looked_up_partial`, `Ctrl.AddContact.C130_newline_violated`, `Ctrl.App.C118_available`, `Ctrl.App.C118_passphrase_partial`, `Ctrl.App.C118_secret_partial`, `Ctrl.C100_block`, `Ctrl.C100_block_unblock`, `Ctrl.C100_blocked_not_stored`, `Ctrl.C100_edit`, `Ctrl.C100_unblock`, `Ctrl.C44_engine_exactly_one_state`, `Ctrl.C45_next_run_delivers`, `Ctrl.C45_nothing_lost`, `Ctrl.C45_sent_was_accepted`, `Ctrl.C46_in_order`, `Ctrl.C46_oldest_first`, `Ctrl.C46_terminates`, `Ctrl.C47_each_once_partial`, `Ctrl.C47_interrupted_loses`, `Ctrl.C48_all_processed_partial`, `Ctrl.C48_bad_head_blocks`, `Ctrl.C48_terminates`, `Ctrl.C99_known_contact_partial`, `Ctrl.C99_new_contact_nameless`, `Ctrl.Calls.C139_help_violated`, `Ctrl.Calls.C139_piped_partial`, `Ctrl.Calls.C139_understood`, `Ctrl.CryptRun.C122_inbox`, `Ctrl.CryptRun.C122_tab_violated`, `Ctrl.Delay.C127_create`, `Ctrl.Delay.C127_fits`, `Ctrl.Delay.C127_sent`, `Ctrl.Delay.C127_stored_partial`, `Ctrl.Delay.C127_wrap_violated`, `Ctrl.Deliver.C120_accepted_again_violated`, `Ctrl.Deliver.C120_accepted_recorded_partial`, `Ctrl.Deliver.C120_end_to_end`, `Ctrl.Deliver.C120_report`, `Ctrl.Deliver.C120_sent_is_sent`, `Ctrl.Journey.C143_arrives_partial`, `Ctrl.Journey.C143_blocked_violated`, `Ctrl.Journey.C143_mixed_partial`, `Ctrl.Journey.C144_arrives_partial`, `Ctrl.Mailbox.C112_arrives_partial`, `Ctrl.Mailbox.C112_no_panic_partial`, `Ctrl.Mailbox.C112_other_identity`, `Ctrl.Mailbox.C112_other_server_violated`, `Ctrl.Mailbox.C112_short_server_violated`, `Ctrl.MixKeys.C134_candidates`, `Ctrl.MixKeys.C134_forged_violated`, `Ctrl.MixKeys.C134_no_answer`, `Ctrl.MixKeys.C134_unsigned_violated`, `Ctrl.Scan.C113_create_partial`, `Ctrl.Scan.C113_hand_on_partial`, `Ctrl.Scan.C113_hand_on_rekey_partial`, `Ctrl.Scan.C113_hand_on_violated`, `Ctrl.Scan.C113_readline`, `Ctrl.Scan.C113_rekey_partial`, `Ctrl.Setup.C114_created_partial`, `Ctrl.Setup.C114_creates_partial`, `Ctrl.Setup.C114_kept`, `Ctrl.Setup.C114_rekey_stuck_violated`, `Ctrl.Setup.C114_rekeyed_partial`, `Ctrl.Setup.C114_rekeys_partial`, `Ctrl.Setup.C114_repeat_violated`, `Ctrl.Setup.C114_wallet`, `Ctrl.Setup.C114_walletkey_violated`, `Ctrl.Setup.C115_monotone`, `Ctrl.Setup.C115_signed`, `Ctrl.Setup.C115_unusable_violated`, `Ctrl.Setup.C116_check`, `Ctrl.Setup.C116_no_downgrade`, `Ctrl.Shell.C126_ends`, `Ctrl.Show.C121_list_partial`, `Ctrl.Show.C121_read_partial`, `Ctrl.Show.C121_words`, `Ctrl.Shutdown.C119_interrupt_ends`, `Ctrl.Shutdown.C119_no_deadlock_partial`, `Ctrl.Shutdown.C119_status_partial`, `Ctrl.Transfer.C117_cache`, `Ctrl.Transfer.C117_complete`, `Ctrl.Transfer.C117_exact`, `Ctrl.Transfer.C117_finishes`, `Ctrl.Transfer.C117_no_deadlock`, `Ctrl.Transfer.C117_no_error`, `Ctrl.Transfer.C117_repeat_violated`, `Ctrl.Uid.C108_settled_partial`, `Ctrl.Uid.C109_failed_unchanged`, `Ctrl.Uid.C109_made_partial`, `Ctrl.Uid.C110_deleted`, `Ctrl.Uid.C110_not_repeatable_violated`, `Ctrl.Uid.C111_exists_partial`, `Ctrl.Uid.C111_some`, `Ctrl.Uid.C111_switched`, `Ctrl.Uid.Toy.C108_settled_violated`, `Ctrl.Upkeep.C106_failed_not_recorded`, `Ctrl.Upkeep.C106_period_partial`, `Ctrl.Upkeep.C107_kept`, `Ctrl.Upkeep.C107_once`, `Ctrl.Upkeep.C107_tokens`, `Ctrl.Vacuum.C140_command_violated`, `Ctrl.Vacuum.C140_compact`, `Ctrl.Vacuum.C140_incremental`, `Ctrl.Vacuum.C140_key_database`, `Ctrl.Vacuum.C140_modes`, `Ctrl.Vacuum.C140_status`, `Encdb.C52_rekey_keeps_key`, `Encdb.C52_rekey_result`, `Encdb.C53_power_loss_loses_key`, `Encdb.C53_rekey_crash_partial`, `Encdb.C67_interrupted_create_blocks`, `Guard.C39_round_trip_partial`, `Guard.C40_accepted_signed`, `Guard.C40_signed_bytes_differ`, `Guard.C85_round_trip`, `Guard.Client.C87_keys_open_partial`, `Guard.Client.C87_keys_stored`, `Guard.Client.C87_lost`, `Guard.Client.C87_round_trip_partial`, `Guard.Client.C87_still_stored`, `Guard.Client.C87_token_open_partial`, `Guard.Client.C90_asked_online_partial`, `Guard.Client.C90_new_client`, `Guard.Client.C90_not_asked`, `Guard.Client.C90_only_listed`, `Guard.Client.C92_accepted`, `Guard.Client.C92_other_key`, `Guard.Client.C92_received_partial`, `Guard.GetToken.C131_got_partial`, `Guard.GetToken.C131_handed_out`, `Guard.GetToken.C131_in_wallet`, `Guard.GetToken.C131_new_client_violated`, `Guard.GetToken.C131_stored_partial`, `Guard.KeyPool.C41_found`, `Guard.KeyPool.C84_same_id_partial`, `Guard.KeyPool.C88_new_key_partial`, `Guard.KeyPool.C88_returns_expired`, `Guard.KeyPool.C91_restart`, `Guard.KeyPool.C91_round_trip`, `Guard.KeyPool.C91_writable`, `Guard.KeyStore.C138_cut_file`, `Guard.KeyStore.C138_damaged_violated`, `Guard.KeyStore.C138_fetched`, `Guard.KeyStore.C138_loaded`, `Guard.KeyStore.C138_on_file`, `Guard.KeyStore.C138_unreported_violated`, `Guard.Packet.C124_other_owner_violated`, `Guard.Packet.C124_owner_needed`, `Guard.Packet.C124_payment`, `Guard.Packet.C124_request`, `Guard.Packet.C124_spend`, `Guard.Packet.C124_unblind`, `Guard.Reissue.C37_own_lock_partial`, `Guard.Reissue.C37_releases_held`, `Guard.Reissue.C37_spends_held`, `Guard.Reissue.C38_before_spent_partial`, `Guard.Reissue.C38_crash_loses`, `Guard.Reissue.C38_error_loses`, `Guard.Reissue.C38_owner`, `Guard.Reissue.C38_success_partial`, `Guard.Reissue.C82_no_panic_partial`, `Guard.Rpc.C94_gives_up_violated`, `Guard.Rpc.C94_paid_once_partial`, `Guard.Rpc.C94_recovers`, `Guard.Rpc.C94_restart_violated`, `Guard.Rpc.C94_stuck_violated`, `Guard.Rpc.C95_address`, `Guard.Rpc.C95_balance_panics`, `Guard.Rpc.C95_key_panics`, `Guard.Rpc.C95_params_panics`, `Guard.Rpc.C95_reissue_panics`, `Guard.Rpc.C95_results`, `Guard.Rpc.C95_short_error_violated`, `Guard.Rpc.C95_spend_panics`, `Guard.Rpc.C95_token_panics`, `Guard.Rpc.C95_typed_partial`, `Guard.Rpc.C96_accepted`, `Guard.Rpc.C96_empty_violated`, `Guard.Rpc.C96_published_partial`, `Guard.Rpc.C96_signed`, `Guard.Runner.C83_second_start`, `Guard.Runner.C83_started_once_partial`, `Guard.Runner.C89_idle`, `Guard.Runner.C89_only_needed`, `Guard.Runner.C89_stops`, `Guard.Store.C105_half_way_violated`, `Guard.Store.C105_renewed`, `Guard.Store.C36_absent_locked`, `Guard.Store.C36_collision`, `Guard.Store.C36_exclusive_partial`, `Guard.Store.C36_free`, `Guard.Store.C36_read_free`, `Guard.Store.C36_read_held`, `Guard.Store.C36_reopen_releases`, `Guard.Store.C36_unlocked_free`, `Guard.Store.C39_crash_unreadable`, `Guard.Store.C39_stored_partial`, `Guard.Store.C43_all_calls`, `Guard.Store.C43_locked_deleted`, `Guard.Store.C43_one_call`, `Guard.Store.C86_locked`, `Guard.Store.C86_take`, `HJ.C62_escrow_breaks_length`, `HJ.C62_header_fails_only_on_limits`, `HJ.C62_header_length_partial`, `HJ.C62_own_users_can_send_partial`, `HJ.C62_peer_key_breaks_length`, `Ident.C16_map_not_idempotent`, `Keydb.C08_delete_out_of_range`, `Keydb.C08_extension_keys_lost`, `Keydb.C08_extension_mixes_sessions`, `Keydb.C08_same_answers_partial`, `Keydb.C08_session_key_added_twice`, `Keydb.C141_conversation_partial`, `Keydb.C141_sender_stuck_violated`, `Keydb.C144_any_order_partial`, `Keydb.C151_forged_db_violated`, `Mime.C15_chunk_text_exceeds_size`, `Mime.C15_chunks_lossless_partial`, `Mix.C133_boundary`, `Mix.C133_gap_violated`, `Mix.C133_reachable`, `Mix.C25_empty_token_crashes_mix`, `Mix.C25_long_header_crashes_mix`, `Mix.C25_other_type_crashes_mix`, `Mix.C26_forward`, `Mix.C26_header_round_trip`, `Mix.C26_long_header_panics`, `Mix.C26_relay`, `Mix.C26_sizes`, `Mix.C26_zero_token_lost`, `Mix.C27_mix_and_owner`, `Mix.C27_parse`, `Mix.C29_at_most_once_partial`, `Mix.C29_bad_text_lost`, `Mix.C29_hands_original`, `Mix.C29_no_ca_cert_lost`, `Mix.C29_no_resend`, `Mix.C29_round_trip_partial`, `Mix.C29_sent_then_loaded`, `Mix.C77_expired_address_works`, `Mix.C78_images_injective_partial`, `Mix.C78_resplit`, `Mix.C79_key_kept`, `Mix.C79_statement_usable`, `Msg.C05_identities_symmetric`, `Msg.C07_deleted_key_never_returned`, `Msg.C07_deleted_key_never_returned_prog`, `Msg.C12_index_accepted_once`, `Msg.C12_replay_rejected`, `Msg.C142_any_order_partial`, `Msg.C142_newest_first_violated`, `Msg.C142_which_open`, `Msg.C150_lost_violated`, `Msg.C151_first_contact_violated`, `Msg.C151_forged_violated`, `Msg.C59_negation_spoofed_sender`, `Msg.C60_negation_two_messages`, `Msg.C61_conversation`, `Msg.C61_conversation_succeeds`, `Msg.Concrete.C61_own_users_talk`, `Msg.Two.C145_conversation_partial`, `Msg.Two.C146_never_refreshed_violated`, `Msg.Two.C146_turns_partial`, `Msg.Two.C147_erased_partial`, `Msg.Two.C147_first_message_violated`, `Msg.Two.C148_crossing_partial`, `Msg.Two.C149_erased_partial`, `Msg.Two.C149_kept_violated`, `Msg.Two.C152_damaged_partial`, `Msgdb.C132_accounts`, `Msgdb.C132_add`, `Msgdb.C132_list`, `Msgdb.C44_exactly_one_state_partial`, `Msgdb.C44_sent_is_final_partial`, `Msgdb.C49_value_is_last_write`, `Msgdb.C50_add_appends`, `Msgdb.C50_trim_keeps_newer`, `Msgdb.C51_add_contact`, `Msgdb.C51_listing`, `Msgdb.C51_lists_disjoint`, `Msgdb.C51_removed`, `Msgdb.C51_stored_once`, `Msgdb.C97_delete_succeeds`, `Msgdb.C97_nothing_left`, `Msgdb.C97_others_unchanged`, `Msgdb.C98_delete_own`, `Msgdb.C98_listed_readable`, `Msgdb.C98_read_own`, `Tui.C102_draw`, `Tui.C103_cursor_lost_violated`, `Tui.C103_cursor_shown_partial`, `Tui.C104_set_column_partial`, `Tui.C129_keys`, `Tui.C129_reach`, `Tui.C54_characters`, `Tui.C54_combining_start_changed`, `Tui.C54_round_trip_partial`, `Tui.C54_write_new`, `Tui.C55_cursor_even_partial`, `Tui.C55_cursor_partial`, `Tui.C55_no_panic`, `Uid.C17_honest_reply_accepted`, `Uid.C17_reply_index_partial`, `Uid.C17_reply_not_bound`, `Uid.C18_chain_increases_partial`, `Uid.C18_counter_wraps`, `Uid.C18_update_verifies`, `Uid.C18_updates_form_chain`, `Uid.C18_user_signature`, `Uid.C19_created_verifies`, `Uid.C19_created_window`, `Uid.C19_verified_partial`, `Uid.C19_verify_far_future`, `Uid.C68_check_iff`, `Uid.C68_created_checks_partial`, `Uid.C68_created_refused`, `Uid.C69_short_reply_panics`, `Uid.C72_signed_bytes_determine`, `Uid.Keys.C135_failed_violated`, `Uid.Keys.C135_mismatch_violated`, `Uid.Keys.C135_private`, `Uid.Keys.C135_public`, `Uid.Keys.C135_short_violated`, `Uid.Keys.C135_stored`, `Util.C31_mail_body_round_trip`, `Util.C31_split_lines`, `Util.C56_digits_count`, `Util.C58_fuzz_all_single_bits`, `Util.C58_fuzz_range`, `Wire.C01_outer_bad_type`, `Wire.C01_outer_read_sound`, `Wire.C01_outer_roundtrip`, `Wire.C02_inner_roundtrip`, `Wire.C02_inner_truncates`
<!-- /axioms -->

* The correspondence between the Lean definitions and the Go source, which is by reading;
  every definition cites the file and lines it models.
* Cryptographic primitives (hash, HMAC, HKDF, DH, box, AES, signatures, RSA blind signatures),
  compression and random sources are parameters. Their laws (sizes, decryption undoes
  encryption, verification accepts signatures, DH commutes) are fields of a `Good` structure
  which is a hypothesis of the theorem; a toy instance shows that the laws are consistent.
  Collision resistance, where needed, is an explicit injectivity hypothesis on the values that
  occur.
* JSON: `encoding/json` is a parameter with a round-trip law in the messaging core (C04–C15,
  C61); a concrete encoder for headers, key entries and UID messages is modelled for C62, C68
  and C72 (`Verif/Json.lean`). Base64, hex, UTF-8 decoding and the ASN.1 subset of
  `encoding/asn1` in use are modelled concretely.
* SQLite, the file system (atomic rename, write may fail), TLS, SMTP and the JSON-RPC
  transport: the servers' answers are arbitrary values unless a theorem says "honest".

## What is modelled

| code in /repo | modules |
|---|---|
| `msg/outer.go`, `inner.go`, `preheader.go`, `first.go`, `encode/convert.go` | `Wire` |
| `msg/encrypt.go`, `decrypt.go`, `keys.go`, `header.go`, `session.go`, `procuid.go`, `padding`, `session/session.go`, `session/memstore`, `cipher/curve25519.go`, `uid/keyentry.go` | `Msg` |
| `keydb/session.go`, `sessionstate.go`, `sessionkey.go`, `cryptengine/keystore.go` | `Keydb` |
| `msg/mime/mime.go` | `Mime` |
| `msg/msgid`, `util/util.go`, `util/digits`, `encode/base64`, `def/def.go`, `mix/client/io.go`, `init.go` | `Util` |
| `cipher/aes256` | `Cipher` |
| `uid/uid.go`, `keyinit.go`, `keyentry.go`, `identity`, `length` | `Uid`, `Ident`, `Json` |
| `cryptengine/hashchain.go`, `uid.go`, `keyinit.go`, `capabilities.go`, `cache/cache.go`, `keydb/keydb.go`, `keyserver/hashchain` | `Crypt` |
| `mix/mixcrypt`, `nymaddr`, `mixaddr`, `client`, `smtpclient` | `Mix` |
| `configclient`, `sortedmap`, `cahash` | `Conf` |
| `encdb` | `Encdb` |
| `msgdb` (all tables) | `Msgdb` |
| `ctrlengine/msg.go` (add, send, fetch, process, list, read), `updateMuteFromSource` with `util/git`, `util/gotool`, `cmd/mutegenerate`, `ctrlengine/mail/mail.go`, `checkDelayArgs`, `contact.go` (with `mutecryptAddContact`), `uid.go`, `upkeep.go` (accounts, all), the command loop of `cryptengine/cryptengine.go`, `protoengine/fetch.go`, `create.go`, `deliver.go`, `util/nymaddr.go`, the passphrase dialogs of `ctrlengine/db.go` and `cryptengine/db.go` not on a terminal, with Go's `bufio.Scanner`; `ctrlengine/db.go`, `wallet.go` (public key), `ctrlengine.go` (getConfig, checkUpdates, startWallet, prepare, arguments of the loop), `upkeep.go` (fetchconf, decision of update), `def/def.go` InitMute; the pipes and goroutines of `muteprotoFetch`; `ctrlengine/app.go` (login and cookies); the shutdown in `cmd/mutectrl`, `cmd/mutecrypt` and `util/interrupt` | `Ctrl`, `Conf.Init` |
| `serviceguard/client` (wallet store, reissue, packetproto, receive, verify, runner, clientlib, walletserver, walletrpc, guardrpc, keylookup), `common/token`, `types`, `walletauth`, `signkeys`, `keypool`, `keydb`, `keydir`, `keylookup` | `Guard` |
| `tui/textbuffer`, `tui/editor` | `Tui` |

Not modelled: the command line layer (`cmd/*`, the dispatch of commands in `cryptengine/cryptengine.go`,
`ctrlengine/ctrlengine.go`, `protoengine/protoengine.go`, up to their loops and global options), passphrase dialogs on a terminal, file
descriptors, logging, `util/browser`, `release`, the implementation
of the cryptographic primitives, zeroing of secrets in memory (`bzero`), cleanup times of
session keys, and the servers themselves (only their answers).

## Where the code does not do what the property says

The properties that are proved only in part, with what the code does instead. The theorems named
are about the model; the property is kept in full in `properties.jsonl`. This list is made from
MANIFEST.json by `tools/mkaxioms.py`.

<!-- findings -->
* **C08** (The persistent key store behaves like the in-memory key store): same answers proved for histories without session extension, out-of-range deletes and repeated session keys; for those the code differs: C08_extension_keys_lost, C08_extension_mixes_sessions, C08_delete_out_of_range, C08_session_key_added_twice
* **C11** (Unauthenticated plaintext is not released): The code violates it: proved that content of a message with a wrong HMAC is written out. Partial: nothing is written when no message key is obtained.
* **C13** (One-way sessions never get stuck): The code violates it: in-order delivery works exactly below stuckAt(N) messages (400 for the default batch of 50) and is refused from there on.
* **C15** (MIME chunking loses nothing): losslessness, counters and size of the carried parts proved for all messages and sizes; the clause that no chunk exceeds the size is false (envelope not counted): C15_chunk_text_exceeds_size
* **C16** (Identity mapping is canonical): canonical form, fixed points and IsMapped proved exactly; idempotence holds if the mapped identity is at most 254 bytes (always for ASCII domains) and is refuted otherwise: C16_map_not_idempotent
* **C17** (A server reply is bound to the submitted UID message): C17_reply_index_partial: an accepted reply is signed by the server over its entry and its encrypted message decrypts, with the hash of the given message, to the index of that hash. C17_honest_reply_accepted: replies an honest server makes are accepted. Missing and false (C17_reply_not_bound): the decrypted message is never compared with the given one.
* **C18** (UID update chains are authenticated by their predecessor): C18_user_signature, C18_update_verifies: an update is accepted exactly if signed with the key of its predecessor and updates made with the right key are. C18_chain_increases_partial: counters strictly increase along accepted chains. C18_counter_wraps: at 2^64-1 Update produces a message that is refused.
* **C19** (KeyInit messages are only usable inside their validity window): C19_created_window, C19_created_verifies, C19_verified_partial: created KeyInit messages have the requested window and verify within it; verified messages satisfy all listed conditions. C19_verify_far_future shows that Verify accepts messages whose validity begins in the far future.
* **C23** (Only verified UIDs of the requested identity enter the key database): Stored public UIDs carry verified self- and server signatures and stand in the chain; violated for the domain: a key server can plant messages of identities of another domain (C23_foreign_identity_stored).
* **C25** (Receiving from the mix network never panics): No panic for tame headers and for senders and owners; proved that four kinds of message crash a mix.
* **C26** (Client-to-mix messages round-trip): Header round trip, forward and relay end to end; proved that long headers panic on sending and that an all-zero or empty token is lost.
* **C29** (Marshalled mix messages round-trip): Round trip, sequences of deliveries with saving and loading for every SMTP behaviour; at most one acceptance only if Quit does not fail. Proved violations: duplicate after a failed Quit, message lost when the error text is no UTF-8, message without CA certificate lost after saving.
* **C30** (Account RPC retries are bounded and use fresh tokens): Call bound, counters and results for all answers; proved violation: errors shorter than eleven bytes crash the client.
* **C35** (Configuration update never panics): False as stated: the update after one where no server answered panics, and so does a CA certificate that is not PEM (both proved). Partial: no panic otherwise.
* **C36** (A wallet token is never held by two parties): Exclusive as long as nobody unlocks, deletes, expires or clears the lock and random lock IDs do not collide; equal IDs, reopening the store and the ID of another lock break it (proved).
* **C37** (Reissuing respects other parties' locks): A reissue of a token that is free takes its lock and every intermediate wallet keeps it (C37_own_lock_partial). The property fails when the token is held by somebody else: LockToken reports that with -1, which ReissueToken takes for a lock, so the token is spent (C37_spends_held) or its lock is released (C37_releases_held).
* **C38** (No token is lost by a crash during reissue): Until the issuer has accepted, every crash leaves the token in the wallet, with its packet if that was sent (C38_before_spent_partial); after success the new token is stored (C38_success_partial). The property fails between acceptance and storing: a crash (C38_crash_loses) or an unacceptable key (C38_error_loses) loses the value.
* **C39** (Stored wallet tokens round-trip): Exact round trip for every entry with an owner and consistent fields, alone and through the database, other entries unchanged; entries without owner panic, a lone new owner is lost, and a crash between the two writes leaves an unreadable row (proved).
* **C47** (Fetching never loses a message): Proved for runs that are not interrupted (C47_each_once_partial). Violated otherwise: after an interruption at any point once the first ID is cached, the next run stores nothing (C47_interrupted_loses). The server is assumed to list the newest message first, with increasing times.
* **C48** (One undecryptable message does not block the in-queue): Messages without a key do not matter for the others (C48_all_processed_partial) and every run ends (C48_terminates). Violated for other errors: an envelope that cannot be opened at the head of the queue blocks it (C48_bad_head_blocks).
* **C53** (Re-keying is atomic with respect to crashes): process crashes at every step and inside every write proved safe; power loss is not: the new key file is not flushed before the rename (C53_power_loss_loses_key)
* **C54** (The text buffer preserves its content): Violated: a line that starts with a zero-width rune (for example a tab) gains a space, and invalid UTF-8 is replaced; the exact result is proved for every text, characters and cells for all bytes.
* **C55** (The cursor stays on the text): Violated: the cursor may be behind the end of a shorter line, and on no line after SetContent; proved: never negative, on an existing line and within the longest line after every move.
* **C59** (The reported sender is the owner of the verified key): Violated: C59_negation_spoofed_sender - any user can name any identity as the sender of messages authenticated with their own keys and signed with their own UID message; all are accepted. C59_bound_to_identity_key_partial proves that a successful message is authenticated with a key of a session bound to the header's verified SenderIdentityPub. Missing: a link between the reported identity and that key (the code has none).
* **C60** (Decrypting never panics): Violated twice: C60_negation_two_messages (a stranger crashes the recipient with two messages, because a rejected first message leaves a session without state) and C60_negation_bad_signature_key (signature key of the enclosed UID message used unchecked). C60_no_panic_partial proves that Decrypt never panics on any bytes if stored keys are usable, UID messages have usable signature keys and every session has a state; missing is that the last condition is preserved, which is false.
* **C62** (The header padding makes every header the same length): Proved for users made by Create without signature escrow (as the program creates them) and any number of updates, with the concrete JSON encoding: every header is built and has the required length; the header model is tied to the one used by Encrypt (C61_own_users_talk). Negations proved: with signature escrow every header is 16 bytes too long; a peer's key entry with a line break in its hash makes the header too long.
* **C64** (MIME messages survive writing and parsing): round trip proved for messages with a non-empty first line; refuted for an empty one: C64_empty_subject_unreadable. Text layer of the Go library represented by its parsed form
* **C65** (Parsing received MIME never panics): DecodeChunk never panics; Parse panics exactly when the multipart stream breaks after the first part: C65_parse_can_panic
* **C67** (An interrupted database creation can be repeated): refuted: a crash after the key file was created and before the database file exists blocks both Create and Open with every passphrase (C67_interrupted_create_blocks)
* **C68** (Created UID messages pass the message check): C68_created_checks_partial proves it for messages without escrow and with the default preferences. C68_created_refused proves that all other messages Create makes are refused by Check.
* **C69** (Malformed key server data gives an error, not a crash): C69_signature_checks_total proves that the signature checks never panic. C69_short_reply_panics proves that replies whose encrypted message is too short do make the client panic.
* **C73** (A refused registration can be repeated): Violated: the reply is stored before it is verified, so a refused registration is final (C73_refused_reply_is_final). The success case is proved.
* **C74** (Deleting a nym removes all its private keys): Proved for nyms never updated; violated after every update (C74_deleting_leaves_old_keys).
* **C75** (Sessions start only from keys signed by the recipient): The key comes from a stored KeyInit message bound to the recipient's key hash; violated for the signature, which is never checked (C75_forged_key_init_used).
* **C76** (A newer KeyInit message replaces the one in use): Violated: only the negation is proved; the first stored KeyInit message is used forever.
* **C77** (Mix messages carry a replay mark): Replay and single-use marks are stable; proved that an expired address still works, because only the public expiry field is checked.
* **C78** (Mix address statements cannot be altered): Signed statements verify and lists of the same shape differ in their signed bytes; proved that bytes can be moved between address and token key.
* **C79** (Published mix keys stay usable): Proved for all histories; the saved-file part needs successful writes, and it is proved that an ignored write error loses a published key.
* **C80** (Listing messages is complete or fails): Complete for well-formed answers and a prefix otherwise; proved violations: silent truncation and a crash on non-objects.
* **C81** (The CA certificate belongs to the accepted configuration): Success half proved. A failed certificate fetch loses the old certificate (C81_certificate_lost).
* **C82** (Reissuing to a new own key never panics): With a named owner and a wallet whose entry has a new owner if it has a packet, a reissue does not panic (C82_no_panic_partial). Without a named owner it panics whenever a key can be generated (C82_new_key_panics).
* **C83** (The wallet runner can be stopped and never blocks its callers): Violated: the stop channel has no buffer and is only polled by its length, so that no runner ever stops and StopRunner never returns; a second Runner call returns holding the lock, after which every SetTarget waits forever. Proved: mutual exclusion, and that SetTarget can finish if every runner is started at most once.
* **C84** (A signing key ID identifies the key and its attributes): Violated: the image hashes the coordinates without their lengths, so a byte can move from one to the other. Proved for coordinates of equal length (collision resistance as a hypothesis).
* **C85** (The token hash binds key, nonce and owner): Round trip of tokens, and injectivity of the hash for the field sizes New makes; sizes are not checked when a token is read, so the owner can be shifted without changing hash and signature (proved).
* **C87** (Cached authentication data survives a restart): Violated: the two-column query is scanned into one variable, so nothing is ever read back. Proved: the encoding round trip, the values while the wallet is open, and that the data is in the database.
* **C88** (The current signing key has not expired): Violated: an expired key is returned for up to half the expiry time. Proved: the bound, and that a new key is valid.
* **C90** (Going online loads the verification keys): Violated: GoOnline asks for the keys before it sets the online flag, so that the service is not asked; a new client then knows no key. Proved: a client that is online already learns all listed keys and no others.
* **C92** (Only own, verified, unexpired, new tokens are received): Violated: the key the lookup service returns need not be the key the token names; a valid token without owner crashes the receiver. Proved: everything else, and the named key for a client that is offline.
* **C93** (Stored signing keys are known after a start): Violated: keys are loaded before any verification key is known, and all are rejected. Proved: the database storage finds a key by its id once the signer is known.
* **C99** (Adding a contact keeps the given name and list): Violated: the short variable declaration in contactAdd overwrites the given name and list, so a new contact has no name and an unknown sender is white-listed (C99_name_and_list_kept_violated). Proved for contacts that are known already.
* **C103** (An enabled cursor is shown exactly once): Violated: on the second column of a wide character the cursor is not shown; proved elsewhere.
* **C104** (Setting the column keeps the row): Violated: the view's copy of the coordinates does not follow the keys; proved if the copy is current.
* **C94** (A token is paid for once, and the client recovers): Every call sends one to four requests; an honest server is reached after at most four failed calls whatever the client has cached; up to three lost requests or answers are paid once. Negations with witnesses: four lost answers or a restart after one lost answer make the client pay twice; a kept token refused with a fatal error is resent for ever.
* **C95** (No answer of a server crashes the client): Negation proved: any error text of less than eleven bytes ("EOF") crashes every wallet call. The answers that crash the client are characterised exactly for six calls; no well-typed answer crashes any of the seven.
* **C96** (Verification keys come from the trust root): Proved for non-empty lists of 32 byte keys, under the hypothesis that the trust root's signature cannot be forged. Negation: an empty signed list gives one key of 32 zero bytes.
* **C105** (Tokens due for renewal are renewed): The token named for renewal and the one named for continuation are exactly those of the specification, and none is named only if there is none. Negation with witness: a renewal that stopped after the parameters were fetched is never named by either query.
* **C106** (Upkeep is executed once per period): Two successful executions are at least a period less one second apart, in every history; the exact condition of a call that does nothing; a failed call is not recorded. Negation with witness: times are stored in whole seconds, so a command can be executed again up to a second early.
* **C107** (Accounts are kept paid): After a successful run each account is paid for longer than requested or was paid for in this run (one token may not be enough); each account is paid for at most once per run and only if needed; tokens are settled in every run. Negations with witnesses: payments go to the default server rather than to the server of the account, so that any number of runs use up tokens without effect; after a lost answer the spent token is taken again in all later runs; after a lost answer to the status call an account is paid twice; an unreachable server blocks all accounts after it; upkeep all does nothing after an upkeep accounts for a shorter time.
* **C108** (Making a user ID settles all tokens): For every behaviour of the environment the exact account of the tokens of one attempt: all are settled, except one that stays locked if key generation fails or mutecrypt refuses the key init message. Negations with witnesses: each refused registration leaves a message token locked for ever and loses a paid account, any number of times; when mutecrypt dies, its end of output counts as success and unspent tokens are deleted.
* **C109** (A user ID is made completely or not at all): Success implies that the commands generate, caps, register and keyinit were all executed with success, with the address for the account that was paid for, and the state of the database, for every behaviour of mutecrypt, provided that no error text begins with the line READY.; without success the database is unchanged. Negations with witnesses: an error text of the key server with the lines READY., READY., QUITTING makes a failed registration look successful; after a lost answer the identity is registered, its key is deleted, and all further attempts fail.
* **C110** (Deleting a user ID removes all of it): Success implies confirmation, removal, key deletion and the closing of exactly the accounts of the user ID; without confirmation nothing happens; errors before the deletion of the key change nothing. Negation: if the deletion of the key fails, the command can never be repeated and no account is closed.
* **C111** (The active user ID exists): Invariant over all histories: one user ID is active as soon as there is any; the active one exists as long as it is not deleted; a switch is exact. Negation with witness: after the deletion of the active user ID it stays active, even when another one is made.
* **C112** (A nym address leads to the mailbox of its account): End to end through newNymAddress, the client's relay message, the mix and the opening of the envelope, for every server name that ends in mute.one. Negations: for every other server name the mail is delivered elsewhere, and for every name shorter than eight bytes the client panics; the name is chosen by the account server after it was paid.
* **C113** (A database gets the passphrase that was given twice): Proved for all inputs of at most 2048 bytes and all chunkings, including the passing on to mutecrypt; Readline is characterised completely. Negations: passphrases of 2048 to 4095 bytes that arrive line by line are overwritten in the scanner's buffer, so different passphrases are accepted as equal and the right old passphrase is lost; a passphrase that ends with a carriage return is changed on its way to mutecrypt, so the two databases get different passphrases. Missing: which inputs beyond 2048 bytes still work. Passphrases typed in a terminal do not use the scanner and are not modelled.
* **C114** (Databases are made completely and rekeyed together): Proved for passphrase inputs of at most 2046 (create) and 2045 (rekey) bytes without a carriage return at the end (see C113), for all answers of the servers, all crash points and all histories: what success means, that it is reached, what is kept, and which wallet key is used. Negations: if the configuration cannot be fetched, `db create` fails but leaves a message database without a wallet key; it can never be repeated, `wallet pubkey` crashes, and commands use the all-zero wallet key. An invalid --walletkey is stored before it is checked; afterwards every command fails. An interrupted `db rekey` leaves the two databases with different passphrases, which no `db rekey` can repair with success.
* **C115** (Commands run with a recent configuration signed by the built-in key): Signature, monotonicity and the offline preparation are proved over all histories; freshness for all states in which the time was stored with the configuration. Negations: if the first fetch is interrupted between its two writes the configuration is never refreshed again by commands; `upkeep fetchconf` and `upkeep update` go online in spite of --offline, and the interactive mode drops the option; a signed but unusable configuration replaces a usable one before it is noticed. The stored JSON is taken to be faithful.
* **C116** (Software updates go forward and are possible when they are demanded): Proved in full except for two negations: a usable configuration whose release date is missing or cannot be read stops all commands and the update as well; a release with the date of the binary but another commit is not announced though the update would build it. `time.Parse` is a parameter. Building from source (updateMuteFromSource) is not modelled.
* **C117** (Messages pass between the two programs of a fetch unchanged under every schedule): Proved: exactness for every execution (C117_exact, C117_cache), completeness of good ends (C117_complete), no error without cause, no deadlock, termination. Violated: repeating an interrupted run (C117_repeat_violated): the message ID is cached (msg.go:578) before the text is received and queued (msg.go:632). Commands of five bytes are written and read at once; only ASCII blanks are trimmed from status lines. An error of muteproto that ends in "accountdb: nothing found" counts as a good end (excluded in C117_complete).
* **C118** (The web interface serves pages only to whoever knows the passphrase): Proved: pages are served for the latest cookie only, except for the empty one (C118_secret_partial), and always for the latest one (C118_available); a login succeeds only after the right passphrase was sent by somebody (C118_passphrase_partial). Violated: an empty cookie `mute=` is accepted always, before any login (app.go:107; C118_empty_cookie_violated); once the database is open every passphrase logs in (C118_any_passphrase_violated); of two concurrent logins the wrong passphrase can be accepted and the right one refused (C118_race_violated). Unpredictability of the random source is not modelled. A POST without the field panics in the handler, which net/http recovers.
* **C119** (An interrupt ends a program in order and the exit status tells whether the command was done): Proved: without interrupts the status is that of the command and the database is closed (C119_status_partial); an error status always comes from the command (C119_error_status); no deadlock unless an interrupt comes before the callback is registered (C119_no_deadlock_partial); an interrupt ends the program within six of its own steps and the database is closed (C119_interrupt_ends). Violated: an interrupted program ends with status 0 though the command was not done, and possibly with the database open (C119_interrupt_status_violated); an interrupt between Notify and the registration of the callback hangs for ever (C119_early_interrupt_violated). What the command does is abstract.
* **C120** (What the sender records about a message is what happened to it): Proved: the report is read as it was meant for all errors that are not blank (C120_report, C120_reply), sent means accepted (C120_recorded_sent, over all histories C120_sent_is_sent, down to the owner of the address C120_end_to_end). Violated: an accepted mail is sent again if the connection breaks before QUIT is answered (C120_accepted_again_violated); the reply "550 " without a text is repeated for ever (C120_bare_reply_violated, parseError); a message refused for good keeps back all messages of its nym and of the nyms after it for ever (C120_refused_blocks_violated, msg.go:342). Only ASCII blanks are trimmed; starting muteproto succeeds.
* **C121** (What is shown of messages is what is stored): The list and the printed mail are read back exactly for all histories and all message texts, if no identity contains a tab or a line break (and no full name a line break); the text of a message can never break either. identity.Map accepts tabs and line breaks in a domain: a wrong sender or additional lines in the list (C121_list_violated) and additional headers (C121_header_violated). Such identities get into the contacts only when the user adds them: the sender of a received message is cut at a line break and refused with a tab (C122). A subject of plain ASCII that looks like an encoded word is shown as something else (C121_subject_violated). mime.QEncoding is modelled from the Go library.
* **C122** (Only authentic messages pass from the encryption process to the engine): Proved for every interruption, exit status, message and history: only authentic messages reach the inbox, exactly, and only completed encryptions the out-queue; a plainly named sender and content arrive exactly. Two disagreements: a header may name a sender with a tab (the sender chooses it, C59), then the report is not parsable, processing of the in-queue stops at this message for ever and the message is lost (C122_tab_violated); a peer that sends an empty nym address (or one with a tab) makes every encryption of a reply fail and so ends the send command (C122_nym_violated, C122_nym_source). A report on the standard error is taken as one write; the base64 decoding as done before reading.
* **C123** (Key servers are only used for what they said they support, and asked once): C123_supported, C123_shown, C123_cached, C123_first, C123_once, C123_failure, C123_no_panic: proved for all histories. The code violates the last clause: after the capabilities of a domain were asked for at an alternate host, later commands without one use that host, and the domains a server says it serves are never compared (C123_other_host_violated).
* **C124** (A payment gives the new owner a token everyone accepts): C124_request, C124_unblind, C124_payment, C124_owner_needed, C124_spend: proved for all inputs, C124_unblind under the hypothesis that the blind signature library (not in the repository) reports a failed verification as an error, because the code ignores its boolean result. The code violates the last clause: if a request for the token is pending, the owner named in a later call is ignored (C124_other_owner_violated).
* **C125** (A script of mutecrypt commands is executed line by line): Proved for texts whose lines are empty or begin with the name of a command, without global options: any cutting gives the same result (C125_pieces_partial), which is that of the script executed line by line (C125_script_partial), and if no command is refused each is answered by one READY (C125_answers_partial). The code disagrees with the rest: a command whose options are refused is not answered by READY (C125_refused_violated); after a line of blanks a second loop reads the same descriptor, so the order of the commands depends on the pieces (C125_order_violated) and quit ends the second loop only (C125_quit_violated); --homedir given at the start is not used by db create in the loop (C125_homedir_violated).
* **C126** (A session of the interactive mutectrl shell does what its lines say): Every session ends (C126_ends). Proved for lines that are empty or begin with the name of a command: the shell executes them one after the other (C126_session_partial) with its home directory, log directory and log level (C126_options_partial). The code disagrees with the rest: --offline is not passed on, so every command runs online (C126_offline_violated); without a network a mistyped command then ends an offline shell (C126_typo_violated); after a line of blanks quit does not end the shell (C126_quit_violated).
* **C127** (The delays asked for are the delays the mix is told): Proved for delays below 2^31 seconds, up to the mail handed to the mix (composed with C120). Delays are converted to 32 bits only after the check: 4294967296 and 4294967297 are accepted and stored as 0 and 1, so the message is not delayed at all (C127_wrap_violated). Underscores in numbers, which newer versions of Go accept, are not modelled.
* **C130** (A contact is added only after its keys were looked up in a validated chain): Proved for error texts that do not begin with the line READY. and for a process that is not interrupted. Violated otherwise: the message of a JSON-RPC error is printed as it is to the descriptor of the answers, so a key server can answer the sync with the answers the engine waits for and the contact is added with nothing looked up; an interrupted mutecrypt ends with status 0 and is taken for success; a line feed in the domain of a contact is another command for mutecrypt.
* **C131** (A token handed out is locked and belongs to the payee): C131_in_wallet and C131_need_owner hold for all wallets. C131_got_partial: what is returned for a named owner is recorded for that owner and locked; it has the usage if the keys of the pool have it. C131_handed_out: a token from the wallet server is first recorded under the wallet's own key pair with the usage and expiry of its key, and then reissued for the owner named, unless nobody is named and it is a subscription token. C131_stored_partial: a token from the wallet server with a key and parameters that the client takes is in the wallet at every crash point after the first write until it is spent. The code violates the rest: errors of the store other than 'no token' give neither a token nor an error (C131_nil_violated); the wallet server decides about the usage (C131_other_usage_violated); a token whose key is not taken is dropped after it was handed out (C131_lost_violated), which is what happens to every token of a new client (C131_new_client_violated). Assumed for C131_got_partial: reasonable answers (Good), in particular a new token that differs from the old one.
* **C133** (A mix whose keys are maintained can always be reached and does not pile up keys): C133_reachable and C133_bounded state the claim with the relation between tick, interval and life of keys as hypotheses. Nothing enforces these: C133_grows_violated (ticks further apart than the interval: expired keys are never dropped, since a tick that adds a key does not expire any) and C133_gap_violated (life shorter than the interval: moments at which no published address and no private key is usable).
* **C134** (Addresses are made for keys that the mix has signed; a revocation is reported as the mix answers): C134_candidates proves that the address is made for an unexpired entry of the answer and C134_revoke what RevokeMessage reports. The signature is never verified: C134_unsigned_violated and C134_forged_violated (whoever answers instead of the mix can open the private part of the address and learns the mailbox; only TLS stands in between). C134_bare_violated: the answer REVOKED without a further byte is ErrProto. The JSON decoding of the answer is a parameter.
* **C135** (A key entry gives out the keys it was given): C135_private, C135_public: after any history of calls on an entry that was read, for a random reader that delivers; C135_stored: generating, storing and reading back; C135_equal. The code disagrees with the last sentence: C135_mismatch_violated (a private key of another key pair is taken), C135_short_violated (the error for a public key of the wrong size is dropped: a Diffie-Hellman entry then gives out a nil pointer, a signature entry a key of zeros), C135_failed_violated (a key that could not be generated takes the old one with it, while the entry still claims to hold one). Not modelled: the JSON text of an entry (C76, C77 treat JSON).
* **C136** (The private key of every published KeyInit is found): C136_found, C136_unknown, C136_reaches (given that no two published keys have the same SHA512 hash), C136_signed. The code disagrees where a call fails after the KeyInit was sent: C136_lost_violated (no answer, a bad signature or a server without keys: the KeyInit can be fetched from the server, but the private key was never stored; a stop of the program in between has the same effect). Private keys are never deleted, also not by flushing. The KeyInit in the table stands for its JSON text.
* **C137** (Updating from source installs the released commit, and a failed attempt can be repeated): Proved for every history of attempts with arbitrary failures and interruptions: success means that every program and the generator were built from the commit asked for and carry its release file, that the tree is back on the pulled master branch and that the next update finds the programs up to date (C137_installed, C137_up_to_date); every program is an old one or one built from a commit that was asked for (C137_sources); local changes stop everything (C137_local_changes); an attempt of which all commands work succeeds if no generator was stopped while writing (C137_recovers) or if the cut-off file is of another commit (C137_recovers_partial). Where the code disagrees: a head.go cut off after the line with the commit is taken to be up to date and makes every later attempt for this commit fail (C137_cut_off_violated); an interrupted installation leaves programs of different releases (C137_mixed_violated); a commit named by an abbreviation is built again and again (C137_abbreviated_violated). Commands are modelled by their effects; a conflicting merge in git pull is not.
* **C138** (Signing keys that are handed out can be found by those who check tokens): Proved for every history: with a key directory each key that was handed out has its complete file if no saving of a key breaks off (C138_on_file), and is known to whoever loads the storages if no write at all breaks off (C138_loaded); with a database whose insert statements are done it is found by its id (C138_fetched); a file that breaks off is never taken for a key (C138_cut_file). Where the code disagrees: the database storage drops the error of the insert, so that a key is handed out that is stored nowhere (C138_unreported_violated); one file that breaks off hides every key after it in the directory (C138_damaged_violated). Assumed: key ids of the history do not collide; sizes of keys are in range.
* **C139** (The programs understand each other's command lines): C139_understood: every call (13 kinds), for every value, is performed by the program called exactly as the specification Call.expected says. C139_piped_partial: lines written to the loop, for values that are words; C139_contact_lines ties them to the dialogue of contact add and C139_globals to the loop of C125. Violated without that restriction: C139_help_violated, a contact eve@x.org -h is a valid identity, every line asks for a help text, the loop answers READY. and the contact is accepted without any lookup. The command line library is modelled from its documented behaviour.
* **C140** (Maintenance of the databases keeps their contents and does what it reports): C140_contents, C140_command_contents, C140_compact, C140_modes, C140_incremental, C140_status and C140_key_database hold. Violated for the command: C140_command_violated, mutectrl db vacuum passes --auto-vacuum FULL to mutecrypt, whose option is commented out, so the command always fails after the message database was rebuilt and never compacts the key database; C140_commands_missing_violated, the commands db status and db incremental of mutecrypt do not exist. SQLite's behaviour is an assumption taken from its documentation.
* **C141** (Messages can be sent and received when every run of mutecrypt opens the key database anew): Holds for up to as many messages as keys are generated at a time (50 by default). DISAGREEMENT: AddSession takes the identifier of a known session from LastInsertId of an UPDATE; on a new connection that is 0, so the keys of an extension are stored for no session, the number of keys is raised all the same, and neither this nor any later message to this recipient can be encrypted. Sessions that carry messages in both directions or are replaced by the next session are not covered.
* **C142** (Messages open in whatever order they arrive): C142_which_open says exactly which attempts succeed: a message that was not opened before opens iff its key was made already or at most 301 keys (its index rounded up to a multiple of the batch size) have to be made for it; what opens is what was sent. C142_any_order_partial: all messages within these limits are delivered in every order. DISAGREES WITH THE CODE beyond: C142_newest_first_violated, a batch of 303 to 400 messages (default batch size), which is delivered when opened in order, cannot be opened newest first, the order in which fetched messages are processed: the newest message is refused with every attempt.
* **C143** (A message goes the whole way from one user to the other): C143_mixed_partial: an envelope that was counted as accepted means a mail server took a mail for the mix of the nym address, and the mix, reading it before the address expires, sends the message on to the mailbox of the account. C143_arrives_partial: a batch of messages of a first contact is encrypted, and whatever part of it reaches the mailbox, in whatever order, is put into the inbox by the next fetch and processing, exactly as written, each once, with sender and arrival time. C143_blocked_violated (disagreement with the code): if the newest of them is so far ahead that its keys cannot be made at once (with the default settings the 302nd message or a later one), decrypting it fails with an error that ends the processing of the in-queue, so that nothing fetched with it or later, for any account, ever reaches the inbox. Missing: interruptions between the steps (treated in C94, C118, C120), replies in the same session, and the sessions are kept in the in-memory store, not in the key database (C141 relates the two for messages in order).
* **C144** (With the key database, the messages of a first batch open in any order): C144_any_order_partial: with sessions in the key database and a new process per message, a first batch (not more than the sender makes keys for at once) is encrypted and each message within the recipient's first batch opens in whatever order they arrive, with exactly the content, sender and signature. C144_arrives_partial: the same over the whole way of C143 (mix, mailbox, fetch, in-queue). Missing: messages beyond the first batch of keys, where the code loses them (C141_sender_stuck_violated), repeated messages and interruptions.
* **C145** (In a conversation with refreshed sessions every message opens once, in any order, with what was sent): C145_conversation_partial: for every list of actions of two users (sending in both directions, opening any earlier message again and again), with all random choices about new sessions, every outcome is allowed: sending succeeds, a message opens once with exactly its content, sender and signature; a refusal means it was opened before or that more than 301 keys are needed for its number in its session, as written in its header; and that number counts the messages its sender wrote earlier in the same session. The stores may hold sessions with other users. Missing: messages with another session status; sessions in the key database (C141, C144 for one direction). Both users sending a first message at the same time is C148.
* **C146** (The session keys of a conversation are refreshed again and again): C146_turns_partial: if the users take turns and open each message before the next is written, then after two messages each way both use new keys, whatever the random choices. DISAGREES WITH THE CODE otherwise: C146_never_refreshed_violated. When the recipient opens the first message it draws its next key; if the sender writes another message for which a new session is announced before opening an answer, both have drawn a next key without having seen the other's. Decrypt prepares a session only if it has no next key, and switches only if the message names its own next key as seen, so from then on neither happens: for every continuation both users encrypt with the keys of the first contact, the recipient with the key of the KeyInit message. Missing: the general condition under which keys are refreshed.
* **C147** (Keys that were used are forgotten): C147_erased_partial: in every conversation of C145, at every point, each user's store has the private part of no drawn session key but that of the current session (while the next is not prepared) and that announced for the next, and nothing is left at the place of the key of a message sent, or opened. DISAGREES WITH THE CODE for the first session: C147_first_message_violated. The private key of the KeyInit message that the first sender used is never deleted (no query of the key database deletes it, and Decrypt only deletes session keys), so however long the conversation goes on, the key of the first message can be recomputed from the recipient's store, identity key and the header of the message. Crossing first contacts: C149. Missing: that deleted values are overwritten on disk.
* **C148** (First contacts that cross do no harm): C148_crossing_partial: for every list of actions of two users who have each other's KeyInit, from the first message on, every outcome is allowed: both can always send, a message opens once with exactly its content, sender and signature, and a refusal means it was opened before or that more than 301 keys are needed for its number in its session. Covers all interleavings in which both users start a session of their own; the session of the user with the smaller identity is continued, and the messages of the other one are opened beside it. Missing: messages with another session status, and the sessions are in the memory store.
* **C149** (Keys that were used are forgotten when first contacts cross): C149_erased_partial: in every conversation of C148, at every point, nothing is left at the place of the key of a message sent, or opened, in either user's store; the store of the user with the smaller identity has the private part of no drawn session key but that of the current session (while the next is not prepared) and that announced for the next; the store of the other user has the private parts of at most two more. DISAGREES WITH THE CODE for these two: C149_kept_violated. If the first contacts cross, the user with the larger identity goes over to the other's session, but Decrypt deletes only the session key that is named in the header of a received message, and nobody ever answers in the session given up. So its private key stays, and however long the conversation goes on, the key of that user's first message can be recomputed from the user's own store and identity key. Missing: messages with another session status, and that deleted values are overwritten on disk.
* **C150** (A conversation can be taken up again after one user starts anew): DISAGREES WITH THE CODE: doc/messages.md says that a message with the status Reset makes the recipient reset the session and pick up the one created by the peer; Decrypt never reads the status, with any session store (C150_status_violated), and keeps the state it has (C150_reset_violated; with the key database C150_reset_db_violated). A user who lost the session data can reach the other user, whose store does not follow: every answer is refused, however many are written (C150_restart_violated for any session that was answered or whose owner has the smaller identity; C150_lost_violated from first contact, without assuming that any operation succeeds; C150_refused_db_violated: a key database without the session and the key refuses and stays as it was). What holds is C150_followed_partial: without a session, or with an unanswered one when the sender has the smaller identity, the new session is followed.
* **C151** (A refused message has no effect on later communication): DISAGREES WITH THE CODE: Decrypt starts a session and stores its state before it has checked anything that only the named sender can make. Somebody who has the UID messages of two users and the KeyInit message of the second can send the second user a message in the first user's name with an own session key and no body. It is refused, but every message the second user writes from then on is refused by the first (C151_forged_violated), also when the first user makes the first contact afterwards and that message is opened (C151_first_contact_violated); no operation is assumed to succeed. What holds: an input whose header cannot be read changes nothing (C151_unreadable_partial), and once a session was answered, a message of another session leaves the session state as it was (C151_established_partial). With the key database the refused message leaves a session state to the forger's key in the database, and a message of any other session in the sender's name leaves it there (C151_forged_db_violated, C151_established_db_partial).
* **C152** (A damaged copy of a message does no harm to the conversation): C152_damaged_partial: any interleaving of sends, deliveries and damaged deliveries (everything after the header replaced by arbitrary bytes) from the first contact on; refused copies change nothing in what opens later, an accepted one contains an HMAC under the key of that very message, comes from its sender and counts as the message, and a copy cut after the header is never accepted. Partial: like C145 a message more than 301 keys from the beginning of its session may be refused, keys drawn are assumed distinct, and that nobody else can make such an HMAC is not part of the model. Copies with a damaged header are not covered here; what a forged header can do is C151.
<!-- /findings -->

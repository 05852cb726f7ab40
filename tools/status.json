{
"C01": [
"proved",
"Round trip, truncation, soundness of accepted input and type check for every header."
],
"C02": [
"proved",
"Round trip up to 65535 bytes; proved that every longer content is truncated."
],
"C03": [
"proved",
"Both directions for all integers and slices, panics exactly on wrong lengths."
],
"C04": [
"proved",
"Pre-header and first-packet reader."
],
"C05": [
"proved",
"Arbitrary non-empty batch sizes on both sides; proved separately that an empty batch wipes the chain key."
],
"C06": [
"proved",
"Symmetric agreement incl. stored root hash (derived from all three shared secrets and the previous root key hash) and keys; any coinciding pair of keys gives the reflection error and no state change."
],
"C07": [
"proved",
"For the in-memory store, over arbitrary call lists and arbitrary adaptive programs."
],
"C08": [
"partial",
"same answers proved for histories without session extension, out-of-range deletes and repeated session keys; for those the code differs: C08_extension_keys_lost, C08_extension_mixes_sessions, C08_delete_out_of_range, C08_session_key_added_twice"
],
"C09": [
"proved",
"For every store behaviour: nothing or exactly one 65536-byte block is written, success implies the block; padding arithmetic never fails."
],
"C10": [
"proved",
"Every accepted message has a matching HMAC under the session's message key over crypto setup, both encrypted packets and the HMAC header, and a verifying signature if marked signed. The pre-header and header packet are outside the HMAC, see DESIGN.md."
],
"C100": [
"proved",
""
],
"C101": [
"proved",
""
],
"C102": [
"proved",
""
],
"C103": [
"partial",
"Violated: on the second column of a wide character the cursor is not shown; proved elsewhere."
],
"C104": [
"partial",
"Violated: the view's copy of the coordinates does not follow the keys; proved if the copy is current."
],
"C105": [
"partial",
"The token named for renewal and the one named for continuation are exactly those of the specification, and none is named only if there is none. Negation with witness: a renewal that stopped after the parameters were fetched is never named by either query."
],
"C106": [
"partial",
"Two successful executions are at least a period less one second apart, in every history; the exact condition of a call that does nothing; a failed call is not recorded. Negation with witness: times are stored in whole seconds, so a command can be executed again up to a second early."
],
"C107": [
"partial",
"After a successful run each account is paid for longer than requested or was paid for in this run (one token may not be enough); each account is paid for at most once per run and only if needed; tokens are settled in every run. Negations with witnesses: payments go to the default server rather than to the server of the account, so that any number of runs use up tokens without effect; after a lost answer the spent token is taken again in all later runs; after a lost answer to the status call an account is paid twice; an unreachable server blocks all accounts after it; upkeep all does nothing after an upkeep accounts for a shorter time."
],
"C108": [
"partial",
"For every behaviour of the environment the exact account of the tokens of one attempt: all are settled, except one that stays locked if key generation fails or mutecrypt refuses the key init message. Negations with witnesses: each refused registration leaves a message token locked for ever and loses a paid account, any number of times; when mutecrypt dies, its end of output counts as success and unspent tokens are deleted."
],
"C109": [
"partial",
"Success implies that the commands generate, caps, register and keyinit were all executed with success, with the address for the account that was paid for, and the state of the database, for every behaviour of mutecrypt, provided that no error text begins with the line READY.; without success the database is unchanged. Negations with witnesses: an error text of the key server with the lines READY., READY., QUITTING makes a failed registration look successful; after a lost answer the identity is registered, its key is deleted, and all further attempts fail."
],
"C11": [
"partial",
"The code violates it: proved that content of a message with a wrong HMAC is written out. Partial: nothing is written when no message key is obtained."
],
"C110": [
"partial",
"Success implies confirmation, removal, key deletion and the closing of exactly the accounts of the user ID; without confirmation nothing happens; errors before the deletion of the key change nothing. Negation: if the deletion of the key fails, the command can never be repeated and no account is closed."
],
"C111": [
"partial",
"Invariant over all histories: one user ID is active as soon as there is any; the active one exists as long as it is not deleted; a switch is exact. Negation with witness: after the deletion of the active user ID it stays active, even when another one is made."
],
"C112": [
"partial",
"End to end through newNymAddress, the client's relay message, the mix and the opening of the envelope, for every server name that ends in mute.one. Negations: for every other server name the mail is delivered elsewhere, and for every name shorter than eight bytes the client panics; the name is chosen by the account server after it was paid."
],
"C113": [
"partial",
"Proved for all inputs of at most 2048 bytes and all chunkings, including the passing on to mutecrypt; Readline is characterised completely. Negations: passphrases of 2048 to 4095 bytes that arrive line by line are overwritten in the scanner's buffer, so different passphrases are accepted as equal and the right old passphrase is lost; a passphrase that ends with a carriage return is changed on its way to mutecrypt, so the two databases get different passphrases. Missing: which inputs beyond 2048 bytes still work. Passphrases typed in a terminal do not use the scanner and are not modelled."
],
"C114": [
"partial",
"Proved for passphrase inputs of at most 2046 (create) and 2045 (rekey) bytes without a carriage return at the end (see C113), for all answers of the servers, all crash points and all histories: what success means, that it is reached, what is kept, and which wallet key is used. Negations: if the configuration cannot be fetched, `db create` fails but leaves a message database without a wallet key; it can never be repeated, `wallet pubkey` crashes, and commands use the all-zero wallet key. An invalid --walletkey is stored before it is checked; afterwards every command fails. An interrupted `db rekey` leaves the two databases with different passphrases, which no `db rekey` can repair with success."
],
"C115": [
"partial",
"Signature, monotonicity and the offline preparation are proved over all histories; freshness for all states in which the time was stored with the configuration. Negations: if the first fetch is interrupted between its two writes the configuration is never refreshed again by commands; `upkeep fetchconf` and `upkeep update` go online in spite of --offline, and the interactive mode drops the option; a signed but unusable configuration replaces a usable one before it is noticed. The stored JSON is taken to be faithful."
],
"C116": [
"partial",
"Proved in full except for two negations: a usable configuration whose release date is missing or cannot be read stops all commands and the update as well; a release with the date of the binary but another commit is not announced though the update would build it. `time.Parse` is a parameter. Building from source (updateMuteFromSource) is not modelled."
],
"C117": [
"partial",
"Proved: exactness for every execution (C117_exact, C117_cache), completeness of good ends (C117_complete), no error without cause, no deadlock, termination. Violated: repeating an interrupted run (C117_repeat_violated): the message ID is cached (msg.go:578) before the text is received and queued (msg.go:632). Commands of five bytes are written and read at once; only ASCII blanks are trimmed from status lines. An error of muteproto that ends in \"accountdb: nothing found\" counts as a good end (excluded in C117_complete)."
],
"C118": [
"partial",
"Proved: pages are served for the latest cookie only, except for the empty one (C118_secret_partial), and always for the latest one (C118_available); a login succeeds only after the right passphrase was sent by somebody (C118_passphrase_partial). Violated: an empty cookie `mute=` is accepted always, before any login (app.go:107; C118_empty_cookie_violated); once the database is open every passphrase logs in (C118_any_passphrase_violated); of two concurrent logins the wrong passphrase can be accepted and the right one refused (C118_race_violated). Unpredictability of the random source is not modelled. A POST without the field panics in the handler, which net/http recovers."
],
"C119": [
"partial",
"Proved: without interrupts the status is that of the command and the database is closed (C119_status_partial); an error status always comes from the command (C119_error_status); no deadlock unless an interrupt comes before the callback is registered (C119_no_deadlock_partial); an interrupt ends the program within six of its own steps and the database is closed (C119_interrupt_ends). Violated: an interrupted program ends with status 0 though the command was not done, and possibly with the database open (C119_interrupt_status_violated); an interrupt between Notify and the registration of the callback hangs for ever (C119_early_interrupt_violated). What the command does is abstract."
],
"C12": [
"proved",
"Second delivery of an accepted message, or any message with the same session and index, is rejected."
],
"C120": [
"partial",
"Proved: the report is read as it was meant for all errors that are not blank (C120_report, C120_reply), sent means accepted (C120_recorded_sent, over all histories C120_sent_is_sent, down to the owner of the address C120_end_to_end). Violated: an accepted mail is sent again if the connection breaks before QUIT is answered (C120_accepted_again_violated); the reply \"550 \" without a text is repeated for ever (C120_bare_reply_violated, parseError); a message refused for good keeps back all messages of its nym and of the nyms after it for ever (C120_refused_blocks_violated, msg.go:342). Only ASCII blanks are trimmed; starting muteproto succeeds."
],
"C121": [
"partial",
"The list and the printed mail are read back exactly for all histories and all message texts, if no identity contains a tab or a line break (and no full name a line break); the text of a message can never break either. identity.Map accepts tabs and line breaks in a domain: a wrong sender or additional lines in the list (C121_list_violated) and additional headers (C121_header_violated). Such identities get into the contacts only when the user adds them: the sender of a received message is cut at a line break and refused with a tab (C122). A subject of plain ASCII that looks like an encoded word is shown as something else (C121_subject_violated). mime.QEncoding is modelled from the Go library."
],
"C122": [
"partial",
"Proved for every interruption, exit status, message and history: only authentic messages reach the inbox, exactly, and only completed encryptions the out-queue; a plainly named sender and content arrive exactly. Two disagreements: a header may name a sender with a tab (the sender chooses it, C59), then the report is not parsable, processing of the in-queue stops at this message for ever and the message is lost (C122_tab_violated); a peer that sends an empty nym address (or one with a tab) makes every encryption of a reply fail and so ends the send command (C122_nym_violated, C122_nym_source). A report on the standard error is taken as one write; the base64 decoding as done before reading."
],
"C123": [
"partial",
"C123_supported, C123_shown, C123_cached, C123_first, C123_once, C123_failure, C123_no_panic: proved for all histories. The code violates the last clause: after the capabilities of a domain were asked for at an alternate host, later commands without one use that host, and the domains a server says it serves are never compared (C123_other_host_violated)."
],
"C124": [
"partial",
"C124_request, C124_unblind, C124_payment, C124_owner_needed, C124_spend: proved for all inputs, C124_unblind under the hypothesis that the blind signature library (not in the repository) reports a failed verification as an error, because the code ignores its boolean result. The code violates the last clause: if a request for the token is pending, the owner named in a later call is ignored (C124_other_owner_violated)."
],
"C125": [
"partial",
"Proved for texts whose lines are empty or begin with the name of a command, without global options: any cutting gives the same result (C125_pieces_partial), which is that of the script executed line by line (C125_script_partial), and if no command is refused each is answered by one READY (C125_answers_partial). The code disagrees with the rest: a command whose options are refused is not answered by READY (C125_refused_violated); after a line of blanks a second loop reads the same descriptor, so the order of the commands depends on the pieces (C125_order_violated) and quit ends the second loop only (C125_quit_violated); --homedir given at the start is not used by db create in the loop (C125_homedir_violated)."
],
"C126": [
"partial",
"Every session ends (C126_ends). Proved for lines that are empty or begin with the name of a command: the shell executes them one after the other (C126_session_partial) with its home directory, log directory and log level (C126_options_partial). The code disagrees with the rest: --offline is not passed on, so every command runs online (C126_offline_violated); without a network a mistyped command then ends an offline shell (C126_typo_violated); after a line of blanks quit does not end the shell (C126_quit_violated)."
],
"C127": [
"partial",
"Proved for delays below 2^31 seconds, up to the mail handed to the mix (composed with C120). Delays are converted to 32 bits only after the check: 4294967296 and 4294967297 are accepted and stored as 0 and 1, so the message is not delayed at all (C127_wrap_violated). Underscores in numbers, which newer versions of Go accept, are not modelled."
],
"C128": [
"proved",
"Fields are written as name, colon, blank and value, with folded lines; the value is not decoded (encoded words and multipart bodies are sent as they are). The model of ReadMIMEHeader covers all inputs."
],
"C129": [
"proved",
"For a cursor on the text; after the text has been replaced the cursor may be off the text (C55). The scrolling of the view port is a library."
],
"C13": [
"partial",
"The code violates it: in-order delivery works exactly below stuckAt(N) messages (400 for the default batch of 50) and is refused from there on."
],
"C130": [
"partial",
"Proved for error texts that do not begin with the line READY. and for a process that is not interrupted. Violated otherwise: the message of a JSON-RPC error is printed as it is to the descriptor of the answers, so a key server can answer the sync with the answers the engine waits for and the contact is added with nothing looked up; an interrupted mutecrypt ends with status 0 and is taken for success; a line feed in the domain of a contact is another command for mutecrypt."
],
"C131": [
"partial",
"C131_in_wallet and C131_need_owner hold for all wallets. C131_got_partial: what is returned for a named owner is recorded for that owner and locked; it has the usage if the keys of the pool have it. C131_handed_out: a token from the wallet server is first recorded under the wallet's own key pair with the usage and expiry of its key, and then reissued for the owner named, unless nobody is named and it is a subscription token. C131_stored_partial: a token from the wallet server with a key and parameters that the client takes is in the wallet at every crash point after the first write until it is spent. The code violates the rest: errors of the store other than 'no token' give neither a token nor an error (C131_nil_violated); the wallet server decides about the usage (C131_other_usage_violated); a token whose key is not taken is dropped after it was handed out (C131_lost_violated), which is what happens to every token of a new client (C131_new_client_violated). Assumed for C131_got_partial: reasonable answers (Good), in particular a new token that differs from the old one."
],
"C132": [
"proved",
"C132_accounts is a refinement: the accounts that can be read after any history are those of a book written by the operations that succeeded. C132_add says when an account is accepted, C132_list that the list of accounts is complete, without repetitions and names nothing else (for identities among which the empty one is not mapped, as in the code). The encoding of keys in base64 is that of Verif.Util (round trip proved there)."
],
"C133": [
"partial",
"C133_reachable and C133_bounded state the claim with the relation between tick, interval and life of keys as hypotheses. Nothing enforces these: C133_grows_violated (ticks further apart than the interval: expired keys are never dropped, since a tick that adds a key does not expire any) and C133_gap_violated (life shorter than the interval: moments at which no published address and no private key is usable)."
],
"C134": [
"partial",
"C134_candidates proves that the address is made for an unexpired entry of the answer and C134_revoke what RevokeMessage reports. The signature is never verified: C134_unsigned_violated and C134_forged_violated (whoever answers instead of the mix can open the private part of the address and learns the mailbox; only TLS stands in between). C134_bare_violated: the answer REVOKED without a further byte is ErrProto. The JSON decoding of the answer is a parameter."
],
"C135": [
"partial",
"C135_private, C135_public: after any history of calls on an entry that was read, for a random reader that delivers; C135_stored: generating, storing and reading back; C135_equal. The code disagrees with the last sentence: C135_mismatch_violated (a private key of another key pair is taken), C135_short_violated (the error for a public key of the wrong size is dropped: a Diffie-Hellman entry then gives out a nil pointer, a signature entry a key of zeros), C135_failed_violated (a key that could not be generated takes the old one with it, while the entry still claims to hold one). Not modelled: the JSON text of an entry (C76, C77 treat JSON)."
],
"C136": [
"partial",
"C136_found, C136_unknown, C136_reaches (given that no two published keys have the same SHA512 hash), C136_signed. The code disagrees where a call fails after the KeyInit was sent: C136_lost_violated (no answer, a bad signature or a server without keys: the KeyInit can be fetched from the server, but the private key was never stored; a stop of the program in between has the same effect). Private keys are never deleted, also not by flushing. The KeyInit in the table stands for its JSON text."
],
"C137": [
"partial",
"Proved for every history of attempts with arbitrary failures and interruptions: success means that every program and the generator were built from the commit asked for and carry its release file, that the tree is back on the pulled master branch and that the next update finds the programs up to date (C137_installed, C137_up_to_date); every program is an old one or one built from a commit that was asked for (C137_sources); local changes stop everything (C137_local_changes); an attempt of which all commands work succeeds if no generator was stopped while writing (C137_recovers) or if the cut-off file is of another commit (C137_recovers_partial). Where the code disagrees: a head.go cut off after the line with the commit is taken to be up to date and makes every later attempt for this commit fail (C137_cut_off_violated); an interrupted installation leaves programs of different releases (C137_mixed_violated); a commit named by an abbreviation is built again and again (C137_abbreviated_violated). Commands are modelled by their effects; a conflicting merge in git pull is not."
],
"C138": [
"partial",
"Proved for every history: with a key directory each key that was handed out has its complete file if no saving of a key breaks off (C138_on_file), and is known to whoever loads the storages if no write at all breaks off (C138_loaded); with a database whose insert statements are done it is found by its id (C138_fetched); a file that breaks off is never taken for a key (C138_cut_file). Where the code disagrees: the database storage drops the error of the insert, so that a key is handed out that is stored nowhere (C138_unreported_violated); one file that breaks off hides every key after it in the directory (C138_damaged_violated). Assumed: key ids of the history do not collide; sizes of keys are in range."
],
"C139": [
"partial",
"C139_understood: every call (13 kinds), for every value, is performed by the program called exactly as the specification Call.expected says. C139_piped_partial: lines written to the loop, for values that are words; C139_contact_lines ties them to the dialogue of contact add and C139_globals to the loop of C125. Violated without that restriction: C139_help_violated, a contact eve@x.org -h is a valid identity, every line asks for a help text, the loop answers READY. and the contact is accepted without any lookup. The command line library is modelled from its documented behaviour."
],
"C14": [
"proved",
"Per message at most 301+2N keys; too large counts are rejected. Wrap-around of the 64-bit product is characterised separately."
],
"C140": [
"partial",
"C140_contents, C140_command_contents, C140_compact, C140_modes, C140_incremental, C140_status and C140_key_database hold. Violated for the command: C140_command_violated, mutectrl db vacuum passes --auto-vacuum FULL to mutecrypt, whose option is commented out, so the command always fails after the message database was rebuilt and never compacts the key database; C140_commands_missing_violated, the commands db status and db incremental of mutecrypt do not exist. SQLite's behaviour is an assumption taken from its documentation."
],
"C141": [
"partial",
"Holds for up to as many messages as keys are generated at a time (50 by default). DISAGREEMENT: AddSession takes the identifier of a known session from LastInsertId of an UPDATE; on a new connection that is 0, so the keys of an extension are stored for no session, the number of keys is raised all the same, and neither this nor any later message to this recipient can be encrypted. Sessions that carry messages in both directions or are replaced by the next session are not covered."
],
"C142": [
"partial",
"C142_which_open says exactly which attempts succeed: a message that was not opened before opens iff its key was made already or at most 301 keys (its index rounded up to a multiple of the batch size) have to be made for it; what opens is what was sent. C142_any_order_partial: all messages within these limits are delivered in every order. DISAGREES WITH THE CODE beyond: C142_newest_first_violated, a batch of 303 to 400 messages (default batch size), which is delivered when opened in order, cannot be opened newest first, the order in which fetched messages are processed: the newest message is refused with every attempt."
],
"C143": [
"partial",
"C143_mixed_partial: an envelope that was counted as accepted means a mail server took a mail for the mix of the nym address, and the mix, reading it before the address expires, sends the message on to the mailbox of the account. C143_arrives_partial: a batch of messages of a first contact is encrypted, and whatever part of it reaches the mailbox, in whatever order, is put into the inbox by the next fetch and processing, exactly as written, each once, with sender and arrival time. C143_blocked_violated (disagreement with the code): if the newest of them is so far ahead that its keys cannot be made at once (with the default settings the 302nd message or a later one), decrypting it fails with an error that ends the processing of the in-queue, so that nothing fetched with it or later, for any account, ever reaches the inbox. Missing: interruptions between the steps (treated in C94, C118, C120), replies in the same session, and the sessions are kept in the in-memory store, not in the key database (C141 relates the two for messages in order)."
],
"C144": [
"partial",
"C144_any_order_partial: with sessions in the key database and a new process per message, a first batch (not more than the sender makes keys for at once) is encrypted and each message within the recipient's first batch opens in whatever order they arrive, with exactly the content, sender and signature. C144_arrives_partial: the same over the whole way of C143 (mix, mailbox, fetch, in-queue). Missing: messages beyond the first batch of keys, where the code loses them (C141_sender_stuck_violated), repeated messages and interruptions."
],
"C145": [
"partial",
"C145_conversation_partial: for every list of actions of two users (sending in both directions, opening any earlier message again and again), with all random choices about new sessions, every outcome is allowed: sending succeeds, a message opens once with exactly its content, sender and signature; a refusal means it was opened before or that more than 301 keys are needed for its number in its session, as written in its header; and that number counts the messages its sender wrote earlier in the same session. The stores may hold sessions with other users. Missing: messages with another session status; sessions in the key database (C141, C144 for one direction). Both users sending a first message at the same time is C148."
],
"C146": [
"partial",
"C146_turns_partial: if the users take turns and open each message before the next is written, then after two messages each way both use new keys, whatever the random choices. DISAGREES WITH THE CODE otherwise: C146_never_refreshed_violated. When the recipient opens the first message it draws its next key; if the sender writes another message for which a new session is announced before opening an answer, both have drawn a next key without having seen the other's. Decrypt prepares a session only if it has no next key, and switches only if the message names its own next key as seen, so from then on neither happens: for every continuation both users encrypt with the keys of the first contact, the recipient with the key of the KeyInit message. Missing: the general condition under which keys are refreshed."
],
"C147": [
"partial",
"C147_erased_partial: in every conversation of C145, at every point, each user's store has the private part of no drawn session key but that of the current session (while the next is not prepared) and that announced for the next, and nothing is left at the place of the key of a message sent, or opened. DISAGREES WITH THE CODE for the first session: C147_first_message_violated. The private key of the KeyInit message that the first sender used is never deleted (no query of the key database deletes it, and Decrypt only deletes session keys), so however long the conversation goes on, the key of the first message can be recomputed from the recipient's store, identity key and the header of the message. Crossing first contacts: C149. Missing: that deleted values are overwritten on disk."
],
"C148": [
"partial",
"C148_crossing_partial: for every list of actions of two users who have each other's KeyInit, from the first message on, every outcome is allowed: both can always send, a message opens once with exactly its content, sender and signature, and a refusal means it was opened before or that more than 301 keys are needed for its number in its session. Covers all interleavings in which both users start a session of their own; the session of the user with the smaller identity is continued, and the messages of the other one are opened beside it. Missing: messages with another session status, and the sessions are in the memory store."
],
"C149": [
"partial",
"C149_erased_partial: in every conversation of C148, at every point, nothing is left at the place of the key of a message sent, or opened, in either user's store; the store of the user with the smaller identity has the private part of no drawn session key but that of the current session (while the next is not prepared) and that announced for the next; the store of the other user has the private parts of at most two more. DISAGREES WITH THE CODE for these two: C149_kept_violated. If the first contacts cross, the user with the larger identity goes over to the other's session, but Decrypt deletes only the session key that is named in the header of a received message, and nobody ever answers in the session given up. So its private key stays, and however long the conversation goes on, the key of that user's first message can be recomputed from the user's own store and identity key. Missing: messages with another session status, and that deleted values are overwritten on disk."
],
"C15": [
"partial",
"losslessness, counters and size of the carried parts proved for all messages and sizes; the clause that no chunk exceeds the size is false (envelope not counted): C15_chunk_text_exceeds_size"
],
"C150": [
"partial",
"DISAGREES WITH THE CODE: doc/messages.md says that a message with the status Reset makes the recipient reset the session and pick up the one created by the peer; Decrypt never reads the status, with any session store (C150_status_violated), and keeps the state it has (C150_reset_violated; with the key database C150_reset_db_violated). A user who lost the session data can reach the other user, whose store does not follow: every answer is refused, however many are written (C150_restart_violated for any session that was answered or whose owner has the smaller identity; C150_lost_violated from first contact, without assuming that any operation succeeds; C150_refused_db_violated: a key database without the session and the key refuses and stays as it was). What holds is C150_followed_partial: without a session, or with an unanswered one when the sender has the smaller identity, the new session is followed."
],
"C151": [
"partial",
"DISAGREES WITH THE CODE: Decrypt starts a session and stores its state before it has checked anything that only the named sender can make. Somebody who has the UID messages of two users and the KeyInit message of the second can send the second user a message in the first user's name with an own session key and no body. It is refused, but every message the second user writes from then on is refused by the first (C151_forged_violated), also when the first user makes the first contact afterwards and that message is opened (C151_first_contact_violated); no operation is assumed to succeed. What holds: an input whose header cannot be read changes nothing (C151_unreadable_partial), and once a session was answered, a message of another session leaves the session state as it was (C151_established_partial). With the key database the refused message leaves a session state to the forger's key in the database, and a message of any other session in the sender's name leaves it there (C151_forged_db_violated, C151_established_db_partial)."
],
"C152": [
"partial",
"C152_damaged_partial: any interleaving of sends, deliveries and damaged deliveries (everything after the header replaced by arbitrary bytes) from the first contact on; refused copies change nothing in what opens later, an accepted one contains an HMAC under the key of that very message, comes from its sender and counts as the message, and a copy cut after the header is never accepted. Partial: like C145 a message more than 301 keys from the beginning of its session may be refused, keys drawn are assumed distinct, and that nobody else can make such an HMAC is not part of the model. Copies with a damaged header are not covered here; what a forged header can do is C151."
],
"C16": [
"partial",
"canonical form, fixed points and IsMapped proved exactly; idempotence holds if the mapped identity is at most 254 bytes (always for ASCII domains) and is refuted otherwise: C16_map_not_idempotent"
],
"C17": [
"partial",
"C17_reply_index_partial: an accepted reply is signed by the server over its entry and its encrypted message decrypts, with the hash of the given message, to the index of that hash. C17_honest_reply_accepted: replies an honest server makes are accepted. Missing and false (C17_reply_not_bound): the decrypted message is never compared with the given one."
],
"C18": [
"partial",
"C18_user_signature, C18_update_verifies: an update is accepted exactly if signed with the key of its predecessor and updates made with the right key are. C18_chain_increases_partial: counters strictly increase along accepted chains. C18_counter_wraps: at 2^64-1 Update produces a message that is refused."
],
"C19": [
"partial",
"C19_created_window, C19_created_verifies, C19_verified_partial: created KeyInit messages have the requested window and verify within it; verified messages satisfy all listed conditions. C19_verify_far_future shows that Verify accepts messages whose validity begins in the far future."
],
"C20": [
"proved",
"base64 is modelled concretely (StdEncoding skips line breaks and ignores trailing bits), so several texts may decode to one entry; the fields are always those of the decoded bytes"
],
"C21": [
"proved",
"A chain that passes validation is linked entry by entry, a linked chain passes, and two validated chains with the same last entry are equal or exhibit a hash collision."
],
"C22": [
"proved",
"No command other than deleting the chain removes or changes a stored hash chain entry."
],
"C23": [
"partial",
"Stored public UIDs carry verified self- and server signatures and stand in the chain; violated for the domain: a key server can plant messages of identities of another domain (C23_foreign_identity_stored)."
],
"C24": [
"proved",
"Round trip, no recipient, short input, unknown key and soundness of accepted input, under the stated cipher laws."
],
"C25": [
"partial",
"No panic for tame headers and for senders and owners; proved that four kinds of message crash a mix."
],
"C26": [
"partial",
"Header round trip, forward and relay end to end; proved that long headers panic on sending and that an all-zero or empty token is lost."
],
"C27": [
"proved",
"Address parsing by mix and owner, nym encryption, foreign headers; a nym comes back padded or cut to 32 bytes."
],
"C28": [
"proved",
"Exact contents and order for expiry, append and statements; the random choice reaches every member."
],
"C29": [
"partial",
"Round trip, sequences of deliveries with saving and loading for every SMTP behaviour; at most one acceptance only if Quit does not fail. Proved violations: duplicate after a failed Quit, message lost when the error text is no UTF-8, message without CA certificate lost after saving."
],
"C30": [
"partial",
"Call bound, counters and results for all answers; proved violation: errors shorter than eleven bytes crash the client."
],
"C31": [
"proved",
"positive widths (the only call uses 72; width 0 would not terminate); also proved: WriteMail body is read back by ReadMail"
],
"C32": [
"proved",
"Over every sequence of updates and replies: acceptance exactly characterised, date monotone, failed updates keep map and date, stored map always signed."
],
"C33": [
"proved",
"The signed bytes determine date and entries unless SHA-512 collides; independent of iteration order; a generated certificate is accepted."
],
"C34": [
"proved",
"Order is a priority respecting permutation for every choice of random permutations; well-formed lists parse to exactly their servers. sort.Sort is any sorted permutation."
],
"C35": [
"partial",
"False as stated: the update after one where no server answered panics, and so does a CA certificate that is not PEM (both proved). Partial: no panic otherwise."
],
"C36": [
"partial",
"Exclusive as long as nobody unlocks, deletes, expires or clears the lock and random lock IDs do not collide; equal IDs, reopening the store and the ID of another lock break it (proved)."
],
"C37": [
"partial",
"A reissue of a token that is free takes its lock and every intermediate wallet keeps it (C37_own_lock_partial). The property fails when the token is held by somebody else: LockToken reports that with -1, which ReissueToken takes for a lock, so the token is spent (C37_spends_held) or its lock is released (C37_releases_held)."
],
"C38": [
"partial",
"Until the issuer has accepted, every crash leaves the token in the wallet, with its packet if that was sent (C38_before_spent_partial); after success the new token is stored (C38_success_partial). The property fails between acceptance and storing: a crash (C38_crash_loses) or an unacceptable key (C38_error_loses) loses the value."
],
"C39": [
"partial",
"Exact round trip for every entry with an owner and consistent fields, alone and through the database, other entries unchanged; entries without owner panic, a lone new owner is lost, and a crash between the two writes leaves an unreadable row (proved)."
],
"C40": [
"proved",
"Creation is accepted with its key, time window and counter; acceptance implies size, signature and field positions; everything else is rejected."
],
"C41": [
"proved",
"Over every history of a pool, from the new pool on; storage callbacks and lookup services answer arbitrarily."
],
"C42": [
"proved",
"Equal images imply equal content or a SHA-256 collision; images of the two kinds have different sizes."
],
"C43": [
"proved",
"One call and the repeated calls are characterised exactly for every well-formed database; all databases made by the API are well-formed."
],
"C44": [
"proved",
"For every history of send runs, crashes and user commands (C44_engine_exactly_one_state). The raw database interface alone does not enforce it."
],
"C45": [
"proved",
"Delivery under all crash points, with the assumption that encryption and envelopes are never empty; C45_empty_envelope_blocks shows that an empty entry in the out queue blocks the rest."
],
"C46": [
"proved",
"Termination for all replies and delivery in the order of insertion."
],
"C47": [
"partial",
"Proved for runs that are not interrupted (C47_each_once_partial). Violated otherwise: after an interruption at any point once the first ID is cached, the next run stores nothing (C47_interrupted_loses). The server is assumed to list the newest message first, with increasing times."
],
"C48": [
"partial",
"Messages without a key do not matter for the others (C48_all_processed_partial) and every run ends (C48_terminates). Violated for other errors: an envelope that cannot be opened at the head of the queue blocks it (C48_bad_head_blocks)."
],
"C49": [
"proved",
"Model of AddValue/GetValue over the key-value table."
],
"C50": [
"proved",
"Model of the message-ID cache; ids are ordered by insertion number."
],
"C51": [
"proved",
"Identities are assumed to map to strings of the form local@domain with no '<' in the local part, as identity.Map guarantees (C01)."
],
"C52": [
"proved",
"over a file system model and abstract PBKDF2 and block cipher; the database is represented by the key that opens it"
],
"C53": [
"partial",
"process crashes at every step and inside every write proved safe; power loss is not: the new key file is not flushed before the rename (C53_power_loss_loses_key)"
],
"C54": [
"partial",
"Violated: a line that starts with a zero-width rune (for example a tab) gains a space, and invalid UTF-8 is replaced; the exact result is proved for every text, characters and cells for all bytes."
],
"C55": [
"partial",
"Violated: the cursor may be behind the end of a shorter line, and on no line after SetContent; proved: never negative, on an existing line and within the longest line after every move."
],
"C56": [
"proved",
"against the decimal representation of the number"
],
"C57": [
"proved",
"for every reply sequence: at most 69 attempts, decisive reply ends polling, giving up only after five minutes"
],
"C58": [
"proved",
"the test function may overwrite the buffers it is handed; also for explicit ranges"
],
"C59": [
"partial",
"Violated: C59_negation_spoofed_sender - any user can name any identity as the sender of messages authenticated with their own keys and signed with their own UID message; all are accepted. C59_bound_to_identity_key_partial proves that a successful message is authenticated with a key of a session bound to the header's verified SenderIdentityPub. Missing: a link between the reported identity and that key (the code has none)."
],
"C60": [
"partial",
"Violated twice: C60_negation_two_messages (a stranger crashes the recipient with two messages, because a rejected first message leaves a session without state) and C60_negation_bad_signature_key (signature key of the enclosed UID message used unchecked). C60_no_panic_partial proves that Decrypt never panics on any bytes if stored keys are usable, UID messages have usable signature keys and every session has a state; missing is that the last condition is preserved, which is false."
],
"C61": [
"proved",
"Over the in-memory store, for any list of messages up to the limit of C13; sender success under the checks Encrypt makes is proved separately. C61_own_users_talk proves the whole path for users made by Create and Update with the concrete base64 and JSON encodings of UID messages and headers."
],
"C62": [
"partial",
"Proved for users made by Create without signature escrow (as the program creates them) and any number of updates, with the concrete JSON encoding: every header is built and has the required length; the header model is tied to the one used by Encrypt (C61_own_users_talk). Negations proved: with signature escrow every header is 16 bytes too long; a peer's key entry with a line break in its hash makes the header too long."
],
"C63": [
"proved",
"sender and uniqueness"
],
"C64": [
"partial",
"round trip proved for messages with a non-empty first line; refuted for an empty one: C64_empty_subject_unreadable. Text layer of the Go library represented by its parsed form"
],
"C65": [
"partial",
"DecodeChunk never panics; Parse panics exactly when the multipart stream breaks after the first part: C65_parse_can_panic"
],
"C66": [
"proved",
"over an abstract invertible block cipher; panics in Go are modelled as panics"
],
"C67": [
"partial",
"refuted: a crash after the key file was created and before the database file exists blocks both Create and Open with every passphrase (C67_interrupted_create_blocks)"
],
"C68": [
"partial",
"C68_created_checks_partial proves it for messages without escrow and with the default preferences. C68_created_refused proves that all other messages Create makes are refused by Check."
],
"C69": [
"partial",
"C69_signature_checks_total proves that the signature checks never panic. C69_short_reply_panics proves that replies whose encrypted message is too short do make the client panic."
],
"C70": [
"proved",
"Honest server; any stored prefix."
],
"C71": [
"proved",
"Honest registry; any earlier search progress."
],
"C72": [
"proved",
"Exact for ASCII strings, with the concrete JSON encoding."
],
"C73": [
"partial",
"Violated: the reply is stored before it is verified, so a refused registration is final (C73_refused_reply_is_final). The success case is proved."
],
"C74": [
"partial",
"Proved for nyms never updated; violated after every update (C74_deleting_leaves_old_keys)."
],
"C75": [
"partial",
"The key comes from a stored KeyInit message bound to the recipient's key hash; violated for the signature, which is never checked (C75_forged_key_init_used)."
],
"C76": [
"partial",
"Violated: only the negation is proved; the first stored KeyInit message is used forever."
],
"C77": [
"partial",
"Replay and single-use marks are stable; proved that an expired address still works, because only the public expiry field is checked."
],
"C78": [
"partial",
"Signed statements verify and lists of the same shape differ in their signed bytes; proved that bytes can be moved between address and token key."
],
"C79": [
"partial",
"Proved for all histories; the saved-file part needs successful writes, and it is proved that an ignored write error loses a published key."
],
"C80": [
"partial",
"Complete for well-formed answers and a prefix otherwise; proved violations: silent truncation and a crash on non-objects."
],
"C81": [
"partial",
"Success half proved. A failed certificate fetch loses the old certificate (C81_certificate_lost)."
],
"C82": [
"partial",
"With a named owner and a wallet whose entry has a new owner if it has a packet, a reissue does not panic (C82_no_panic_partial). Without a named owner it panics whenever a key can be generated (C82_new_key_panics)."
],
"C83": [
"partial",
"Violated: the stop channel has no buffer and is only polled by its length, so that no runner ever stops and StopRunner never returns; a second Runner call returns holding the lock, after which every SetTarget waits forever. Proved: mutual exclusion, and that SetTarget can finish if every runner is started at most once."
],
"C84": [
"partial",
"Violated: the image hashes the coordinates without their lengths, so a byte can move from one to the other. Proved for coordinates of equal length (collision resistance as a hypothesis)."
],
"C85": [
"partial",
"Round trip of tokens, and injectivity of the hash for the field sizes New makes; sizes are not checked when a token is read, so the owner can be shifted without changing hash and signature (proved)."
],
"C86": [
"proved",
"For every well-formed database and fresh lock ID: the earliest expiring usable token is locked and returned and the balance is one less; an empty balance yields no token."
],
"C87": [
"partial",
"Violated: the two-column query is scanned into one variable, so nothing is ever read back. Proved: the encoding round trip, the values while the wallet is open, and that the data is in the database."
],
"C88": [
"partial",
"Violated: an expired key is returned for up to half the expiry time. Proved: the bound, and that a new key is valid."
],
"C89": [
"proved",
"All targets in any iteration order."
],
"C90": [
"partial",
"Violated: GoOnline asks for the keys before it sets the online flag, so that the service is not asked; a new client then knows no key. Proved: a client that is online already learns all listed keys and no others."
],
"C91": [
"proved",
"Round trip of the encoding, which keys can be written, and the restart of a pool."
],
"C92": [
"partial",
"Violated: the key the lookup service returns need not be the key the token names; a valid token without owner crashes the receiver. Proved: everything else, and the named key for a client that is offline."
],
"C93": [
"partial",
"Violated: keys are loaded before any verification key is known, and all are rejected. Proved: the database storage finds a key by its id once the signer is known."
],
"C94": [
"partial",
"Every call sends one to four requests; an honest server is reached after at most four failed calls whatever the client has cached; up to three lost requests or answers are paid once. Negations with witnesses: four lost answers or a restart after one lost answer make the client pay twice; a kept token refused with a fatal error is resent for ever."
],
"C95": [
"partial",
"Negation proved: any error text of less than eleven bytes (\"EOF\") crashes every wallet call. The answers that crash the client are characterised exactly for six calls; no well-typed answer crashes any of the seven."
],
"C96": [
"partial",
"Proved for non-empty lists of 32 byte keys, under the hypothesis that the trust root's signature cannot be forged. Negation: an empty signed list gives one key of 32 zero bytes."
],
"C97": [
"proved",
"Foreign keys and ON DELETE CASCADE are modelled; the statement on other nyms ranges over histories that queue only waiting messages."
],
"C98": [
"proved",
"C98_read_mark_unchecked records that marking a message as read does not check the owner."
],
"C99": [
"partial",
"Violated: the short variable declaration in contactAdd overwrites the given name and list, so a new contact has no name and an unknown sender is white-listed (C99_name_and_list_kept_violated). Proved for contacts that are known already."
]
}
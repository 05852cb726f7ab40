{
 "claims": [
  {
   "property": "C01",
   "status": "proved",
   "theorems": [
    "Verif.Wire.C01_outer_roundtrip",
    "Verif.Wire.C01_outer_truncated",
    "Verif.Wire.C01_outer_read_sound",
    "Verif.Wire.C01_outer_bad_type"
   ],
   "note": "Round trip, truncation, soundness of accepted input and type check for every header."
  },
  {
   "property": "C02",
   "status": "proved",
   "theorems": [
    "Verif.Wire.C02_inner_roundtrip",
    "Verif.Wire.C02_inner_truncates",
    "Verif.Wire.C02_inner_truncated_input"
   ],
   "note": "Round trip up to 65535 bytes; proved that every longer content is truncated."
  },
  {
   "property": "C03",
   "status": "proved",
   "theorems": [
    "Verif.Wire.C03_toByte8_spec",
    "Verif.Wire.C03_toUint64_spec",
    "Verif.Wire.C03_decode_encode",
    "Verif.Wire.C03_encode_decode",
    "Verif.Wire.C03_panics_iff"
   ],
   "note": "Both directions for all integers and slices, panics exactly on wrong lengths."
  },
  {
   "property": "C04",
   "status": "proved",
   "theorems": [
    "Verif.Wire.C04_preheader_roundtrip",
    "Verif.Wire.C04_first_roundtrip",
    "Verif.Wire.C04_preheader_read_sound",
    "Verif.Wire.C04_first_read_sound",
    "Verif.Wire.C04_preheader_truncated"
   ],
   "note": "Pre-header and first-packet reader."
  },
  {
   "property": "C05",
   "status": "proved",
   "theorems": [
    "Verif.Msg.C05_same_message_keys",
    "Verif.Msg.C05_number_of_keys",
    "Verif.Msg.C05_identities_symmetric",
    "Verif.Msg.C05_empty_batch_wipes_chain"
   ],
   "note": "Arbitrary non-empty batch sizes on both sides; proved separately that an empty batch wipes the chain key."
  },
  {
   "property": "C06",
   "status": "proved",
   "theorems": [
    "Verif.Msg.C06_agreement_symmetric",
    "Verif.Msg.C06_reflection_rejected"
   ],
   "note": "Symmetric agreement incl. stored root hash (derived from all three shared secrets and the previous root key hash) and keys; any coinciding pair of keys gives the reflection error and no state change."
  },
  {
   "property": "C07",
   "status": "proved",
   "theorems": [
    "Verif.Msg.C07_deleted_key_never_returned",
    "Verif.Msg.C07_deleted_key_never_returned_prog",
    "Verif.Msg.C07_undeleted_key_unchanged"
   ],
   "note": "For the in-memory store, over arbitrary call lists and arbitrary adaptive programs."
  },
  {
   "property": "C08",
   "status": "partial",
   "theorems": [
    "Verif.Keydb.C08_same_answers_partial",
    "Verif.Keydb.C08_extension_keys_lost",
    "Verif.Keydb.C08_extension_mixes_sessions",
    "Verif.Keydb.C08_delete_out_of_range",
    "Verif.Keydb.C08_session_key_added_twice"
   ],
   "note": "same answers proved for histories without session extension, out-of-range deletes and repeated session keys; for those the code differs: C08_extension_keys_lost, C08_extension_mixes_sessions, C08_delete_out_of_range, C08_session_key_added_twice"
  },
  {
   "property": "C09",
   "status": "proved",
   "theorems": [
    "Verif.Msg.C09_output_size",
    "Verif.Msg.C09_padding_always_fits"
   ],
   "note": "For every store behaviour: nothing or exactly one 65536-byte block is written, success implies the block; padding arithmetic never fails."
  },
  {
   "property": "C10",
   "status": "proved",
   "theorems": [
    "Verif.Msg.C10_success_is_authenticated"
   ],
   "note": "Every accepted message has a matching HMAC under the session's message key over crypto setup, both encrypted packets and the HMAC header, and a verifying signature if marked signed. The pre-header and header packet are outside the HMAC, see DESIGN.md."
  },
  {
   "property": "C11",
   "status": "partial",
   "theorems": [
    "Verif.Msg.C11_negation_unauthenticated_content_released",
    "Verif.Msg.C11_no_key_no_output_partial"
   ],
   "note": "The code violates it: proved that content of a message with a wrong HMAC is written out. Partial: nothing is written when no message key is obtained."
  },
  {
   "property": "C12",
   "status": "proved",
   "theorems": [
    "Verif.Msg.C12_index_accepted_once",
    "Verif.Msg.C12_replay_rejected"
   ],
   "note": "Second delivery of an accepted message, or any message with the same session and index, is rejected."
  },
  {
   "property": "C13",
   "status": "partial",
   "theorems": [
    "Verif.Msg.C13_in_order_partial",
    "Verif.Msg.C13_negation_session_gets_stuck",
    "Verif.Msg.C13_default_limit"
   ],
   "note": "The code violates it: in-order delivery works exactly below stuckAt(N) messages (400 for the default batch of 50) and is refused from there on."
  },
  {
   "property": "C14",
   "status": "proved",
   "theorems": [
    "Verif.Msg.C14_key_generation_bounded",
    "Verif.Msg.C14_extension_bounded",
    "Verif.Msg.C14_too_many_rejected",
    "Verif.Msg.C14_index_wraparound",
    "Verif.Msg.C14_index_wraparound_zero"
   ],
   "note": "Per message at most 301+2N keys; too large counts are rejected. Wrap-around of the 64-bit product is characterised separately."
  },
  {
   "property": "C15",
   "status": "partial",
   "theorems": [
    "Verif.Mime.C15_chunks_lossless_partial",
    "Verif.Mime.C15_chunk_text_exceeds_size",
    "Verif.Mime.C15_decode_sound"
   ],
   "note": "losslessness, counters and size of the carried parts proved for all messages and sizes; the clause that no chunk exceeds the size is false (envelope not counted): C15_chunk_text_exceeds_size"
  },
  {
   "property": "C16",
   "status": "partial",
   "theorems": [
    "Verif.Ident.C16_map_canonical",
    "Verif.Ident.C16_isMapped_iff",
    "Verif.Ident.C16_map_idempotent_partial",
    "Verif.Ident.C16_map_idempotent_ascii_partial",
    "Verif.Ident.C16_mapPlus",
    "Verif.Ident.C16_map_not_idempotent"
   ],
   "note": "canonical form, fixed points and IsMapped proved exactly; idempotence holds if the mapped identity is at most 254 bytes (always for ASCII domains) and is refuted otherwise: C16_map_not_idempotent"
  },
  {
   "property": "C17",
   "status": "partial",
   "theorems": [
    "Verif.Uid.C17_reply_index_partial",
    "Verif.Uid.C17_honest_reply_accepted",
    "Verif.Uid.C17_reply_not_bound"
   ],
   "note": "C17_reply_index_partial: an accepted reply is signed by the server over its entry and its encrypted message decrypts, with the hash of the given message, to the index of that hash. C17_honest_reply_accepted: replies an honest server makes are accepted. Missing and false (C17_reply_not_bound): the decrypted message is never compared with the given one."
  },
  {
   "property": "C18",
   "status": "partial",
   "theorems": [
    "Verif.Uid.C18_user_signature",
    "Verif.Uid.C18_update_verifies",
    "Verif.Uid.C18_chain_increases_partial",
    "Verif.Uid.C18_updates_form_chain",
    "Verif.Uid.C18_counter_wraps"
   ],
   "note": "C18_user_signature, C18_update_verifies: an update is accepted exactly if signed with the key of its predecessor and updates made with the right key are. C18_chain_increases_partial: counters strictly increase along accepted chains. C18_counter_wraps: at 2^64-1 Update produces a message that is refused."
  },
  {
   "property": "C19",
   "status": "partial",
   "theorems": [
    "Verif.Uid.C19_created_window",
    "Verif.Uid.C19_verified_partial",
    "Verif.Uid.C19_created_verifies",
    "Verif.Uid.C19_verify_far_future"
   ],
   "note": "C19_created_window, C19_created_verifies, C19_verified_partial: created KeyInit messages have the requested window and verify within it; verified messages satisfy all listed conditions. C19_verify_far_future shows that Verify accepts messages whose validity begins in the far future."
  },
  {
   "property": "C20",
   "status": "proved",
   "theorems": [
    "Verif.Util.C20_split_entry",
    "Verif.Util.C20_split_entry_exact"
   ],
   "note": "base64 is modelled concretely (StdEncoding skips line breaks and ignores trailing bits), so several texts may decode to one entry; the fields are always those of the decoded bytes"
  },
  {
   "property": "C21",
   "status": "proved",
   "theorems": [
    "Verif.Crypt.C21_validated_linked",
    "Verif.Crypt.C21_linked_validates",
    "Verif.Crypt.C21_tamper_evident"
   ],
   "note": "A chain that passes validation is linked entry by entry, a linked chain passes, and two validated chains with the same last entry are equal or exhibit a hash collision."
  },
  {
   "property": "C22",
   "status": "proved",
   "theorems": [
    "Verif.Crypt.C22_delete_chain",
    "Verif.Crypt.C22_sync_other_domain",
    "Verif.Crypt.C22_history_kept"
   ],
   "note": "No command other than deleting the chain removes or changes a stored hash chain entry."
  },
  {
   "property": "C23",
   "status": "partial",
   "theorems": [
    "Verif.Crypt.C23_stored_vouched_partial",
    "Verif.Crypt.C23_foreign_identity_stored"
   ],
   "note": "Stored public UIDs carry verified self- and server signatures and stand in the chain; violated for the domain: a key server can plant messages of identities of another domain (C23_foreign_identity_stored)."
  },
  {
   "property": "C24",
   "status": "proved",
   "theorems": [
    "Verif.Mix.C24_round_trip",
    "Verif.Mix.C24_no_recipient",
    "Verif.Mix.C24_short",
    "Verif.Mix.C24_unknown_key",
    "Verif.Mix.C24_sound"
   ],
   "note": "Round trip, no recipient, short input, unknown key and soundness of accepted input, under the stated cipher laws."
  },
  {
   "property": "C25",
   "status": "partial",
   "theorems": [
    "Verif.Mix.C25_receive_no_panic_partial",
    "Verif.Mix.C25_any_plaintext",
    "Verif.Mix.C25_length_crashes_mix",
    "Verif.Mix.C25_empty_token_crashes_mix",
    "Verif.Mix.C25_other_type_crashes_mix",
    "Verif.Mix.C25_long_header_crashes_mix",
    "Verif.Mix.C25_send_no_panic",
    "Verif.Mix.C25_owner_no_panic"
   ],
   "note": "No panic for tame headers and for senders and owners; proved that four kinds of message crash a mix."
  },
  {
   "property": "C26",
   "status": "partial",
   "theorems": [
    "Verif.Mix.C26_header_round_trip",
    "Verif.Mix.C26_long_header_panics",
    "Verif.Mix.C26_zero_token_lost",
    "Verif.Mix.C26_forward",
    "Verif.Mix.C26_relay",
    "Verif.Mix.C26_forward_no_revoke",
    "Verif.Mix.C26_sizes"
   ],
   "note": "Header round trip, forward and relay end to end; proved that long headers panic on sending and that an all-zero or empty token is lost."
  },
  {
   "property": "C27",
   "status": "proved",
   "theorems": [
    "Verif.Mix.C27_parse",
    "Verif.Mix.C27_mix_and_owner",
    "Verif.Mix.C27_nym_as_returned",
    "Verif.Mix.C27_nym_encryption",
    "Verif.Mix.C27_foreign_header"
   ],
   "note": "Address parsing by mix and owner, nym encryption, foreign headers; a nym comes back padded or cut to 32 bytes."
  },
  {
   "property": "C28",
   "status": "proved",
   "theorems": [
    "Verif.Mix.C28_expire_exact",
    "Verif.Mix.C28_append_exact",
    "Verif.Mix.C28_add_statement",
    "Verif.Mix.C28_rand"
   ],
   "note": "Exact contents and order for expiry, append and statements; the random choice reaches every member."
  },
  {
   "property": "C29",
   "status": "partial",
   "theorems": [
    "Verif.Mix.C29_reply_code",
    "Verif.Mix.C29_tls_required",
    "Verif.Mix.C29_round_trip_partial",
    "Verif.Mix.C29_no_resend",
    "Verif.Mix.C29_outcomes",
    "Verif.Mix.C29_already_sent",
    "Verif.Mix.C29_hands_original",
    "Verif.Mix.C29_at_most_once_partial",
    "Verif.Mix.C29_duplicate",
    "Verif.Mix.C29_bad_text_lost",
    "Verif.Mix.C29_no_ca_cert_lost",
    "Verif.Mix.C29_sent_then_loaded"
   ],
   "note": "Round trip, sequences of deliveries with saving and loading for every SMTP behaviour; at most one acceptance only if Quit does not fail. Proved violations: duplicate after a failed Quit, message lost when the error text is no UTF-8, message without CA certificate lost after saving."
  },
  {
   "property": "C30",
   "status": "partial",
   "theorems": [
    "Verif.Mix.C30_bounded_calls",
    "Verif.Mix.C30_first_success",
    "Verif.Mix.C30_honest_server",
    "Verif.Mix.C30_short_error_crashes",
    "Verif.Mix.C30_short_fetch_crashes"
   ],
   "note": "Call bound, counters and results for all answers; proved violation: errors shorter than eleven bytes crash the client."
  },
  {
   "property": "C31",
   "status": "proved",
   "theorems": [
    "Verif.Util.C31_split_lines",
    "Verif.Util.C31_mail_body_round_trip"
   ],
   "note": "positive widths (the only call uses 72; width 0 would not terminate); also proved: WriteMail body is read back by ReadMail"
  },
  {
   "property": "C32",
   "status": "proved",
   "theorems": [
    "Verif.Conf.C32_certify_exact",
    "Verif.Conf.C32_accepted",
    "Verif.Conf.C32_failed_keeps",
    "Verif.Conf.C32_date_monotone",
    "Verif.Conf.C32_stored_signed",
    "Verif.Conf.C32_fresh_accepted"
   ],
   "note": "Over every sequence of updates and replies: acceptance exactly characterised, date monotone, failed updates keep map and date, stored map always signed."
  },
  {
   "property": "C33",
   "status": "proved",
   "theorems": [
    "Verif.Conf.C33_iteration_order",
    "Verif.Conf.C33_signed_injective",
    "Verif.Conf.C33_image_injective",
    "Verif.Conf.C33_generated_certified"
   ],
   "note": "The signed bytes determine date and entries unless SHA-512 collides; independent of iteration order; a generated certificate is accepted."
  },
  {
   "property": "C34",
   "status": "proved",
   "theorems": [
    "Verif.Conf.C34_order",
    "Verif.Conf.C34_parse"
   ],
   "note": "Order is a priority respecting permutation for every choice of random permutations; well-formed lists parse to exactly their servers. sort.Sort is any sorted permutation."
  },
  {
   "property": "C35",
   "status": "partial",
   "theorems": [
    "Verif.Conf.C35_second_update_panics",
    "Verif.Conf.C35_not_pem_panics",
    "Verif.Conf.C35_no_panic_partial",
    "Verif.Conf.C35_success_keeps_index"
   ],
   "note": "False as stated: the update after one where no server answered panics, and so does a CA certificate that is not PEM (both proved). Partial: no panic otherwise."
  },
  {
   "property": "C36",
   "status": "partial",
   "theorems": [
    "Verif.Guard.Store.C36_read_held",
    "Verif.Guard.Store.C36_read_free",
    "Verif.Guard.Store.C36_exclusive_partial",
    "Verif.Guard.Store.C36_free",
    "Verif.Guard.Store.C36_unlocked_free",
    "Verif.Guard.Store.C36_collision",
    "Verif.Guard.Store.C36_absent_locked",
    "Verif.Guard.Store.C36_reopen_releases",
    "Verif.Guard.Store.C36_held_not_taken"
   ],
   "note": "Exclusive as long as nobody unlocks, deletes, expires or clears the lock and random lock IDs do not collide; equal IDs, reopening the store and the ID of another lock break it (proved)."
  },
  {
   "property": "C37",
   "status": "partial",
   "theorems": [
    "Verif.Guard.Reissue.C37_spends_held",
    "Verif.Guard.Reissue.C37_releases_held",
    "Verif.Guard.Reissue.C37_own_lock_partial"
   ],
   "note": "A reissue of a token that is free takes its lock and every intermediate wallet keeps it (C37_own_lock_partial). The property fails when the token is held by somebody else: LockToken reports that with -1, which ReissueToken takes for a lock, so the token is spent (C37_spends_held) or its lock is released (C37_releases_held)."
  },
  {
   "property": "C38",
   "status": "partial",
   "theorems": [
    "Verif.Guard.Reissue.C38_crash_loses",
    "Verif.Guard.Reissue.C38_error_loses",
    "Verif.Guard.Reissue.C38_before_spent_partial",
    "Verif.Guard.Reissue.C38_success_partial",
    "Verif.Guard.Reissue.C38_owner"
   ],
   "note": "Until the issuer has accepted, every crash leaves the token in the wallet, with its packet if that was sent (C38_before_spent_partial); after success the new token is stored (C38_success_partial). The property fails between acceptance and storing: a crash (C38_crash_loses) or an unacceptable key (C38_error_loses) loses the value."
  },
  {
   "property": "C39",
   "status": "partial",
   "theorems": [
    "Verif.Guard.Store.C39_stored_partial",
    "Verif.Guard.Store.C39_others_unchanged",
    "Verif.Guard.Store.C39_crash_unreadable",
    "Verif.Guard.C39_round_trip_partial",
    "Verif.Guard.C39_no_owner_panics",
    "Verif.Guard.C39_new_owner_lost"
   ],
   "note": "Exact round trip for every entry with an owner and consistent fields, alone and through the database, other entries unchanged; entries without owner panic, a lone new owner is lost, and a crash between the two writes leaves an unreadable row (proved)."
  },
  {
   "property": "C40",
   "status": "proved",
   "theorems": [
    "Verif.Guard.C40_created_accepted",
    "Verif.Guard.C40_accepted_signed",
    "Verif.Guard.C40_rejected",
    "Verif.Guard.C40_signed_bytes_differ"
   ],
   "note": "Creation is accepted with its key, time window and counter; acceptance implies size, signature and field positions; everything else is rejected."
  },
  {
   "property": "C41",
   "status": "proved",
   "theorems": [
    "Verif.Guard.KeyPool.C41_lookup",
    "Verif.Guard.KeyPool.C41_found",
    "Verif.Guard.KeyPool.C41_rejected"
   ],
   "note": "Over every history of a pool, from the new pool on; storage callbacks and lookup services answer arbitrarily."
  },
  {
   "property": "C42",
   "status": "proved",
   "theorems": [
    "Verif.Guard.C42_reissue_injective",
    "Verif.Guard.C42_spend_injective",
    "Verif.Guard.C42_kinds_differ",
    "Verif.Guard.C42_sign_verify"
   ],
   "note": "Equal images imply equal content or a SHA-256 collision; images of the two kinds have different sizes."
  },
  {
   "property": "C43",
   "status": "proved",
   "theorems": [
    "Verif.Guard.Store.C43_one_call",
    "Verif.Guard.Store.C43_all_calls",
    "Verif.Guard.Store.C43_state_kept",
    "Verif.Guard.Store.C43_locked_deleted"
   ],
   "note": "One call and the repeated calls are characterised exactly for every well-formed database; all databases made by the API are well-formed."
  },
  {
   "property": "C44",
   "status": "proved",
   "theorems": [
    "Verif.Ctrl.C44_engine_exactly_one_state",
    "Verif.Msgdb.C44_exactly_one_state_partial",
    "Verif.Msgdb.C44_sent_is_final_partial",
    "Verif.Msgdb.C44_unrestricted_violated"
   ],
   "note": "For every history of send runs, crashes and user commands (C44_engine_exactly_one_state). The raw database interface alone does not enforce it."
  },
  {
   "property": "C45",
   "status": "proved",
   "theorems": [
    "Verif.Ctrl.C45_sent_was_accepted",
    "Verif.Ctrl.C45_nothing_lost",
    "Verif.Ctrl.C45_next_run_delivers",
    "Verif.Ctrl.C45_empty_envelope_blocks"
   ],
   "note": "Delivery under all crash points, with the assumption that encryption and envelopes are never empty; C45_empty_envelope_blocks shows that an empty entry in the out queue blocks the rest."
  },
  {
   "property": "C46",
   "status": "proved",
   "theorems": [
    "Verif.Ctrl.C46_terminates",
    "Verif.Ctrl.C46_in_order",
    "Verif.Ctrl.C46_oldest_first"
   ],
   "note": "Termination for all replies and delivery in the order of insertion."
  },
  {
   "property": "C47",
   "status": "partial",
   "theorems": [
    "Verif.Ctrl.C47_each_once_partial",
    "Verif.Ctrl.C47_interrupted_loses"
   ],
   "note": "Proved for runs that are not interrupted (C47_each_once_partial). Violated otherwise: after an interruption at any point once the first ID is cached, the next run stores nothing (C47_interrupted_loses). The server is assumed to list the newest message first, with increasing times."
  },
  {
   "property": "C48",
   "status": "partial",
   "theorems": [
    "Verif.Ctrl.C48_terminates",
    "Verif.Ctrl.C48_bad_head_blocks",
    "Verif.Ctrl.C48_all_processed_partial"
   ],
   "note": "Messages without a key do not matter for the others (C48_all_processed_partial) and every run ends (C48_terminates). Violated for other errors: an envelope that cannot be opened at the head of the queue blocks it (C48_bad_head_blocks)."
  },
  {
   "property": "C49",
   "status": "proved",
   "theorems": [
    "Verif.Msgdb.C49_value_is_last_write"
   ],
   "note": "Model of AddValue/GetValue over the key-value table."
  },
  {
   "property": "C50",
   "status": "proved",
   "theorems": [
    "Verif.Msgdb.C50_trim_keeps_newer",
    "Verif.Msgdb.C50_add_appends",
    "Verif.Msgdb.C50_unknown_id"
   ],
   "note": "Model of the message-ID cache; ids are ordered by insertion number."
  },
  {
   "property": "C51",
   "status": "proved",
   "theorems": [
    "Verif.Msgdb.C51_listing",
    "Verif.Msgdb.C51_stored_once",
    "Verif.Msgdb.C51_lists_disjoint",
    "Verif.Msgdb.C51_removed",
    "Verif.Msgdb.C51_add_contact",
    "Verif.Msgdb.C51_removed_unblocks"
   ],
   "note": "Identities are assumed to map to strings of the form local@domain with no '<' in the local part, as identity.Map guarantees (C01)."
  },
  {
   "property": "C52",
   "status": "proved",
   "theorems": [
    "Verif.Encdb.C52_rekey_keeps_key",
    "Verif.Encdb.C52_rekey_result"
   ],
   "note": "over a file system model and abstract PBKDF2 and block cipher; the database is represented by the key that opens it"
  },
  {
   "property": "C53",
   "status": "partial",
   "theorems": [
    "Verif.Encdb.C53_rekey_crash_partial",
    "Verif.Encdb.C53_power_loss_loses_key"
   ],
   "note": "process crashes at every step and inside every write proved safe; power loss is not: the new key file is not flushed before the rename (C53_power_loss_loses_key)"
  },
  {
   "property": "C54",
   "status": "partial",
   "theorems": [
    "Verif.Tui.C54_write_new",
    "Verif.Tui.C54_round_trip_partial",
    "Verif.Tui.C54_combining_start_changed",
    "Verif.Tui.C54_invalid_bytes_changed",
    "Verif.Tui.C54_characters"
   ],
   "note": "Violated: a line that starts with a zero-width rune (for example a tab) gains a space, and invalid UTF-8 is replaced; the exact result is proved for every text, characters and cells for all bytes."
  },
  {
   "property": "C55",
   "status": "partial",
   "theorems": [
    "Verif.Tui.C55_no_panic",
    "Verif.Tui.C55_cursor_partial",
    "Verif.Tui.C55_cursor_even_partial",
    "Verif.Tui.C55_beyond_line_violated",
    "Verif.Tui.C55_no_line_violated"
   ],
   "note": "Violated: the cursor may be behind the end of a shorter line, and on no line after SetContent; proved: never negative, on an existing line and within the longest line after every move."
  },
  {
   "property": "C56",
   "status": "proved",
   "theorems": [
    "Verif.Util.C56_digits_count"
   ],
   "note": "against the decimal representation of the number"
  },
  {
   "property": "C57",
   "status": "proved",
   "theorems": [
    "Verif.Util.C57_wallet_polling"
   ],
   "note": "for every reply sequence: at most 69 attempts, decisive reply ends polling, giving up only after five minutes"
  },
  {
   "property": "C58",
   "status": "proved",
   "theorems": [
    "Verif.Util.C58_fuzz_all_single_bits",
    "Verif.Util.C58_fuzz_range"
   ],
   "note": "the test function may overwrite the buffers it is handed; also for explicit ranges"
  },
  {
   "property": "C59",
   "status": "partial",
   "theorems": [
    "Verif.Msg.C59_negation_spoofed_sender",
    "Verif.Msg.C59_bound_to_identity_key_partial"
   ],
   "note": "Violated: C59_negation_spoofed_sender - any user can name any identity as the sender of messages authenticated with their own keys and signed with their own UID message; all are accepted. C59_bound_to_identity_key_partial proves that a successful message is authenticated with a key of a session bound to the header's verified SenderIdentityPub. Missing: a link between the reported identity and that key (the code has none)."
  },
  {
   "property": "C60",
   "status": "partial",
   "theorems": [
    "Verif.Msg.C60_negation_two_messages",
    "Verif.Msg.C60_negation_bad_signature_key",
    "Verif.Msg.C60_no_panic_partial"
   ],
   "note": "Violated twice: C60_negation_two_messages (a stranger crashes the recipient with two messages, because a rejected first message leaves a session without state) and C60_negation_bad_signature_key (signature key of the enclosed UID message used unchecked). C60_no_panic_partial proves that Decrypt never panics on any bytes if stored keys are usable, UID messages have usable signature keys and every session has a state; missing is that the last condition is preserved, which is false."
  },
  {
   "property": "C61",
   "status": "proved",
   "theorems": [
    "Verif.Msg.Concrete.C61_own_users_talk",
    "Verif.Msg.C61_conversation",
    "Verif.Msg.C61_conversation_succeeds"
   ],
   "note": "Over the in-memory store, for any list of messages up to the limit of C13; sender success under the checks Encrypt makes is proved separately. C61_own_users_talk proves the whole path for users made by Create and Update with the concrete base64 and JSON encodings of UID messages and headers."
  },
  {
   "property": "C62",
   "status": "partial",
   "theorems": [
    "Verif.HJ.C62_header_length_partial",
    "Verif.HJ.C62_header_fails_only_on_limits",
    "Verif.HJ.C62_escrow_breaks_length",
    "Verif.HJ.C62_own_users_can_send_partial",
    "Verif.HJ.C62_peer_key_breaks_length"
   ],
   "note": "Proved for users made by Create without signature escrow (as the program creates them) and any number of updates, with the concrete JSON encoding: every header is built and has the required length; the header model is tied to the one used by Encrypt (C61_own_users_talk). Negations proved: with signature escrow every header is 16 bytes too long; a peer's key entry with a line break in its hash makes the header too long."
  },
  {
   "property": "C63",
   "status": "proved",
   "theorems": [
    "Verif.Util.C63_message_id_sender",
    "Verif.Util.C63_message_id_unique"
   ],
   "note": "sender and uniqueness"
  },
  {
   "property": "C64",
   "status": "partial",
   "theorems": [
    "Verif.Mime.C64_mime_round_trip_partial",
    "Verif.Mime.C64_empty_subject_unreadable",
    "Verif.Mime.C64_split_message"
   ],
   "note": "round trip proved for messages with a non-empty first line; refuted for an empty one: C64_empty_subject_unreadable. Text layer of the Go library represented by its parsed form"
  },
  {
   "property": "C65",
   "status": "partial",
   "theorems": [
    "Verif.Mime.C65_parse_no_panic_partial",
    "Verif.Mime.C65_parse_can_panic"
   ],
   "note": "DecodeChunk never panics; Parse panics exactly when the multipart stream breaks after the first part: C65_parse_can_panic"
  },
  {
   "property": "C66",
   "status": "proved",
   "theorems": [
    "Verif.Cipher.C66_aes_round_trip",
    "Verif.Cipher.C66_aes_panics"
   ],
   "note": "over an abstract invertible block cipher; panics in Go are modelled as panics"
  },
  {
   "property": "C67",
   "status": "partial",
   "theorems": [
    "Verif.Encdb.C67_interrupted_create_blocks"
   ],
   "note": "refuted: a crash after the key file was created and before the database file exists blocks both Create and Open with every passphrase (C67_interrupted_create_blocks)"
  },
  {
   "property": "C68",
   "status": "partial",
   "theorems": [
    "Verif.Uid.C68_created_checks_partial",
    "Verif.Uid.C68_created_refused",
    "Verif.Uid.C68_check_iff"
   ],
   "note": "C68_created_checks_partial proves it for messages without escrow and with the default preferences. C68_created_refused proves that all other messages Create makes are refused by Check."
  },
  {
   "property": "C69",
   "status": "partial",
   "theorems": [
    "Verif.Uid.C69_short_reply_panics",
    "Verif.Uid.C69_signature_checks_total"
   ],
   "note": "C69_signature_checks_total proves that the signature checks never panic. C69_short_reply_panics proves that replies whose encrypted message is too short do make the client panic."
  },
  {
   "property": "C70",
   "status": "proved",
   "theorems": [
    "Verif.Crypt.C70_sync_completes"
   ],
   "note": "Honest server; any stored prefix."
  },
  {
   "property": "C71",
   "status": "proved",
   "theorems": [
    "Verif.Crypt.C71_search_finds_newest"
   ],
   "note": "Honest registry; any earlier search progress."
  },
  {
   "property": "C73",
   "status": "partial",
   "theorems": [
    "Verif.Crypt.C73_refused_reply_is_final",
    "Verif.Crypt.C73_registers_partial"
   ],
   "note": "Violated: the reply is stored before it is verified, so a refused registration is final (C73_refused_reply_is_final). The success case is proved."
  },
  {
   "property": "C74",
   "status": "partial",
   "theorems": [
    "Verif.Crypt.C74_delete_removes_partial",
    "Verif.Crypt.C74_deleting_leaves_old_keys"
   ],
   "note": "Proved for nyms never updated; violated after every update (C74_deleting_leaves_old_keys)."
  },
  {
   "property": "C75",
   "status": "partial",
   "theorems": [
    "Verif.Crypt.C75_key_entry_partial",
    "Verif.Crypt.C75_forged_key_init_used"
   ],
   "note": "The key comes from a stored KeyInit message bound to the recipient's key hash; violated for the signature, which is never checked (C75_forged_key_init_used)."
  },
  {
   "property": "C76",
   "status": "partial",
   "theorems": [
    "Verif.Crypt.C76_first_key_init_wins"
   ],
   "note": "Violated: only the negation is proved; the first stored KeyInit message is used forever."
  },
  {
   "property": "C72",
   "status": "proved",
   "theorems": [
    "Verif.Uid.C72_signed_bytes_determine"
   ],
   "note": "Exact for ASCII strings, with the concrete JSON encoding."
  },
  {
   "property": "C77",
   "status": "partial",
   "theorems": [
    "Verif.Mix.C77_replay_detected",
    "Verif.Mix.C77_single_use",
    "Verif.Mix.C77_expired_address_works"
   ],
   "note": "Replay and single-use marks are stable; proved that an expired address still works, because only the public expiry field is checked."
  },
  {
   "property": "C78",
   "status": "partial",
   "theorems": [
    "Verif.Mix.C78_signed_verifies",
    "Verif.Mix.C78_images_injective_partial",
    "Verif.Mix.C78_resplit"
   ],
   "note": "Signed statements verify and lists of the same shape differ in their signed bytes; proved that bytes can be moved between address and token key."
  },
  {
   "property": "C79",
   "status": "partial",
   "theorems": [
    "Verif.Mix.C79_statement_usable",
    "Verif.Mix.C79_expired_key_refused",
    "Verif.Mix.C79_keys_saved",
    "Verif.Mix.C79_key_kept",
    "Verif.Mix.C79_lost_key"
   ],
   "note": "Proved for all histories; the saved-file part needs successful writes, and it is proved that an ignored write error loses a published key."
  },
  {
   "property": "C80",
   "status": "partial",
   "theorems": [
    "Verif.Mix.C80_all_listed",
    "Verif.Mix.C80_prefix_partial",
    "Verif.Mix.C80_silently_truncated",
    "Verif.Mix.C80_not_an_object"
   ],
   "note": "Complete for well-formed answers and a prefix otherwise; proved violations: silent truncation and a crash on non-objects."
  },
  {
   "property": "C81",
   "status": "partial",
   "theorems": [
    "Verif.Conf.C81_certificate_matches",
    "Verif.Conf.C81_certificate_lost"
   ],
   "note": "Success half proved. A failed certificate fetch loses the old certificate (C81_certificate_lost)."
  },
  {
   "property": "C82",
   "status": "partial",
   "theorems": [
    "Verif.Guard.Reissue.C82_new_key_panics",
    "Verif.Guard.Reissue.C82_no_panic_partial"
   ],
   "note": "With a named owner and a wallet whose entry has a new owner if it has a packet, a reissue does not panic (C82_no_panic_partial). Without a named owner it panics whenever a key can be generated (C82_new_key_panics)."
  },
  {
   "property": "C83",
   "status": "partial",
   "theorems": [
    "Verif.Guard.Runner.C83_never_stops",
    "Verif.Guard.Runner.C83_exclusive_partial",
    "Verif.Guard.Runner.C83_second_start",
    "Verif.Guard.Runner.C83_started_once_partial"
   ],
   "note": "Violated: the stop channel has no buffer and is only polled by its length, so that no runner ever stops and StopRunner never returns; a second Runner call returns holding the lock, after which every SetTarget waits forever. Proved: mutual exclusion, and that SetTarget can finish if every runner is started at most once."
  },
  {
   "property": "C84",
   "status": "partial",
   "theorems": [
    "Verif.Guard.KeyPool.C84_same_id_partial",
    "Verif.Guard.KeyPool.C84_moved_byte"
   ],
   "note": "Violated: the image hashes the coordinates without their lengths, so a byte can move from one to the other. Proved for coordinates of equal length (collision resistance as a hypothesis)."
  },
  {
   "property": "C85",
   "status": "partial",
   "theorems": [
    "Verif.Guard.C85_round_trip",
    "Verif.Guard.C85_hash_injective_partial",
    "Verif.Guard.C85_owner_not_bound"
   ],
   "note": "Round trip of tokens, and injectivity of the hash for the field sizes New makes; sizes are not checked when a token is read, so the owner can be shifted without changing hash and signature (proved)."
  },
  {
   "property": "C86",
   "status": "proved",
   "theorems": [
    "Verif.Guard.Store.C86_locked",
    "Verif.Guard.Store.C86_find",
    "Verif.Guard.Store.C86_added",
    "Verif.Guard.Store.C86_empty",
    "Verif.Guard.Store.C86_take"
   ],
   "note": "For every well-formed database and fresh lock ID: the earliest expiring usable token is locked and returned and the balance is one less; an empty balance yields no token."
  },
  {
   "property": "C87",
   "status": "partial",
   "theorems": [
    "Verif.Guard.Client.C87_round_trip_partial",
    "Verif.Guard.Client.C87_lost",
    "Verif.Guard.Client.C87_token_open_partial",
    "Verif.Guard.Client.C87_keys_open_partial",
    "Verif.Guard.Client.C87_still_stored",
    "Verif.Guard.Client.C87_keys_stored"
   ],
   "note": "Violated: the two-column query is scanned into one variable, so nothing is ever read back. Proved: the encoding round trip, the values while the wallet is open, and that the data is in the database."
  },
  {
   "property": "C88",
   "status": "partial",
   "theorems": [
    "Verif.Guard.KeyPool.C88_half_partial",
    "Verif.Guard.KeyPool.C88_new_key_partial",
    "Verif.Guard.KeyPool.C88_rotation",
    "Verif.Guard.KeyPool.C88_returns_expired"
   ],
   "note": "Violated: an expired key is returned for up to half the expiry time. Proved: the bound, and that a new key is valid."
  },
  {
   "property": "C89",
   "status": "proved",
   "theorems": [
    "Verif.Guard.Runner.C89_one_load",
    "Verif.Guard.Runner.C89_only_needed",
    "Verif.Guard.Runner.C89_idle",
    "Verif.Guard.Runner.C89_kept",
    "Verif.Guard.Runner.C89_continues",
    "Verif.Guard.Runner.C89_stops"
   ],
   "note": "All targets in any iteration order."
  },
  {
   "property": "C90",
   "status": "partial",
   "theorems": [
    "Verif.Guard.Client.C90_asked_online_partial",
    "Verif.Guard.Client.C90_only_listed",
    "Verif.Guard.Client.C90_not_asked",
    "Verif.Guard.Client.C90_new_client"
   ],
   "note": "Violated: GoOnline asks for the keys before it sets the online flag, so that the service is not asked; a new client then knows no key. Proved: a client that is online already learns all listed keys and no others."
  },
  {
   "property": "C91",
   "status": "proved",
   "theorems": [
    "Verif.Guard.KeyPool.C91_round_trip",
    "Verif.Guard.KeyPool.C91_writable",
    "Verif.Guard.KeyPool.C91_restart"
   ],
   "note": "Round trip of the encoding, which keys can be written, and the restart of a pool."
  },
  {
   "property": "C92",
   "status": "partial",
   "theorems": [
    "Verif.Guard.Client.C92_received_partial",
    "Verif.Guard.Client.C92_accepted",
    "Verif.Guard.Client.C92_other_key",
    "Verif.Guard.Client.C92_ownerless_panics"
   ],
   "note": "Violated: the key the lookup service returns need not be the key the token names; a valid token without owner crashes the receiver. Proved: everything else, and the named key for a client that is offline."
  },
  {
   "property": "C93",
   "status": "partial",
   "theorems": [
    "Verif.Guard.Client.C93_nothing_loaded",
    "Verif.Guard.Client.C93_fetched_partial"
   ],
   "note": "Violated: keys are loaded before any verification key is known, and all are rejected. Proved: the database storage finds a key by its id once the signer is known."
  },
  {
   "property": "C97",
   "status": "proved",
   "theorems": [
    "Verif.Msgdb.C97_delete_succeeds",
    "Verif.Msgdb.C97_others_unchanged",
    "Verif.Msgdb.C97_nothing_left"
   ],
   "note": "Foreign keys and ON DELETE CASCADE are modelled; the statement on other nyms ranges over histories that queue only waiting messages."
  },
  {
   "property": "C98",
   "status": "proved",
   "theorems": [
    "Verif.Msgdb.C98_read_own",
    "Verif.Msgdb.C98_listed_readable",
    "Verif.Msgdb.C98_delete_own",
    "Verif.Msgdb.C98_read_mark_unchecked"
   ],
   "note": "C98_read_mark_unchecked records that marking a message as read does not check the owner."
  },
  {
   "property": "C99",
   "status": "partial",
   "theorems": [
    "Verif.Ctrl.C99_name_and_list_ignored",
    "Verif.Ctrl.C99_new_contact_nameless",
    "Verif.Ctrl.C99_name_and_list_kept_violated",
    "Verif.Ctrl.C99_known_contact_partial",
    "Verif.Ctrl.C99_stranger_white_listed"
   ],
   "note": "Violated: the short variable declaration in contactAdd overwrites the given name and list, so a new contact has no name and an unknown sender is white-listed (C99_name_and_list_kept_violated). Proved for contacts that are known already."
  },
  {
   "property": "C100",
   "status": "proved",
   "theorems": [
    "Verif.Ctrl.C100_block",
    "Verif.Ctrl.C100_unblock",
    "Verif.Ctrl.C100_unblock_only_blocked",
    "Verif.Ctrl.C100_block_unblock",
    "Verif.Ctrl.C100_edit",
    "Verif.Ctrl.C100_blocked_not_stored"
   ],
   "note": ""
  },
  {
   "property": "C101",
   "status": "proved",
   "theorems": [
    "Verif.Ctrl.C101_only_white_listed",
    "Verif.Ctrl.C101_refused"
   ],
   "note": ""
  },
  {
   "property": "C102",
   "status": "proved",
   "theorems": [
    "Verif.Tui.C102_draw",
    "Verif.Tui.C102_all_columns"
   ],
   "note": ""
  },
  {
   "property": "C103",
   "status": "partial",
   "theorems": [
    "Verif.Tui.C103_cursor_shown_partial",
    "Verif.Tui.C103_cursor_lost_violated"
   ],
   "note": "Violated: on the second column of a wide character the cursor is not shown; proved elsewhere."
  },
  {
   "property": "C104",
   "status": "partial",
   "theorems": [
    "Verif.Tui.C104_set_column_partial",
    "Verif.Tui.C104_set_column_violated"
   ],
   "note": "Violated: the view's copy of the coordinates does not follow the keys; proved if the copy is current."
  },
  {
   "property": "C94",
   "status": "partial",
   "theorems": [
    "Verif.Guard.Rpc.C94_requests",
    "Verif.Guard.Rpc.C94_recovers",
    "Verif.Guard.Rpc.C94_paid_once_partial",
    "Verif.Guard.Rpc.C94_gives_up_violated",
    "Verif.Guard.Rpc.C94_restart_violated",
    "Verif.Guard.Rpc.C94_stuck_violated"
   ],
   "note": "Every call sends one to four requests; an honest server is reached after at most four failed calls whatever the client has cached; up to three lost requests or answers are paid once. Negations with witnesses: four lost answers or a restart after one lost answer make the client pay twice; a kept token refused with a fatal error is resent for ever."
  },
  {
   "property": "C95",
   "status": "partial",
   "theorems": [
    "Verif.Guard.Rpc.C95_token_panics",
    "Verif.Guard.Rpc.C95_balance_panics",
    "Verif.Guard.Rpc.C95_key_panics",
    "Verif.Guard.Rpc.C95_params_panics",
    "Verif.Guard.Rpc.C95_spend_panics",
    "Verif.Guard.Rpc.C95_reissue_panics",
    "Verif.Guard.Rpc.C95_short_error_violated",
    "Verif.Guard.Rpc.C95_typed_partial",
    "Verif.Guard.Rpc.C95_results",
    "Verif.Guard.Rpc.C95_address"
   ],
   "note": "Negation proved: any error text of less than eleven bytes (\"EOF\") crashes every wallet call. The answers that crash the client are characterised exactly for six calls; no well-typed answer crashes any of the seven."
  },
  {
   "property": "C96",
   "status": "partial",
   "theorems": [
    "Verif.Guard.Rpc.C96_signed",
    "Verif.Guard.Rpc.C96_published_partial",
    "Verif.Guard.Rpc.C96_accepted",
    "Verif.Guard.Rpc.C96_empty_violated"
   ],
   "note": "Proved for non-empty lists of 32 byte keys, under the hypothesis that the trust root's signature cannot be forged. Negation: an empty signed list gives one key of 32 zero bytes."
  },
  {
   "property": "C105",
   "status": "partial",
   "theorems": [
    "Verif.Guard.Store.C105_renewed",
    "Verif.Guard.Store.C105_continued",
    "Verif.Guard.Store.C105_half_way_violated"
   ],
   "note": "The token named for renewal and the one named for continuation are exactly those of the specification, and none is named only if there is none. Negation with witness: a renewal that stopped after the parameters were fetched is never named by either query."
  },
  {
   "property": "C106",
   "status": "partial",
   "theorems": [
    "Verif.Ctrl.Upkeep.C106_not_due",
    "Verif.Ctrl.Upkeep.C106_period_partial",
    "Verif.Ctrl.Upkeep.C106_failed_not_recorded",
    "Verif.Ctrl.Upkeep.C106_period_violated",
    "Verif.Ctrl.Upkeep.C106_all"
   ],
   "note": "Two successful executions are at least a period less one second apart, in every history; the exact condition of a call that does nothing; a failed call is not recorded. Negation with witness: times are stored in whole seconds, so a command can be executed again up to a second early."
  },
  {
   "property": "C107",
   "status": "partial",
   "theorems": [
    "Verif.Ctrl.Upkeep.C107_kept",
    "Verif.Ctrl.Upkeep.C107_tokens",
    "Verif.Ctrl.Upkeep.C107_once",
    "Verif.Ctrl.Upkeep.C107_other_server_violated",
    "Verif.Ctrl.Upkeep.C107_lost_answer_violated",
    "Verif.Ctrl.Upkeep.C107_paid_again_violated",
    "Verif.Ctrl.Upkeep.C107_blocked_violated",
    "Verif.Ctrl.Upkeep.C107_all_violated"
   ],
   "note": "After a successful run each account is paid for longer than requested or was paid for in this run (one token may not be enough); each account is paid for at most once per run and only if needed; tokens are settled in every run. Negations with witnesses: payments go to the default server rather than to the server of the account, so that any number of runs use up tokens without effect; after a lost answer the spent token is taken again in all later runs; after a lost answer to the status call an account is paid twice; an unreachable server blocks all accounts after it; upkeep all does nothing after an upkeep accounts for a shorter time."
  },
  {
   "property": "C108",
   "status": "partial",
   "theorems": [
    "Verif.Ctrl.Uid.C108_settled_partial",
    "Verif.Ctrl.Uid.Toy.C108_settled_violated",
    "Verif.Ctrl.Uid.Toy.C108_spent_violated"
   ],
   "note": "For every behaviour of the environment the exact account of the tokens of one attempt: all are settled, except one that stays locked if key generation fails or mutecrypt refuses the key init message. Negations with witnesses: each refused registration leaves a message token locked for ever and loses a paid account, any number of times; when mutecrypt dies, its end of output counts as success and unspent tokens are deleted."
  },
  {
   "property": "C109",
   "status": "partial",
   "theorems": [
    "Verif.Ctrl.Uid.C109_failed_unchanged",
    "Verif.Ctrl.Uid.C109_made_partial",
    "Verif.Ctrl.Uid.Toy.C109_made_violated",
    "Verif.Ctrl.Uid.Toy.C109_lost_violated"
   ],
   "note": "Success implies that the commands generate, caps, register and keyinit were all executed with success, with the address for the account that was paid for, and the state of the database, for every behaviour of mutecrypt, provided that no error text begins with the line READY.; without success the database is unchanged. Negations with witnesses: an error text of the key server with the lines READY., READY., QUITTING makes a failed registration look successful; after a lost answer the identity is registered, its key is deleted, and all further attempts fail."
  },
  {
   "property": "C110",
   "status": "partial",
   "theorems": [
    "Verif.Ctrl.Uid.C110_deleted",
    "Verif.Ctrl.Uid.C110_not_confirmed",
    "Verif.Ctrl.Uid.C110_failed_unchanged_partial",
    "Verif.Ctrl.Uid.C110_not_repeatable_violated"
   ],
   "note": "Success implies confirmation, removal, key deletion and the closing of exactly the accounts of the user ID; without confirmation nothing happens; errors before the deletion of the key change nothing. Negation: if the deletion of the key fails, the command can never be repeated and no account is closed."
  },
  {
   "property": "C111",
   "status": "partial",
   "theorems": [
    "Verif.Ctrl.Uid.C111_exists_partial",
    "Verif.Ctrl.Uid.C111_some",
    "Verif.Ctrl.Uid.C111_switched",
    "Verif.Ctrl.Uid.Toy.C111_exists_violated"
   ],
   "note": "Invariant over all histories: one user ID is active as soon as there is any; the active one exists as long as it is not deleted; a switch is exact. Negation with witness: after the deletion of the active user ID it stays active, even when another one is made."
  },
  {
   "property": "C112",
   "status": "partial",
   "theorems": [
    "Verif.Ctrl.Mailbox.C112_arrives_partial",
    "Verif.Ctrl.Mailbox.C112_other_identity",
    "Verif.Ctrl.Mailbox.C112_other_server_violated",
    "Verif.Ctrl.Mailbox.C112_short_server_violated",
    "Verif.Ctrl.Mailbox.C112_own_mailbox",
    "Verif.Ctrl.Mailbox.C112_no_panic_partial"
   ],
   "note": "End to end through newNymAddress, the client's relay message, the mix and the opening of the envelope, for every server name that ends in mute.one. Negations: for every other server name the mail is delivered elsewhere, and for every name shorter than eight bytes the client panics; the name is chosen by the account server after it was paid."
  },
  {
   "property": "C113",
   "status": "partial",
   "theorems": [
    "Verif.Ctrl.Scan.C113_create_partial",
    "Verif.Ctrl.Scan.C113_rekey_partial",
    "Verif.Ctrl.Scan.C113_readline",
    "Verif.Ctrl.Scan.C113_create_violated",
    "Verif.Ctrl.Scan.C113_rekey_violated",
    "Verif.Ctrl.Scan.C113_hand_on_partial",
    "Verif.Ctrl.Scan.C113_hand_on_rekey_partial",
    "Verif.Ctrl.Scan.C113_hand_on_violated"
   ],
   "note": "Proved for all inputs of at most 2048 bytes and all chunkings, including the passing on to mutecrypt; Readline is characterised completely. Negations: passphrases of 2048 to 4095 bytes that arrive line by line are overwritten in the scanner's buffer, so different passphrases are accepted as equal and the right old passphrase is lost; a passphrase that ends with a carriage return is changed on its way to mutecrypt, so the two databases get different passphrases. Missing: which inputs beyond 2048 bytes still work. Passphrases typed in a terminal do not use the scanner and are not modelled."
  },
  {
   "property": "C114",
   "status": "partial",
   "theorems": [
    "Verif.Ctrl.Setup.C114_created_partial",
    "Verif.Ctrl.Setup.C114_creates_partial",
    "Verif.Ctrl.Setup.C114_kept",
    "Verif.Ctrl.Setup.C114_wallet",
    "Verif.Ctrl.Setup.C114_repeat_violated",
    "Verif.Ctrl.Setup.C114_walletkey_violated",
    "Verif.Ctrl.Setup.C114_rekeyed_partial",
    "Verif.Ctrl.Setup.C114_rekeys_partial",
    "Verif.Ctrl.Setup.C114_rekey_outcomes",
    "Verif.Ctrl.Setup.C114_rekey_half_violated",
    "Verif.Ctrl.Setup.C114_rekey_stuck_violated"
   ],
   "note": "Proved for passphrase inputs of at most 2046 (create) and 2045 (rekey) bytes without a carriage return at the end (see C113), for all answers of the servers, all crash points and all histories: what success means, that it is reached, what is kept, and which wallet key is used. Negations: if the configuration cannot be fetched, `db create` fails but leaves a message database without a wallet key; it can never be repeated, `wallet pubkey` crashes, and commands use the all-zero wallet key. An invalid --walletkey is stored before it is checked; afterwards every command fails. An interrupted `db rekey` leaves the two databases with different passphrases, which no `db rekey` can repair with success."
  },
  {
   "property": "C115",
   "status": "partial",
   "theorems": [
    "Verif.Conf.C115_max_delay",
    "Verif.Ctrl.Setup.C115_fresh_partial",
    "Verif.Ctrl.Setup.C115_stale_violated",
    "Verif.Ctrl.Setup.C115_signed",
    "Verif.Ctrl.Setup.C115_monotone",
    "Verif.Ctrl.Setup.C115_offline",
    "Verif.Ctrl.Setup.C115_offline_violated",
    "Verif.Ctrl.Setup.C115_offline_loop_violated",
    "Verif.Ctrl.Setup.C115_unusable_violated"
   ],
   "note": "Signature, monotonicity and the offline preparation are proved over all histories; freshness for all states in which the time was stored with the configuration. Negations: if the first fetch is interrupted between its two writes the configuration is never refreshed again by commands; `upkeep fetchconf` and `upkeep update` go online in spite of --offline, and the interactive mode drops the option; a signed but unusable configuration replaces a usable one before it is noticed. The stored JSON is taken to be faithful."
  },
  {
   "property": "C116",
   "status": "partial",
   "theorems": [
    "Verif.Ctrl.Setup.C116_update_possible",
    "Verif.Ctrl.Setup.C116_check",
    "Verif.Ctrl.Setup.C116_not_refused",
    "Verif.Ctrl.Setup.C116_no_downgrade",
    "Verif.Ctrl.Setup.C116_date_violated",
    "Verif.Ctrl.Setup.C116_same_date_violated"
   ],
   "note": "Proved in full except for two negations: a usable configuration whose release date is missing or cannot be read stops all commands and the update as well; a release with the date of the binary but another commit is not announced though the update would build it. `time.Parse` is a parameter. Building from source (updateMuteFromSource) is not modelled."
  },
  {
   "property": "C117",
   "status": "partial",
   "theorems": [
    "Verif.Ctrl.Transfer.C117_exact",
    "Verif.Ctrl.Transfer.C117_cache",
    "Verif.Ctrl.Transfer.C117_complete",
    "Verif.Ctrl.Transfer.C117_no_error",
    "Verif.Ctrl.Transfer.C117_no_deadlock",
    "Verif.Ctrl.Transfer.C117_terminates",
    "Verif.Ctrl.Transfer.C117_finishes",
    "Verif.Ctrl.Transfer.C117_repeat_violated"
   ],
   "note": "Proved: exactness for every execution (C117_exact, C117_cache), completeness of good ends (C117_complete), no error without cause, no deadlock, termination. Violated: repeating an interrupted run (C117_repeat_violated): the message ID is cached (msg.go:578) before the text is received and queued (msg.go:632). Commands of five bytes are written and read at once; only ASCII blanks are trimmed from status lines. An error of muteproto that ends in \"accountdb: nothing found\" counts as a good end (excluded in C117_complete)."
  },
  {
   "property": "C118",
   "status": "partial",
   "theorems": [
    "Verif.Ctrl.App.C118_secret_partial",
    "Verif.Ctrl.App.C118_available",
    "Verif.Ctrl.App.C118_passphrase_partial",
    "Verif.Ctrl.App.C118_empty_cookie_violated",
    "Verif.Ctrl.App.C118_any_passphrase_violated",
    "Verif.Ctrl.App.C118_race_violated"
   ],
   "note": "Proved: pages are served for the latest cookie only, except for the empty one (C118_secret_partial), and always for the latest one (C118_available); a login succeeds only after the right passphrase was sent by somebody (C118_passphrase_partial). Violated: an empty cookie `mute=` is accepted always, before any login (app.go:107; C118_empty_cookie_violated); once the database is open every passphrase logs in (C118_any_passphrase_violated); of two concurrent logins the wrong passphrase can be accepted and the right one refused (C118_race_violated). Unpredictability of the random source is not modelled. A POST without the field panics in the handler, which net/http recovers."
  },
  {
   "property": "C119",
   "status": "partial",
   "theorems": [
    "Verif.Ctrl.Shutdown.C119_status_partial",
    "Verif.Ctrl.Shutdown.C119_error_status",
    "Verif.Ctrl.Shutdown.C119_no_deadlock_partial",
    "Verif.Ctrl.Shutdown.C119_interrupt_ends",
    "Verif.Ctrl.Shutdown.C119_interrupt_status_violated",
    "Verif.Ctrl.Shutdown.C119_early_interrupt_violated"
   ],
   "note": "Proved: without interrupts the status is that of the command and the database is closed (C119_status_partial); an error status always comes from the command (C119_error_status); no deadlock unless an interrupt comes before the callback is registered (C119_no_deadlock_partial); an interrupt ends the program within six of its own steps and the database is closed (C119_interrupt_ends). Violated: an interrupted program ends with status 0 though the command was not done, and possibly with the database open (C119_interrupt_status_violated); an interrupt between Notify and the registration of the callback hangs for ever (C119_early_interrupt_violated). What the command does is abstract."
  },
  {
   "property": "C120",
   "status": "partial",
   "theorems": [
    "Verif.Ctrl.Deliver.C120_report",
    "Verif.Ctrl.Deliver.C120_recorded_sent",
    "Verif.Ctrl.Deliver.C120_accepted_recorded_partial",
    "Verif.Ctrl.Deliver.C120_accepted_again_violated",
    "Verif.Ctrl.Deliver.C120_reply",
    "Verif.Ctrl.Deliver.C120_bare_reply_violated",
    "Verif.Ctrl.Deliver.C120_sent_is_sent",
    "Verif.Ctrl.Deliver.C120_end_to_end",
    "Verif.Ctrl.Deliver.C120_refused_blocks_violated"
   ],
   "note": "Proved: the report is read as it was meant for all errors that are not blank (C120_report, C120_reply), sent means accepted (C120_recorded_sent, over all histories C120_sent_is_sent, down to the owner of the address C120_end_to_end). Violated: an accepted mail is sent again if the connection breaks before QUIT is answered (C120_accepted_again_violated); the reply \"550 \" without a text is repeated for ever (C120_bare_reply_violated, parseError); a message refused for good keeps back all messages of its nym and of the nyms after it for ever (C120_refused_blocks_violated, msg.go:342). Only ASCII blanks are trimmed; starting muteproto succeeds."
  },
  {
   "property": "C121",
   "status": "partial",
   "theorems": [
    "Verif.Ctrl.Show.C121_list_partial",
    "Verif.Ctrl.Show.C121_subject_partial",
    "Verif.Ctrl.Show.C121_words",
    "Verif.Ctrl.Show.C121_subject_violated",
    "Verif.Ctrl.Show.C121_read_partial",
    "Verif.Ctrl.Show.C121_list_violated",
    "Verif.Ctrl.Show.C121_header_violated"
   ],
   "note": "The list and the printed mail are read back exactly for all histories and all message texts, if no identity contains a tab or a line break (and no full name a line break); the text of a message can never break either. identity.Map accepts tabs and line breaks in a domain: a wrong sender or additional lines in the list (C121_list_violated) and additional headers (C121_header_violated). Such identities get into the contacts only when the user adds them: the sender of a received message is cut at a line break and refused with a tab (C122). A subject of plain ASCII that looks like an encoded word is shown as something else (C121_subject_violated). mime.QEncoding is modelled from the Go library."
  },
  {
   "property": "C122",
   "status": "partial",
   "theorems": [
    "Verif.Ctrl.CryptRun.C122_authenticated",
    "Verif.Ctrl.CryptRun.C122_exact",
    "Verif.Ctrl.CryptRun.C122_no_key",
    "Verif.Ctrl.CryptRun.C122_inbox",
    "Verif.Ctrl.CryptRun.C122_encrypted",
    "Verif.Ctrl.CryptRun.C122_delivered",
    "Verif.Ctrl.CryptRun.C122_tab_violated",
    "Verif.Ctrl.CryptRun.C122_nym_violated",
    "Verif.Ctrl.CryptRun.C122_nym_source"
   ],
   "note": "Proved for every interruption, exit status, message and history: only authentic messages reach the inbox, exactly, and only completed encryptions the out-queue; a plainly named sender and content arrive exactly. Two disagreements: a header may name a sender with a tab (the sender chooses it, C59), then the report is not parsable, processing of the in-queue stops at this message for ever and the message is lost (C122_tab_violated); a peer that sends an empty nym address (or one with a tab) makes every encryption of a reply fail and so ends the send command (C122_nym_violated, C122_nym_source). A report on the standard error is taken as one write; the base64 decoding as done before reading."
  },
  {
   "property": "C123",
   "status": "partial",
   "theorems": [
    "Verif.Crypt.Cache.C123_supported",
    "Verif.Crypt.Cache.C123_shown",
    "Verif.Crypt.Cache.C123_no_panic",
    "Verif.Crypt.Cache.C123_cached",
    "Verif.Crypt.Cache.C123_first",
    "Verif.Crypt.Cache.C123_once",
    "Verif.Crypt.Cache.C123_failure",
    "Verif.Crypt.Cache.C123_other_host_violated"
   ],
   "note": "C123_supported, C123_shown, C123_cached, C123_first, C123_once, C123_failure, C123_no_panic: proved for all histories. The code violates the last clause: after the capabilities of a domain were asked for at an alternate host, later commands without one use that host, and the domains a server says it serves are never compared (C123_other_host_violated)."
  },
  {
   "property": "C124",
   "status": "partial",
   "theorems": [
    "Verif.Guard.Packet.C124_request",
    "Verif.Guard.Packet.C124_unblind",
    "Verif.Guard.Packet.C124_payment",
    "Verif.Guard.Packet.C124_owner_needed",
    "Verif.Guard.Packet.C124_spend",
    "Verif.Guard.Packet.C124_other_owner_violated"
   ],
   "note": "C124_request, C124_unblind, C124_payment, C124_owner_needed, C124_spend: proved for all inputs, C124_unblind under the hypothesis that the blind signature library (not in the repository) reports a failed verification as an error, because the code ignores its boolean result. The code violates the last clause: if a request for the token is pending, the owner named in a later call is ignored (C124_other_owner_violated)."
  },
  {
   "property": "C125",
   "status": "partial",
   "theorems": [
    "Verif.Crypt.Loop.C125_script_partial",
    "Verif.Crypt.Loop.C125_pieces_partial",
    "Verif.Crypt.Loop.C125_answers_partial",
    "Verif.Crypt.Loop.C125_refused_violated",
    "Verif.Crypt.Loop.C125_order_violated",
    "Verif.Crypt.Loop.C125_quit_violated",
    "Verif.Crypt.Loop.C125_homedir_violated",
    "Verif.Crypt.Loop.C125_options"
   ],
   "note": "Proved for texts whose lines are empty or begin with the name of a command, without global options: any cutting gives the same result (C125_pieces_partial), which is that of the script executed line by line (C125_script_partial), and if no command is refused each is answered by one READY (C125_answers_partial). The code disagrees with the rest: a command whose options are refused is not answered by READY (C125_refused_violated); after a line of blanks a second loop reads the same descriptor, so the order of the commands depends on the pieces (C125_order_violated) and quit ends the second loop only (C125_quit_violated); --homedir given at the start is not used by db create in the loop (C125_homedir_violated)."
  },
  {
   "property": "C126",
   "status": "partial",
   "theorems": [
    "Verif.Ctrl.Shell.C126_session_partial",
    "Verif.Ctrl.Shell.C126_ends",
    "Verif.Ctrl.Shell.C126_options_partial",
    "Verif.Ctrl.Shell.C126_offline_violated",
    "Verif.Ctrl.Shell.C126_typo_violated",
    "Verif.Ctrl.Shell.C126_quit_violated"
   ],
   "note": "Every session ends (C126_ends). Proved for lines that are empty or begin with the name of a command: the shell executes them one after the other (C126_session_partial) with its home directory, log directory and log level (C126_options_partial). The code disagrees with the rest: --offline is not passed on, so every command runs online (C126_offline_violated); without a network a mistyped command then ends an offline shell (C126_typo_violated); after a line of blanks quit does not end the shell (C126_quit_violated)."
  },
  {
   "property": "C127",
   "status": "partial",
   "theorems": [
    "Verif.Ctrl.Delay.C127_stored_partial",
    "Verif.Ctrl.Delay.C127_fits",
    "Verif.Ctrl.Delay.C127_refused",
    "Verif.Ctrl.Delay.C127_wrap_violated",
    "Verif.Ctrl.Delay.C127_create",
    "Verif.Ctrl.Delay.C127_sent"
   ],
   "note": "Proved for delays below 2^31 seconds, up to the mail handed to the mix (composed with C120). Delays are converted to 32 bits only after the check: 4294967296 and 4294967297 are accepted and stored as 0 and 1, so the message is not delayed at all (C127_wrap_violated). Underscores in numbers, which newer versions of Go accept, are not modelled."
  },
  {
   "property": "C128",
   "status": "proved",
   "theorems": [
    "Verif.Ctrl.MailInput.C128_mail",
    "Verif.Ctrl.MailInput.C128_no_recipient",
    "Verif.Ctrl.MailInput.C128_stored",
    "Verif.Ctrl.MailInput.C128_text"
   ],
   "note": "Fields are written as name, colon, blank and value, with folded lines; the value is not decoded (encoded words and multipart bodies are sent as they are). The model of ReadMIMEHeader covers all inputs."
  },
  {
   "property": "C129",
   "status": "proved",
   "theorems": [
    "Verif.Tui.C129_keys",
    "Verif.Tui.C129_disabled",
    "Verif.Tui.C129_reach"
   ],
   "note": "For a cursor on the text; after the text has been replaced the cursor may be off the text (C55). The scrolling of the view port is a library."
  },
  {
   "property": "C130",
   "status": "partial",
   "theorems": [
    "Verif.Ctrl.AddContact.C130_looked_up_partial",
    "Verif.Ctrl.AddContact.C130_accepted",
    "Verif.Ctrl.AddContact.C130_contact_partial",
    "Verif.Ctrl.AddContact.C130_interrupted_violated",
    "Verif.Ctrl.AddContact.C130_injected_violated",
    "Verif.Ctrl.AddContact.C130_newline_violated"
   ],
   "note": "Proved for error texts that do not begin with the line READY. and for a process that is not interrupted. Violated otherwise: the message of a JSON-RPC error is printed as it is to the descriptor of the answers, so a key server can answer the sync with the answers the engine waits for and the contact is added with nothing looked up; an interrupted mutecrypt ends with status 0 and is taken for success; a line feed in the domain of a contact is another command for mutecrypt."
  },
  {
   "property": "C131",
   "status": "partial",
   "theorems": [
    "Verif.Guard.GetToken.C131_in_wallet",
    "Verif.Guard.GetToken.C131_need_owner",
    "Verif.Guard.GetToken.C131_nil_violated",
    "Verif.Guard.GetToken.C131_got_partial",
    "Verif.Guard.GetToken.C131_stored_partial",
    "Verif.Guard.GetToken.C131_handed_out",
    "Verif.Guard.GetToken.C131_lost_violated",
    "Verif.Guard.GetToken.C131_new_client_violated",
    "Verif.Guard.GetToken.C131_other_usage_violated"
   ],
   "note": "C131_in_wallet and C131_need_owner hold for all wallets. C131_got_partial: what is returned for a named owner is recorded for that owner and locked; it has the usage if the keys of the pool have it. C131_handed_out: a token from the wallet server is first recorded under the wallet's own key pair with the usage and expiry of its key, and then reissued for the owner named, unless nobody is named and it is a subscription token. C131_stored_partial: a token from the wallet server with a key and parameters that the client takes is in the wallet at every crash point after the first write until it is spent. The code violates the rest: errors of the store other than 'no token' give neither a token nor an error (C131_nil_violated); the wallet server decides about the usage (C131_other_usage_violated); a token whose key is not taken is dropped after it was handed out (C131_lost_violated), which is what happens to every token of a new client (C131_new_client_violated). Assumed for C131_got_partial: reasonable answers (Good), in particular a new token that differs from the old one."
  },
  {
   "property": "C132",
   "status": "proved",
   "theorems": [
    "Verif.Msgdb.C132_accounts",
    "Verif.Msgdb.C132_add",
    "Verif.Msgdb.C132_list"
   ],
   "note": "C132_accounts is a refinement: the accounts that can be read after any history are those of a book written by the operations that succeeded. C132_add says when an account is accepted, C132_list that the list of accounts is complete, without repetitions and names nothing else (for identities among which the empty one is not mapped, as in the code). The encoding of keys in base64 is that of Verif.Util (round trip proved there)."
  },
  {
   "property": "C133",
   "status": "partial",
   "theorems": [
    "Verif.Mix.C133_reachable",
    "Verif.Mix.C133_entry",
    "Verif.Mix.C133_bounded",
    "Verif.Mix.C133_boundary",
    "Verif.Mix.C133_grows_violated",
    "Verif.Mix.C133_gap_violated"
   ],
   "note": "C133_reachable and C133_bounded state the claim with the relation between tick, interval and life of keys as hypotheses. Nothing enforces these: C133_grows_violated (ticks further apart than the interval: expired keys are never dropped, since a tick that adds a key does not expire any) and C133_gap_violated (life shorter than the interval: moments at which no published address and no private key is usable)."
  },
  {
   "property": "C134",
   "status": "partial",
   "theorems": [
    "Verif.Ctrl.MixKeys.C134_candidates",
    "Verif.Ctrl.MixKeys.C134_no_answer",
    "Verif.Ctrl.MixKeys.C134_forged_violated",
    "Verif.Ctrl.MixKeys.C134_unsigned_violated",
    "Verif.Ctrl.MixKeys.C134_revoke",
    "Verif.Ctrl.MixKeys.C134_bare_violated"
   ],
   "note": "C134_candidates proves that the address is made for an unexpired entry of the answer and C134_revoke what RevokeMessage reports. The signature is never verified: C134_unsigned_violated and C134_forged_violated (whoever answers instead of the mix can open the private part of the address and learns the mailbox; only TLS stands in between). C134_bare_violated: the answer REVOKED without a further byte is ErrProto. The JSON decoding of the answer is a parameter."
  },
  {
   "property": "C135",
   "status": "partial",
   "theorems": [
    "Verif.Uid.Keys.C135_private",
    "Verif.Uid.Keys.C135_public",
    "Verif.Uid.Keys.C135_stored",
    "Verif.Uid.Keys.C135_equal",
    "Verif.Uid.Keys.C135_mismatch_violated",
    "Verif.Uid.Keys.C135_short_violated",
    "Verif.Uid.Keys.C135_failed_violated"
   ],
   "note": "C135_private, C135_public: after any history of calls on an entry that was read, for a random reader that delivers; C135_stored: generating, storing and reading back; C135_equal. The code disagrees with the last sentence: C135_mismatch_violated (a private key of another key pair is taken), C135_short_violated (the error for a public key of the wrong size is dropped: a Diffie-Hellman entry then gives out a nil pointer, a signature entry a key of zeros), C135_failed_violated (a key that could not be generated takes the old one with it, while the entry still claims to hold one). Not modelled: the JSON text of an entry (C76, C77 treat JSON)."
  },
  {
   "property": "C136",
   "status": "partial",
   "theorems": [
    "Verif.Crypt.KeyInits.C136_found",
    "Verif.Crypt.KeyInits.C136_unknown",
    "Verif.Crypt.KeyInits.C136_reaches",
    "Verif.Crypt.KeyInits.C136_signed",
    "Verif.Crypt.KeyInits.C136_lost_violated"
   ],
   "note": "C136_found, C136_unknown, C136_reaches (given that no two published keys have the same SHA512 hash), C136_signed. The code disagrees where a call fails after the KeyInit was sent: C136_lost_violated (no answer, a bad signature or a server without keys: the KeyInit can be fetched from the server, but the private key was never stored; a stop of the program in between has the same effect). Private keys are never deleted, also not by flushing. The KeyInit in the table stands for its JSON text."
  },
  {
   "property": "C137",
   "status": "partial",
   "theorems": [
    "Verif.Ctrl.Source.C137_installed",
    "Verif.Ctrl.Source.C137_sources",
    "Verif.Ctrl.Source.C137_local_changes",
    "Verif.Ctrl.Source.C137_recovers_partial",
    "Verif.Ctrl.Source.C137_recovers",
    "Verif.Ctrl.Source.C137_cut_off_violated",
    "Verif.Ctrl.Source.C137_up_to_date",
    "Verif.Ctrl.Source.C137_abbreviated_violated",
    "Verif.Ctrl.Source.C137_mixed_violated"
   ],
   "note": "Proved for every history of attempts with arbitrary failures and interruptions: success means that every program and the generator were built from the commit asked for and carry its release file, that the tree is back on the pulled master branch and that the next update finds the programs up to date (C137_installed, C137_up_to_date); every program is an old one or one built from a commit that was asked for (C137_sources); local changes stop everything (C137_local_changes); an attempt of which all commands work succeeds if no generator was stopped while writing (C137_recovers) or if the cut-off file is of another commit (C137_recovers_partial). Where the code disagrees: a head.go cut off after the line with the commit is taken to be up to date and makes every later attempt for this commit fail (C137_cut_off_violated); an interrupted installation leaves programs of different releases (C137_mixed_violated); a commit named by an abbreviation is built again and again (C137_abbreviated_violated). Commands are modelled by their effects; a conflicting merge in git pull is not."
  },
  {
   "property": "C138",
   "status": "partial",
   "theorems": [
    "Verif.Guard.KeyStore.C138_on_file",
    "Verif.Guard.KeyStore.C138_loaded",
    "Verif.Guard.KeyStore.C138_fetched",
    "Verif.Guard.KeyStore.C138_cut_file",
    "Verif.Guard.KeyStore.C138_unreported_violated",
    "Verif.Guard.KeyStore.C138_damaged_violated"
   ],
   "note": "Proved for every history: with a key directory each key that was handed out has its complete file if no saving of a key breaks off (C138_on_file), and is known to whoever loads the storages if no write at all breaks off (C138_loaded); with a database whose insert statements are done it is found by its id (C138_fetched); a file that breaks off is never taken for a key (C138_cut_file). Where the code disagrees: the database storage drops the error of the insert, so that a key is handed out that is stored nowhere (C138_unreported_violated); one file that breaks off hides every key after it in the directory (C138_damaged_violated). Assumed: key ids of the history do not collide; sizes of keys are in range."
  },
  {
   "property": "C139",
   "status": "partial",
   "theorems": [
    "Verif.Ctrl.Calls.C139_understood",
    "Verif.Ctrl.Calls.C139_piped_partial",
    "Verif.Ctrl.Calls.C139_contact_lines",
    "Verif.Ctrl.Calls.C139_globals",
    "Verif.Ctrl.Calls.C139_help_violated"
   ],
   "note": "C139_understood: every call (13 kinds), for every value, is performed by the program called exactly as the specification Call.expected says. C139_piped_partial: lines written to the loop, for values that are words; C139_contact_lines ties them to the dialogue of contact add and C139_globals to the loop of C125. Violated without that restriction: C139_help_violated, a contact eve@x.org -h is a valid identity, every line asks for a help text, the loop answers READY. and the contact is accepted without any lookup. The command line library is modelled from its documented behaviour."
  },
  {
   "property": "C140",
   "status": "partial",
   "theorems": [
    "Verif.Ctrl.Vacuum.C140_contents",
    "Verif.Ctrl.Vacuum.C140_command_contents",
    "Verif.Ctrl.Vacuum.C140_compact",
    "Verif.Ctrl.Vacuum.C140_modes",
    "Verif.Ctrl.Vacuum.C140_incremental",
    "Verif.Ctrl.Vacuum.C140_status",
    "Verif.Ctrl.Vacuum.C140_key_database",
    "Verif.Ctrl.Vacuum.C140_command_violated",
    "Verif.Ctrl.Vacuum.C140_commands_missing_violated"
   ],
   "note": "C140_contents, C140_command_contents, C140_compact, C140_modes, C140_incremental, C140_status and C140_key_database hold. Violated for the command: C140_command_violated, mutectrl db vacuum passes --auto-vacuum FULL to mutecrypt, whose option is commented out, so the command always fails after the message database was rebuilt and never compacts the key database; C140_commands_missing_violated, the commands db status and db incremental of mutecrypt do not exist. SQLite's behaviour is an assumption taken from its documentation."
  },
  {
   "property": "C141",
   "status": "partial",
   "theorems": [
    "Verif.Keydb.C141_conversation_partial",
    "Verif.Keydb.C141_sender_stuck_violated"
   ],
   "note": "Holds for up to as many messages as keys are generated at a time (50 by default). DISAGREEMENT: AddSession takes the identifier of a known session from LastInsertId of an UPDATE; on a new connection that is 0, so the keys of an extension are stored for no session, the number of keys is raised all the same, and neither this nor any later message to this recipient can be encrypted. Sessions that carry messages in both directions or are replaced by the next session are not covered."
  },
  {
   "property": "C142",
   "status": "partial",
   "theorems": [
    "Verif.Msg.C142_which_open",
    "Verif.Msg.C142_any_order_partial",
    "Verif.Msg.C142_newest_first_violated"
   ],
   "note": "C142_which_open says exactly which attempts succeed: a message that was not opened before opens iff its key was made already or at most 301 keys (its index rounded up to a multiple of the batch size) have to be made for it; what opens is what was sent. C142_any_order_partial: all messages within these limits are delivered in every order. DISAGREES WITH THE CODE beyond: C142_newest_first_violated, a batch of 303 to 400 messages (default batch size), which is delivered when opened in order, cannot be opened newest first, the order in which fetched messages are processed: the newest message is refused with every attempt."
  },
  {
   "property": "C143",
   "status": "partial",
   "theorems": [
    "Verif.Ctrl.Journey.C143_arrives_partial",
    "Verif.Ctrl.Journey.C143_mixed_partial",
    "Verif.Ctrl.Journey.C143_blocked_violated"
   ],
   "note": "C143_mixed_partial: an envelope that was counted as accepted means a mail server took a mail for the mix of the nym address, and the mix, reading it before the address expires, sends the message on to the mailbox of the account. C143_arrives_partial: a batch of messages of a first contact is encrypted, and whatever part of it reaches the mailbox, in whatever order, is put into the inbox by the next fetch and processing, exactly as written, each once, with sender and arrival time. C143_blocked_violated (disagreement with the code): if the newest of them is so far ahead that its keys cannot be made at once (with the default settings the 302nd message or a later one), decrypting it fails with an error that ends the processing of the in-queue, so that nothing fetched with it or later, for any account, ever reaches the inbox. Missing: interruptions between the steps (treated in C94, C118, C120), replies in the same session, and the sessions are kept in the in-memory store, not in the key database (C141 relates the two for messages in order)."
  },
  {
   "property": "C144",
   "status": "partial",
   "theorems": [
    "Verif.Ctrl.Journey.C144_arrives_partial",
    "Verif.Keydb.C144_any_order_partial"
   ],
   "note": "C144_any_order_partial: with sessions in the key database and a new process per message, a first batch (not more than the sender makes keys for at once) is encrypted and each message within the recipient's first batch opens in whatever order they arrive, with exactly the content, sender and signature. C144_arrives_partial: the same over the whole way of C143 (mix, mailbox, fetch, in-queue). Missing: messages beyond the first batch of keys, where the code loses them (C141_sender_stuck_violated), repeated messages and interruptions."
  },
  {
   "property": "C145",
   "status": "partial",
   "theorems": [
    "Verif.Msg.Two.C145_conversation_partial"
   ],
   "note": "C145_conversation_partial: for every list of actions of two users (sending in both directions, opening any earlier message again and again), with all random choices about new sessions, every outcome is allowed: sending succeeds, a message opens once with exactly its content, sender and signature; a refusal means it was opened before or that more than 301 keys are needed for its number in its session, as written in its header; and that number counts the messages its sender wrote earlier in the same session. The stores may hold sessions with other users. Missing: messages with another session status; sessions in the key database (C141, C144 for one direction). Both users sending a first message at the same time is C148."
  },
  {
   "property": "C146",
   "status": "partial",
   "theorems": [
    "Verif.Msg.Two.C146_never_refreshed_violated",
    "Verif.Msg.Two.C146_turns_partial"
   ],
   "note": "C146_turns_partial: if the users take turns and open each message before the next is written, then after two messages each way both use new keys, whatever the random choices. DISAGREES WITH THE CODE otherwise: C146_never_refreshed_violated. When the recipient opens the first message it draws its next key; if the sender writes another message for which a new session is announced before opening an answer, both have drawn a next key without having seen the other's. Decrypt prepares a session only if it has no next key, and switches only if the message names its own next key as seen, so from then on neither happens: for every continuation both users encrypt with the keys of the first contact, the recipient with the key of the KeyInit message. Missing: the general condition under which keys are refreshed."
  },
  {
   "property": "C147",
   "status": "partial",
   "theorems": [
    "Verif.Msg.Two.C147_erased_partial",
    "Verif.Msg.Two.C147_first_message_violated"
   ],
   "note": "C147_erased_partial: in every conversation of C145, at every point, each user's store has the private part of no drawn session key but that of the current session (while the next is not prepared) and that announced for the next, and nothing is left at the place of the key of a message sent, or opened. DISAGREES WITH THE CODE for the first session: C147_first_message_violated. The private key of the KeyInit message that the first sender used is never deleted (no query of the key database deletes it, and Decrypt only deletes session keys), so however long the conversation goes on, the key of the first message can be recomputed from the recipient's store, identity key and the header of the message. Crossing first contacts: C149. Missing: that deleted values are overwritten on disk."
  },
  {
   "property": "C148",
   "status": "partial",
   "theorems": [
    "Verif.Msg.Two.C148_crossing_partial"
   ],
   "note": "C148_crossing_partial: for every list of actions of two users who have each other's KeyInit, from the first message on, every outcome is allowed: both can always send, a message opens once with exactly its content, sender and signature, and a refusal means it was opened before or that more than 301 keys are needed for its number in its session. Covers all interleavings in which both users start a session of their own; the session of the user with the smaller identity is continued, and the messages of the other one are opened beside it. Missing: messages with another session status, and the sessions are in the memory store."
  },
  {
   "property": "C149",
   "status": "partial",
   "theorems": [
    "Verif.Msg.Two.C149_erased_partial",
    "Verif.Msg.Two.C149_kept_violated"
   ],
   "note": "C149_erased_partial: in every conversation of C148, at every point, nothing is left at the place of the key of a message sent, or opened, in either user's store; the store of the user with the smaller identity has the private part of no drawn session key but that of the current session (while the next is not prepared) and that announced for the next; the store of the other user has the private parts of at most two more. DISAGREES WITH THE CODE for these two: C149_kept_violated. If the first contacts cross, the user with the larger identity goes over to the other's session, but Decrypt deletes only the session key that is named in the header of a received message, and nobody ever answers in the session given up. So its private key stays, and however long the conversation goes on, the key of that user's first message can be recomputed from the user's own store and identity key. Missing: messages with another session status, and that deleted values are overwritten on disk."
  },
  {
   "property": "C150",
   "status": "partial",
   "theorems": [
    "Verif.Keydb.C150_reset_db_violated",
    "Verif.Keydb.C150_refused_db_violated",
    "Verif.Msg.C150_restart_violated",
    "Verif.Msg.C150_reset_violated",
    "Verif.Msg.C150_status_violated",
    "Verif.Msg.C150_followed_partial",
    "Verif.Msg.C150_lost_violated"
   ],
   "note": "DISAGREES WITH THE CODE: doc/messages.md says that a message with the status Reset makes the recipient reset the session and pick up the one created by the peer; Decrypt never reads the status, with any session store (C150_status_violated), and keeps the state it has (C150_reset_violated; with the key database C150_reset_db_violated). A user who lost the session data can reach the other user, whose store does not follow: every answer is refused, however many are written (C150_restart_violated for any session that was answered or whose owner has the smaller identity; C150_lost_violated from first contact, without assuming that any operation succeeds; C150_refused_db_violated: a key database without the session and the key refuses and stays as it was). What holds is C150_followed_partial: without a session, or with an unanswered one when the sender has the smaller identity, the new session is followed."
  },
  {
   "property": "C151",
   "status": "partial",
   "theorems": [
    "Verif.Keydb.C151_established_db_partial",
    "Verif.Keydb.C151_forged_db_violated",
    "Verif.Msg.C151_forged_violated",
    "Verif.Msg.C151_first_contact_violated",
    "Verif.Msg.C151_unreadable_partial",
    "Verif.Msg.C151_established_partial"
   ],
   "note": "DISAGREES WITH THE CODE: Decrypt starts a session and stores its state before it has checked anything that only the named sender can make. Somebody who has the UID messages of two users and the KeyInit message of the second can send the second user a message in the first user's name with an own session key and no body. It is refused, but every message the second user writes from then on is refused by the first (C151_forged_violated), also when the first user makes the first contact afterwards and that message is opened (C151_first_contact_violated); no operation is assumed to succeed. What holds: an input whose header cannot be read changes nothing (C151_unreadable_partial), and once a session was answered, a message of another session leaves the session state as it was (C151_established_partial). With the key database the refused message leaves a session state to the forger's key in the database, and a message of any other session in the sender's name leaves it there (C151_forged_db_violated, C151_established_db_partial)."
  },
  {
   "property": "C152",
   "status": "partial",
   "theorems": [
    "Verif.Msg.Two.C152_damaged_partial"
   ],
   "note": "C152_damaged_partial: any interleaving of sends, deliveries and damaged deliveries (everything after the header replaced by arbitrary bytes) from the first contact on; refused copies change nothing in what opens later, an accepted one contains an HMAC under the key of that very message, comes from its sender and counts as the message, and a copy cut after the header is never accepted. Partial: like C145 a message more than 301 keys from the beginning of its session may be refused, keys drawn are assumed distinct, and that nobody else can make such an HMAC is not part of the model. Copies with a damaged header are not covered here; what a forged header can do is C151."
  }
 ]
}
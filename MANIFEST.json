{
 "claims": [
  {
   "property": "C01",
   "status": "proved",
   "theorems": [
    "Axolotl.C01_cipher_roundtrip",
    "Axolotl.C01_cipher_bad_params"
   ],
   "note": ""
  },
  {
   "property": "C02",
   "status": "proved",
   "theorems": [
    "Axolotl.C02_whisper_roundtrip"
   ],
   "note": ""
  },
  {
   "property": "C03",
   "status": "partial",
   "theorems": [
    "Axolotl.C03_prekey_roundtrip_partial",
    "Axolotl.C03_absent_prekey_becomes_zero",
    "Axolotl.C03_not_roundtrip"
   ],
   "note": "Round-trip proved for messages that name a one-time prekey. False when the prekey id is absent: the receiver always reads id 0 (C03_absent_prekey_becomes_zero, C03_not_roundtrip)."
  },
  {
   "property": "C04",
   "status": "proved",
   "theorems": [
    "Axolotl.C04_keyexchange_roundtrip"
   ],
   "note": ""
  },
  {
   "property": "C05",
   "status": "proved",
   "theorems": [
    "Axolotl.C05_senderkey_roundtrip",
    "Axolotl.C05_distribution_roundtrip"
   ],
   "note": ""
  },
  {
   "property": "C06",
   "status": "proved",
   "theorems": [
    "Axolotl.C06_session_record_roundtrip",
    "Axolotl.C06_session_state_roundtrip"
   ],
   "note": ""
  },
  {
   "property": "C07",
   "status": "proved",
   "theorems": [
    "Axolotl.C07_prekey_roundtrip",
    "Axolotl.C07_signed_prekey_roundtrip",
    "Axolotl.C07_identity_roundtrip",
    "Axolotl.C07_sender_key_record_roundtrip"
   ],
   "note": ""
  },
  {
   "property": "C08",
   "status": "partial",
   "theorems": [
    "Axolotl.C08_whisper_errors_partial",
    "Axolotl.C08_prekey_errors",
    "Axolotl.C08_senderkey_errors",
    "Axolotl.C08_distribution_errors",
    "Axolotl.C08_keyexchange_errors_partial",
    "Axolotl.C08_whisper_leaks",
    "Axolotl.C08_keyexchange_leaks",
    "Axolotl.C08_empty_leaks"
   ],
   "note": "Exact sets of escaping exceptions proved for non-empty input. The full claim is false: DecodeError escapes the session-message parser, DecodeError and IndexError the key-exchange parser, TypeError/AssertionError every parser on the empty string."
  },
  {
   "property": "C09",
   "status": "proved",
   "theorems": [
    "Axolotl.C09_whisper_version",
    "Axolotl.C09_prekey_version",
    "Axolotl.C09_keyexchange_version",
    "Axolotl.C09_senderkey_version",
    "Axolotl.C09_distribution_version"
   ],
   "note": ""
  },
  {
   "property": "C10",
   "status": "partial",
   "theorems": [
    "Axolotl.C10_decode_encode",
    "Axolotl.C10_canonical_partial",
    "Axolotl.C10_decode_shape",
    "Axolotl.C10_not_canonical",
    "Axolotl.C10_short_key_accepted"
   ],
   "note": "Round-trip proved for all keys up to 32 bytes; canonicity proved for inputs up to 33 bytes. Canonicity is false for longer inputs because trailing bytes are ignored; short keys are accepted."
  },
  {
   "property": "C11",
   "status": "partial",
   "theorems": [
    "Axolotl.C11_right_only_by_collision",
    "Axolotl.Example.C11_false_for_sha256",
    "Axolotl.C11_length",
    "Axolotl.C11_hkdf_partial",
    "Axolotl.C11_library_sizes",
    "Axolotl.C11_not_rfc5869"
   ],
   "note": "Equality with RFC 5869 proved up to 127 blocks (4064 bytes), which covers every size the library uses. False from block 128 on because the counter is UTF-8 encoded (C11_not_rfc5869). Beyond it an output is right only if HMAC collides (C11_right_only_by_collision); with SHA-256 itself 4096 bytes are wrong (C11_false_for_sha256)."
  },
  {
   "property": "C12",
   "status": "proved",
   "theorems": [
    "Axolotl.C12_setup_agrees"
   ],
   "note": ""
  },
  {
   "property": "C13",
   "status": "partial",
   "theorems": [
    "Axolotl.C13_none_read",
    "Axolotl.C13_first_contact_partial",
    "Axolotl.C13_fails_without_one_time_prekey"
   ],
   "note": "Proved over the wire for bundles with a one-time prekey. False without one: the parser reads the absent prekey id as 0, so the recipient answers InvalidKeyId (C13_fails_without_one_time_prekey). For all primitives and any number of messages: C13_none_read."
  },
  {
   "property": "C14",
   "status": "proved",
   "theorems": [
    "Axolotl.C14_roles_agree",
    "Axolotl.C14_crossing_agree"
   ],
   "note": ""
  },
  {
   "property": "C15",
   "status": "partial",
   "theorems": [
    "Axolotl.C15_answered_twice",
    "Axolotl.C15_no_reuse_partial",
    "Axolotl.C15_answered_partial",
    "Axolotl.C15_random_partial",
    "Axolotl.Example.C15_false",
    "Axolotl.Example.C15_false_same_key"
   ],
   "note": "Header uniqueness proved over all histories from a start without sessions in which no ratchet key is taken into use twice (C15_no_reuse_partial). That holds if the party never draws a ratchet key twice and no key exchange request of its own is answered twice (C15_answered_partial), in particular if it sends no request (C15_random_partial). The full claim is false: a replayed key exchange answer restores an old session (C15_false, C15_false_same_key). In general: any request of ours that is answered twice gives the same keys (C15_answered_twice)."
  },
  {
   "property": "C16",
   "status": "proved",
   "theorems": [
    "Axolotl.C16_encrypt",
    "Axolotl.C16_encrypt_failed"
   ],
   "note": ""
  },
  {
   "property": "C17",
   "status": "proved",
   "theorems": [
    "Axolotl.C17_rejected_message"
   ],
   "note": ""
  },
  {
   "property": "C18",
   "status": "partial",
   "theorems": [
    "Axolotl.C18_rejected_prekey_message_partial",
    "Axolotl.C18_identity_saved_on_failure"
   ],
   "note": "Sessions and prekeys are proved unchanged on every exception. The saved identity is not: it is stored before the MAC is checked (C18_identity_saved_on_failure). For all messages and primitives see C81."
  },
  {
   "property": "C19",
   "status": "proved",
   "theorems": [
    "Axolotl.C19_replay",
    "Axolotl.C19_replay_prekey",
    "Axolotl.C19_sessions_kept"
   ],
   "note": ""
  },
  {
   "property": "C20",
   "status": "proved",
   "theorems": [
    "Axolotl.C20_any_order",
    "Axolotl.C20_one_chain_sent",
    "Axolotl.C20_chain_any_order"
   ],
   "note": ""
  },
  {
   "property": "C21",
   "status": "proved",
   "theorems": [
    "Axolotl.C21_within",
    "Axolotl.C21_skipped",
    "Axolotl.C21_too_far",
    "Axolotl.C21_accepted"
   ],
   "note": ""
  },
  {
   "property": "C22",
   "status": "proved",
   "theorems": [
    "Axolotl.C22_bounded"
   ],
   "note": ""
  },
  {
   "property": "C23",
   "status": "proved",
   "theorems": [
    "Axolotl.C23_bound",
    "Axolotl.C23_one_message",
    "Axolotl.C23_one_call",
    "Axolotl.C23_grows",
    "Axolotl.C23_no_small_bound"
   ],
   "note": "The bound is the counter width, 2^32 (C23_bound); one message or call adds at most 2000 (C23_one_message, C23_one_call). C23_grows and C23_no_small_bound show that no useful smaller bound holds."
  },
  {
   "property": "C24",
   "status": "proved",
   "theorems": [
    "Axolotl.C24_bundle",
    "Axolotl.C24_key_exchange",
    "Axolotl.C24_prekey_message",
    "Axolotl.C24_saved_identity_was_trusted"
   ],
   "note": ""
  },
  {
   "property": "C25",
   "status": "proved",
   "theorems": [
    "Axolotl.C25_bundle_signature",
    "Axolotl.C25_bundle_rejected"
   ],
   "note": ""
  },
  {
   "property": "C26",
   "status": "proved",
   "theorems": [
    "Axolotl.C26_key_exchange_signature",
    "Axolotl.C26_key_exchange_rejected"
   ],
   "note": ""
  },
  {
   "property": "C27",
   "status": "proved",
   "theorems": [
    "Axolotl.C27_removed_iff",
    "Axolotl.C27_only_the_named",
    "Axolotl.C27_consumed_refused",
    "Axolotl.C27_stays_removed",
    "Axolotl.C27_other_calls"
   ],
   "note": ""
  },
  {
   "property": "C28",
   "status": "proved",
   "theorems": [
    "Axolotl.C28_repeated",
    "Axolotl.C28_no_prekey_needed",
    "Axolotl.C28_no_new_session"
   ],
   "note": ""
  },
  {
   "property": "C29",
   "status": "proved",
   "theorems": [
    "Axolotl.C29_announced",
    "Axolotl.C29_answered"
   ],
   "note": ""
  },
  {
   "property": "C30",
   "status": "proved",
   "theorems": [
    "Axolotl.C30_isolation",
    "Axolotl.C30_isolation_history"
   ],
   "note": ""
  },
  {
   "property": "C31",
   "status": "proved",
   "theorems": [
    "Axolotl.C31_response_used",
    "Axolotl.C31_response_not_pending"
   ],
   "note": ""
  },
  {
   "property": "C32",
   "status": "partial",
   "theorems": [
    "Axolotl.C32_session_old_or_new_partial",
    "Axolotl.C32_redelivery_partial",
    "Axolotl.C32_prekey_left_behind",
    "Axolotl.Example.C32_false"
   ],
   "note": "After a crash at any write boundary the session is the old or the new one, and redelivery decrypts or reports a duplicate (C32_session_old_or_new_partial, C32_redelivery_partial). The claim that redelivery also removes the one-time prekey is false: a crash between the two writes leaves it for ever (C32_prekey_left_behind, C32_false)."
  },
  {
   "property": "C33",
   "status": "partial",
   "theorems": [
    "Axolotl.C33_serial_partial",
    "Axolotl.C33_overlap_reuses",
    "Axolotl.C33_exact_partial",
    "Axolotl.Example.C33_false",
    "Axolotl.C33_many_overlap_reuses",
    "Axolotl.C33_many_exact_partial"
   ],
   "note": "False: two overlapping encrypt calls give the same header and the same cipher key (C33_overlap_reuses, C33_false), and among any number of calls of which two overlap there are two that do (C33_many_overlap_reuses). Proved: over all schedules of two calls (C33_serial_partial, C33_exact_partial) and of any number of calls (C33_many_exact_partial), headers differ exactly when no calls overlap. With locks see C104."
  },
  {
   "property": "C34",
   "status": "proved",
   "theorems": [
    "Axolotl.C34_group_authenticated",
    "Axolotl.C34_authenticated"
   ],
   "note": ""
  },
  {
   "property": "C35",
   "status": "proved",
   "theorems": [
    "Axolotl.C35_version_mismatch",
    "Axolotl.C35_reachable"
   ],
   "note": ""
  },
  {
   "property": "C36",
   "status": "proved",
   "theorems": [
    "Axolotl.C36_new_session_bundle",
    "Axolotl.C36_new_session_prekey_message",
    "Axolotl.C36_decrypt",
    "Axolotl.C36_nothing_lost"
   ],
   "note": ""
  },
  {
   "property": "C37",
   "status": "proved",
   "theorems": [
    "Axolotl.C37_conversation",
    "Axolotl.C37_can_send",
    "Axolotl.C37_headers_distinct"
   ],
   "note": ""
  },
  {
   "property": "C38",
   "status": "proved",
   "theorems": [
    "Axolotl.C38_no_reuse",
    "Axolotl.C38_consecutive"
   ],
   "note": ""
  },
  {
   "property": "C39",
   "status": "partial",
   "theorems": [
    "Axolotl.C39_unchanged",
    "Axolotl.C39_encrypt_exceptions",
    "Axolotl.C39_decrypt_exceptions_partial",
    "Axolotl.C39_false"
   ],
   "note": "Nothing is stored on any exception (C39_unchanged) and the exception sets are exact for non-empty input in every store reachable through the API. False for the empty byte string, which gives AssertionError (C39_false)."
  },
  {
   "property": "C40",
   "status": "proved",
   "theorems": [
    "Axolotl.C40_no_replay",
    "Axolotl.C40_one_message_per_iteration"
   ],
   "note": ""
  },
  {
   "property": "C41",
   "status": "proved",
   "theorems": [
    "Axolotl.C41_any_order"
   ],
   "note": ""
  },
  {
   "property": "C42",
   "status": "partial",
   "theorems": [
    "Axolotl.C42_any_distance_accepted",
    "Axolotl.C42_last_refused_partial",
    "Axolotl.C42_false"
   ],
   "note": "False: the test in groupcipher.py:75 subtracts the wrong way round. Proved instead: a properly made message at any distance is accepted (C42_any_distance_accepted, C42_false); only the last iteration is always refused (C42_last_refused_partial)."
  },
  {
   "property": "C43",
   "status": "proved",
   "theorems": [
    "Axolotl.C43_forward_only",
    "Axolotl.C43_no_rewind"
   ],
   "note": ""
  },
  {
   "property": "C44",
   "status": "proved",
   "theorems": [
    "Axolotl.C44_create_existing",
    "Axolotl.C44_create_new",
    "Axolotl.C44_encrypt_before_create"
   ],
   "note": ""
  },
  {
   "property": "C45",
   "status": "partial",
   "theorems": [
    "Axolotl.C45_exact",
    "Axolotl.C45_false",
    "Axolotl.C45_growth_partial"
   ],
   "note": "False: every distribution message adds a state (C45_exact, C45_false). Proved: nothing else adds states (C45_growth_partial)."
  },
  {
   "property": "C46",
   "status": "partial",
   "theorems": [
    "Axolotl.C46_eq_iff",
    "Axolotl.C46_equal_hash",
    "Axolotl.C46_false",
    "Axolotl.C46_serialize_partial"
   ],
   "note": "Equality and hash agree (C46_eq_iff, C46_equal_hash). The serialised form is not injective (C46_false); it is if group ids, or sender names, contain no colon (C46_serialize_partial)."
  },
  {
   "property": "C47",
   "status": "proved",
   "theorems": [
    "Axolotl.C47_prekey_ids",
    "Axolotl.C47_prekey_keys"
   ],
   "note": ""
  },
  {
   "property": "C48",
   "status": "proved",
   "theorems": [
    "Axolotl.C48_registration_id",
    "Axolotl.C48_signed_prekey"
   ],
   "note": ""
  },
  {
   "property": "C49",
   "status": "proved",
   "theorems": [
    "Axolotl.C49_decrypt_without_session",
    "Axolotl.C49_encrypt_without_session"
   ],
   "note": ""
  },
  {
   "property": "C50",
   "status": "proved",
   "theorems": [
    "Axolotl.C50_sessions",
    "Axolotl.C50_readable",
    "Axolotl.C50_groups"
   ],
   "note": ""
  },
  {
   "property": "C52",
   "status": "proved",
   "theorems": [
    "Axolotl.C52_address_string",
    "Axolotl.C52_equal_hash"
   ],
   "note": ""
  },
  {
   "property": "C51",
   "status": "proved",
   "theorems": [
    "Axolotl.C51_message",
    "Axolotl.C51_prekey_message",
    "Axolotl.C51_group"
   ],
   "note": ""
  },
  {
   "property": "C53",
   "status": "proved",
   "theorems": [
    "Axolotl.C53_encrypt",
    "Axolotl.C53_group_encrypt",
    "Axolotl.C53_distribution",
    "Axolotl.C53_request",
    "Axolotl.C53_response"
   ],
   "note": ""
  },
  {
   "property": "C54",
   "status": "proved",
   "theorems": [
    "Axolotl.C54_cipher",
    "Axolotl.C54_decrypt",
    "Axolotl.C54_group_decrypt"
   ],
   "note": ""
  },
  {
   "property": "C55",
   "status": "proved",
   "theorems": [
    "Axolotl.C55_effect",
    "Axolotl.C55_accepted"
   ],
   "note": ""
  },
  {
   "property": "C56",
   "status": "proved",
   "theorems": [
    "Axolotl.C56_bundle",
    "Axolotl.C56_prekey",
    "Axolotl.C56_exchange",
    "Axolotl.C56_request"
   ],
   "note": ""
  },
  {
   "property": "C57",
   "status": "proved",
   "theorems": [
    "Axolotl.C57_pinned",
    "Axolotl.C57_sessions",
    "Axolotl.C57_plaintext",
    "Axolotl.C57_not_rechecked",
    "Axolotl.C57_crash_false"
   ],
   "note": "For calls that run to completion. A crash between storing the session and saving the identity in processPreKeyBundle leaves the key unpinned (C57_crash_false)."
  },
  {
   "property": "C58",
   "status": "proved",
   "theorems": [
    "Axolotl.C58_exact",
    "Axolotl.C58_one_outcome",
    "Axolotl.C58_exceptions"
   ],
   "note": ""
  },
  {
   "property": "C59",
   "status": "proved",
   "theorems": [
    "Axolotl.C59_exact",
    "Axolotl.C59_one_outcome",
    "Axolotl.C59_history"
   ],
   "note": ""
  },
  {
   "property": "C60",
   "status": "proved",
   "theorems": [
    "Axolotl.C60_whisper",
    "Axolotl.C60_whisper_shape",
    "Axolotl.C60_prekey",
    "Axolotl.C60_exchange",
    "Axolotl.C60_group",
    "Axolotl.C60_distribution"
   ],
   "note": ""
  },
  {
   "property": "C61",
   "status": "proved",
   "theorems": [
    "Axolotl.C61_exact",
    "Axolotl.C61_one_outcome",
    "Axolotl.C61_history"
   ],
   "note": ""
  },
  {
   "property": "C62",
   "status": "proved",
   "theorems": [
    "Axolotl.C62_session_bytes",
    "Axolotl.C62_sender_key_bytes",
    "Axolotl.C62_prekey_bytes",
    "Axolotl.C62_signed_prekey_bytes",
    "Axolotl.C62_identity_bytes",
    "Axolotl.C62_session_read",
    "Axolotl.C62_sender_key_read",
    "Axolotl.C62_prekey_read",
    "Axolotl.C62_signed_prekey_read",
    "Axolotl.C62_prekey_values",
    "Axolotl.C62_signed_prekey_values",
    "Axolotl.C62_identity_read"
   ],
   "note": ""
  },
  {
   "property": "C63",
   "status": "proved",
   "theorems": [
    "Axolotl.C63_bounded",
    "Axolotl.C63_exact",
    "Axolotl.C63_history",
    "Axolotl.C63_no_reuse",
    "Axolotl.C63_prekey_once",
    "Axolotl.C63_first_message_once",
    "Axolotl.C63_replay",
    "Axolotl.C63_trusted",
    "Axolotl.C63_bytes",
    "Axolotl.C63_no_one_time_prekey",
    "Axolotl.C63_restored_session"
   ],
   "note": ""
  },
  {
   "property": "C64",
   "status": "proved",
   "theorems": [
    "Axolotl.C64_size",
    "Axolotl.C64_absolute",
    "Axolotl.C64_growth",
    "Axolotl.C64_bytes",
    "Axolotl.C64_grows"
   ],
   "note": ""
  },
  {
   "property": "C65",
   "status": "proved",
   "theorems": [
    "Axolotl.C65_deleteAll",
    "Axolotl.C65_removeSigned",
    "Axolotl.C65_missing",
    "Axolotl.C65_devices",
    "Axolotl.C65_store",
    "Axolotl.C65_distinct",
    "Axolotl.C65_history",
    "Axolotl.C65_unique",
    "Axolotl.C65_loads",
    "Axolotl.C65_deleteAll_false"
   ],
   "note": ""
  },
  {
   "property": "C66",
   "status": "proved",
   "theorems": [
    "Axolotl.C66_encrypt",
    "Axolotl.C66_reveals",
    "Axolotl.C66_overhead",
    "Axolotl.C66_overhead_false",
    "Axolotl.C66_request",
    "Axolotl.C66_response",
    "Axolotl.C66_group",
    "Axolotl.C66_group_reveals",
    "Axolotl.C66_distribution"
   ],
   "note": ""
  },
  {
   "property": "C67",
   "status": "proved",
   "theorems": [
    "Axolotl.C67_size",
    "Axolotl.C67_growth",
    "Axolotl.C67_one_message",
    "Axolotl.C67_bytes",
    "Axolotl.C67_store"
   ],
   "note": ""
  },
  {
   "property": "C68",
   "status": "proved",
   "theorems": [
    "Axolotl.C68_alone",
    "Axolotl.C68_alone_group",
    "Axolotl.C68_apart",
    "Axolotl.C68_groups",
    "Axolotl.C68_finishes",
    "Axolotl.C68_moment",
    "Axolotl.C68_moment_group",
    "Axolotl.C68_snapshot",
    "Axolotl.C68_snapshot_group",
    "Axolotl.C68_accepted_often",
    "Axolotl.C68_keys_reused",
    "Axolotl.C68_serial_false"
   ],
   "note": ""
  },
  {
   "property": "C69",
   "status": "proved",
   "theorems": [
    "Axolotl.C69_prefix",
    "Axolotl.C69_anywhere",
    "Axolotl.C69_session",
    "Axolotl.C69_all_or_nothing",
    "Axolotl.C69_retry",
    "Axolotl.C69_retry_prekey",
    "Axolotl.C69_group",
    "Axolotl.C69_group_history"
   ],
   "note": ""
  },
  {
   "property": "C70",
   "status": "proved",
   "theorems": [
    "Axolotl.C70_delivery",
    "Axolotl.C70_undisturbed",
    "Axolotl.C70_survives",
    "Axolotl.C70_once",
    "Axolotl.C70_refused",
    "Axolotl.C70_sending"
   ],
   "note": ""
  },
  {
   "property": "C71",
   "status": "proved",
   "theorems": [
    "Axolotl.C71_result",
    "Axolotl.C71_success",
    "Axolotl.C71_failed",
    "Axolotl.C71_plain",
    "Axolotl.C71_never_archives",
    "Axolotl.C71_overwritten_bundle",
    "Axolotl.C71_overwritten_prekey",
    "Axolotl.C71_group_result",
    "Axolotl.C71_group_history",
    "Axolotl.C71_store_matters",
    "Axolotl.C71_failure_matters",
    "Axolotl.C71_group_failure_matters"
   ],
   "note": ""
  },
  {
   "property": "C72",
   "status": "proved",
   "theorems": [
    "Axolotl.C72_heard",
    "Axolotl.C72_number",
    "Axolotl.C72_read",
    "Axolotl.C72_again",
    "Axolotl.C72_before",
    "Axolotl.C72_unheard",
    "Axolotl.C72_owner",
    "Axolotl.C72_genuine",
    "Axolotl.C72_once",
    "Axolotl.C72_only_owner",
    "Axolotl.C72_send",
    "Axolotl.C72_announce"
   ],
   "note": ""
  },
  {
   "property": "C73",
   "status": "proved",
   "theorems": [
    "Axolotl.C73_hex",
    "Axolotl.C73_hex_error",
    "Axolotl.C73_hex_roundtrip",
    "Axolotl.C73_identity_key",
    "Axolotl.C73_int",
    "Axolotl.C73_int_error",
    "Axolotl.C73_combine",
    "Axolotl.C73_combine_error",
    "Axolotl.C73_split"
   ],
   "note": ""
  },
  {
   "property": "C74",
   "status": "partial",
   "theorems": [
    "Axolotl.C74_exact",
    "Axolotl.C74_errors",
    "Axolotl.C74_false",
    "Axolotl.C74_offset_partial",
    "Axolotl.C74_read_key",
    "Axolotl.C74_zero",
    "Axolotl.C74_minus_one",
    "Axolotl.C74_identity"
   ],
   "note": "False as stated: decodePoint also requires the type byte at the beginning of the array (C74_false). Proved when the array begins with it; exact results and errors proved for every non-negative offset."
  },
  {
   "property": "C75",
   "status": "proved",
   "theorems": [
    "Axolotl.C75_defined",
    "Axolotl.C75_error",
    "Axolotl.C75_cmp",
    "Axolotl.C75_order",
    "Axolotl.C75_consistent"
   ],
   "note": ""
  },
  {
   "property": "C76",
   "status": "proved",
   "theorems": [
    "Axolotl.C76_legacy",
    "Axolotl.C76_legacy_exchange",
    "Axolotl.C76_flags",
    "Axolotl.C76_flags_survive",
    "Axolotl.C76_types",
    "Axolotl.C76_encrypt_type"
   ],
   "note": ""
  },
  {
   "property": "C77",
   "status": "proved",
   "theorems": [
    "Axolotl.C77_lawful",
    "Axolotl.C77_prime",
    "Axolotl.C77_agreement",
    "Axolotl.C77_received",
    "Axolotl.C77_private_key",
    "Axolotl.C77_signature",
    "Axolotl.C77_aes",
    "Axolotl.C77_same_public_key",
    "Axolotl.C77_same_generated",
    "Axolotl.C77_two_keys",
    "Axolotl.C77_zero_key"
   ],
   "note": "About the reference implementations in Verif/Real, which reproduce every fixed value in the project's tests (Real/Vectors.lean)."
  },
  {
   "property": "C78",
   "status": "partial",
   "theorems": [
    "Axolotl.C78_zero",
    "Axolotl.C78_false",
    "Axolotl.C78_honest_partial",
    "Axolotl.C78_same_secret",
    "Axolotl.C78_first_message"
   ],
   "note": "False: no received key is checked; the key 0 makes the secret 0 whatever our key is (C78_zero, C78_false, C78_first_message). Proved for keys that were generated: the secret is not 0 and determines our key up to the sign (C78_honest_partial)."
  },
  {
   "property": "C79",
   "status": "proved",
   "theorems": [
    "Axolotl.C79_conversation",
    "Axolotl.C79_can_send",
    "Axolotl.C79_headers_distinct",
    "Axolotl.C79_hkdf",
    "Axolotl.C79_encrypt",
    "Axolotl.C79_decrypt",
    "Axolotl.C79_versions",
    "Axolotl.C79_other_versions",
    "Axolotl.C79_unbound",
    "Axolotl.C79_setup_lost",
    "Axolotl.C79_renewal"
   ],
   "note": ""
  },
  {
   "property": "C80",
   "status": "proved",
   "theorems": [
    "Axolotl.C80_send",
    "Axolotl.C80_read",
    "Axolotl.C80_read_skipped",
    "Axolotl.C80_ratchet",
    "Axolotl.C80_conversation",
    "Axolotl.C80_exchange_kept",
    "Axolotl.C80_group_send",
    "Axolotl.C80_group_read",
    "Axolotl.C80_group_read_skipped"
   ],
   "note": "For sessions and sender keys. The private base key of a key exchange that we started is not erased (C80_exchange_kept)."
  },
  {
   "property": "C81",
   "status": "proved",
   "theorems": [
    "Axolotl.C81_saved",
    "Axolotl.C81_locked_out",
    "Axolotl.C81_forged"
   ],
   "note": ""
  },
  {
   "property": "C82",
   "status": "proved",
   "theorems": [
    "Axolotl.C82_direct",
    "Axolotl.C82_parsed",
    "Axolotl.C82_wire"
   ],
   "note": "Two statements: the object itself is refused (C82_direct), its serialized form is accepted (C82_wire, C82_parsed)."
  },
  {
   "property": "C83",
   "status": "proved",
   "theorems": [
    "Axolotl.C83_alice",
    "Axolotl.C83_bob",
    "Axolotl.C83_symmetric",
    "Axolotl.C83_initialize",
    "Axolotl.C83_prekey_message",
    "Axolotl.C83_bundle",
    "Axolotl.C83_initiate",
    "Axolotl.C83_response"
   ],
   "note": "Each builder for all call sequences, and the library's five uses of them."
  },
  {
   "property": "C84",
   "status": "proved",
   "theorems": [
    "Axolotl.C84_known",
    "Axolotl.C84_rewrapped"
   ],
   "note": "C84_known for part (a), C84_rewrapped for part (b)."
  },
  {
   "property": "C85",
   "status": "proved",
   "theorems": [
    "Axolotl.C85_again",
    "Axolotl.C85_denial",
    "Axolotl.C85_replay",
    "Axolotl.C85_first_contact",
    "Axolotl.C85_writable",
    "Axolotl.C85_top_bit",
    "Axolotl.C85_real",
    "Axolotl.C85_denial_real"
   ],
   "note": "C85_again in any store with the same keys, C85_replay after any calls, C85_denial if the changed message comes first, C85_first_contact for a whole run, C85_top_bit, C85_real and C85_denial_real for the real primitives, C85_writable for the bytes."
  },
  {
   "property": "C86",
   "status": "proved",
   "theorems": [
    "Axolotl.C86_only_sent",
    "Axolotl.C86_refused",
    "Axolotl.C86_conversation",
    "Axolotl.C86_can_send",
    "Axolotl.C86_once",
    "Axolotl.C86_next"
   ],
   "note": "C86_only_sent (1), C86_refused (2), C86_conversation (3), C86_can_send (4), C86_once (5), C86_next (6). That the attacker cannot forge MACs is a hypothesis on each of their messages."
  },
  {
   "property": "C87",
   "status": "proved",
   "theorems": [
    "Axolotl.C87_each",
    "Axolotl.C87_conversation",
    "Axolotl.C87_only_sent",
    "Axolotl.C87_once",
    "Axolotl.C87_can_send",
    "Axolotl.C87_next",
    "Axolotl.C87_interference"
   ],
   "note": "C87_each (1), C87_conversation (2), C87_only_sent (3), C87_once (4), C87_can_send (5), C87_next (6), C87_interference (7)."
  },
  {
   "property": "C88",
   "status": "proved",
   "theorems": [
    "Axolotl.C88_inbox",
    "Axolotl.C88_society",
    "Axolotl.C88_genuine",
    "Axolotl.C88_read",
    "Axolotl.C88_join"
   ],
   "note": "C88_inbox (1), C88_society (2), C88_genuine (3), C88_read (4), C88_join (5)."
  },
  {
   "property": "C89",
   "status": "proved",
   "theorems": [
    "Axolotl.C89_exact",
    "Axolotl.C89_forward",
    "Axolotl.C89_healing",
    "Axolotl.C89_healed",
    "Axolotl.C89_setup",
    "Axolotl.C89_prekey_gone"
   ],
   "note": "C89_exact (1), C89_forward (2), C89_healing and C89_healed (3), C89_setup and C89_prekey_gone (4)."
  },
  {
   "property": "C90",
   "status": "proved",
   "theorems": [
    "Axolotl.C90_exact",
    "Axolotl.C90_describes",
    "Axolotl.C90_first",
    "Axolotl.C90_theft",
    "Axolotl.C90_forward",
    "Axolotl.C90_no_healing",
    "Axolotl.C90_signing",
    "Axolotl.C90_forward_false"
   ],
   "note": "C90_exact (1), C90_describes and C90_first (terms are the real bytes), C90_theft (2), C90_forward and C90_forward_false (3: forward secrecy of read messages is false for members with two announcements of the key), C90_no_healing (4), C90_signing (5)."
  },
  {
   "property": "C91",
   "status": "proved",
   "theorems": [
    "Axolotl.C91_initiator",
    "Axolotl.C91_transcript",
    "Axolotl.C91_impersonate",
    "Axolotl.C91_recipient",
    "Axolotl.C91_transcript_recipient",
    "Axolotl.C91_rewrite",
    "Axolotl.C91_signed"
   ],
   "note": "C91_initiator, C91_recipient (1), C91_transcript, C91_transcript_recipient (2), C91_impersonate (3), C91_rewrite (4), C91_signed (5)."
  },
  {
   "property": "C92",
   "status": "proved",
   "theorems": [
    "Axolotl.C92_unheard",
    "Axolotl.C92_fork",
    "Axolotl.C92_healed",
    "Axolotl.C92_same_key",
    "Axolotl.C92_stuck"
   ],
   "note": "Spec in Spec/Restore.lean (Readable, Mixed) over the conversations of Spec/Conversation.lean. Side false must hold the session at the backup in C92_fork and C92_healed; a backup from before the first message is covered by C92_unheard as long as the peer has accepted nothing since. C92_stuck is a concrete run over the toy primitives showing that the condition of C92_healed cannot be dropped; C89_healing is the general reason."
  },
  {
   "property": "C93",
   "status": "proved",
   "theorems": [
    "Axolotl.C93_number",
    "Axolotl.C93_read",
    "Axolotl.C93_read_owner",
    "Axolotl.C93_refused",
    "Axolotl.C93_before",
    "Axolotl.C93_unheard",
    "Axolotl.C93_genuine",
    "Axolotl.C93_once",
    "Axolotl.C93_same_key",
    "Axolotl.C93_equal",
    "Axolotl.C93_replay"
   ],
   "note": "Spec in Spec/GroupBackup.lean. As in C72, announcements reach the members as made and accepted bytes have been sent up to the signature (C34 and unforgeability). A backup from before the creation of the member's own sender key is excluded: creating again would make a second key under the same name (C72 has the same restriction to one key per name)."
  },
  {
   "property": "C94",
   "status": "proved",
   "theorems": [
    "Axolotl.C94_encrypt",
    "Axolotl.C94_retold",
    "Axolotl.C94_deliver",
    "Axolotl.C94_group_encrypt",
    "Axolotl.C94_group_decrypt",
    "Axolotl.C94_group_deliver",
    "Axolotl.C94_group_retold",
    "Axolotl.C94_group_same"
   ],
   "note": "Spec in Spec/Content.lean. The body and the MAC do depend on the plaintext; that they reveal nothing about it is the assumption on AES-CBC and HMAC, which is outside the model."
  },
  {
   "property": "C95",
   "status": "proved",
   "theorems": [
    "Axolotl.C95_exact",
    "Axolotl.C95_names",
    "Axolotl.C95_offered",
    "Axolotl.C95_current",
    "Axolotl.C95_setup",
    "Axolotl.C95_attack",
    "Axolotl.C95_steps",
    "Axolotl.C95_only_sent",
    "Axolotl.C95_conversation"
   ],
   "note": "Spec in Spec/Forge.lean. Computing is symbolic: that HMAC values are not hit by accident is a hypothesis on each attacker message (`Computed`), shown to be met by exactly the messages of C86 (C95_steps). C95_names, C95_offered, computed_replay and computed_noise show that it is met by replays and noise at each moment of each conversation."
  },
  {
   "property": "C96",
   "status": "proved",
   "theorems": [
    "Axolotl.C96_written",
    "Axolotl.C96_verifies",
    "Axolotl.C96_signatures",
    "Axolotl.C96_accepted",
    "Axolotl.C96_reach",
    "Axolotl.C96_genuine",
    "Axolotl.C96_replay",
    "Axolotl.C96_insiders",
    "Axolotl.C96_forge"
   ],
   "note": "Symbolic signatures; the bytes of the messages sent are the values of the terms."
  },
  {
   "property": "C97",
   "status": "proved",
   "theorems": [
    "Axolotl.C97_bundle",
    "Axolotl.C97_exchange",
    "Axolotl.C97_records",
    "Axolotl.C97_offered",
    "Axolotl.C97_leftover",
    "Axolotl.C97_craft",
    "Axolotl.C97_steps",
    "Axolotl.C97_only_sent",
    "Axolotl.C97_conversation"
   ],
   "note": "The remaining assumption on trust concerns only the first contact itself."
  },
  {
   "property": "C98",
   "status": "proved",
   "theorems": [
    "Axolotl.C98_forward",
    "Axolotl.C98_healing",
    "Axolotl.C98_healed",
    "Axolotl.C98_prekey_gone",
    "Axolotl.C98_archived",
    "Axolotl.C98_record",
    "Axolotl.C98_first"
   ],
   "note": "Healing assumes that the stolen keys are not used to forge messages in the meantime."
  },
  {
   "property": "C99",
   "status": "proved",
   "theorems": [
    "Axolotl.C99_continues",
    "Axolotl.C99_can_send",
    "Axolotl.C99_only_sent",
    "Axolotl.C99_fork",
    "Axolotl.C99_same"
   ],
   "note": ""
  },
  {
   "property": "C100",
   "status": "proved",
   "theorems": [
    "Axolotl.C100_system",
    "Axolotl.C100_society",
    "Axolotl.C100_possible",
    "Axolotl.C100_genuine",
    "Axolotl.C100_exact",
    "Axolotl.C100_announcement",
    "Axolotl.C100_delivered",
    "Axolotl.C100_nobody"
   ],
   "note": ""
  },
  {
   "property": "C101",
   "status": "proved",
   "theorems": [
    "Axolotl.C101_reach",
    "Axolotl.C101_names",
    "Axolotl.C101_theft",
    "Axolotl.C101_current",
    "Axolotl.C101_attack",
    "Axolotl.C101_steps",
    "Axolotl.C101_lasts",
    "Axolotl.C101_five"
   ],
   "note": ""
  },
  {
   "property": "C102",
   "status": "proved",
   "theorems": [
    "Axolotl.C102_each",
    "Axolotl.C102_some_key",
    "Axolotl.C102_weaken",
    "Axolotl.C102_read",
    "Axolotl.C102_before",
    "Axolotl.C102_told",
    "Axolotl.C102_genuine",
    "Axolotl.C102_again",
    "Axolotl.C102_once",
    "Axolotl.C102_unheard",
    "Axolotl.C102_owner",
    "Axolotl.C102_send",
    "Axolotl.C102_only_owner",
    "Axolotl.C102_renew",
    "Axolotl.C102_theft",
    "Axolotl.C102_healing",
    "Axolotl.C102_no_revocation",
    "Axolotl.C102_same_id"
   ],
   "note": ""
  },
  {
   "property": "C103",
   "status": "proved",
   "theorems": [
    "Axolotl.C103_accepted",
    "Axolotl.C103_reach",
    "Axolotl.C103_written",
    "Axolotl.C103_replay",
    "Axolotl.C103_no_signing",
    "Axolotl.C103_thief",
    "Axolotl.C103_read",
    "Axolotl.C103_genuine"
   ],
   "note": ""
  },
  {
   "property": "C104",
   "status": "proved",
   "theorems": [
    "Axolotl.C104_serial",
    "Axolotl.C104_serial_group",
    "Axolotl.C104_finishes",
    "Axolotl.C104_any",
    "Axolotl.C104_headers",
    "Axolotl.C104_once_group",
    "Axolotl.C104_prekey_race"
   ],
   "note": ""
  },
  {
   "property": "C105",
   "status": "proved",
   "theorems": [
    "Axolotl.C105_society",
    "Axolotl.C105_genuine",
    "Axolotl.C105_exact",
    "Axolotl.C105_removed",
    "Axolotl.C105_no_signing",
    "Axolotl.C105_join"
   ],
   "note": ""
  },
  {
   "property": "C106",
   "status": "proved",
   "theorems": [
    "Axolotl.C106_system",
    "Axolotl.C106_reach",
    "Axolotl.C106_only_sent",
    "Axolotl.C106_society",
    "Axolotl.C106_possible",
    "Axolotl.C106_bundle"
   ],
   "note": ""
  },
  {
   "property": "C107",
   "status": "proved",
   "theorems": [
    "Axolotl.C107_system",
    "Axolotl.C107_only_sent",
    "Axolotl.C107_society",
    "Axolotl.C107_genuine",
    "Axolotl.C107_each",
    "Axolotl.C107_mended",
    "Axolotl.C107_mended_accepted",
    "Axolotl.C107_secret",
    "Axolotl.C107_possible"
   ],
   "note": ""
  },
  {
   "property": "C108",
   "status": "proved",
   "theorems": [
    "Axolotl.C108_same",
    "Axolotl.C108_bound",
    "Axolotl.C108_per_state",
    "Axolotl.C108_free",
    "Axolotl.C108_forgery"
   ],
   "note": ""
  },
  {
   "property": "C109",
   "status": "proved",
   "theorems": [
    "Axolotl.C109_same",
    "Axolotl.C109_fixed",
    "Axolotl.C109_bound",
    "Axolotl.C109_free",
    "Axolotl.C109_forgery",
    "Axolotl.C109_exact",
    "Axolotl.C109_no_limit"
   ],
   "note": ""
  },
  {
   "property": "C110",
   "status": "proved",
   "theorems": [
    "Axolotl.C110_same",
    "Axolotl.C110_same_group",
    "Axolotl.C110_total",
    "Axolotl.C110_total_group",
    "Axolotl.C110_read",
    "Axolotl.C110_read_first",
    "Axolotl.C110_unverified",
    "Axolotl.C110_unverified_first",
    "Axolotl.C110_unverified_version2",
    "Axolotl.C110_bundle",
    "Axolotl.C110_initiate",
    "Axolotl.C110_response",
    "Axolotl.C110_group",
    "Axolotl.C110_write",
    "Axolotl.C110_group_write"
   ],
   "note": ""
  },
  {
   "property": "C111",
   "status": "proved",
   "theorems": [
    "Axolotl.C111_receive",
    "Axolotl.C111_write",
    "Axolotl.C111_read",
    "Axolotl.C111_deliver",
    "Axolotl.C111_group_write",
    "Axolotl.C111_group_read",
    "Axolotl.C111_group_deliver"
   ],
   "note": ""
  },
  {
   "property": "C112",
   "status": "proved",
   "theorems": [
    "Axolotl.C112_call",
    "Axolotl.C112_group",
    "Axolotl.C112_history",
    "Axolotl.C112_group_history",
    "Axolotl.C112_once",
    "Axolotl.C112_group_once",
    "Axolotl.C112_read_known",
    "Axolotl.C112_write"
   ],
   "note": ""
  },
  {
   "property": "C113",
   "status": "proved",
   "theorems": [
    "Axolotl.C113_group_history",
    "Axolotl.C113_group_fixed",
    "Axolotl.C113_call",
    "Axolotl.C113_group",
    "Axolotl.C113_history",
    "Axolotl.C113_apart",
    "Axolotl.C113_interchangeable"
   ],
   "note": ""
  },
  {
   "property": "C114",
   "status": "proved",
   "theorems": [
    "Axolotl.C114_call",
    "Axolotl.C114_group",
    "Axolotl.C114_none",
    "Axolotl.C114_untrusted",
    "Axolotl.C114_history"
   ],
   "note": ""
  },
  {
   "property": "C115",
   "status": "proved",
   "theorems": [
    "Axolotl.C115_checks",
    "Axolotl.C115_enciphers",
    "Axolotl.C115_opens",
    "Axolotl.C115_group_checks",
    "Axolotl.C115_group_enciphers",
    "Axolotl.C115_group_opens"
   ],
   "note": ""
  },
  {
   "property": "C116",
   "status": "proved",
   "theorems": [
    "Axolotl.C116_hashes",
    "Axolotl.C116_other_versions",
    "Axolotl.C116_group_hashes"
   ],
   "note": ""
  },
  {
   "property": "C117",
   "status": "proved",
   "theorems": [
    "Axolotl.C117_send",
    "Axolotl.C117_send2",
    "Axolotl.C117_read",
    "Axolotl.C117_bundle",
    "Axolotl.C117_first",
    "Axolotl.C117_group_send",
    "Axolotl.C117_group_read",
    "Axolotl.C117_ask",
    "Axolotl.C117_request",
    "Axolotl.C117_reply",
    "Axolotl.C117_group_create",
    "Axolotl.C117_read2",
    "Axolotl.C117_first2"
   ],
   "note": ""
  }
 ]
}

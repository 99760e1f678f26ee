{
 "claims": [
  {
   "property": "C01",
   "status": "proved",
   "theorems": [
    "EG.C01_roundtrip",
    "EG.C01_keypair",
    "EG.C01_zero_nonce",
    "EG.C01_ciphertext",
    "EG.C01_above_limit_raises"
   ],
   "note": "Full claim, for all valid parameters; the message limit is the discrete-log limit."
  },
  {
   "property": "C02",
   "status": "proved",
   "theorems": [
    "EG.C02_homomorphic",
    "EG.C02_decrypts_to_sum",
    "EG.C02_equals_encryption_of_sum",
    "EG.C02_order_independent",
    "EG.C02_empty_raises"
   ],
   "note": "Full claim. The empty sum raises."
  },
  {
   "property": "C03",
   "status": "partial",
   "theorems": [
    "EG.C03_completeness_partial",
    "EG.C03_completeness_zero",
    "EG.C03_other_plaintext_raises",
    "EG.C03_zero_nonce_fails"
   ],
   "note": "Completeness for plaintext 0; for plaintext 1 except when the first derived nonce is 0, where the prover raises (negate_q(0)); witness C03_zero_nonce_fails."
  },
  {
   "property": "C04",
   "status": "proved",
   "theorems": [
    "EG.C04_special_soundness",
    "EG.C04_plaintext_unique",
    "EG.C04_single_challenge",
    "EG.C04_challenge_binds",
    "EG.C04_extraction"
   ],
   "note": "Special soundness, uniqueness of the answerable challenge, and binding of the challenge to base hash, ciphertext and commitments."
  },
  {
   "property": "C05",
   "status": "partial",
   "theorems": [
    "EG.C05_completeness_partial",
    "EG.C05_medium_group_fails",
    "EG.C05_completeness_iff"
   ],
   "note": "Proved when (q-1)^2 < p, which holds for the standard and TestOnly constants; C05_medium_group_fails shows the condition is needed. C05_completeness_iff says exactly when an honest proof is accepted in any group."
  },
  {
   "property": "C06",
   "status": "partial",
   "theorems": [
    "EG.C06_special_soundness_partial",
    "EG.C06_single_challenge_partial",
    "EG.C06_challenge_binds",
    "EG.C06_any_group",
    "EG.C06_medium_group_fails"
   ],
   "note": "Special soundness and uniqueness of the answerable challenge, under the condition on the group sizes stated in the theorems. C06_any_group says for every group what two accepted proofs determine; C06_medium_group_fails is the witness that the condition is needed."
  },
  {
   "property": "C07",
   "status": "proved",
   "theorems": [
    "EG.C07_completeness"
   ],
   "note": "Full claim."
  },
  {
   "property": "C08",
   "status": "proved",
   "theorems": [
    "EG.C08_special_soundness",
    "EG.C08_single_challenge",
    "EG.C08_challenge_binds"
   ],
   "note": "Special soundness and uniqueness of the answerable challenge."
  },
  {
   "property": "C09",
   "status": "proved",
   "theorems": [
    "EG.C09_completeness",
    "EG.C09_extraction",
    "EG.C09_challenge_binds",
    "EG.C09_key_in_subgroup"
   ],
   "note": "Completeness, extraction, and membership of an accepted key in the subgroup."
  },
  {
   "property": "C10",
   "status": "partial",
   "theorems": [
    "EG.C10_coordinate_value",
    "EG.C10_nonce_polynomial",
    "EG.C10_honest_share_accepted_partial",
    "EG.C10_out_of_range_raises",
    "EG.C10_large_power_fails",
    "EG.C10_honest_share_iff"
   ],
   "note": "Proved when the powers x^i of the sequence order stay below p (true for realistic sizes, C11_powers_small); C10_large_power_fails is a witness that honest shares are rejected otherwise, because the verifier reduces the exponent modulo p instead of q. C10_honest_share_iff says exactly when an honest share is accepted, for all sizes."
  },
  {
   "property": "C11",
   "status": "partial",
   "theorems": [
    "EG.C11_accepted_unique",
    "EG.C11_accepted_is_point_partial",
    "EG.C11_commitments_have_coefficients",
    "EG.C11_recovery_key",
    "EG.C11_powers_small",
    "EG.C11_accepted_iff"
   ],
   "note": "Uniqueness and the recovery key are unconditional; identification with the committed point needs x^i < p as in C10. C11_accepted_iff says exactly which numbers are accepted, for all sizes."
  },
  {
   "property": "C12",
   "status": "proved",
   "theorems": [
    "EG.C12_reconstruction",
    "EG.C12_reconstruction_in_exponent",
    "EG.C12_coinciding_orders_raise",
    "EG.C12_too_few_differs"
   ],
   "note": "Full claim, in the field and in the exponent; coinciding orders raise."
  },
  {
   "property": "C13",
   "status": "proved",
   "theorems": [
    "EG.C13_any_secret_consistent",
    "EG.C13_nonce_fails"
   ],
   "note": "Full claim: exactly one polynomial for every candidate secret. It is about random coefficients; C13_nonce_fails: with a nonce the coefficients are consecutive and one coordinate determines the secret."
  },
  {
   "property": "C14",
   "status": "proved",
   "theorems": [
    "EG.C14_selection",
    "EG.C14_invalid_share_refused",
    "EG.C14_tally",
    "EG.C14_ballot",
    "EG.C14_shared_selection_id_fails"
   ],
   "note": "Full claim for selections, any number of guardians; for whole tallies and ballots with distinct selection ids (C14_tally, C14_ballot), and C14_shared_selection_id_fails shows a valid manifest for which honest shares are refused."
  },
  {
   "property": "C15",
   "status": "partial",
   "theorems": [
    "EG.C15_quorum_decrypts_ballots_partial",
    "EG.C15_honest_ballot_compensation",
    "EG.C15_honest_ballot_share",
    "EG.C15_quorum_decrypts_partial",
    "EG.C15_honest_compensation",
    "EG.C15_honest_share"
   ],
   "note": "Proved for every history of honest calls, for the tally and for the spoiled ballots, any quorum and any missing set, when selection ids are distinct across contests (the case without is C14_shared_selection_id_fails) and the sequence orders differ modulo q; honest guardians do make the shares the theorem asks for (C15_honest_*, for tallies and for ballots)."
  },
  {
   "property": "C16",
   "status": "partial",
   "theorems": [
    "EG.C16_parts_name_contributors_partial",
    "EG.C16_fails"
   ],
   "note": "The code does not check completeness (C16_fails); proved instead: a reconstructed share names exactly the contributors received before the reconstruction."
  },
  {
   "property": "C17",
   "status": "partial",
   "theorems": [
    "EG.C17_any_number_fails",
    "EG.C17_used_shares_checked_partial",
    "EG.C17_announced_share_used",
    "EG.C17_no_proof_fails",
    "EG.C17_other_key_fails"
   ],
   "note": "Refuted: a share with empty recovered parts is accepted and can force any result (C17_any_number_fails), and the key in the share need not be the announced one. Proved: which checks the used shares passed."
  },
  {
   "property": "C18",
   "status": "partial",
   "theorems": [
    "EG.C18_roundtrip_partial",
    "EG.C18_long_roundtrip_partial",
    "EG.C18_short_message_fails",
    "EG.C18_huge_message_raises",
    "EG.C18_exactly"
   ],
   "note": "Holds exactly for messages whose padded length is 512 bytes, and for longer ones whose data does not start with a zero byte; C18_short_message_fails is a witness that short messages are not recovered. C18_exactly covers every length: the other messages are answered with None, unless two listed MACs coincide."
  },
  {
   "property": "C19",
   "status": "proved",
   "theorems": [
    "EG.C19_returns_iff_mac",
    "EG.C19_malformed_raises",
    "EG.C19_tampered_data"
   ],
   "note": "Full claim for data up to the length HMAC accepts, plus an explicit HMAC collision for tampered data."
  },
  {
   "property": "C20",
   "status": "proved",
   "theorems": [
    "EG.C20_roundtrip",
    "EG.C20_too_long_raises",
    "EG.C20_truncates",
    "EG.C20_padding_too_large_raises"
   ],
   "note": "All four outcomes, for every message and block size."
  },
  {
   "property": "C21",
   "status": "partial",
   "theorems": [
    "EG.C21_texts_determined_partial",
    "EG.C21_binding_partial",
    "EG.C21_ambiguous_fails"
   ],
   "note": "Proved for strings without the separator and arguments of the same types; C21_ambiguous_fails shows that the full claim is false."
  },
  {
   "property": "C22",
   "status": "proved",
   "theorems": [
    "EG.C22_index",
    "EG.C22_negative_raises",
    "EG.C22_open_slice_raises",
    "EG.C22_slice",
    "EG.C22_initial_slice",
    "EG.C22_nonce_determines",
    "EG.C22_headers_separate",
    "EG.C22_header_vs_none"
   ],
   "note": "Full claim; separation by headers for headers without the separator."
  },
  {
   "property": "C23",
   "status": "proved",
   "theorems": [
    "EG.C23_roundtrip_q",
    "EG.C23_roundtrip_p",
    "EG.C23_text_shape",
    "EG.C23_text_injective",
    "EG.C23_bytes_roundtrip",
    "EG.C23_padded_bytes_roundtrip",
    "EG.C23_parse",
    "EG.C23_in_range",
    "EG.C23_malformed_raises",
    "EG.C23_big_integer"
   ],
   "note": "Full claim; malformed text raises ValueError rather than returning None."
  },
  {
   "property": "C24",
   "status": "partial",
   "theorems": [
    "EG.C24_int_to",
    "EG.C24_add_q",
    "EG.C24_a_minus_b_q",
    "EG.C24_a_plus_bc_q",
    "EG.C24_mult_q",
    "EG.C24_mult_p",
    "EG.C24_pow_q",
    "EG.C24_pow_p",
    "EG.C24_g_pow_p",
    "EG.C24_div_q",
    "EG.C24_div_p",
    "EG.C24_mult_inv_p",
    "EG.C24_negate_q_partial",
    "EG.C24_negate_q_zero_fails",
    "EG.C24_in_bounds"
   ],
   "note": "All operations; negate_q(0) raises OverflowError, so negate_q is proved for non-zero arguments only."
  },
  {
   "property": "C25",
   "status": "proved",
   "theorems": [
    "EG.C25_valid_residue_iff",
    "EG.C25_exponent_unique",
    "EG.C25_mult_closed",
    "EG.C25_pow_closed",
    "EG.C25_inv_closed",
    "EG.C25_g_pow_valid"
   ],
   "note": "Full claim."
  },
  {
   "property": "C26",
   "status": "partial",
   "theorems": [
    "EG.C26_never_wrong_partial",
    "EG.C26_found_partial",
    "EG.C26_stable_partial",
    "EG.C26_raises_partial",
    "EG.C26_refines_pure_partial",
    "EG.C26_small_group_fails",
    "EG.C26_precompute_async_fails",
    "EG.C26_any_group",
    "EG.C26_stays_answered"
   ],
   "note": "Proved for groups with q above the exponent limit; C26_small_group_fails and C26_precompute_async_fails document the boundary. In every group an answer is an exponent of the element, and every element in reach is answered (C26_any_group, C26_stays_answered)."
  },
  {
   "property": "C27",
   "status": "partial",
   "theorems": [
    "EG.C27_any_schedule_partial",
    "EG.C27_correct_exponent_partial",
    "EG.C27_any_group",
    "EG.C27_answered"
   ],
   "note": "Proved, for every interleaving, when q is above the exponent limit. In every group each finished task reported an exponent of its element or that there is none in reach (C27_any_group, C27_answered)."
  },
  {
   "property": "C28",
   "status": "partial",
   "theorems": [
    "EG.C28_verifies_partial",
    "EG.C28_returns_partial",
    "EG.C28_contest_order_fails",
    "EG.C28_votes_allowed_fails",
    "EG.C28_long_data_fails",
    "EG.C28_selection_iff",
    "EG.C28_contest_iff",
    "EG.C28_ballot_iff",
    "EG.C28_checked_iff_partial"
   ],
   "note": "The encrypted ballot verifies, and encryption returns a ballot for every encryptable input, for internal manifests whose contests and selections are listed in sequence order and whose ids are unique; C28_contest_order_fails, C28_votes_allowed_fails and C28_long_data_fails are witnesses outside these conditions. Encryptable also asks that the derived nonces are not zero. C28_selection_iff, C28_contest_iff and C28_ballot_iff say exactly when encryption returns something, for manifests in any order and ballots of any shape; C28_checked_iff_partial says it for the call that verifies its result, on sorted manifests."
  },
  {
   "property": "C29",
   "status": "proved",
   "theorems": [
    "EG.C29_contest",
    "EG.C29_bad_vote_refused"
   ],
   "note": "Every selection encrypts the effective vote, placeholders fill up to number_elected, over-votes and under-votes included; votes outside 0/1 are refused."
  },
  {
   "property": "C30",
   "status": "partial",
   "theorems": [
    "EG.C30_secret_partial",
    "EG.C30_nonce_partial"
   ],
   "note": "With the secret key and with the nonce, for every ballot encrypt_ballot returns when ids are unique; contests come back in the order of the manifest."
  },
  {
   "property": "C31",
   "status": "partial",
   "theorems": [
    "EG.C31_limit_partial",
    "EG.C31_constant_unchecked_fails",
    "EG.C31_repeated_contest_fails",
    "EG.C31_foreign_contest_fails"
   ],
   "note": "For an accepted ballot with one contest per id, contests of the style, and the proof constant of the contest, the decrypted votes add up to the limit; the _fails theorems show that the validator does not check these conditions."
  },
  {
   "property": "C32",
   "status": "proved",
   "theorems": [
    "EG.C32_iff",
    "EG.C32_present",
    "EG.C32_election"
   ],
   "note": "The validator is characterised exactly (C32_iff): it accepts iff every contest of the style is matched by the first contest of the ballot with its id; contests outside the style, repeated contests and placeholder flags are not examined (see C31, C38)."
  },
  {
   "property": "C33",
   "status": "partial",
   "theorems": [
    "EG.C33_rejected_changes_nothing",
    "EG.C33_accepted",
    "EG.C33_accepts_iff",
    "EG.C33_never_changes",
    "EG.C33_accepted_once",
    "EG.C33_only_valid_partial",
    "EG.C33_cast_and_spoil",
    "EG.C33_get_ballots",
    "EG.C33_stored_invalid_fails"
   ],
   "note": "State machine over every history of submissions. C33_only_valid_partial: a stored ballot is valid when its contests were in sequence order; C33_stored_invalid_fails is the witness without that condition."
  },
  {
   "property": "C34",
   "status": "partial",
   "theorems": [
    "EG.C34_content",
    "EG.C34_hash",
    "EG.C34_validity_partial",
    "EG.C34_unsorted_fails"
   ],
   "note": "Content and hashes are kept unconditionally; validity of the submitted ballot is proved for ballots whose contests and selections are in sequence order, and C34_unsorted_fails shows the condition is needed."
  },
  {
   "property": "C35",
   "status": "partial",
   "theorems": [
    "EG.C35_append",
    "EG.C35_total_partial",
    "EG.C35_counted_once",
    "EG.C35_decrypts_partial",
    "EG.C35_repeated_contest_fails",
    "EG.C35_closed_pool_fails",
    "EG.C35_any_partial"
   ],
   "note": "Proved for ballots with one contest per id, contests of the style and correctly flagged selections (CBallot.Regular), which the validator does not check; C35_any_partial says what the totals are after appending any ballots whatever (repeated, foreign or incomplete contests included), assuming only that no selection has an empty id; C35_repeated_contest_fails and C35_closed_pool_fails are witnesses outside."
  },
  {
   "property": "C36",
   "status": "proved",
   "theorems": [
    "EG.C36_tally_ballot",
    "EG.C36_append_twice"
   ],
   "note": "Full claim for append, for every ballot and history."
  },
  {
   "property": "C37",
   "status": "partial",
   "theorems": [
    "EG.C37_batch_partial",
    "EG.C37_tallied_before_fails",
    "EG.C37_invalid_recorded_fails",
    "EG.C37_one_shot_iterator_fails",
    "EG.C37_any",
    "EG.C37_raises"
   ],
   "note": "C37_any and C37_raises say what a batch does for any ballots whatever, without restriction. Exact equality with one-by-one appends for new, valid, regular ballots; three _fails theorems show the conditions that are needed (ballot tallied before, invalid cast ballot, one-shot iterator)."
  },
  {
   "property": "C38",
   "status": "partial",
   "theorems": [
    "EG.C38_rejected_unchanged_partial",
    "EG.C38_history_partial",
    "EG.C38_sets_unchanged",
    "EG.C38_half_added_fails",
    "EG.C38_any_partial"
   ],
   "note": "Proved for regular ballots, and C38_any_partial says exactly when any ballot at all is accepted and what a rejected one leaves behind, assuming only that no selection has an empty id; C38_half_added_fails: a ballot with a foreign contest is rejected after part of it was added."
  },
  {
   "property": "C39",
   "status": "partial",
   "theorems": [
    "EG.C39_order_partial",
    "EG.C39_schedule",
    "EG.C39_any_partial"
   ],
   "note": "Order independence for ballots of any shape (C39_any_partial: distinct ids, no selection with an empty id), scheduling independence."
  },
  {
   "property": "C40",
   "status": "partial",
   "theorems": [
    "EG.C40_is_placeholder",
    "EG.C40_generation",
    "EG.C40_failure",
    "EG.C40_valid_partial",
    "EG.C40_negative_seats_fails",
    "EG.C40_internal_manifest_partial",
    "EG.C40_unique_ids_partial"
   ],
   "note": "Generation, its failure case and validity of the result; validity is proved for number_elected >= 0 (C40_negative_seats_fails: a negative number gives no placeholders and an invalid contest)."
  },
  {
   "property": "C41",
   "status": "partial",
   "theorems": [
    "EG.C41_iff_partial",
    "EG.C41_style_party_fails",
    "EG.C41_selection_candidate_fails",
    "EG.C41_selection_ids_not_unique_fails"
   ],
   "note": "is_valid is characterised exactly (ManifestOk); the three _fails theorems show referential checks the English claim expects but the code does not make (party ids of ballot styles, candidate ids of selections, selection ids across contests)."
  },
  {
   "property": "C42",
   "status": "partial",
   "theorems": [
    "EG.C42_candidate_binding_partial",
    "EG.C42_write_in_fails",
    "EG.C42_binding_partial",
    "EG.C42_contest_binding_partial",
    "EG.C42_selection_binding",
    "EG.C42_candidates_fails",
    "EG.C42_version_and_primary_fails",
    "EG.C42_ambiguous_text_fails"
   ],
   "note": "Binding of everything the hash covers, for text without the separator, up to an explicit collision; the _fails theorems show that candidates, spec version and primary party ids are not covered and that text with the separator is ambiguous."
  },
  {
   "property": "C43",
   "status": "proved",
   "theorems": [
    "EG.C43_published_only_if_complete",
    "EG.C43_failure_blocks",
    "EG.C43_honest_ceremony_publishes",
    "EG.C43_key_order_independent",
    "EG.C43_commitment_hash_order_fails",
    "EG.C43_reannouncement_fails"
   ],
   "note": "Full claim for every history of mediator calls, plus completeness of an honest ceremony and blocking by a failed verification; C43_reannouncement_fails and C43_commitment_hash_order_fails are findings."
  },
  {
   "property": "C44",
   "status": "partial",
   "theorems": [
    "EG.C44_every_pair_covered_partial",
    "EG.C44_fails"
   ],
   "note": "Proved when all messages name announced guardians; the mediator does not check that, and C44_fails is the witness."
  },
  {
   "property": "C45",
   "status": "partial",
   "theorems": [
    "EG.C45_none_before_announced_partial",
    "EG.C45_complete_shared_partial",
    "EG.C45_fails"
   ],
   "note": "None before all guardians announced, and the right list once every backup is there; in between the call returns an incomplete list or raises KeyError (C45_fails)."
  },
  {
   "property": "C46",
   "status": "partial",
   "theorems": [
    "EG.C46_challenge_partial",
    "EG.C46_failed_challenge_records_nothing",
    "EG.C46_honest_challenge_succeeds_partial",
    "EG.C46_fails"
   ],
   "note": "Proved relative to the commitments and order inside the challenge, which are not compared with the announced ones (C46_fails)."
  },
  {
   "property": "C47",
   "status": "partial",
   "theorems": [
    "EG.C47_key_pair",
    "EG.C47_no_coefficients_raises",
    "EG.C47_backup_decrypts",
    "EG.C47_honest_verified_partial",
    "EG.C47_verified_is_usable_partial",
    "EG.C47_garbled_backup_raises",
    "EG.C47_other_order_fails"
   ],
   "note": "Generation, transport and verification of honest backups, and usability of verified ones; powers of the sequence order below p, backup naming the order of the recipient (C47_other_order_fails is the witness without it)."
  },
  {
   "property": "C48",
   "status": "proved",
   "theorems": [
    "EG.C48_disjoint",
    "EG.C48_available_first",
    "EG.C48_announced_once",
    "EG.C48_missing",
    "EG.C48_complete_iff"
   ],
   "note": "Full claim for every history of calls."
  },
  {
   "property": "C49",
   "status": "proved",
   "theorems": [
    "EG.C49_all_shares_needed",
    "EG.C49_ballots",
    "EG.C49_missing_selection_share_fails",
    "EG.C49_same_guardian_id_fails"
   ],
   "note": "Full claim for every history of calls, for the tally and for ballots; the _fails theorems show that a share may leave out selections or name another guardian."
  },
  {
   "property": "C50",
   "status": "proved",
   "theorems": [
    "EG.C50_chain",
    "EG.C50_failed_call_ignored",
    "EG.C50_tamper_evident"
   ],
   "note": "Full claim: the chain for every session including failing calls, and equality of whole histories from equality of one code, up to a collision among the hashed texts."
  },
  {
   "property": "C51",
   "status": "partial",
   "theorems": [
    "EG.C51_tamper_evident_partial",
    "EG.C51_style_fails",
    "EG.C51_separator_fails"
   ],
   "note": "Binding of ballot id, manifest hash, contests, selections, description hashes and ciphertexts for ids without the separator, up to a collision among the hashed texts; C51_style_fails (style id not covered) and C51_separator_fails (separator in an id) are witnesses for what is missing."
  },
  {
   "property": "C52",
   "status": "partial",
   "theorems": [
    "EG.C52_expand",
    "EG.C52_round_trip_partial",
    "EG.C52_identity_partial",
    "EG.C52_write_in_fails",
    "EG.C52_style_ballot_fails",
    "EG.C52_order_fails"
   ],
   "note": "Exact description of what expanding does for every compact ballot (C52_expand); votes survive for ballots in the layout of the whole manifest, but write-in texts move one place (C52_write_in_fails) and ballots that list only their style or another order are refused or read wrongly."
  },
  {
   "property": "C53",
   "status": "partial",
   "theorems": [
    "EG.C53_round_trip_partial",
    "EG.C53_keeps",
    "EG.C53_same_but_data_partial",
    "EG.C53_write_in_fails"
   ],
   "note": "Exact re-creation of the submitted ballot for every nonce when there are no write-ins, and of everything but the contest data otherwise; C53_write_in_fails is the witness."
  },
  {
   "property": "C54",
   "status": "partial",
   "theorems": [
    "EG.C54_get_partial",
    "EG.C54_pop_partial",
    "EG.C54_iter_len_partial",
    "EG.C54_view_get_partial",
    "EG.C54_view_membership_fails",
    "EG.C54_view_membership_always_fails",
    "EG.C54_view_equality_fails"
   ],
   "note": "The store is a finite map for every history of operations; the read-only view returns stored values and lengths, but its membership test never terminates normally and its equality never holds (the _fails theorems)."
  },
  {
   "property": "C55",
   "status": "partial",
   "theorems": [
    "EG.C55_mismatch_partial",
    "EG.C55_classification_partial",
    "EG.C55_votes_allowed_fails",
    "EG.C55_is_valid",
    "EG.C55_selection"
   ],
   "note": "Exact classification of valid when votes are 0/1; C55_votes_allowed_fails documents the votes_allowed branch rejecting contests within the limits."
  },
  {
   "property": "C56",
   "status": "partial",
   "theorems": [
    "EG.C56_success_iff",
    "EG.C56_mismatch_iff",
    "EG.C56_sound_partial",
    "EG.C56_accepts_partial",
    "EG.C56_accepts_store_partial",
    "EG.C56_any_sound_partial",
    "EG.C56_any_accepts_partial"
   ],
   "note": "Success and mismatch are characterised exactly. Soundness (the totals are those of the cast ballots) and acceptance are proved for ballots with the layout the tally theorems need (CBallot.Regular), and no exception while adding; C56_any_sound_partial and C56_any_accepts_partial for ballots of any shape with distinct ids."
  },
  {
   "property": "C57",
   "status": "partial",
   "theorems": [
    "EG.C57_success_iff",
    "EG.C57_reconstructed_fails",
    "EG.C57_accepts_partial",
    "EG.C57_all_present_partial",
    "EG.C57_missing_guardian_fails"
   ],
   "note": "Success characterised exactly; accepted when all guardians are present. For every tally with a reconstructed share the verifier raises AttributeError (C57_reconstructed_fails), so the claim is false after decryption with a missing guardian (C57_missing_guardian_fails)."
  },
  {
   "property": "C58",
   "status": "partial",
   "theorems": [
    "EG.C58_sort",
    "EG.C58_list_eq",
    "EG.C58_contest_hash_partial",
    "EG.C58_new_ballot_hash_partial",
    "EG.C58_recomputed_ballot_hash_fails",
    "EG.C58_recomputed_ballot_hash_partial"
   ],
   "note": "sort and list_eq in full; hashes do not depend on storage order for contests and for new ballots; the recomputed ballot hash does depend on it (C58_recomputed_ballot_hash_fails)."
  },
  {
   "property": "C59",
   "status": "partial",
   "theorems": [
    "EG.C59_restored_partial",
    "EG.C59_restored_fields",
    "EG.C59_fails",
    "EG.C59_published_only_if_complete",
    "EG.C59_failed_verification_blocks",
    "EG.C59_same_key_as_mediator",
    "EG.C59_foreign_verification_fails"
   ],
   "note": "Restoring gives the same guardian for every history in which no foreign key was saved under its own id (C59_fails otherwise); publication only with all keys and all saved verifications successful; same key as the mediator."
  },
  {
   "property": "C60",
   "status": "partial",
   "theorems": [
    "EG.C60_election_partial"
   ],
   "note": "Whole election for any ballots, any quorum and any missing guardians: the reported numbers are the votes on the first cast ballot of each id. Partial: manifests in sequence order with selection ids distinct across contests, fewer counted ballots than the limit of the discrete logarithm, and (q-1)^2 < p."
  },
  {
   "property": "C61",
   "status": "proved",
   "theorems": [
    "EG.C61_selected_constants",
    "EG.C61_standard_generator",
    "EG.C61_standard_valid",
    "EG.C61_large_test_valid",
    "EG.C61_medium_test_valid",
    "EG.C61_extra_small_test_valid",
    "EG.C61_small_test_fails"
   ],
   "note": "Kernel computation on the literals of constants.py; primality of q is proved by a Pocklington certificate, primality of the 4096-bit p is not proved. C61_small_test_fails: the SMALL_TEST set is inconsistent."
  },
  {
   "property": "C62",
   "status": "proved",
   "theorems": [
    "EG.C62_alone",
    "EG.C62_state_iff",
    "EG.C62_complete_iff",
    "EG.C62_monotone"
   ],
   "note": "Full claim: exact characterisation of each state, of completion, and monotonicity."
  },
  {
   "property": "C63",
   "status": "partial",
   "theorems": [
    "EG.C63_shares_partial",
    "EG.C63_any_numbers_fails"
   ],
   "note": "Refuted in general: every accepted tally is still accepted with all numbers replaced and any shares dropped (C63_any_numbers_fails). Proved: a wrong share value needs a proof that hits one fixed challenge."
  },
  {
   "property": "C64",
   "status": "partial",
   "theorems": [
    "EG.C64_success_iff",
    "EG.C64_accepts_partial",
    "EG.C64_contest_order_fails"
   ],
   "note": "Exact characterisation of success for every ballot; acceptance of honest ballots for manifests listed in sequence order, C64_contest_order_fails otherwise."
  },
  {
   "property": "C65",
   "status": "partial",
   "theorems": [
    "EG.C65_full_ceremony_partial",
    "EG.C65_created_guardians",
    "EG.C65_failed_backup_partial",
    "EG.C65_empty_id_fails"
   ],
   "note": "Full ceremony for any team, including the guardians create_guardians makes. Partial: powers of the sequence orders below p, ids not empty (C65_empty_id_fails is the witness)."
  },
  {
   "property": "C66",
   "status": "partial",
   "theorems": [
    "EG.C66_compensated_setup_partial",
    "EG.C66_all_present_partial",
    "EG.C66_below_quorum",
    "EG.C66_ceremony_present"
   ],
   "note": "Compensated and full set-up, and the refusal below the quorum; C66_ceremony_present joins it to C65. Partial: the encrypted numbers are in reach of the discrete logarithm, contests of the tally are in the manifest, ids are distinct (Decryptable)."
  },
  {
   "property": "C67",
   "status": "proved",
   "theorems": [
    "EG.C67_build_result",
    "EG.C67_build_outcome",
    "EG.C67_extended_hash_binds"
   ],
   "note": "Outcome, contents and binding for every sequence of setter calls."
  },
  {
   "property": "C68",
   "status": "partial",
   "theorems": [
    "EG.C68_whole_election_partial"
   ],
   "note": "Composition of C65, C67, C28, C33, C35, C37, C66. Partial: manifests in sequence order with selection ids distinct across contests, at most maxE counted ballots, (q-1)^2 < p, powers of sequence orders below p; the JSON reader reads what the writer wrote."
  },
  {
   "property": "C69",
   "status": "partial",
   "theorems": [
    "EG.C69_stored_iff",
    "EG.C69_duplicate_iff",
    "EG.C69_refused_changes_nothing",
    "EG.C69_sequence",
    "EG.C69_append_only",
    "EG.C69_first_of_each_id",
    "EG.C69_sum_ballots_partial",
    "EG.C69_drive",
    "EG.C69_all_read_partial",
    "EG.C69_only_stored",
    "EG.C69_ending_skipped",
    "EG.C69_uploads_tally_partial",
    "EG.C69_newline_fails",
    "EG.C69_one_ballot_blocks_fails",
    "EG.C69_clients_hold",
    "EG.C69_repeated_ballots_partial",
    "EG.C69_unproved_fails",
    "EG.C69_race_fails"
   ],
   "note": "Storing, duplicates, order, counters, reading and tally for every sequence of uploads. Partial: files end with a closing brace, the database answers one of three attempts, ballots are properly encrypted; the _fails theorems are witnesses for what happens otherwise."
  },
  {
   "property": "C70",
   "status": "partial",
   "theorems": [
    "EG.C70_completed_sound_partial",
    "EG.C70_decryption_completes_partial",
    "EG.C70_status",
    "EG.C70_late_ballot_fails",
    "EG.C70_late_spoiled_fails",
    "EG.C70_joined_twice_fails",
    "EG.C70_join_offered",
    "EG.C70_status_forward"
   ],
   "note": "Safety for every interleaving (invariant over an event machine), completion composed with C69 and C60. Partial: collisions among the listed proof texts excluded, tallies decryptable (proved for properly encrypted ballots), no upload after the first guardian joined; the _fails theorems are witnesses for what happens otherwise."
  },
  {
   "property": "C71",
   "status": "partial",
   "theorems": [
    "EG.C71_join_offered",
    "EG.C71_offered_once",
    "EG.C71_published_sound_partial",
    "EG.C71_joint_key_stable_partial",
    "EG.C71_files_hold_own_key_only",
    "EG.C71_completes_partial",
    "EG.C71_extra_guardian_blocks",
    "EG.C71_looking_keeps",
    "EG.C71_rejoined_fails",
    "EG.C71_two_sessions_fails"
   ],
   "note": "Safety for every interleaving (invariant over an event machine), completion by refinement to a four-phase machine. Partial: no user joins twice (C71_rejoined_fails is the witness for what happens otherwise), user ids are not empty; completion needs that the calls do not overlap from the announcement on (C71_two_sessions_fails) and powers of the guardian numbers below p (C10)."
  },
  {
   "property": "C72",
   "status": "partial",
   "theorems": [
    "EG.C72_created_iff",
    "EG.C72_refused_changes_nothing",
    "EG.C72_created",
    "EG.C72_elections_kept",
    "EG.C72_names_unique",
    "EG.C72_package_partial",
    "EG.C72_records_without_commitments_fails",
    "EG.C72_team_partial",
    "EG.C72_gui_election_partial",
    "EG.C72_gui_sound_partial",
    "EG.C72_late_joiner_fails",
    "EG.C72_package_overwritten",
    "EG.C72_package_overwritten_fails"
   ],
   "note": "Composition of C71, C67, C69 and C70 through the guardian records of the created election. Partial: no user joins the ceremony twice and nobody but its guardians joins it (C72_late_joiner_fails is the witness for what happens otherwise), the restrictions of C70 and C71; the package is that of the election while no second election is made from the same ceremony (C72_package_overwritten says what happens otherwise); the guardian records have no commitments (C72_records_without_commitments_fails)."
  },
  {
   "property": "C73",
   "status": "partial",
   "theorems": [
    "EG.C73_election_name",
    "EG.C73_candidate_name",
    "EG.C73_tally_from_manifest",
    "EG.C73_ballot_from_manifest",
    "EG.C73_print_returns",
    "EG.C73_printed_partial",
    "EG.C73_report_partial",
    "EG.C73_report_unknown_candidate",
    "EG.C73_unnamed_fails",
    "EG.C73_unknown_candidate_fails",
    "EG.C73_shared_selection_fails"
   ],
   "note": "Partial: the names are right if no two contests have a selection with the same id (C73_shared_selection_fails is the witness for what happens otherwise, with a manifest that is accepted as valid); the report of the GUI needs a candidate for every selection, which the check of the manifest does not look at (C73_unknown_candidate_fails); a name without texts raises (C73_unnamed_fails). Percentages are exact fractions instead of floating point numbers."
  },
  {
   "property": "C74",
   "status": "partial",
   "theorems": [
    "EG.C74_e2e_sound_partial",
    "EG.C74_e2e_returns_iff_partial",
    "EG.C74_no_output_record_fails"
   ],
   "note": "Partial: manifests in sequence order with distinct selection ids, ballots of styles that have a contest, at most maxE cast ballots, (q-1)^2 < p, powers of the guardian orders below p (as in C60 and C65). C74_no_output_record_fails: without --output-record the command raises after printing and the keys are not written."
  },
  {
   "property": "C75",
   "status": "partial",
   "theorems": [
    "EG.C75_pipeline_partial",
    "EG.C75_resubmit_fails",
    "EG.C75_submit",
    "EG.C75_import_needs_all_guardians",
    "EG.C75_encrypt",
    "EG.C75_device_file_fails",
    "EG.C75_two_runs_fails",
    "EG.C75_duplicate_id_fails"
   ],
   "note": "Partial: as C74, with distinct ballot ids, none of them \"device\", and all guardians present (the code needs them: C75_import_needs_all_guardians). Findings: C75_device_file_fails (the directory that encrypt-ballots writes cannot be given to submit-ballots), C75_duplicate_id_fails (a ballot is lost when two have the same id), C75_two_runs_fails (a second run of submit-ballots can spoil a cast ballot), C75_resubmit_fails (the files of a first run of submit-ballots, even of spoiled ballots, are accepted by a second run, divided anew, and counted so)."
  },
  {
   "property": "C76",
   "status": "partial",
   "theorems": [
    "EG.C76_e2e_record_partial",
    "EG.C76_import_record_partial",
    "EG.C76_audit_sound_partial",
    "EG.C76_right_share_not_lucky",
    "EG.C76_last_wins",
    "EG.C76_export_keeps",
    "EG.C76_same_device_fails",
    "EG.C76_published_tally_fails"
   ],
   "note": "Partial: the records are those of C74 and C75 with their restrictions; C76_audit_sound_partial needs ballots without a contest twice, with contests of their style only, and without real selections marked as placeholders, which the verifiers do not check (the records of C74 and C75 have such ballots: Publishes.regular). Findings: C76_same_device_fails (of two devices with the same id one is lost), C76_published_tally_fails (verify_aggregation does not accept the published tally as it is in the record)."
  },
  {
   "property": "C77",
   "status": "partial",
   "theorems": [
    "EG.C77_shows_votes_partial",
    "EG.C77_votes_unique",
    "EG.C77_exact_number",
    "EG.C77_seats",
    "EG.C77_right_selection_not_lucky",
    "EG.C77_right_contest_not_lucky"
   ],
   "note": "Partial: ballots without a contest twice, with contests of their style only, and without real selections marked as placeholders, which the verifiers do not check; (q-1)^2 < p for the limit, true of the standard parameters; what a proof of a contest states is not compared with the seats by the verifiers (C31), so C77_seats has it as a hypothesis."
  },
  {
   "property": "C78",
   "status": "partial",
   "theorems": [
    "EG.C78_gui_record_partial",
    "EG.C78_gui_election_record_partial",
    "EG.C78_only_completed",
    "EG.C78_commitments_fails",
    "EG.C78_late_ballot_fails"
   ],
   "note": "Partial: nobody joined the ceremony twice or too late, no ballot is uploaded after the first guardian joined the decryption. C78_late_ballot_fails: ballots uploaded after the decryption get into the record, which then fails the check of the aggregation. C78_commitments_fails: no record of the GUI passes the whole audit, since its guardian records have no commitments."
  },
  {
   "property": "C79",
   "status": "partial",
   "theorems": [
    "EG.C79_ballots",
    "EG.C79_keys",
    "EG.C79_record",
    "EG.C79_manifest_partial",
    "EG.C79_primary_parties_fails",
    "EG.C79_list",
    "EG.C79_injective",
    "EG.C79_text",
    "EG.C79_encrypted",
    "EG.C79_contest_data",
    "EG.C79_coordinate"
   ],
   "note": "Partial: a manifest loses the primary party ids of its contests when it is read back (C79_primary_parties_fails), everything else about it is read back, its hash is the same. CiphertextTally is not modelled: its sets cannot be read back."
  },
  {
   "property": "C80",
   "status": "proved",
   "theorems": [
    "EG.C80_padded_coordinate",
    "EG.C80_ballot",
    "EG.C80_keys",
    "EG.C80_record",
    "EG.C80_fields"
   ],
   "note": "The classes are those of C79; numbers with a fraction are refused where a class has an integer, booleans are read as the integers they are equal to."
  },
  {
   "property": "C81",
   "status": "partial",
   "theorems": [
    "EG.C81_gui_texts_partial"
   ],
   "note": "Partial: as C78. Nothing about reading or writing texts is assumed; the database and the files of the private records keep values."
  },
  {
   "property": "C82",
   "status": "partial",
   "theorems": [
    "EG.C82_zero_prover",
    "EG.C82_one_prover",
    "EG.C82_const_prover",
    "EG.C82_share_prover",
    "EG.C82_key_prover",
    "EG.C82_zero_reveals_nothing",
    "EG.C82_one_reveals_nothing_partial",
    "EG.C82_const_reveals_nothing",
    "EG.C82_share_reveals_nothing",
    "EG.C82_key_reveals_nothing",
    "EG.C82_simulated_accepted",
    "EG.C82_simulated_const_accepted_partial",
    "EG.C82_simulated_share_accepted",
    "EG.C82_simulated_key_accepted",
    "EG.C82_zero_half_reveals_fails",
    "EG.C82_zero_half_happens"
   ],
   "note": "Partial: honest verifier, the challenge is independent of the commitment and the random numbers are uniform; the code derives both from hashes. The prover for 1 raises for one value of its random numbers, so the claim is false for proofs with proof_zero_challenge 0: such a proof shows that the plaintext is 0 (C82_zero_half_reveals_fails, C82_zero_half_happens); it has probability 1/q. C82_simulated_const_accepted_partial needs (q-1)^2 < p."
  },
  {
   "property": "C83",
   "status": "partial",
   "theorems": [
    "EG.C83_pages_partial",
    "EG.C83_election_pages_partial",
    "EG.C83_not_completed",
    "EG.C83_other_ballot",
    "EG.C83_only_results",
    "EG.C83_late_uploads"
   ],
   "note": "Partial: as C70 and C78, and for manifests whose selections all have a candidate (C73_unknown_candidate_fails otherwise). The names of the election and the decryption, which the pages show as well, are left out; the order of contests and rows is not claimed."
  },
  {
   "property": "C84",
   "status": "partial",
   "theorems": [
    "EG.C84_shares",
    "EG.C84_computed",
    "EG.C84_refines",
    "EG.C84_stored",
    "EG.C84_record_partial",
    "EG.C84_export",
    "EG.C84_gui_audit_partial"
   ],
   "note": "C84_refines, C84_stored, C84_shares and C84_computed are without restrictions. Partial: a record is read back if its manifest has no lists of primary parties (such lists are not read back, C79_primary_parties_fails; a manifest that was itself read from a text has none); C84_gui_audit_partial has the restrictions of C78.  The texts of the key ceremony are C85."
  },
  {
   "property": "C85",
   "status": "partial",
   "theorems": [
    "EG.C85_dicts",
    "EG.C85_usage_fails",
    "EG.C85_refines",
    "EG.C85_stored",
    "EG.C85_election",
    "EG.C85_gui_texts_partial"
   ],
   "note": "C85_dicts, C85_refines, C85_stored and C85_election are without restrictions apart from random numbers in range, which the code draws so. Partial: C85_gui_texts_partial has the restrictions of C78."
  },
  {
   "property": "C86",
   "status": "partial",
   "theorems": [
    "EG.C86_setup",
    "EG.C86_setup_read",
    "EG.C86_encrypt",
    "EG.C86_encrypt_read",
    "EG.C86_submit",
    "EG.C86_submit_none",
    "EG.C86_paths",
    "EG.C86_submit_read",
    "EG.C86_import",
    "EG.C86_import_read",
    "EG.C86_e2e",
    "EG.C86_e2e_read",
    "EG.C86_pipeline_partial"
   ],
   "note": "The refinements C86_setup, C86_encrypt, C86_submit, C86_import and C86_e2e and the readings back are without restrictions apart from random numbers in range, which the code draws so. Partial: C86_pipeline_partial has the restrictions of C75. Ids are taken to be usable in file names, and the zip archive around the record is left out."
  },
  {
   "property": "C87",
   "status": "partial",
   "theorems": [
    "EG.C87_contest",
    "EG.C87_any_contest_partial",
    "EG.C87_no_seats_fails",
    "EG.C87_ballots",
    "EG.C87_any_ballots_partial",
    "EG.C87_returns_partial",
    "EG.C87_no_style",
    "EG.C87_fake_ballot",
    "EG.C87_encryptable_partial",
    "EG.C87_votes_allowed_fails",
    "EG.C87_sum",
    "EG.C87_command",
    "EG.C87_files",
    "EG.C87_pipeline_partial"
   ],
   "note": "C87_contest, C87_ballots, C87_no_style, C87_command, C87_files, C87_sum and C87_fake_ballot are without restrictions. Partial: C87_any_contest_partial, C87_any_ballots_partial and C87_returns_partial leave out contests without seats where undervotes but no null votes are allowed, for which the factory raises (C87_no_seats_fails); C87_encryptable_partial and C87_pipeline_partial leave out contests that allow more votes than there are seats, whose marked ballots are never encrypted (C87_votes_allowed_fails), negative sequence orders and nonces that are 0, and have the restrictions of C75. The numbers that random draws are arguments; shuffle and randint are modelled as in the standard library, with the drawn number taken modulo the size of the range."
  },
  {
   "property": "C88",
   "status": "partial",
   "theorems": [
    "EG.C88_audit_sound_partial",
    "EG.C88_shows_votes_partial",
    "EG.C88_votes_unique",
    "EG.C88_recovered_share",
    "EG.C88_right_part_not_lucky",
    "EG.C88_all_present",
    "EG.C88_whole_election_partial",
    "EG.C88_shipped_verifier_fails"
   ],
   "note": "C88_recovered_share, C88_votes_unique, C88_right_part_not_lucky, C88_all_present and C88_shipped_verifier_fails are without restrictions. Partial: C88_audit_sound_partial and C88_shows_votes_partial have the restrictions of C76 and C77 (what the shipped ballot verifier does not check is assumed); C88_whole_election_partial those of C68, and ballots with distinct ids. The audit is a specification: no code in the repository checks recovered shares (C88_shipped_verifier_fails)."
  },
  {
   "property": "C89",
   "status": "partial",
   "theorems": [
    "EG.C89_sound_partial",
    "EG.C89_returns_iff_partial",
    "EG.C89_rate_bounds",
    "EG.C89_parted",
    "EG.C89_spoil_rate_fails",
    "EG.C89_votes",
    "EG.C89_invalid_manifest",
    "EG.C89_public_same"
   ],
   "note": "C89_rate_bounds, C89_parted, C89_votes, C89_invalid_manifest and C89_public_same are without restrictions; C89_spoil_rate_fails shows that the rate is not a percentage. Partial: C89_sound_partial and C89_returns_iff_partial have the restrictions of C74 and C87 (manifests that are ready, small counts, usable nonces, no contest without seats or with more votes allowed than seats)."
  },
  {
   "property": "C90",
   "status": "partial",
   "theorems": [
    "EG.C90_election_list",
    "EG.C90_ends",
    "EG.C90_refused",
    "EG.C90_decryption_iff",
    "EG.C90_ceremony_iff",
    "EG.C90_election_iff",
    "EG.C90_added",
    "EG.C90_alone",
    "EG.C90_own_decryptions",
    "EG.C90_listed",
    "EG.C90_suggested_number",
    "EG.C90_pages",
    "EG.C90_names_partial",
    "EG.C90_suggested_inj",
    "EG.C90_suggestion_partial",
    "EG.C90_names_fails",
    "EG.C90_ballots_fails",
    "EG.C90_suggestion_stuck",
    "EG.C90_suggestion_fails"
   ],
   "note": "C90_ends, C90_refused, C90_decryption_iff, C90_ceremony_iff, C90_election_iff, C90_added, C90_alone, C90_own_decryptions, C90_listed, C90_suggested_number, C90_pages, C90_suggested_inj and C90_suggestion_stuck are without restrictions. Partial: C90_names_partial and C90_suggestion_partial are for calls that do not overlap (and, the second, for decryptions that all have suggested names); C90_names_fails, C90_suggestion_fails and C90_ballots_fails show that these restrictions are needed."
  },
  {
   "property": "C91",
   "status": "partial",
   "theorems": [
    "EG.C91_reports",
    "EG.C91_catches_up",
    "EG.C91_over",
    "EG.C91_stop_partial",
    "EG.C91_start_fails",
    "EG.C91_stop_fails",
    "EG.C91_late_stop_fails"
   ],
   "note": "C91_reports, C91_catches_up and C91_over hold for all interleavings. Partial: C91_stop_partial is for the case that no other page opens; C91_stop_fails, C91_late_stop_fails and C91_start_fails show what goes wrong."
  },
  {
   "property": "C92",
   "status": "proved",
   "theorems": [
    "EG.C92_standard_sizes",
    "EG.C92_test_sizes",
    "EG.C92_selected",
    "EG.C92_constant_complete",
    "EG.C92_constant_sound",
    "EG.C92_share_accepted",
    "EG.C92_share_iff",
    "EG.C92_test_share_fails",
    "EG.C92_logarithm",
    "EG.C92_whole_election",
    "EG.C92_e2e_sound"
   ],
   "note": "C05, C06, C10, C11, C26, C68 and C74 without their conditions on the sizes of the group, which are checked in the kernel. That the 4096-bit p is prime is a hypothesis (its primality is not proved here, see C61); for the test constants nothing is assumed. C92_test_share_fails is about the test constants only."
  },
  {
   "property": "C93",
   "status": "partial",
   "theorems": [
    "EG.C93_scan_ok",
    "EG.C93_scan_first",
    "EG.C93_scan_none",
    "EG.C93_refines",
    "EG.C93_success_iff",
    "EG.C93_stored",
    "EG.C93_nothing",
    "EG.C93_retry",
    "EG.C93_order",
    "EG.C93_tally_partial",
    "EG.C93_other_drive_fails",
    "EG.C93_shown_fails",
    "EG.C93_failed_run_stores_fails"
   ],
   "note": "The readers of files (JSON) are parameters, as in C69. C93_tally_partial has the hypotheses of C69_uploads_tally_partial (texts end with }, the database answers within three tries). C93_other_drive_fails, C93_shown_fails and C93_failed_run_stores_fails record the three findings."
  },
  {
   "property": "C94",
   "status": "partial",
   "theorems": [
    "EG.C94_plaintext_equivalence",
    "EG.C94_ciphertext_equivalence",
    "EG.C94_submitted_equivalence",
    "EG.C94_manifest_equivalence",
    "EG.C94_plaintext_votes",
    "EG.C94_plaintext_reorder",
    "EG.C94_plaintext_contest_votes_partial",
    "EG.C94_plaintext_fails",
    "EG.C94_ciphertext_iff",
    "EG.C94_ciphertext_valid_partial",
    "EG.C94_ciphertext_fails",
    "EG.C94_manifest_determines",
    "EG.C94_manifest_hash_partial",
    "EG.C94_manifest_fails"
   ],
   "note": "C94_plaintext_contest_votes_partial needs selection ids that occur in one contest only; C94_ciphertext_valid_partial the same accumulations and extended data; C94_manifest_hash_partial the same listing. C94_plaintext_fails, C94_ciphertext_fails and C94_manifest_fails show what goes wrong without."
  },
  {
   "property": "C95",
   "status": "proved",
   "theorems": [
    "EG.C95_rand_q",
    "EG.C95_range",
    "EG.C95_range_running",
    "EG.C95_range_never",
    "EG.C95_start_zero_fails",
    "EG.C95_uniform",
    "EG.C95_keypair",
    "EG.C95_guardian_key_fails"
   ],
   "note": "Draws of secrets.randbelow are an explicit list. C95_start_zero_fails and C95_guardian_key_fails record the findings."
  },
  {
   "property": "C96",
   "status": "proved",
   "theorems": [
    "EG.C96_calendar",
    "EG.C96_gregorian",
    "EG.C96_ticks",
    "EG.C96_epoch_fails",
    "EG.C96_iso",
    "EG.C96_iso_exists",
    "EG.C96_naive_fails",
    "EG.C96_new_ballot_time",
    "EG.C96_submitted_time_fails"
   ],
   "note": "The zone of the machine is a fixed offset. C96_epoch_fails, C96_naive_fails and C96_submitted_time_fails record the findings."
  },
  {
   "property": "C97",
   "status": "partial",
   "theorems": [
    "EG.C97_accumulate",
    "EG.C97_order",
    "EG.C97_ballot",
    "EG.C97_expected_partial",
    "EG.C97_overvote_fails"
   ],
   "note": "C97_expected_partial is for well marked ballots; C97_overvote_fails shows that overvotes break it."
  },
  {
   "property": "C98",
   "status": "partial",
   "theorems": [
    "EG.C98_compare",
    "EG.C98_negation",
    "EG.C98_symmetric",
    "EG.C98_transitive_partial",
    "EG.C98_hash",
    "EG.C98_mpz_fails",
    "EG.C98_order_fails",
    "EG.C98_total_partial",
    "EG.C98_text",
    "EG.C98_dict",
    "EG.C98_dict_text_fails",
    "EG.C98_sorted"
   ],
   "note": "C98_compare, C98_negation, C98_symmetric, C98_hash, C98_text and C98_sorted are without restrictions. Partial: C98_transitive_partial leaves out mpz values and C98_total_partial is for elements and ints; C98_mpz_fails, C98_order_fails and C98_dict_text_fails show what happens otherwise."
  },
  {
   "property": "C99",
   "status": "proved",
   "theorems": [
    "EG.C99_stage",
    "EG.C99_anonymous",
    "EG.C99_refines",
    "EG.C99_roles",
    "EG.C99_start",
    "EG.C99_admin_joins_fails",
    "EG.C99_two_names_fails"
   ],
   "note": "Invariant over the event machine and refinement to the machine of C71, without restrictions. Findings: C99_admin_joins_fails (the join call does not check the role that the page checks), C99_two_names_fails (one program can be all guardians), C99_anonymous (an administrator that is not logged in gets an exception from a check that only concerns guardians, and cannot share backups or publish)."
  },
  {
   "property": "C100",
   "status": "proved",
   "theorems": [
    "EG.C100_one",
    "EG.C100_private",
    "EG.C100_bound"
   ],
   "note": "An exact reduction by a hybrid argument over the list of votes; C100_bound is the usual form. That nonces derived by hashing are as good as random ones, and that decisional Diffie-Hellman is hard in the group, are outside of the model; the proofs that accompany the ciphertexts are the subject of C82."
  },
  {
   "property": "C101",
   "status": "proved",
   "theorems": [
    "EG.C101_known",
    "EG.C101_simulated"
   ],
   "note": "For one guardian against all others, any shares. The challenge of the proof is independent of the commitment, as in C82."
  },
  {
   "property": "C102",
   "status": "proved",
   "theorems": [
    "EG.C102_simulated",
    "EG.C102_ballot_private"
   ],
   "note": "Composition of C100 with the simulators of C82 through the whole ballot, by induction over selections and contests. As in C82 random numbers are drawn and challenges given (the code derives both by hashing), and proofs whose half of the challenge for zero is 0 are left out (C82_zero_half_reveals_fails: they show the vote). Encrypted contest data (write-ins, overvotes) and the texts of the ballot are not part of what is observed."
  },
  {
   "property": "C103",
   "status": "proved",
   "theorems": [
    "EG.C103_simulated",
    "EG.C103_coalition_private",
    "EG.C103_bound",
    "EG.C103_guardian",
    "EG.C103_joint_key",
    "EG.C103_share"
   ],
   "note": "C103_simulated is an exact simulation (Newton interpolation in the exponent makes the commitments; C82, C101 and C102 the rest), C103_coalition_private and C103_bound the reduction; C103_guardian, C103_joint_key and C103_share tie the definitions to the modelled functions. As in C82 random numbers are drawn and challenges given. Not part of what the coalition sees: the encrypted backups of the honest guardian for others, and encrypted contest data; the keys of the coalition have known secrets, as their proofs of knowledge ask."
  },
  {
   "property": "C104",
   "status": "proved",
   "theorems": [
    "EG.C104_one",
    "EG.C104_private",
    "EG.C104_bound",
    "EG.C104_contest_data",
    "EG.C104_backup_bytes",
    "EG.C104_backups",
    "EG.C104_ballots"
   ],
   "note": "C104_one and C104_private are exact (DDH step, key stream step, one-time pad); C104_bound the usual form; C104_contest_data, C104_backups and C104_ballots apply them to what the code encrypts. Nonces are drawn independently, as in C100. That the derived key stream looks random is an assumption about HMAC-SHA-256 and stays in the statement as the advantage in an explicit game."
  },
  {
   "property": "C105",
   "status": "proved",
   "theorems": [
    "EG.C105_hashed",
    "EG.C105_vote_prover",
    "EG.C105_limit_prover",
    "EG.C105_games",
    "EG.C105_private",
    "EG.C105_bound"
   ],
   "note": "C105_hashed, C105_vote_prover and C105_limit_prover tie the game to the provers of the code; C105_games compares hashed with given challenges; C105_private and C105_bound are the reduction with the explicit error. The hash function is a random function (an idealisation of SHA-256, in the statement); nonces and random numbers of the provers are drawn independently instead of derived from a seed."
  },
  {
   "property": "C106",
   "status": "partial",
   "theorems": [
    "EG.C106_ballots_standard",
    "EG.C106_ballots_partial",
    "EG.C106_votes",
    "EG.C106_shares",
    "EG.C106_sums_partial",
    "EG.C106_free_constant_fails"
   ],
   "note": "C106_votes, C106_shares hold in every valid group; C106_ballots_partial and C106_sums_partial need (q-1)^2 < p, which the shipped constants have, because of the finding C06_medium_group_fails. C106_free_constant_fails shows that the constant must be fixed before the hash. The hash function is a random function (an idealisation of SHA-256, in the statement)."
  },
  {
   "property": "C107",
   "status": "partial",
   "theorems": [
    "EG.C107_key_pair",
    "EG.C107_key_pair_nonce",
    "EG.C107_backups",
    "EG.C107_backups_received",
    "EG.C107_challenge",
    "EG.C107_verdict",
    "EG.C107_honest_partial"
   ],
   "note": "C107_honest_partial needs the powers of the order to be below p (C10_large_power_fails). all_election_partial_key_backups_received looks only at the number of different owners (C107_backups_received), and a key pair made from a nonce has the coefficients nonce, nonce+1, ... (C107_key_pair_nonce)."
  },
  {
   "property": "C108",
   "status": "proved",
   "theorems": [
    "EG.C108_backups",
    "EG.C108_verdicts",
    "EG.C108_state",
    "EG.C108_announced",
    "EG.C108_shared"
   ],
   "note": "Exact (if and only if) statements for every history of calls. That complete numbers need not mean complete pairs is the finding C44_fails; that share_backups does not wait for all backups is the finding C45_fails."
  },
  {
   "property": "C109",
   "status": "proved",
   "theorems": [
    "EG.C109_secret",
    "EG.C109_vote",
    "EG.C109_secret_standard",
    "EG.C109_vote_standard"
   ],
   "note": "Forking by one replaced hash value, with exact counting. The hash function is a random function (an idealisation of SHA-256, in the statement), hashes are asked for through the program only; the program is deterministic, its random choices are part of it. Primality of the standard p is a hypothesis of the two _standard theorems."
  },
  {
   "property": "C110",
   "status": "proved",
   "theorems": [
    "EG.C110_tally_share",
    "EG.C110_tally_share_stays",
    "EG.C110_early_reconstruction_fails",
    "EG.C110_ballot_share",
    "EG.C110_tally_compensation",
    "EG.C110_ballot_compensation"
   ],
   "note": "Exact for every history. What a reconstruction computes from the compensations is C15 and C16. C110_early_reconstruction_fails is the finding: the second reconstruction, with all compensations, keeps the wrong share of the first."
  },
  {
   "property": "C111",
   "status": "partial",
   "theorems": [
    "EG.C111_result_partial",
    "EG.C111_quorum_partial",
    "EG.C111_standard"
   ],
   "note": "Partial in the sense of C77 and C88: (q-1)^2 < p, and a record whose ballots and dicts have the regular form (Regular, WFContests), which the shipped verifiers do not check. The audit is that of C77/C88, which uses the shipped verifiers where there is one. The limits must be checked by the auditor because verify_ballot does not compare the constant of the proof with the manifest and the constant is not hashed (C106_free_constant_fails)."
  },
  {
   "property": "C112",
   "status": "proved",
   "theorems": [
    "EG.C112_opens_iff",
    "EG.C112_constructed",
    "EG.C112_entered",
    "EG.C112_closed",
    "EG.C112_with",
    "EG.C112_half_made",
    "EG.C112_tally_schedule",
    "EG.C112_pool_size",
    "EG.C112_abandoned_fails",
    "EG.C112_leak_fails",
    "EG.C112_swallowed_fails"
   ],
   "note": "Garbage collection and the end of the process are not modelled: abandoned worker processes end with the garbage collection of their pool or with the program. The pools themselves (multiprocessing) are trusted to run the tasks. The negative theorems hold after every history."
  },
  {
   "property": "C113",
   "status": "partial",
   "theorems": [
    "EG.C113_fresh_partial",
    "EG.C113_kept_partial",
    "EG.C113_first",
    "EG.C113_none_yet",
    "EG.C113_get_instance_fails",
    "EG.C113_two_schedulers_fails",
    "EG.C113_settings_fails",
    "EG.C113_small_group_fails"
   ],
   "note": "Partial: the limit of the class (10^8) must be below q, as for C26; C113_small_group_fails shows what happens otherwise. The other statements need no condition."
  },
  {
   "property": "C114",
   "status": "partial",
   "theorems": [
    "EG.C114_same_result_partial",
    "EG.C114_result_partial",
    "EG.C114_forger_partial",
    "EG.C114_standard"
   ],
   "note": "Partial as C77, C88 and C111: (q-1)^2 < p and records of regular form, which the shipped verifiers do not check. Without the exception for lucky proofs the claim is false: forged_contradicts and the example after it show two audited records of the same ballots with different results."
  },
  {
   "property": "C115",
   "status": "partial",
   "theorems": [
    "EG.C115_public",
    "EG.C115_submitted",
    "EG.C115_same",
    "EG.C115_session",
    "EG.C115_no_votes_partial",
    "EG.C115_refused",
    "EG.C115_vote_logged_fails"
   ],
   "note": "Partial because a vote other than 0 or 1 is written to the log with its selection (C115_vote_logged_fails). The messages are modelled by the values they insert, for encryption without verification of the proofs (the default). HMAC results have 32 bytes."
  },
  {
   "property": "C116",
   "status": "partial",
   "theorems": [
    "EG.C116_silent_partial",
    "EG.C116_warns",
    "EG.C116_secret_key_fails",
    "EG.C116_coordinate_fails"
   ],
   "note": "Partial: that the key stays out of the log holds only while the scheduler runs and the tasks return (C116_silent_partial); otherwise the opposite is proved for all inputs (C116_secret_key_fails, C116_coordinate_fails). The texts of selections, context and polynomial are arbitrary."
  },
  {
   "property": "C117",
   "status": "partial",
   "theorems": [
    "EG.C117_once",
    "EG.C117_added",
    "EG.C117_levels",
    "EG.C117_level_partial",
    "EG.C117_second_level_fails",
    "EG.C117_gui",
    "EG.C117_stderr"
   ],
   "note": "Partial because set_stream_log_level always removes the first handler: set twice, the old level stays in force (C117_second_level_fails). The standard library is modelled from its documentation; handlers of the root logger are left out."
  },
  {
   "property": "C118",
   "status": "proved",
   "theorems": [
    "EG.C118_valid_iff",
    "EG.C118_manifest",
    "EG.C118_nothing",
    "EG.C118_any_shape",
    "EG.C118_room",
    "EG.C118_contest",
    "EG.C118_ballot",
    "EG.C118_election",
    "EG.C118_repeated"
   ],
   "note": "What hypothesis draws is an argument; that uuids differ and have the same length is a hypothesis, and C118_valid_iff shows that the first is needed."
  },
  {
   "property": "C119",
   "status": "partial",
   "theorems": [
    "EG.C119_appends",
    "EG.C119_new",
    "EG.C119_grows",
    "EG.C119_batch_partial",
    "EG.C119_batch_valid",
    "EG.C119_votes",
    "EG.C119_cast_spoil",
    "EG.C119_invalid_fails"
   ],
   "note": "Partial because batch_append records the ids of all cast ballots of the batch, also of those it refused (C119_invalid_fails); C119_batch_partial says exactly what is counted then. C119_votes needs regular ballots as C35 does."
  },
  {
   "property": "C120",
   "status": "partial",
   "theorems": [
    "EG.C120_spaces_partial",
    "EG.C120_adjacent_fails",
    "EG.C120_letters",
    "EG.C120_same_name"
   ],
   "note": "Partial because of names with adjacent capital letters, \"ABCProof\" becomes \"A BC Proof\" (C120_adjacent_fails); C120_spaces_partial is an equivalence. The characters that match the word class of the regular expression are a parameter."
  },
  {
   "property": "C121",
   "status": "partial",
   "theorems": [
    "EG.C121_selection",
    "EG.C121_selection_valid",
    "EG.C121_poorly_formed_fails",
    "EG.C121_random_selection",
    "EG.C121_contest_partial",
    "EG.C121_repeated_fails",
    "EG.C121_fake_ballot_partial",
    "EG.C121_fake_ballot_blank",
    "EG.C121_one_contest_fails",
    "EG.C121_fake_ballot_encrypts"
   ],
   "note": "Partial because the same address may be drawn twice (C121_repeated_fails), because a manifest with one contest has no fake ballot (C121_one_contest_fails), and because get_selection_poorly_formed draws well-formed selections (C121_poorly_formed_fails)."
  },
  {
   "property": "C122",
   "status": "partial",
   "theorems": [
    "EG.C122_archive_partial",
    "EG.C122_archive_place",
    "EG.C122_elsewhere_fails",
    "EG.C122_offered",
    "EG.C122_places"
   ],
   "note": "Partial because a place that is not a zip file is not where the archive goes (C122_elsewhere_fails); C122_archive_place says where it goes. Windows is left out."
  },
  {
   "property": "C123",
   "status": "proved",
   "theorems": [
    "EG.C123_shown",
    "EG.C123_same",
    "EG.C123_raises",
    "EG.C123_put_back_fails",
    "EG.C123_zone_fails"
   ],
   "note": "The offset of the machine at the time shown is a parameter; month names are those of the C locale; the branch for Windows is left out. C123_zone_fails and C123_put_back_fails are findings."
  }
 ]
}
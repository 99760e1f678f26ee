{"id": "C01", "title": "ElGamal decryption inverts encryption", "statement": "For every key pair made by elgamal_keypair_from_secret, every non-zero nonce and every message m below the group order q (and not above the discrete-log limit), elgamal_encrypt returns a ciphertext, and decrypting it with the secret key, with the nonce and public key, or with the known product pad^secret all return exactly m; encrypting with nonce 0 returns None.", "quantifier": "all valid group parameters (p,q,g), secret keys, nonces and messages", "why_tests_cant": "the message, key and nonce spaces have about 2^256 points each; tests sample a handful", "anchors": ["src/electionguard/elgamal.py: elgamal_encrypt, elgamal_keypair_from_secret, ElGamalCiphertext.decrypt, decrypt_known_nonce, decrypt_known_product, partial_decrypt"]}
{"id": "C02", "title": "Homomorphic addition decrypts to the sum", "statement": "elgamal_add of any non-empty list of ciphertexts that encrypt m1..mn under one key is a ciphertext whose decryption is m1+...+mn, and equals the encryption of the sum under the sum of the nonces; the result does not depend on the order of the arguments.", "quantifier": "all lists of ciphertexts of any length, all keys, nonces, messages with total below q and the discrete-log limit", "why_tests_cant": "lists are unbounded and values range over a 256-bit group", "anchors": ["src/electionguard/elgamal.py: elgamal_add", "src/electionguard/group.py: mult_p, add_q"]}
{"id": "C03", "title": "Honest 0/1 selection proofs always verify", "statement": "For every ciphertext made by elgamal_encrypt of a plaintext 0 or 1, the proof returned by make_disjunctive_chaum_pedersen is accepted by DisjunctiveChaumPedersenProof.is_valid for the same message, key and header.", "quantifier": "all parameters, keys in the subgroup, nonces, seeds, headers and hash functions", "why_tests_cant": "failure could hide at a single seed value out of 2^256", "anchors": ["src/electionguard/chaum_pedersen.py: make_disjunctive_chaum_pedersen, make_disjunctive_chaum_pedersen_zero, make_disjunctive_chaum_pedersen_one, DisjunctiveChaumPedersenProof.is_valid"]}
{"id": "C04", "title": "A selection that is not 0 or 1 cannot be proved", "statement": "If a ciphertext encrypts a value other than 0 and 1 (mod q) then, for each choice of the proof's commitments, at most one challenge value exists for which any responses are accepted; hence two accepting proofs with the same commitments and different challenges prove that the plaintext is 0 or 1.", "quantifier": "all ciphertexts, keys in the subgroup, commitments, challenges and responses an adversary may choose", "why_tests_cant": "quantifies over every adversarial proof, not over proofs made by the library", "anchors": ["src/electionguard/chaum_pedersen.py: DisjunctiveChaumPedersenProof.is_valid"]}
{"id": "C05", "title": "Honest contest-limit proofs always verify", "statement": "For every ciphertext made by encrypting a constant L, the proof returned by make_constant_chaum_pedersen for L is accepted by ConstantChaumPedersenProof.is_valid.", "quantifier": "all parameters, keys, nonces, constants, seeds, headers and hash functions", "why_tests_cant": "the exponent arithmetic in the verifier depends on the relative sizes of p, q, the challenge and the constant", "anchors": ["src/electionguard/chaum_pedersen.py: make_constant_chaum_pedersen, ConstantChaumPedersenProof.is_valid"]}
{"id": "C06", "title": "A wrong contest total cannot be proved", "statement": "If a ciphertext does not encrypt the constant L stated in the proof then, for each choice of commitments, at most one challenge can be answered.", "quantifier": "all ciphertexts, keys, constants, commitments, challenges and responses", "why_tests_cant": "adversarial quantification", "anchors": ["src/electionguard/chaum_pedersen.py: ConstantChaumPedersenProof.is_valid"]}
{"id": "C07", "title": "Honest decryption-share proofs always verify", "statement": "For every secret key s and ciphertext in the subgroup, the partial decryption pad^s with the proof of make_chaum_pedersen is accepted by ChaumPedersenProof.is_valid against the public key g^s, so that a guardian's share computation for a selection never returns None.", "quantifier": "all keys, ciphertexts, seeds, headers and hash functions", "why_tests_cant": "256-bit input spaces", "anchors": ["src/electionguard/chaum_pedersen.py: make_chaum_pedersen, ChaumPedersenProof.is_valid", "src/electionguard/decryption.py: partially_decrypt, compute_decryption_share_for_selection"]}
{"id": "C08", "title": "A wrong decryption share cannot be proved", "statement": "If a share m differs from pad^s where the public key is g^s then, for each choice of commitments, at most one challenge can be answered; two accepting transcripts with one commitment imply the share is correct.", "quantifier": "all ciphertexts, keys, shares, commitments, challenges, responses", "why_tests_cant": "adversarial quantification", "anchors": ["src/electionguard/chaum_pedersen.py: ChaumPedersenProof.is_valid"]}
{"id": "C09", "title": "Schnorr proofs: complete and extractable", "statement": "make_schnorr_proof of any key pair is accepted by SchnorrProof.is_valid; and two accepting proofs with equal commitment and different challenges determine a discrete logarithm of the public key.", "quantifier": "all key pairs, nonces, hash functions and adversarial proofs", "why_tests_cant": "adversarial and 256-bit quantification", "anchors": ["src/electionguard/schnorr.py: make_schnorr_proof, SchnorrProof.is_valid"]}
{"id": "C10", "title": "Honest key backups verify", "statement": "The coordinate a guardian computes for another guardian's sequence order is accepted by verify_polynomial_coordinate against the commitments the guardian published.", "quantifier": "all polynomials of any degree, all sequence orders and parameters", "why_tests_cant": "depends on exponent sizes: holds for small x and k used in tests, but must hold for every sequence order and quorum", "anchors": ["src/electionguard/election_polynomial.py: compute_polynomial_coordinate, verify_polynomial_coordinate, generate_polynomial"]}
{"id": "C11", "title": "An accepted backup is the committed point", "statement": "If verify_polynomial_coordinate accepts a coordinate for a sequence order against commitments to coefficients, the coordinate is the value of that polynomial at that sequence order; in particular no two different coordinates are accepted, and the recovery public key computed for the pair is g to that coordinate.", "quantifier": "all commitments, coordinates and sequence orders", "why_tests_cant": "adversarial quantification over every false coordinate", "anchors": ["src/electionguard/election_polynomial.py: verify_polynomial_coordinate", "src/electionguard/decryption.py: compute_recovery_public_key"]}
{"id": "C12", "title": "Lagrange reconstruction", "statement": "For any polynomial of degree below k and any k or more guardians with distinct sequence orders (mod q, non-zero), combining the coordinates with compute_lagrange_coefficient gives the polynomial's constant term, and combining compensated partial decryptions in the exponent gives exactly the partial decryption the missing guardian would have produced.", "quantifier": "all polynomials, quorums, guardian subsets, ciphertexts", "why_tests_cant": "subsets and degrees are unbounded", "anchors": ["src/electionguard/election_polynomial.py: compute_lagrange_coefficient", "src/electionguard/decryption.py: compute_lagrange_coefficients_for_guardians, reconstruct_decryption_contest"]}
{"id": "C13", "title": "Fewer than quorum coordinates reveal nothing about the key", "statement": "For any k-1 coordinates with distinct non-zero sequence orders and any candidate secret, there is exactly one polynomial of degree below k consistent with all of them, so k-1 coordinates are consistent with every secret key.", "quantifier": "all sets of k-1 coordinates and all candidate secrets", "why_tests_cant": "an information-theoretic statement over all polynomials", "anchors": ["src/electionguard/election_polynomial.py: compute_polynomial_coordinate, generate_polynomial"]}
{"id": "C14", "title": "All guardians together decrypt correctly", "statement": "When the shares of all guardians whose keys make up the joint key are combined by decrypt_selection_with_decryption_shares, the result is a plaintext selection whose tally is the encrypted value; no honest set of shares is rejected.", "quantifier": "any number of guardians, any keys, ciphertexts and messages below q and the discrete-log limit", "why_tests_cant": "unbounded number of guardians", "anchors": ["src/electionguard/decrypt_with_shares.py: decrypt_selection_with_decryption_shares", "src/electionguard/key_ceremony.py: combine_election_public_keys", "src/electionguard/decryption.py: compute_decryption_share_for_selection"]}
{"id": "C15", "title": "A quorum decrypts correctly with guardians missing", "statement": "When any guardians are missing but at least k are available and all of them provide compensated shares, reconstruct_shares_for_tally followed by get_plaintext_tally yields the same tally as if no guardian were missing.", "quantifier": "any n, any k<=n, any set of at least k available guardians, any keys and tallies", "why_tests_cant": "exponentially many subsets and unbounded n", "anchors": ["src/electionguard/decryption_mediator.py: reconstruct_shares_for_tally, get_plaintext_tally", "src/electionguard/decryption.py: reconstruct_decryption_share"]}
{"id": "C16", "title": "Incomplete compensated shares are not used", "statement": "The decryption mediator never returns a plaintext tally computed from a reconstructed share to which some available guardian did not contribute.", "quantifier": "all sequences of mediator operations", "why_tests_cant": "depends on which messages were lost; every subset of messages must be considered", "anchors": ["src/electionguard/decryption_mediator.py: reconstruct_shares_for_tally, _filter_by_missing_guardian", "src/electionguard/decryption.py: reconstruct_decryption_contest"]}
{"id": "C17", "title": "A plaintext tally requires shares under the announced keys", "statement": "get_plaintext_tally only accepts a guardian's share if its proof verifies against the public key under which that guardian announced.", "quantifier": "all announced keys and adversarial shares", "why_tests_cant": "adversarial quantification", "anchors": ["src/electionguard/decryption_mediator.py: announce, get_plaintext_tally", "src/electionguard/decrypt_with_shares.py: decrypt_selection_with_decryption_shares"]}
{"id": "C18", "title": "Hashed ElGamal round trip", "statement": "HashedElGamalCiphertext.decrypt with the matching secret key and seed returns the (zero-padded) message that hashed_elgamal_encrypt was given.", "quantifier": "all messages of every length, keys, nonces, seeds, and every hash and MAC function", "why_tests_cant": "depends on message length and on leading zero bytes of the ciphertext, which tests hit with probability 1/256 or never", "anchors": ["src/electionguard/elgamal.py: hashed_elgamal_encrypt, HashedElGamalCiphertext.decrypt, _get_chunks", "src/electionguard/hmac.py: get_hmac", "src/electionguard/big_integer.py: bytes_to_hex"]}
{"id": "C19", "title": "Hashed ElGamal authenticates what it returns", "statement": "HashedElGamalCiphertext.decrypt returns bytes only if the ciphertext's MAC equals the MAC of its pad and data under the derived key; with any other MAC value it returns None.", "quantifier": "all ciphertexts, keys and seeds", "why_tests_cant": "adversarial quantification over modified ciphertexts", "anchors": ["src/electionguard/elgamal.py: HashedElGamalCiphertext.decrypt"]}
{"id": "C20", "title": "Byte padding round trip", "statement": "remove_padding(add_padding(m)) is m for every message that fits, add_padding always yields exactly the block size, raises TruncationError for longer messages unless truncation is allowed, and then returns the longest prefix.", "quantifier": "all byte strings of every length and every block size", "why_tests_cant": "all lengths and contents", "anchors": ["src/electionguard/byte_padding.py: add_padding, remove_padding, to_padded_bytes"]}
{"id": "C21", "title": "Hash input encoding is unambiguous", "statement": "Two different argument lists given to hash_elems never produce the same string to be hashed, so a collision would be a SHA-256 collision.", "quantifier": "all argument lists, nested to any depth", "why_tests_cant": "collisions are between pairs of inputs; tests check a few pairs", "anchors": ["src/electionguard/hash.py: hash_elems"]}
{"id": "C22", "title": "Nonce sequences are deterministic, consistent and separated by headers", "statement": "For a Nonces sequence, indexing, slicing and get_with_headers agree with each other for every index, negative indices and open slices raise TypeError, two sequences agree as soon as seed and headers agree, and a nonce determines its index and seed up to a hash collision.", "quantifier": "all seeds, header lists, indices and slices", "why_tests_cant": "unbounded index range", "anchors": ["src/electionguard/nonces.py: Nonces.__getitem__, get_with_headers"]}
{"id": "C23", "title": "Hex codec of numbers round trips", "statement": "hex_to_q/hex_to_p of to_hex of any in-range element returns that element, to_hex always has even length, and values outside the range are rejected with None.", "quantifier": "all integers and hex strings", "why_tests_cant": "infinite range; edge cases at leading zeros and at the bounds", "anchors": ["src/electionguard/big_integer.py: _hex_to_int, _int_to_hex, bytes_to_hex, BigInteger.to_hex", "src/electionguard/group.py: hex_to_q, hex_to_p, int_to_q, int_to_p"]}
{"id": "C24", "title": "Group arithmetic is field arithmetic", "statement": "add_q, a_minus_b_q, negate_q, mult_q, div_q, pow_q, a_plus_bc_q, mult_p, div_p, mult_inv_p, pow_p, g_pow_p return in-range elements equal to the field operation they name, for every in-range argument; division and inversion by zero raise.", "quantifier": "all in-range arguments and argument lists", "why_tests_cant": "256/4096-bit operands; boundary values such as 0", "anchors": ["src/electionguard/group.py: add_q, a_minus_b_q, negate_q, mult_q, div_q, pow_q, a_plus_bc_q, mult_p, div_p, mult_inv_p, pow_p, g_pow_p"]}
{"id": "C25", "title": "Valid residues are exactly the subgroup generated by g", "statement": "is_valid_residue holds for an element exactly when it is a power of g, and the subgroup is closed under mult_p, pow_p and mult_inv_p.", "quantifier": "all elements and parameters", "why_tests_cant": "p has 2^4096 elements", "anchors": ["src/electionguard/group.py: ElementModP.is_valid_residue, mult_p, pow_p"]}
{"id": "C26", "title": "Discrete logs are correct whatever was computed before", "statement": "After any sequence of discrete_log and precompute calls, discrete_log(g^m) returns m for every m up to the limit, and raises for elements whose exponent exceeds the limit; previous calls, including failing ones, never change an answer.", "quantifier": "all histories of calls and all m", "why_tests_cant": "depends on the shared cache left by an arbitrary history", "anchors": ["src/electionguard/discrete_log.py: compute_discrete_log, compute_discrete_log_cache, precompute_discrete_log_cache, DiscreteLog"]}
{"id": "C27", "title": "Concurrent discrete-log lookups are safe", "statement": "Any interleaving of asynchronous discrete-log lookups by any number of tasks leaves the cache correct and gives each task the correct exponent.", "quantifier": "all interleavings and numbers of tasks", "why_tests_cant": "schedules are not enumerated by tests", "anchors": ["src/electionguard/discrete_log.py: compute_discrete_log_async, _discrete_log_mutex"]}
{"id": "C28", "title": "Encrypting a ballot yields a ballot that verifies", "statement": "For every well-formed manifest and plaintext ballot, encrypt_ballot returns a ciphertext ballot accepted by is_valid_encryption against the manifest hash, key and extended base hash.", "quantifier": "all manifests, ballots (including undervoted, overvoted and blank contests), keys, nonces and hash functions", "why_tests_cant": "combinatorial ballots and random nonces; order of contests in the manifest matters", "anchors": ["src/electionguard/encrypt.py: encrypt_ballot, encrypt_contest, encrypt_selection", "src/electionguard/ballot.py: CiphertextBallot.is_valid_encryption, make_ciphertext_ballot, crypto_hash_with"]}
{"id": "C29", "title": "Contest encryption preserves the votes and fills with placeholders", "statement": "In an encrypted contest every selection of the contest description and every placeholder occurs exactly once, real selections encrypt the voter's vote (all zero for an overvote), every selection encrypts 0 or 1, and the total including placeholders is number_elected.", "quantifier": "all contest descriptions and plaintext contests", "why_tests_cant": "all vote combinations, omitted selections and limits", "anchors": ["src/electionguard/encrypt.py: encrypt_contest, contest_from, selection_from", "src/electionguard/manifest.py: ContestDescriptionWithPlaceholders"]}
{"id": "C30", "title": "Decrypting a ballot with nonce or secret returns the votes", "statement": "decrypt_ballot_with_nonce and decrypt_ballot_with_secret applied to the result of encrypt_ballot return, for every contest and selection, the votes that were encrypted, with placeholders removed.", "quantifier": "all manifests, ballots, keys and nonces", "why_tests_cant": "combinatorial and 256-bit quantification", "anchors": ["src/electionguard/decrypt_with_secrets.py: decrypt_ballot_with_nonce, decrypt_ballot_with_secret, decrypt_contest_with_nonce, decrypt_selection_with_nonce"]}
{"id": "C31", "title": "An accepted ballot respects the contest limit", "statement": "If a ballot is accepted by ballot_is_valid_for_election, then in each contest of the election the total of its encrypted selections equals the contest's number_elected, each contest is voted at most once, and only contests of its style are voted.", "quantifier": "all ballots, including ones made by a malicious client with valid proofs", "why_tests_cant": "adversarial quantification over ballots", "anchors": ["src/electionguard/ballot_validator.py: ballot_is_valid_for_election, ballot_is_valid_for_style, contest_is_valid_for_style", "src/electionguard/ballot.py: CiphertextBallotContest.is_valid_encryption"]}
{"id": "C32", "title": "The validator accepts exactly the matching structure", "statement": "ballot_is_valid_for_style returns True only if every contest of the style and every selection of these contests is present on the ballot with the manifest's description hash and the right number of selections.", "quantifier": "all ballots and manifests", "why_tests_cant": "all structural mismatches", "anchors": ["src/electionguard/ballot_validator.py: ballot_is_valid_for_style, contest_is_valid_for_style, selection_is_valid_for_style"]}
{"id": "C33", "title": "Ballot box accepts each ballot id at most once and never changes it", "statement": "Over any sequence of cast and spoil calls, a ballot id is accepted at most once, the stored ballot and its cast/spoiled state never change afterwards, only valid ballots are stored, and a rejected call changes nothing.", "quantifier": "all sequences of cast/spoil calls", "why_tests_cant": "histories are unbounded", "anchors": ["src/electionguard/ballot_box.py: submit_ballot_to_box, BallotBox.cast, BallotBox.spoil", "src/electionguard/data_store.py: DataStore"]}
{"id": "C34", "title": "A submitted ballot carries no nonces and keeps the encryption", "statement": "Submitting a ballot returns a ballot with no ballot nonce, contest nonce or selection nonce, with the same id, contests, ciphertexts, proofs and code, and in the requested state; submitting preserves validity.", "quantifier": "all ballots and states", "why_tests_cant": "every position where a nonce may survive", "anchors": ["src/electionguard/ballot.py: make_ciphertext_submitted_ballot", "src/electionguard/ballot_box.py: submit_ballot"]}
{"id": "C35", "title": "Tally equals the sum of accepted cast ballots", "statement": "After any sequence of append calls, each selection of the ciphertext tally is the product of that selection's ciphertexts over the accepted cast ballots, so it decrypts to the number of votes cast; spoiled and rejected ballots contribute nothing; every accepted ballot is counted once.", "quantifier": "all sequences of ballots appended", "why_tests_cant": "unbounded histories", "anchors": ["src/electionguard/tally.py: CiphertextTally.append, _add_cast, _add_spoiled, CiphertextTallyContest.accumulate_contest"]}
{"id": "C36", "title": "Appending the same ballot twice has no effect", "statement": "After a ballot id was accepted by append, any further append of a ballot with this id returns False and leaves the tally unchanged, whatever was appended in between.", "quantifier": "all histories of appends", "why_tests_cant": "unbounded histories", "anchors": ["src/electionguard/tally.py: CiphertextTally.append, __contains__"]}
{"id": "C37", "title": "Batch append equals appending one by one", "statement": "batch_append of a collection gives the same tally and the same cast and spoiled sets as appending its ballots one by one, including when some ballots were tallied before.", "quantifier": "all tallies and batches", "why_tests_cant": "depends on history and overlap between batches", "anchors": ["src/electionguard/tally.py: CiphertextTally.batch_append, _execute_accumulate, __contains__"]}
{"id": "C38", "title": "A rejected append leaves the tally unchanged", "statement": "If append returns False, no selection total and no cast or spoiled set has changed.", "quantifier": "all tallies and ballots", "why_tests_cant": "failure points in the middle of a ballot", "anchors": ["src/electionguard/tally.py: CiphertextTally._add_cast, append, CiphertextTallyContest.accumulate_contest"]}
{"id": "C39", "title": "Tally is independent of order and schedule", "statement": "Any permutation of the same accepted ballots, and any order in which the scheduler runs the per-selection accumulations, yields the same ciphertext tally.", "quantifier": "all permutations and schedules", "why_tests_cant": "factorially many schedules", "anchors": ["src/electionguard/tally.py: accumulate_contest, _accumulate_selections, _execute_accumulate", "src/electionguard/scheduler.py: Scheduler.schedule"]}
{"id": "C40", "title": "Placeholders generated for a contest", "statement": "For every valid contest the internal manifest contains number_elected placeholders, whose sequence orders are distinct and follow all real ones, and the resulting contest description is valid; generation fails only for a contest without selections.", "quantifier": "all contest descriptions", "why_tests_cant": "all sequence-order layouts", "anchors": ["src/electionguard/manifest.py: InternalManifest._generate_contests_with_placeholders, generate_placeholder_selections_from, ContestDescriptionWithPlaceholders.is_valid"]}
{"id": "C41", "title": "A valid manifest has referential integrity", "statement": "Manifest.is_valid returns True exactly when all ids and sequence orders are unique and every referenced geopolitical unit and party exists and every contest is valid.", "quantifier": "all manifests", "why_tests_cant": "combinatorial; includes early exit from the style loop", "anchors": ["src/electionguard/manifest.py: Manifest.is_valid, ContestDescription.is_valid"]}
{"id": "C42", "title": "The manifest hash binds the manifest", "statement": "Two manifests with the same crypto_hash have the same content, up to a hash collision.", "quantifier": "all pairs of manifests", "why_tests_cant": "pairs of inputs", "anchors": ["src/electionguard/manifest.py: Manifest.crypto_hash, Candidate.crypto_hash"]}
{"id": "C43", "title": "Joint key is published only after a complete, verified ceremony", "statement": "publish_joint_key returns a key only if the expected number of guardians announced, all backups were received and all verifications were received and successful; the key is then the product of the announced keys.", "quantifier": "all sequences of mediator operations", "why_tests_cant": "unbounded histories of messages", "anchors": ["src/electionguard/key_ceremony_mediator.py: publish_joint_key, get_verification_state, all_backups_available, all_guardians_announced", "src/electionguard/key_ceremony.py: combine_election_public_keys"]}
{"id": "C44", "title": "A complete ceremony covers every ordered pair of guardians", "statement": "When the mediator reports all backups verified, for every ordered pair of distinct announced guardians there is a backup and a successful verification.", "quantifier": "all sequences of mediator operations", "why_tests_cant": "the code only counts messages; coverage is a pigeonhole argument for all n", "anchors": ["src/electionguard/key_ceremony_mediator.py: _all_election_partial_key_backups_available, _all_election_partial_key_verifications_received"]}
{"id": "C45", "title": "Backups are shared only when complete", "statement": "share_backups returns None until all backups are available, and never raises.", "quantifier": "all sequences of mediator operations", "why_tests_cant": "all partial states", "anchors": ["src/electionguard/key_ceremony_mediator.py: share_backups"]}
{"id": "C46", "title": "A challenge is judged against the published commitments", "statement": "verify_challenge records a successful verification only if the revealed value lies on the polynomial whose commitments the challenged guardian announced.", "quantifier": "all announced keys and challenges", "why_tests_cant": "adversarial quantification", "anchors": ["src/electionguard/key_ceremony_mediator.py: verify_challenge", "src/electionguard/key_ceremony.py: verify_election_partial_key_challenge"]}
{"id": "C47", "title": "A backup reaches its recipient intact", "statement": "The backup a guardian generates for another guardian decrypts, by the recipient, to the coordinate of the sender's polynomial at the recipient's sequence order, and the recipient's verification of an honest backup is True.", "quantifier": "all guardians, polynomials, ids, sequence orders, nonces, hash and MAC functions", "why_tests_cant": "256-bit input space and byte-level encoding edge cases", "anchors": ["src/electionguard/key_ceremony.py: generate_election_partial_key_backup, verify_election_partial_key_backup, get_backup_seed", "src/electionguard/decryption.py: decrypt_backup"]}
{"id": "C48", "title": "Decryption mediator bookkeeping", "statement": "Over any sequence of announcements no guardian is both available and missing, a second announcement by a guardian changes nothing, and announcement_complete holds exactly when at least quorum guardians are available and available plus missing equals the number of guardians.", "quantifier": "all sequences of mediator operations", "why_tests_cant": "unbounded histories", "anchors": ["src/electionguard/decryption_mediator.py: announce, announce_missing, validate_missing_guardians, announcement_complete"]}
{"id": "C49", "title": "No tally without all shares", "statement": "get_plaintext_tally returns None unless the announcement is complete and there is exactly one share per guardian of the election.", "quantifier": "all sequences of mediator operations", "why_tests_cant": "unbounded histories", "anchors": ["src/electionguard/decryption_mediator.py: get_plaintext_tally, _ready_to_decrypt"]}
{"id": "C50", "title": "Ballot codes form a tamper-evident chain", "statement": "The encryption mediator gives every ballot a code that is the hash of the previous ballot's code, its timestamp and its hash, starting from the device hash; changing, removing or reordering any ballot changes every later code up to a hash collision; a failed encryption does not advance the chain.", "quantifier": "all sequences of ballots", "why_tests_cant": "unbounded chains", "anchors": ["src/electionguard/encrypt.py: EncryptionMediator.encrypt", "src/electionguard/ballot_code.py: get_ballot_code, get_hash_for_device"]}
{"id": "C51", "title": "The ballot hash detects tampering", "statement": "If a valid ballot's ciphertexts, ids or description hashes are changed, is_valid_encryption with the same ballot hash returns False, up to a hash collision.", "quantifier": "all ballots and modifications", "why_tests_cant": "adversarial quantification", "anchors": ["src/electionguard/ballot.py: CiphertextBallot.is_valid_encryption, CiphertextBallotContest.crypto_hash_with, CiphertextBallotSelection.crypto_hash_with"]}
{"id": "C52", "title": "Compact plaintext ballots round trip", "statement": "Expanding a compressed plaintext ballot returns the votes and write-ins of the original ballot.", "quantifier": "all manifests and ballots", "why_tests_cant": "index arithmetic over all selections", "anchors": ["src/electionguard/ballot_compact.py: compress_plaintext_ballot, expand_compact_plaintext_ballot, _get_compact_write_ins, _get_plaintext_contests"]}
{"id": "C53", "title": "Compact submitted ballots round trip", "statement": "Expanding a compressed submitted ballot re-creates a submitted ballot with the same ciphertexts, hash, code and state as the original.", "quantifier": "all manifests, ballots and nonces", "why_tests_cant": "re-encryption must be bit-identical for every input", "anchors": ["src/electionguard/ballot_compact.py: compress_submitted_ballot, expand_compact_submitted_ballot"]}
{"id": "C54", "title": "Data store is a map", "statement": "DataStore behaves as a finite map under any sequence of set, get, pop and clear; the read-only view returns what was stored, reports membership and length correctly and can be compared.", "quantifier": "all sequences of operations", "why_tests_cant": "unbounded histories", "anchors": ["src/electionguard/data_store.py: DataStore, ReadOnlyDataStore"]}
{"id": "C55", "title": "Plaintext contest validation classifies correctly", "statement": "PlaintextBallotContest.valid accepts exactly the contests whose votes are within the limits and otherwise raises the exception naming the case: null vote, under vote or over vote.", "quantifier": "all contests and descriptions", "why_tests_cant": "all combinations of votes and limits", "anchors": ["src/electionguard/ballot.py: PlaintextBallotContest.valid, is_valid"]}
{"id": "C56", "title": "Aggregation verifier is sound and complete", "statement": "verify_aggregation returns success exactly when re-tallying the submitted ballots gives the published tally's totals, cast ids and spoiled ids.", "quantifier": "all ballot lists and tallies", "why_tests_cant": "unbounded lists", "anchors": ["src/electionguard_verify/verify.py: verify_aggregation"]}
{"id": "C57", "title": "Decryption verifier accepts every honest decryption", "statement": "verify_decryption returns success for every tally produced by the decryption mediator from honest guardians, whether or not guardians were missing.", "quantifier": "all elections and sets of missing guardians", "why_tests_cant": "subsets of guardians", "anchors": ["src/electionguard_verify/verify.py: verify_decryption"]}
{"id": "C58", "title": "Set-like list equality and sequence sorting", "statement": "sequence_order_sort returns a stable sorted permutation of its input; list_eq of two lists with distinct ids holds exactly when they contain the same objects; contest and ballot hashes therefore do not depend on the order in which selections with distinct sequence orders are stored.", "quantifier": "all lists", "why_tests_cant": "all permutations", "anchors": ["src/electionguard/election_object_base.py: sequence_order_sort, list_eq", "src/electionguard/ballot.py: _ciphertext_ballot_context_crypto_hash, create_ballot_hash"]}
{"id": "C59", "title": "Guardian state survives export and import", "statement": "Creating a guardian from the private record another guardian exported yields a guardian with the same keys, backups and verifications; a guardian publishes the joint key only if it holds all keys and all verifications succeeded.", "quantifier": "all guardian states", "why_tests_cant": "all histories of received messages", "anchors": ["src/electionguard/guardian.py: Guardian.export_private_data, from_private_record, publish_joint_key, all_election_partial_key_backups_verified"]}
{"id": "C60", "title": "Whole-election correctness", "statement": "If plaintext ballots are encrypted, submitted, cast or spoiled, tallied, and the tally is decrypted by an available quorum after an honest key ceremony, the plaintext tally reports for each selection exactly the number of votes on the cast ballots.", "quantifier": "all elections: manifests, ballots, guardians, quorums, missing subsets, nonces and orders", "why_tests_cant": "the full composition cannot be sampled meaningfully", "anchors": ["src/electionguard/encrypt.py", "src/electionguard/ballot_box.py", "src/electionguard/tally.py", "src/electionguard/decryption_mediator.py", "src/electionguard/decrypt_with_shares.py"]}
{"id": "C61", "title": "Election constants are consistent", "statement": "For each published constant set q divides p-1 with the stated cofactor, the generator lies in the subgroup of order q and is not 1.", "quantifier": "all constant sets, hence all elections run with them", "why_tests_cant": "a single arithmetic fact about 4096-bit numbers on which every other property rests", "anchors": ["src/electionguard/constants.py: STANDARD_CONSTANTS, EXTRA_SMALL_TEST_CONSTANTS, SMALL_TEST_CONSTANTS, MEDIUM_TEST_CONSTANTS, LARGE_TEST_CONSTANTS"]}
{"id": "C62", "title": "Key-ceremony state shown to users follows the data", "statement": "The key-ceremony state service returns Complete only when all guardians joined, backups and verifications reached the expected numbers and the joint key exists, and adding data never moves the ceremony back to an earlier state.", "quantifier": "all ceremony records", "why_tests_cant": "all combinations of counters", "anchors": ["src/electionguard_gui/services/key_ceremony_state_service.py: get_key_ceremony_state"]}
{"id": "C63", "title": "Decryption verifier is sound", "statement": "If verify_decryption returns success for a plaintext tally, every reported number is the decryption of the selection's ciphertext under the joint key of the given guardians.", "quantifier": "all plaintext tallies, honest or forged", "why_tests_cant": "adversarial quantification: the test suite only feeds the verifier tallies the library made", "anchors": ["src/electionguard_verify/verify.py: verify_decryption"]}
{"id": "C64", "title": "Ballot verifier accepts exactly valid ballots", "statement": "verify_ballot returns success exactly for ballots that name the manifest's hash, have the hash of their own contents and valid proofs for every selection and contest under the election key; every ballot encrypt_ballot returned is accepted.", "quantifier": "all ballots, manifests and contexts", "why_tests_cant": "all ballots, including forged ones", "anchors": ["src/electionguard_verify/verify.py: verify_ballot"]}
{"id": "C65", "title": "A key ceremony run to the end equips every guardian", "statement": "CeremonyOrchestrator.perform_full_ceremony on guardians that generated their own keys raises no exception; afterwards every guardian holds the public keys of all, holds from every other guardian a backup that it decrypts to that guardian's polynomial at its own sequence order, and the mediator publishes the product of all public keys.  The guardians of create_guardians qualify.  When one guardian reports a failed backup the mediator publishes no key.", "quantifier": "all numbers of guardians, quorums, random numbers and nonces", "why_tests_cant": "the ceremony is a three-round protocol between n stateful guardians and a mediator; a test runs one size with one set of random numbers", "anchors": ["src/electionguard_tools/helpers/key_ceremony_orchestrator.py: KeyCeremonyOrchestrator", "src/electionguard/guardian.py: Guardian", "src/electionguard/key_ceremony_mediator.py: KeyCeremonyMediator"]}
{"id": "C66", "title": "A tally ceremony with a quorum of guardians decrypts the tally and the spoiled ballots", "statement": "TallyCeremonyOrchestrator.perform_compensated_decryption_setup with at least the quorum of guardians that came out of a key ceremony raises no exception, and the mediator's get_plaintext_tally and get_plaintext_ballots then give the encrypted numbers of the tally and of every given ballot, with nobody's secret key but their own.  perform_decryption_setup does so when all are present.  With fewer guardians than the quorum the mediator gives no tally and no ballots.", "quantifier": "all numbers of guardians and quorums, all choices of the present guardians, all tallies and lists of ballots, all random numbers", "why_tests_cant": "the claim joins backups, compensation and Lagrange interpolation over every subset of guardians; a test runs a few subsets of one small team", "anchors": ["src/electionguard_tools/helpers/tally_ceremony_orchestrator.py: TallyCeremonyOrchestrator", "src/electionguard/decryption_mediator.py: DecryptionMediator", "src/electionguard/guardian.py: Guardian"]}
{"id": "C67", "title": "The election builder gives a context exactly for a valid manifest with key and commitment hash", "statement": "ElectionBuilder.build returns None exactly when the manifest is not well formed or no key was set, raises exactly when only the commitment hash is missing, and otherwise returns the internal manifest of the manifest with a context that has the given numbers, the last key and commitment hash set and the hash of the manifest.  The extended base hash of the context binds number of guardians, quorum, manifest hash and commitment hash.", "quantifier": "all manifests, all sequences of setter calls, all hash functions (up to a collision among the hashed texts)", "why_tests_cant": "all orders and repetitions of the setters, and injectivity of what is hashed", "anchors": ["src/electionguard_tools/helpers/election_builder.py: ElectionBuilder", "src/electionguard/election.py: make_ciphertext_election_context"]}
{"id": "C68", "title": "A whole election: from the guardians' random numbers to the published results", "statement": "create_guardians, perform_full_ceremony, ElectionBuilder.build, encrypt_ballot, BallotBox, tally_ballots, perform_compensated_decryption_setup, get_plaintext_tally and get_plaintext_ballots, run one after the other, raise no exception; the tally reports for every selection of the manifest the votes of the ballots cast first under their id, and every spoiled ballot is reported with the votes of its voter, whichever guardians take part as long as they are at least the quorum; fewer get no tally and no ballots.", "quantifier": "all numbers of guardians and quorums, manifests, ballots, choices of present guardians, random numbers", "why_tests_cant": "joins every module of the library; a test runs one small election", "anchors": ["src/electionguard_tools/helpers/key_ceremony_orchestrator.py", "src/electionguard_tools/helpers/election_builder.py", "src/electionguard/encrypt.py: encrypt_ballot", "src/electionguard/ballot_box.py: BallotBox", "src/electionguard/tally.py: tally_ballots", "src/electionguard_tools/helpers/tally_ceremony_orchestrator.py", "src/electionguard/decryption_mediator.py: DecryptionMediator"]}
{"id": "C69", "title": "The tally of uploaded ballots is the tally of the ballots that were uploaded, each once", "statement": "upload_ballot stores a ballot exactly if it carries the manifest hash of the election and the election holds no ballot with its id; a refused upload changes nothing; stored ballots are never removed or replaced.  After any sequence of uploads an election holds the first ballot of each id, sum_ballots is their number, get_ballots returns them all, and get_tally of them decrypts to the votes of the cast ones.  Clients that upload at the same time, files with white space at the end, ballots without proofs and ballots of unknown style are accepted, with the effects shown.", "quantifier": "all databases, all sequences of uploads and drives, all interleavings of check and insert of several clients, all failures of the database connection", "why_tests_cant": "all orders, repetitions, interleavings and connection failures", "anchors": ["src/electionguard_gui/components/upload_ballots_component.py: UploadBallotsComponent", "src/electionguard_gui/services/ballot_upload_service.py: BallotUploadService", "src/electionguard_gui/services/election_service.py: ElectionService", "src/electionguard_gui/services/decryption_stages/decryption_stage_base.py: get_tally", "src/electionguard_gui/models/election_dto.py: ElectionDto"]}
{"id": "C70", "title": "A decryption that the GUI shows as complete reports what was encrypted, and one that all guardians joined completes", "statement": "Whatever guardians, administrators and uploading clients do in which order: a decryption with a stored result is shown as complete, its ciphertext tally is the tally of stored ballots, its plaintext tally has the encrypted numbers, every guardian of the election decrypted just these ciphertexts, and every decrypted ballot has the votes of the stored spoiled ballot with this id.  If every guardian joins after the last upload, in any order, the administrator's next visit completes the decryption with the election result of the uploaded ballots and with every spoiled ballot.  A ballot uploaded after a guardian joined blocks the decryption (cast) or is left out silently (spoiled); a guardian that joins twice is counted twice.", "quantifier": "all interleavings of uploads, joins (both database updates), reads, computations and completions of any number of users, all teams, all ballots, all failures of the database connection", "why_tests_cant": "all interleavings, orders and team sizes", "anchors": ["src/electionguard_gui/services/decryption_stages/decryption_s1_join_service.py: DecryptionS1JoinService", "src/electionguard_gui/services/decryption_stages/decryption_s2_announce_service.py: DecryptionS2AnnounceService", "src/electionguard_gui/services/decryption_service.py: DecryptionService", "src/electionguard_gui/models/decryption_dto.py: DecryptionDto", "src/electionguard_gui/components/view_decryption_component.py: ViewDecryptionComponent"]}
{"id": "C71", "title": "A key ceremony that the GUI shows as complete was held by as many guardians as it is for, and one that they all joined completes", "statement": "Whatever guardians, administrators and strangers do in which order, each with any stale copy of the document: if the document shows a joint key, then as many guardians as the ceremony is for hold it: their private files have key pairs with as many coefficients as the quorum, numbered in the order of joining, their public keys are the published ones, each checked from each other one a backup that decrypts to the value of that guardian's polynomial at its own number, and the joint key is the product of g to their secrets with the hash of all commitments.  The joint key never changes afterwards.  When just these guardians joined, in whatever interleaving, then the administrator, every guardian, the administrator, every guardian and the administrator looking at the document in turn complete the ceremony.  Private files never hold a backup or a key of another guardian.  More guardians than the ceremony is for block it for ever; joining twice overwrites the private key; two sessions of a guardian making backups at once block it for ever.", "quantifier": "all interleavings of joins and stages cut at every access to the database or a file, any number of users and sessions, all random numbers", "why_tests_cant": "all interleavings and team sizes", "anchors": ["src/electionguard_gui/services/key_ceremony_stages/key_ceremony_s1_join_service.py: KeyCeremonyS1JoinService", "src/electionguard_gui/services/key_ceremony_stages/key_ceremony_s2_announce_service.py: KeyCeremonyS2AnnounceService", "src/electionguard_gui/services/key_ceremony_stages/key_ceremony_s3_make_backup_service.py: KeyCeremonyS3MakeBackupService", "src/electionguard_gui/services/key_ceremony_stages/key_ceremony_s4_share_backup_service.py: KeyCeremonyS4ShareBackupService", "src/electionguard_gui/services/key_ceremony_stages/key_ceremony_s5_verify_backup_service.py: KeyCeremonyS5VerifyBackupService", "src/electionguard_gui/services/key_ceremony_stages/key_ceremony_s6_publish_key_service.py: KeyCeremonyS6PublishKeyService", "src/electionguard_gui/services/key_ceremony_service.py: KeyCeremonyService", "src/electionguard_gui/services/guardian_service.py: GuardianService", "src/electionguard_gui/models/key_ceremony_dto.py: KeyCeremonyDto", "src/electionguard_gui/components/key_ceremony_details_component.py: KeyCeremonyDetailsComponent"]}
{"id": "C72", "title": "An election that the GUI creates from a key ceremony is for the joint key and the manifest, and the whole election in the GUI reports the result", "statement": "create_election succeeds exactly when the name is new, the key ceremony exists and has a joint key, and the manifest file is readable, valid and has a text if it has a name; a refused call changes nothing.  The election then has the number of guardians, the quorum and the joint key of the ceremony, the manifest, the hashes of the two and one guardian record for every key in the ceremony; elections are kept and their names stay different.  The encryption package that is exported for it has its context and manifest as long as no other election is made from the same ceremony; a second one overwrites it.  When all guardians join a ceremony in whatever interleaving, the browsers complete it, the administrator creates an election, ballots are uploaded, and every guardian joins the decryption, then the decryption reports the election result of the uploaded ballots and the votes of every spoiled ballot; whatever the interleaving, a completed decryption reports what the stored ballots encrypt.  A guardian that joins the ceremony after the joint key was published gets into the records of the election and can spoil the result.", "quantifier": "all worlds, ceremonies, manifests, calls and interleavings", "why_tests_cant": "all interleavings, team sizes and sequences of elections", "anchors": ["src/electionguard_gui/components/create_election_component.py: CreateElectionComponent.create_election", "src/electionguard_gui/components/export_encryption_package_component.py: ExportEncryptionPackageComponent", "src/electionguard_gui/services/election_service.py: ElectionService.create_election", "src/electionguard_gui/services/guardian_service.py: GuardianService.load_guardian_from_decryption", "src/electionguard_gui/models/election_dto.py: ElectionDto", "src/electionguard_tools/helpers/election_builder.py: ElectionBuilder", "src/electionguard_cli/setup_election/output_setup_files_step.py: OutputSetupFilesStep"]}
{"id": "C73", "title": "Results are shown under the names of the manifest", "statement": "A decrypted tally or ballot contains only contests and selections of the manifest.  The command line prints every contest of it under the contest's name, and under it every selection, in order, with the name of its candidate and its number; a candidate is shown as Write-In if it is one, else by its first text in the language if that is not empty, else by its id.  Printing never raises.  The report of the GUI shows the same with the candidate's party, the share of the votes for candidates that are no write-ins, their sum and the sum of the write-ins; it exists if and only if every selection of the (valid) manifest has its candidate.", "quantifier": "all manifests, languages, plaintext tallies and ballots", "why_tests_cant": "all combinations of missing names, languages, write-ins, parties and equal ids", "anchors": ["src/electionguard/manifest.py: Manifest.get_selection_names", "src/electionguard/manifest.py: Manifest.get_contest_names", "src/electionguard/manifest.py: Manifest.get_name", "src/electionguard/manifest.py: get_i8n_value", "src/electionguard_cli/cli_steps/print_results_step.py: PrintResultsStep", "src/electionguard_gui/services/plaintext_ballot_service.py: get_plaintext_ballot_report"]}
{"id": "C74", "title": "What the end-to-end command publishes is the election result", "statement": "If the command e2e returns, the manifest was valid and had a name that can be printed, no two ballots had the same id, the quorum was not above the number of guardians, the tally it publishes has, for every selection of the manifest and nothing else, the number of votes on all ballots but the spoiled one, the spoiled ballot is published with exactly the voter's votes, the stored ballots are exactly the given ones, and the results are printed under the names of the manifest. For ballots that can be encrypted, and a positive number of guardians and a positive quorum, the command returns whenever ids are distinct, the quorum is at most the number of guardians and the name can be printed.", "quantifier": "all group parameters, guardian counts, quorums, random numbers, manifests, ballots, spoiled ids", "why_tests_cant": "a run of the command tests one manifest and one set of ballots with one set of random numbers", "anchors": ["src/electionguard_cli/e2e/e2e_command.py: E2eCommand", "src/electionguard_cli/e2e/submit_votes_step.py: SubmitVotesStep", "src/electionguard_cli/cli_steps/key_ceremony_step.py: KeyCeremonyStep", "src/electionguard_cli/cli_steps/encrypt_votes_step.py: EncryptVotesStep", "src/electionguard_cli/cli_steps/tally_step.py: TallyStep", "src/electionguard_cli/cli_steps/decrypt_step.py: DecryptStep", "src/electionguard_cli/e2e/e2e_publish_step.py: E2ePublishStep"]}
{"id": "C75", "title": "An election run by the separate commands gives the election result", "statement": "After setup, encrypt-ballots writes a file for each ballot. However these files are divided between the directory to cast and the directory to spoil, submit-ballots accepts them all, and import-ballots with the submitted files and the files of all guardians, in any order, publishes the tally of exactly the ballots put into the first directory, each ballot of the second with exactly its votes, and prints both under the names of the manifest; no command fails. In general submit-ballots writes exactly the first valid ballot with each id, casts before spoils, and leaves all other files as they are; import-ballots never returns with the files of fewer guardians than the election has. Nothing keeps the files that submit-ballots wrote from being submitted again, with ballots cast that were spoiled.", "quantifier": "all group parameters, guardian counts, quorums, manifests, ballots, divisions and orders of the files", "why_tests_cant": "four commands that are connected only through files, with all orders and divisions of the files", "anchors": ["src/electionguard_cli/setup_election/setup_election_command.py: SetupElectionCommand", "src/electionguard_cli/encrypt_ballots/encrypt_command.py: EncryptBallotsCommand", "src/electionguard_cli/submit_ballots/submit_command.py: SubmitBallotsCommand", "src/electionguard_cli/import_ballots/import_ballots_command.py: ImportBallotsCommand", "src/electionguard_cli/encrypt_ballots/encrypt_ballots_publish_step.py: EncryptBallotsPublishStep", "src/electionguard_cli/import_ballots/import_ballots_input_retrieval_step.py: ImportBallotsInputRetrievalStep"]}
{"id": "C76", "title": "The election record convinces an auditor, and what it convinces them of is true", "statement": "Whoever reads the record that e2e or import-ballots exports, in whatever order the files come, can check: the constants and the manifest are valid, the context has the hashes of the parameters, the manifest and the guardians' commitments, every guardian has valid proofs of their commitments, the joint key is the product of their keys, every ballot is there once and verifies, the encrypted tally is the product of the cast ballots, all shares of the tally and of the spoiled ballots have valid proofs and give the shown numbers, exactly the spoiled ballots are opened, and the Lagrange coefficients are right; and no ballot of the record carries a nonce.  Conversely, whoever made the record: if the audit succeeds, the number shown for each selection is the number of votes that the cast ballots of the record encrypt for it, and each spoiled ballot is shown as it was encrypted, or some guardian's proof hit the only challenge with which a wrong share can be proved.  Objects exported under distinct ids are all read back.", "quantifier": "all elections that the commands can run, all readers, all records (honest or not)", "why_tests_cant": "the second half is about all records that anybody could make, the first about all elections and all orders of files", "anchors": ["src/electionguard_tools/helpers/export.py: export_record", "src/electionguard_cli/e2e/e2e_publish_step.py: E2ePublishStep._export_election_record", "src/electionguard_cli/import_ballots/import_ballots_publish_step.py: ImportBallotsPublishStep", "src/electionguard_verify/verify.py: verify_ballot", "src/electionguard_verify/verify.py: verify_aggregation", "src/electionguard_verify/verify.py: verify_decryption", "src/electionguard/tally.py: CiphertextTally.publish", "src/electionguard/serialize.py: to_file"]}
{"id": "C77", "title": "A record that passes the audit shows the votes on its ballots, and nothing but votes", "statement": "Whoever made an election record: if the checks that the result rests on succeed (constants, manifest, context, joint key, ballots, aggregation, decryptions), and no hash in the record happens to be the one challenge with which a false statement can be proved, then there is one and only one way to read the ciphertexts on the ballots as votes; every selection has a vote or none; the votes of a contest add up to what its proof states; the tally shows for every selection of the manifest the number of votes on the cast ballots and nothing else, so no more than there are cast ballots; for all selections of a contest together no more than the seats times the cast ballots; and every spoiled ballot is opened to its votes.  A statement that is true is never proved by luck.", "quantifier": "all records (honest or not), all parameters, all hash functions", "why_tests_cant": "it is about all records that anybody could make, including those that no honest software makes", "anchors": ["src/electionguard_verify/verify.py: verify_ballot", "src/electionguard_verify/verify.py: verify_aggregation", "src/electionguard_verify/verify.py: verify_decryption", "src/electionguard/chaum_pedersen.py: DisjunctiveChaumPedersenProof.is_valid", "src/electionguard/chaum_pedersen.py: ConstantChaumPedersenProof.is_valid"]}
{"id": "C78", "title": "The election record that the GUI exports agrees with the ballots that were uploaded", "statement": "For every election created from a key ceremony of the GUI, in whatever order its steps came: if properly encrypted ballots are uploaded, every guardian joins the decryption once the uploads are over, and the administrator runs the second stage, then the export succeeds, and the record passes the checks that the result rests on (constants, manifest, context, joint key, ballots, aggregation, decryptions); the tally in it shows the votes of the cast ballots, every spoiled ballot is opened to its votes, and the coefficients of the guardians are the Lagrange coefficients.  No record is exported for a decryption that is not completed.", "quantifier": "all key ceremonies and their interleavings, all manifests, all ballots and sequences of uploads, all parameters, all orders of joining", "why_tests_cant": "it is about all histories of a system with several users and a database", "anchors": ["src/electionguard_gui/components/export_election_record_component.py: export_election_record", "src/electionguard_gui/services/decryption_stages/decryption_s2_announce_service.py: run", "src/electionguard_gui/services/election_service.py: create_election", "src/electionguard_tools/helpers/export.py: export_record"]}
{"id": "C79", "title": "What is written to a file is read back", "statement": "from_raw(C, to_raw(x)) returns x, for every plaintext, encrypted or submitted ballot whose elements are in range, contest data, key, joint key, backup, verification, private guardian record, constants, device, context, guardian record, tally, decrypted tally and set of coefficients; for a manifest without primary party ids; from_list_raw likewise for lists of ballots.  The text is printable ASCII from brace to brace, whatever characters the ids have, and white space around it does not matter; different ballots have different texts.  Every ballot that encrypt_ballot returns is read back after it is submitted.  Contest data and backup coordinates are read back from their padded bytes, and data that is too long raises TruncationError.", "quantifier": "all values of the classes, with texts, lists and numbers of any size", "why_tests_cant": "the values have unbounded size and all texts occur as ids", "anchors": ["src/electionguard/serialize.py: to_raw, from_raw, from_list_raw, padded_encode, padded_decode", "src/electionguard_gui/services/ballot_upload_service.py", "src/electionguard_tools/helpers/export.py"]}
{"id": "C80", "title": "What is read from a file is well-formed", "statement": "If from_raw returns an object, then whatever the text was: every element in it is in its range (below p or below q), every enumeration has one of its values, no dictionary has a key twice, and writing the object and reading it again returns the same object.  A ballot is only read from a text that has each field without a default, and the order of the fields and further fields make no difference.", "quantifier": "all texts", "why_tests_cant": "the input is any text, also one made by an adversary", "anchors": ["src/electionguard/serialize.py: from_raw, _config", "src/electionguard/big_integer.py", "src/electionguard/group.py: BaseElement.__new__"]}
{"id": "C81", "title": "An election whose manifest, backups and ballots are exchanged as texts publishes the votes", "statement": "If the manifest is uploaded to the GUI as the text written of it, the guardians of its key ceremony exchange the backups that padded_encode writes, and the ballots are uploaded as the texts of submitted ballots, then the exported record passes the checks that the result rests on, its tally shows the votes of the cast ballots and every spoiled ballot is opened to its votes.", "quantifier": "all key ceremonies and their interleavings, all manifests, all ballots and sequences of uploads, all parameters, all orders of joining", "why_tests_cant": "it composes the whole of an election with the reading and writing of its files", "anchors": ["src/electionguard/serialize.py", "src/electionguard_gui/services/ballot_upload_service.py", "src/electionguard_gui/services/election_service.py", "src/electionguard_gui/components/upload_ballots_component.py", "src/electionguard_gui/components/create_election_component.py"]}
{"id": "C82", "title": "The proofs reveal nothing beyond what they state", "statement": "For a verifier whose challenge is random and independent, a proof that a selection is an encryption of 0 or 1 reveals nothing about which it is: over the random numbers of the prover, each transcript is produced as often as by a simulator that knows only the ciphertext and the key, for an encryption of 0 and for an encryption of 1.  Likewise for the proof that a contest adds up to a number, the proof of a decryption share, which reveals nothing about the secret key, and the Schnorr proof of a key.  What the simulator makes is accepted by the verifier when the hash is the challenge.", "quantifier": "all parameters, keys, nonces, ciphertexts and challenges", "why_tests_cant": "it speaks about all outcomes of the random numbers at once and compares two distributions", "anchors": ["src/electionguard/chaum_pedersen.py: make_disjunctive_chaum_pedersen_zero, make_disjunctive_chaum_pedersen_one, make_constant_chaum_pedersen, make_chaum_pedersen", "src/electionguard/schnorr.py: make_schnorr_proof"]}
{"id": "C83", "title": "The pages of the GUI show the votes", "statement": "After all guardians joined the decryption of an election and it was completed, the page of the tally shows every contest once with its name and, for each candidate, the name, the party, the number of votes on the cast ballots and its part of the total, and the sum of the write-ins; the spoiled ballots are listed, and the page of each shows the contests of its style with the marks of the voter.  Before that no page shows results; the page of a ballot that was not spoiled is an error; ballots uploaded later change nothing on the pages.", "quantifier": "all manifests, ballots, sequences of uploads, parameters, guardians and orders of joining", "why_tests_cant": "it composes key ceremony, encryption, upload, decryption and the report; each has unbounded input", "anchors": ["src/electionguard_gui/components/view_tally_component.py: get_tally", "src/electionguard_gui/components/view_spoiled_ballot_component.py: get_spoiled_ballot, get_spoiled_ballot_by_id", "src/electionguard_gui/services/plaintext_ballot_service.py: get_plaintext_ballot_report", "src/electionguard_gui/models/decryption_dto.py"]}
{"id": "C84", "title": "What the GUI keeps and exports as texts is what it computed", "statement": "The GUI keeps shares, results, manifest, context and guardian records as JSON texts in its database, and private guardian records and ballots as texts in files.  For all contents of the files and uploads and all interleavings of guardians and administrators, the database holds at every moment the texts of what it would hold if values were kept, and reading gives the values back; a share that a guardian computes always has its elements in range.  The files of an exported record are read back as the record, so that an election whose inputs are texts ends with texts whose reader finds that they pass the checks of the result and publish the votes.", "quantifier": "all texts, files, uploads, interleavings, parameters, guardians and votes", "why_tests_cant": "it relates two programs over all executions, and composes writing and reading of unbounded data with the computation between them", "anchors": ["src/electionguard_gui/services/decryption_service.py: append_guardian_joined, set_decryption_completed", "src/electionguard_gui/models/decryption_dto.py: get_decryption_shares, get_plaintext_tally, get_plaintext_spoiled_ballots, get_lagrange_coefficients, get_ciphertext_tally", "src/electionguard_gui/services/guardian_service.py: load_guardian_from_decryption", "src/electionguard_gui/components/export_election_record_component.py: export_election_record", "src/electionguard/decryption_share.py: DecryptionShare, CompensatedDecryptionShare", "src/electionguard/serialize.py: to_raw, from_raw, to_file, from_file"]}
{"id": "C85", "title": "The key ceremony of the GUI over the dictionaries of its database", "statement": "The GUI keeps the public keys, backups, verifications and the joint key of a key ceremony as dictionaries in its database, and private guardian records as texts in files.  For all interleavings of guardians and administrators the database and the files hold at every moment the dictionaries and texts of what they would hold if values were kept; reading gives the values back, the election that is made from the dictionaries is the one for the values, and a guardian that is loaded from its file is the one that joined.  So an election with nothing but dictionaries and texts between its steps ends with the texts of a record that passes the checks of the result and publishes the votes.  The dictionary of a public key is however not its JSON: the core deserializer refuses it.", "quantifier": "all interleavings, numbers of guardians, quorums, random numbers in range, parameters, manifests and votes", "why_tests_cant": "it relates two concurrent programs over all executions, and composes them with everything that follows", "anchors": ["src/electionguard_gui/services/db_serialization_service.py: public_key_to_dict, backup_to_dict, verification_to_dict, joint_key_to_dict", "src/electionguard_gui/models/key_ceremony_dto.py: KeyCeremonyDto, _dict_to_election_public_key, _dict_to_backup, _dict_to_verification", "src/electionguard_gui/services/key_ceremony_service.py", "src/electionguard_gui/services/key_ceremony_stages/", "src/electionguard_gui/services/guardian_service.py: load_guardian_from_key_ceremony, save_guardian, make_guardian", "src/electionguard_gui/components/create_election_component.py: create_election"]}
{"id": "C86", "title": "The commands of the CLI over the texts of their files", "statement": "Each of setup, encrypt-ballots, submit-ballots, import-ballots and e2e does with the texts of its files exactly what it does with the values that are in them, including every error, whatever the texts of manifest, context and ballots are, as long as they are read; and every file that one of them writes is read back by the next one as the value that was written.  So an election by the four commands, with nothing but texts between them, starting with any text of a manifest that is ready for an election and any file or directory of plaintext ballots, publishes exactly the votes of the ballots whose files were put into the directory to cast and each spoiled ballot, and whoever reads the texts of the record has one that passes the audit.", "quantifier": "all manifests, ballots, texts, numbers of guardians, quorums, random numbers in range, directories and orders of files", "why_tests_cant": "the texts, divisions into directories and random numbers are unbounded, and four programs are composed", "anchors": ["src/electionguard_cli/cli_steps/input_retrieval_step_base.py: _get_manifest, _get_context, _get_ballots, _get_ballot", "src/electionguard_cli/cli_steps/output_step_base.py: _export_private_keys, _export_file", "src/electionguard_cli/setup_election/", "src/electionguard_cli/encrypt_ballots/", "src/electionguard_cli/submit_ballots/", "src/electionguard_cli/import_ballots/", "src/electionguard_cli/e2e/", "src/electionguard/serialize.py"]}
{"id": "C87", "title": "Ballots marked by mark-ballots", "statement": "Every ballot that mark-ballots writes has one of the manifest's styles (the one that is asked for, if one is), exactly the contests of this style, and in each contest a vote for exactly as many different candidates as there are seats and otherwise explicit noes or nothing; every such ballot can come out, whatever the order of its marks; with an unknown style the command raises.  The files, read back in any order, are the ballots, and the following commands accept them: encrypt-ballots, submit-ballots and import-ballots publish the votes of the marked ballots that are cast, and the votes of every contest add up to the number of seats for each cast ballot that has the contest.  The same for the other callers of the factory, with null votes or undervotes where these are allowed.", "quantifier": "all manifests, numbers of ballots, styles, outcomes of the random numbers, orders of files, divisions into cast and spoiled ballots", "why_tests_cant": "the random choices, the shuffles and the manifests are unbounded; a test sees a few draws", "anchors": ["src/electionguard_tools/factories/ballot_factory.py: get_random_contest_from, get_fake_ballot, generate_fake_plaintext_ballots_for_election", "src/electionguard_cli/mark_ballots/"]}
{"id": "C88", "title": "Audit of a record decrypted by a quorum", "statement": "When guardians are missing at the decryption, their shares in the election record have no proofs, but the parts from which they were recovered.  An auditor who checks the parts against keys computed from the published commitments, the Lagrange coefficients, and everything else as in C76, knows: the tally shows the number of votes on the cast ballots, spoiled ballots are shown with what they encrypt, and every recovered share is the one that the missing guardian would have made, unless the hash of some proof hit the one challenge with which a wrong value can be proved.  The record of every election that was run with at least a quorum passes this audit, whoever is missing, and so does a record with all guardians; the shipped verifier raises for it.", "quantifier": "all records, numbers of guardians and quorums, subsets of guardians present, ballots, environments", "why_tests_cant": "all conceivable records, also forged ones, and all subsets of guardians; tests have a few honest elections and never verify a recovered share", "anchors": ["src/electionguard/decrypt_with_shares.py", "src/electionguard/decryption.py: reconstruct_decryption_share, compute_recovery_public_key", "src/electionguard_tools/helpers/export.py: export_record", "src/electionguard_verify/verify.py: verify_decryption"]}
{"id": "C89", "title": "Sample elections", "statement": "Whenever the sample generator returns, the data it leaves are those of a correct election: the ballots have distinct ids, are filled in with the contests of their style and at least one vote and at most one for each seat, those for which the number drawn is below the spoil rate are spoiled and the others cast, the exported record stands the audit (the strict one when all guardians decrypt) and publishes exactly the sums of the cast and the votes of the spoiled ballots, and the private data are there if and only if asked for, with secrets that make up the election key.  It returns if and only if the ids are distinct and there are enough guardians.  A spoil rate of 100 does not spoil everything.", "quantifier": "all manifests, numbers of guardians and quorums, ballots, spoil rates, random numbers, environments", "why_tests_cant": "all random numbers and all rates; tests run it with one manifest and do not look at what it makes", "anchors": ["src/electionguard_tools/scripts/sample_generator.py: generate", "src/electionguard_tools/factories/election_factory.py: get_sample_manifest_with_encryption_context", "src/electionguard_tools/helpers/export.py: export_private_data"]}
{"id": "C90", "title": "The lists of key ceremonies, elections and decryptions in the GUI", "statement": "A call that creates a key ceremony, an election or a decryption succeeds exactly if the name is new (and the quorum fits, the ceremony and the election exist); a refused call changes nothing.  The list of decryptions that an election shows never has anything but its own decryptions, with their names and none twice, and when no call is on its way it has them all; the number in the suggested name is one more than their number.  A ceremony is on the guardians' page or on offer for elections, by whether it is completed; decryptions are on the guardians' page until they are completed.  Names are never used twice, and a suggested name is accepted.  (The last two fail when calls overlap, and when somebody chose the name before; the number of ballots that a decryption shows is an old one.)", "quantifier": "all interleavings of the database requests of any number of front ends with each other and with uploads, joins and stages; all names and ids", "why_tests_cant": "all interleavings of all front ends; tests call one component once with a mocked database", "anchors": ["src/electionguard_gui/components/create_decryption_component.py", "src/electionguard_gui/components/create_key_ceremony_component.py", "src/electionguard_gui/components/create_election_component.py", "src/electionguard_gui/components/guardian_home_component.py", "src/electionguard_gui/services/decryption_service.py: create, name_exists, get_decryption_count, get_active", "src/electionguard_gui/services/election_service.py: append_decryption, get, get_all"]}
{"id": "C91", "title": "Pages learn of changes", "statement": "From the time when its loop begins, a watch of the database reports the changes that are notified from then on and concern its id, in their order, each once, and as long as the event stays set it comes to the end of them; a watch that is over reports nothing; a watch that was asked to stop ends with its next round if no other page opens.  (A change while the watch starts is lost, a new page keeps the watch of the old one alive, and a late request to stop ends the watch of the new page.)", "quantifier": "all interleavings of the rounds of any number of watches with notifications, pages that open and requests to stop", "why_tests_cant": "all interleavings; tests do not run the watcher at all", "anchors": ["src/electionguard_gui/services/db_watcher_service.py", "src/electionguard_db/mongo-init.js", "src/electionguard_gui/components/key_ceremony_details_component.py: watch_key_ceremony", "src/electionguard_gui/components/guardian_home_component.py: watch_db_collections"]}
{"id": "C92", "title": "The constants that the library ships are large enough", "statement": "With the constants that get_constants selects, proofs of constants are complete and specially sound without a condition on the group.  With the standard constants every honest share of up to 255 guardians is accepted and no other number is, discrete logarithms are right after any history of calls, and whole elections (by the API and by eg e2e) with up to 255 guardians and a hundred million ballots publish exactly the votes.  (With the test constants honest shares are rejected from a quorum of 17 on.)", "quantifier": "all keys, nonces, seeds, polynomials, histories, manifests and ballots, at the constants in constants.py", "why_tests_cant": "the tests run with the test constants, and a few with the standard ones on a few values", "anchors": ["src/electionguard/constants.py: STANDARD_CONSTANTS, LARGE_TEST_CONSTANTS, get_constants", "src/electionguard/chaum_pedersen.py: make_constant_chaum_pedersen", "src/electionguard/election_polynomial.py: verify_polynomial_coordinate", "src/electionguard/discrete_log.py"]}
{"id": "C93", "title": "The upload wizard stores the ballots of the drive it found, once", "statement": "scan_drives answers with the drive of the lowest letter that has both directories, with its number of files and the location of its first device, and raises exactly when some drive with both directories has no readable device.  upload_ballots succeeds exactly when a drive is found, its device file has its fields and every file is a ballot of the election; then the counts are the files and the files already stored.  Whatever the result, the ballots stored afterwards are those stored before and the first text of each ballot in the files before the first bad one.  Trying again after a failure with the bad file repaired gives the same stored ballots as one good run, in whatever order the files are listed.  After any number of runs the tally has the first cast ballot of each id.  (A drive that would not be used can stop the scan; the drive uploaded need not be the one shown; a failed run stores ballots.)", "quantifier": "all contents of all drives, all readers, all databases, elections, file lists and orders, all sequences of runs", "why_tests_cant": "there is no test of the component; drives, orders of listings and interrupted runs are unbounded", "anchors": ["src/electionguard_gui/components/upload_ballots_component.py: scan_drives, parse_drive, upload_ballots", "src/electionguard_gui/services/export_service.py: get_removable_drives"]}
{"id": "C94", "title": "Equality of ballots and of manifests", "statement": "== of plaintext ballots, of ciphertext ballots, of submitted ballots and of manifests is reflexive, symmetric and transitive.  Equal plaintext ballots have the same style and the same total for every selection id, and permuting contests and the selections in them gives an equal ballot.  Two ciphertext ballots are equal exactly when id, style, manifest hash, code and the multiset of contests with their selections agree; of two equal ballots with the same accumulations both or none are valid.  Equal manifests have the same dates, scope, type and lists up to order, and the same hash if they are listed in the same order.  (Equal plaintext ballots may give a vote to the same selection id in another contest and have other ballot ids; equal ciphertext ballots may differ in their accumulations; equal manifests may have different hashes.)", "quantifier": "all ballots, all manifests, all orders", "why_tests_cant": "an equality test compares a few examples; that no pair is wrongly equal is about all pairs", "anchors": ["src/electionguard/ballot.py: __eq__ of PlaintextBallotSelection, PlaintextBallotContest, PlaintextBallot, CiphertextBallotContest, CiphertextBallot", "src/electionguard/manifest.py: __eq__ of ContestDescription, Manifest", "src/electionguard/utils.py: list equality helpers"]}
{"id": "C95", "title": "Random numbers are uniform in their range, and so are keys", "statement": "rand_range_q(start) for start > 0 returns the first draw that is at least start and uses no draw after it; it goes on exactly while all draws are below start, and never ends if start is at least q.  Every value from start to q - 1 is returned for the same number of sequences of draws.  elgamal_keypair_random gives a secret from 2 to q - 1 and the public key g^secret, which is neither 1 nor g, and different secrets give different keys.  (rand_range_q(0) is always 0; keys of guardians come from rand_q and can be 0 or 1.)", "quantifier": "all sequences of draws of all lengths, all starts, all valid parameters", "why_tests_cant": "a test draws some numbers; uniformity and termination are statements about all sequences of draws", "anchors": ["src/electionguard/group.py: rand_q, rand_range_q", "src/electionguard/elgamal.py: elgamal_keypair_random", "src/electionguard/election_polynomial.py: generate_polynomial"]}
{"id": "C96", "title": "Dates and times mean the same instant everywhere", "statement": "For a time with a zone, to_ticks is the number of seconds since the epoch, on every machine (after the epoch), and the texts of two times are equal exactly when they mean the same second, whatever their zones, so that the manifest hash depends on the instants only.  Day numbers and calendar dates correspond one to one.  make_ciphertext_ballot stamps a ballot with the clock in seconds in every zone.  (make_ciphertext_submitted_ballot and EncryptionDevice stamp the clock less the offset of the machine, right exactly in UTC; naive times are UTC for to_iso_date_string and local for to_ticks; before the epoch ticks are rounded up.)", "quantifier": "all dates of the calendar, all times, zones, offsets of the machine and clocks", "why_tests_cant": "tests run in one zone, at one time", "anchors": ["src/electionguard/utils.py: to_ticks, to_iso_date_string", "src/electionguard/ballot.py: make_ciphertext_ballot, make_ciphertext_submitted_ballot", "src/electionguard/encrypt.py: EncryptionDevice.get_timestamp"]}
{"id": "C97", "title": "The expected tally that the tests compute is the result of the election", "statement": "accumulate_plaintext_ballots raises exactly when a selection is marked as placeholder; otherwise it has an entry for exactly the selection ids on the ballots, with the sum of the votes, in whatever order the ballots come.  If every counted ballot holds contests of its style, each once, with described selections, each once, and no overvote, then the entry of each selection is the result of the election that C60 proves to be decrypted.  (An overvoted ballot, which is encrypted and cast, makes it differ.)", "quantifier": "all lists of ballots, all manifests, all elections", "why_tests_cant": "it is the oracle of the tests; whether the oracle is right cannot be tested by them", "anchors": ["src/electionguard_tools/helpers/tally_accumulate.py: accumulate_plaintext_ballots"]}
{"id": "C98", "title": "Elements compare, hash and sort by their numbers", "statement": "The six comparison operators on elements and ints, in either order, compare the numbers and never raise; != is the negation of ==; == is reflexive and symmetric on all values, and transitive on all but the mpz inside an element; equal values have equal hashes, so a lookup in a dict or set finds exactly the key with the same number; sorted() orders by number; two elements are equal exactly when their texts are.  (With any other value, including the text and the .value of the element itself, all of <, <=, ==, >, >= answer False and nothing is raised.)", "quantifier": "all elements and values, all hash functions, all dicts and lists", "why_tests_cant": "every pair of types and numbers, and the interplay of reflected operators and hashes", "anchors": ["src/electionguard/big_integer.py: BigInteger.__eq__, __ne__, __lt__, __le__, __gt__, __ge__, __hash__"]}
{"id": "C99", "title": "In the GUI's key ceremony every part is done by a program in the right role", "statement": "Whatever users log in, join and look at which of the running programs, in any interleaving: only users that were logged in somewhere are among the joined guardians, have a key in the document or a private file; the lists of keys, the shared backups and the joint key are published only if one of the programs runs as administrator; every backup and every verification comes from a user that was logged in at a program that does not run as administrator; roles never change; and everything such programs do is a run of the ceremony that C71 speaks about. A program runs as administrator exactly when its environment says true.", "quantifier": "all lists of programs, all sequences of logins, joins, looks and steps of calls", "why_tests_cant": "all interleavings of several programs with changing users", "anchors": ["src/electionguard_gui/services/authorization_service.py: AuthorizationService", "src/electionguard_gui/services/configuration_service.py: get_is_admin", "src/electionguard_gui/components/key_ceremony_details_component.py: on_key_ceremony_changed, join_key_ceremony", "src/electionguard_gui/services/key_ceremony_stages: should_run"]}
{"id": "C100", "title": "Ciphertexts show the votes only to those who can solve decisional Diffie-Hellman", "statement": "Whatever an observer computes from the public key and the ciphertexts that elgamal_encrypt makes of a list of votes: how much their answers differ between two lists of votes of the same length, summed over all secret keys and all nonces, is exactly what explicitly given adversaries (one pair for each vote, which call the observer once) gain over guessing when they tell g^x, g^r, g^(x r) from g^x, g^r, g^z. So if none of them gains more than eps the answers differ by at most 2 eps per vote.", "quantifier": "all observers (any function of key and ciphertexts), all lists of votes, all sets of secret keys, all sets of non-zero nonces, all valid groups", "why_tests_cant": "secrecy is a statement about all observers", "anchors": ["src/electionguard/elgamal.py: elgamal_encrypt", "src/electionguard/elgamal.py: elgamal_keypair_random", "src/electionguard/encrypt.py: encrypt_selection"]}
{"id": "C101", "title": "A guardian's share shows nothing beyond the result", "statement": "Whatever shares the other guardians give (honest or not) and whatever number the decryption of a selection reports: the share of a guardian is a fixed function of the ciphertext, the reported number and the shares of the others, so the others learn nothing from it that the published number does not say; and an honest guardian's share together with its proof is made, with the same frequencies over the random numbers, by a simulator that does not have the guardian's secret.", "quantifier": "all ciphertexts, all lists of shares of any length and content, all secrets, all challenges, all tests of what is published", "why_tests_cant": "what an observer can learn is a statement about all observers", "anchors": ["src/electionguard/decrypt_with_shares.py: decrypt_selection_with_decryption_shares", "src/electionguard/decryption.py: partially_decrypt, compute_decryption_share_for_selection", "src/electionguard/chaum_pedersen.py: make_chaum_pedersen"]}
{"id": "C102", "title": "A published ballot shows the votes only to those who can solve decisional Diffie-Hellman", "statement": "Whatever an observer computes from everything that is published of a ballot (the ciphertexts of all selections and placeholders of all contests, their range proofs, the proofs of the contest limits) and the public key: how much their answers differ between two ballots of the same style whose contests are filled up to the limit, summed over all secret keys, nonces and random numbers of the provers, is exactly what explicitly given adversaries gain over guessing in decisional Diffie-Hellman. The proofs add nothing: what the observer sees is what a simulator makes of the ciphertexts alone. (Left out are proofs whose half of the challenge for zero is 0, one in q, which show the vote: C82.)", "quantifier": "all observers, all ballots with any number of contests and selections, all challenges, all sets of keys and non-zero nonces, all valid groups", "why_tests_cant": "secrecy is a statement about all observers", "anchors": ["src/electionguard/encrypt.py: encrypt_contest, encrypt_selection", "src/electionguard/elgamal.py: elgamal_encrypt", "src/electionguard/chaum_pedersen.py: make_disjunctive_chaum_pedersen, make_constant_chaum_pedersen"]}
{"id": "C103", "title": "Fewer guardians than the quorum learn nothing but the results unless they solve decisional Diffie-Hellman", "statement": "One guardian keeps to the protocol. All the others together may pool their secret keys, which they may even choose after seeing the commitments, proofs and backups of the honest one, but hold one backup of that guardian fewer than the quorum. They see everything published: the honest guardian's commitments with proofs, all ballots with proofs under the joint key, and the honest guardian's share of every tally with its proof. Whatever they compute from all this: how much their answers differ between two sets of ballots of the same styles with the same published results, summed over all polynomials, nonces and random numbers, is exactly what explicitly given adversaries gain over guessing in decisional Diffie-Hellman. All they see can be made up from the honest guardian's public key, ciphertexts under it and the results.", "quantifier": "all strategies of the coalition, all quorums, all numbers of ballots, contests and selections, all ways of tallying, all challenges, all valid groups", "why_tests_cant": "secrecy is a statement about all observers and all strategies", "anchors": ["src/electionguard/election_polynomial.py: generate_polynomial, compute_polynomial_coordinate", "src/electionguard/key_ceremony.py: generate_election_key_pair, combine_election_public_keys", "src/electionguard/encrypt.py: encrypt_ballot", "src/electionguard/elgamal.py: ElGamalCiphertext.partial_decrypt, elgamal_encrypt"]}
{"id": "C104", "title": "Contest data and backups are readable only for those who can solve decisional Diffie-Hellman or predict key streams", "statement": "Overvotes, write-ins and the backups of guardians travel in hashed ElGamal ciphertexts. Whatever somebody without the secret key computes from the public key and any number of such ciphertexts: how much the answers differ between two lists of messages, summed over all keys and nonces, is exactly what explicitly given adversaries gain over guessing in two games: telling a Diffie-Hellman element from an unrelated one, and telling key stream and MAC key derived from an unrelated element from random bytes. Not even lengths show: contest data and backups always have 512 bytes. This holds for the contest data of ballots together with their published votes and proofs, and for all backups on the way to a guardian.", "quantifier": "all observers, all messages, all numbers of ciphertexts, all hash and MAC functions, all valid groups", "why_tests_cant": "secrecy is a statement about all observers", "anchors": ["src/electionguard/elgamal.py: hashed_elgamal_encrypt", "src/electionguard/hmac.py: get_hmac", "src/electionguard/encrypt.py: encrypt_contest, ContestData", "src/electionguard/key_ceremony.py: generate_election_partial_key_backup", "src/electionguard/byte_padding.py: add_padding"]}
{"id": "C105", "title": "Published ballots whose challenges are hashes show the votes only to those who can solve decisional Diffie-Hellman, for a random hash function", "statement": "The proofs of a ballot take their challenges from hash_elems, and everybody can compute the hash function. Whatever somebody without the secret key computes from the public key, the whole hash function and everything published of any number of contests: how much the answers differ between two ballots of the same style, summed over all keys, nonces, random numbers and all functions that the hash function could be on the texts of proofs, is what explicitly given adversaries gain over guessing in decisional Diffie-Hellman, up to a part of at most 2(k^2+k)/q of all draws, k being the number of proofs. The part is that of the draws in which two proofs hash the same text or half of a challenge is 0.", "quantifier": "all observers with bounded answers, all ballots of any number of contests and selections, all valid groups, all numbers of hash values", "why_tests_cant": "secrecy is a statement about all observers and about all hash functions", "anchors": ["src/electionguard/chaum_pedersen.py: make_disjunctive_chaum_pedersen, make_constant_chaum_pedersen", "src/electionguard/hash.py: hash_elems", "src/electionguard/encrypt.py: encrypt_ballot"]}
{"id": "C106", "title": "Whoever does not know how to write a true proof forges votes, sums or shares only for a small part of all hash functions", "statement": "Somebody who asks for at most n hashes, each chosen after the answers so far, and then shows at most N proofs: out of M possible hash values, the part of all hash functions for which all the proofs are accepted by is_valid and yet a selection encrypts something other than 0 or 1 is at most (n+N)(M/q+1)/M. For the sums of contests the part is multiplied by the number of different limits, for shares of the decryption by the number of guardians. This holds whatever else the forger knows, the secret keys included, and without bound on computing power. The constant of a sum is not among the hashed values: whoever may choose it after the hash shows accepted proofs of false sums for every hash that is not 0 modulo q in a group of order 13, and the bound for free constants has a factor of 10^9, so a verifier has to compare the constant with the manifest.", "quantifier": "all programs that ask for hashes, all numbers of questions and proofs, all valid groups, all numbers of hash values", "why_tests_cant": "a claim about all forgers and all hash functions", "anchors": ["src/electionguard/chaum_pedersen.py: DisjunctiveChaumPedersenProof.is_valid, ConstantChaumPedersenProof.is_valid, ChaumPedersenProof.is_valid", "src/electionguard/hash.py: hash_elems"]}
{"id": "C107", "title": "A guardian hands out the backups of its own polynomial, answers challenges with the right value and judges the answers of others correctly", "statement": "generate_election_key_pair gives a key pair whose secret is the first coefficient of its polynomial, with a commitment for every coefficient. After any sequence of calls, generate_election_partial_key_backups prepares for every guardian whose key was saved a backup made from that key by the guardian's own polynomial, marked with the ids of owner and receiver, and share_election_partial_key_backup gives out that one. all_election_partial_key_backups_received holds exactly when the backups saved come from as many different owners as there are other guardians. A published challenge reveals the value of the polynomial at the order of the receiver, with all commitments and proofs; nobody gets an answer without a backup, and an order out of range raises. The verdict on a challenge is yes exactly when the revealed value fits the commitments, and it names the verifier; the answer of an honest guardian is accepted by everybody.", "quantifier": "all guardians, all sequences of calls, all polynomials, all challenges", "why_tests_cant": "needs all polynomials and all sequences of calls", "anchors": ["src/electionguard/guardian.py: Guardian.generate_election_partial_key_backups, share_election_partial_key_backup, all_election_partial_key_backups_received, publish_election_backup_challenge, verify_election_partial_key_challenge", "src/electionguard/key_ceremony.py: generate_election_key_pair, generate_election_partial_key_challenge, verify_election_partial_key_challenge"]}
{"id": "C108", "title": "The key ceremony mediator reports exactly the messages delivered last", "statement": "After any sequence of calls, resets included: the backup on record for a pair of guardians is the one delivered last after all announcements, the verdict on record is the one delivered last after all backups or won by a challenge that was met, and nothing else is on record. share_announced gives exactly the keys announced last of everybody but the one who asks. share_backups gives nothing before all announced, all backups on record when asked for nobody, and for a guardian exactly the backups of all others for it, or an exception when one is missing. get_verification_state says all_sent exactly when the numbers of announcements, backups and verdicts are complete, lists as failed exactly the pairs whose verdict on record is no, and says all_verified exactly when all was sent and nothing failed; publish_joint_key gives a key exactly then.", "quantifier": "all sequences of calls of announce, receive_backups, receive_backup_verifications, verify_challenge and reset, any number of guardians", "why_tests_cant": "needs all histories of calls in any order", "anchors": ["src/electionguard/key_ceremony_mediator.py: KeyCeremonyMediator.share_announced, receive_backups, share_backups, receive_backup_verifications, get_verification_state, verify_challenge, publish_joint_key, reset"]}
{"id": "C109", "title": "Whoever shows accepted proofs knows the secret of the key, and the vote and the nonce of the ciphertext", "statement": "Take any program that asks for at most n hashes, each chosen after the answers so far, and then shows a public key with a Schnorr proof that SchnorrProof.is_valid accepts for one in D of all hash functions. Running it once more with one hash replaced gives, by (u-u')/(c-c'), the secret of the key for at least one in 2(n+1)D^2 of all hash functions and replacements, at the standard constants and hashes of 256 bits; for all other groups with the bound M S^2 <= (n+1) |O| (X + (M/q+1) S). So the secret of every key announced with accepted proofs is computable from the program of the guardian who announced it. In the same way, whoever shows an encrypted vote whose disjunctive proof is accepted has the vote and the nonce computable from them. The program is given no proofs of others that depend on the same hash function.", "quantifier": "all programs that ask for hashes, all numbers of questions, all valid groups, all numbers of hash values", "why_tests_cant": "a claim about all programs and all hash functions", "anchors": ["src/electionguard/schnorr.py: SchnorrProof.is_valid, make_schnorr_proof", "src/electionguard/chaum_pedersen.py: DisjunctiveChaumPedersenProof.is_valid", "src/electionguard/hash.py: hash_elems"]}
{"id": "C110", "title": "The decryption mediator decrypts with the shares that came last, and exactly those", "statement": "After any calls on a new decryption mediator, the share of the tally on record for a guardian is the one put there last, where an announcement puts the announced share on record if the guardian has not announced itself before (also in place of a reconstructed one), and a reconstruction puts the reconstructed share on record for every missing guardian that has none, in the order in which they were reported, up to the first that raises; nothing else touches it. The same for the shares of each ballot, where a reconstruction goes through the ballots up to the first that raises and uses the first ballot of each id. The compensations on record are those delivered last for each pair of guardians, and each ballot. Consequence: a share that is reconstructed before all compensations came is never reconstructed again, whatever is delivered later, so the wrong numbers stay until the guardian turns up.", "quantifier": "all sequences of calls, all guardians, tallies and ballots", "why_tests_cant": "a statement about all histories of calls", "anchors": ["src/electionguard/decryption_mediator.py: announce, announce_missing, receive_tally_compensation_share, receive_ballot_compensation_shares, reconstruct_shares_for_tally, reconstruct_shares_for_ballots"]}
{"id": "C111", "title": "Nobody shows a wrong record that passes the audit, except for few hash functions", "statement": "Let SHA-256 be a random function. Somebody, after the guardians have published their keys, asks for at most n hashes, each chosen with the answers so far in hand, and then shows a whole election record with at most N proofs: manifest, context, ballots, tallies, decryptions, all of their own making. For at most (n + N)(l + k + k^2 + 1)(M/q + 1) in M of all hash functions this record passes the audit although there are no votes, zero or one for each selection and as many for each contest as its proof says, of which the tally shows the sums over the cast ballots and the opened ballots show the contents; l is the number of different limits of contests, k the number of guardians. Without missing guardians k^2 falls away. With the standard constants and hashes of 256 bits this is (n + N)(l + k + k^2 + 1) in 2^255.", "quantifier": "all adaptive programs that ask for hashes, all guardians (also dishonest ones), all limits, all hash functions outside the texts of proofs", "why_tests_cant": "a statement about all programs and a random function", "anchors": ["src/electionguard_verify/verify.py: verify_ballot, verify_decryption, verify_aggregation", "src/electionguard/chaum_pedersen.py: DisjunctiveChaumPedersenProof.is_valid, ConstantChaumPedersenProof.is_valid, ChaumPedersenProof.is_valid", "src/electionguard/election.py: make_ciphertext_election_context"]}
{"id": "C112", "title": "A scheduler answers with all results in order while it is open, and silently with nothing otherwise", "statement": "From its construction or a successful __enter__ until its close, schedule of a Scheduler answers with the results of all tasks in the order of the arguments, or with an empty list if a task raised; from close until the next __enter__ it answers every request with an empty list; what happens to other schedulers, logs or discrete logarithms makes no difference. A scheduler can be opened exactly if psutil counts at least one core; where the constructor raised, schedule raises AttributeError for good. A pool has at least one worker and leaves one core free if there are more than two. Negative: a with block opens two pairs of pools and closes only the second, and nothing can ever close the first, so that each with block leaves one more pair running; and the answer to a failing task cannot be told from the answer to no task.", "quantifier": "all histories of calls on any number of objects, all tasks and arguments", "why_tests_cant": "the histories of calls are unbounded and the tests use one scheduler each", "anchors": ["src/electionguard/scheduler.py: Scheduler", "src/electionguard/singleton.py: Singleton"]}
{"id": "C113", "title": "Decryption finds the same logarithms whatever a program did with other instances, and the singletons are none", "statement": "DiscreteLog().discrete_log(x), which decryption calls, answers after every history of calls, with any settings on any other DiscreteLog objects and any growth of the shared cache, as in a new process: with the exponent up to the limit of the class and with DiscreteLogExponentError beyond. A kept DiscreteLog object follows the limit and mode it was given last. get_instance answers for ever with the first object constructed. Negative: that is the log after the import of the library, for every class derived from Singleton, so that DiscreteLog.get_instance() and Scheduler.get_instance() answer with an object on which their methods raise AttributeError; two schedulers have separate pools; settings made through DiscreteLog() have no effect on the lookups of the library; and in a group smaller than the limit a failed lookup through one object spoils the answers of all.", "quantifier": "all histories of calls on any number of objects, all elements", "why_tests_cant": "the histories are unbounded and the shared state is only visible across instances", "anchors": ["src/electionguard/singleton.py: Singleton", "src/electionguard/discrete_log.py: DiscreteLog", "src/electionguard/elgamal.py: ElGamalCiphertext.decrypt_known_product", "src/electionguard/logs.py: LOG"]}
{"id": "C114", "title": "Two records of the same ballots that pass the audit show the same result, whichever guardians decrypted", "statement": "If two election records with the same manifest, guardians and ballots (in any order) both pass the audit, they show the same number of votes modulo q for every selection of the manifest and the same contents of every spoiled ballot, even if different quorums of guardians took part in the two decryptions and all guardians are dishonest, unless one of the records has a lucky proof. With a random hash function, somebody who asks for at most n hashes and shows two such records with different results, with at most N proofs each, succeeds for at most 2(n + N)(l + k + k^2 + 1)(M/q + 1) in M of all hash functions; with the standard constants for (n + N)(l + k + k^2 + 1) in 2^254.", "quantifier": "all pairs of records, all adaptive programs that ask for hashes, all guardians", "why_tests_cant": "a statement about all programs and a random function", "anchors": ["src/electionguard_verify/verify.py: verify_ballot, verify_decryption, verify_aggregation", "src/electionguard/decrypt_with_shares.py: decrypt_tally, decrypt_selection_with_decryption_shares", "src/electionguard/decryption.py: reconstruct_decryption_share"]}
{"id": "C115", "title": "Encrypting a ballot writes to the log nothing that is not published with the ballot, unless the ballot has a vote that is neither 0 nor 1", "statement": "Whatever is logged while a ballot is encrypted successfully can be written down from the submitted ballot and the election key: ids, hashes, ciphertexts and codes, but no vote, no write-in and no nonce; ballots with the same published form have the same log, and the same holds for all calls on one mediator. If every vote is 0 or 1, nothing logged shows a vote, even if the ballot is refused or an exception is raised. A selection with any other vote is refused and written to the log twice.", "quantifier": "all ballots, manifests, keys, nonces, seeds and sequences of calls", "why_tests_cant": "tests do not read the log, and a leak may depend on the votes", "anchors": ["src/electionguard/encrypt.py: EncryptionMediator.encrypt, encrypt_ballot, encrypt_contest, encrypt_selection", "src/electionguard/elgamal.py: elgamal_encrypt, hashed_elgamal_encrypt", "src/electionguard/ballot.py: PlaintextBallotSelection.is_valid, make_ciphertext_ballot"]}
{"id": "C116", "title": "Computing decryption shares keeps secret keys out of the log as long as the scheduler runs and no task raises", "statement": "A scheduler with running pools whose tasks all return writes nothing to the log. If its pools are closed or a task raises, it writes one warning with the texts of all arguments: for the share of a contest with at least one selection this text contains the secret key of the guardian in plain hexadecimal, for a compensated share the coordinate of the missing guardian, and whoever searches the text finds them.", "quantifier": "all process states, tasks, key pairs, coordinates and lists of selections", "why_tests_cant": "tests neither close the pool first nor read the log", "anchors": ["src/electionguard/scheduler.py: Scheduler.schedule, safe_starmap", "src/electionguard/decryption.py: compute_decryption_share_for_contest, compute_compensated_decryption_share_for_contest", "src/electionguard/elgamal.py: ElGamalKeyPair", "src/electionguard/big_integer.py: BigInteger"]}
{"id": "C117", "title": "Every handler of the log writes each message from its level on exactly once, and setting the level of the stream leaves other handlers alone", "statement": "After any sequence of calls that set the level of the stream and add or remove handlers, no handler writes a message twice; a handler that was added writes exactly the messages from its level on until it is removed. If the level of the stream is set at most once, a message is written to the stream once if it reaches the level and not otherwise. If it is set several times, a message is written once for each of the levels that it reaches.", "quantifier": "all sequences of calls and all levels", "why_tests_cant": "depends on the order of all earlier calls", "anchors": ["src/electionguard/logs.py: ElectionGuardLog, log_add_handler, log_remove_handler", "src/electionguard_gui/services/eel_log_service.py: EelLogService"]}
{"id": "C118", "title": "The elections and ballots that the property tests draw are valid, cover all sizes within the bounds, and can be encrypted", "statement": "A drawn manifest passes its validity check exactly if the uuids drawn for parties, contests and candidates differ. It then is ready for an election: one ballot style with all contests, contests of one to three seats with as many votes as seats and up to three more selections, no selection with the id of a placeholder. Every number of parties and list of contest sizes within the bounds can be drawn. The ballots that can be drawn are exactly those of a style of the manifest that list every selection of every contest of the style once, with at most as many votes as seats, and each of them can be encrypted unless a nonce is zero. Contests drawn with room for overvoting have more selections than seats.", "quantifier": "all draws, all bounds on parties and contests, all internal manifests", "why_tests_cant": "the property tests rely on it themselves: an invalid or lopsided draw makes them fail or pass for the wrong reason", "anchors": ["src/electionguard_tools/strategies/election.py: election_descriptions, contest_descriptions, candidate_contest_descriptions, referendum_contest_descriptions, contest_descriptions_room_for_overvoting, plaintext_voted_ballot, ciphertext_elections, elections_and_ballots", "src/electionguard_tools/strategies/elgamal.py: elgamal_keypairs"]}
{"id": "C119", "title": "A tally counts the accepted ballots: cast() and spoiled() are the numbers of different cast and spoiled ballots", "statement": "After any sequence of appends, cast() has grown by the number of cast ballots that were accepted and spoiled() by that of spoiled ones, and no ballot is counted twice. Whatever is appended, one by one or in batches, neither number gets smaller, also if a call raises. A batch of valid new ballots adds its numbers of cast and spoiled ballots. No selection is reported with more votes than cast(). A ballot from cast_ballot adds to cast() only, one from spoil_ballot to spoiled() only and to no total.", "quantifier": "all manifests, all sequences of calls, all states of the scheduler's pool", "why_tests_cant": "depends on the whole history of calls and on rejected ballots", "anchors": ["src/electionguard/tally.py: CiphertextTally.cast, CiphertextTally.spoiled, CiphertextTally.append, CiphertextTally.batch_append", "src/electionguard/ballot_box.py: cast_ballot, spoil_ballot"]}
{"id": "C120", "title": "The name of a proof is the name of its class with a space before each capital letter inside it", "statement": "The name that a proof carries has a space before every capital letter that follows a character of a word, and nowhere else, exactly if no capital letter inside the name is followed by another one. Nothing but spaces is added, so the class can be told from the name: two proofs have the same name exactly if their classes do.", "quantifier": "all names, all sets of word characters that have the capital letters", "why_tests_cant": "tests look at the names of the classes that exist", "anchors": ["src/electionguard/utils.py: space_between_capitals", "src/electionguard/proof.py: Proof.__init__"]}
{"id": "C121", "title": "The factories of the tests give what they are named after", "statement": "The selections of get_selection_well_formed are exactly those with an id selection-... and a vote of 0 or 1, valid for their own id and no other. get_random_selection_from gives either vote for the description. get_contest_description_well_formed always gives a contest with one to twenty selections, no more seats than selections, and one placeholder per seat behind the selections; it is valid exactly if the ids drawn are distinct. get_fake_ballot gives, for any manifest with a style and two contests, the first two contests without a vote, and encrypting it is encrypting a ballot without contests.", "quantifier": "everything that can be drawn, all manifests, all ballot ids, nonces and hash functions", "why_tests_cant": "the tests rely on the factories and do not test them; repeated draws are rare", "anchors": ["src/electionguard_tools/factories/ballot_factory.py: get_selection_well_formed, get_selection_poorly_formed, get_random_selection_from", "src/electionguard_tools/factories/election_factory.py: get_fake_manifest, get_fake_ballot, get_selection_description_well_formed, get_contest_description_well_formed"]}
{"id": "C122", "title": "An exported election record is at the place that was offered or asked for", "statement": "The GUI always offers a place for the record, and a record exported to a place on offer is there, under the name shown: below the directory that Docker mounts if it exists, else below the working directory. For any place at all, the archive is written to that very place exactly if it is the path of a zip file with a name before .zip; otherwise it is a zip file in the same directory, with the last ending of the name replaced or .zip added.", "quantifier": "all paths (POSIX), all working directories", "why_tests_cant": "depends on dots and slashes anywhere in a path", "anchors": ["src/electionguard_gui/components/export_election_record_component.py: get_election_record_export_locations, export_election_record", "src/electionguard_gui/components/export_encryption_package_component.py: get_encryption_package_export_locations", "src/electionguard_gui/services/export_service.py: get_export_locations", "src/electionguard_gui/services/directory_service.py: get_export_dir"]}
{"id": "C123", "title": "The GUI shows a stored time as the local time of the same moment", "statement": "utc_to_str of a time in UTC is the month, day, year, hour on the twelve-hour clock, minute and half of the day of the local time of the same moment; it raises exactly if that is outside the years 1 to 9999, and gives no text for no time. Two times are shown alike exactly if the local clock showed the same minute; so times before and after the clocks are put back can be shown alike. A time that carries another zone is shown wrong.", "quantifier": "all times and offsets of the local clock", "why_tests_cant": "depends on the zone of the machine, on leap years and on changes of the offset", "anchors": ["src/electionguard_gui/eel_utils.py: utc_to_str, convert_utc_to_local"]}

# Formal model of electionguard-python in Lean 4

The source modelled is `/repo/src` (the Python package `electionguard`, plus parts of
`electionguard_verify`, `electionguard_tools` and `electionguard_gui`).  The model is a shallow
embedding: each Python function becomes a total Lean function with the same branches in the same
order.  A Python exception becomes a value (`Except` with a named error, or `none` when the function
has a single error), a Python `None` becomes `none`, a Python `dict` becomes an insertion-ordered
association list with unique keys, and an object that is mutated becomes a value passed in and
returned.

## Conventions

* `lean/Verif/Model/*.lean` holds definitions that model code.  Every definition cites the file and
  lines it models and says where it is simplified.
* `lean/Verif/Spec/*.lean` holds the small independent vocabulary used to state properties.
* `lean/Verif/Lemmas/*.lean` holds helper lemmas.
* `lean/Verif/Props/*.lean` holds the property theorems, one file per area; each theorem is next to an
  `example` showing a concrete non-trivial instance of its hypotheses.
* A theorem called `..._partial` proves part of its property; the comment states what is missing.
* A theorem called `..._fails` shows that the unchanged code violates the property as stated, with a
  concrete witness.

## Trusted base

* Lean 4.33.0's kernel.
* The axioms `propext`, `Classical.choice`, `Quot.sound` (standard Lean/Mathlib).  No other axiom is
  used: no `sorry`, `admit`, `native_decide`, `bv_decide`, no own axioms.
* That the definitions in `Verif/Model` describe the Python code.  This is a manual translation.
* Primality of the production constants.  Theorems are stated for every parameter set `(p,q,g)` with
  `p`, `q` prime, `q ∣ p-1`, `g ≠ 1`, `g^q ≡ 1 (mod p)`.  For the test constants all of this is proved;
  for the production constants everything except the primality of `p` is proved, which is a hypothesis there (C61, C92).

## What is abstract

* SHA-256 is an arbitrary function from strings to naturals, HMAC-SHA-256 an arbitrary function from
  two byte strings to 32 bytes.  A theorem that holds "for every hash function" holds in particular for
  the real one.  Where a property needs collision resistance, the theorem concludes "… or two different
  texts *among those hashed in the two computations compared* have the same digest modulo q"
  (`CollisionIn E texts`, `Spec/Hash.lean`).  The list of texts is explicit: a collision among all texts
  always exists by counting, so a conclusion "or some collision exists" would say nothing.
* Random values (`rand_q`, `rand_range_q`) are explicit parameters.
* Timestamps (but C96), logging (but C115 to C117) and file access (but C122 and the names and texts of files) are not modelled.  Models made before C79 take the parsers as parameters: `loads`
  for the JSON object inside a backup, with the single assumption that it reads back what was written (`ReadsCoordinate`),
  `json` for the text of the extended contest data, `parse` for uploaded ballots and `parseManifest` for manifests.
  `Model/Serialize.lean` defines the real ones, for which C79 proves the assumptions.
* Python's `json` module and `dacite` 1.6.0 are modelled as their sources and documentation describe them.  Left out: surrogates
  without a partner, numbers with a fraction (kept as text, no class has one), bytes that are not ASCII in padded data,
  `NaN`.  Booleans are accepted as integers, as Python does, and become integers; dates are texts; the `usage`
  of a proof is checked and not kept; negative numbers are refused for constants and tallies.
* Objects shared by reference: a value returned by a call is a copy in the model.  Later mutation of
  the dictionaries inside an exported guardian record is outside the model.
* Python's `sorted` is a structurally recursive stable sort (`stableSort`), equal to `List.mergeSort`'s
  specification (lemmas in `Lemmas/Sort.lean`).
* The scheduler (`scheduler.py`) is modelled as "apply the task to every argument list"; where the
  task mutates shared state, the model takes the execution order as a parameter.
* `gmpy2` integers are mathematical integers; `powmod`, `invert` have their documented meaning.
* The orchestrators of `electionguard_tools` change guardians and mediators in place; a run that raises is
  abandoned, its half-changed objects are not modelled.
* Elements are naturals.  `ElementModP/Q` built with the bounds check switched off may be any natural.

## Properties and plan

| id | what is modelled | how it is proved |
|----|------------------|------------------|
| C01, C02 | `elgamal.py`, `group.py` over naturals mod p | cast to `ZMod p`, order of `g` is `q` |
| C03-C09 | `chaum_pedersen.py`, `schnorr.py` provers and verifiers, hash as parameter | algebra in the subgroup; soundness by comparing two accepting transcripts |
| C10-C13 | `election_polynomial.py`, `compute_recovery_public_key` | polynomial evaluation lemmas, Mathlib `Lagrange` |
| C14-C17 | `decryption.py`, `decryption_share.py`, `decrypt_with_shares.py`, `decryption_mediator.py` | product of powers; Lagrange in the exponent; witnesses for the negative results |
| C18, C19 | `elgamal.py` hashed ElGamal, `hmac.py`, byte/hex codecs | list-of-bytes induction |
| C20 | `byte_padding.py` | list lemmas, all sizes |
| C21 | `hash.py` string encoding | separator argument; witnesses of ambiguity |
| C22 | `nonces.py` | unfolding, explicit collision |
| C23 | `big_integer.py` | digit induction |
| C24, C25 | `group.py` | `ZMod`, cyclic group of units |
| C26, C27 | `discrete_log.py` with cache as state; interleaving semantics for the async version | cache invariant by induction over histories / steps |
| C28-C30 | `encrypt.py`, `ballot.py`, `decrypt_with_secrets.py` | branch-by-branch, using C01-C06 |
| C31, C32 | `ballot_validator.py` | decision logic; soundness from C04, C06; witnesses |
| C33, C34 | `ballot_box.py`, `data_store.py` | invariant by induction over operations |
| C35-C39 | `tally.py` | refinement to "product over accepted ballots"; permutation lemma; witnesses |
| C40-C42 | `manifest.py` | decision logic; hash binding up to collision; witnesses |
| C43-C46 | `key_ceremony_mediator.py`, `key_ceremony.py` | invariants, pigeonhole; witnesses |
| C47 | `key_ceremony.py` backups | composition of C10, C18, C20 |
| C48, C49 | `decryption_mediator.py` | invariants over operation histories |
| C50, C51 | `encrypt.py` mediator, `ballot_code.py`, ballot hashes | induction over chain, explicit collision |
| C52, C53 | `ballot_compact.py` | list induction; witness for the write-in index |
| C54 | `data_store.py` | refinement to a finite map; witnesses for the read-only view |
| C55 | `ballot.py` plaintext validation | decision logic |
| C56, C57 | `electionguard_verify/verify.py` | composition; witness |
| C58 | `election_object_base.py` | sorting lemmas |
| C59 | `guardian.py` | record round trip, decision logic |
| C60 | composition of all | composition of the above |
| C61 | `constants.py` | kernel computation on the literals of the code; this is a finite fact by nature |
| C62 | GUI `key_ceremony_state_service.py` | decision logic, monotonicity |
| C63 | `verify_decryption` | uniqueness of the answerable challenge; general refutation |
| C64 | `verify_ballot` | decision logic, composition with C28 |
| C65 | `electionguard_tools/helpers/key_ceremony_orchestrator.py` | composition of guardian and mediator lemmas, induction over the rounds |
| C66 | `electionguard_tools/helpers/tally_ceremony_orchestrator.py` | composition of C65, C15 (tally and ballots) and the guardian lemmas |
| C67 | `electionguard_tools/helpers/election_builder.py`, `make_ciphertext_election_context` | induction over setter calls, hash binding |
| C68 | all of the above | composition |
| C69 | `electionguard_gui`: `ballot_upload_service.py`, `election_service.py`, `upload_ballots_component.py`, `decryption_stage_base.get_tally` | induction over uploads and over interleavings, composition with C60 |
| C70 | `electionguard_gui`: `decryption_s1_join_service.py`, `decryption_s2_announce_service.py`, `decryption_service.py`, `decryption_dto.py`, `view_decryption_component.try_run_stage_2` | invariant over all interleavings of an event machine, composition with C69 |
| C71 | `electionguard_gui`: `key_ceremony_stages/key_ceremony_s1..s6_*.py`, `key_ceremony_service.py`, `key_ceremony_state_service.py`, `guardian_service.py`, `key_ceremony_dto.py`, `key_ceremony_details_component.py`, `create_key_ceremony_component.create_key_ceremony` | invariant over all interleavings of an event machine; refinement to a phase machine for completion |
| C72 | `electionguard_gui`: `create_election_component.create_election`, `get_keys`, `export_encryption_package_component`, `election_service.create_election`, `election_dto.py`, `guardian_service.load_guardian_from_decryption`; `electionguard_cli`: `_get_manifest_raw`, `_build_election`, `output_setup_files_step` without the zip archive and the private keys | decision logic, invariants over sequences of calls; composition of C71, C69 and C70 |
| C73 | `manifest.py`: `get_name`, `get_selection_names`, `get_contest_names`, `get_i8n_value`; `electionguard_cli`: `print_results_step.py`; `electionguard_gui`: `plaintext_ballot_service.py` with exact fractions for the percentages | equivalence, refinement to a specification of the printed lines |
| C74, C75 | `electionguard_cli`: the commands `e2e`, `setup`, `encrypt-ballots`, `submit-ballots`, `import-ballots` with all their steps but the printing of progress, the reading of options and the format of the files; a directory is a dict from file names to typed contents, in any order when it is listed | soundness of the whole run, equivalence for its returning, composition of the commands, functional specification of the directories |
| C76 | `export.py`: `export_record` as a record of fixed files and four directories; `e2e_publish_step.py`, `import_ballots_publish_step.py`; `tally.py`: `publish` | an audit (`RecordView.Audited`) built from the verifiers and the checks of an ElectionGuard verifier: completeness for the exported records, soundness for all records |
| C77 | the verifiers, as in C76 | what an audited record says about the votes (`RecordView.ShowsVotes`), for all records in which no challenge is the lucky one (`RecordView.Lucky`) |
| C78 | GUI `export_election_record_component.py`: `export_election_record`, on top of C69 to C72 and C76; the archive and the choice of its place are left out | the checks of C76 that the result rests on (`RecordView.ResultAudited`) succeed for the record of every election made by the GUI, and it publishes the votes (`RecordView.Publishes`) |
| C79, C80 | `serialize.py`: `to_raw`, `from_raw`, `from_list_raw`, `padded_encode`, `padded_decode`, with Python's `json.dumps` and `json.loads` and dacite's `from_dict` for the classes that are written to files (`Model/Json.lean`, `Model/Serialize.lean`) | round trips, by recursion over JSON values; soundness of the reader for all texts |
| C81 | C78 with `from_raw` and `to_raw` for its parsers | composition of C78, C79 |
| C82 | the four provers of C03 to C09 (`Spec/ZeroKnowledge.lean` has them with explicit random numbers; `C82_*_prover` shows that the modelled code computes these) | honest-verifier zero knowledge, by counting: bijections between the random numbers of prover and simulator that keep the transcript |
| C83 | GUI `view_tally_component.py`: `get_tally`, `view_spoiled_ballot_component.py`: `get_spoiled_ballot`, `decryption_dto.py`: results (`Model/GuiReport.lean`) | composition of C70, C72, C73 |
| C84 | the decryption and the export of the GUI over texts (`Model/SerializeShares.lean`, `Model/GuiText.lean`): `decryption_service.py`, `decryption_dto.py`, `guardian_service.load_guardian_from_decryption`, `export_election_record_component.py`, `election_service.create_election` | refinement of the machine over texts to the machine of C70 over values; round trips |
| C85 | the key ceremony of the GUI over dictionaries and texts (`Model/GuiKeyCeremonyText.lean`): `db_serialization_service.py`, `key_ceremony_dto.py`, `key_ceremony_service.py`, the stages, `guardian_service.py`, `create_election` | refinement of the machine over dictionaries to the machine of C71 over values; composition with C84 |
| C86 | the commands of the CLI over the texts of their files (`Model/CliText.lean`): `input_retrieval_step_base.py`, `output_step_base.py` and the steps of the five commands | refinement of each command over texts to the command of C74 and C75 over values; round trips; composition |
| C87 | `ballot_factory.py` (`get_random_contest_from`, `get_fake_ballot`, `generate_fake_plaintext_ballots_for_election`) and the command `mark-ballots` over texts (`Model/Marking.lean`); `random.shuffle` and `random.randint` of the standard library, given what is drawn | the set of possible outcomes characterised exactly (both directions), by induction on shuffles and contests; composition with C86 |
| C88 | the record of an election that a quorum decrypts: C68 and C76 composed, with the parts of recovered shares in the record; the audit (`Spec/AuditQuorum.lean`) is a specification of what an auditor would check | soundness by Lagrange interpolation of the published commitments, completeness by following the mediator's reconstruction |
| C89 | `sample_generator.py` (all of `generate`), `election_factory.py:get_sample_manifest_with_encryption_context`, `export.py:export_private_data`; random numbers and clocks are arguments, the manifest is given as read, 5 and 3 guardians are arguments | composed from C65, C66, C68, C76, C87, C88 |
| C90 | GUI lists (`Model/GuiLists.lean`): `create_decryption_component.py`, `create_key_ceremony_component.py`, `create_election_component.py` (the computation of the election is an argument, see C72), `guardian_home_component.py`, `election_list_component.py`, `view_election_component.py`, and the service calls they make; every request to the database is one atomic step, other work is an arbitrary change of uploads, shares or stages | invariant over all interleavings; refinement of single requests to whole calls |
| C91 | GUI `db_watcher_service.py` (`Model/DbWatcher.lean`), with the deltas of `mongo-init.js`; time and callbacks are left out, a tailable cursor is a position | invariants over all interleavings |
| C92 | the theorems of C05, C06, C10, C11, C26, C68 and C74 at the constants of `constants.py` (`Props/Shipped.lean`); no new model | sizes by kernel computation, instantiation |
| C93 | `upload_ballots_component.py` `scan_drives`, `parse_drive`, `upload_ballots` (`Model/UploadWizard.lean`, on `Model/GuiBallots.lean`); the order of `os.listdir` is any order | refinement to a sequence of uploads, characterisation of the stored ballots |
| C94 | the `__eq__` methods of `ballot.py` and `manifest.py` and the list equality of `utils.py` (`Model/Equality.lean`); spec in `Spec/Equality.lean` | equivalence relations; characterisation by multisets |
| C95 | `rand_q`, `rand_range_q`, `elgamal_keypair_random` (`Model/Random.lean`); the draws are a list | induction over draws; counting of draw sequences |
| C96 | `to_ticks`, `to_iso_date_string`, the stamps of ballots and devices, and the calendar of Python's `datetime` (`Model/Time.lean`) | bijection of days and numbers; decision logic |
| C97 | `tally_accumulate.py` `accumulate_plaintext_ballots` (`Model/PlainTally.lean`) | induction over selections; agreement with the result of C60 |
| C98 | `big_integer.py` comparisons and hash, with Python's dispatch between operands (`Model/Compare.lean`) | case analysis; induction for dicts and sorting |
| C99 | `authorization_service.py`, `get_is_admin`, the `should_run` checks and the join call per session (`Model/GuiSession.lean`) | invariant over the event machine; refinement to the machine of C71 |
| C100 | `elgamal_encrypt` for lists of votes, any observer (`Spec/Ddh.lean`) | exact reduction to decisional Diffie-Hellman, hybrid argument by induction over the votes |
| C101 | `decrypt_selection_with_decryption_shares`, `partially_decrypt` | the share as an explicit function of the published number and the other shares; simulation with C82 |
| C102 | what `encrypt_contest` and `encrypt_selection` publish, with random numbers and challenges as in C82 (`Spec/PublishedBallot.lean`) | simulation of all proofs and exact reduction, induction over selections and contests |
| C103 | polynomials, commitments, backups, ballots and shares of one honest guardian as a coalition sees them (`Spec/Coalition.lean`) | simulation by interpolation in the exponent, bijection between polynomials and backups, exact reduction |
| C104 | `hashed_elgamal_encrypt`, `get_hmac`, contest data, backups (`Spec/HashedPrivacy.lean`: the key stream game) | one-time pad by bijection on byte strings, exact two-step reduction, linearity of sums for ballots with data |
| C105 | provers of `chaum_pedersen.py` with their hashed challenges, `hash_elems` (`Spec/RandomOracle.lean`: all functions on the texts of proofs) | redrawing a random function at different texts, counting of draws with equal texts or zero halves, then C102 |
| C106 | `is_valid` of the three Chaum-Pedersen proofs, `hash_elems` (`Spec/Forgery.lean`: programs that ask for hashes and then show proofs) | induction over the questions with one random value fixed at a time, then special soundness (C04, C06, C08) |
| C107 | guardian.py calls for backups and challenges, key_ceremony.py `generate_election_key_pair` and challenges (`Model/Guardian.lean`, `Model/KeyCeremony.lean`) | invariant over sequences of calls, then C10 and C11 for the values |
| C108 | `key_ceremony_mediator.py` (`Spec/KeyCeremonyRecord.lean`: the last call that put something on record) | induction over histories of calls, one lemma for both kinds of messages |
| C109 | `schnorr.py` `is_valid`, `DisjunctiveChaumPedersenProof.is_valid` (`Spec/Extraction.lean`: a program run twice) | forking with one replaced hash: counting of the runs text by text and the inequality of Cauchy and Schwarz (`Lemmas/Forking.lean`), then C09 and C04 |
| C110 | `decryption_mediator.py` all calls that change the mediator (`Spec/DecryptionRecord.lean`: which call puts what on record) | the record is what was put there last (`Lemmas/Record.lean`, also used for C108), by induction over the calls; both reconstruction loops are one loop |
| C111 | the audit of C77/C88 against a forger who asks a random oracle (`Spec/RecordForgery.lean`) | C77/C88 say that a wrong audited record has a lucky proof; the texts of lucky proofs have one hash modulo `q` for each key and limit, so the counting lemma of C106 applies to whole records |
| C112 | `scheduler.py` with objects and pools as state (`Model/Instances.lean`) | invariant: each pair of pools belongs to at most one object; running and closed are preserved by all other calls |
| C113 | `singleton.py` and the instances of `discrete_log.py` in the same state | the cache invariant of C26 for all instances together; settings by induction over the history |
| C114 | pairs of records (`Spec/TwoRecords.lean`) | votes are unique under one key (C04), so C88 for both records gives the same sums; C111 for both components of the forger |
| C115 | messages as a function of the same arguments, following the calls (`Model/EncryptLog.lean`) | each logging function is compared with the result of the function that it describes; induction over selections, contests, calls |
| C116 | the warning of the scheduler as text, with the `repr` of the key pair (`Model/Log.lean`) | the secret key is between two quotes after a fixed mark, and reading it back is C23 |
| C117 | handlers with identity and level (`Model/Log.lean`) | invariant: numbers of handlers are different; induction over the calls |
| C118 | the strategies as functions of the draws (`Model/Strategies.lean`) | the drawn manifest in closed form, then C40, C41 and C87 |
| C119 | `cast()` and `spoiled()` over any calls (`Model/TallyCounts.lean`) | induction over the calls; votes with C35, batches with C37 |
| C120 | `space_between_capitals` and the names of proofs (`Model/ProofName.lean`) | exact characterization by comparing lengths; injectivity by removing spaces |
| C121 | What the factories of the tests give (`Model/Factories.lean`) | both directions for selections; validity of contests by C40/C41; the fake ballot by the contests that encryption fills in |
| C122 | The places offered for an export and the archive written (`Model/ExportLocation.lean`) | exact characterization through the last slash and the last dot |
| C123 | The times that the GUI shows (`Model/GuiTime.lean`, on `Model/Time.lean`) | exact characterization; injectivity of the text up to the minute |

## Findings in the code as it is

Each is a theorem named `..._fails` with a concrete witness; the matching `_partial` theorem states what
holds.

* Group and proofs: a first proof nonce of 0 makes the 0-or-1 prover raise (C03); the range condition
  needed by the constant proof (C05); coordinates are checked with the exponent reduced modulo p (C10, C11);
  the SMALL_TEST constants are inconsistent (C61).
* Hashing: `hash_elems` is ambiguous for text with the separator and for `None`/"null" (C21); the
  manifest hash omits candidates, spec version and primary party ids (C42); the ballot hash omits the style,
  code, time stamp and placeholder flags (C51); the recomputed ballot hash depends on storage order (C58).
* Discrete log: a limit at or above q corrupts the cache, the async precomputation does not use the
  instance's cache (C26).
* Ballots: `votes_allowed` above `number_elected`, contest data above 510 bytes and manifests out of
  sequence order make encryption fail or give ballots that do not verify (C28); the validator ignores
  foreign and repeated contests, placeholder flags and the constant of the limit proof (C31, C32); a valid
  ballot out of sequence order becomes invalid when submitted (C33, C34).
* Tally: repeated or foreign contests, closed scheduler pool, batches with an id seen before, invalid
  cast ballots in a batch, one-shot iterators (C35, C37, C38).
* Data store: the read-only view's membership test and equality do not work (C54).
* Key ceremony: messages that name no announced guardian are counted (C44); incomplete backups are shared
  or raise (C45, a missing pair of parentheses); challenges are judged by the commitments they bring (C46);
  a late announcement changes the joint key (C43); the backup's own order is used for its verification (C47);
  an empty guardian id makes the mediator hand out the backups of all guardians (C65).
* Decryption: a share with an empty dict of recovered parts passes as valid, so a guardian that hands in its
  share last can make every selection decrypt to any number it likes, in any group (`C17_any_number_fails`);
  the key inside a share is not compared with the announced key (C17); a missing guardian is reconstructed
  from whichever compensated shares are there (C16; in a production-size group the wrong value has, but for
  chance, no discrete logarithm within the limit, so the call raises instead of reporting a number); a share
  that leaves selections out, or names another guardian, is counted (C49); a valid manifest may repeat a
  selection id in two contests, and then honest shares are refused (C14).
* Compact ballots: write-in texts are numbered from 1 when compressing and from 0 when expanding, so each text
  moves to the next selection and the last one is lost; a ballot that lists only the contests of its style
  raises `IndexError`, one in another order is read as other votes (C52, C53).
* Verifiers: `verify_decryption` reads `.proof.is_valid` of a share that has only recovered parts, so it raises
  `AttributeError` for every tally decrypted with a missing guardian (C57); it neither compares the reported
  number with the shares nor asks for a share of every guardian, so any accepted tally is also accepted with
  other numbers (C63); `verify_aggregation` ignores whether adding a ballot succeeded (C56).
* Ballot upload of the GUI: `get_ballots` skips every stored text whose last character is not `}`, so a ballot file
  with a line end is stored, counted in `sum_ballots`, left out of the tally, and its clean copy is refused as a
  duplicate; ballots without proofs are accepted and added (`get_tally` is called with `should_validate=False`);
  one ballot of unknown style makes every later tally of the election raise; two clients that upload the same file
  at the same time store it twice (C69).
* Decryption of the GUI: a cast ballot that is uploaded after the first guardian joined makes stage 2 raise for ever,
  because the mediator keeps the first shares of a guardian; a spoiled ballot uploaded then is left out of the decrypted
  ballots without notice; joining twice counts twice, so stage 2 can run (and raise) with a guardian missing; there is no
  compensation for a missing guardian, so the quorum of the election is of no use (C70).
* Key ceremony of the GUI: joining does not check who joined before.  Joining a second time overwrites the private key
  file while the first public key stays published, so the key is lost (also after the ceremony is complete); more guardians
  than the ceremony is for block it for ever.  Two sessions of one guardian that make backups at once give twice as many, the
  expected number is reached too early and the ceremony is stuck.  The private files never get the backups a guardian
  received, so compensation for a missing guardian is not possible from the files (C71).
* Election record of the GUI: the export reads the ballots that are in the database at the time of the export, but the results
  of the decryption are those of the time of the decryption, and uploads are never closed.  A cast ballot that is uploaded in
  between is in the record and not in its tally, so an auditor's check of the aggregation fails (`C78_late_ballot_fails`).  The
  guardian records have no commitments, so the key check of an auditor fails for every record (`C78_commitments_fails`), and the
  coefficients are keyed by sequence order, where those of the commands are keyed by guardian id.
* Elections created by the GUI: the published guardian records have neither commitments nor proofs; the path of the
  encryption package depends on the key ceremony only, so that a second election from a ceremony overwrites the package of
  the first; `create_election` takes all keys in the ceremony document, so that a guardian that joined after the joint key
  was published gets into the records and its share is taken instead of that of a guardian that holds the key: the result
  is wrong without an error when the exponent is found (always in a small group), else the decryption fails.
  `create_election` does not look at `completed`, only at the joint key (C72).
* Names: `is_valid` accepts a manifest with a selection whose candidate does not exist; the command line prints the
  candidate's id, the GUI can then show neither the tally nor a spoiled ballot (`KeyError`).  It also accepts two contests with
  the same selection id; the votes of the first are then shown under the candidate of the second.  It accepts a name
  without texts, and `get_name` raises `IndexError`, in the GUI and in every command (C73).
* Command line: `e2e` without `--output-record` raises `TypeError` in its last step, after the results were printed, and the
  guardians' keys are then not written even when `--output-keys` was given (C74).  A quorum above the number of guardians is
  accepted until the decryption.  `import-ballots` needs the key files of all guardians, whatever the quorum.
  `encrypt-ballots` writes `device.json` next to the ballots, and `submit-ballots` reads every file of its directory as a
  ballot, so the directory cannot be passed on as it is.  Of two ballots with the same id `encrypt-ballots` keeps the last
  without a word, and a ballot with the id `device` replaces the device's file.  `submit-ballots` leaves out invalid and
  repeated ballots without a word; a second run can spoil a ballot that the first one cast (`C75_two_runs_fails`).  The file of
  a submitted ballot is read as an encrypted ballot, since the reader ignores what it does not know: the whole output of one
  run of `submit-ballots` is accepted as the input of another, where spoiled ballots can be cast (`C75_resubmit_fails`).
* Election record: of several devices, ballots or guardians with the same id only the last is in the record.
  `verify_aggregation` compares only with a `CiphertextTally`; the record has a `PublishedCiphertextTally`, which it always
  rejects.  The auditor of C76 makes the former of the latter, with the ids of the cast and spoiled ballots of the record (C76).
* Files: dacite reads a manifest without the `primary_party_ids` of its contests, since `Manifest.contests`
  is declared with the class `ContestDescription`, which does not have the field.  A manifest that is invalid because a primary party is unknown is valid after it was written and read, and
  has the same hash (`C79_primary_parties_fails`).  Elements may be given as JSON numbers and as `true`.  A `CiphertextTally`
  is written with lists for its sets of ids, and dacite refuses to read them (`export_record` writes a
  `PublishedCiphertextTally`, which is read back).  Of two members with the same name the last one counts.
* Proofs: `make_disjunctive_chaum_pedersen_one` raises when its random number `w` is 0, `make_disjunctive_chaum_pedersen_zero` does not.
  A proof with `proof_zero_challenge` 0 therefore reveals that the selection is not marked (`C82_zero_half_reveals_fails`).
  With the standard parameters this never happens in practice.
* Joining: whether a user may join a key ceremony or a decryption (`can_join`) is only used by the pages to show or hide a link; the server does not check it.
  A user that joins only when it is offered joins once (`C71_offered_once`); what happens otherwise is `C71_rejoined_fails`.
* `public_key_to_dict` (db_serialization_service.py:10-27) stores `str(cp.usage)`, which is the name `ProofUsage.SecretValue` and not the value of
  the enumeration, and `_dict_to_election_public_key` (key_ceremony_dto.py) leaves the parts of a proof as plain texts.  The deserializer of the
  core refuses such a dictionary (`C85_usage_fails`), and `is_valid` could not be called on the proofs that are read from it.  No stage of the
  key ceremony verifies the proofs, so nobody notices.
- `mark-ballots` marks contests with a vote for each seat; where a contest allows more votes than seats, no ballot marked in
  this way can be encrypted (`C87_votes_allowed_fails`, the same mismatch as in C28 and C55).  The factory raises for a
  contest without seats when undervotes but no null votes are allowed, the defaults of
  `generate_fake_plaintext_ballots_for_election` (`C87_no_seats_fails`).
- A record of a decryption with missing guardians can be audited from what it contains (C88), but `verify_decryption` raises
  for it (`C88_shipped_verifier_fails`), as it looks only at the proofs of whole shares.
- The spoil rate of the sample generator is documented as a percentage from 0 to 100, but is compared with one of 101 numbers: with a rate of
  100 a ballot can still be cast (`C89_spoil_rate_fails`).
* Lists of the GUI: names are checked and inserted in two requests without a unique index, so two front ends can create two key
  ceremonies, elections or decryptions of the same name (`C90_names_fails`).  The suggested name of a decryption counts the decryptions of
  the election, so it can be taken already, and is then suggested and refused again and again until somebody chooses another one
  (`C90_suggestion_fails`, `C90_suggestion_stuck`).  The number of ballots of a decryption is that of the time of its creation, not of the
  ballots that are decrypted (`C90_ballots_fails`).  `create_decryption` tests for an election that is `None`, but `get` raises instead.
  A key ceremony for no guardians with a quorum of -1 is created.
* Watching of the GUI: a page reads its data before the watch has skipped the old deltas, and a change in between is never reported; in a
  key ceremony the stage that the change should start then waits (`C91_start_fails`).  All watches of a process share one event: a page that
  opens sets it again before the watch of the page that was left has seen it cleared, which then goes on (`C91_stop_fails`), and a
  late request to stop ends the watch of the new page (`C91_late_stop_fails`).
* Test constants: with `PRIME_OPTION=TestOnly` the powers of guardian numbers pass `p` from 17 guardians with a quorum of 17 on, and honest
  shares are then rejected (`C92_test_share_fails`); `q` is below the limit of the discrete logarithm (`C92_test_sizes`).
* Upload wizard: `scan_drives` parses every drive with both directories, so one without a device file stops it though another drive is
  good (`C93_other_drive_fails`).  `upload_ballots` scans again and uploads whatever drive is then first, not the one that was shown
  (`C93_shown_fails`).  A run that reports a failure keeps the ballots before the bad file (`C93_failed_run_stores_fails`).
* Equality: plaintext ballots with a vote for the same selection id in another contest are equal, and so are ballots with other ids
  (`C94_plaintext_fails`).  Ciphertext ballots that differ in the accumulation of a contest or the extended data are equal
  (`C94_ciphertext_fails`).  Manifests with reordered contests are equal and have different hashes (`C94_manifest_fails`).
* Random numbers: `rand_range_q(0)` is always 0, since the loop starts with 0 (`C95_start_zero_fails`).  The keys of guardians come from
  `rand_q`, not from the range 2 to q - 1 that `elgamal_keypair_random` uses (`C95_guardian_key_fails`).  With a nonce the coefficients of a
  polynomial are nonce, nonce + 1, ...; one coordinate gives the secret away (`C13_nonce_fails`).
* Times: `make_ciphertext_submitted_ballot` and `EncryptionDevice.get_timestamp` take `utcnow()`, which is naive, and read it as local time;
  they are wrong by the offset of the machine (`C96_submitted_time_fails`).  Naive dates are UTC in texts and local in ticks
  (`C96_naive_fails`).  Before 1970 fractions are cut towards the epoch (`C96_epoch_fails`).
* The oracle of the tests, `accumulate_plaintext_ballots`, counts the votes of overvoted contests, which the encryption drops
  (`C97_overvote_fails`).
* An element does not equal its own `.value` (an `mpz`), although both equal the same `int` (`C98_mpz_fails`); compared with
  a text, `None` or an `mpz` it is neither smaller, equal nor greater, and no exception tells (`C98_order_fails`).
* The join calls of the GUI do not check the role: an administrator can become a guardian although the page offers them
  no join button (`C99_admin_joins_fails`).  The user of a program is whatever the browser last said, so one program can hold
  the keys of all guardians (`C99_two_names_fails`).  Stage 3 asks for the user before it looks at the role, so an administrator
  that is not logged in gets an exception and neither shares backups nor publishes the key (`C99_anonymous`).

- `make_constant_chaum_pedersen` (chaum_pedersen.py:504-533) does not hash the constant.  Whoever may choose the constant after the hash shows
  accepted proofs of false sums (`C106_free_constant_fails`, in the group of order 13).  In large groups the accepted constants are below
  10^9, which bounds the gain (`C106_sums_partial`); a verifier must compare the constant with the limit of the manifest
  (`C106_ballots_partial`).

- `generate_polynomial` with a nonce (election_polynomial.py) uses the coefficients nonce, nonce + 1, …: whoever knows the secret key of a
  guardian made from a nonce knows the whole polynomial (`C107_key_pair_nonce`).
- `all_election_partial_key_backups_received` (guardian.py) compares only the number of different owners with the number of other guardians; it
  looks neither at who they are nor at whom the backups are for (`C107_backups_received`).
- `Candidate.crypto_hash` (manifest.py:314-319) does not include `is_write_in`: candidates that differ only in it have the same hash
  (`C42_write_in_fails`).

- `reconstruct_shares_for_tally` skips missing guardians that have a share, also one it reconstructed itself from too few
  compensations; calling it again when all compensations are there changes nothing (`C110_early_reconstruction_fails`,
  `C110_tally_share_stays`).
* `Singleton.__instance` belongs to the base class, so all derived classes share it, and the log is constructed first, at
  import: `DiscreteLog.get_instance()` and `Scheduler.get_instance()` answer with the log (`C113_get_instance_fails`). The
  constructors make a new object each time (`C113_two_schedulers_fails`), and because decryption uses `DiscreteLog()`,
  `set_max_exponent` and `set_lazy_evaluation` have no effect on it (`C113_settings_fails`).
* `with Scheduler()` opens pools in the constructor and again in `__enter__`; `__exit__` closes the second pair only
  (`C112_abandoned_fails`, `C112_leak_fails`).
- A ballot with a vote other than 0 or 1 is refused, and the selection with the vote is written to the log at level
  WARNING, twice (ballot.py:90, encrypt.py:205; `C115_vote_logged_fails`).
- `Scheduler.safe_starmap` (scheduler.py:78-95) writes all arguments into its warning.  For shares (decryption.py:250-254) these include
  the election key pair of the guardian, whose `repr` shows the secret key, and for compensated shares (291-304) the coordinate of the
  missing guardian: a closed scheduler or a task that raises puts them into the log (`C116_secret_key_fails`, `C116_coordinate_fails`).
- `set_stream_log_level` (logs.py:52-57) does not remember the handler it adds: after a second call the first level is still in force and
  messages that reach both levels are written twice (`C117_second_level_fails`).
- `batch_append` (tally.py:295-299) counts refused ballots: `cast()` is 1 after a batch of one invalid ballot (`C119_invalid_fails`).
- `space_between_capitals` (utils.py:160-166) gives only every other of several adjacent capital letters a space (`C120_adjacent_fails`); no class of proofs in the code has such a name.
- `get_selection_poorly_formed` (ballot_factory.py:196-213) is the same as `get_selection_well_formed`: the test for invalid selections only ever sees valid ones, with a wrong id to compare with (`C121_poorly_formed_fails`).
- `get_contest_description_well_formed` gives an invalid contest if an address is drawn twice (`C121_repeated_fails`); `get_fake_ballot` raises for a manifest with one contest (`C121_one_contest_fails`).
- The GUI takes the ending off the place that was asked for (export_election_record_component.py:84): an export to `record.json` replaces `record.zip` (`C122_elsewhere_fails`).
- The GUI takes the fields of every time for UTC (eel_utils.py:24): a time that carries another zone is shown wrong (`C123_zone_fails`). No zone is shown, so times before and after the clocks are put back look alike (`C123_put_back_fails`).

## Not modelled

The other GUI components and services (the database calls modelled are those of C69 to C72, C84, C85, C90 and C91:
each service call on the database is one atomic step, `net` says which reads time out), the options of the command line, archives, the other sample factories and
test strategies other than those of elections (C118), JSON schema generation.

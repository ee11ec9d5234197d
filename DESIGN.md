# Formal model of agora-allosaurus-rs in Lean 4

Contents: 1 trusted base · 2 what is modelled, file by file · 3 simplifications and assumptions · 4 what is not modelled ·
5 per-property table · 6 what the proofs found out about the code · 7 testing the theorems · 8 module map.

## 1. Trusted base

* **Lean 4.33.0's kernel**, which checks every theorem. No compiled code is trusted: only `decide` evaluated by the kernel
  is used, for closed examples and for the primality certificate of the group order (Lucas' criterion, `Model/Field.lean`).
* **Axioms.** Every theorem in `MANIFEST.json` depends on a subset of Lean's three standard axioms `propext`,
  `Classical.choice`, `Quot.sound` (44 of them need only `propext` and `Quot.sound`, two only `propext`, one none; `AXIOMS.md` lists them one by one). No axiom is added.
* **Mathlib** definitions used in statements: fields, modules, linear maps, lists, `ZMod`, reals (only for the `f64` seed),
  permutations, finite cardinalities.
* **The model** (section 2) and the **specification vocabulary** `Verif/Spec.lean` and the small predicates defined beside the theorems.
  The transcription from Rust to Lean is by hand; every definition cites the lines it models.

A few theorems are quantified over a *hypothesis about a dependency*; these are written out as arguments, never as axioms:
`Pairing` (bilinear, non-degenerate, `G1` cyclic; instance `Pairing.field` over every field), `PointCodec` (canonical compression; instance in
`Props/Codec`), `Bare.Lawful` (scalars and points are read back; instance in `Props/Serde`), evaluation points `1..n` non-zero in the field (proved for
the real scalar field and every `n < 2^64`, `Props/Real`), the hash function (an arbitrary function of the exact bytes hashed).

## 2. What is modelled

All of `src/` except what section 4 lists, function by function, and the scenarios of `benches/updates.rs` and `src/tests.rs`:

| Rust file | Lean |
|---|---|
| `accumulator/acc.rs` | `Model/Key.lean` (accumulator operations), `Model/Codec.lean` (bytes), `Model/Hashing.lean` (`Element::hash/random`), `Model/Transcript.lean` (`from_transcript`) |
| `accumulator/key.rs` | `Model/Key.lean` (`batch_additions/deletions`, `create_coefficients`), `Model/Codec.lean`, `Model/Hashing.lean` (`SecretKey::new`) |
| `accumulator/utils.rs` | `Model/AccUtils.lean` (`dad`, `Polynomial`, `PolynomialG1`), `Model/Hashing.lean` (`generate_fr`, `hash_to_g1`) |
| `accumulator/witness.rs` | `Model/AccWitness.lean`, `Model/Codec.lean` |
| `accumulator/proof.rs`, `proof_message.rs` | `Model/AccProof.lean`, `Model/Codec.lean`, `Model/Hashing.lean` (`ProofParams::new`) |
| `utils.rs` | `Model/Shamir.lean`, `Model/Transcript.lean` (`AccParams`, transcript), `Model/Hashing.lean` (`AccParams::default`), `Model/Codec.lean` (`g1`, `sc`) |
| `servers.rs` | `Model/Server.lean`; `Model/Crash.lean` (the same methods statement by statement, keeping the state a panic leaves) |
| `user.rs` | `Model/User.lean`, `Model/Crash.lean`, `Model/Float.lean` (the `f64` seed and 64-bit arithmetic of the chunk-size search), `Model/Release.lean` (update with wrapping arithmetic, also of `servers.rs`), `Model/Cost.lean` (operation counts and records, also of `servers.rs`, `utils.rs`, `accumulator/witness.rs`; C90, C101), `Model/CostCred.lean` (operation records of enrolment, presentation and their checks, also of `servers.rs`, `accumulator/witness.rs`, `accumulator/proof.rs`; C107) |
| `witness.rs` | `Model/Credential.lean`, `Model/Codec.lean` |
| `derive(Serialize, Deserialize)` | `Model/Serde.lean` (BARE format), `Model/SelfDescribing.lean` (formats with field names; C112) |
| `HashMap`/`HashSet`, `impl Hash for Element` | `Model/HashTable.lean` (bucket tables; C80) |
| scalars from bytes (`generate_fr`, `from_transcript`) | `Model/Random.lean` (64 bytes modulo the order; C82) |
| `benches/updates.rs` | `Model/Bench.lean` (the single-server update and the messages; C102; the threshold update there: C68) |
| `impl Display`, `derive(Debug)` of what holds secrets | `Model/TextOutput.lean` (C113) |
| field constants | `Model/Field.lean` (group order of BLS12-381, proved prime) |

## 3. How it is modelled; simplifications

* **Scalars** are an arbitrary field `F` with decidable equality; byte-level theorems use `Fr = ZMod r` with the real order.
* **Groups** `G1`, `G2`, `Gt` are arbitrary `F`-modules (Gt additive, as in the code), the pairing a bilinear non-degenerate map. Multi-scalar
  multiplication and multi-pairings are the sums they compute; affine/projective conversions are the identity.
* **Randomness** is an explicit argument; theorems quantify over all of it (secrecy theorems count it).
* **Hashing** is an arbitrary function of the exact list of labels and bytes. Binding theorems exhibit a collision.
* **Adversaries** (C70–C72, C77–C82, C84–C88) are arbitrary trees of hash queries (`Lemmas/Forking.lean: OracleProg`) with finite extra randomness; there the hash is a
  uniformly random function on a finite set of queries that contains all that are ever asked (such a set always exists: `C70_query_set`). C89's adversary is an arbitrary tree of moves for any fixed hash function. Its game has more servers than the threshold, fewer than `t` liars, at most one of them among the first `t + 1`, whose answers have the right lengths (C39, C40 show what happens otherwise); the caller sets the epoch after `post_update` (C27); only persons not deleted since their epoch update.
* **Panics** are values: `Rust α = Except Abort α`. `unwrap`, indexing, `usize` subtraction and division are explicit. Overflow checks are on
  (debug profile); the 64-bit search is modelled separately (C64), and release builds (wrapping arithmetic) in `Model/Release.lean`, with a proof that they
  return the same results (C73).
* **Loops** run with fuel; termination theorems show some fuel suffices and that more does not change the result; non-termination is "diverges for
  every fuel".
* **HashMap/HashSet** are association lists with the operations used; that the iteration order cannot be observed is proved (C63, C69); the same for servers on real bucket tables (C80).
* The `f64` seed of the chunk-size search is an argument `seed : Nat → Nat` with `seed d ≥ 1` for `d ≥ 1` in the protocol theorems; the code's
  seed (IEEE rounding to nearest even of conversion, product and square root) is modelled in `Model/Float.lean` and proved to satisfy this (C64).
* `serde` is modelled for the BARE format (the one the crate uses) and for self-describing formats (JSON trees); scalars and points are written by the dependency (parameter).

## 4. What is not modelled

Field and curve arithmetic, pairing, hash-to-curve, the insides of SHAKE, Merlin and RNGs (dependencies; SHAKE and Merlin are functions or random oracles); their time and memory; constant-time
behaviour and zeroization (`DefaultIsZeroes`); `{:#?}` and the derived `Debug` of types without secrets; `Vec` capacities (`with_capacity`); the blanket
conversions `From<…>` that only wrap a newtype (they are the identity in the model); the characters of JSON texts (C112 models the tree). Computational hardness (q-SDH, discrete logarithm, random oracle) is
never assumed: soundness theorems compute the solution of the hard problem (or a hash collision) from the forgery, and C70–C72, C79, C81, C84–C86, C88, C104–C106 bound the probability of that from below by the forging probability, for a random hash.

## 5. Properties and how they are proved

"Fails" marks a property that is false of the code as it is: then the theorems prove the negation (for all inputs where possible, always with a concrete instance)
together with what does hold. No theorem is partial.

| Id | Property | Proof | Theorems (in `Props/…`) |
|---|---|---|---|
| C01 | Membership verification decides the accumulator relation | bilinearity and non-degeneracy turn the pairing check into the group equation | Accumulator: `_verify_iff`, `_unique` |
| C02 | MembershipWitness::new always yields a verifying witness, member or not | same, plus the exact panic condition | Accumulator: `_new`, `_panic`, `_nonmember` |
| C03 | Accumulator add/remove algebra | products over lists, permutation invariance, exact panic conditions | Accumulator: `_add_remove`, `_remove_add`, `_commute`, `_add_elements`, `_default`, `_remove_elements`, `_order`, `_add_remove_elements`, `_panic`, `_assign`, `_update_acc` |
| C04 | Batch update of a membership witness is correct | telescoping identity for the coefficient polynomials, by induction over the two lists | Accumulator: `_batch_update`, `_update_panics` |
| C05 | A removed element's witness is left untouched and no longer verifies | `dad = 0` exactly for a listed element; cancellation in the module | Accumulator: `_removed_unchanged`, `_error_iff`, `_removed_rejected` |
| C06 | Multi-batch update equals the sequence of batch updates | loop invariant of `evaluate_deltas` against the fold of single deltas | Accumulator: `_multi_eq_sequence`, `_multi_eq_sequence_non`, `_removed_unchanged`, `_empty_coefficients_differ` |
| C07 | Multi-batch update follows any accumulator history | induction over the update history, with C04/C09 as step | Accumulator: `_history`, `_history_non`, `_history_total` |
| C08 | Non-membership witness issuance is exact | division with remainder of the set polynomial; exact `None`/panic conditions | Accumulator: `_none_iff`, `_some`, `_panic` |
| C09 | Batch update of a non-membership witness is correct | as C04 with the extra scalar | Accumulator: `_batch_update_non`, `_deleted_unchanged` |
| C10 | Non-membership verification rejects members (fails: d = 0 is accepted) | fails: `d = 0` accepted; explicit forgeries for every member, exact acceptance condition | Accumulator: `_verify_iff`, `_member_accepted`, `_update_across_own_addition`, `_single_update_across_own_addition`, `_counterexample` |
| C11 | Single-change witness update is correct; multi-change is not | one change: algebra; sequences of single changes: induction; several changes at once: refuted, with the exact condition | Accumulator: `_single_add`, `_single_delete`, `_own_delete`, `_single_add_non`, `_single_delete_non`, `_sequence`, `_sequence_non`, `_own_delete_later`, `_two_deletions`, `_two_additions`, `_mixed`, `_counterexample` |
| C12 | Polynomial arithmetic is evaluation-homomorphic | induction over coefficient lists | Poly: `_eval_degree`, `_arith`, `_lengths`, `_eval_hom` |
| C13 | Point-polynomial arithmetic is evaluation-homomorphic | induction over coefficient lists | Poly: `_evaluate`, `_arith` |
| C14 | dad is the product of differences | induction | Poly: `_dad`, `_dad_zero` |
| C15 | Server state refines a set with a deletion log | refinement to `Spec.Registry`, induction over the calls | Server: `_refines`, `_member_spec` |
| C16 | Accumulator history of the server | invariant by induction over the calls | Server: `_history`, `_add_keeps` |
| C17 | Every witness the server stores is currently valid | invariant by induction over the calls | Server: `_stored_witnesses_valid` |
| C18 | delete and quick_delete agree on the public history | invariant + one step | Server: `_delete_quickDelete` |
| C19 | Mixing quick_delete and delete revives the quick-deleted user | fails: the revived witness is computed from public values | Server: `_revival` |
| C20 | The server never panics on its own bookkeeping | invariant; exact panic conditions | Server: `_no_panic` |
| C21 | Witness issuance is gated and correct | case analysis of the gate, algebra | Server: `_witness` |
| C22 | create_witness gives an enrolled user a verifying witness | invariant + pairing equations | Server: `_create_witness`, `_getters`, `_nonmember` |
| C23 | check_witness decides both credential equations | pairing equations | Server: `_check_witness` |
| C24 | Stale witnesses of deleted (or not updated) users are rejected | products over the window of deletions | Server: `_stale`, `_single` |
| C25 | The ALLOSAUR update brings a witness to the current epoch | chunk polynomials, Lagrange interpolation in a module, loop invariants of server and user, search termination | Real: `_bls`; Update: `_update` |
| C26 | A deleted user cannot update | the chunk containing the id evaluates to zero | Real: `_bls`; Update: `_deleted` |
| C27 | Updates can be repeated (fails: update forgets the epoch) | fails: exact condition under which a second update is valid | Update: `_second_update`, `_with_epoch_set` |
| C28 | Updating an up-to-date user (fails: panics) | fails: panics for all arguments | Update: `_epoch_zero_panics`; UpdateServer: `_no_new_epoch_panics`, `_future_epoch_panics` |
| C29 | Threshold validation and argument errors of update | case analysis | UpdateServer: `_threshold`, `_update_errors`, `_error_unchanged` |
| C30 | Server::update response shape and termination | loop measure; divergence for every fuel | UpdateServer: `_update_shape` |
| C31 | Server::update on plain powers is the exact update | loop invariant, induction over the window | UpdateServer: `_plain_powers` |
| C32 | Chunk-size selection terminates and balances | measure; minimality by monotonicity | UpdateServer: `_chunk_size`, `_prepare` |
| C33 | Shamir share/rebuild round trip | Lagrange interpolation | Real: `_bls`; Shamir: `_shares`, `_shares_onto`, `_zero_threshold`, `_round_trip`, `_any_t_shares` |
| C34 | Rebuild is linear: affine combinations and point multiples of shares | linearity of interpolation | Shamir: `_affine`, `_affine_scalar` |
| C35 | The consistency check is exact when the first evaluation point is 1 | interpolation through t points and vanishing of the error polynomial | Shamir: `_exact`, `_tamper`, `_rest_ignored`, `_exact_scalar`, `_tamper_scalar`, `_rest_ignored_scalar` |
| C36 | The consistency check for other evaluation points (fails) | fails: exact acceptance condition for other first points | Shamir: `_honest_accepted_iff`, `_honest_accepted_iff_scalar`, `_counterexample` |
| C37 | Fewer than t servers learn nothing about the user id | translation of the polynomial coefficients by the interpolating polynomial; bijection, counting; all sessions jointly | Real: `_bls`; Secrecy: `_secrecy`, `_sessions`, `_equal_counts`, `_t_servers_learn_the_id` |
| C38 | Lying servers cannot make the user accept a wrong witness (n > t) | exactness of the redundancy check, chunk by chunk | Malicious: `_one_liar`, `_accepted_is_valid`; Real: `_bls` |
| C39 | Too few honest servers among those used: liars control the result | explicit lies, for every target value | Malicious: `_control` |
| C40 | Response-length mismatches crash or are detected | loop invariant of the collection loop; exact panics | Malicious: `_malformed_panics`, `_ok_needs_enough` |
| C41 | Silent (lagging) servers other than the first are tolerated | the collected shares do not depend on the silent servers; failure with first server silent | Silent: `_silent_ok`, `_silent_exact`, `_first_silent_rejected`, `_lagging_ok` |
| C42 | Credential membership proof is complete | sigma-protocol algebra | Credential: `_complete`, `_user`, `_user_keys` |
| C43 | Credential membership proof is special-sound | extractor by division of the responses | Credential: `_special_sound`, `_extracts_prover` |
| C44 | Credential membership proofs are perfectly anonymous | bijection of the randomness; transitivity on accepted proofs; families | Credential: `_simulation`, `_accepted_iff`, `_anonymous`, `_sessions` |
| C45 | A proof is bound to accumulator, keys and ephemeral challenge | equal challenges with different transcripts; injectivity of the transcript in each component | Credential: `_binding` |
| C46 | VB membership proof is complete | algebra of `finalize`; end to end from issuance through updates (`C46_issued`) | AccProof: `_finalize_iff`, `_complete`; EndToEnd: `_issued`, `_stale` |
| C47 | VB membership proof is special-sound | extractor | AccProof: `_special_sound`, `_extracted_is_witness`, `_extracts_prover` |
| C48 | VB membership proof responses leak nothing beyond the commitments | bijection of blinders; the triple determines the witness | AccProof: `_responses`, `_same_triple`, `_any_proof_is_honest`, `_triple_determines_witness` |
| C49 | VB non-membership proof is complete | algebra of `finalize`; exact panic | AccProof: `_panics_iff`, `_finalize_iff`, `_complete`; EndToEnd: `_issued`, `_stale`, `_added` |
| C50 | VB non-membership proof is special-sound and implies d != 0 | extractor | AccProof: `_special_sound`, `_extracted_is_witness`, `_extracts_prover` |
| C51 | Shared blinding links proofs to the same message | linear response in the message | AccProof: `_mem_mem`, `_mem_non`, `_linked_mem_mem`, `_linked_mem_non`, `_hidden_unlinked`, `_reuse_reveals` |
| C52 | Proof serialization round-trips | byte splitting lemmas | Codec: `_cred_layout`, `_mem_layout`, `_cred_decode`, `_cred_roundtrip`, `_cred_unique`, `_mem_decode`, `_mem_roundtrip`, `_mem_unique` |
| C53 | Scalar and key decoding is canonical | base-256 digits | Codec: `_accept_iff`, `_roundtrip`, `_points`, `_coefficient`, `_non_membership` |
| C54 | Hash inputs are domain separated | prefix analysis of the hashed strings | Hashing: `_random_is_hash`, `_scalars`, `_params_distinct`, `_params_injective`, `_acc_params`, `_random_accumulator`, `_exact` |
| C55 | Enrollment proof of key is complete and special-sound | Schnorr algebra; replay | Enrol: `_complete`, `_special_sound`, `_special_sound_applies`, `_accept_iff`, `_replay` |
| C56 | User::random produces a consistent user | pairing equations | Enrol: `_random` |
| C57 | Whole-system histories: members' first update always succeeds | invariant over interleavings of a world of servers and users | Real: `_bls`; World: `_recorded_valid`, `_proof_accepted`, `_update_succeeds` |
| C58 | Servers that answer for the wrong window | window shift; C38 for the detected case, explicit failure for n = t | Silent: `_wrong_window`, `_exact_threshold_lagging_corrupts` |
| C59 | Revocation soundness reduces to q-SDH | simulation of the whole life from power points; partial fraction extraction | Revocation: `_revocation_sdh`, `_forged_proof` |
| C60 | VB accumulator (non-)membership soundness reduces to SDH | division with remainder extraction | Revocation: `_membership_forgery`, `_nonmembership_forgery`, `_both_witnesses` |
| C61 | Credentials for ids that never enrolled reduce to q-SDH | simulation of enrolments, extraction | Signature: `_unenrolled_sdh`, `_exception` |
| C62 | What enrolment does and does not protect | explicit attacks; simulator | Signature: `_anyone_enrols`, `_any_key`, `_request`, `_zero_knowledge` |
| C63 | Panics leave servers and users usable; hash-map order is irrelevant | statement-level semantics; induction over calls and iteration orders | Crash: `_call`, `_users_unread`, `_history`, `_create_witness`, `_update`, `_panic_state`, `_all_users` |
| C64 | Machine arithmetic and communication of an update | error analysis of f64 rounding; minimal chunk size; 64-bit bounds | Communication: `_f64_error`, `_f64_even`, `_seed_pos`, `_rounding_harmless`, `_communication`, `_near_optimal`, `_no_overflow` |
| C65 | What a non-membership proof hides | bijection of the remaining randomness | AccBinding: `_responses`, `_same_triple`, `_triple_determines_point` |
| C66 | What the accumulator proofs are bound to | cancellation; collisions; weak Fiat–Shamir attack | AccBinding: `_mem_accumulator`, `_mem_key`, `_non_accumulator`, `_non_key`, `_mem_both`, `_non_both`, `_mem_binding`, `_non_binding`, `_params_binding`, `_accumulator_must_be_hashed` |
| C67 | Slicing a batch of changes into many updates changes nothing | C04/C09 along slices, padding induction | Slicing: `_slices_cover`, `_slices_small`, `_accumulator`, `_size`, `_witness`, `_non_witness`, `_scenario` |
| C68 | Updates against servers whose public fields are filled in directly | fold of single updates; invariants of directly built servers; wrong base refuted | Direct: `_follow_log`, `_built`, `_sign_key_base`, `_bench` |
| C69 | Saving and restoring with serde is transparent | codec round trips; simulation up to permutation of set and map | Serde: `_types`, `_restore`, `_transparent`, `_read_wf`, `_message_bytes`, `_sizes` |
| C70 | Accepted credential proofs prove knowledge of a current member's credential | random functions on finite query sets; forking lemma (Cauchy–Schwarz) in `Lemmas/Forking`; C43, C59, C61 | Rom: `_knowledge`, `_revocation`, `_unenrolled`, `_query_set`, `_honest` |
| C71 | Accepted accumulator proofs prove knowledge of a (non-)member and its witness | forking lemma; C47, C50, C60 | Rom: `_membership`, `_nonmembership`, `_membership_in_set`, `_nonmembership_in_set`, `_honest`, `_honest_non` |
| C72 | Whoever is enrolled knows the secret key of its public key | forking lemma; C55 | Rom: `_enrol_knowledge`, `_honest` |
| C73 | Release builds never compute with wrapped-around numbers | wrapping model `Model/Release`; refinement against the checked model; error analysis of the f64 seed above 2^63 | Release: `_server`, `_prepare`, `_no_new_epoch`, `_prepare_future`, `_future_epoch`, `_update`, `_honest_update` |
| C74 | What lying servers learn from the outcome of an update | C37's translation with exact detection (C35); explicit polynomial offset for the attack | SelectiveFailure: `_selective_failure`, `_guess`, `_accepted_iff`, `_no_leak` |
| C75 | Replicated servers need to agree on deletions only | public state is a function of the deletion log (C15, C16); C25 | Replicas: `_same_log`, `_log`, `_order_of_adds`, `_update`, `_missed_add` |
| C76 | Updating and presenting any number of times is anonymous | C37 and C44 combined along C25; shear of the product of the randomness spaces | Anonymity: `_anonymous` |
| C77 | Membership proofs are not malleable | linear algebra on the differences of responses; non-degenerate pairing | NonMalleable: `_nonmalleable`, `_other_context` |
| C78 | Proofs reveal nothing, even to adversaries that choose whom and what to ask | Lemmas/Simulation: lazy sampling = eager sampling by induction on the program; hybrid by induction; bijection of C44; counting for the collision bound | NonMalleable: `_prover`, `_zero_knowledge`, `_worlds`, `_query_set` |
| C79 | Collecting proofs does not help to make other proofs | C78's simulation turned into a program without users, C70 (forking), C77 for copies, C59 for revocation | NonMalleable: `_fresh_transcript`, `_not_a_copy`, `_revocation`, `_example` |
| C80 | Servers behave the same with every hash table | invariant of hash tables (every entry in the bucket of its hash, keys distinct); each operation refines the one on association lists up to permutation; induction on the history | HashTable: `_any_hash`, `_witness`, `_element_hash`, `_run` |
| C81 | Enrolment requests reveal only the public key and cannot be reused for others | the create_witness request as a three-move prover for Lemmas/Simulation (bijection between nonces and responses, guessing bound by counting); forking for the extraction | EnrolZk: `_nonmalleable`, `_request`, `_zero_knowledge`, `_extract`, `_impersonation`, `_query_set`, `_example` |
| C82 | Scalars made from bytes are as good as uniform | counting residues below 2^512; hybrid argument over the queries of an oracle program (Lemmas/Sampling); birthday bound; byte adversaries translated by choosing the bytes behind a scalar at random | Random: `_each_scalar`, `_several`, `_generate_fr`, `_random_ids`, `_challenges`, `_query_set`, `_knowledge` |
| C83 | What a user's calls can and cannot change | case analysis of one call, induction over histories; C17, C21 and C23 for the foreign keys | UserCalls: `_frame`, `_updates`, `_enrol_resets`, `_foreign_keys` |
| C84 | Revocation holds against adversaries that steer the server | perfect simulation of the server from power points (coefficient lists instead of points), by induction on the adversary's program; change of variables v = b∏(y+α); forking lemma; C43 | Adaptive: `_simulation`, `_forgery`, `_deleted`, `_credential`, `_not_added`, `_query_set`, `_presentation`, `_insider` |
| C85 | Only the issuer's signing key makes credentials, against adversaries that steer the issuer | perfect simulation of the issuer from power points (K1 = aX, K0 = bX with X = ∏(y+s)B), by induction on the adversary's program; change of variables; forking lemma; C43 | AdaptiveSign: `_simulation`, `_forgery`, `_credential`, `_not_enrolled`, `_two_problems`, `_query_set`, `_presentation` |
| C86 | The accumulator is sound against adversaries that steer it | perfect simulation from power points incl. batch coefficients (induction over the loops), by induction on the adversary's program; forking lemma; C47, C50 | AdaptiveVb: `_simulation`, `_forgery`, `_witness`, `_query_set`, `_membership_proof`, `_nonmembership_proof` |
| C87 | Accumulator proofs reveal nothing unless the decision linear problem is easy | hybrid argument over the proofs; perfect simulation for a given triple (C48, C65) by lazy sampling of the hash; resampling one triple | VbZk: `_membership`, `_membership_worlds`, `_nonmembership`, `_nonmembership_worlds`, `_prover`, `_query_set`, `_example` |
| C88 | Presentations need the credential of a corrupted user, whatever happens at the server | one simulation of server, issuer and honest users (invariant of C84, answers of C85, programmed hash of C78); change of variables for the secrets; forking | Full: `_unforgeable` |
| C89 | Anonymity in one game with enrolment, revocation, lying servers and presentations | for each move a bijection of the random choices (share polynomials C33, presentation randomness C44) that keeps the adversary's view; invariant relating the two worlds' user states; induction over the adversary tree | AdaptiveAnon: `_anonymous`, `_live`, `_enrol` |
| C90 | The work of an update and of the server's operations | the functions written again in a counting monad (Model/Cost.lean), proved to compute the same as the model for all inputs; loop invariants for the counters; C64 for the number of chunks | Cost: `_same`, `_changes`, `_server_update`, `_post_update`, `_batch_update`, `_update` |
| C91 | What identity points cost, and when they arise | linear algebra on the verification equations; the history theorem C16 for servers; a family of counterexample histories for mixed deletion | Degenerate: `_identity_accumulator`, `_identity_accumulator_credential`, `_becomes_identity`, `_server`, `_mixing`, `_zero_key`, `_identity_keys`, `_identity_params`, `_identity_z`, `_identity_z_linkable` |
| C92 | What repeated randomness reveals | explicit formulas (quotients of response and challenge differences; differences of shares) checked for all inputs | Reuse: `_presentations`, `_mem_proofs`, `_non_proofs`, `_shared_blinding`, `_update_queries` |
| C93 | Restoring an old copy of a server | C75 (equal logs) for the repeated case; affine dependence of the followed log on the start witness for the rest | Rollback: `_repeated`, `_update_iff`, `_lost_future`, `_revives` |
| C94 | Several credentials for one id; re-adding a revoked id | the two verification equations are independent; C17 and C21 for what Server::witness returns; C26 with the log only growing | Readd: `_one_fate`, `_reinstated`, `_update_refused` |
| C95 | The crate's own tests, for every random choice | the tests as programs (Model/Suite); C02, C06–C13, C33, C34, C46, C49 for the accumulator tests; enrolment invariant, C25, C42, C45 for the system tests | Suite: `_accumulator`, `_false_witness`, `_key`, `_update_test`, `_batch_tests`, `_proofs`, `_growing`, `_shamir`; SuiteSystem: `_witness_issue`, `_witness_update`, `_split_update`, `_present_all`, `_present_stale` |
| C96 | post_update on arbitrary answers | closed form of the collecting loop (columns), of the coefficients (Lagrange) and of the check (C36); a specification by polynomials that mentions none of them | PostUpdate: `_total`, `_accept_iff` |
| C97 | Recovering the witness from a round with lying servers | emptied liars leave the honest answers emptied (C41 exact case); uniqueness of witnesses for an id other than the negative key | Recovery: `_recover`, `_deleted` |
| C98 | The exact transcripts and responses, for interoperability | specification lists the labels, messages and equations literally; unfolding and bilinearity | Wire: `_check`, `_make`, `_enrol`, `_membership_check`, `_membership_make`, `_nonmembership_check`, `_nonmembership_make`, `_params`, `_separate` |
| C99 | An accumulator binds to the multiset of its elements | the accumulated value is a monic polynomial in the key whose roots are the multiset; a nonzero difference has at most degree many roots | Binding: `_binding`, `_collision_reveals_key`, `_updates`, `_removed_rejected`, `_epochs` |
| C100 | What the accumulator does not check | direct computation with the accumulator equations; C99 for the bound on keys | Multiplicity: `_one_witness_per_d`, `_both_claims`, `_add_twice`, `_removed_once`, `_remove_absent` |
| C101 | The sequence of operations does not depend on secrets | the programs of C90 recording a list of operations instead of counters; proved to compute the same and to contain the counts of C90; a relational (two-run) calculus follows both runs in lockstep | Trace: `_same`, `_server_update`, `_prepare`, `_post_update`, `_changes`, `_batch_update` |
| C102 | The single-server update and the bytes of all update messages | induction over the slices with C03, C04; lengths of the encodings; C64 for the numbers of scalars; arithmetic for the comparison | Bench: `_messages`, `_allosaur`, `_single_server`, `_slices`, `_single_server_bytes`, `_fewer_bytes`, `_more_bytes` |
| C103 | Deletions between the messages of an update | closed form of the answers for an arbitrary number of epochs; reconstruction (C34, C25) and the affine effect of following a log | Race: `_result`, `_valid_iff`, `_race`, `_same_shares` |
| C104 | Hashed generators have no trapdoor | masking: hand out aᵢg + bᵢX as the hash table; change of variables on finite averages, forking lemma with the table among the coins | Generators: `_discrete_log`, `_presentations`, `_revocation`, `_key_relation`, `_uniform`, `_proof_params_good`, `_membership`, `_nonmembership`, `_query_set`, `_honest` |
| C105 | Unforgeability from SDH and discrete logarithms alone | C88 for given X, Y, Z, averaged over them by Jensen's inequality; its two exceptional cases become discrete logarithms by C104, with a simulator that gets K1 and K0 as points | FullHashed: `_unforgeable`, `_corrupted`, `_outsider` |
| C106 | The guarantees hold for the randomness the code really draws | for distinct seeds SHAKE128 overwritten at the seeds by fresh bytes is again a random function; the run differs only if a query meets a seed, and the seeds are independent of the run; then C82, C89 and C105 | ClientRandom: `_game`, `_anonymous`, `_unforgeable`, `_outsider` |
| C107 | Showing, checking and issuing credentials perform the same operations for everyone | recording versions of the functions (Verif.Model.CostCred), proved to return the same; their records are equal to explicit lists | TraceCred: `_same`, `_show`, `_alike`, `_check`, `_enrol`, `_create_witness`, `_vb`, `_counts` |
| C108 | Users are anonymous only among those who were given the same accumulator | from C25, C42, C55 (validity), an exact characterisation of acceptance under another accumulator, a counting argument on random functions, and C96 for the scaled answers | SplitView: `_enrol`, `_update`, `_scale`, `_recognised` |
| C109 | Which secret key each server operation uses, and what a wrong or stolen key does | case analysis of each operation with replaced keys, a simulation (equal accumulators, deletions and witnesses of those deleted later) by induction over the history, and the verification equations | Keys: `_uses`, `_keyless_replica`, `_wrong_key`, `_stolen_accumulator_key`, `_stolen_signing_key` |
| C110 | Anybody who can ask for an update can read the log of deletions, and what it gives away | the closed form of update (C30, C31) at a single share 0, the invariant V[i] = (d[i]+alpha) V[i+1], an induction over the log for the recovered witness, and C42, C46 | LogLeak: `_download`, `_nothing_else`, `_published_witness`, `_recover`, `_proofs` |
| C111 | Answers handed to post_update in the wrong order pass the consistency check | a polynomial of degree < t in a x + b is one in x, so the closed form of post_update on consistent answers (C25) applies with another point of evaluation; interpolation for exactly t; for the probabilities, the answer for a piece of length l is affine in coordinate l of the share vector with slope +-1, and a polynomial of degree c with values in the group takes a value at most c times | Order: `_reversed`, `_shifted`, `_exactly_t`, `_reversed_wrong`, `_shifted_wrong` |
| C112 | Saving and restoring in a format with field names (JSON) is transparent, except that a lost credential is not noticed | a tree model of documents and a combinator model of the derived code (`visit_map`, `visit_seq`, `missing_field`); the loop over the entries is characterised once (what it keeps, when it fails), the properties follow for every list of fields by induction on the list; the server as in C69 | SelfDescribing: `_types`, `_documents`, `_user_without_witness`, `_restore`, `_read_wf`, `_transparent` |
| C113 | Printed text shows every field under its name and determines the value; Debug output is not redacted | printers as relations between values and texts, built from the literals of the format strings; unique parsing (`SelfDelim`) is preserved by every combinator, by induction for lists | TextOutput: `_display`, `_same_name`, `_labels`, `_debug_leaks`, `_debug` |
| C114 | Answers to two prepared updates, mixed | closed form of the answers as affine functions of one row of coefficients; some power sum over the servers of the second request is nonzero (interpolation), so the check (or the interpolated vector) is a nonconstant affine function of a random coordinate | RealLiar: `_mixed_detected_bls`; Retry: `_session_free`, `_mixed_detected`, `_mixed_exactly_t` |
| C115 | Thresholds and numbers of answers that do not match the prepared update | polynomials of degree < t are of degree < t'; for t' < t the check at degree t' is a nonzero multiple of a random coefficient (Vandermonde argument), and the value interpolated from t' points depends on some random coefficient | RealLiar: `_smaller_bls`; Threshold: `_larger`, `_lengths`, `_smaller`, `_smaller_exact` |
| C116 | Membership proofs sent as bytes | composition of C42/C44/C46/C77 with the codec theorems C52 over the real scalar field; a bijection from random choices to accepted strings gives the count; for the accumulator proof the responses are determined by the finalized values | WireProof: `_delivered`, `_accepted_iff`, `_count`, `_anonymous`, `_nonmalleable`, `_vb_delivered`, `_vb_unique`, `_vb_nonmalleable` |
| C117 | The work of the accumulator's batch functions | the functions written again over operations that count themselves (as C90); a relation between a counting program and the plain one is carried through every loop, by induction over the lists, and gives both the equality of results and the exact counts | CostAcc: `_same`, `_batch_change`, `_cubic`, `_plain_change`, `_multi_batch`, `_multi_or_single`, `_single_updates` |
| C118 | Made-up and placeholder proofs; other responses to a non-membership proof | a credential always exists mathematically, so C44's bijection between randomness and accepted proofs counts them; linear algebra on the differences of two sets of responses; unfolding for the placeholders | MadeUp: `_non_unique`, `_non_second`, `_non_nonmalleable`, `_made_up`, `_default`, `_default_vb` |
| C119 | Honest updates neither repair nor damage a witness | the update map is affine in the witness (followLog), so the error term is scaled; induction over the rounds of an inductive relation; corollary with C39_control | Damage: `_error`, `_update_iff`, `_chain`, `_damage` |
| C120 | Servers that mix delete and quick_delete in any way | refinement of the server to a table of scalars by induction over the calls; affine recurrence for following a log with mismatches; the safe histories keep the invariant of C16 | Mixed: `_state`, `_issue`, `_update`, `_safe_history`, `_safe_update`, `_unsafe_update`, `_careful`, `_careful_covers`, `_fresh`; MixedDamage: `_error_iff`, `_chain`, `_damage`; MixedLiar: `_liar`, `_liar_and_silent`, `_error`, `_recover`; MixedReadd: `_reinstated` |
| C121 | Any number of updates by a user that does not record the epoch | induction over the updates gives an affine recurrence for the factor of the witness; as a quotient of polynomials in the secret key it is not the constant 1 (evaluate at minus a new deletion), so few keys are roots | Repeat: `_factor`, `_right_iff`, `_rare`, `_same_epoch`, `_returns_ok` |
| C122 | A server that sends only half of its answer gets past the consistency check | closed form of post_update when scalars and points come from different sets of servers: no check coefficients with exactly t scalars, Lagrange coefficients of the wrong points applied to the points, each non-zero, so one point is a bijection onto the results; with a check, its equation is linear in the missing point with a non-zero coefficient | ?: `_wrong_accepted`; HalfAnswer: `_not_noticed`, `_control`, `_harmless`, `_one_server`, `_accepted_once` |
| C123 | Whole-system histories in which servers lie and stay silent | labelled transition system of whole-system histories (deletions mixed safely) with an update step for lying servers; inductive invariant (each user holds a witness of the accumulator published in its epoch), the update step by C120 and C124, revocation by induction over the continuation, progress by C38 and the closed form of honest answers | LiarWorld: `_always_valid`, `_revoked_stuck`, `_progress` |
| C124 | Some servers are silent and others lie | closed form of post_update for answers of the right lengths from more than t servers (interpolation and mis-scaled check over the list of those that answer); one deviating value changes the check sum by a non-zero multiple; a concrete case over the rationals for the wrong acceptance; the lie by a line in the randomness (each line holds at most one accepted point) | ?: `_first_silent`; RealLiar: `_accepted_lie_bls`, `_guess_bls`; SilentGuess: `_guess`; SilentLiar: `_first_answers`, `_accepted_is_valid`, `_spare_must_lie`, `_one_answer`, `_accepted_lie`, `_two_known_id` |

## 6. What the proofs found out about the code

1. `User::update` never advances `epoch`; a second update re-applies old deletions and gives an invalid witness (C27).
2. Updating an up-to-date user panics, as does an epoch ahead of the servers (C28).
3. `Server::update(n ≥ 1, &[])` never returns: a one-message denial of service (C30).
4. The first check coefficient of `shamir_coefficients` is scaled by `x₀` instead of `x₀⁻¹`; honest answers are rejected when server 0 is silent and more than t others answer (C36, C41).
5. `NonMembershipWitness::verify` accepts `d = 0`, so members have verifying non-membership witnesses (C10); committing to such a witness panics (C49).
6. `MembershipWitness::update` is wrong for more than one change and stops halfway with a changed witness when the own element is deleted after another (C11); `new` never returns `None` (C02).
7. Mixing `quick_delete` and `delete` revives the quickly deleted user (C19).
8. With `n = t` one lying server, with `n > t` two among the first `t+1`, choose the user's witness (C39); overlong or all-empty answers panic (C40).
9. `all_users` never shrinks and is changed before `add` can panic (C63). `K0, P1, P2, K2` are not in the transcript.
10. A lagging server with enough deletions answers for a wrong window; with `n = t` the user accepts (C58).
11. The enrolment proof of key is bound neither to the member id nor to the server (C55); enrolment authenticates nobody (C62).
12. The triple `(E_C, T_σ, T_ρ)` of the VB proofs determines the witness: hiding is computational only (C48, C65).
13. `Element::random()` is `Element::hash` of its entropy (C54).
14. The `f64` rounding of the seed never matters for gaps below `2^64` (C64).
15. The VB proof functions hash neither accumulator nor key: weak Fiat–Shamir unless the caller adds them (C66).
16. The benchmark uses `P2` instead of `K2` as base of the signing key, so its users fail `check_witness` (C68).
17. In a release build a user ahead of the servers is not noticed by `prepare_for_update`: it makes billions of shares (C73).
18. If fewer than `t` of the answers used are honest (one liar when `n = t`, two of the first `t + 1` otherwise), the outcome of an update is an
    oracle for guesses of the user's secret id (C74).
19. A replica that missed an `add` silently ignores the deletion of that user, and its history diverges from then on (C75).
20. `create_witness` does not fetch the public keys: a user made from another server keeps keys its new credential fails for (C83).
21. Nothing rejects identity points: with the identity as accumulator, public key or parameter, verification accepts what it should not (C91).
22. Two presentations, or two update queries, made with the same random values reveal the secrets behind them (C92).
23. A server restored from an old copy revives users whose revocation was lost, and users ahead of it silently store invalid witnesses (C93).
24. Adding a revoked id again reinstates every old credential for it (C94).
25. The ignored test `false_witness` (src/accumulator/acc.rs) fails for every key and every set: `remove` and `MembershipWitness::new` are the same function (C95).
26. In the transcript of a presentation the labels of the two public keys are exchanged: the accumulator key is hashed as "Signature Public Key" and the signing key as "Witness Public Key" (C98; harmless, but other implementations must copy it).
27. `Server::update` counts from the end of its log and is told only a number: if deletions happen between a user's request and the answers, all servers answer for the wrong deletions, no check notices and `post_update` returns `Ok` with an invalid witness, also for a user deleted meanwhile (C103). Computing the number when answering would avoid it, with the same shares.
28. A user cannot check that others are given the same accumulator (`create_witness` and `update` take it from one server): servers can give each user one of its own, at enrolment, by forking, or by scaling the answers to an update, and so recognise its otherwise perfectly anonymous presentations (C108). Accumulators should be published and compared.
29. Every `Server` holds both secret keys, although `delete` and `update` use none; whoever learns the accumulator key can present any credential issued before, so deletion has no effect on it, and no operation notices a wrong key (C109). Servers that only answer updates should be given no keys.
30. `Server::update` is not authenticated and does not check the shares: the request `(n, [0])` returns the ids of the last n deleted users and the accumulators in clear, from which everybody can compute the membership witnesses of the deleted for all earlier accumulators (C110). Only the signature keeps others from presenting as them; the plain accumulator proofs have no such protection.
31. The answers of the servers do not say which server they come from, and the consistency check of `post_update` does not notice answers in the reverse order or one position off (nor any order at all with exactly t servers): the user gets `Ok` and, except with negligible probability, a wrong witness (C111).
32. In a self-describing format (JSON) a `User` whose `witness` field is missing or misspelt is read without error as a user without credential; every other missing field of every type is an error (C112).
33. `{:?}` of a `SecretKey`, `ProofMessage`, `Witness`, `User` or `Server` prints its secrets (derived `Debug`, nothing is redacted); the `Display` text of a credential proof lacks the colon after `challenge`, the comma after `s_0` and contains a line break (C113).
34. Nothing ties an answer to a request: a retry that mixes answers to two `prepare_for_update` calls is noticed only if more than `t` servers answer; with exactly `t` it ends in `Ok` and a wrong witness (C114).
35. `post_update` takes the threshold again instead of keeping it: a smaller one makes honest servers look malicious, or gives a wrong witness if no answer is spare; missing answers are a panic, not an error (C115).
36. `create_coefficients`, and with it the manager's batch update, multiplies a cubic number of scalars; `multi_batch_update` multiplies more points than calling `batch_update` once per batch whenever there are no more batches than the longest has coefficients (C117).
37. `update` never checks the witness it starts from or the one it ends with, so damage done once is
    permanent: after one update with lying servers every later update against honest servers returns `Ok`
    with a witness that is still wrong (C119); only a new `create_witness` helps.
38. After a `quick_delete`, `delete` may only be used for users added since (or until the next `quick_delete` only `quick_delete`): one `delete` of an older
    member makes the updates of all other users end in `Ok` with a wrong witness; and members that enrol (`create_witness`) after a `quick_delete` of
    somebody else get an invalid credential (C120).
39. A user that never sets `epoch` after `update` gets a right witness from the first update only; every later one returns `Ok` and is wrong, except for a
    number of secret keys bounded by the number of deletions, or coincidences such as `∏(d - id) = -1`, where every second repetition is right (C121, more
    general than C27).
40. `post_update` does not check that an answer has as many points as scalars. With `t + 1` servers, one of the first `t` that leaves out its scalars and sends
    arbitrary points switches the consistency check off and chooses the new witness: the protection of C38 (one liar) needs answers of the right lengths.
    With more servers the check still runs, but accepts one list of points for which the result is wrong (C122).
41. When the first server is silent (and more than `t` others answer) the mis-scaled check does not only reject honest answers (finding on C36/C41): a single
    lying server can get a wrong witness accepted, and the right one is accepted exactly if the spare server sends its answer divided by `x₀²` (C124).
    The lie that passes is the honest answer plus a known multiple of the spare server's answer; with threshold 2 a server that knows the id can compute it,
    with a larger one it must guess it (probability at most `1/|F|`).

## 7. Testing the theorems

`seeded/LOG.jsonl` records mutants of the model (a wrong boundary, a dropped update, a swapped argument, …): the definition edited, the edit,
the claim it breaks, which theorems stopped proving, and which theorems were tightened when one survived.

## 8. Module map

`Verif/Spec.lean`: specification vocabulary. `Verif/Model/*`: the model. `Verif/Lemmas/*`: auxiliary lemmas. `Verif/Props/*`: property theorems with
some concrete instances (`example`s beside the theorems and in `Props/Examples.lean`). `Verif/Instances/*`: for every property theorem with
hypotheses, a concrete case that meets them (over `ℚ`, over a field with 7 elements, or over the scalar field of BLS12-381).

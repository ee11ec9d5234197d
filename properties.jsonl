{"id": "C01", "title": "Membership verification decides the accumulator relation", "statement": "MembershipWitness::verify(y, PublicKey::from(sk), V) returns true exactly when (y+sk)*C = V; hence for every element other than -sk exactly one witness value verifies against a given accumulator.", "quantifier": "every secret key, element, witness point and accumulator point", "why_tests_cant": "256-bit field and group: the set of rejecting inputs cannot be enumerated; tests only sample accepting ones.", "anchors": ["src/accumulator/witness.rs:MembershipWitness::verify", "src/accumulator/key.rs:PublicKey::from"]}
{"id": "C02", "title": "MembershipWitness::new always yields a verifying witness, member or not", "statement": "For every accumulator V and element y with y+sk != 0, MembershipWitness::new returns Some(w), w verifies for (y,V), and it does so whether or not y was ever added (it never returns None); it panics exactly when y+sk = 0.", "quantifier": "every accumulator, element and key", "why_tests_cant": "universal over field elements; the panic point is a single unguessable element.", "anchors": ["src/accumulator/witness.rs:MembershipWitness::new", "src/accumulator/acc.rs:Accumulator::remove", "src/accumulator/acc.rs:tests::false_witness"]}
{"id": "C03", "title": "Accumulator add/remove algebra", "statement": "add then remove (and remove then add) of the same element restores the accumulator; adds/removes commute; with_elements/add_elements/remove_elements equal folding the single-element operations in any order; the *_assign variants agree with the pure ones; remove panics exactly when the element is -sk, remove_elements exactly when some listed element is -sk.", "quantifier": "all accumulators, keys, element lists and permutations", "why_tests_cant": "order independence and inverse laws range over all lists and permutations.", "anchors": ["src/accumulator/acc.rs:Accumulator::add,remove,with_elements,add_elements,remove_elements", "src/accumulator/key.rs:SecretKey::batch_additions,batch_deletions"]}
{"id": "C04", "title": "Batch update of a membership witness is correct", "statement": "If w is valid for y against V, (V',coeffs) = V.update(sk, additions, deletions), and y is not in deletions, then w.batch_update(y, additions, deletions, coeffs) is valid for y against V' (duplicates allowed, additions or deletions or both may be empty).", "quantifier": "all keys, accumulators, elements, witness values, addition and deletion lists of any length", "why_tests_cant": "a polynomial identity over lists of unbounded length and a 255-bit field.", "anchors": ["src/accumulator/acc.rs:Accumulator::update_assign", "src/accumulator/key.rs:SecretKey::create_coefficients", "src/accumulator/witness.rs:MembershipWitness::batch_update_assign", "src/accumulator/witness.rs:evaluate_delta"]}
{"id": "C05", "title": "A removed element's witness is left untouched and no longer verifies", "statement": "If y is in deletions then evaluate_delta returns Err(\"element was removed\"), batch_update leaves the witness unchanged, and the unchanged witness verifies against the new accumulator only if the new accumulator point equals the old one.", "quantifier": "all keys, accumulators, element lists containing y", "why_tests_cant": "universal over lists and field elements.", "anchors": ["src/accumulator/witness.rs:evaluate_delta", "src/accumulator/witness.rs:MembershipWitness::batch_update_assign"]}
{"id": "C06", "title": "Multi-batch update equals the sequence of batch updates", "statement": "For every list of (additions, deletions, coefficients) where no deletion list contains y and entries with empty coefficients have no changes, multi_batch_update gives the same witness as applying batch_update for each entry in order; if some deletion list contains y it leaves the witness unchanged.", "quantifier": "all lists of deltas of any length with any contents", "why_tests_cant": "unbounded number of batches and elements.", "anchors": ["src/accumulator/witness.rs:evaluate_deltas", "src/accumulator/witness.rs:MembershipWitness::multi_batch_update_assign"]}
{"id": "C07", "title": "Multi-batch update follows any accumulator history", "statement": "Starting from a valid witness at V0 and any sequence of Accumulator::update calls whose deletions never contain y, a single multi_batch_update with all returned coefficients gives a witness valid for the final accumulator (likewise a fold of batch_update); the same for non-membership witnesses.", "quantifier": "all histories of batch updates of any length", "why_tests_cant": "quantifies over update histories.", "anchors": ["src/accumulator/witness.rs:evaluate_deltas", "src/accumulator/acc.rs:Accumulator::update_assign"]}
{"id": "C08", "title": "Non-membership witness issuance is exact", "statement": "NonMembershipWitness::new(y, S, sk) returns None exactly when y is in S; otherwise (y != -sk) it returns a witness with d != 0 that verifies against Accumulator::with_elements(sk, S); it panics exactly when y is not in S and y = -sk.", "quantifier": "all element lists, elements and keys", "why_tests_cant": "unbounded lists, 255-bit field.", "anchors": ["src/accumulator/witness.rs:NonMembershipWitness::new", "src/accumulator/witness.rs:NonMembershipWitness::verify"]}
{"id": "C09", "title": "Batch update of a non-membership witness is correct", "statement": "If a non-membership witness verifies for y against V and y is in neither deletions nor additions, after V.update(...) the batch-updated witness verifies against the new accumulator and its scalar d is still non-zero if it was.", "quantifier": "all keys, accumulators, witnesses, change lists", "why_tests_cant": "unbounded lists; algebraic identity.", "anchors": ["src/accumulator/witness.rs:NonMembershipWitness::batch_update_assign", "src/accumulator/witness.rs:evaluate_delta"]}
{"id": "C10", "title": "Non-membership verification rejects members (fails: d = 0 is accepted)", "statement": "Expected: NonMembershipWitness::verify never accepts for an element of the accumulator. The code does not check d != 0: (C,0) with C the membership witness is accepted for every member, and a non-membership witness updated (update or batch_update) across the addition of its own element still verifies. What holds: verify accepts exactly when (y+sk)*C + d*P = V.", "quantifier": "all keys, accumulators, elements, witnesses", "why_tests_cant": "the accepting forged witness is a point no random test hits; the exact acceptance set is an iff over all inputs.", "anchors": ["src/accumulator/witness.rs:NonMembershipWitness::verify", "src/accumulator/witness.rs:NonMembershipWitness::update_assign"]}
{"id": "C11", "title": "Single-change witness update is correct; multi-change is not", "statement": "MembershipWitness::update / NonMembershipWitness::update turn a valid witness for the old accumulator into a valid one for the new accumulator when exactly one element was added or exactly one (other) element was deleted; with a deletion of y itself the witness is unchanged. For two deletions (the slices accept any number) the result is in general invalid. Called once per change, update follows any history that does not delete y. When y is deleted after another element of the same slice, update returns midway with a changed witness.", "quantifier": "all keys, accumulators, witnesses, elements", "why_tests_cant": "universal over values; the failing slice lengths are not tested in the repo.", "anchors": ["src/accumulator/witness.rs:MembershipWitness::update_assign", "src/accumulator/witness.rs:NonMembershipWitness::update_assign"]}
{"id": "C12", "title": "Polynomial arithmetic is evaluation-homomorphic", "statement": "For the public Polynomial type: eval is the value sum a_i x^i for non-empty polynomials and panics on the empty one; +=, -=, *= (polynomial, slice, scalar) act on values as +, -, * ; degree is len-1 and panics on empty; the product has length m+n-1 unless both factors are empty.", "quantifier": "all coefficient vectors of any lengths, all points", "why_tests_cant": "unbounded vector lengths incl. unequal and empty.", "anchors": ["src/accumulator/utils.rs:Polynomial"]}
{"id": "C13", "title": "Point-polynomial arithmetic is evaluation-homomorphic", "statement": "For PolynomialG1: evaluate returns None exactly on the empty polynomial, otherwise sum x^i*A_i; += and scalar *= act on values as addition and scaling, for unequal lengths too.", "quantifier": "all coefficient vectors and points", "why_tests_cant": "unbounded vector lengths.", "anchors": ["src/accumulator/utils.rs:PolynomialG1"]}
{"id": "C14", "title": "dad is the product of differences", "statement": "dad(values, y) = prod(values_i - y) for every length (including 0 and the special-cased 1), and is zero exactly when y occurs in values.", "quantifier": "all element lists and scalars", "why_tests_cant": "unbounded lists.", "anchors": ["src/accumulator/utils.rs:dad"]}
{"id": "C15", "title": "Server state refines a set with a deletion log", "statement": "After any sequence of add/delete calls on a new server: a user is known (add refuses, delete succeeds) exactly when added and not deleted since; add returns None exactly for current members, delete returns None exactly for non-members and then changes nothing; deletions is exactly the log of successful deletes in order; all_users is exactly the set of ids ever added.", "quantifier": "all operation sequences of any length over any ids", "why_tests_cant": "quantifies over operation histories.", "anchors": ["src/servers.rs:Server::add,delete,new"]}
{"id": "C16", "title": "Accumulator history of the server", "statement": "In every reachable server state (add/delete, or add/quick_delete, or quick_delete only after all deletes) accumulators[i] = V0 * prod_{j<i} (deletions[j]+alpha)^-1 and get_epoch() = 1 + number of successful deletions; add never changes accumulators.", "quantifier": "all operation histories", "why_tests_cant": "histories of unbounded length.", "anchors": ["src/servers.rs:Server::delete,quick_delete,get_epoch,get_accumulator"]}
{"id": "C17", "title": "Every witness the server stores is currently valid", "statement": "After any sequence of add/delete calls, each stored/returned membership witness verifies for its user against get_accumulator() under the server's public witness key.", "quantifier": "all operation histories, all current members", "why_tests_cant": "histories of unbounded length; incremental update formula must hold through all of them.", "anchors": ["src/servers.rs:Server::add,delete"]}
{"id": "C18", "title": "delete and quick_delete agree on the public history", "statement": "From any add/delete-reachable state, delete(y) and quick_delete(y) return the same accumulator and produce the same accumulators, deletions and membership; quick_delete leaves every other stored witness stale (it verifies against the previous accumulator).", "quantifier": "all reachable states and ids", "why_tests_cant": "universal over states.", "anchors": ["src/servers.rs:Server::delete,quick_delete"]}
{"id": "C19", "title": "Mixing quick_delete and delete revives the quick-deleted user", "statement": "Expected: after quick_delete(a), a stays revoked. In the code, quick_delete(a) followed by delete(b) for a member b sets the accumulator to V/(b+alpha), the accumulator in which a was never removed: a valid witness for a against it is computable from public values only (its old witness, b, the old and new accumulators). The witnesses the server stores for others are valid for the new accumulator, but a user who follows the published accumulators and deletion log from before gets an invalid witness (unless a+alpha=1 or the accumulator is the identity).", "quantifier": "every state with two distinct members a, b", "why_tests_cant": "an unusual interleaving that no test exercises; consequences hold for all values.", "anchors": ["src/servers.rs:Server::quick_delete,delete"]}
{"id": "C20", "title": "The server never panics on its own bookkeeping", "statement": "In every reachable state delete and quick_delete never panic (the inverses they take always exist), add panics exactly when the id is a non-member equal to the negative of the accumulator secret, and witness panics only when the id is the negative of a secret key (C21 says exactly when).", "quantifier": "all reachable states and ids", "why_tests_cant": "panic freedom over all histories.", "anchors": ["src/servers.rs:Server::add,delete,quick_delete,witness"]}
{"id": "C21", "title": "Witness issuance is gated and correct", "statement": "Server::witness returns None if the id is not a current member or the Schnorr proof's challenge does not match; otherwise it returns the stored membership witness and a signature R with (y+s)*R = user_pub_key + K0.", "quantifier": "all states, ids, challenges, responses, public keys, hash functions", "why_tests_cant": "universal over hash outputs and group elements.", "anchors": ["src/servers.rs:Server::witness"]}
{"id": "C22", "title": "create_witness gives an enrolled user a verifying witness", "statement": "For every add/delete history, a current member calling create_witness obtains a witness for which check_witness succeeds against the server's accumulator, and records the server's epoch and accumulator; for a non-member the user state is unchanged. The keys returned by the server's getters are the ones under which the issued credential verifies: get_witness_public_key for the accumulator part, get_sign_public_key for the signature part.", "quantifier": "all histories, ids, random keys and nonces, hash functions", "why_tests_cant": "universal over randomness and histories.", "anchors": ["src/user.rs:User::create_witness", "src/servers.rs:Server::witness", "src/witness.rs:Witness::verify"]}
{"id": "C23", "title": "check_witness decides both credential equations", "statement": "User::check_witness / Witness::verify returns Ok exactly when (y+alpha)*C = V and (y+s)*R = x*K1 + K0 for the server's keys; with no witness it returns Err.", "quantifier": "all keys, witnesses, accumulators", "why_tests_cant": "iff over all group elements.", "anchors": ["src/witness.rs:Witness::verify", "src/user.rs:User::check_witness"]}
{"id": "C24", "title": "Stale witnesses of deleted (or not updated) users are rejected", "statement": "A witness valid at epoch e checks against the accumulator of a later epoch e' exactly when the product of (deletion+alpha) over the epochs in between is 1 (or the accumulator is the identity); in particular never after a single deletion of an element other than 1-alpha.", "quantifier": "all histories, users and epoch pairs", "why_tests_cant": "universal over histories; exact exception set.", "anchors": ["src/witness.rs:Witness::verify", "src/servers.rs:Server::delete"]}
{"id": "C25", "title": "The ALLOSAUR update brings a witness to the current epoch", "statement": "For any add/delete (or quick_delete) history, any n >= t >= 2 up-to-date servers, a user whose witness is valid at its recorded epoch, at least one deletion since and its id not among them: User::update returns Ok, and afterwards check_witness succeeds against the servers' current accumulator, whatever the sharing randomness.", "quantifier": "all histories, thresholds, server counts, ids, randomness", "why_tests_cant": "unbounded histories/chunks; correctness for all Shamir randomness.", "anchors": ["src/user.rs:User::update,prepare_for_update,post_update", "src/servers.rs:Server::update", "src/utils.rs:shamir_*"]}
{"id": "C26", "title": "A deleted user cannot update", "statement": "Under the same conditions but with the user's id among the deletions since its epoch, User::update returns Err(\"user has been deleted\") and leaves the user unchanged.", "quantifier": "all histories, thresholds, randomness", "why_tests_cant": "universal.", "anchors": ["src/user.rs:User::update,post_update"]}
{"id": "C27", "title": "Updates can be repeated (fails: update forgets the epoch)", "statement": "Expected: after a successful update the user can later update again. User::update never advances user.epoch, so a second update re-applies the already applied deletions: it returns Ok but the resulting witness is valid exactly when the accumulator at the recorded epoch equals the one at the first update, i.e. essentially never.", "quantifier": "all histories, all second updates", "why_tests_cant": "needs a two-update history; the repo's tests update once; the failure is for all values but a degenerate set.", "anchors": ["src/user.rs:User::update"]}
{"id": "C28", "title": "Updating an up-to-date user (fails: panics)", "statement": "Expected: update with no deletions since the recorded epoch is a no-op. In the code it panics (division by zero / underflow in the chunk-size search) for every user, threshold and server count; an epoch ahead of the servers panics too.", "quantifier": "all users, valid thresholds, server counts", "why_tests_cant": "edge case of the epoch difference; must hold for every configuration.", "anchors": ["src/user.rs:User::prepare_for_update"]}
{"id": "C29", "title": "Threshold validation and argument errors of update", "statement": "update returns Err(\"No witness\") if the user has none; prepare_for_update returns Err(\"invalid threshold\") exactly when t <= 1 or t > n, before any other work; every Err leaves the user unchanged.", "quantifier": "all thresholds and server counts", "why_tests_cant": "all integers.", "anchors": ["src/user.rs:User::update,prepare_for_update"]}
{"id": "C30", "title": "Server::update response shape and termination", "statement": "Server::update returns two empty vectors when more epochs are requested than deletions exist; with a non-empty share vector of length k-1 it terminates and returns two vectors of length ceil(num_epochs/(k-1)); with an empty share vector and num_epochs in 1..=len it never returns.", "quantifier": "all server states, epoch counts and share vectors", "why_tests_cant": "non-termination and unbounded sizes.", "anchors": ["src/servers.rs:Server::update"]}
{"id": "C31", "title": "Server::update on plain powers is the exact update", "statement": "If the shares are the plain powers y, y^2, ..., y^(k-1), folding C <- (C - v)/d over the returned pairs equals applying C <- (C - V')/(y' - y) for each of the last num_epochs deletions in order (d = prod (y'-y) per chunk).", "quantifier": "all states, chunk sizes, ids", "why_tests_cant": "unbounded number of chunks.", "anchors": ["src/servers.rs:Server::update"]}
{"id": "C32", "title": "Chunk-size selection terminates and balances", "statement": "For every epoch difference d >= 1 the chunk-size search terminates with k >= 3 satisfying 2k >= floor(5(d+k-1)/k), k is the least such value at or above the square-root seed, and each server receives exactly k-1 shares, in n vectors.", "quantifier": "all d >= 1, all seeds >= 1", "why_tests_cant": "termination over all integers.", "anchors": ["src/user.rs:User::prepare_for_update"]}
{"id": "C33", "title": "Shamir share/rebuild round trip", "statement": "For 1 <= t <= n < field size, shares from shamir_share rebuilt with shamir_coefficients give back the secret, with and without the extra check, for every polynomial randomness; shares are the values of a degree < t polynomial at 1..n.", "quantifier": "all secrets, thresholds, counts, randomness", "why_tests_cant": "all sizes.", "anchors": ["src/utils.rs:shamir_share,shamir_coefficients,shamir_rebuild_scalar,shamir_rebuild_point"]}
{"id": "C34", "title": "Rebuild is linear: affine combinations and point multiples of shares", "statement": "Rebuilding shares that are any fixed affine combination of sharings (scalars or multiples of fixed curve points) gives the same combination of the secrets.", "quantifier": "all combinations, points, secrets", "why_tests_cant": "universal over coefficients.", "anchors": ["src/utils.rs:shamir_rebuild_scalar,shamir_rebuild_point"]}
{"id": "C35", "title": "The consistency check is exact when the first evaluation point is 1", "statement": "With n > t shares at distinct non-zero points, first point 1: rebuild returns Some exactly when the first t+1 shares lie on one polynomial of degree < t, so any change to exactly one of the first t+1 shares of a valid sharing gives None; shares beyond t+1 never affect the result.", "quantifier": "all share vectors incl. adversarial", "why_tests_cant": "adversarial inputs over the whole field.", "anchors": ["src/utils.rs:shamir_coefficients,shamir_rebuild_scalar"]}
{"id": "C36", "title": "The consistency check for other evaluation points (fails)", "statement": "Expected: honest shares at any distinct non-zero points pass the check. The first check coefficient is multiplied by x_0 instead of x_0^-1, so for x_0^2 != 1 honest shares are accepted only when the share at the extra point is 0 — e.g. when server 0 gives no answer, the remaining honest servers are reported as malicious.", "quantifier": "all share sets whose first point is not 1 or -1", "why_tests_cant": "tests always start at point 1.", "anchors": ["src/utils.rs:shamir_coefficients", "src/user.rs:User::post_update"]}
{"id": "C37", "title": "Fewer than t servers learn nothing about the user id", "statement": "For any set of at most t-1 servers and any two ids with the same epoch gap there is a fixed translation (a bijection) of the sharing randomness such that with the translated randomness the other id gives those servers identical messages; so over a finite field each view has exactly the same number of randomness values for both ids (perfect secrecy of prepare_for_update). The same holds jointly for any family of update sessions of any users.", "quantifier": "all ids, coalitions, randomness", "why_tests_cant": "information-theoretic statement over distributions.", "anchors": ["src/utils.rs:shamir_share", "src/user.rs:User::prepare_for_update"]}
{"id": "C38", "title": "Lying servers cannot make the user accept a wrong witness (n > t)", "statement": "With n > t, if an arbitrary set of servers, at most one of them among the first t+1, returns arbitrary values of the right length and the others answer honestly, post_update returns either the honest result or Err(\"malicious server\"); it returns the honest result whenever no liar is among the first t+1.", "quantifier": "all adversarial responses", "why_tests_cant": "adversarial input space.", "anchors": ["src/user.rs:User::post_update", "src/utils.rs:shamir_rebuild_point"]}
{"id": "C39", "title": "Too few honest servers among those used: liars control the result", "statement": "If fewer than t of the first min(n,t+1) servers are honest (a single liar when n = t, two liars among the first t+1 otherwise), the liars can choose their answers so that post_update, and hence update, returns Ok with any witness value they like, and the user stores it without verifying.", "quantifier": "all target witnesses, all server positions", "why_tests_cant": "existential adversary for every target.", "anchors": ["src/user.rs:User::post_update"]}
{"id": "C40", "title": "Response-length mismatches crash or are detected", "statement": "If a server after the first non-empty answer returns more chunks than that answer, or all answers are empty, post_update panics; so one malicious server can crash the client. An Ok result needs at least t answers covering every chunk.", "quantifier": "all responses", "why_tests_cant": "adversarial input.", "anchors": ["src/user.rs:User::post_update"]}
{"id": "C41", "title": "Silent (lagging) servers other than the first are tolerated", "statement": "If some servers (not the first) answer with empty vectors and at least t answer honestly, post_update gives the same result as with all answers; with exactly t answers it does not matter which are silent. If the first server is silent and more than t others answer honestly, the honest answers are in general rejected as malicious. Servers lagging so far that they answer with empty vectors do not change the result of update.", "quantifier": "all subsets of silent servers", "why_tests_cant": "all subsets and randomness.", "anchors": ["src/user.rs:User::post_update", "src/servers.rs:Server::update"]}
{"id": "C42", "title": "Credential membership proof is complete", "statement": "For every valid witness and every proof randomness and hash function, make_membership_proof returns Some(proof) and check_membership_proof accepts it with the same parameters, keys, accumulator and ephemeral challenge; it returns None exactly when the witness does not verify for the user's accumulator.", "quantifier": "all witnesses, randomness, hash functions, challenges", "why_tests_cant": "universal over randomness and oracle.", "anchors": ["src/witness.rs:Witness::make_membership_proof,check_membership_proof", "src/user.rs:User::make_membership_proof"]}
{"id": "C43", "title": "Credential membership proof is special-sound", "statement": "From any two accepting proofs with the same commitments and different challenges one can compute an id, secret key, membership witness and signature that satisfy Witness::verify, or a non-trivial linear relation between X, Y and Z.", "quantifier": "all pairs of accepting transcripts (adversarial)", "why_tests_cant": "adversarial transcripts over the whole group.", "anchors": ["src/witness.rs:MembershipProof::get_bytes_for_challenge,check_membership_proof"]}
{"id": "C44", "title": "Credential membership proofs are perfectly anonymous", "statement": "For any two users with valid witnesses against the same accumulator and keys, and every proof one of them can output, there is exactly one randomness with which the other outputs exactly the same proof; moreover the proofs the verifier accepts are exactly the proofs each such user can output. The same holds jointly for any family of presentations.", "quantifier": "all pairs of valid witnesses, all randomness, all hash functions", "why_tests_cant": "equality of distributions.", "anchors": ["src/witness.rs:Witness::make_membership_proof"]}
{"id": "C45", "title": "A proof is bound to accumulator, keys and ephemeral challenge", "statement": "If one proof is accepted for two different ephemeral challenges, accumulators, witness keys, signing keys or parameters K1, X, Y, Z, or (for a non-zero challenge and the same K2) for parameters that differ in K0, then two different transcripts have the same hash value (a collision is exhibited).", "quantifier": "all proofs and contexts (adversarial)", "why_tests_cant": "adversarial; reduction to collision.", "anchors": ["src/witness.rs:Witness::check_membership_proof"]}
{"id": "C46", "title": "VB membership proof is complete", "statement": "For every membership witness, message type (hidden or shared blinding) and randomness, finalize reproduces exactly the committed values if and only if the challenge is 0 or the witness verifies, so with a valid witness both sides hash the same transcript and the proof is accepted.", "quantifier": "all witnesses, randomness, challenges", "why_tests_cant": "universal.", "anchors": ["src/accumulator/proof.rs:MembershipProofCommitting,MembershipProof::finalize"]}
{"id": "C47", "title": "VB membership proof is special-sound", "statement": "Two proofs with the same commitments accepted under different challenges yield an element and a membership witness that verifies (X, Y non-identity).", "quantifier": "all adversarial transcript pairs", "why_tests_cant": "adversarial.", "anchors": ["src/accumulator/proof.rs:MembershipProof::finalize"]}
{"id": "C48", "title": "VB membership proof responses leak nothing beyond the commitments", "statement": "For fixed E_C, T_sigma, T_rho and challenge, every response vector is produced by exactly one choice of blinders whatever the element and witness, so every proof with that triple is an honest proof. The triple (E_C, T_sigma, T_rho) itself determines the witness point uniquely (hiding is only computational).", "quantifier": "all witnesses, randomness, challenges, response vectors", "why_tests_cant": "equality of distributions.", "anchors": ["src/accumulator/proof.rs:MembershipProofCommitting,MembershipProof::finalize"]}
{"id": "C49", "title": "VB non-membership proof is complete", "statement": "For every non-membership witness with d != 0 and all randomness, finalize reproduces exactly the committed values if and only if the challenge is 0 or the witness verifies; committing panics exactly when d = 0. Against an accumulator other than the one the witness is valid for, the honest proof is accepted only for challenge 0; and a holder whose element was added since, and who followed the published updates, cannot make a proof at all (committing panics) although the witness still passes verify.", "quantifier": "all witnesses, randomness, challenges", "why_tests_cant": "universal.", "anchors": ["src/accumulator/proof.rs:NonMembershipProofCommitting,NonMembershipProof::finalize"]}
{"id": "C50", "title": "VB non-membership proof is special-sound and implies d != 0", "statement": "Two accepting proofs with the same commitments and different challenges yield an element and a non-membership witness that verifies, with d != 0 unless the discrete logarithm of P to base K is revealed.", "quantifier": "all adversarial transcript pairs", "why_tests_cant": "adversarial.", "anchors": ["src/accumulator/proof.rs:NonMembershipProof::finalize"]}
{"id": "C51", "title": "Shared blinding links proofs to the same message", "statement": "Two membership proofs (or a membership and a non-membership proof) made with the same shared blinder and the same non-zero challenge have equal s_y exactly when their messages are equal; elements extracted from linked proofs coincide; hidden messages use fresh blinders and stay unlinked; reusing a blinder under two challenges reveals the message.", "quantifier": "all messages, blinders, randomness", "why_tests_cant": "universal.", "anchors": ["src/accumulator/proof_message.rs:ProofMessage::get_blinder", "src/accumulator/proof.rs:MembershipProofCommitting::gen_proof"]}
{"id": "C52", "title": "Proof serialization round-trips", "statement": "from_bytes(to_bytes(p)) = Ok(p) for both membership proof types (432 and 304 bytes), and every accepted byte string is the encoding of the returned proof (so encodings are unique), given the point codec is canonical.", "quantifier": "all proofs and all byte strings", "why_tests_cant": "2^3456 byte strings.", "anchors": ["src/witness.rs:MembershipProof::to_bytes,from_bytes", "src/accumulator/proof.rs:MembershipProof::to_bytes,from_bytes", "src/utils.rs:g1,sc"]}
{"id": "C53", "title": "Scalar and key decoding is canonical", "statement": "SecretKey/Element decoding accepts a 32-byte string exactly when its big-endian value is below the group order and round-trips with to_bytes; out-of-range values are rejected, never reduced. The point types (Coefficient, Accumulator, PublicKey, MembershipWitness) and NonMembershipWitness round-trip in the same way.", "quantifier": "all 32-byte strings", "why_tests_cant": "2^256 inputs.", "anchors": ["src/accumulator/key.rs:SecretKey::try_from,to_bytes", "src/accumulator/acc.rs:Element::try_from,to_bytes", "src/utils.rs:sc"]}
{"id": "C54", "title": "Hash inputs are domain separated", "statement": "The byte strings hashed by SecretKey::new(Some(seed)) and Element::hash(data) never coincide for any seed/data; within each, distinct inputs give distinct hashed strings; the strings hashed for the AccParams generators and for ProofParams (x,y,z,k, for any keys and entropy) are pairwise distinct and injective in (entropy, key). The strings are fixed literally, so that other implementations derive the same keys, elements and parameters.", "quantifier": "all byte strings", "why_tests_cant": "all inputs of all lengths.", "anchors": ["src/accumulator/utils.rs:generate_fr", "src/utils.rs:AccParams::default", "src/accumulator/proof.rs:ProofParams::new"]}
{"id": "C55", "title": "Enrollment proof of key is complete and special-sound", "statement": "The Schnorr proof created in create_witness is always accepted by Server::witness for a member; two accepted answers for the same commitment and public key with different challenges reveal a secret key x with public key x*K1. The proof is not bound to the member id or the server: a proof accepted once is accepted for every current member id of every server with the same parameters.", "quantifier": "all keys, nonces, hash functions, adversarial answers", "why_tests_cant": "universal/adversarial.", "anchors": ["src/user.rs:User::create_witness", "src/servers.rs:Server::witness"]}
{"id": "C56", "title": "User::random produces a consistent user", "statement": "If the public keys are P2*alpha and K2*s, a user made by User::random passes check_witness for the given accumulator for every id and secret drawn (other than -alpha, -s, where it panics).", "quantifier": "all keys, ids, secrets", "why_tests_cant": "universal over randomness.", "anchors": ["src/user.rs:User::random"]}
{"id": "C57", "title": "Whole-system histories: members' first update always succeeds", "statement": "For any interleaving of adds, deletes, quick_deletes (mixed so that each delete hits a member added since the last quick_delete, or nobody), enrolments (once quick_delete has been called, a credential from create_witness is kept only if check_witness accepts it) and one update per enrolment by any number of users (or updates followed by the user's own bookkeeping of the epoch), every user's witness is valid for the accumulator it recorded, its membership proofs are accepted, and an update by a member succeeds, as long as no user updates twice without re-enrolling.", "quantifier": "all interleavings of all users' operations", "why_tests_cant": "schedules of unbounded length.", "anchors": ["src/servers.rs:Server", "src/user.rs:User"]}
{"id": "C58", "title": "Servers that answer for the wrong window", "statement": "A server that lags by some deletions but still has at least as many deletions as requested answers for the wrong window of the log. With n > t, the first server up to date and at most one such server among the first t+1, update gives the honest result or Err(\"malicious server\"); with n = t a single server lagging by one deletion makes update return Ok with an invalid witness.", "quantifier": "all histories, logs of the lagging servers, randomness", "why_tests_cant": "the tests keep all servers in step; depends on every combination of logs.", "anchors": ["src/servers.rs:Server::update", "src/user.rs:User::update", "src/user.rs:User::post_update"]}
{"id": "C59", "title": "Revocation soundness reduces to q-SDH", "statement": "For every add/delete history with q adds, the whole observable life of the servers (every accumulator and every issued witness) is computable from the points B, aB, ..., a^q B with public coefficients fixed by the ids alone, and any credential (or pair of accepting membership proofs with the same commitments) accepted against the current accumulator for an id that is not a current member gives (y+a)^-1 B, i.e. a q-SDH solution (or, for proofs, a linear relation between X, Y, Z).", "quantifier": "all histories of add and delete, all secrets, all forged credentials and proofs", "why_tests_cant": "a soundness claim about every possible forgery.", "anchors": ["src/servers.rs:Server", "src/witness.rs:Witness::verify", "src/witness.rs:Witness::check_membership_proof"]}
{"id": "C60", "title": "VB accumulator (non-)membership soundness reduces to SDH", "statement": "A verifying membership witness for an element outside the accumulated set, a verifying non-membership witness with d != 0 for an element of the set, or both kinds of witness for one element and one accumulator, give (y+sk)^-1 P by a public computation.", "quantifier": "all sets, elements, keys, witnesses", "why_tests_cant": "a claim about every possible forged witness.", "anchors": ["src/accumulator/witness.rs:MembershipWitness::verify", "src/accumulator/witness.rs:NonMembershipWitness::verify"]}
{"id": "C61", "title": "Credentials for ids that never enrolled reduce to q-SDH", "statement": "For every list of enrolled ids, all enrolment answers can be produced from s-power points without the signing key, and an accepted credential for any other id gives (y+s)^-1 B (unless its key makes x K1 + K0 the identity, which reveals a discrete logarithm).", "quantifier": "all lists of ids, keys, requests and forged credentials", "why_tests_cant": "a claim about every possible forgery.", "anchors": ["src/servers.rs:Server::witness", "src/witness.rs:Witness::verify"]}
{"id": "C62", "title": "What enrolment does and does not protect", "statement": "Enrolment authenticates nobody: after any add/delete history anyone can obtain a valid credential for any current member id with any key of their choice, any number of times, and two credentials for one id with different keys yield accepted credentials for every key without the server. The enrolment message itself reveals nothing about the key beyond its public key.", "quantifier": "all histories, ids, keys, nonces, oracles", "why_tests_cant": "universal over keys and attackers; the tests only enrol honest users.", "anchors": ["src/servers.rs:Server::witness", "src/user.rs:User::create_witness"]}
{"id": "C63", "title": "Panics leave servers and users usable; hash-map order is irrelevant", "statement": "For every sequence of calls on a new server by a caller that catches panics, and every iteration order of the hash map, the calls that panic are exactly add(-alpha); a panicking call leaves everything but all_users (which no function reads) as it was, so the outcome of every other call and the final state are those of the history without the panicking calls. A panic or an Err in User::create_witness or User::update leaves the user unchanged. all_users ends up holding exactly the ids ever passed to add, also those whose add panicked and those deleted since.", "quantifier": "all histories, all crash points, all hash-map orders, all users", "why_tests_cant": "crash points and iteration orders cannot be enumerated by tests; all_users is modified before the panic.", "anchors": ["src/servers.rs:Server::add", "src/servers.rs:Server::delete", "src/servers.rs:Server::quick_delete", "src/user.rs:User::create_witness", "src/user.rs:User::update"]}
{"id": "C64", "title": "Machine arithmetic and communication of an update", "statement": "For every epoch gap d from 1 to 2^64-1, the f64 seed sqrt(2.5 d) is at least 1 and its rounding never changes the chunk size, which is the least one that fits; for d <= 2^61 no 64-bit intermediate overflows. Each server is sent exactly L scalars with 2(L-1)^2+2 < 5d <= 2L^2+2 (about sqrt(2.5 d)) and answers with ceil(d/L) scalar/point pairs, fewer than 80 bytes more than the request. Whatever non-empty share vector is sent instead, request and answer together are at most 112 bytes shorter.", "quantifier": "all d, users, thresholds, server histories", "why_tests_cant": "floating-point rounding over 2^64 inputs; asymptotic bound.", "anchors": ["src/user.rs:User::prepare_for_update", "src/servers.rs:Server::update"]}
{"id": "C65", "title": "What a non-membership proof hides", "statement": "For every element, every non-membership witness with d != 0, every challenge and every value of sigma, rho: each choice of the points E_d, E_d^-1 and of all eight responses is sent by the honest prover for exactly one choice of its remaining randomness; two provers whose triples (E_C, T_sigma, T_rho) agree produce the same proofs equally often; the triple determines the witness point, so hiding beyond that is only computational.", "quantifier": "all elements, witnesses, keys, parameters, challenges and randomness", "why_tests_cant": "a distribution over random choices in a 255-bit field", "anchors": ["src/accumulator/proof.rs:NonMembershipProofCommitting::new", "src/accumulator/proof.rs:NonMembershipProofCommitting::gen_proof"]}
{"id": "C66", "title": "What the accumulator proofs are bound to", "statement": "The finalized values of one (non-)membership proof for a nonzero challenge are equal for two accumulators only if the accumulators are equal, and for two public keys only if these are equal or c*E_C = (s_sigma+s_rho)*Z; so acceptance in two such contexts, or under two parameter sets put in the transcript with add_to_transcript, exhibits two different transcripts with the same challenge. The library itself does not hash the accumulator: if the caller does not, a proof for a freely chosen accumulator is forged without a witness, valid under every key.", "quantifier": "all proofs, contexts, transcript prefixes, hash functions", "why_tests_cant": "ranges over all accepted proofs, including adversarial ones", "anchors": ["src/accumulator/proof.rs:MembershipProof::finalize", "src/accumulator/proof.rs:NonMembershipProof::finalize", "src/accumulator/proof.rs:MembershipProofFinal::get_bytes_for_challenge", "src/accumulator/proof.rs:ProofParams::add_to_transcript"]}
{"id": "C67", "title": "Slicing a batch of changes into many updates changes nothing", "statement": "Cut any additions and deletions into pairs of slices (in particular chunks of k, the shorter list padded with empty slices) and call update once per pair: the final accumulator is that of one update with everything, it panics exactly when that would, the slices together publish max(|A|,|D|) coefficients as one update does, and batch_update slice by slice or multi_batch_update over all slices gives the very same witness (membership or non-membership) as one batch_update, valid for the new accumulator.", "quantifier": "all lists of additions and deletions, all slicings, all elements, keys and accumulators", "why_tests_cant": "all slicings of unbounded batches", "anchors": ["src/accumulator/acc.rs:Accumulator::update_assign", "src/accumulator/witness.rs:MembershipWitness::batch_update_assign", "src/tests.rs:single_server_split_batch_update", "benches/updates.rs:single_server"]}
{"id": "C68", "title": "Updates against servers whose public fields are filled in directly", "statement": "For servers with any common log (however it came about) the threshold update gives exactly the witness that one MembershipWitness::update per logged deletion would give, or reports the deletion of the user. For servers built directly on an arbitrary accumulator with valid member witnesses, any later add/delete then add/quick_delete history, undeleted users update to a witness valid for the current accumulator, as in the benchmark. If the sign public key is s*Q instead of s*K2 (the benchmark uses Q = P2), check_witness rejects every user except in degenerate cases.", "quantifier": "all server values, logs, histories, users, thresholds, sharing randomness", "why_tests_cant": "unbounded logs and all server states", "anchors": ["benches/updates.rs:allosaur_update", "src/servers.rs:Server", "src/user.rs:User::update", "src/user.rs:User::random", "src/accumulator/witness.rs:MembershipWitness::update"]}
{"id": "C69", "title": "Saving and restoring with serde is transparent", "statement": "Every type of the crate with derived Serialize/Deserialize is read back by serde_bare as it was written (scalars and points assumed to be). A server that is started with Server::new, called any number of times and saved and restored at any points in between gives exactly the answers (including panics) it gives without being saved; this holds for every iteration order of its set and map. A server read from arbitrary bytes holds no key twice. The sizes of the saved proofs and of the two update messages are as stated.", "quantifier": "all values; all histories of calls interleaved with restarts; all hash map iteration orders; all bytes", "why_tests_cant": "unbounded histories, restart points and iteration orders", "anchors": ["src/servers.rs:Server", "src/user.rs:User", "src/utils.rs:AccParams", "src/witness.rs:MembershipProof", "src/accumulator/proof.rs:ProofParams", "benches/updates.rs:allosaur_update"]}
{"id": "C70", "title": "Accepted credential proofs prove knowledge of a current member's credential", "statement": "In the random oracle model: a program that asks at most q hash queries and makes, with probability a, proofs that check_membership_proof accepts (choosing accumulator, keys and ephemeral challenge itself) yields by rewinding, with probability at least a(a/(q+1) - 1/r), an id and credential that pass Witness::verify for that accumulator and keys, or a linear relation between X, Y, Z. Against the current accumulator of any add/delete history the id is a current member's or a solution of the q-SDH problem is computed; against any list of enrolled ids the id is enrolled or a q-SDH solution for the signing key is computed.", "quantifier": "all adversary programs with boundedly many hash queries and any finite randomness, all histories, keys, parameters", "why_tests_cant": "quantifies over all adversary programs and over the random hash function; it is a statement on probabilities", "anchors": ["src/witness.rs:Witness::check_membership_proof", "src/witness.rs:Witness::verify", "src/servers.rs:Server::delete"]}
{"id": "C71", "title": "Accepted accumulator proofs prove knowledge of a (non-)member and its witness", "statement": "In the random oracle model: a program with at most q hash queries whose MembershipProof (NonMembershipProof) is accepted with probability a, in an application that fixes or hashes the accumulator and key, yields by rewinding, with probability at least a(a/(q+1) - 1/r), an element and witness that pass verify (with d != 0 unless a discrete logarithm comes out). Against the accumulator of a set the element is in the set (not in the set), or a solution of the SDH problem is computed.", "quantifier": "all adversary programs with boundedly many hash queries, all sets, keys, parameters, transcript prefixes", "why_tests_cant": "quantifies over all adversary programs and over the random hash function; it is a statement on probabilities", "anchors": ["src/accumulator/proof.rs:MembershipProof::finalize", "src/accumulator/proof.rs:NonMembershipProof::finalize", "src/accumulator/witness.rs:MembershipWitness::verify"]}
{"id": "C72", "title": "Whoever is enrolled knows the secret key of its public key", "statement": "In the random oracle model: a program with at most q hash queries which gets a witness from Server::witness with probability a (for any server state) yields by rewinding, with probability at least a(a/(q+1) - 1/r), the secret key of the public key it enrolled.", "quantifier": "all adversary programs with boundedly many hash queries, all server states and parameters", "why_tests_cant": "quantifies over all adversary programs and over the random hash function", "anchors": ["src/servers.rs:Server::witness", "src/user.rs:User::create_witness"]}
{"id": "C73", "title": "Release builds never compute with wrapped-around numbers", "statement": "In a release build (usize arithmetic wraps) User::update and Server::update return a result exactly if the build with overflow checks does, and the same result: no update is ever computed from a wrapped-around epoch difference, chunk size or index. A user without a new epoch still panics (division by zero); a user whose epoch is ahead of the servers' gets shares for 2^64 - j epochs from prepare_for_update and panics in update (index) if memory for more than 2^32 shares per server suffices. With honest servers the release build gives a valid witness.", "quantifier": "all users with epochs below 2^63, all servers (also inconsistent ones) with vectors of fewer than 2^60 entries, all thresholds, share vectors and random values", "why_tests_cant": "tests run with overflow checks; the wrapping paths need epochs near 2^64 or gigabytes of shares", "anchors": ["src/user.rs:User::prepare_for_update", "src/user.rs:User::update", "src/servers.rs:Server::update"]}
{"id": "C74", "title": "What lying servers learn from the outcome of an update", "statement": "Let servers that lie see whether the update of a present user succeeded. If at most one of the first t+1 of more than t servers lies (and fewer than t in all), success depends only on whether the answers used are the honest ones, and the outcome together with all the liars received is distributed the same for every id: nothing leaks. If fewer than t of the answers used are honest (one liar when the number of servers is t, two otherwise), the liars can, from public data alone, choose offsets to their answers that make the update report 'user has been deleted' exactly for ids with a chosen property, for one deletion exactly for a guessed id: a selective-failure attack.", "quantifier": "all server histories, users, thresholds, server numbers, sets of liars and joint strategies, guesses and sharing randomness", "why_tests_cant": "the statement compares all random choices of two users under an arbitrary adversarial strategy", "anchors": ["src/user.rs:User::prepare_for_update", "src/user.rs:User::update", "src/servers.rs:Server::update", "src/utils.rs:shamir_rebuild_scalar"]}
{"id": "C75", "title": "Replicated servers need to agree on deletions only", "statement": "Servers with the same secret keys whose histories have the same log of successful deletions publish the same accumulators, deletions, epoch and keys and answer every update request identically, however their add calls are ordered and interleaved and whichever deletion function each used (no delete after quick_delete); so a user can update with any such set of replicas. A replica that missed an add silently ignores the corresponding deletion (None, no change) and its log differs from then on.", "quantifier": "all histories of any number of replicas, all users, thresholds, update requests and randomness", "why_tests_cant": "needs all interleavings of requests at several replicas", "anchors": ["src/servers.rs:Server::add", "src/servers.rs:Server::delete", "src/servers.rs:Server::quick_delete", "src/servers.rs:Server::update", "src/user.rs:User::update"]}
{"id": "C76", "title": "Updating and presenting any number of times is anonymous", "statement": "Let fewer than the threshold of the servers collude with all verifiers, over any number of sessions in each of which a user updates its witness and presents it. A bijection of all random choices makes what they see (epoch difference, share vectors, proofs) of any users with valid witnesses the same as of any other users with the same epochs: sessions of one user cannot be linked or told from sessions of different users. The proofs are accepted.", "quantifier": "all families of sessions, server histories, users, thresholds, colluding sets, challenges, hash functions and randomness", "why_tests_cant": "a statement about the joint distribution of all sessions under all random choices", "anchors": ["src/user.rs:User::prepare_for_update", "src/user.rs:User::update", "src/user.rs:User::make_membership_proof", "src/witness.rs:MembershipProof"]}
{"id": "C77", "title": "Membership proofs are not malleable", "statement": "Given a proof returned by make_membership_proof, any presentation (proof, accumulator, keys, ephemeral challenge) that check_membership_proof accepts is either that same presentation, or made the verifier hash a different transcript, or gives by explicit formulas a non-trivial linear relation between X, Y and Z. Another ephemeral challenge, accumulator, key or other points always give a different transcript.", "quantifier": "all pairings, hash functions, injective encodings, parameters, keys, valid credentials, ephemeral challenges, randomness of the prover and all other presentations", "why_tests_cant": "the altered proof ranges over all proofs; a test can only try some alterations", "anchors": ["src/witness.rs:Witness::make_membership_proof", "src/witness.rs:Witness::check_membership_proof", "src/witness.rs:MembershipProof::get_bytes_for_challenge"]}
{"id": "C78", "title": "Proofs reveal nothing, even to adversaries that choose whom and what to ask", "statement": "In the random oracle model, for every adversary that asks the hash m times and gets n proofs from honest users of its choice for ephemeral challenges of its choice (adaptively), the probability of every event about its output and the proofs differs by at most n(m+n)/|F|^5 from a simulation in which there are no users and which knows only accumulators and keys. So two worlds with different users behind the same public data cannot be told apart.", "quantifier": "all adversaries (programs with bounded numbers of queries, any randomness and output), events, families of valid users, parameters with Z not the identity, finite fields and groups", "why_tests_cant": "a statement about probabilities over the random oracle for all adaptive adversaries", "anchors": ["src/witness.rs:Witness::make_membership_proof", "src/witness.rs:Witness::check_membership_proof", "src/witness.rs:MembershipProof::get_bytes_for_challenge"]}
{"id": "C79", "title": "Collecting proofs does not help to make other proofs", "statement": "In the random oracle model, for every adversary that collects proofs from honest users as in C78 and then, with probability a, makes an accepted presentation that is not a copy of one it got, an extractor that does not need the users computes with probability about a(a/(m+1) - 1/|F|) a credential that passes Witness::verify for the accumulator and keys of the presentation, or a linear relation between X, Y and Z; for the current accumulator of a server, the credential of a current member or a solution of the SDH problem.", "quantifier": "all adversaries with bounded numbers of queries, families of valid users, predicates on presentations, add/delete histories, secrets, finite fields", "why_tests_cant": "a reduction for all adaptive adversaries", "anchors": ["src/witness.rs:Witness::make_membership_proof", "src/witness.rs:Witness::check_membership_proof", "src/witness.rs:MembershipProof::get_bytes_for_challenge", "src/servers.rs:Server::delete"]}
{"id": "C80", "title": "Servers behave the same with every hash table", "statement": "For every hash function on ids (in particular the crate's Hash of Element with any hasher), any number of buckets and any moves of the tables to other sizes in between, a server whose user set and witness map are hash tables gives, for every history of add, delete and quick_delete, the same answers, panics, accumulators, deletions, users and witnesses as one with plain maps, and answers witness requests alike; no id is lost, duplicated or confused with another id with the same hash.", "quantifier": "all hash functions, encodings of ids, table sizes, sequences of resizes and calls, secrets", "why_tests_cant": "std uses random hash keys per process and layouts depend on the history; a test sees one layout", "anchors": ["src/accumulator/acc.rs:impl Hash for Element", "src/servers.rs:Server::add", "src/servers.rs:Server::delete", "src/servers.rs:Server::quick_delete", "src/servers.rs:Server::witness"]}
{"id": "C81", "title": "Enrolment requests reveal only the public key and cannot be reused for others", "statement": "Requests that Server::witness accepts with the same hash input are equal up to the id. In the random oracle model, for every adversary (for instance a server) that makes users of its choice enrol n times and asks the hash m times, the probability of every event about its output and the requests differs by at most n(m+n)/|F| from a simulation that knows only the public keys; and if it makes, with probability a, an accepted request for the public key of a user that is not a copy of one it got, that user's secret key is computed from the public keys alone with probability about a(a/(m+1) - 1/|F|). (Exact copies are accepted: C55.)", "quantifier": "all adversaries with bounded numbers of queries, all user keys, server states, hash functions (random), injective encodings, finite fields", "why_tests_cant": "probabilities over the random oracle for all adaptive adversaries", "anchors": ["src/user.rs:User::create_witness", "src/servers.rs:Server::witness"]}
{"id": "C82", "title": "Scalars made from bytes are as good as uniform", "statement": "Reducing 64 uniform bytes modulo the group order r gives every scalar with a probability within 2^-512 of 1/r; n such scalars are within n/2^257 of uniform independent ones for every event. With SHAKE128 as a random oracle, n calls of generate_fr with fresh 32-byte randomness (keys, ids, blinding factors, shares) are within n^2/2^257 of uniform; so a server that adds n users with ids from Element::random enrols all of them, without a panic, with probability at least 1 - n^2/2^253. Every adversary with q hash queries that sees the 64 challenge bytes behind Element::from_transcript has a counterpart that sees only uniform scalars, whose success differs by at most (q+1)/2^257; so the knowledge statement C70 holds for byte challenges.", "quantifier": "all n, salts, events, adversaries with bounded numbers of queries, server parameters and secrets", "why_tests_cant": "probabilities over 2^512 byte strings and over random oracles, for all events", "anchors": ["src/accumulator/utils.rs:generate_fr", "src/accumulator/acc.rs:Element::from_transcript", "src/accumulator/acc.rs:Element::random", "src/accumulator/key.rs:SecretKey::new", "src/servers.rs:Server::add"]}
{"id": "C83", "title": "What a user's calls can and cannot change", "statement": "After any history of create_witness and update calls, against any servers, that did not panic: the user's id and public keys are unchanged; its epoch and accumulator are unchanged or were reported by a server contacted; a credential is never lost; its secret key and signature are unchanged or come from an enrolment in the history with a server that had the id as a member, and that signature is valid for that server's key. update alone never changes epoch, secret key or signature. A successful create_witness makes what the user was before irrelevant, except that it keeps the old public keys: a user made from one server that enrols with another one gets a credential that check_witness accepts only if both servers have the same keys.", "quantifier": "all histories of calls, server contents, keys, nonces, shares, thresholds, hash functions", "why_tests_cant": "quantifies over all call histories and server states", "anchors": ["src/user.rs:User::create_witness", "src/user.rs:User::update", "src/user.rs:User::get_id", "src/user.rs:User::get_accumulator", "src/user.rs:User::new", "src/user.rs:User::check_witness"]}
{"id": "C84", "title": "Revocation holds against adversaries that steer the server", "statement": "An adversary calls add and delete of a running server as it likes, deciding after every call on the basis of everything the server stores except the accumulator secret (all witnesses of all users, the signing key, the accumulators), and asks the hash as it likes; only the ids that can be added are fixed in advance, each with a maximal number of additions. Then no call panics unless the secret is the negative of one of these ids; and the probability that it ends with a credential accepted by Witness::verify for the current accumulator although its id is not a member and cannot be added any more (for instance because it was deleted and ids are used once) is at most the probability that a reduction which is given only B, aB, ..., a^q B and aP2 solves the strong Diffie-Hellman problem, plus (q+1)/|F|. The same for ids that could have been added but were not, and for membership proofs accepted by check (with the forking bound).", "quantifier": "all adaptive adversaries, hash functions, id lists, secrets", "why_tests_cant": "quantifies over all interactive adversaries and is about probabilities", "anchors": ["src/servers.rs:Server::new", "src/servers.rs:Server::add", "src/servers.rs:Server::delete", "src/servers.rs:Server::get_accumulator", "src/witness.rs:Witness::verify", "src/witness.rs:Witness::check_membership_proof"]}
{"id": "C85", "title": "Only the issuer's signing key makes credentials, against adversaries that steer the issuer", "statement": "An adversary calls add, delete, quick_delete and witness of a running server as it likes, deciding after every call on the basis of everything the server stores except the signing key (the accumulator secret included), submits the secret key of every public key it has enrolled, and asks the hash as it likes; only the list of ids that can be enrolled is fixed in advance, K0 and K1 are random multiples of a point. Then the probability that it ends with a credential accepted by Witness::verify, for any accumulator, for an id that cannot be enrolled is at most the probability that a reduction which is given only B, sB, ..., s^q B and sK2 solves the strong Diffie-Hellman problem or finds the discrete logarithm of K0 to the base K1, plus q/|F|; and it is at most the sum of the probabilities that this reduction solves the strong Diffie-Hellman problem and that a solver which is given only two random points K1 and K0 finds that discrete logarithm, plus q/|F|. The same for ids that could have been enrolled but were not, and for membership proofs accepted by check (with the forking bound).", "quantifier": "all adaptive adversaries, hash functions, id lists, signing keys", "why_tests_cant": "quantifies over all interactive adversaries and is about probabilities", "anchors": ["src/servers.rs:Server::new", "src/servers.rs:Server::witness", "src/servers.rs:Server::add", "src/servers.rs:Server::delete", "src/servers.rs:Server::quick_delete", "src/witness.rs:Witness::verify", "src/witness.rs:Witness::check_membership_proof"]}
{"id": "C86", "title": "The accumulator is sound against adversaries that steer it", "statement": "An adversary has elements of its choice added to and removed from an accumulator, singly or in batches (and gets the published coefficients of every batch), asks for membership witnesses of accumulated elements and for non-membership witnesses of any elements, decides after every answer what to ask next, and fixes nothing in advance but a bound n on the size; the manager removes only accumulated elements. Then no call panics unless an element y with y + secret = 0 came up, and the probability that it ends with a membership witness accepted by verify for an element that is not accumulated, or a non-membership witness with d != 0 accepted by verify for one that is, is at most the probability that a reduction which is given only P, aP, ..., a^n P and the public key solves the n-strong Diffie-Hellman problem, without loss. In applications that bind the accumulator and the key into the transcript, an adversary whose MembershipProof or NonMembershipProof reproduces the challenge yields, with the forking bound, the extracted element's (non-)membership or a solution.", "quantifier": "all adaptive adversaries, sizes, hash functions", "why_tests_cant": "quantifies over all interactive adversaries and is about probabilities", "anchors": ["src/accumulator/acc.rs:Accumulator::add", "src/accumulator/acc.rs:Accumulator::remove", "src/accumulator/acc.rs:Accumulator::update", "src/accumulator/key.rs:SecretKey::create_coefficients", "src/accumulator/witness.rs:MembershipWitness::new", "src/accumulator/witness.rs:MembershipWitness::verify", "src/accumulator/witness.rs:NonMembershipWitness::new", "src/accumulator/witness.rs:NonMembershipWitness::verify", "src/accumulator/proof.rs:MembershipProof::finalize", "src/accumulator/proof.rs:NonMembershipProof::finalize"]}
{"id": "C87", "title": "Accumulator proofs reveal nothing unless the decision linear problem is easy", "statement": "An adversary asks the hash function m times and gets n membership proofs (or n non-membership proofs) from provers of its choice, for transcripts and challenge labels of its choice, each query chosen after the answers before it. The probability of every event about its final output differs from the probability in a simulation that is given only the provers' accumulators and public keys by at most n(m+n)/|F|^6 (|F|^10 for non-membership) plus the advantages of n explicit distinguishers, each of which runs the adversary once, in the decision linear problem for the points X, Y, Z of the proof parameters. So two families of provers with other elements and witnesses behind the same accumulators and keys cannot be told apart without solving it, although, given unlimited computation, each proof determines the witness (C48, C65).", "quantifier": "all adaptive adversaries, provers, transcripts, numbers of queries and events", "why_tests_cant": "quantifies over all interactive adversaries and is about probabilities", "anchors": ["src/accumulator/proof.rs:MembershipProofCommitting::new", "src/accumulator/proof.rs:MembershipProofCommitting::get_bytes_for_challenge", "src/accumulator/proof.rs:MembershipProofCommitting::gen_proof", "src/accumulator/proof.rs:NonMembershipProofCommitting::new", "src/accumulator/proof.rs:NonMembershipProofCommitting::get_bytes_for_challenge", "src/accumulator/proof.rs:NonMembershipProofCommitting::gen_proof", "src/accumulator/proof.rs:MembershipProof::finalize", "src/accumulator/proof.rs:NonMembershipProof::finalize"]}
{"id": "C88", "title": "Presentations need the credential of a corrupted user, whatever happens at the server", "statement": "An adversary adds and deletes users at a running server in any order, sees everything the server stores except its two secret keys, has corrupted users enrolled with secret keys of its choice, and gets membership proofs from honest users for the current accumulator and ephemeral challenges of its choice, each step chosen after the answers before it. If it then ends, with noticeable probability, with a membership proof that is accepted for the server's current accumulator and keys and is not a replay, then an explicit extractor, which has neither the secret keys nor any honest user's credential, computes with a probability bounded from below the credential of a corrupted user that is a member or can still be added, or a discrete logarithm or linear relation between parameters, or a solution of a strong Diffie-Hellman problem. So honest users' proofs, deletions and other users' credentials do not help to forge.", "quantifier": "all adaptive adversaries, sets of users, honest users, numbers of queries and proofs", "why_tests_cant": "quantifies over all interactive adversaries and is about probabilities", "anchors": ["src/servers.rs:Server::new", "src/servers.rs:Server::add", "src/servers.rs:Server::delete", "src/servers.rs:Server::witness", "src/servers.rs:Server::get_accumulator", "src/servers.rs:Server::get_public_keys", "src/witness.rs:Witness::check_membership_proof", "src/user.rs:User::make_membership_proof", "src/witness.rs:Witness::verify"]}
{"id": "C89", "title": "Anonymity in one game with enrolment, revocation, lying servers and presentations", "statement": "An adversary that knows the servers' secret keys and runs the verifiers decides, step by step and depending on everything it has seen, which users the servers add and delete, who enrols (it is told the new user's whole state), who updates with how many servers and which threshold, what the servers it controls answer (fewer than the threshold, at most one of those the user checks against), and who presents for which ephemeral challenge. In every update or presentation it names two persons about whom nothing it has been told differs in epoch, accumulator or pending update; in one world always the first acts, in the other the second. For every fixed hash function, its output, and everything it sees, has exactly the same distribution in both worlds. Such persons can always be updated and their presentations are always accepted, so the game is not empty.", "quantifier": "all adaptive adversaries, numbers of users, servers, moves, histories and hash functions", "why_tests_cant": "quantifies over all interactive adversaries and histories and is about exact probabilities", "anchors": ["src/user.rs:User::new", "src/user.rs:User::create_witness", "src/user.rs:User::prepare_for_update", "src/user.rs:User::post_update", "src/user.rs:User::make_membership_proof", "src/servers.rs:Server::update", "src/servers.rs:Server::add", "src/servers.rs:Server::delete", "src/servers.rs:Server::quick_delete"]}
{"id": "C90", "title": "The work of an update and of the server's operations", "statement": "Counting multiplications and additions of points and multiplications and inversions of scalars: Server::add and quick_delete cost one point multiplication and one inversion whatever the number of members, delete one of each (and one subtraction) per remaining member. A call of Server::update for n epochs that returns has multiplied exactly n points, whatever shares were sent. post_update multiplies at most m(2t+1) points when no answer has more than m scalars, whatever the servers answered. In a whole update of a user d epochs behind, preparing takes no operation on points, each server multiplies d points, and m satisfies (5m-6)^2 < 10 d, so the user's work grows with the square root of d, while the batch update from the coefficients multiplies one point more than there are coefficients.", "quantifier": "all servers, users, shares, answers (honest or not), numbers of epochs, servers and thresholds", "why_tests_cant": "bounds on the number of operations must hold for every size and every dishonest answer", "anchors": ["src/servers.rs:Server::add", "src/servers.rs:Server::delete", "src/servers.rs:Server::quick_delete", "src/servers.rs:Server::update", "src/user.rs:User::prepare_for_update", "src/user.rs:User::post_update", "src/utils.rs:shamir_coefficients", "src/utils.rs:shamir_rebuild_point", "src/accumulator/witness.rs:MembershipWitness::batch_update"]}
{"id": "C91", "title": "What identity points cost, and when they arise", "statement": "No function rejects the identity point. Against the identity accumulator the identity is an accepted membership witness for every element and key, and whoever ever had a valid credential (also a revoked user) passes verify and check_membership_proof. Against identity public keys (secret key 0) anyone makes accepted witnesses and credentials for every id other than 0; with identity parameters P~, K~ every witness or signature is accepted; with Z the identity a presentation shows the signature and the membership witness in the clear. A raw accumulator becomes the identity exactly when -sk is added; a server with a non-identity start never publishes the identity as accumulator, as long as quick_delete is only used after all deletes (with another order it can).", "quantifier": "all keys, accumulators, elements, parameters, credentials and operation histories", "why_tests_cant": "degenerate points are excluded by convention only; what they allow, and that the server never reaches them, is a statement about all histories and inputs", "anchors": ["src/accumulator/witness.rs:MembershipWitness::verify", "src/accumulator/acc.rs:Accumulator::update", "src/accumulator/acc.rs:Accumulator::with_elements", "src/witness.rs:Witness::verify", "src/witness.rs:Witness::check_membership_proof", "src/servers.rs:Server"]}
{"id": "C92", "title": "What repeated randomness reveals", "statement": "Two presentations of one credential made with the same random values and different hash challenges reveal the id, the secret key, the signature and the membership witnesses (even across updates and different accumulators); the same holds for accumulator membership and non-membership proofs, and for the element alone if only a caller-supplied blinding value is used under two challenges. If two users prepare update queries with the same random values, each single server learns the difference of their ids, and both ids if two powers or more are shared.", "quantifier": "all credentials, witnesses, parameters, keys, challenges, random values, thresholds and numbers of servers", "why_tests_cant": "a statement about every pair of calls; a test only sees fresh randomness", "anchors": ["src/witness.rs:Witness::make_membership_proof", "src/accumulator/proof.rs:MembershipProofCommitting::new", "src/accumulator/proof.rs:NonMembershipProofCommitting::new", "src/user.rs:User::prepare_for_update", "src/utils.rs:shamir_share"]}
{"id": "C93", "title": "Restoring an old copy of a server", "statement": "If a server is restored from an old copy and the lost deletions are repeated in the same order, its published history, keys and answers to update requests are as before the crash. If not: update by a user not deleted since its epoch returns Ok, and the stored witness is valid exactly if its old witness was valid for the accumulator that the servers now have at its epoch; a user from the lost future panics until the servers pass its epoch and after that silently stores a witness that is valid exactly if the two histories have the same accumulator at its epoch; a user whose revocation was lost, locked out before the crash, is updated to a valid witness and its presentations are accepted.", "quantifier": "all keys, histories before the copy, lost calls, calls after the restart, users, thresholds, numbers of servers and random values", "why_tests_cant": "a crash point and two histories are quantified; tests never restore a copy", "anchors": ["src/servers.rs:Server", "src/user.rs:User::update", "src/user.rs:User::check_witness", "src/witness.rs:Witness::verify"]}
{"id": "C94", "title": "Several credentials for one id; re-adding a revoked id", "statement": "Two credentials for one id that verified at any time verify or fail together against every accumulator and with every membership witness: one of them cannot be revoked alone. If a revoked id is added again, its old secret key and signature together with the witness that Server::witness returns to anyone who proves knowledge of any key are a valid credential again, and its presentations are accepted; but User::update from an epoch before the deletion still refuses, after any later calls.", "quantifier": "all keys, credentials, accumulators, witnesses, operation histories (with deletions and re-additions), challenges and random values", "why_tests_cant": "every pair of credentials and every history that deletes and re-adds", "anchors": ["src/servers.rs:Server::add", "src/servers.rs:Server::delete", "src/servers.rs:Server::witness", "src/witness.rs:Witness::verify", "src/user.rs:User::update"]}
{"id": "C95", "title": "The crate's own tests, for every random choice", "statement": "Each test of the crate, with the random values it draws and its sizes as parameters, passes for exactly the choices stated: the accumulator, key, witness and proof tests unless an element is the negative of the key (panic) or the products involved are one (the accumulator is unchanged); the Shamir tests always; the witness issue and presentation tests unless an id is the negative of a secret key (panic); the update tests, with any number of users, servers and any threshold of at least two, exactly if no prefix of the deletions leaves the accumulator unchanged; the split update tests behave as the unsplit ones; the stale presentation test passes unless the deletions leave the accumulator unchanged (it fails) or a proof is accepted by a collision of the challenge hash. The ignored test false_witness never passes.", "quantifier": "all keys, elements, ids, secret keys, nonces, polynomials, batches, numbers of users and servers, thresholds and hash functions", "why_tests_cant": "a test run checks one random choice of each; whether it could fail for another is not settled by it", "anchors": ["src/tests.rs", "src/accumulator/acc.rs", "src/accumulator/key.rs", "src/accumulator/witness.rs", "src/accumulator/proof.rs"]}
{"id": "C96", "title": "post_update on arbitrary answers", "statement": "For every old witness, threshold and list of server answers, of any lengths and contents, what post_update returns is determined by interpolation alone: a panic if an answer is longer than the first non-empty one, if fewer servers than the threshold answer, or if a later chunk lacks a value that is needed; 'malicious server' at the first chunk whose used shares lie on no polynomial of degree below the threshold; 'user has been deleted' at the first chunk whose d polynomial vanishes at 0; otherwise the witness obtained by applying w -> (w - v)/d chunk by chunk. If all servers answer the same number of chunks it never panics, and it accepts exactly if the used shares of every chunk lie on such polynomials with d(0) not 0.", "quantifier": "all old witnesses, thresholds, numbers of servers and answers", "why_tests_cant": "the answers come from other parties and can be anything; tests use honest answers and one corrupted one", "anchors": ["src/user.rs::post_update", "src/utils.rs::shamir_coefficients", "src/utils.rs::shamir_rebuild_scalar", "src/utils.rs::shamir_rebuild_point"]}
{"id": "C97", "title": "Recovering the witness from a round with lying servers", "statement": "Let a member's update request be answered honestly by at least the threshold of servers, the others answering anything at all. Then keeping the answers of any threshold-many honest servers, with all others emptied, post_update returns a witness that passes check_witness against the current accumulator; and whichever answers are kept, any witness returned that passes the check is that same one. For a deleted user, any threshold-many honest servers make it return 'user has been deleted'.", "quantifier": "all histories, numbers of servers, thresholds, sets of liars, lies and randomness", "why_tests_cant": "the lies are arbitrary; the statement quantifies over all of them and all subsets", "anchors": ["src/user.rs::post_update", "src/user.rs::prepare_for_update", "src/user.rs::check_witness", "src/servers.rs::update"]}
{"id": "C98", "title": "The exact transcripts and responses, for interoperability", "statement": "What the library hashes and sends is literally this: for a presentation the protocol label basic_membership_proof, the two public keys (the accumulator key under the label 'Signature Public Key' and the signing key under 'Witness Public Key'), the accumulator, four parameters, seven commitments and the ephemeral challenge, with the stated labels in the stated order, and check_membership_proof accepts exactly if the challenge sent is the hash of this with the commitments recomputed by the stated equations; for an enrolment user_signature_proof with the public key and the commitment, and Server::witness answers exactly members whose challenge is the hash; likewise the messages and responses of MembershipProof and NonMembershipProof. So proofs of any other implementation of these equations are accepted and this one's proofs are accepted by it. Transcripts of different kinds never coincide.", "quantifier": "all credentials, requests, proofs, parameters, keys, accumulators, hash functions, random values", "why_tests_cant": "a test compares the library with itself; a change of a label or an equation on both sides is not seen by it", "anchors": ["src/witness.rs::make_membership_proof", "src/witness.rs::check_membership_proof", "src/witness.rs::get_bytes_for_challenge", "src/servers.rs::witness", "src/user.rs::create_witness", "src/accumulator/proof.rs::get_bytes_for_challenge", "src/accumulator/proof.rs::finalize", "src/accumulator/proof.rs::gen_proof", "src/utils.rs::add_to_transcript"]}
{"id": "C99", "title": "An accumulator binds to the multiset of its elements", "statement": "Accumulator::with_elements gives the same point for two lists of elements if they are the same multiset, and otherwise for at most max(|S|,|T|) secret keys (fewer than |S| when both have the same size); whoever finds two different multisets with the same accumulator has found the secret key: the lists leave that many candidates and the public key tells which. Likewise two batches given to Accumulator::update agree only if they change the multiset in the same way; the witness of a removed element fails after batch_update, and the credentials of an epoch i fail at a later epoch j of the server, except for at most |changes| (j - i) keys.", "quantifier": "all keys, element lists, batches of changes, server histories and pairs of epochs", "why_tests_cant": "a collision is never hit by chance: the bound on the number of bad keys ranges over all keys and lists", "anchors": ["src/accumulator/acc.rs::with_elements", "src/accumulator/acc.rs::update", "src/accumulator/key.rs::batch_additions", "src/accumulator/witness.rs::batch_update", "src/servers.rs::delete", "src/witness.rs::verify"]}
{"id": "C100", "title": "What the accumulator does not check", "statement": "Additions are counted: adding an element again changes the accumulator (unless it is the identity or the element is -sk or 1-sk), and an element added twice and removed once is still a member for which a new membership witness verifies and NonMembershipWitness::new returns None, while batch_update treats it as removed and leaves the now invalid witness unchanged. Accumulator::remove succeeds for elements that were never added; adding them afterwards restores the accumulator, and in between it is the accumulator of a list T for few keys only. For every element (other than -sk), accumulator and d exactly one non-membership witness with this d verifies, so the holder of the key can issue a membership and a non-membership witness (d != 0) for the same element.", "quantifier": "all keys, accumulators, elements, element lists", "why_tests_cant": "needs all lists and keys; the surprising cases are not the ones tests are written for", "anchors": ["src/accumulator/acc.rs::add", "src/accumulator/acc.rs::remove", "src/accumulator/acc.rs::update", "src/accumulator/witness.rs::new", "src/accumulator/witness.rs::batch_update", "src/accumulator/witness.rs::verify"]}
{"id": "C101", "title": "The sequence of operations does not depend on secrets", "statement": "The operations on points and scalars (point times scalar, point plus point, scalar times scalar, inversion) that a call performs, in order, and whether it aborts, are determined by public sizes. Server::update: by the number of epochs, the number of shares and the lengths of the lists of deletions and accumulators. User::prepare_for_update: by the two epochs and the numbers of servers and shares. A post_update that succeeds: by the threshold and the shape of the answers. Server::add and quick_delete that change something: an inversion and a multiplication; delete: inversion, subtraction, multiplication for each remaining witness. The batch update of a witness: by the numbers of additions, deletions and coefficients and by whether the element was deleted. So none of them depends on the user's element, the shares, witnesses, keys or random choices. (The constant running time of the single operations is the curve library's.)", "quantifier": "all pairs of servers, users, shares, answers, keys and random choices with the same public sizes", "why_tests_cant": "a dependence on a secret shows only when two runs are compared, over all pairs of secrets", "anchors": ["src/servers.rs::update", "src/servers.rs::add", "src/servers.rs::delete", "src/servers.rs::quick_delete", "src/user.rs::prepare_for_update", "src/user.rs::post_update", "src/utils.rs", "src/accumulator/witness.rs::batch_update"]}
{"id": "C102", "title": "The single-server update and the bytes of all update messages", "statement": "The single-server update (Accumulator::update_assign for each slice of the deletions, then MembershipWitness::batch_update_assign for each slice) ends, for slices of any size, with the accumulator without the deleted elements and a witness that verifies against it; the size of the slices does not matter. Its messages have at least 80 bytes per deletion and, in slices of fewer than 128, at most 6 more per slice. The messages of the threshold update have at most 64 L + 118 bytes per server, where L < sqrt(2.5 d) + 1. So with five servers and threshold three a user that is d >= 100 epochs behind exchanges fewer bytes with all servers together than the single-server update for d deletions sends, and for d <= 34 more. All messages determine what was sent.", "quantifier": "all accumulators, keys, elements, deletion lists, slice sizes, reachable server states, numbers of epochs below 2^64, sharing randomness", "why_tests_cant": "the benchmark prints the sizes for six numbers of deletions; the claim is about all numbers", "anchors": ["benches/updates.rs::single_server", "benches/updates.rs::batch_update", "benches/updates.rs::allosaur_update", "src/accumulator/acc.rs::update_assign", "src/accumulator/witness.rs::batch_update_assign", "src/servers.rs::update", "src/user.rs::prepare_for_update"]}
{"id": "C103", "title": "Deletions between the messages of an update", "statement": "prepare_for_update fixes how many epochs to ask for, Server::update answers for that many deletions counted from the end of the log at the time of the answer. Whatever the servers (with equal logs) did in between, post_update returns \"user has been deleted\" if the id is among those last deletions and otherwise Ok with the witness that follows exactly them, valid for the current accumulator exactly if the old witness was valid that many deletions ago. So if j deletions happen between the request and the answers, post_update returns Ok - even for a user among the first j deletions it missed - with a witness that is valid only if the product of (d + secret key) over the missed deletions is 1; check_witness notices. Asked instead for the epochs between the user's and the servers' at the time of the answer, the same shares, prepared for any epoch, give a valid witness.", "quantifier": "all histories before and after the request, all logs, users, numbers of epochs asked for, thresholds, server counts, randomness", "why_tests_cant": "an interleaving of server operations with a user's update; the tests never change a server during an update", "anchors": ["src/user.rs::prepare_for_update", "src/user.rs::post_update", "src/user.rs::update", "src/servers.rs::update"]}
{"id": "C104", "title": "Hashed generators have no trapdoor", "statement": "AccParams::default and ProofParams::new compute K0, K1, X, Y, Z (and X, Y, Z, K) by hashing fixed strings to the curve. If that hash is a random function, whose whole table the adversary may see: the five hashed points are independent and uniform; from any program that finds a linear relation between the generator and hashed points with probability p, the discrete logarithm of any given point is found with probability p(1-1/r). So the exceptional cases of C43, C50, C61, C70, C71 (a relation between X, Y, Z; K0 = -x K1; the generator as a multiple of K; X or Y the identity) are discrete logarithms or have probability 2/r: a presentation accepted under the default parameters comes from somebody who knows a credential (against the accumulator of an add/delete history: of a current member, or who solves SDH), or who computes discrete logarithms; accepted VB membership and non-membership proofs likewise.", "quantifier": "all adversary programs with boundedly many hash queries and any finite randomness, all histories, secrets, points X", "why_tests_cant": "a probabilistic statement about all adversaries and all hash functions", "anchors": ["src/utils.rs::AccParams", "src/accumulator/proof.rs::ProofParams", "src/witness.rs::check_membership_proof", "src/accumulator/proof.rs::MembershipProof", "src/accumulator/proof.rs::NonMembershipProof"]}
{"id": "C105", "title": "Unforgeability from SDH and discrete logarithms alone", "statement": "Let the parameters be AccParams::default() with a random hash to the curve and the server's secrets random. An adversary may make any add/delete calls, see all of the server but its two secret keys, enrol corrupted users with proofs of key of its choice, and get presentations of honest users. If with probability a it shows a fresh presentation that check_membership_proof accepts for the server's current accumulator and keys, then a'(a'/(m+1) - 1/r) (a' is a up to terms of order 1/r) is at most the sum of the probabilities of extracting a credential of a corrupted user who is a member or can still be added, of solving SDH for either secret key, and of computing the discrete logarithm of any given point. Without corrupted users only SDH and discrete logarithms are left. A corrupted member does win, with probability at least 1 - 2/r.", "quantifier": "all adversary programs with boundedly many hash queries, enrolments and presentations and any finite randomness; all lists of ids that can be added, corrupted ids and honest users; all points", "why_tests_cant": "a probabilistic statement about all adversaries, adaptive call sequences and hash functions", "anchors": ["src/witness.rs::check_membership_proof", "src/servers.rs::witness", "src/servers.rs::add", "src/servers.rs::delete", "src/utils.rs::AccParams", "src/witness.rs::make_membership_proof"]}
{"id": "C106", "title": "The guarantees hold for the randomness the code really draws", "statement": "Clients and servers draw every scalar with generate_fr(salt, None, OsRng): 32 random bytes, SHAKE128, reduction modulo the group order. Let SHAKE128 be a random function, which an adversary may compute too, q times, at inputs of its choice and at any time. In every game with k scalars drawn this way the probability of any event differs by at most k^2/2^257 + q k/2^256 from the one with uniform scalars. So (1) the adversary of C89, who runs servers and verifiers and sees enrolments, updates and presentations, tells two members apart with advantage at most 2(k^2/2^257 + q k/2^256), k = N(M^2+13) for N moves; (2) the probability of forging a presentation, with the server's keys made by SecretKey::new(None) and honest users' proofs made with generate_fr, differs by at most that (k = 3 + 11n, n proofs) from the one in the game of C105, and its bound applies.", "quantifier": "all games and adversary programs with boundedly many SHAKE128 computations, moves, hash queries and proofs; all events; all salts", "why_tests_cant": "a statement about probabilities over all seeds and all adaptive adversaries", "anchors": ["src/accumulator/utils.rs::generate_fr", "src/accumulator/acc.rs::Element", "src/accumulator/key.rs::SecretKey", "src/utils.rs::shamir_share", "src/witness.rs::MembershipProofCommitting", "src/user.rs::User", "src/servers.rs::Server"]}
{"id": "C107", "title": "Showing, checking and issuing credentials perform the same operations for everyone", "statement": "The point operations, pairings, scalar multiplications and inversions, random draws, transcript messages (label and length) and hashes that a call performs, in order, are fixed. make_membership_proof with a valid credential performs one fixed sequence (17 multiplications in G1, 5 in G2, 4 pairings, 2 double pairings), whatever the user, credential, accumulator, keys, hash function and random values are, so two presentations cannot be told apart by it; with an invalid credential it stops after both pairing checks, whichever fails. check_membership_proof performs one fixed sequence (19 multiplications in G1, 4 pairings) for every proof, accepted or not. Server::witness does nothing for a non-member, checks the proof of a member and signs only after an accepted proof; create_witness depends only on whether the user is a member. The membership and non-membership proofs of the accumulator module likewise; only whether a blinding factor is given matters.", "quantifier": "all pairs of users, credentials, identifiers, accumulators, keys, hash functions, random values, proofs and servers", "why_tests_cant": "a dependence on a secret shows only when two runs are compared, over all pairs of secrets", "anchors": ["src/witness.rs::Witness", "src/witness.rs::MembershipProofCommitting", "src/witness.rs::MembershipProof", "src/servers.rs::witness", "src/user.rs::create_witness", "src/accumulator/proof.rs"]}
{"id": "C108", "title": "Users are anonymous only among those who were given the same accumulator", "statement": "create_witness and update store the accumulator of one server, and nothing lets a user compare it with that of others. If an issuer with one pair of secret keys runs two servers with different accumulators, or forks a server, and enrols or updates users at one of them each, then the public keys are the same, all calls succeed, check_witness succeeds for every user, and each presentation is accepted for the accumulator of its own user; for the accumulator of another it is accepted exactly if the hash function has the same value on two different transcripts, with a random hash function with probability at most n/|F| for n other accumulators. So the verifier recognises the user. Forks have the same accumulator only if the products of (deleted + alpha) agree (or it is the identity). Colluding servers need no fork: if all multiply the last d value of their answers by one factor, post_update succeeds with a witness that is valid for the accumulator divided by that factor.", "quantifier": "all keys, histories of two servers or of two forks, users, presentations and random values, thresholds, answers and factors", "why_tests_cant": "that a presentation is rejected for all other accumulators, with any randomness, is a statement on all hash functions; tests use one server or equal copies", "anchors": ["src/user.rs::create_witness", "src/user.rs::update", "src/user.rs::post_update", "src/user.rs::make_membership_proof", "src/witness.rs::check_membership_proof", "src/servers.rs::get_accumulator"]}
{"id": "C109", "title": "Which secret key each server operation uses, and what a wrong or stolen key does", "statement": "delete, update and the getters use no secret key, add and quick_delete only the accumulator key and witness only the signing key: replacing the other keys changes neither results nor panics. So a copy of a server whose keys are erased and which is told the deletions only publishes the same accumulators and answers update as the original does after any adds and deletes, provided that nobody who was added meanwhile is deleted (then the copy misses the deletion). A copy with a wrong accumulator key does not notice: add hands out a witness that is valid exactly if the key is right or the accumulator is the identity, and quick_delete publishes the right accumulator exactly in these cases. Whoever knows the accumulator key and holds any credential that was accepted once can present it for every later accumulator, so no deletion has an effect on it. Whoever knows the signing key can make accepted credentials and presentations with its own secret key for each member whose witness it holds, but every accepted credential contains a valid membership witness.", "quantifier": "all servers, replaced keys, identifiers, histories, credentials, accumulators and random values", "why_tests_cant": "independence of a key is a statement on all pairs of keys, and the claim on replicas ranges over all histories", "anchors": ["src/servers.rs::delete", "src/servers.rs::add", "src/servers.rs::quick_delete", "src/servers.rs::update", "src/servers.rs::witness", "src/witness.rs::verify", "src/witness.rs::make_membership_proof"]}
{"id": "C110", "title": "Anybody who can ask for an update can read the log of deletions, and what it gives away", "statement": "In every reachable server state Server::update(n, [0]) (one share, of value 0) returns the last n deleted ids and the accumulators published after each of them, so with n the number of deletions the whole log; and every answer to any other request for n epochs can be computed from this one. Each accumulator of the log is the membership witness of the id deleted there for the accumulator before (no delete after quick_delete). From the last n entries one computes, without any secret, for every id deleted in them a witness that verifies against the accumulator before these n deletions (for other ids the computation gives no valid witness unless the accumulators are the identity). So everybody can make accepted accumulator membership proofs for deleted ids and all accumulators before their deletion, and, with the signature and secret key of a credential of such an id, accepted presentations.", "quantifier": "all histories, server states, numbers of epochs, requests, ids, random values, hash functions", "why_tests_cant": "a test can download one log; that the answer holds for every state, and that nothing else can ever be learnt from any request, is a statement on all states and requests", "anchors": ["src/servers.rs::update", "src/servers.rs::delete", "src/servers.rs::quick_delete", "src/accumulator/witness.rs::verify", "src/accumulator/proof.rs::gen_proof", "src/accumulator/proof.rs::finalize", "src/witness.rs::check_membership_proof"]}
{"id": "C111", "title": "Answers handed to post_update in the wrong order pass the consistency check", "statement": "post_update takes the servers' answers by position. If the answers of n >= t >= 2 honest servers that agree on the log are handed over in the reverse order, or one position off (those of servers 2..n as 1..n-1 with none for the last, t < n), the check between the answers does not notice: the result is never \"malicious server\" but what post_update computes from a server's answer for another share vector (the values of the sharing polynomials at n+1, respectively the vector sent to server 1) instead of the powers of the id. With exactly t servers the same holds for every order of the answers: no permutation is ever detected, and nothing panics. For the reversed and the shifted order, if the linear coefficients of the sharing polynomials are drawn at random, post_update returns Ok with a witness that does not verify with probability at least 1 - 2m/|F|, m being the number of deletions asked for, for every user and every accumulator that is not the identity.", "quantifier": "all users, server states, numbers of servers, thresholds, numbers of epochs, sharing coefficients (for the probabilities: all values of the others, the linear ones uniform)", "why_tests_cant": "a test permutes the answers of one run; that no order is detected for any log, and the probability of a wrong result, are statements on all runs", "anchors": ["src/user.rs::post_update", "src/user.rs::prepare_for_update", "src/servers.rs::update", "src/utils.rs::shamir_coefficients", "src/utils.rs::shamir_rebuild_scalar", "src/utils.rs::shamir_rebuild_point"]}
{"id": "C112", "title": "Saving and restoring in a format with field names (JSON) is transparent, except that a lost credential is not noticed", "statement": "In a self-describing serde format every type that derives Serialize/Deserialize is read back as it was written, as an object (with the Rust field names, in order of declaration) and as the array of its values. Reading an object does not depend on the order of the entries nor on entries with other names; an object without one of the fields or with one of them twice is rejected, as is an array of another length and everything that is neither. The only exception is the field `witness` of a User: a document in which it is missing (or misspelt) is accepted and gives the same user without a credential. A server restored from such a document has the same content whatever order its tables were iterated in, holds no key twice even if the document does, and answers every later call as if it had never been saved.", "quantifier": "all values of all types, all documents, all histories of a server with restarts at any points, all iteration orders; all formats of scalars and points that read back what they write", "why_tests_cant": "universal over documents and histories; the crate's one serde test round-trips one ProofParams in a binary format", "anchors": ["src/user.rs::User", "src/servers.rs::Server", "src/witness.rs::Witness", "src/witness.rs::MembershipProof", "src/utils.rs::PublicKeys", "src/utils.rs::AccParams", "src/accumulator/proof.rs::ProofParams", "src/accumulator/proof.rs::MembershipProof", "src/accumulator/witness.rs::NonMembershipWitness", "src/accumulator/witness.rs::Delta"]}
{"id": "C113", "title": "Printed text shows every field under its name and determines the value; Debug output is not redacted", "statement": "The Display text of every type (Element, Coefficient, Accumulator, PublicKey, both witnesses, ProofParams, the three proofs) starts with its name, shows every field after its own label and determines the value, provided the texts of scalars and points do; the two proof types that print the same name never print the same text. The derived Debug text of SecretKey, ProofMessage, Witness, User and Server contains the secrets as they are (both secret keys of a server, the secret key part of a credential, hidden messages and blinders) and determines the whole value, of a server up to the order in which its tables are iterated: whoever reads a log line with {:?} of one of them knows everything.", "quantifier": "all values, all ways of printing scalars and points that tell values apart and where one ends, all iteration orders", "why_tests_cant": "universal over values and printers; the crate has no test of printed text", "anchors": ["src/accumulator/acc.rs::Element", "src/accumulator/acc.rs::Coefficient", "src/accumulator/acc.rs::Accumulator", "src/accumulator/key.rs::SecretKey", "src/accumulator/key.rs::PublicKey", "src/accumulator/witness.rs::MembershipWitness", "src/accumulator/witness.rs::NonMembershipWitness", "src/accumulator/proof.rs::ProofParams", "src/accumulator/proof.rs::MembershipProof", "src/accumulator/proof.rs::NonMembershipProof", "src/accumulator/proof_message.rs::ProofMessage", "src/witness.rs::Witness", "src/witness.rs::MembershipProof", "src/user.rs::User", "src/servers.rs::Server"]}
{"id": "C114", "title": "Answers to two prepared updates, mixed", "statement": "The state a user keeps between prepare_for_update and post_update plays no part in the result: two updates prepared by any users for the same number of servers can be exchanged when the answers are processed. If a user that asked twice hands over answers to the first request from some servers and to the second from others, then with n >= t+1 servers, both kinds being among the first t+1, post_update returns \"malicious server\" for all but a fraction 1/|F| of the coefficients of the second request. With exactly t servers it never does, and it returns Ok with a witness that does not verify, for all but a fraction 2m/|F| of them (m deletions).", "quantifier": "all users, server histories, numbers of servers, thresholds >= 2, sets of servers that answered the second request, coefficients of the first request, random coefficients of the second", "why_tests_cant": "quantifies over every mixture of two sessions and over the distribution of the fresh coefficients; a test sees single runs", "anchors": ["src/user.rs::prepare_for_update", "src/user.rs::post_update", "src/servers.rs::update"]}
{"id": "C115", "title": "Thresholds and numbers of answers that do not match the prepared update", "statement": "The threshold is given to prepare_for_update (t) and to post_update (t') separately. With t' between t and the number of servers, honest answers give the same result. With t' < t, honest answers of all servers are refused as \"malicious server\" for all but a fraction 1/|F| of the coefficients, and if exactly t' servers answer the call returns Ok with a witness that does not verify, for all but a fraction 2m/|F|. Answers beyond the servers that were asked are ignored; with fewer answers than servers that were asked, post_update panics.", "quantifier": "all users, server histories, numbers of servers, pairs of thresholds, sets of answering servers, random coefficients, lists of answers", "why_tests_cant": "quantifies over all pairs of thresholds and over the distribution of the coefficients", "anchors": ["src/user.rs::prepare_for_update", "src/user.rs::post_update", "src/utils.rs::shamir_coefficients"]}
{"id": "C116", "title": "Membership proofs sent as bytes", "statement": "A credential holder who makes a membership proof and sends to_bytes of it sends 432 bytes, which the verifier decodes with from_bytes and accepts; neither side panics on any input, and a holder whose credential does not verify sends nothing. Every holder of a valid credential can send exactly the 432-byte strings the verifier accepts, each with exactly one choice of randomness, so there are exactly r^11 of them and the bytes of two holders have the same distribution. Bytes that were sent cannot be turned into other accepted bytes (or used for another accumulator, key or ephemeral challenge) without making the verifier hash another transcript or exhibiting a linear relation between X, Y, Z. The accumulator's membership proofs (304 bytes and the challenge) are delivered in the same way and are not malleable, without any assumption on relations.", "quantifier": "all credentials, accumulators, keys, hash functions, point codecs, ephemeral challenges, randomness, and all byte strings of the right length", "why_tests_cant": "quantifies over all byte strings an attacker could send and all random choices", "anchors": ["src/witness.rs::make_membership_proof", "src/witness.rs::check_membership_proof", "src/witness.rs::to_bytes", "src/witness.rs::from_bytes", "src/accumulator/proof.rs::to_bytes", "src/accumulator/proof.rs::from_bytes", "src/accumulator/proof.rs::finalize"]}
{"id": "C117", "title": "The work of the accumulator's batch functions", "statement": "A manager's batch update with a additions and d deletions returns max(a, d) coefficients and performs exactly max(a, d) + 1 multiplications of a point by a scalar and d + 1 inversions, but a cubic number of multiplications of scalars (at least (a^3 + d^3)/3), because every product of the coefficients is recomputed from scratch; the same change made by add_elements and remove_elements, which give no coefficients, multiplies two points, a + d scalars and inverts once. A holder whose value is not deleted, catching up over k batches whose longest list of coefficients has length L > 0, multiplies L + 1 - k points more with one multi_batch_update than with k calls of batch_update, although both give the same witness; the single call inverts once instead of k times. The update with the values themselves multiplies one point per change.", "quantifier": "all keys, accumulators, values, lists of additions and deletions, and lists of batches with coefficients", "why_tests_cant": "a formula for the number of operations for all sizes; a benchmark only samples it", "anchors": ["src/accumulator/key.rs::create_coefficients", "src/accumulator/key.rs::batch_additions", "src/accumulator/key.rs::batch_deletions", "src/accumulator/acc.rs::update_assign", "src/accumulator/acc.rs::add_elements", "src/accumulator/acc.rs::remove_elements", "src/accumulator/witness.rs::multi_batch_update", "src/accumulator/witness.rs::batch_update", "src/accumulator/witness.rs::update_assign", "src/accumulator/witness.rs::evaluate_deltas"]}
{"id": "C118", "title": "Made-up and placeholder proofs; other responses to a non-membership proof", "statement": "For every hash function, accumulator, key pair and ephemeral challenge exactly one in r of all conceivable credential proofs (r the group order) is accepted by check_membership_proof, so a proof chosen without looking at the hash function is accepted with probability 1/r. MembershipProof::default() is accepted only if the hash of one fixed public transcript is 0; the default accumulator proofs finalize to identity points, the pairing of -cV with the generator and, for non-membership, -cP. An accepted variant of a non-membership proof (other responses, challenge, transcript) makes the verifier hash something else or gives by explicit differences of responses the logarithms of K and of the witness point; whoever has these logarithms can answer one challenge in r ways, unlike for membership proofs, whose responses are unique.", "quantifier": "all hash functions, encodings, parameters, keys, accumulators, witnesses, randomness, challenges and all proofs", "why_tests_cant": "counts all r^12 proofs and ranges over all variants an attacker could compute", "anchors": ["src/witness.rs::check_membership_proof", "src/witness.rs::MembershipProof", "src/accumulator/proof.rs::MembershipProof", "src/accumulator/proof.rs::NonMembershipProof", "src/accumulator/proof.rs::finalize"]}
{"id": "C119", "title": "Honest updates neither repair nor damage a witness", "statement": "For every user holding any credential whatever, correct or not, an update against honest up-to-date servers returns Ok (if the id was not deleted since) and multiplies the error (id+alpha)W - V of the witness by a nonzero factor; so check_witness passes afterwards exactly if it passed before, and the same holds through any number of updates with the epoch recorded in between, whatever thresholds, server lists and randomness are used. Hence a wrong point that lying servers install in a single update (C39) is never repaired by any sequence of later updates against honest servers.", "quantifier": "all histories, users, credentials, numbers of rounds, server lists, thresholds, randomness, wrong points", "why_tests_cant": "ranges over unbounded sequences of updates and all wrong credentials", "anchors": ["src/user.rs::update", "src/user.rs::post_update", "src/user.rs::check_witness", "src/servers.rs::update"]}
{"id": "C120", "title": "Servers that mix delete and quick_delete in any way", "statement": "For every history of add, delete and quick_delete calls, in any order, the accumulator and every stored witness are given by a small table of scalars: one for the accumulator and one for each member (the point its stored witness is valid for). create_witness gives a member a credential that passes check_witness exactly if the two scalars agree (the member is fresh). The same decides whether the old credential of an id that was revoked and added again is valid again, with the witness that anyone can ask for. update by a valid user not deleted since always returns Ok, and the result is valid exactly if the weighted mismatches between published accumulators and deleted ids cancel. If every delete hits a fresh member, which is so if it was added since the last quick_delete, everything works as if the calls were not mixed, also when a server lies (including the recovery from the answers of threshold-many honest servers), servers are silent or the user starts with a wrong witness; a single delete of a stale member breaks the update of every user that follows the log across it.", "quantifier": "all histories, keys, users, thresholds, server lists, randomness, hash functions", "why_tests_cant": "ranges over all interleavings of the three calls", "anchors": ["src/servers.rs::add", "src/servers.rs::delete", "src/servers.rs::quick_delete", "src/servers.rs::witness", "src/user.rs::create_witness", "src/user.rs::update"]}
{"id": "C121", "title": "Any number of updates by a user that does not record the epoch", "statement": "User::update leaves user.epoch unchanged. For a user with a valid credential that updates any number of times without setting the epoch, around any server history (calls mixed safely): all updates return Ok as long as the id is not deleted, and the witness is an explicit multiple of the one wanted. An update is right exactly if the witness before it was still valid for the accumulator of the recorded epoch; otherwise the user cannot make membership proofs any more. If something was deleted before the second last update (since the one before it), the last one is wrong for all secret keys but at most as many as there were deletions since the recorded epoch. Without new deletions, m further updates are right exactly if (1/prod(d+alpha) - 1)(1 + p + ... + p^(m-1)) = 0, p = 1/prod(d-id).", "quantifier": "all histories, numbers of updates, users, keys, servers, thresholds, randomness", "why_tests_cant": "ranges over all histories, numbers of updates and secret keys", "anchors": ["src/user.rs::update", "src/user.rs::post_update", "src/user.rs::check_witness", "src/servers.rs::update"]}
{"id": "C122", "title": "A server that sends only half of its answer gets past the consistency check", "statement": "An answer of Server::update consists of scalars and points; post_update computes the interpolation coefficients from the scalars it received and applies them by position to the points, without checking that every server sent both. If all but t servers leave out their scalars (one server when n = t+1), nothing is noticed whatever points they send: post_update returns \"user has been deleted\" if the user was deleted and Ok otherwise, and any one of them that is among the first t chooses the new witness with its last point (exactly one value gives any wanted W, so for all but one value the result is no witness). If only servers after the first t do so, it is harmless. With more servers that send scalars (the first among them), exactly one list of points of such a server is accepted, and the accepted result can be a wrong witness.", "quantifier": "all histories, users, thresholds, numbers of servers, sets of servers that send half answers, points they send, randomness", "why_tests_cant": "ranges over everything the servers may send", "anchors": ["src/user.rs::post_update", "src/utils.rs::shamir_coefficients", "src/utils.rs::shamir_rebuild_point", "src/servers.rs::update"]}
{"id": "C123", "title": "Whole-system histories in which servers lie and stay silent", "statement": "In every history of add, delete, quick_delete (mixed so that each delete hits a member added since the last quick_delete, or nobody), User::new, create_witness and updates (prepare_for_update, answers, post_update, store the result with the published accumulator and epoch) by any number of users, where once quick_delete has been called users keep a credential from create_witness only if check_witness accepts it, and in each update arbitrary servers but the first may stay silent (more than t answer) and arbitrary servers lie with answers of the right lengths, at most one of the first t+1 that answer: at every moment every user that has a witness has one that passes check_witness for the accumulator it stored, which is the published one of the epoch it stored, and its membership proofs are accepted for it. A user deleted since its epoch never gets an update accepted again and its state never changes (unless it is enrolled again). A user that is behind and not deleted can be updated in one step, whichever servers but the first are silent and however those after the first t+1 that answer lie. The first statement also holds if the user keeps results of any other origin only after check_witness.", "quantifier": "all histories, users, thresholds, numbers of servers, lying servers and their answers, randomness", "why_tests_cant": "ranges over all interleavings and everything the servers may send", "anchors": ["src/user.rs::prepare_for_update", "src/user.rs::post_update", "src/user.rs::create_witness", "src/user.rs::check_witness", "src/user.rs::make_membership_proof", "src/servers.rs::update", "src/servers.rs::add", "src/servers.rs::delete", "src/servers.rs::quick_delete"]}
{"id": "C124", "title": "Some servers are silent and others lie", "statement": "If some servers give no answer and some lie (right lengths), more than t answer, the first server is among these, and at most one of the first t+1 that answer lies, then post_update returns the honest result or \"malicious server\", and the honest result if none of them lies; so an accepted witness is valid. If the first server is the silent one the guarantee fails: with the first t that answer honest, Ok is returned exactly if the (t+1)-th sends its honest answer divided by the square of the first answering server's point (so never for its honest answer, unless that is 0), and then the result is right; a liar among the first t has exactly one answer that passes the check, its honest one plus a multiple (known to it) of the honest one of the (t+1)-th, which for t = 2 it can compute if it knows the id, but which, over the sharing randomness, any strategy of a server that sees the shares of fewer than t - 1 servers (not the (t+1)-th) hits with probability at most 1/|F|, even if it knows the id; with it the result can be a point that is no witness, although all others are honest.", "quantifier": "all histories, users, thresholds, numbers of servers, sets of silent and of lying servers, their answers, randomness", "why_tests_cant": "ranges over everything the servers may send or not send", "anchors": ["src/user.rs::post_update", "src/utils.rs::shamir_coefficients", "src/utils.rs::shamir_rebuild_point", "src/utils.rs::shamir_rebuild_scalar", "src/servers.rs::update"]}

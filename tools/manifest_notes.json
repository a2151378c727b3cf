{
 "C01": [
  "proved",
  "Write/Sum of the modelled digest equals FIPS 180-4 SHA-256 for every byte list."
 ],
 "C02": [
  "proved",
  "Any split of the message into Write calls gives the same digest."
 ],
 "C03": [
  "proved",
  "Arbitrary interleavings of Write, Sum and Reset."
 ],
 "C04": [
  "proved",
  "Write is satisfiable exactly for byte values."
 ],
 "C05": [
  "proved",
  "Each word gadget equals its BitVec operation, for every prover. The bound of 220 extra operands of add keeps the requested digits below the bit length of the scalar field, where the model of ToBinary applies."
 ],
 "C06": [
  "proved",
  "PutUint32/PutUint64 big-endian, including the panic on short buffers."
 ],
 "C07": [
  "proved",
  "Equal to RFC 9380 expand_message_xmd for every count the RFC allows (1..127); counts beyond that, where the RFC is undefined and the Go code still answers, are described by c07_out_of_range."
 ],
 "C08": [
  "proved",
  "Honest solver only; see C09 for the adversarial prover."
 ],
 "C09": [
  "partial",
  "The property is FALSE of the code: c09_hash_to_field_unconstrained, c09_not_bound, c09_hash_to_g2_any_message and c09_hash_to_g2_substitution prove the negation (the remainder hint is unconstrained, so the points a prover can present as the hash of a message do not depend on the message). c09_length_partial is the part that holds."
 ],
 "C10": [
  "proved",
  "Every sequence of Write, Sum and Reset calls."
 ],
 "C11": [
  "proved",
  "Both directions, including that no supported length leaves the tables."
 ],
 "C12": [
  "proved",
  "All widths 2..17, all inputs; constants and matrix derived from the Grain LFSR inside the kernel."
 ],
 "C24": [
  "proved",
  ""
 ],
 "C25": [
  "proved",
  ""
 ],
 "C26": [
  "proved",
  ""
 ],
 "C27": [
  "proved",
  ""
 ],
 "C28": [
  "proved",
  ""
 ],
 "C29": [
  "proved",
  ""
 ],
 "C30": [
  "proved",
  "All ten entries evaluated in the kernel."
 ],
 "C31": [
  "proved",
  "Both torus Frobenius maps, for every compressed value."
 ],
 "C32": [
  "proved",
  "Compression/decompression inverse to each other; the edge cases x = 1 (unsatisfiable) and x = -1 (prover free) are stated exactly."
 ],
 "C33": [
  "proved",
  "Soundness against every prover for all inputs; exact satisfiability conditions; honest completeness of SquareTorus on cyclotomic values (the honest hint is a cyclotomic squaring)."
 ],
 "C34": [
  "proved",
  "Soundness against every prover for all inputs; honest completeness on cyclotomic values without small order."
 ],
 "C35": [
  "proved",
  "Soundness of both variants for every non-zero e; exactness whenever the reduced value is not 1; exact satisfiability condition for the safe variant."
 ],
 "C36": [
  "proved",
  "All degenerate inputs, including e = 0 where the unsafe variant leaves the result to the prover."
 ],
 "C37": [
  "partial",
  "False of the code exactly when C1 = 0 (c37_safe_mutates, c37_violated); proved otherwise and for the unsafe variant."
 ],
 "C38": [
  "proved",
  "All five step functions, over any TowerField, against Mathlib's group law; general position = the group-law conditions in the hypotheses."
 ],
 "C39": [
  "proved",
  "For arbitrary inputs (also points off the curve) and any number of pairs; both honest values and prover-reachable values."
 ],
 "C40": [
  "proved",
  "For lists of non-zero points of E(Fp) and non-zero order-r points of the twist. Satisfiability is proved unless the product is 1 (that case: C43). Points with y = 0 (the code's infinity) make the circuit unsatisfiable (c40_infinity_G1)."
 ],
 "C41": [
  "proved",
  "Equality as circuits for all inputs; the whole precomputed table is checked against the recomputed chain of lines in the kernel."
 ],
 "C42": [
  "proved",
  ""
 ],
 "C43": [
  "proved",
  "Soundness for all inputs (c43_sound_general) and for points of the right groups (c43_sound). Completeness is exactly described by c43_complete (satisfiable iff no exceptional torus case is met); with one pair the check is always unsatisfiable (c43_single_unsatisfiable)."
 ],
 "C44": [
  "proved",
  "Doubling, negation, addition and subtraction for every pair of points with the honest (exact) tests; forced for every prover on finite distinct points. c44_infinity_lie and c44_equal_lie prove that without exact tests a prover can leave the group law."
 ],
 "C45": [
  "proved",
  "Every curve point, honest prover; forced for every prover on points without small torsion (in particular on the subgroup of order r); infinity stays infinity for every prover; c45_lie: on a point of order 13 a prover can claim infinity."
 ],
 "C46": [
  "proved",
  "Round trip, both directions, and unsatisfiability at infinity; c46_placeholder_lie is an additional adversarial finding."
 ],
 "C47": [
  "proved",
  "Different abscissas, opposite, equal, doubling and the (0,0) placeholder."
 ],
 "C48": [
  "proved",
  "The map computed is characterised as Frobenius carried through the untwist; additivity, injectivity and the square."
 ],
 "C49": [
  "proved",
  "Jacobian variant on every point, affine variant wherever it is defined, both forced for every prover without small torsion; unsatisfiable on the affine placeholder for infinity."
 ],
 "C50": [
  "partial",
  "FALSE of the code exactly when A0 = 0 and A1 is odd (c50_rfc_iff, c50_false); c50_parity_partial is what holds for the honest prover; c50_prover characterises what any prover can obtain."
 ],
 "C51": [
  "proved",
  "Honest prover: c51_honest, c51_zero. Any prover: c51_sound_partial (up to an eighth root of unity); c51_prover_false shows the flag does not bind the prover."
 ],
 "C52": [
  "proved",
  "With the sign rule of the code's sgn0, as stated; c52_rfc_partial gives RFC 9380's point outright when no real part involved is 0, c52_sign_false exhibits u where the point differs from RFC 9380."
 ],
 "C53": [
  "proved",
  "c53_only_zero: u = 0 is the only exceptional input, so MapElementToCurve2 is satisfiable exactly for u other than 0."
 ],
 "C54": [
  "proved",
  "Exact for every prover; pole and off-curve inputs in c54_any."
 ],
 "C55": [
  "proved",
  ""
 ],
 "C56": [
  "partial",
  "The full claim is false (c56_false): a prover may use a non-canonical representative. Proved: exact for the honest prover, an answer 0 is never a lie, and on non-zero/unequal/non-one values no prover can lie."
 ],
 "C57": [
  "proved",
  "Honest prover; all four variants; the exceptional cases (exceptional u, infinity) are shown unsatisfiable for the honest prover."
 ],
 "C59": [
  "partial",
  "FALSE of the code: c59_off_curve proves the negation for every non-exceptional u with g(x1) a square; what holds is c52_swu (honest prover) and c59_sound_partial."
 ],
 "C13": [
  "proved",
  "c13_panics: with fewer than ten keys or weights, or a weight at or above the field order, the off-circuit helper panics."
 ],
 "C14": [
  "proved",
  ""
 ],
 "C15": [
  "proved",
  "c15_wrap exhibits the wrap-around when weights are unbounded."
 ],
 "C16": [
  "proved",
  "For both circuits."
 ],
 "C17": [
  "proved",
  "Binding is relative to an explicit Poseidon collision, as stated."
 ],
 "C18": [
  "partial",
  "FALSE of the code, in both modes: c18_false refutes the claim on a concrete accepted transaction; c18_message_hash_free (any public MessageHash is accepted for the same witness) and c18_bytes_free (the message bytes are free too). c18_honest_partial: with honest hints the signature is the signers' aggregate signature on the hash of MsgBytes."
 ],
 "C19": [
  "partial",
  "True in test-engine semantics for keys in general position (c19_engine_partial, c19_true_engine) and in the compiled circuit when everybody signs (c19_all_sign); FALSE of the compiled circuit otherwise (c19_false_compiled on a concrete key list, c19_compiled_false, c19_compiled_nobody). c19_compiled_gaps: exact value in the compiled circuit for every signer set with even gaps (right iff the number of non-signers is even); c19_compiled_two_absent: no honest run when validators 0 and 1 are absent; c19_compiled_odd_gap: wrong key when the last validator signs after an odd number of non-signers. c19_compiled_iff: for a set of signers the compiled circuit aggregates correctly, for all keys of order r in general position, exactly if the gaps and the number of non-signers are even; c19_compiled_sharp: the same for one fixed list of keys and the honest prover (1024 sets evaluated in the kernel); c19_compiled_count: these are 76 of 1024 sets. Missing because false: the claim for all signer sets in the compiled circuit."
 ],
 "C20": [
  "proved",
  "c20_no_wrap: as integers, for bounded weights; c20_wrap: without a bound the declared weight can be 0 although the counted weights are not."
 ],
 "C21": [
  "proved",
  ""
 ],
 "C22": [
  "partial",
  "FALSE of the code, in both modes: c22_false on a concrete accepted rotation; c22_bytes_free, c22_new_weights_free, c22_message_hash_free. c22_honest_partial: with honest hints the signature is the new signers' aggregate signature on the hash of the signed bytes."
 ],
 "C23": [
  "proved",
  "c23_sound and c23_rotate_sound for every prover in both modes; c23_complete, c23_complete_all_sign, c23_rotate_complete for the honest witness; a concrete accepted transaction and rotation are in Props/CircuitExamples.lean."
 ],
 "C58": [
  "proved",
  "c58_noncanonical: the circuit itself does not enforce canonical limbs."
 ],
 "C60": [
  "proved",
  ""
 ],
 "C61": [
  "proved",
  ""
 ],
 "C62": [
  "proved",
  "The hash point H is whatever the prover presented (C09): the conclusion is for H of order r."
 ],
 "C63": [
  "proved",
  "c63_transaction: test engine, any signer set; c63_all_sign: both modes; c63_compiled: compiled circuit, signer sets with even gaps and an even number of non-signers (c63_compiled_example is a concrete accepted transaction with two absentees); c63_rotation: rotations in both modes. c63_nine_of_ten and c63_nine_of_ten_rotation: with nine of ten honest signers (one concrete message) the compiled circuit rejects what the test engine accepts, so the restriction on signer sets is necessary. Other signer sets in the compiled circuit: see C19."
 ],
 "C64": [
  "proved",
  "Jacobian variant for every message; affine variant unless the two mapped points are equal or their sum is sent to infinity (c64_message)."
 ],
 "C65": [
  "proved",
  ""
 ],
 "C66": [
  "proved",
  "Finding: subgroup membership of keys is not enforced."
 ],
 "C67": [
  "proved",
  "Finding: rogue-key attack on rotations; c67_example is a concrete accepted instance in both modes."
 ],
 "C68": [
  "proved",
  "Random numbers are an arbitrary list; iden3's Poseidon is assumed to be the textbook hash (IsIden3Hash), see DESIGN."
 ],
 "C69": [
  "proved",
  "c69_trusted_mismatch: a concrete run whose trusted weight the circuit rejects."
 ],
 "C70": [
  "proved",
  "gnark-crypto's PairingCheck is modelled by the product of the ate pairings of the points."
 ],
 "C71": [
  "proved",
  "Test-engine semantics (see C19 for the compiled circuit). c71_rotation_example: a concrete rotation with all hypotheses discharged, down to the Poseidon, SHA-256 and Miller-loop values of the accepted witness."
 ],
 "C72": [
  "proved",
  "Finding: commitments below 2^248."
 ],
 "C73": [
  "proved",
  ""
 ],
 "C74": [
  "proved",
  "Model/Hints.lean; c74_same_circuits links to the gadgets used in all other theorems."
 ],
 "C75": [
  "proved",
  ""
 ],
 "C76": [
  "proved",
  "c76_wrong_entry: the dead entry (0,-1) of NewExt2_ is not the inverse of 1+u."
 ],
 "C77": [
  "proved",
  ""
 ],
 "C78": [
  "proved",
  ""
 ],
 "C79": [
  "proved",
  ""
 ],
 "C80": [
  "proved",
  "c80_pair/c80_check/c80_infinite_signature: honest prover; c80_all_infinity: exactly which counts pass; c80_undetermined: a dishonest prover."
 ],
 "C81": [
  "proved",
  "Negation, proved for every message with an explicit run (Data/ForgeWitness.lean). Uses the unconstrained HashToField (C09), 0/0 slopes and non-canonical representatives at Reduce (DESIGN section 2)."
 ],
 "C82": [
  "proved",
  "Negation: universal forgery. c82_not_unforgeable is the negated statement, c82_all_sign / c82_rotation_all_sign hold in both modes for every honest key set."
 ],
 "C83": [
  "proved",
  "c83_custody over histories of any length (induction); c83_deterministic, c83_append; ex_history is a concrete history."
 ],
 "C84": [
  "proved",
  "Negation of what one would want. c84_reweigh, c84_takeover need no dishonest step beyond the given acceptances; c84_anyone uses the forgery of C82; c84_rogue uses honest proofs only (rogue keys), c84_rogue_example and c84_example are concrete."
 ],
 "C85": [
  "proved",
  "Negation of domain separation; same prover strategy, no new lies."
 ],
 "C86": [
  "proved",
  "Exact characterisation in coordinates and exact counts; supersedes the density remarks of C35/C36/C43."
 ],
 "C87": [
  "proved",
  "Completeness for cancelling products with the exact exception; generators evaluated by the kernel."
 ],
 "C88": [
  "proved",
  "Each test circuit equals the assertion of the intended relation."
 ],
 "C89": [
  "proved",
  "Also removes the small-order condition of c34_exptTorus_exact. Finding: the circuit compressing -1 accepts every C."
 ],
 "C90": [
  "proved",
  "Tests generalised from one random scalar to all scalars; exceptions exact."
 ],
 "C91": [
  "proved",
  "Equivalences; c91_example: a concrete transaction, accepted with the right public inputs and signature only. c91_message starts from the bytes of the message instead of the hash point."
 ],
 "C92": [
  "proved",
  "c92_defined turns the side condition AffineDefined of C49/C57/C64 into 'the result is not infinity'; c92_kernel counts the exceptions; c92_exact needs no other hypothesis; c92_hash, c92_encode for messages; c92_after_map: after the SWU map nothing is left to the prover."
 ],
 "C93": [
  "proved",
  "Exact values and exact panics; example with a non-symmetric table."
 ],
 "C94": [
  "proved",
  "Equalities of constraint systems, so for every prover; keys of c94_aggregate have limbs of the right width (what gnark enforces), c94_trusted_weight needs nothing."
 ],
 "C95": [
  "proved",
  "All lists of field elements, every prover."
 ],
 "C96": [
  "proved",
  "Own proof that Cauchy matrices are nonsingular; distinctness of the points evaluated in the kernel for all sixteen widths."
 ],
 "C97": [
  "proved",
  "Spec/HashToCurve.lean is the RFC's definition with its literal constant; c97_spec shows that it is a total function; c97_example is an explicit message. Messages with a sign tie are those of finding C50."
 ],
 "C98": [
  "proved",
  "Bounds on the number of exceptions for all signer sets; c98_example: keys suitable for all sets exist."
 ],
 "C99": [
  "proved",
  "Counts over all field elements: polynomial degrees of the SWU map and of the isogeny, group order for the kernel of cofactor clearing. c99_example is an explicit message. That SHA-256 spreads messages evenly over the pairs is not claimed."
 ],
 "C100": [
  "proved",
  "Equalities of constraint systems (c100_transaction, c100_rotation); c100_padded extends C91 to padded sets; c100_keys_replaced and c100_nine are the negative consequences, c100_eight a concrete accepted set of eight."
 ],
 "C101": [
  "proved",
  "Composition of C68-C71, C97 and C19, in both modes, with acceptance characterised exactly. The off-circuit hash is any function meeting RFC 9380, which c101_hash_unique shows to be unique. The two examples are accepted from the bytes on."
 ],
 "C102": [
  "proved",
  "c102_results is an equivalence (converse of C69); c102_progress and c102_unused range over all finite random sequences; c102_unbounded gives for every length a sequence on which the helper has not returned."
 ],
 "C103": [
  "proved",
  "A statement about a defect of the code (C09 is false). Counting: fibres of map_to_curve (C99) and of clearing the cofactor. The bound 1/26 is not sharp."
 ],
 "C104": [
  "proved",
  "Liveness counterpart of C83, by induction over the history from C97. Exceptions of C101 (keys not in general position, inexact aggregation in the compiled circuit, irregular messages, exceptional Miller values) are conditions of a step. The bytes signed in a rotation are arbitrary, as in the circuit (C37)."
 ],
 "C105": [
  "proved",
  "c105_transaction and c105_rotation: the exact condition. c105_accountable(_rotation): with distinct sums of keys only the true bit list and weight. c105_rare: how many key tuples lack distinct sums. c105_collision: a concrete set without them, both modes. `CanSign` is that of C104; the other bit list must be non-empty and, in the compiled circuit, one that aggregates exactly (C19). About the honest prover: with dishonest hints C80 applies."
 ],
 "C106": [
  "proved",
  "c106_engine, c106_engine_rotation: every prover. c106_compiled, c106_compiled_rotation: honest prover. c106_compiled_forged, c106_compiled_forged_rotation: the dishonest prover, with the exact weight."
 ],
 "C107": [
  "proved",
  "c107_transaction and c107_rotation: any finite family of groups and integer coefficients. c107_two_groups, c107_join, c107_overlap, c107_remove: the usual cases, for transactions."
 ],
 "C108": [
  "proved",
  "c108_signature; c108_transaction, c108_rotation: any order and mode; c108_engine, c108_all_sign: keys with distinct sums; c108_compiled_false: the exception occurs in the compiled circuit."
 ],
 "C109": [
  "proved",
  "Both circuits are shown to be equal as constraint systems of the model. The converse for the other 948 signer sets is proved for the aggregated key (C19) and for examples (C63, C106), not for the verdict of every circuit."
 ],
 "C110": [
  "proved",
  "c110_message(_rotation): another message. c110_set(_rotation): another validator set. c110_kept(_rotation): signers who keep key and place. `CanSign` is that of C104 and is required of the claimed signers only; in c110_message the signed message need only have a finite hash."
 ],
 "C111": [
  "proved",
  "c111_bit(_rotation): one bit, test engine only (a single flip changes the parity of the number of absentees, so the compiled circuit cannot aggregate both lists exactly, C19). c111_exchange(_rotation): two bits, both modes. c111_key: one key, both modes; the exceptional Miller value of the changed keys need not be excluded."
 ],
 "C112": [
  "proved",
  "c112_repeat, c112_order, c112_cycle are about the verifier of C83, which is a specification (the repository has no on-chain verifier); they say what the public inputs leave open. c112_across uses C110 and holds for both modes."
 ]
}
{
 "claims": [
  {
   "property": "C01",
   "status": "proved",
   "theorems": [
    "Spark.Sha.c01_sha256_correct"
   ],
   "note": "Write/Sum of the modelled digest equals FIPS 180-4 SHA-256 for every byte list."
  },
  {
   "property": "C02",
   "status": "proved",
   "theorems": [
    "Spark.Sha.c02_split_independent",
    "Spark.Sha.c02_same_concat"
   ],
   "note": "Any split of the message into Write calls gives the same digest."
  },
  {
   "property": "C03",
   "status": "proved",
   "theorems": [
    "Spark.Sha.c03_sum_nondestructive"
   ],
   "note": "Arbitrary interleavings of Write, Sum and Reset."
  },
  {
   "property": "C04",
   "status": "proved",
   "theorems": [
    "Spark.Sha.c04_non_bytes_rejected",
    "Spark.Sha.c04_accepts_exactly_bytes"
   ],
   "note": "Write is satisfiable exactly for byte values."
  },
  {
   "property": "C05",
   "status": "proved",
   "theorems": [
    "Spark.Sha.c05_shift_out_of_range",
    "Spark.Sha.c05_convert",
    "Spark.Sha.c05_const",
    "Spark.Sha.c05_assertEq",
    "Spark.Sha.c05_and",
    "Spark.Sha.c05_or",
    "Spark.Sha.c05_xor",
    "Spark.Sha.c05_not",
    "Spark.Sha.c05_lrot",
    "Spark.Sha.c05_lrot_neg",
    "Spark.Sha.c05_lrot_out_of_range",
    "Spark.Sha.c05_rshift",
    "Spark.Sha.c05_lshift",
    "Spark.Sha.c05_add",
    "Spark.Sha.c05_encoding"
   ],
   "note": "Each word gadget equals its BitVec operation, for every prover. The bound of 220 extra operands of add keeps the requested digits below the bit length of the scalar field, where the model of ToBinary applies."
  },
  {
   "property": "C06",
   "status": "proved",
   "theorems": [
    "Spark.Sha.c06_putUint32",
    "Spark.Sha.c06_putUint64",
    "Spark.Sha.c06_short"
   ],
   "note": "PutUint32/PutUint64 big-endian, including the panic on short buffers."
  },
  {
   "property": "C07",
   "status": "proved",
   "theorems": [
    "Spark.H2C.c07_expand_msg_xmd",
    "Spark.H2C.c07_out_of_range",
    "Spark.H2C.c07_non_byte"
   ],
   "note": "Equal to RFC 9380 expand_message_xmd for every count the RFC allows (1..127); counts beyond that, where the RFC is undefined and the Go code still answers, are described by c07_out_of_range."
  },
  {
   "property": "C08",
   "status": "proved",
   "theorems": [
    "Spark.H2C.c08_hash_to_field_honest"
   ],
   "note": "Honest solver only; see C09 for the adversarial prover."
  },
  {
   "property": "C09",
   "status": "partial",
   "theorems": [
    "Spark.H2C.c09_hash_to_field_unconstrained",
    "Spark.H2C.c09_not_bound",
    "Spark.H2C.c09_length_partial",
    "Spark.HashProps.c09_hash_to_g2_any_message",
    "Spark.HashProps.c09_hash_to_g2_substitution",
    "Spark.HashProps.c09_hash_to_g2_not_bound"
   ],
   "note": "The property is FALSE of the code: c09_hash_to_field_unconstrained, c09_not_bound, c09_hash_to_g2_any_message and c09_hash_to_g2_substitution prove the negation (the remainder hint is unconstrained, so the points a prover can present as the hash of a message do not depend on the message). c09_length_partial is the part that holds."
  },
  {
   "property": "C10",
   "status": "proved",
   "theorems": [
    "Spark.PoseidonProps.c10_hasher",
    "Spark.PoseidonProps.c10_pieces",
    "Spark.PoseidonProps.c10_reset"
   ],
   "note": "Every sequence of Write, Sum and Reset calls."
  },
  {
   "property": "C11",
   "status": "proved",
   "theorems": [
    "Spark.PoseidonProps.c11_defined",
    "Spark.PoseidonProps.c11_circuit",
    "Spark.PoseidonProps.c11_hasher"
   ],
   "note": "Both directions, including that no supported length leaves the tables."
  },
  {
   "property": "C12",
   "status": "proved",
   "theorems": [
    "Spark.PoseidonProps.c12_permutation",
    "Spark.PoseidonProps.c12_hash",
    "Spark.PoseidonProps.c12_reference_exists",
    "Spark.PoseidonProps.c12_vector"
   ],
   "note": "All widths 2..17, all inputs; constants and matrix derived from the Grain LFSR inside the kernel."
  },
  {
   "property": "C13",
   "status": "proved",
   "theorems": [
    "Spark.CircuitProps.c13_agree",
    "Spark.CircuitProps.c13_panics"
   ],
   "note": "c13_panics: with fewer than ten keys or weights, or a weight at or above the field order, the off-circuit helper panics."
  },
  {
   "property": "C14",
   "status": "proved",
   "theorems": [
    "Spark.CircuitProps.c14_signed_weight"
   ],
   "note": ""
  },
  {
   "property": "C15",
   "status": "proved",
   "theorems": [
    "Spark.CircuitProps.c15_no_wrap",
    "Spark.CircuitProps.c15_no_wrap_64",
    "Spark.CircuitProps.c15_wrap",
    "Spark.CircuitProps.c15_wrap_example"
   ],
   "note": "c15_wrap exhibits the wrap-around when weights are unbounded."
  },
  {
   "property": "C16",
   "status": "proved",
   "theorems": [
    "Spark.CircuitProps.c16_tx_bits",
    "Spark.CircuitProps.c16_rotate_bits"
   ],
   "note": "For both circuits."
  },
  {
   "property": "C17",
   "status": "proved",
   "theorems": [
    "Spark.CircuitProps.c17_commitment",
    "Spark.CircuitProps.c17_binding"
   ],
   "note": "Binding is relative to an explicit Poseidon collision, as stated."
  },
  {
   "property": "C18",
   "status": "partial",
   "theorems": [
    "Spark.CircuitProps.c18_message_hash_free",
    "Spark.CircuitProps.c18_bytes_free",
    "Spark.CircuitProps.c18_false",
    "Spark.HonestProps.c18_honest_partial"
   ],
   "note": "FALSE of the code, in both modes: c18_false refutes the claim on a concrete accepted transaction; c18_message_hash_free (any public MessageHash is accepted for the same witness) and c18_bytes_free (the message bytes are free too). c18_honest_partial: with honest hints the signature is the signers' aggregate signature on the hash of MsgBytes."
  },
  {
   "property": "C19",
   "status": "partial",
   "theorems": [
    "Spark.CircuitProps.c19_engine_partial",
    "Spark.CircuitProps.c19_compiled",
    "Spark.CircuitProps.c19_all_sign",
    "Spark.CircuitProps.c19_compiled_false",
    "Spark.CircuitProps.c19_compiled_nobody",
    "Spark.CircuitProps.c19_equal_keys",
    "Spark.CircuitProps.c19_true_engine",
    "Spark.CircuitProps.c19_false_compiled",
    "Spark.CircuitProps.c19_compiled_gaps",
    "Spark.CircuitProps.c19_compiled_two_absent",
    "Spark.CircuitProps.c19_compiled_odd_gap",
    "Spark.CircuitProps.c19_compiled_odd_gap_example",
    "Spark.CircuitProps.c19_compiled_sharp",
    "Spark.CircuitProps.c19_compiled_iff",
    "Spark.CircuitProps.c19_compiled_count"
   ],
   "note": "True in test-engine semantics for keys in general position (c19_engine_partial, c19_true_engine) and in the compiled circuit when everybody signs (c19_all_sign); FALSE of the compiled circuit otherwise (c19_false_compiled on a concrete key list, c19_compiled_false, c19_compiled_nobody). c19_compiled_gaps: exact value in the compiled circuit for every signer set with even gaps (right iff the number of non-signers is even); c19_compiled_two_absent: no honest run when validators 0 and 1 are absent; c19_compiled_odd_gap: wrong key when the last validator signs after an odd number of non-signers. c19_compiled_iff: for a set of signers the compiled circuit aggregates correctly, for all keys of order r in general position, exactly if the gaps and the number of non-signers are even; c19_compiled_sharp: the same for one fixed list of keys and the honest prover (1024 sets evaluated in the kernel); c19_compiled_count: these are 76 of 1024 sets. Missing because false: the claim for all signer sets in the compiled circuit."
  },
  {
   "property": "C20",
   "status": "proved",
   "theorems": [
    "Spark.CircuitProps.c20_trusted_weight",
    "Spark.CircuitProps.c20_no_wrap",
    "Spark.CircuitProps.c20_positional",
    "Spark.CircuitProps.c20_moved",
    "Spark.HistoryProps.c20_wrap"
   ],
   "note": "c20_no_wrap: as integers, for bounded weights; c20_wrap: without a bound the declared weight can be 0 although the counted weights are not."
  },
  {
   "property": "C21",
   "status": "proved",
   "theorems": [
    "Spark.CircuitProps.c21_commitments",
    "Spark.CircuitProps.c21_chain"
   ],
   "note": ""
  },
  {
   "property": "C22",
   "status": "partial",
   "theorems": [
    "Spark.CircuitProps.c22_bytes_free",
    "Spark.CircuitProps.c22_new_weights_free",
    "Spark.CircuitProps.c22_message_hash_free",
    "Spark.CircuitProps.c22_false",
    "Spark.HonestProps.c22_honest_partial"
   ],
   "note": "FALSE of the code, in both modes: c22_false on a concrete accepted rotation; c22_bytes_free, c22_new_weights_free, c22_message_hash_free. c22_honest_partial: with honest hints the signature is the new signers' aggregate signature on the hash of the signed bytes."
  },
  {
   "property": "C23",
   "status": "proved",
   "theorems": [
    "Spark.CircuitProps.c23_sound",
    "Spark.CircuitProps.c23_rotate_sound",
    "Spark.CircuitProps.c23_pairing_equation",
    "Spark.CircuitProps.c23_complete_of_key",
    "Spark.CircuitProps.c23_complete",
    "Spark.CircuitProps.c23_complete_all_sign",
    "Spark.CircuitProps.c23_rotate_complete"
   ],
   "note": "c23_sound and c23_rotate_sound for every prover in both modes; c23_complete, c23_complete_all_sign, c23_rotate_complete for the honest witness; a concrete accepted transaction and rotation are in Props/CircuitExamples.lean."
  },
  {
   "property": "C24",
   "status": "proved",
   "theorems": [
    "Spark.TowerProps.c24_add",
    "Spark.TowerProps.c24_sub",
    "Spark.TowerProps.c24_neg",
    "Spark.TowerProps.c24_double",
    "Spark.TowerProps.c24_mul",
    "Spark.TowerProps.c24_square",
    "Spark.TowerProps.c24_mulByElement",
    "Spark.TowerProps.c24_mulByConstElement",
    "Spark.TowerProps.c24_mulByNonResidue",
    "Spark.TowerProps.c24_conjugate",
    "Spark.TowerProps.c24_constants",
    "Spark.TowerProps.c24_isZero",
    "Spark.TowerProps.c24_select",
    "Spark.TowerProps.c24_select_nonbool",
    "Spark.TowerProps.c24_lookup2",
    "Spark.TowerProps.c24_assertIsEqual"
   ],
   "note": ""
  },
  {
   "property": "C25",
   "status": "proved",
   "theorems": [
    "Spark.TowerProps.c25_add",
    "Spark.TowerProps.c25_sub",
    "Spark.TowerProps.c25_neg",
    "Spark.TowerProps.c25_double",
    "Spark.TowerProps.c25_mul",
    "Spark.TowerProps.c25_square",
    "Spark.TowerProps.c25_mulByE2",
    "Spark.TowerProps.c25_mulBy0",
    "Spark.TowerProps.c25_mulBy01",
    "Spark.TowerProps.c25_mulBy12",
    "Spark.TowerProps.c25_mulByNonResidue",
    "Spark.TowerProps.c25_constants",
    "Spark.TowerProps.c25_isZero",
    "Spark.TowerProps.c25_select",
    "Spark.TowerProps.c25_lookup2",
    "Spark.TowerProps.c25_assertIsEqual"
   ],
   "note": ""
  },
  {
   "property": "C26",
   "status": "proved",
   "theorems": [
    "Spark.TowerProps.c26_add",
    "Spark.TowerProps.c26_sub",
    "Spark.TowerProps.c26_mul",
    "Spark.TowerProps.c26_square",
    "Spark.TowerProps.c26_conjugate",
    "Spark.TowerProps.c26_constants",
    "Spark.TowerProps.c26_isZero",
    "Spark.TowerProps.c26_select",
    "Spark.TowerProps.c26_lookup2",
    "Spark.TowerProps.c26_assertIsEqual"
   ],
   "note": ""
  },
  {
   "property": "C27",
   "status": "proved",
   "theorems": [
    "Spark.TowerProps.c27_mulBy014",
    "Spark.TowerProps.c27_mul014By014",
    "Spark.TowerProps.c27_mulBy01245"
   ],
   "note": ""
  },
  {
   "property": "C28",
   "status": "proved",
   "theorems": [
    "Spark.TowerProps.c28_e2_inverse",
    "Spark.TowerProps.c28_e6_inverse",
    "Spark.TowerProps.c28_e12_inverse",
    "Spark.TowerProps.c28_e2_div",
    "Spark.TowerProps.c28_e6_div",
    "Spark.TowerProps.c28_e12_div",
    "Spark.TowerProps.c28_e2_checked_div",
    "Spark.TowerProps.c28_e2_inverse_lowercase",
    "Spark.TowerProps.c28_inverse_is_inverse"
   ],
   "note": ""
  },
  {
   "property": "C29",
   "status": "proved",
   "theorems": [
    "Spark.TowerProps.c29_zero_div_zero"
   ],
   "note": ""
  },
  {
   "property": "C30",
   "status": "proved",
   "theorems": [
    "Spark.TowerProps.c30_power1",
    "Spark.TowerProps.c30_power2"
   ],
   "note": "All ten entries evaluated in the kernel."
  },
  {
   "property": "C31",
   "status": "proved",
   "theorems": [
    "Spark.TorusProps.c31_frobeniusTorus",
    "Spark.TorusProps.c31_frobeniusSquareTorus",
    "Spark.TorusProps.c31_dec_injective"
   ],
   "note": "Both torus Frobenius maps, for every compressed value."
  },
  {
   "property": "C32",
   "status": "proved",
   "theorems": [
    "Spark.TorusProps.c32_decompress",
    "Spark.TorusProps.c32_decompress_norm",
    "Spark.TorusProps.c32_decompress_compress",
    "Spark.TorusProps.c32_compress_decompress",
    "Spark.TorusProps.c32_compress_minus_one",
    "Spark.TorusProps.c32_compress_one"
   ],
   "note": "Compression/decompression inverse to each other; the edge cases x = 1 (unsatisfiable) and x = -1 (prover free) are stated exactly."
  },
  {
   "property": "C33",
   "status": "proved",
   "theorems": [
    "Spark.TorusProps.c33_mulTorus_sound",
    "Spark.TorusProps.c33_mulTorus_exact",
    "Spark.TorusProps.c33_mulTorus_unsat",
    "Spark.TorusProps.c33_squareTorus_sound",
    "Spark.TorusProps.c33_squareTorus_satisfiable",
    "Spark.TorusProps.c33_squareTorus_exact",
    "Spark.TorusProps.c33_inverseTorus",
    "Spark.TorusProps.c33_mulTorus_satisfiable"
   ],
   "note": "Soundness against every prover for all inputs; exact satisfiability conditions; honest completeness of SquareTorus on cyclotomic values (the honest hint is a cyclotomic squaring)."
  },
  {
   "property": "C34",
   "status": "proved",
   "theorems": [
    "Spark.TorusProps.c34_exptHalfTorus_sound",
    "Spark.TorusProps.c34_exptTorus_sound",
    "Spark.TorusProps.c34_exptTorus_exact"
   ],
   "note": "Soundness against every prover for all inputs; honest completeness on cyclotomic values without small order."
  },
  {
   "property": "C35",
   "status": "proved",
   "theorems": [
    "Spark.FinalExpProps.c35_safe_sound",
    "Spark.FinalExpProps.c35_unsafe_sound",
    "Spark.FinalExpProps.c35_exact",
    "Spark.FinalExpProps.c35_safe_satisfiable",
    "Spark.FinalExpProps.c35_safe_exact_of_satisfiable",
    "Spark.FinalExpProps.c35_safe_all",
    "Spark.FinalExpProps.c35_unsafe_all"
   ],
   "note": "Soundness of both variants for every non-zero e; exactness whenever the reduced value is not 1; exact satisfiability condition for the safe variant."
  },
  {
   "property": "C36",
   "status": "proved",
   "theorems": [
    "Spark.FinalExpProps.c36_safe_subfield",
    "Spark.FinalExpProps.c36_safe_subfield_all",
    "Spark.FinalExpProps.c36_unsafe_subfield",
    "Spark.FinalExpProps.c36_C0_zero",
    "Spark.FinalExpProps.c36_safe_zero",
    "Spark.FinalExpProps.c36_unsafe_zero_free",
    "Spark.FinalExpProps.c36_safe_subfield_satisfiable"
   ],
   "note": "All degenerate inputs, including e = 0 where the unsafe variant leaves the result to the prover."
  },
  {
   "property": "C37",
   "status": "partial",
   "theorems": [
    "Spark.FinalExpProps.c37_unsafe_unchanged",
    "Spark.FinalExpProps.c37_safe_unchanged_partial",
    "Spark.FinalExpProps.c37_safe_mutates",
    "Spark.FinalExpProps.c37_violated"
   ],
   "note": "False of the code exactly when C1 = 0 (c37_safe_mutates, c37_violated); proved otherwise and for the unsafe variant."
  },
  {
   "property": "C38",
   "status": "proved",
   "theorems": [
    "Spark.PairingProps.c38_tangentCompute",
    "Spark.PairingProps.c38_doubleStep",
    "Spark.PairingProps.c38_addStep",
    "Spark.PairingProps.c38_doubleAndAddStep",
    "Spark.PairingProps.c38_tripleStep"
   ],
   "note": "All five step functions, over any TowerField, against Mathlib's group law; general position = the group-law conditions in the hypotheses."
  },
  {
   "property": "C39",
   "status": "proved",
   "theorems": [
    "Spark.PairingProps.c39_product"
   ],
   "note": "For arbitrary inputs (also points off the curve) and any number of pairs; both honest values and prover-reachable values."
  },
  {
   "property": "C40",
   "status": "proved",
   "theorems": [
    "Spark.PairingProps.c40_pair_sound",
    "Spark.PairingProps.c40_pair_exact",
    "Spark.PairingProps.c40_single",
    "Spark.PairingProps.c40_infinity_G1"
   ],
   "note": "For lists of non-zero points of E(Fp) and non-zero order-r points of the twist. Satisfiability is proved unless the product is 1 (that case: C43). Points with y = 0 (the code's infinity) make the circuit unsatisfiable (c40_infinity_G1)."
  },
  {
   "property": "C41",
   "status": "proved",
   "theorems": [
    "Spark.PairingProps.c41_millerLoop",
    "Spark.PairingProps.c41_doubleMillerLoop",
    "Spark.PairingProps.c41_pair",
    "Spark.PairingProps.c41_doublePair"
   ],
   "note": "Equality as circuits for all inputs; the whole precomputed table is checked against the recomputed chain of lines in the kernel."
  },
  {
   "property": "C42",
   "status": "proved",
   "theorems": [
    "Spark.PairingProps.c42_millerLoop",
    "Spark.PairingProps.c42_pair",
    "Spark.PairingProps.c42_pairingCheck"
   ],
   "note": ""
  },
  {
   "property": "C43",
   "status": "proved",
   "theorems": [
    "Spark.PairingProps.c43_sound_general",
    "Spark.PairingProps.c43_sound",
    "Spark.PairingProps.c43_complete",
    "Spark.PairingProps.c43_complete_easy",
    "Spark.PairingProps.c43_single_unsatisfiable"
   ],
   "note": "Soundness for all inputs (c43_sound_general) and for points of the right groups (c43_sound). Completeness is exactly described by c43_complete (satisfiable iff no exceptional torus case is met); with one pair the check is always unsatisfiable (c43_single_unsatisfiable)."
  },
  {
   "property": "C44",
   "status": "proved",
   "theorems": [
    "Spark.CurveProps.c44_double_neg",
    "Spark.CurveProps.c44_add",
    "Spark.CurveProps.c44_sub",
    "Spark.CurveProps.c44_add_sound",
    "Spark.CurveProps.c44_sub_sound",
    "Spark.CurveProps.c44_infinity_lie",
    "Spark.CurveProps.c44_equal_lie"
   ],
   "note": "Doubling, negation, addition and subtraction for every pair of points with the honest (exact) tests; forced for every prover on finite distinct points. c44_infinity_lie and c44_equal_lie prove that without exact tests a prover can leave the group law."
  },
  {
   "property": "C45",
   "status": "proved",
   "theorems": [
    "Spark.CurveProps.c45_honest",
    "Spark.CurveProps.c45_sound_partial",
    "Spark.CurveProps.c45_subgroup",
    "Spark.CurveProps.c45_infinity",
    "Spark.CurveProps.c45_lie"
   ],
   "note": "Every curve point, honest prover; forced for every prover on points without small torsion (in particular on the subgroup of order r); infinity stays infinity for every prover; c45_lie: on a point of order 13 a prover can claim infinity."
  },
  {
   "property": "C46",
   "status": "proved",
   "theorems": [
    "Spark.CurveProps.c46_round_trip",
    "Spark.CurveProps.c46_to_affine",
    "Spark.CurveProps.c46_to_jacobian",
    "Spark.CurveProps.c46_placeholder",
    "Spark.CurveProps.c46_infinity_unsat",
    "Spark.CurveProps.c46_placeholder_lie"
   ],
   "note": "Round trip, both directions, and unsatisfiability at infinity; c46_placeholder_lie is an additional adversarial finding."
  },
  {
   "property": "C47",
   "status": "proved",
   "theorems": [
    "Spark.CurveProps.c47_add",
    "Spark.CurveProps.c47_sub",
    "Spark.CurveProps.c47_opposite_unsat",
    "Spark.CurveProps.c47_equal_free",
    "Spark.CurveProps.c47_equal_wrong",
    "Spark.CurveProps.c47_double",
    "Spark.CurveProps.c47_double_unsat",
    "Spark.CurveProps.c47_double_placeholder"
   ],
   "note": "Different abscissas, opposite, equal, doubling and the (0,0) placeholder."
  },
  {
   "property": "C48",
   "status": "proved",
   "theorems": [
    "Spark.CurveProps.c48_psi",
    "Spark.CurveProps.c48_unique"
   ],
   "note": "The map computed is characterised as Frobenius carried through the untwist; additivity, injectivity and the square."
  },
  {
   "property": "C49",
   "status": "proved",
   "theorems": [
    "Spark.CurveProps.c49_jacobian",
    "Spark.CurveProps.c49_affine",
    "Spark.CurveProps.c49_sound",
    "Spark.CurveProps.c49_subgroup",
    "Spark.CurveProps.c49_affine_infinity"
   ],
   "note": "Jacobian variant on every point, affine variant wherever it is defined, both forced for every prover without small torsion; unsatisfiable on the affine placeholder for infinity."
  },
  {
   "property": "C50",
   "status": "partial",
   "theorems": [
    "Spark.HashProps.c50_parity_partial",
    "Spark.HashProps.c50_rfc_iff",
    "Spark.HashProps.c50_false",
    "Spark.HashProps.c50_prover"
   ],
   "note": "FALSE of the code exactly when A0 = 0 and A1 is odd (c50_rfc_iff, c50_false); c50_parity_partial is what holds for the honest prover; c50_prover characterises what any prover can obtain."
  },
  {
   "property": "C51",
   "status": "proved",
   "theorems": [
    "Spark.HashProps.c51_honest",
    "Spark.HashProps.c51_zero",
    "Spark.HashProps.c51_sound_partial",
    "Spark.HashProps.c51_prover_false"
   ],
   "note": "Honest prover: c51_honest, c51_zero. Any prover: c51_sound_partial (up to an eighth root of unity); c51_prover_false shows the flag does not bind the prover."
  },
  {
   "property": "C52",
   "status": "proved",
   "theorems": [
    "Spark.HashProps.c52_swu",
    "Spark.HashProps.c52_rfc_partial",
    "Spark.HashProps.c52_sign_false"
   ],
   "note": "With the sign rule of the code's sgn0, as stated; c52_rfc_partial gives RFC 9380's point outright when no real part involved is 0, c52_sign_false exhibits u where the point differs from RFC 9380."
  },
  {
   "property": "C53",
   "status": "proved",
   "theorems": [
    "Spark.HashProps.c53_only_zero",
    "Spark.HashProps.c53_exceptional",
    "Spark.HashProps.c53_zero"
   ],
   "note": "c53_only_zero: u = 0 is the only exceptional input, so MapElementToCurve2 is satisfiable exactly for u other than 0."
  },
  {
   "property": "C54",
   "status": "proved",
   "theorems": [
    "Spark.HashProps.c54_isogeny",
    "Spark.HashProps.c54_any"
   ],
   "note": "Exact for every prover; pole and off-curve inputs in c54_any."
  },
  {
   "property": "C55",
   "status": "proved",
   "theorems": [
    "Spark.HashProps.c55_exp"
   ],
   "note": ""
  },
  {
   "property": "C56",
   "status": "partial",
   "theorems": [
    "Spark.CurveProps.c56_honest",
    "Spark.CurveProps.c56_sound_partial",
    "Spark.CurveProps.c56_zero_answer",
    "Spark.CurveProps.c56_false"
   ],
   "note": "The full claim is false (c56_false): a prover may use a non-canonical representative. Proved: exact for the honest prover, an answer 0 is never a lie, and on non-zero/unequal/non-one values no prover can lie."
  },
  {
   "property": "C57",
   "status": "proved",
   "theorems": [
    "Spark.HashProps.c57_map_rfc",
    "Spark.HashProps.c57_hash_to_g2",
    "Spark.HashProps.c57_encode_to_g2",
    "Spark.HashProps.c57_exceptional",
    "Spark.HashProps.c57_example"
   ],
   "note": "Honest prover; all four variants; the exceptional cases (exceptional u, infinity) are shown unsatisfiable for the honest prover."
  },
  {
   "property": "C58",
   "status": "proved",
   "theorems": [
    "Spark.CircuitProps.c58_bound",
    "Spark.CircuitProps.c58_recombine",
    "Spark.CircuitProps.c58_circuit",
    "Spark.CircuitProps.c58_injective",
    "Spark.CircuitProps.c58_keys",
    "Spark.CircuitProps.c58_denotes",
    "Spark.CircuitProps.c58_signature",
    "Spark.CircuitProps.c58_array",
    "Spark.CircuitProps.c58_noncanonical",
    "Spark.HintProps.c58_tower"
   ],
   "note": "c58_noncanonical: the circuit itself does not enforce canonical limbs."
  },
  {
   "property": "C59",
   "status": "partial",
   "theorems": [
    "Spark.HashProps.c59_off_curve",
    "Spark.HashProps.c59_sound_partial"
   ],
   "note": "FALSE of the code: c59_off_curve proves the negation for every non-exceptional u with g(x1) a square; what holds is c52_swu (honest prover) and c59_sound_partial."
  },
  {
   "property": "C60",
   "status": "proved",
   "theorems": [
    "Spark.GroupProps.c60_add_left",
    "Spark.GroupProps.c60_add_right",
    "Spark.GroupProps.c60_scalars",
    "Spark.GroupProps.c60_pair"
   ],
   "note": ""
  },
  {
   "property": "C61",
   "status": "proved",
   "theorems": [
    "Spark.GroupProps.c61_nondegenerate",
    "Spark.GroupProps.c61_pair",
    "Spark.GroupProps.c61_example"
   ],
   "note": ""
  },
  {
   "property": "C62",
   "status": "proved",
   "theorems": [
    "Spark.GroupProps.c62_equation",
    "Spark.GroupProps.c62_secret",
    "Spark.GroupProps.c62_check",
    "Spark.GroupProps.c62_transaction",
    "Spark.GroupProps.c62_engine",
    "Spark.GroupProps.c62_all_sign",
    "Spark.GroupProps.c62_rotation"
   ],
   "note": "The hash point H is whatever the prover presented (C09): the conclusion is for H of order r."
  },
  {
   "property": "C63",
   "status": "proved",
   "theorems": [
    "Spark.CircuitProps.c63_compiled",
    "Spark.CircuitProps.c63_rotation",
    "Spark.CircuitProps.c63_compiled_example",
    "Spark.CircuitProps.c63_rotation_example",
    "Spark.GroupProps.c63_equation",
    "Spark.GroupProps.c63_transaction",
    "Spark.GroupProps.c63_all_sign",
    "Spark.CircuitProps.c63_nine_of_ten",
    "Spark.CircuitProps.c63_nine_of_ten_rotation"
   ],
   "note": "c63_transaction: test engine, any signer set; c63_all_sign: both modes; c63_compiled: compiled circuit, signer sets with even gaps and an even number of non-signers (c63_compiled_example is a concrete accepted transaction with two absentees); c63_rotation: rotations in both modes. c63_nine_of_ten and c63_nine_of_ten_rotation: with nine of ten honest signers (one concrete message) the compiled circuit rejects what the test engine accepts, so the restriction on signer sets is necessary. Other signer sets in the compiled circuit: see C19."
  },
  {
   "property": "C64",
   "status": "proved",
   "theorems": [
    "Spark.HonestProps.c64_message",
    "Spark.GroupProps.c64_clear_cofactor",
    "Spark.GroupProps.c64_subgroup",
    "Spark.GroupProps.c64_hash_jac",
    "Spark.GroupProps.c64_hash"
   ],
   "note": "Jacobian variant for every message; affine variant unless the two mapped points are equal or their sum is sent to infinity (c64_message)."
  },
  {
   "property": "C65",
   "status": "proved",
   "theorems": [
    "Spark.GroupProps.c65_subgroup",
    "Spark.GroupProps.c65_characteristic"
   ],
   "note": ""
  },
  {
   "property": "C66",
   "status": "proved",
   "theorems": [
    "Spark.GroupProps.c66_shift",
    "Spark.GroupProps.c66_accepted",
    "Spark.GroupProps.c66_example"
   ],
   "note": "Finding: subgroup membership of keys is not enforced."
  },
  {
   "property": "C67",
   "status": "proved",
   "theorems": [
    "Spark.GroupProps.c67_rogue_rotation",
    "Spark.GroupProps.c67_takeover",
    "Spark.GroupProps.c67_example"
   ],
   "note": "Finding: rogue-key attack on rotations; c67_example is a concrete accepted instance in both modes."
  },
  {
   "property": "C68",
   "status": "proved",
   "theorems": [
    "Spark.HelperProps.c68_generate"
   ],
   "note": "Random numbers are an arbitrary list; iden3's Poseidon is assumed to be the textbook hash (IsIden3Hash), see DESIGN."
  },
  {
   "property": "C69",
   "status": "proved",
   "theorems": [
    "Spark.HelperProps.c69_generate_new",
    "Spark.HelperProps.c69_every_replacement",
    "Spark.HelperProps.c69_trusted_weight",
    "Spark.HelperProps.c69_trusted_mismatch"
   ],
   "note": "c69_trusted_mismatch: a concrete run whose trusted weight the circuit rejects."
  },
  {
   "property": "C70",
   "status": "proved",
   "theorems": [
    "Spark.HelperProps.c70_verify",
    "Spark.HelperProps.c70_generate_new"
   ],
   "note": "gnark-crypto's PairingCheck is modelled by the product of the ate pairings of the points."
  },
  {
   "property": "C71",
   "status": "proved",
   "theorems": [
    "Spark.HelperProps.c71_transaction",
    "Spark.HelperProps.c71_rotation",
    "Spark.HelperProps.c71_rotation_example"
   ],
   "note": "Test-engine semantics (see C19 for the compiled circuit). c71_rotation_example: a concrete rotation with all hypotheses discharged, down to the Poseidon, SHA-256 and Miller-loop values of the accepted witness."
  },
  {
   "property": "C72",
   "status": "proved",
   "theorems": [
    "Spark.HelperProps.c72_bytes",
    "Spark.HelperProps.c72_short_commitment"
   ],
   "note": "Finding: commitments below 2^248."
  },
  {
   "property": "C73",
   "status": "proved",
   "theorems": [
    "Spark.ParseProps.c73_one",
    "Spark.ParseProps.c73_two",
    "Spark.ParseProps.c73_exact",
    "Spark.ParseProps.c73_two_exact",
    "Spark.ParseProps.c73_trailing_comma"
   ],
   "note": ""
  },
  {
   "property": "C74",
   "status": "proved",
   "theorems": [
    "Spark.HintProps.c74_inverse",
    "Spark.HintProps.c74_division",
    "Spark.HintProps.c74_square_torus",
    "Spark.HintProps.c74_same_circuits",
    "Spark.HintProps.c74_div_g1"
   ],
   "note": "Model/Hints.lean; c74_same_circuits links to the gadgets used in all other theorems."
  },
  {
   "property": "C75",
   "status": "proved",
   "theorems": [
    "Spark.H2C.c75_uint64",
    "Spark.H2C.c75_bits"
   ],
   "note": ""
  },
  {
   "property": "C76",
   "status": "proved",
   "theorems": [
    "Spark.TowerProps.c76_table",
    "Spark.TowerProps.c76_table_lowercase",
    "Spark.TowerProps.c76_wrong_entry"
   ],
   "note": "c76_wrong_entry: the dead entry (0,-1) of NewExt2_ is not the inverse of 1+u."
  },
  {
   "property": "C77",
   "status": "proved",
   "theorems": [
    "Spark.UtilProps.c77_params",
    "Spark.UtilProps.c77_fields"
   ],
   "note": ""
  },
  {
   "property": "C78",
   "status": "proved",
   "theorems": [
    "Spark.UtilProps.c78_mixS",
    "Spark.UtilProps.c78_partial_round"
   ],
   "note": ""
  },
  {
   "property": "C79",
   "status": "proved",
   "theorems": [
    "Spark.UtilProps.c79_assertEq",
    "Spark.UtilProps.c79_min",
    "Spark.UtilProps.c79_contains"
   ],
   "note": ""
  },
  {
   "property": "C80",
   "status": "proved",
   "theorems": [
    "Spark.ForgeryProps.c80_pair",
    "Spark.ForgeryProps.c80_check",
    "Spark.ForgeryProps.c80_infinite_signature",
    "Spark.ForgeryProps.c80_all_infinity",
    "Spark.ForgeryProps.c80_undetermined"
   ],
   "note": "c80_pair/c80_check/c80_infinite_signature: honest prover; c80_all_infinity: exactly which counts pass; c80_undetermined: a dishonest prover."
  },
  {
   "property": "C81",
   "status": "proved",
   "theorems": [
    "Spark.ForgeryProps.c81_hash_zero",
    "Spark.ForgeryProps.c81_not_a_point",
    "Spark.ForgeryProps.c81_collision"
   ],
   "note": "Negation, proved for every message with an explicit run (Data/ForgeWitness.lean). Uses the unconstrained HashToField (C09), 0/0 slopes and non-canonical representatives at Reduce (DESIGN section 2)."
  },
  {
   "property": "C82",
   "status": "proved",
   "theorems": [
    "Spark.ForgeryProps.c82_transaction",
    "Spark.ForgeryProps.c82_engine",
    "Spark.ForgeryProps.c82_all_sign",
    "Spark.ForgeryProps.c82_rotation",
    "Spark.ForgeryProps.c82_rotation_all_sign",
    "Spark.ForgeryProps.c82_not_unforgeable"
   ],
   "note": "Negation: universal forgery. c82_not_unforgeable is the negated statement, c82_all_sign / c82_rotation_all_sign hold in both modes for every honest key set."
  },
  {
   "property": "C83",
   "status": "proved",
   "theorems": [
    "Spark.HistoryProps.c83_custody",
    "Spark.HistoryProps.c83_converse",
    "Spark.HistoryProps.c83_deterministic",
    "Spark.HistoryProps.c83_append"
   ],
   "note": "c83_custody over histories of any length (induction); c83_deterministic, c83_append; ex_history is a concrete history."
  },
  {
   "property": "C84",
   "status": "proved",
   "theorems": [
    "Spark.HistoryProps.c84_reweigh",
    "Spark.HistoryProps.c84_takeover",
    "Spark.HistoryProps.c84_anyone",
    "Spark.HistoryProps.c84_rogue",
    "Spark.HistoryProps.c84_example",
    "Spark.HistoryProps.c84_rogue_example"
   ],
   "note": "Negation of what one would want. c84_reweigh, c84_takeover need no dishonest step beyond the given acceptances; c84_anyone uses the forgery of C82; c84_rogue uses honest proofs only (rogue keys), c84_rogue_example and c84_example are concrete."
  },
  {
   "property": "C85",
   "status": "proved",
   "theorems": [
    "Spark.HistoryProps.c85_transaction_to_rotation",
    "Spark.HistoryProps.c85_rotation_to_transaction",
    "Spark.HistoryProps.c85_reweigh"
   ],
   "note": "Negation of domain separation; same prover strategy, no new lies."
  },
  {
   "property": "C86",
   "status": "proved",
   "theorems": [
    "Spark.ExceptionProps.c86_safe",
    "Spark.ExceptionProps.c86_safe_count",
    "Spark.ExceptionProps.c86_unsafe",
    "Spark.ExceptionProps.c86_unsafe_count",
    "Spark.ExceptionProps.c86_pairingCheck"
   ],
   "note": "Exact characterisation in coordinates and exact counts; supersedes the density remarks of C35/C36/C43."
  },
  {
   "property": "C87",
   "status": "proved",
   "theorems": [
    "Spark.ExceptionProps.c87_cancel",
    "Spark.ExceptionProps.c87_four",
    "Spark.ExceptionProps.c87_generators"
   ],
   "note": "Completeness for cancelling products with the exact exception; generators evaluated by the kernel."
  },
  {
   "property": "C88",
   "status": "proved",
   "theorems": [
    "Spark.TestCircuitProps.c88_e2",
    "Spark.TestCircuitProps.c88_e6",
    "Spark.TestCircuitProps.c88_e12",
    "Spark.TestCircuitProps.c88_inverse",
    "Spark.TestCircuitProps.c88_div",
    "Spark.TestCircuitProps.c88_div_satisfiable"
   ],
   "note": "Each test circuit equals the assertion of the intended relation."
  },
  {
   "property": "C89",
   "status": "proved",
   "theorems": [
    "Spark.TestCircuitProps.c89_compress",
    "Spark.TestCircuitProps.c89_compress_subfield",
    "Spark.TestCircuitProps.c89_decompress",
    "Spark.TestCircuitProps.c89_mul",
    "Spark.TestCircuitProps.c89_inverse",
    "Spark.TestCircuitProps.c89_frobenius",
    "Spark.TestCircuitProps.c89_square_satisfiable",
    "Spark.TestCircuitProps.c89_square",
    "Spark.TestCircuitProps.c89_exptTorus",
    "Spark.TestCircuitProps.c89_expt",
    "Spark.TestCircuitProps.c89_inputs",
    "Spark.TestCircuitProps.c89_decompress_minus_one"
   ],
   "note": "Also removes the small-order condition of c34_exptTorus_exact. Finding: the circuit compressing -1 accepts every C."
  },
  {
   "property": "C90",
   "status": "proved",
   "theorems": [
    "Spark.TestCircuitProps.c90_finalExponentiation",
    "Spark.TestCircuitProps.c90_pair",
    "Spark.TestCircuitProps.c90_pair_infinity",
    "Spark.TestCircuitProps.c90_pairFixed",
    "Spark.TestCircuitProps.c90_multiPair",
    "Spark.TestCircuitProps.c90_pairingCheck",
    "Spark.TestCircuitProps.c90_doublePairFixed",
    "Spark.TestCircuitProps.c90_safe_is_pairingCheck",
    "Spark.TestCircuitProps.c90_safe_generators"
   ],
   "note": "Tests generalised from one random scalar to all scalars; exceptions exact."
  },
  {
   "property": "C91",
   "status": "proved",
   "theorems": [
    "Spark.HonestProps.c91_message",
    "Spark.HonestProps.c91_transaction",
    "Spark.HonestProps.c91_rotation",
    "Spark.HonestProps.c91_general_position",
    "Spark.HonestProps.c91_transaction_position",
    "Spark.HonestProps.c91_rotation_position",
    "Spark.HonestProps.c91_duplicate_key",
    "Spark.HonestProps.c91_example"
   ],
   "note": "Equivalences; c91_example: a concrete transaction, accepted with the right public inputs and signature only. c91_message starts from the bytes of the message instead of the hash point."
  },
  {
   "property": "C92",
   "status": "proved",
   "theorems": [
    "Spark.HashProps.c92_defined",
    "Spark.HashProps.c92_exact",
    "Spark.HashProps.c92_kernel",
    "Spark.HashProps.c92_hash",
    "Spark.HashProps.c92_example",
    "Spark.HashProps.c92_encode",
    "Spark.HashProps.c92_after_map"
   ],
   "note": "c92_defined turns the side condition AffineDefined of C49/C57/C64 into 'the result is not infinity'; c92_kernel counts the exceptions; c92_exact needs no other hypothesis; c92_hash, c92_encode for messages; c92_after_map: after the SWU map nothing is left to the prover."
  },
  {
   "property": "C93",
   "status": "proved",
   "theorems": [
    "Spark.UtilProps.c93_sigma",
    "Spark.UtilProps.c93_ark",
    "Spark.UtilProps.c93_mixLast",
    "Spark.UtilProps.c93_mix"
   ],
   "note": "Exact values and exact panics; example with a non-symmetric table."
  },
  {
   "property": "C94",
   "status": "proved",
   "theorems": [
    "Spark.CircuitProps.c94_trusted_weight",
    "Spark.CircuitProps.c94_trusted_weight_example",
    "Spark.CircuitProps.c94_commitment",
    "Spark.CircuitProps.c94_checks",
    "Spark.CircuitProps.c94_aggregate"
   ],
   "note": "Equalities of constraint systems, so for every prover; keys of c94_aggregate have limbs of the right width (what gnark enforces), c94_trusted_weight needs nothing."
  },
  {
   "property": "C95",
   "status": "proved",
   "theorems": [
    "Spark.Sha.c95_byte",
    "Spark.Sha.c95_xor",
    "Spark.Sha.c95_word"
   ],
   "note": "All lists of field elements, every prover."
  },
  {
   "property": "C96",
   "status": "proved",
   "theorems": [
    "Spark.PoseidonProps.c96_mds",
    "Spark.PoseidonProps.c96_bijective",
    "Spark.PoseidonProps.c96_api",
    "Spark.PoseidonProps.c96_balanced"
   ],
   "note": "Own proof that Cauchy matrices are nonsingular; distinctness of the points evaluated in the kernel for all sixteen widths."
  },
  {
   "property": "C97",
   "status": "proved",
   "theorems": [
    "Spark.HonestProps.c97_spec",
    "Spark.HonestProps.c97_clear_cofactor",
    "Spark.HonestProps.c97_circuits",
    "Spark.HonestProps.c97_hash",
    "Spark.HonestProps.c97_encode",
    "Spark.HonestProps.c97_transaction",
    "Spark.HonestProps.c97_rotation",
    "Spark.HonestProps.c97_example"
   ],
   "note": "Spec/HashToCurve.lean is the RFC's definition with its literal constant; c97_spec shows that it is a total function; c97_example is an explicit message. Messages with a sign tie are those of finding C50."
  },
  {
   "property": "C98",
   "status": "proved",
   "theorems": [
    "Spark.HonestProps.c98_keys",
    "Spark.HonestProps.c98_all_sets",
    "Spark.HonestProps.c98_fine",
    "Spark.HonestProps.c98_example"
   ],
   "note": "Bounds on the number of exceptions for all signer sets; c98_example: keys suitable for all sets exist."
  },
  {
   "property": "C99",
   "status": "proved",
   "theorems": [
    "Spark.HonestProps.c99_fibre",
    "Spark.HonestProps.c99_tie",
    "Spark.HonestProps.c99_fine",
    "Spark.HonestProps.c99_rare",
    "Spark.HonestProps.c99_example"
   ],
   "note": "Counts over all field elements: polynomial degrees of the SWU map and of the isogeny, group order for the kernel of cofactor clearing. c99_example is an explicit message. That SHA-256 spreads messages evenly over the pairs is not claimed."
  },
  {
   "property": "C100",
   "status": "proved",
   "theorems": [
    "Spark.NonSignerProps.c100_aggregate",
    "Spark.NonSignerProps.c100_transaction",
    "Spark.NonSignerProps.c100_rotation",
    "Spark.NonSignerProps.c100_keys_replaced",
    "Spark.NonSignerProps.c100_padded",
    "Spark.NonSignerProps.c100_eight",
    "Spark.NonSignerProps.c100_nine"
   ],
   "note": "Equalities of constraint systems (c100_transaction, c100_rotation); c100_padded extends C91 to padded sets; c100_keys_replaced and c100_nine are the negative consequences, c100_eight a concrete accepted set of eight."
  },
  {
   "property": "C101",
   "status": "proved",
   "theorems": [
    "Spark.HelperProps.c101_hash_unique",
    "Spark.HelperProps.c101_transaction",
    "Spark.HelperProps.c101_rotation",
    "Spark.HelperProps.c101_transaction_example",
    "Spark.HelperProps.c101_rotation_example"
   ],
   "note": "Composition of C68-C71, C97 and C19, in both modes, with acceptance characterised exactly. The off-circuit hash is any function meeting RFC 9380, which c101_hash_unique shows to be unique. The two examples are accepted from the bytes on."
  },
  {
   "property": "C102",
   "status": "proved",
   "theorems": [
    "Spark.HelperProps.c102_results",
    "Spark.HelperProps.c102_progress",
    "Spark.HelperProps.c102_short",
    "Spark.HelperProps.c102_unused",
    "Spark.HelperProps.c102_unbounded"
   ],
   "note": "c102_results is an equivalence (converse of C69); c102_progress and c102_unused range over all finite random sequences; c102_unbounded gives for every length a sequence on which the helper has not returned."
  },
  {
   "property": "C103",
   "status": "proved",
   "theorems": [
    "Spark.HonestProps.c103_hash",
    "Spark.HonestProps.c103_encode"
   ],
   "note": "A statement about a defect of the code (C09 is false). Counting: fibres of map_to_curve (C99) and of clearing the cofactor. The bound 1/26 is not sharp."
  },
  {
   "property": "C104",
   "status": "proved",
   "theorems": [
    "Spark.HistoryProps.c104_progress",
    "Spark.HistoryProps.c104_example"
   ],
   "note": "Liveness counterpart of C83, by induction over the history from C97. Exceptions of C101 (keys not in general position, inexact aggregation in the compiled circuit, irregular messages, exceptional Miller values) are conditions of a step. The bytes signed in a rotation are arbitrary, as in the circuit (C37)."
  },
  {
   "property": "C105",
   "status": "proved",
   "theorems": [
    "Spark.HistoryProps.c105_transaction",
    "Spark.HistoryProps.c105_rotation",
    "Spark.HistoryProps.c105_accountable",
    "Spark.HistoryProps.c105_accountable_rotation",
    "Spark.HistoryProps.c105_rare",
    "Spark.HistoryProps.c105_collision"
   ],
   "note": "c105_transaction and c105_rotation: the exact condition. c105_accountable(_rotation): with distinct sums of keys only the true bit list and weight. c105_rare: how many key tuples lack distinct sums. c105_collision: a concrete set without them, both modes. `CanSign` is that of C104; the other bit list must be non-empty and, in the compiled circuit, one that aggregates exactly (C19). About the honest prover: with dishonest hints C80 applies."
  },
  {
   "property": "C106",
   "status": "proved",
   "theorems": [
    "Spark.HonestProps.c106_engine",
    "Spark.HonestProps.c106_engine_rotation",
    "Spark.HonestProps.c106_compiled",
    "Spark.HonestProps.c106_compiled_rotation",
    "Spark.HonestProps.c106_compiled_forged",
    "Spark.HonestProps.c106_compiled_forged_rotation"
   ],
   "note": "c106_engine, c106_engine_rotation: every prover. c106_compiled, c106_compiled_rotation: honest prover. c106_compiled_forged, c106_compiled_forged_rotation: the dishonest prover, with the exact weight."
  },
  {
   "property": "C107",
   "status": "proved",
   "theorems": [
    "Spark.HistoryProps.c107_transaction",
    "Spark.HistoryProps.c107_rotation",
    "Spark.HistoryProps.c107_two_groups",
    "Spark.HistoryProps.c107_join",
    "Spark.HistoryProps.c107_overlap",
    "Spark.HistoryProps.c107_remove"
   ],
   "note": "c107_transaction and c107_rotation: any finite family of groups and integer coefficients. c107_two_groups, c107_join, c107_overlap, c107_remove: the usual cases, for transactions."
  },
  {
   "property": "C108",
   "status": "proved",
   "theorems": [
    "Spark.HistoryProps.c108_signature",
    "Spark.HistoryProps.c108_transaction",
    "Spark.HistoryProps.c108_rotation",
    "Spark.HistoryProps.c108_engine",
    "Spark.HistoryProps.c108_all_sign",
    "Spark.HistoryProps.c108_compiled_false"
   ],
   "note": "c108_signature; c108_transaction, c108_rotation: any order and mode; c108_engine, c108_all_sign: keys with distinct sums; c108_compiled_false: the exception occurs in the compiled circuit."
  },
  {
   "property": "C109",
   "status": "proved",
   "theorems": [
    "Spark.HonestProps.c109_transaction",
    "Spark.HonestProps.c109_rotation"
   ],
   "note": "Both circuits are shown to be equal as constraint systems of the model. The converse for the other 948 signer sets is proved for the aggregated key (C19) and for examples (C63, C106), not for the verdict of every circuit."
  },
  {
   "property": "C110",
   "status": "proved",
   "theorems": [
    "Spark.HistoryProps.c110_message",
    "Spark.HistoryProps.c110_message_rotation",
    "Spark.HistoryProps.c110_set",
    "Spark.HistoryProps.c110_set_rotation",
    "Spark.HistoryProps.c110_kept",
    "Spark.HistoryProps.c110_kept_rotation"
   ],
   "note": "c110_message(_rotation): another message. c110_set(_rotation): another validator set. c110_kept(_rotation): signers who keep key and place. `CanSign` is that of C104 and is required of the claimed signers only; in c110_message the signed message need only have a finite hash."
  },
  {
   "property": "C111",
   "status": "proved",
   "theorems": [
    "Spark.HistoryProps.c111_bit",
    "Spark.HistoryProps.c111_bit_rotation",
    "Spark.HistoryProps.c111_exchange",
    "Spark.HistoryProps.c111_exchange_rotation",
    "Spark.HistoryProps.c111_key"
   ],
   "note": "c111_bit(_rotation): one bit, test engine only (a single flip changes the parity of the number of absentees, so the compiled circuit cannot aggregate both lists exactly, C19). c111_exchange(_rotation): two bits, both modes. c111_key: one key, both modes; the exceptional Miller value of the changed keys need not be excluded."
  },
  {
   "property": "C112",
   "status": "proved",
   "theorems": [
    "Spark.HistoryProps.c112_repeat",
    "Spark.HistoryProps.c112_order",
    "Spark.HistoryProps.c112_cycle",
    "Spark.HistoryProps.c112_across"
   ],
   "note": "c112_repeat, c112_order, c112_cycle are about the verifier of C83, which is a specification (the repository has no on-chain verifier); they say what the public inputs leave open. c112_across uses C110 and holds for both modes."
  }
 ]
}
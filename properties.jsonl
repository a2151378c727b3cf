{"id": "C01", "title": "SHA-256 gadget computes SHA-256", "statement": "Feeding any byte string to sha256.New / Write / Sum yields 32 variables that equal the FIPS 180-4 SHA-256 digest of that string, in every assignment that satisfies the emitted constraints, and the honest solver always finds such an assignment.", "quantifier": "all byte strings of length below 2^61; all satisfying assignments", "why_tests_cant": "The message space is unbounded and a cheating prover may choose internal wires; tests only run the honest solver on a few messages.", "anchors": ["spark/sha256/sha256.go: New, Write, Sum, write, checkSum", "spark/sha256/sha256block.go: blockGeneric, _K"]}
{"id": "C02", "title": "SHA-256 gadget is independent of how the message is split into Writes", "statement": "For any sequence of Write calls the digest returned by Sum depends only on the concatenation of the written bytes.", "quantifier": "all lists of byte strings (any number of Writes, any lengths, including empty ones)", "why_tests_cant": "There are unboundedly many splits and buffer fill levels.", "anchors": ["spark/sha256/sha256.go: Write, write, Sum"]}
{"id": "C03", "title": "Sum does not disturb the running digest", "statement": "Calling Sum any number of times between Writes does not change any later Sum, and the internal consistency panic (d.nx != 0) is never reached.", "quantifier": "all interleavings of Write and Sum calls", "why_tests_cant": "Interleavings of calls are unbounded.", "anchors": ["spark/sha256/sha256.go: Sum, checkSum, Reset"]}
{"id": "C04", "title": "Non-byte inputs are rejected by the SHA-256 gadget", "statement": "If any variable passed to Write is not in 0..255 the constraint system is unsatisfiable, whatever the prover does.", "quantifier": "all field-element inputs; all prover strategies", "why_tests_cant": "Needs all assignments of a 254-bit field, including adversarial bit decompositions.", "anchors": ["spark/sha256/uint8api.go: asUint8", "spark/sha256/sha256.go: Write"]}
{"id": "C05", "title": "Word gadgets compute the machine-word operations", "statement": "and, or, xor, not, lrot, lshift, rshift on xuint8/xuint32/xuint64 values and the multi-operand add on xuint32 values equal the corresponding machine-word operations (add modulo 2^32), for every operand list and every shift in range; larger shifts panic. Constants, widening and narrowing keep the value (modulo the width), and the equality assertion holds exactly for equal words.", "quantifier": "all operand values, operand counts and shift amounts", "why_tests_cant": "2^32 and 2^64 values per operand, unbounded operand lists.", "anchors": ["spark/sha256/uint8api.go", "spark/sha256/uint32api.go", "spark/sha256/uint64api.go"]}
{"id": "C06", "title": "PutUint32/PutUint64 write big-endian bytes", "statement": "PutUint32 and PutUint64 overwrite exactly the first 4 (8) entries of the destination with the big-endian bytes of the word and leave the rest alone; they reject destinations that are too short.", "quantifier": "all words and all destination slices", "why_tests_cant": "All 2^64 words and all destination lengths.", "anchors": ["spark/sha256/bigEndian.go: PutUint64, PutUint32"]}
{"id": "C07", "title": "ExpandMsgXmd is RFC 9380 expand_message_xmd", "statement": "ExpandMsgXmd(msg, count) returns the count*64 bytes of RFC 9380 expand_message_xmd with SHA-256 and the fixed 43-byte domain separation tag, for every 32-byte message.", "quantifier": "all 32-byte messages, all counts from 1 to 127, all satisfying assignments", "why_tests_cant": "2^256 messages and every count; adversarial witnesses.", "anchors": ["spark/pairing_bls12381/hashG2.go: ExpandMsgXmd, min, DST"]}
{"id": "C08", "title": "HashToField computes RFC 9380 hash_to_field with honest hints", "statement": "With honest hints HashToField(msg, count) returns the count/2 elements of Fp2 prescribed by RFC 9380 hash_to_field (big-endian 64-byte chunks reduced modulo p).", "quantifier": "all 32-byte messages, all even counts from 2 to 126", "why_tests_cant": "2^256 messages.", "anchors": ["spark/pairing_bls12381/hashG2.go: HashToField, GetUint64From8Bytes, GetRawLimbsBy8Uint64"]}
{"id": "C09", "title": "The hash-to-curve output is bound to the message", "statement": "In every satisfying assignment the point produced by HashToField / HashToG2 is a function of the message bytes (no prover freedom). [Expected to be FALSE of the code: the remainder returned by emulated.RemHint is never constrained.]", "quantifier": "all messages; all satisfying assignments", "why_tests_cant": "The honest solver never produces the adversarial witnesses.", "anchors": ["spark/pairing_bls12381/hashG2.go: GetRawLimbsBy8Uint64, HashToG2"]}
{"id": "C10", "title": "The Poseidon hasher object hashes exactly what was written", "statement": "For every sequence of Write, Sum and Reset calls on NewPoseidonHash, Sum returns Poseidon of the concatenation of everything written since the last Reset, and Sum does not consume the data.", "quantifier": "all call sequences", "why_tests_cant": "Call histories are unbounded.", "anchors": ["spark/pairing_bls12381/poseidonHash.go: NewPoseidonHash, Write, Sum, Reset, Poseidon"]}
{"id": "C11", "title": "Poseidon is defined exactly for 1 to 16 inputs", "statement": "Poseidon returns a value for every input vector of length 1..16 without any out-of-range access to the constant tables, and rejects (panics on) lengths 0 and above 16.", "quantifier": "all input vectors of all lengths", "why_tests_cant": "All lengths and all contents.", "anchors": ["spark/pairing_bls12381/poseidonHash.go: PoseidonEx", "spark/pairing_bls12381/constants.go: POSEIDON_C, POSEIDON_S, POSEIDON_M, POSEIDON_P"]}
{"id": "C12", "title": "Optimised Poseidon equals textbook Poseidon", "statement": "For the widths used by the circuits the optimised round structure (sparse matrices, merged constants) computes the textbook Poseidon permutation with full and partial rounds, one MDS matrix and the Grain-LFSR round constants.", "quantifier": "all input vectors in the BN254 scalar field", "why_tests_cant": "The input space is a power of a 254-bit field.", "anchors": ["spark/pairing_bls12381/poseidonHash.go: PoseidonEx, Ark, Mix, MixLast, Sigma", "spark/pairing_bls12381/constants.go"]}
{"id": "C13", "title": "In-circuit and off-circuit commitments agree", "statement": "For every validator set (public keys with canonical coordinates, weights) the commitment computed in the circuit by ComputeAPKCommitment equals the one computed off-circuit by genCommitment from the same keys and weights.", "quantifier": "all lists of ten keys and weights", "why_tests_cant": "The key space is huge; tests draw a few random sets.", "anchors": ["spark/test_helpers.go: ComputeAPKCommitment, genCommitment"]}
{"id": "C14", "title": "Transaction circuit: declared signed weight is the weight of the signers", "statement": "In every accepted transaction proof the public SignedWeight equals, in the scalar field, the sum of the weights of exactly those validators whose bit is 1.", "quantifier": "all assignments of public and private inputs", "why_tests_cant": "All bit lists and weights, adversarial witnesses.", "anchors": ["spark/pairing_bls12381/pairing.go: AggregatePublicKeys, ThresholdCheck", "spark/bls-bls12381_sig.go: VerifyBLS_bls12_Tx"]}
{"id": "C15", "title": "Signed weight cannot wrap around for 64-bit weights", "statement": "If all ten weights are below 2^64 (any bound w with 10*w below the field order) the accepted SignedWeight, read as an integer, is exactly the integer sum of the signers' weights; without a bound on the weights it need not be.", "quantifier": "all weight vectors", "why_tests_cant": "Wrap-around happens only at extreme field values.", "anchors": ["spark/pairing_bls12381/pairing.go: AggregatePublicKeys"]}
{"id": "C16", "title": "Bit lists must be boolean", "statement": "No assignment with a bit-list entry other than 0 or 1 is accepted by the transaction or the rotation circuit.", "quantifier": "all field values for each of the ten entries", "why_tests_cant": "Needs all non-boolean field elements and all other witness values.", "anchors": ["spark/pairing_bls12381/pairing.go: AggregatePublicKeys, AggregatePublicKeys_Rotate, CalculateTrustedWeight"]}
{"id": "C17", "title": "Transaction circuit binds the validator-set commitment", "statement": "In every accepted transaction proof the public ApkCommitment is the Poseidon commitment of the limbs of the ten private keys and the ten private weights that were used for aggregation and weight counting; consequently two accepted proofs with equal ApkCommitment use the same keys and weights unless a Poseidon collision is exhibited.", "quantifier": "all assignments", "why_tests_cant": "Quantifies over all witnesses.", "anchors": ["spark/bls-bls12381_sig.go: VerifyBLS_bls12_Tx", "spark/test_helpers.go: ComputeAPKCommitment", "spark/pairing_bls12381/pairing.go: CommitmentCheck"]}
{"id": "C18", "title": "Transaction circuit binds the public message hash", "statement": "An accepted transaction proof with public MessageHash M proves a signature over M. [Expected to be FALSE of the code: MessageHash is never constrained and MsgBytes is private.]", "quantifier": "all assignments", "why_tests_cant": "The honest test always supplies a matching hash.", "anchors": ["spark/bls-bls12381_sig.go: VerifyBLS_bls12_Tx", "spark/bls-tx.go: Define"]}
{"id": "C19", "title": "The aggregated key is the sum of the signers' keys", "statement": "AggregatePublicKeys and AggregatePublicKeys_Rotate return the elliptic-curve sum of exactly the keys whose bit is 1, for every bit list. [True in gnark's test engine for keys in general position; expected to be FALSE of the compiled circuit as soon as one validator did not sign, because the infinity test compares Go handles at compile time.]", "quantifier": "all bit lists, all key lists", "why_tests_cant": "Tests only run the test engine, never the compiled circuit.", "anchors": ["spark/pairing_bls12381/pairing.go: AddG1Points, AggregatePublicKeys, AggregatePublicKeys_Rotate"]}
{"id": "C20", "title": "Rotation circuit: trusted weight is the old weight of the retained signers", "statement": "In every accepted rotation proof TrustedWeight equals the sum of the OLD weights at exactly those positions where the bit is 1 and the new key has the same limbs as the old key at the same position (plus the positions where the bit is 0 and the old key is the all-zero placeholder).", "quantifier": "all assignments", "why_tests_cant": "All key lists, bit lists and adversarial comparison witnesses.", "anchors": ["spark/pairing_bls12381/pairing.go: CalculateTrustedWeight", "spark/bls-bls12381_sig.go: Verify_bls12_Rotate"]}
{"id": "C21", "title": "Rotation circuit binds both validator-set commitments", "statement": "In every accepted rotation proof OldApkCommitment and NewCommitment are the Poseidon commitments of the old and new key/weight lists used in the other checks.", "quantifier": "all assignments", "why_tests_cant": "Quantifies over all witnesses.", "anchors": ["spark/bls-bls12381_sig.go: Verify_bls12_Rotate"]}
{"id": "C22", "title": "Rotation circuit binds the signed bytes to the new commitment", "statement": "An accepted rotation proof implies that the new validators signed the byte encoding of NewCommitment. [Expected to be FALSE of the code: NewApkCommitmentBytes is not related to NewCommitment inside the circuit, and the hash hint ignores the bytes.]", "quantifier": "all assignments", "why_tests_cant": "The honest test always supplies matching bytes.", "anchors": ["spark/bls-bls12381_sig.go: Verify_bls12_Rotate", "spark/bls-rotate.go: Define"]}
{"id": "C23", "title": "An accepted transaction proof satisfies the pairing equation", "statement": "In every accepted transaction proof the reduced pairing product of (-g1, Signature) and (aggregated key, hash point) is 1, where the aggregated key is the one computed from the committed keys and the bit list, and conversely an honest witness satisfying all equations (in general position) is accepted.", "quantifier": "all assignments", "why_tests_cant": "All witnesses, including adversarial division and inverse hints.", "anchors": ["spark/bls-bls12381_sig.go: VerifyBLS_bls12_Tx", "spark/pairing_bls12381/pairing.go: PairingCheck"]}
{"id": "C24", "title": "Quadratic extension arithmetic is exact", "statement": "Every Ext2 operation (Add, Sub, Neg, Double, Mul, Square, MulByElement, MulByConstElement, MulByNonResidue, Conjugate, One, Zero, NonResidue, Select, Lookup2, IsZero) equals the operation of Fp[u]/(u^2+1).", "quantifier": "all pairs of elements", "why_tests_cant": "p^4 pairs of inputs.", "anchors": ["spark/pairing_bls12381/tower.go: Ext2"]}
{"id": "C25", "title": "Sextic extension arithmetic is exact", "statement": "Every Ext6 operation (Add, Sub, Neg, Double, Mul, Square, MulByE2, MulBy0, MulBy01, MulBy12, MulByNonResidue, IsZero, Select) equals the operation of Fp2[v]/(v^3-(1+u)).", "quantifier": "all pairs of elements", "why_tests_cant": "p^12 pairs of inputs.", "anchors": ["spark/pairing_bls12381/tower.go: Ext6"]}
{"id": "C26", "title": "Dodecic extension arithmetic is exact", "statement": "Every Ext12 operation (Add, Sub, Mul, Square, Conjugate, One, Zero, IsZero, Select) equals the operation of Fp6[w]/(w^2-v), and Conjugate is the p^6-power map.", "quantifier": "all pairs of elements", "why_tests_cant": "p^24 pairs of inputs.", "anchors": ["spark/pairing_bls12381/tower.go: Ext12"]}
{"id": "C27", "title": "Sparse line multiplications equal full multiplications", "statement": "MulBy014, Mul014By014 and MulBy01245 return the full Fp12 product with the sparse element described in their comments.", "quantifier": "all field elements", "why_tests_cant": "p^16 inputs.", "anchors": ["spark/pairing_bls12381/tower.go: MulBy014, Mul014By014, MulBy01245"]}
{"id": "C28", "title": "Inverse and division gadgets are sound and complete", "statement": "For Ext2, Ext6 and Ext12 Inverse(x) is satisfiable iff x is non-zero and then returns exactly 1/x; DivUnchecked(x,y) with y non-zero is satisfiable and returns exactly x/y; with y zero and x non-zero it is unsatisfiable.", "quantifier": "all field elements, all hint values chosen by the prover", "why_tests_cant": "The prover may return any hint value; tests only use the honest hint.", "anchors": ["spark/pairing_bls12381/tower.go: Inverse, DivUnchecked, Div", "spark/pairing_bls12381/hints.go"]}
{"id": "C29", "title": "0/0 divisions leave the result to the prover", "statement": "DivUnchecked(0,0) is satisfied by every value (and the honest hint returns 0), so a caller that relies on a unique result must exclude that case.", "quantifier": "all field elements", "why_tests_cant": "Tests never take the 0/0 path with a dishonest hint.", "anchors": ["spark/pairing_bls12381/tower.go: DivUnchecked", "spark/pairing_bls12381/g2.go: G2AddAssign"]}
{"id": "C30", "title": "Non-residue power tables are correct", "statement": "MulByNonResidue{k}Power{i} multiplies by (1+u)^(i*(p^k-1)/6) for k=1,2 and i=1..5.", "quantifier": "all Fp2 arguments and all ten table entries", "why_tests_cant": "p^2 arguments; the constants are opaque 381-bit literals.", "anchors": ["spark/pairing_bls12381/tower.go: MulByNonResidue1Power1..5, MulByNonResidue2Power1..5, NewExt2"]}
{"id": "C31", "title": "Torus Frobenius maps are the Frobenius", "statement": "Decompressing FrobeniusTorus(y) (FrobeniusSquareTorus(y)) gives the p-th (p^2-th) power of the decompressed y.", "quantifier": "all y in Fp6", "why_tests_cant": "p^6 inputs.", "anchors": ["spark/pairing_bls12381/tower.go: FrobeniusTorus, FrobeniusSquareTorus"]}
{"id": "C32", "title": "Torus compression is invertible", "statement": "DecompressTorus is satisfiable for every y, returns an element of norm 1 other than 1, and CompressTorus inverts it (for y = 0, which stands for -1, only with the honest solver: a prover may return anything); for every norm-1 element x other than +-1 DecompressTorus(CompressTorus(x)) = x.", "quantifier": "all y in Fp6, all x in the norm-1 subgroup of Fp12", "why_tests_cant": "p^6 inputs and adversarial hints.", "anchors": ["spark/pairing_bls12381/tower.go: CompressTorus, DecompressTorus"]}
{"id": "C33", "title": "Torus multiplication, squaring and inversion are those of Fp12", "statement": "Whatever the prover does, MulTorus, SquareTorus and InverseTorus return the compressed form of the product, square and inverse of the decompressed arguments; MulTorus is unsatisfiable exactly when the product is 1 and SquareTorus exactly when the square is 1.", "quantifier": "all y1, y2 in Fp6, all hint values", "why_tests_cant": "All inputs and adversarial hints.", "anchors": ["spark/pairing_bls12381/tower.go: MulTorus, SquareTorus, InverseTorus"]}
{"id": "C34", "title": "ExptTorus raises to the curve seed", "statement": "Whatever the prover does, ExptHalfTorus (ExptTorus) returns the compressed form of the t/2-th (t-th) power, t = -15132376222941642752.", "quantifier": "all y in Fp6, all hint values", "why_tests_cant": "All inputs and adversarial hints along a 67-step addition chain.", "anchors": ["spark/pairing_bls12381/tower.go: ExptHalfTorus, ExptTorus, nSquareTorus"]}
{"id": "C35", "title": "Final exponentiation computes the 3(p^12-1)/r-th power", "statement": "In every satisfying assignment FinalExponentiation(e) and FinalExponentiationUnsafe(e) return e^(3(p^12-1)/r) for every non-zero e.", "quantifier": "all non-zero e in Fp12, all hint values", "why_tests_cant": "p^12 inputs and adversarial hints.", "anchors": ["spark/pairing_bls12381/pairing.go: finalExponentiation, FinalExponentiation, FinalExponentiationUnsafe"]}
{"id": "C36", "title": "Final exponentiation of subfield elements", "statement": "When e lies in Fp6 (C1 = 0) the safe variant can only return 1, the unsafe variant is unsatisfiable for e non-zero; when C0 = 0 and C1 is non-zero both variants are unsatisfiable.", "quantifier": "all e with C0 = 0 or C1 = 0", "why_tests_cant": "Edge inputs are never sampled at random.", "anchors": ["spark/pairing_bls12381/pairing.go: finalExponentiation"]}
{"id": "C37", "title": "FinalExponentiation leaves its argument alone", "statement": "The element passed by pointer to FinalExponentiation has the same value afterwards. [FALSE of the code exactly when C1 = 0: the caller's C1 is overwritten by the dummy 1.]", "quantifier": "all e", "why_tests_cant": "Aliasing effect only visible on edge inputs.", "anchors": ["spark/pairing_bls12381/pairing.go: finalExponentiation"]}
{"id": "C38", "title": "Miller-loop point steps follow the group law", "statement": "doubleStep, addStep, doubleAndAddStep and tripleStep return 2P, P+Q, 2P+Q and 3P of the elliptic-curve group (in general position) together with the slope and intercept of the right lines, whatever the prover does.", "quantifier": "all curve points in general position, all hint values", "why_tests_cant": "All points and adversarial division hints.", "anchors": ["spark/pairing_bls12381/pairing.go: doubleStep, addStep, doubleAndAddStep, tripleStep, tangentCompute"]}
{"id": "C39", "title": "The multi-Miller loop is the product of the single Miller loops", "statement": "MillerLoop on n pairs equals the Fp12 product of the Miller loops of the individual pairs, for every n >= 1.", "quantifier": "all n >= 1 and all lists of pairs", "why_tests_cant": "n is unbounded.", "anchors": ["spark/pairing_bls12381/pairing.go: MillerLoop"]}
{"id": "C40", "title": "Pair computes the reduced ate pairing", "statement": "Pair returns (prod_i f_{u,Q_i}(P_i))^(3(p^12-1)/r) where f is Miller's textbook recursion with true line and vertical evaluations on the untwisted points and u is the curve seed.", "quantifier": "all lists of point pairs in general position, all hint values", "why_tests_cant": "All points and adversarial hints.", "anchors": ["spark/pairing_bls12381/pairing.go: Pair, MillerLoop, loopCounter"]}
{"id": "C41", "title": "Fixed-argument pairing agrees with the generic pairing", "statement": "PairFixedQ(P) equals Pair of P with the precomputed-line G2 generator, and DoublePairFixedQ(P,T,Q) equals the two-pair Pair of (P,Q) and (T, generator).", "quantifier": "all P, T, Q in general position", "why_tests_cant": "All points; the 63x4 precomputed table is opaque.", "anchors": ["spark/pairing_bls12381/pairing.go: MillerLoopFixedQ, DoubleMillerLoopFixedQ, PairFixedQ, DoublePairFixedQ", "spark/pairing_bls12381/precomputations.go"]}
{"id": "C42", "title": "Mismatched pairing inputs are rejected with an error", "statement": "MillerLoop, Pair and PairingCheck return an error exactly when the lists are empty or of different lengths, and otherwise never do.", "quantifier": "all list lengths", "why_tests_cant": "Unbounded lengths.", "anchors": ["spark/pairing_bls12381/pairing.go: MillerLoop, Pair, PairingCheck"]}
{"id": "C43", "title": "PairingCheck accepts only pairing products equal to one", "statement": "PairingCheck is satisfiable only if the product of the reduced pairings is 1, equivalently if the (p^12-1)/r-th power of the Miller product is 1.", "quantifier": "all lists of two or more pairs, all hint values", "why_tests_cant": "All inputs and adversarial hints.", "anchors": ["spark/pairing_bls12381/pairing.go: PairingCheck"]}
{"id": "C44", "title": "Jacobian addition and doubling implement the group law completely", "statement": "With exact zero/equality tests G2JacobianAddAssign, G2JacobianDouble, G2JacobianNeg and G2JacobianSubAssign compute the elliptic-curve group operations for every pair of curve points, including infinity, equal and opposite points.", "quantifier": "all pairs of points of the twist in Jacobian coordinates", "why_tests_cant": "All inputs including exceptional ones.", "anchors": ["spark/pairing_bls12381/g2.go: G2JacobianAddAssign, G2JacobianDouble, G2JacobianNeg, G2JacobianSubAssign"]}
{"id": "C45", "title": "Constant scalar multiplication multiplies by |seed|", "statement": "With exact zero tests (an honest prover) G2JacobianConstScalarMul(P) returns 15132376222941642752 * P for every curve point P. For a point of the subgroup of order r the result is forced in every satisfying assignment, and infinity is always sent to infinity. Outside that subgroup it is not forced: for a point of order 13 some prover reaches infinity although the multiple is not infinity.", "quantifier": "all points; all satisfying assignments", "why_tests_cant": "All points of a group of about 2^762 elements; adversarial witnesses.", "anchors": ["spark/pairing_bls12381/g2.go: G2JacobianConstScalarMul"]}
{"id": "C46", "title": "Affine/Jacobian conversions preserve the point; infinity cannot be converted back", "statement": "GetG2AffineFromG2Jac(GetG2JacFromG2Affine(Q)) = Q for every affine Q that is not the (0,0) placeholder; GetG2AffineFromG2Jac is unsatisfiable for every Jacobian representation of infinity although it contains code to return (0,0).", "quantifier": "all points", "why_tests_cant": "Edge inputs, adversarial hints.", "anchors": ["spark/pairing_bls12381/g2.go: GetG2JacFromG2Affine, GetG2AffineFromG2Jac, G2AffineNotInfinity"]}
{"id": "C47", "title": "Affine addition and doubling are correct in general position and undefined otherwise", "statement": "G2AddAssign(P,Q) is P+Q when the abscissas differ; it is unsatisfiable when Q = -P (and P is not 2-torsion) and leaves the result to the prover when P = Q; G2Double(P) is 2P when y is non-zero and unsatisfiable for y = 0, x non-zero.", "quantifier": "all pairs of points, all hint values", "why_tests_cant": "Exceptional inputs, adversarial hints.", "anchors": ["spark/pairing_bls12381/g2.go: G2AddAssign, G2SubAssign, G2Double"]}
{"id": "C48", "title": "Psi is an endomorphism of the twist", "statement": "G2Psi and G2JacobianPsi map curve points to curve points, agree with each other, and psi(psi(x,y)) = (c*x,-y) for the cube root of unity c used in cofactor clearing; psi is additive.", "quantifier": "all curve points", "why_tests_cant": "All points.", "anchors": ["spark/pairing_bls12381/g2.go: G2Psi, G2JacobianPsi"]}
{"id": "C49", "title": "Cofactor clearing evaluates the Budroni-Pintore formula", "statement": "ClearCofactor and G2ClearCofactor compute [x^2-x-1]P + [x-1]psi(P) + psi^2(2P) (x the negative seed) and agree with each other on all points for which the affine variant is defined.", "quantifier": "all points", "why_tests_cant": "All points, adversarial hints.", "anchors": ["spark/pairing_bls12381/hashG2.go: ClearCofactor", "spark/pairing_bls12381/g2.go: G2ClearCofactor"]}
{"id": "C50", "title": "Sign of an Fp2 element", "statement": "g2Sgn0(u) is the RFC 9380 sgn0 of u. [FALSE of the code exactly when u.A0 = 0 and u.A1 is odd; with honest reduction the code returns the parity of u.A0.]", "quantifier": "all u in Fp2", "why_tests_cant": "The failing inputs have probability 1/(2p).", "anchors": ["spark/pairing_bls12381/hashG2.go: g2Sgn0"]}
{"id": "C51", "title": "Square-root ratio gadget", "statement": "With honest reductions g2SqrtRatio(u,v), u and v non-zero, returns flag 0 and z with z^2*v = u when u/v is a square, and flag 1 and z with z^2*v = Z*u otherwise; for u = 0 it returns z = 0 with flag 1. [Only the honest prover is bound: on a square ratio a cheating prover can raise the flag and return a z that is no root.]", "quantifier": "all u, v in Fp2 (v non-zero)", "why_tests_cant": "All inputs.", "anchors": ["spark/pairing_bls12381/hashG2.go: g2SqrtRatio, E2Exp"]}
{"id": "C52", "title": "Simplified SWU map", "statement": "With honest reductions MapElementToCurve2(u) returns the point of the isogenous curve prescribed by RFC 9380 (abscissa, square root, sign rule of the code's sgn0) for every non-exceptional u.", "quantifier": "all u in Fp2 with Z^2u^4+Zu^2 non-zero", "why_tests_cant": "All inputs.", "anchors": ["spark/pairing_bls12381/hashG2.go: MapElementToCurve2"]}
{"id": "C53", "title": "Exceptional SWU inputs are unprovable", "statement": "If Z^2u^4+Zu^2 = 0 (in particular u = 0) MapElementToCurve2 is unsatisfiable for every prover, although RFC 9380 assigns such u a point.", "quantifier": "all exceptional u, all prover strategies", "why_tests_cant": "Exceptional inputs are never sampled.", "anchors": ["spark/pairing_bls12381/hashG2.go: MapElementToCurve2, Ext2.Div"]}
{"id": "C54", "title": "The 3-isogeny maps the isogenous curve to the twist", "statement": "In every satisfying assignment G2Isogeny maps a point of y^2=x^3+240u*x+1012(1+u) to a point of y^2=x^3+4(1+u).", "quantifier": "all curve points, all hint values", "why_tests_cant": "All points.", "anchors": ["spark/pairing_bls12381/hashG2.go: G2Isogeny, g2IsogenyXNumerator, g2IsogenyXDenominator, g2IsogenyYNumerator, g2IsogenyYDenominator"]}
{"id": "C55", "title": "E2Exp is exponentiation", "statement": "E2Exp(x,k) returns x^k for every k >= 0 and x^k (inverse power) for negative k and non-zero x; for negative k it also negates the caller's exponent object.", "quantifier": "all x in Fp2 and all integers k", "why_tests_cant": "Unbounded exponents.", "anchors": ["spark/pairing_bls12381/hashG2.go: E2Exp"]}
{"id": "C56", "title": "Zero and equality tests are exact", "statement": "G1NotZero, E2NotZero, G1NotEqual, E2NotEqual, G1NotEqualOne, E2NotOne return 1 exactly on non-zero / unequal / non-one values. [True for the honest solver; FALSE for a cheating prover on zero / equal / one values, because Reduce does not force the canonical representative.]", "quantifier": "all field elements, all admissible representatives", "why_tests_cant": "The honest solver always uses the canonical representative.", "anchors": ["spark/pairing_bls12381/g2.go: G1NotZero, E2NotZero, G1NotEqual, E2NotEqual", "spark/pairing_bls12381/hashG2.go: G1NotEqualOne, E2NotOne"]}
{"id": "C57", "title": "Honest HashToG2 follows RFC 9380", "statement": "With honest hints HashToG2(msg) returns cofactor-clearing of the sum of the two isogeny images of the SWU points of the two hash_to_field elements, lying on the twist, whenever no exceptional case occurs; HashToG2OnJac returns the same point.", "quantifier": "all 32-byte messages without exceptional intermediate values", "why_tests_cant": "2^256 messages.", "anchors": ["spark/pairing_bls12381/hashG2.go: HashToG2, HashToG2OnJac, EncodeToG2, EncodeToG2OnJac"]}
{"id": "C58", "title": "Limb encoding is faithful", "statement": "The six 64-bit limbs produced by NewG1Affine / ValueOf for a base-field element determine it uniquely, recombine to it, and each limb fits 64 bits; canonical keys with different coordinates have different limb vectors. FromE2, FromE6, FromE12 and NewGTEl keep every coordinate in its place.", "quantifier": "all base-field elements", "why_tests_cant": "2^381 elements.", "anchors": ["spark/pairing_bls12381/g1.go: NewG1Affine, NewG1AffineArray", "spark/pairing_bls12381/params.go", "spark/pairing_bls12381/tower.go: FromE2, FromE6, FromE12", "spark/pairing_bls12381/pairing.go: NewGTEl"]}
{"id": "C59", "title": "Map-to-curve output lies on the isogenous curve", "statement": "In every satisfying assignment of MapElementToCurve2(u) the returned pair satisfies y^2 = x^3 + 240u*x + 1012(1+u). [FALSE of the code: whenever g(x1) is a square, a prover that feeds E2NotOne a non-canonical representative of 1 obtains a pair off the curve.]", "quantifier": "all non-exceptional u in Fp2; all satisfying assignments", "why_tests_cant": "The honest solver never uses a non-canonical representative.", "anchors": ["spark/pairing_bls12381/hashG2.go: MapElementToCurve2, g2SqrtRatio, E2NotOne"]}
{"id": "C60", "title": "The pairing is bilinear", "statement": "For every point P of E(Fp) and all points Q of order r of the twist, e(P+P',Q)=e(P,Q)e(P',Q), e(P,Q+Q')=e(P,Q)e(P,Q') and e(aP,bQ)=e(P,Q)^(ab); in every satisfying assignment the values returned by Pair satisfy Pair(aP,bQ)=Pair(P,Q)^(ab).", "quantifier": "all points, all scalars, all hint values", "why_tests_cant": "A statement about 2^762 points and all scalars.", "anchors": ["spark/pairing_bls12381/pairing.go: Pair, MillerLoop, FinalExponentiation"]}
{"id": "C61", "title": "The pairing is non-degenerate", "statement": "For non-zero P and Q of order r, Pair(P,Q) has exactly one value, the honest prover finds it, it is an r-th root of unity and it is not 1.", "quantifier": "all non-zero points of order r, all hint values", "why_tests_cant": "Sampling cannot exclude a degenerate pair.", "anchors": ["spark/pairing_bls12381/pairing.go: Pair"]}
{"id": "C62", "title": "An accepted signature is the signers' aggregate signature", "statement": "If PairingCheck([-g1, a*g1],[S,H]) is satisfiable for S, H of order r, then S = a*H. Hence in an accepted transaction or rotation whose aggregated key is the sum of the signers' keys sk_i*g1, a signature of order r equals (sum of the signers' sk_i)*H for the hash point H of the proof, whenever H has order r.", "quantifier": "all keys, bit lists, signatures and satisfying assignments", "why_tests_cant": "Forgeries are not sampled by tests.", "anchors": ["spark/bls-bls12381_sig.go: VerifyBLS_bls12_Tx, Verify_bls12_Rotate", "spark/pairing_bls12381/pairing.go: PairingCheck"]}
{"id": "C63", "title": "Honest aggregate signatures are accepted", "statement": "If the signers with keys sk_i*g1 in general position sign H = HashToG2(msg) and the sum of the individual signatures is submitted with matching public inputs, the honest prover succeeds, unless the sum of the secret keys is 0 modulo r or the easy part of the Miller value is already 1.", "quantifier": "all secret keys, transactions and rotations, signer sets (in the compiled circuit: those with an even number of non-signers before every later signer and in all), weights, messages", "why_tests_cant": "All keys, subsets and messages.", "anchors": ["spark/bls-bls12381_sig.go: VerifyBLS_bls12_Tx", "spark/pairing_bls12381/pairing.go: AggregatePublicKeys"]}
{"id": "C64", "title": "Cofactor clearing and hashing land in the subgroup of order r", "statement": "ClearCofactor maps every point of the twist to a point killed by r, so every point the honest prover obtains from HashToG2OnJac (and from HashToG2 wherever its additions are defined) is a non-zero point of order r.", "quantifier": "all points of the twist, all 32-byte messages", "why_tests_cant": "The twist has about 2^762 points.", "anchors": ["spark/pairing_bls12381/hashG2.go: ClearCofactor, HashToG2, HashToG2OnJac", "spark/pairing_bls12381/g2.go: G2ClearCofactor"]}
{"id": "C65", "title": "The endomorphism characterises the subgroup", "statement": "The twist has exactly the order r*h2 computed in the model; a point of it has order dividing r exactly when psi multiplies it by the seed, and exactly when it is a multiple of the standard generator; psi satisfies its characteristic equation on all points.", "quantifier": "all points of the twist", "why_tests_cant": "All points.", "anchors": ["spark/pairing_bls12381/g2.go: G2Psi, G2JacobianPsi"]}
{"id": "C66", "title": "Keys are not checked to be in the subgroup", "statement": "Adding to a public key a point whose order is prime to r changes no pairing with it: the honest signature for a*g1 is accepted for the different key a*g1+T. [A limitation of the code: pairing.go documents the missing check and the circuits do not add it.]", "quantifier": "all keys, all torsion points of order prime to r, all hash points of order r", "why_tests_cant": "Honest keys are always in the subgroup.", "anchors": ["spark/pairing_bls12381/pairing.go: PairingCheck", "spark/bls-bls12381_sig.go: VerifyBLS_bls12_Tx"]}
{"id": "C67", "title": "Rotations do not resist rogue keys", "statement": "For every validator set and every number x, anyone can build, from the public keys alone, a new set that keeps nine keys and replaces one, such that the signature x*H (computed without any validator's secret key) makes the rotation acceptable with the trusted weight of all nine kept validators and arbitrary new weights; afterwards x alone signs every transaction with the whole weight. [A vulnerability of the code: the circuit asks for no proof of possession of the new keys.]", "quantifier": "all validator sets (in general position), all x not divisible by r, all messages, weights", "why_tests_cant": "Needs adversarially chosen keys.", "anchors": ["spark/bls-bls12381_sig.go: Verify_bls12_Rotate", "spark/pairing_bls12381/pairing.go: CalculateTrustedWeight, AggregatePublicKeys_Rotate"]}
{"id": "C68", "title": "The key generator returns a consistent key set", "statement": "generate() returns ten key pairs with public key = secret key * g1 and secret keys below 2^230, ten bits, ten weights below 2^10, and the Poseidon commitment to exactly these keys and weights, whatever random numbers it draws.", "quantifier": "all sequences of random numbers", "why_tests_cant": "The random numbers range over 30 draws of up to 230 bits.", "anchors": ["spark/test_helpers.go: generate, genBitlist, genWeights, genPublickey, genCommitment, genRandom"]}
{"id": "C69", "title": "The rotation generator replaces one to three validators and signs the new set", "statement": "Whenever generateNew returns, between one and three positions hold fresh keys, weights and bits and all others are unchanged; the commitment is that of the new set, the signature is the sum of the signers' signatures on the hash of its bytes, and the trusted weight is the sum of the new weights of signers whose abscissa occurs among the old keys. This is the trusted weight the circuit demands if a new key has the abscissa of an old key only at the same position with the same weight. [Without that proviso the two differ: a concrete run is exhibited whose output the circuit rejects.]", "quantifier": "all old validator sets of ten keys, all sequences of random numbers", "why_tests_cant": "Collisions of fresh keys never occur in tests.", "anchors": ["spark/test_helpers.go: generateNew, contains", "spark/pairing_bls12381/pairing.go: CalculateTrustedWeight"]}
{"id": "C70", "title": "The off-circuit check accepts exactly the aggregate signature", "statement": "For keys sk_i*g1, verifyPairingCheck returns normally if and only if there are as many bits as keys and the signature is (sum of sk_i over the bits equal to 1) * msg; otherwise it panics. The signature made by generateNew always passes.", "quantifier": "all numbers of keys, all secret keys, bit lists, and signatures and messages of order r", "why_tests_cant": "All keys and signatures.", "anchors": ["spark/test_helpers.go: verifyPairingCheck, generateNew"]}
{"id": "C71", "title": "Witnesses assembled from the helpers are accepted", "statement": "The transaction witness assembled from a key set, bits, weights and the signers' signatures, and the rotation witness assembled from an old key set and the result of generateNew, satisfy the circuits in test-engine semantics, for keys in general position with non-zero sum, a circuit hash equal to the point signed, no replaced key sharing an abscissa with an old one (rotation), a 32-byte commitment (rotation), and easy part of the Miller value not 1.", "quantifier": "all key sets, weights, bit lists, messages and random numbers meeting these conditions", "why_tests_cant": "Tests run on one random key set.", "anchors": ["spark/bls-tx_test.go", "spark/bls-rotate_test.go", "spark/test_helpers.go: bigIntToVariableArray", "spark/bls-tx.go: Define", "spark/bls-rotate.go: Define"]}
{"id": "C72", "title": "Commitments of fewer than 32 bytes", "statement": "The bytes generateNew signs are the 32-byte big-endian encoding of the commitment if and only if the commitment is at least 2^248; for any smaller one no rotation witness can be assembled from them. [A limitation of the code: big.Int.Bytes drops leading zeros.]", "quantifier": "all commitments below the field order", "why_tests_cant": "About one commitment in fifty has a leading zero byte; a single test run is unlikely to hit it.", "anchors": ["spark/test_helpers.go: generateNew", "spark/bls-rotate_test.go"]}
{"id": "C73", "title": "The table parsers read back what is written", "statement": "For every text that is a bracketed, comma-separated list (or list of lists) of hexadecimal numerals with optional 0x and white space, the parsers of the Poseidon tables return exactly these numbers in this order; an empty entry (such as after a trailing comma) panics. The texts that are accepted at all are exactly these, with an optional sign in front of the digits and square brackets anywhere; on every other text the parsers panic.", "quantifier": "all texts of this shape, of any size", "why_tests_cant": "Only the texts in constants.go are parsed in tests.", "anchors": ["spark/pairing_bls12381/constants.go: parseOneDimensionArray, parseTwoDimensionArray"]}
{"id": "C74", "title": "The flat hint functions compute what the circuit needs", "statement": "The registered hint functions, which read and write flat lists of integers, give for every choice of representatives of the inputs modulo p exactly the inverse, quotient or torus square the calling gadget checks for, with arguments and results in matching order; so the honest prover always finds a satisfying value for inversion and division by non-zero elements and for torus squaring, and the gadget accepts only that value.", "quantifier": "all elements of Fp2, Fp6 and Fp12, all integer representatives of their coordinates", "why_tests_cant": "All field elements and all unreduced limb values.", "anchors": ["spark/pairing_bls12381/hints.go: inverseE2Hint, divE2Hint, inverseE6Hint, divE6Hint, squareTorusHint, inverseE12Hint, divE12Hint, divG1Hint, GetHints", "spark/pairing_bls12381/tower.go: Inverse, DivUnchecked, squareTorus"]}
{"id": "C75", "title": "Eight bytes to a 64-bit integer and its bits", "statement": "Get64BitsFrom8Bytes returns the 64 bits, least significant first, of the big-endian integer of its eight bytes, and the uint64 conversion returns that integer; both are unsatisfiable when an input is not a byte.", "quantifier": "all eight-element inputs, bytes or not", "why_tests_cant": "2^64 inputs, plus non-byte field elements.", "anchors": ["spark/pairing_bls12381/hashG2.go: Get64BitsFrom8Bytes, GetUint64From8Bytes"]}
{"id": "C76", "title": "The tables of powers of the non-residue", "statement": "In both tables the entry for (k, j), k = 1, 2 and j = 1..5, is (1+u)^(j(p^k-1)/6); the first table has no other entry. [The second table's entry for (0, -1), which by its place should be the inverse of 1+u, is 1/2; no function reads it.]", "quantifier": "all keys of the tables", "why_tests_cant": "The exponents have up to 760 bits; tests of the Frobenius maps touch them only on samples.", "anchors": ["spark/pairing_bls12381/tower.go: NewExt2, NewExt2_"]}
{"id": "C77", "title": "Field parameters are sound", "statement": "The two exported parameter sets state the truth about their moduli: the modulus is prime, every residue fits in the limbs and no limb is superfluous; the moduli are those of the BLS12 curve with the seed used by the Miller loop.", "quantifier": "no input; primality quantifies over all divisors", "why_tests_cant": "Primality of a 381-bit number is not tested by the code.", "anchors": ["spark/pairing_bls12381/params.go: BLS12381Fp, BLS12381Fr"]}
{"id": "C78", "title": "The exported sparse mixing layer", "statement": "MixS multiplies the state by the sparse matrix read from the flat table, is the linear part of every partial round of the hash, and panics when the table is too short for the round.", "quantifier": "all widths, states, tables and round numbers", "why_tests_cant": "All states over a 254-bit field.", "anchors": ["spark/pairing_bls12381/poseidonHash.go: MixS, PoseidonEx"]}
{"id": "C79", "title": "Equality, minimum and membership helpers", "statement": "assertEq on words is satisfiable exactly for equal words; min returns the smaller of two integers; contains decides membership.", "quantifier": "all words of any width, all integers, all string lists", "why_tests_cant": "All inputs.", "anchors": ["spark/sha256/uint8api.go: assertEq", "spark/sha256/uint32api.go: assertEq", "spark/sha256/uint64api.go: assertEq", "spark/pairing_bls12381/hashG2.go: min", "spark/test_helpers.go: contains"]}
{"id": "C80", "title": "Pairings with the point at infinity of the twist", "statement": "For an honest prover Pair treats (0,0) in second position as the point at infinity: the result is the cube of the product of the textbook pairings, and the check fails, whenever that product is not 1; in particular the signature (0,0) is rejected for a key and a hash of order r. [If all second points are (0,0) the product is 1, yet the honest prover passes the check only when the number of pairs is even. For a dishonest prover the Miller value at (0,0) is not determined.]", "quantifier": "all lists of non-zero points of E(Fp) and points of order dividing r of the twist, infinity included", "why_tests_cant": "All points, plus prover-chosen quotients 0/0.", "anchors": ["spark/pairing_bls12381/pairing.go: MillerLoop, Pair, PairingCheck, tangentCompute"]}
{"id": "C81", "title": "Hashes of different messages", "statement": "[Negative.] The constraints of HashToG2 do not bind the result to the message: for every 32-byte message a prover can present (0,0), which is not a point of the twist, so all messages collide.", "quantifier": "all 32-byte messages", "why_tests_cant": "A test only sees the honest prover.", "anchors": ["spark/pairing_bls12381/hashG2.go: HashToG2, HashToField", "spark/pairing_bls12381/g2.go: G2ClearCofactor, G2JacobianConstScalarMul"]}
{"id": "C82", "title": "Unforgeability of the two circuits", "statement": "[Negative.] An accepted proof does not imply that the validators signed: with the signature (0,0) both circuits accept every message and every key set, bits and weights with matching commitments and weight, as soon as the aggregated key has a non-zero ordinate; in particular for all honest key sets in general position.", "quantifier": "all key sets, bits, weights, messages and public values", "why_tests_cant": "An adversarial prover, all messages and keys.", "anchors": ["spark/bls-tx.go: Define", "spark/bls-rotate.go: Define", "spark/pairing_bls12381/hashG2.go: HashToG2", "spark/pairing_bls12381/pairing.go: PairingCheck"]}
{"id": "C83", "title": "A verifier that keeps only the commitment tracks the validator set", "statement": "For every history of accepted proofs in which each transaction carries the current commitment and each rotation carries it as old commitment and replaces it, a verifier that only keeps the commitment accepts exactly what a verifier knowing the validator set would: every transaction is over the current keys and weights with the weight of its signers, every rotation starts from the current set and declares the weight of its retained signers, and the last commitment is that of the last set - unless two of the sets involved exhibit a Poseidon collision.", "quantifier": "all histories of transactions and rotations of any length, from any initial set, any prover", "why_tests_cant": "Histories of unbounded length; tests check one proof at a time.", "anchors": ["spark/bls-tx.go: Define", "spark/bls-rotate.go: Define", "spark/bls-bls12381_sig.go: VerifyBLS_bls12_Tx, Verify_bls12_Rotate"]}
{"id": "C84", "title": "Rotations that declare the whole weight as trusted", "statement": "[Negative.] The declared trusted weight does not keep control with the validators: new weights are not signed, so whatever carries the keys over once carries them over from and to all weights; if keys K can be carried to K, to K' and K' to K'' (K' sharing one key with each), three rotations, each declaring the whole current weight as trusted, lead from any weights on K to any weights on K''; and anyone can do this for all honest key sets in general position.", "quantifier": "all key sets, weights, target sets and provers", "why_tests_cant": "A multi-step adversarial history over all validator sets.", "anchors": ["spark/bls-rotate.go: Define", "spark/bls-bls12381_sig.go: Verify_bls12_Rotate", "spark/pairing_bls12381/pairing.go: CalculateTrustedWeight"]}
{"id": "C85", "title": "Transaction and rotation signatures are interchangeable", "statement": "[Negative.] There is no domain separation: whatever makes a transaction acceptable makes a rotation from any old set to the transaction's keys (with any new weights) acceptable, with the same bits, signature and signed bytes, and conversely a rotation gives a transaction of the new keys with any weights. One transaction signed by all validators lets anyone change all their weights with full trusted weight.", "quantifier": "all accepted transactions and rotations, all sets and weights", "why_tests_cant": "Relates all accepted proofs of one circuit to proofs of the other.", "anchors": ["spark/bls-tx.go: Define", "spark/bls-rotate.go: Define", "spark/bls-bls12381_sig.go: VerifyBLS_bls12_Tx, Verify_bls12_Rotate"]}
{"id": "C86", "title": "Inputs the final exponentiation rejects", "statement": "FinalExponentiation can be proved exactly for the inputs C0 + C1 w for which C0 is not C1 (1 if C1 = 0) times an element of Fp2 times v^2, and then the honest prover gets e^(3(p^12-1)/r); exactly p^8 of the p^12 inputs are rejected. FinalExponentiationUnsafe rejects exactly the (p^12-1)/r non-zero inputs whose reduced value is 1. PairingCheck of at least two pairs of proper points accepts exactly when the product of the pairings is 1 and the Miller value is not among the rejected ones, whatever the prover does.", "quantifier": "all elements of Fp12; all lists of at least two pairs of non-zero points of order r", "why_tests_cant": "The rejected set has density p^-4: a random test never meets it.", "anchors": ["spark/pairing_bls12381/pairing.go: FinalExponentiation, FinalExponentiationUnsafe, PairingCheck"]}
{"id": "C87", "title": "Pairings that cancel are accepted", "statement": "If every pair (P,Q) is accompanied by (-P,Q), PairingCheck accepts, except when the norm to Fp6 of the Miller value of the original pairs is an element of Fp2 times v^2; then nobody can have it accepted. For the generators the check succeeds.", "quantifier": "all non-empty lists of pairs of non-zero points of order r", "why_tests_cant": "All points.", "anchors": ["spark/pairing_bls12381/pairing.go: PairingCheck, MillerLoop, FinalExponentiation", "spark/pairing_bls12381/pairing_test.go: PairingCheckCircuit, FinalExponentiationSafeCircuit"]}
{"id": "C88", "title": "Field-operation circuits of the test suite", "statement": "Each circuit of tower_test.go that applies one operation of Fp2, Fp6 or Fp12 and compares the result is satisfied exactly by the triples in the textbook relation: sum, difference, double, product, square, sparse products, multiplication by the non-residue, conjugate (a power of Frobenius), inverse (C A = 1, so nothing for A = 0), quotient (C B = A; everything if A = B = 0).", "quantifier": "all values of all circuit fields, any prover", "why_tests_cant": "The tests draw one random witness each.", "anchors": ["spark/pairing_bls12381/tower_test.go: e2Add ... e12MulBy014", "spark/pairing_bls12381/tower.go"]}
{"id": "C89", "title": "Torus circuits of the test suite", "statement": "Compress accepts exactly (C0+1)/C1 (for elements of Fp6: nothing, except that -1 accepts everything); compress-decompress, product, inverse, Frobenius and its square, square and t-th power are exact on elements of norm 1 other than 1, -1 (products: unless the product is 1; square and power: honest prover on cyclotomic elements), with no condition on small orders. The inputs made by the tests, a^((p^6-1)(p^2+1)), are cyclotomic and admissible unless a is in Fp6 or exceptional in the sense of C86.", "quantifier": "all elements of Fp12, all prover choices", "why_tests_cant": "All inputs, including those of small order and +-1.", "anchors": ["spark/pairing_bls12381/tower_test.go: e12ExptTorus, torusCompress, torusDecompress, torusMul, torusInverse, torusFrobenius, torusFrobeniusSquare, torusSquare"]}
{"id": "C90", "title": "Pairing circuits of the test suite", "statement": "For all scalars not divisible by r: PairCircuit(a g1, b g2, R) accepts exactly R = e(g1,g2)^(3ab); PairFixedCircuit and DoublePairFixedCircuit likewise with exponents 3a and 3(ab+a'); MultiPairCircuit with 3(a+a')(b+b'); PairingCheckCircuit accepts exactly when r divides a+a' or b+b' - in the last three cases unless the Miller value is exceptional (C86), which requires the exponent to be 0 modulo r. FinalExponentiationCircuit accepts exactly (e, e^(3(p^12-1)/r)) with e non-zero of reduced value other than 1. FinalExponentiationSafeCircuit is PairingCheck of two pairs. The point at infinity of G1 is never accepted.", "quantifier": "all scalars, all field elements, any prover", "why_tests_cant": "The tests draw one random witness each.", "anchors": ["spark/pairing_bls12381/pairing_test.go: FinalExponentiationCircuit, PairCircuit, MultiPairCircuit, PairingCheckCircuit, FinalExponentiationSafeCircuit, PairFixedCircuit, DoublePairFixedCircuit"]}
{"id": "C91", "title": "What the honest prover accepts", "statement": "For validator keys sk_i*g1 in general position, boolean bits, a signature of order r and message bytes whose hash point has order r, proving a transaction (rotation) with honest hints succeeds if and only if the public weight is the one the bits select, the public commitments are those of the keys and weights, the signature is the aggregate signature of exactly the selected signers on the hash point, and the Miller value is not exceptional in the sense of C86. In the test engine for every signer set; in the compiled circuit for signer sets with even gaps and an even number of absentees. In the test engine general position is also necessary: honest aggregation succeeds exactly for keys in general position (so duplicate keys of the first two signers make proving impossible).", "quantifier": "all keys, bit lists, weights, messages, signatures and public inputs", "why_tests_cant": "An equivalence over all witnesses; tests show single accepted witnesses and no rejected ones.", "anchors": ["spark/bls-tx.go: Define", "spark/bls-rotate.go: Define", "spark/bls-bls12381_sig.go: VerifyBLS_bls12_Tx, Verify_bls12_Rotate"]}
{"id": "C92", "title": "Hashing to G2 without side conditions", "statement": "Cofactor clearing sends exactly one point in r of the twist to infinity, the points whose order divides the cofactor; for all other points both variants return [x^2-x-1]P + [x-1]psi(P) + psi^2(2P) whatever the prover does. Hence, with u0, u1 the field elements of a message: if one of them is 0 both HashToG2 and HashToG2OnJac fail; otherwise, with Q0, Q1 their images, HashToG2OnJac returns the cofactor-cleared Q0+Q1 and fails exactly when that is infinity, and HashToG2 returns the same whenever Q0 differs from Q1, and fails for Q0 = -Q1. The only field element MapElementToCurve2 cannot be proved for is 0. Likewise for the Encode variants.", "quantifier": "all points of the twist and all provers (cofactor clearing); all 32-byte messages, honest hints (hashing)", "why_tests_cant": "The exceptional points are a fraction 2^-255 of all: no test meets them, and no test can show there are no others.", "anchors": ["spark/pairing_bls12381/hashG2.go: HashToG2, HashToG2OnJac, EncodeToG2, EncodeToG2OnJac, G2ClearCofactor, MapElementToCurve2", "spark/pairing_bls12381/g2.go: ClearCofactor"]}
{"id": "C93", "title": "Layers of Poseidon", "statement": "Sigma is x^5 and a permutation of the field. Ark adds the constants from position r on to the state; Mix multiplies the state by the transpose of the given table and MixLast is one entry of that product. Each of the last three panics exactly if a table entry it needs is missing.", "quantifier": "all states of any width, all tables, all offsets", "why_tests_cant": "All widths and tables.", "anchors": ["spark/pairing_bls12381/poseidonHash.go: Sigma, Ark, Mix, MixLast"]}
{"id": "C94", "title": "Building blocks of the circuits called on their own", "statement": "CalculateTrustedWeight has exactly one result for boolean bits, the sum of the old weights at the positions whose bit is 1 and whose old and new key have equal limbs, or whose bit is 0 and whose old key is all zero, and cannot be satisfied otherwise. ComputeAPKCommitment has exactly one result, the commitment. CommitmentCheck and ThresholdCheck hold for equal values only. AggregatePublicKeys returns what AggregatePublicKeys_Rotate returns if the total is the weight of the signers, and cannot be satisfied otherwise.", "quantifier": "all keys (any limbs), bits, weights and totals, any prover, compiled and test engine", "why_tests_cant": "All inputs and all provers.", "anchors": ["spark/pairing_bls12381/pairing.go: CalculateTrustedWeight, CommitmentCheck, ThresholdCheck, AggregatePublicKeys, AggregatePublicKeys_Rotate", "spark/test_helpers.go: ComputeAPKCommitment"]}
{"id": "C95", "title": "The exported byte interface reads, combines and writes bytes", "statement": "AsUint8 can be satisfied exactly for the field elements 0 to 255, its result has the bits of the number and FromUint8 gives the number back. Reading any list of variables with AsUint8, combining them with Xor and writing the result with FromUint8 yields the exclusive or of the numbers, and cannot be satisfied if one of them is not a byte. FromUint64 of the bits of a 64-bit number is that number.", "quantifier": "all field elements, lists of any length, all 64-bit numbers, any prover", "why_tests_cant": "A 254-bit field, lists of any length, adversarial bit decompositions.", "anchors": ["spark/sha256/uint8api.go: AsUint8, FromUint8, Xor", "spark/sha256/uint64api.go: FromUint64"]}
{"id": "C96", "title": "The Poseidon permutation loses nothing", "statement": "For every supported number of inputs n = 1..16: every square submatrix of the matrix table of that width is invertible (the matrix is MDS); the permutation is a bijection of the states; PoseidonEx asked for all n+1 outputs is injective in inputs and initial state together and reaches every list of n+1 field elements; over all initial states and inputs each first output element is returned equally often, q^n times.", "quantifier": "all widths, all states, all submatrices of any size, all digests", "why_tests_cant": "A table with one wrong entry would usually still hash; invertibility of all minors and bijectivity on q^(n+1) states cannot be sampled.", "anchors": ["spark/pairing_bls12381/poseidonHash.go: PoseidonEx", "spark/pairing_bls12381/constants.go: POSEIDON_M, POSEIDON_C"]}
{"id": "C97", "title": "Hashing to G2 is hash_to_curve of RFC 9380", "statement": "ClearCofactor and G2ClearCofactor multiply every point of the twist by the literal h_eff of RFC 9380 8.8.2. For every 32-byte message whose two field elements have no sign tie (real part 0, see C50), the honest HashToG2OnJac returns hash_to_curve(msg) of the suite BLS12381G2_XMD:SHA-256_SSWU_RO_ and fails if that is infinity; HashToG2 returns it too unless it is infinity or the two field elements map to the same point; EncodeToG2 and EncodeToG2OnJac return encode_to_curve(msg). The honest provers of the two circuits accept exactly the aggregate signatures on that hash (exceptions of C86, C91). RFC 9380 assigns every message exactly one hash.", "quantifier": "all points of the twist; all 32-byte messages", "why_tests_cant": "Test vectors cover finitely many messages; that an endomorphism formula equals multiplication by a 636-bit number holds for all points or none of the theory applies.", "anchors": ["spark/pairing_bls12381/hashG2.go: HashToG2, HashToG2OnJac, EncodeToG2, EncodeToG2OnJac, G2ClearCofactor", "spark/pairing_bls12381/g2.go: ClearCofactor", "spark/bls-tx.go: Define", "spark/bls-rotate.go: Define"]}
{"id": "C98", "title": "Key sets that cannot sign are rare", "statement": "For every non-empty set of signers, of the r^10 tuples of secret keys below r at most 31 r^9 are unsuitable: some public key is infinity, some addition in the aggregation is degenerate, or the aggregate key is infinity. At most 1023 * 31 * r^9 tuples are unsuitable for some non-empty set of signers. For suitable keys the aggregation in the test engine (and in the compiled circuit under the condition of C19) has exactly one result, the finite sum of the signers' keys.", "quantifier": "all tuples of ten secret keys, all non-empty signer sets, any prover", "why_tests_cant": "A fraction 2^-250 of the key tuples is unsuitable: no sample shows that it is not zero or that it is not 2^-20.", "anchors": ["spark/pairing_bls12381/pairing.go: AggregatePublicKeys_Rotate"]}
{"id": "C99", "title": "Messages that cannot be hashed are rare", "statement": "At most 25 field elements are mapped by map_to_curve to a given point. At most 26 p of the p^2 field elements have a sign tie (C50). Of the p^4 pairs of field elements a message can be expanded to, at most a fraction 26/r is exceptional: a sign tie, equal mapped points, or an infinite hash. For all other pairs HashToG2 and HashToG2OnJac return the hash of RFC 9380, a finite point of order r.", "quantifier": "all pairs of field elements, all 32-byte messages expanding to them, honest prover", "why_tests_cant": "Statement about the number of exceptions in a set of 2^1524 pairs.", "anchors": ["spark/pairing_bls12381/hashG2.go: HashToG2, HashToG2OnJac, MapElementToCurve2"]}
{"id": "C100", "title": "Validators who do not sign", "statement": "Keys and weights of validators whose bit is 0 enter both circuits through the commitment only: two transactions that differ in these only, each with the commitment to its own set, are the same system of constraints, and so are two rotations with the same signers and the same trusted weight. So a set of fewer than ten validators can be padded with any entries that never sign, and the honest prover succeeds exactly as for ten validators (C91). [Two consequences of the code as it is: whoever holds an accepted rotation can replace the keys and weights of the new validators who did not sign it; nine validators with the tenth place empty, all signing honestly, are rejected by the compiled circuit and accepted by the test engine.]", "quantifier": "all keys and weights, all bit lists, any prover, compiled and test engine", "why_tests_cant": "All sets and all provers.", "anchors": ["spark/pairing_bls12381/pairing.go: AggregatePublicKeys, AggregatePublicKeys_Rotate, CalculateTrustedWeight", "spark/bls-tx.go: Define", "spark/bls-rotate.go: Define"]}
{"id": "C101", "title": "From message bytes to an accepted witness", "statement": "If bls12381.HashToG2 outside the circuit is RFC 9380 hash_to_curve with the tag DOMAIN_SEPERATOR and iden3's Poseidon is Poseidon, then for secret keys in general position the witness that the test helpers assemble from the bytes of a message (or, for a rotation, from the output of generateNew) is accepted by the honest prover exactly when the Miller value is not exceptional; verifyPairingCheck accepts it too, and the signed weight is the sum of the signers' weights. RFC 9380 leaves exactly one such hash function. No agreement between the circuit's hash and the one used for signing is assumed. [Excluded: messages with a sign tie, with equal mapped points or an infinite hash; commitments below 2^248.]", "quantifier": "all secret keys, weights, signer sets (in the compiled circuit those of C19), random draws, 32-byte messages, and all implementations of the two library functions that meet their specification", "why_tests_cant": "All keys, messages and draws; the two hash implementations live in different libraries.", "anchors": ["spark/test_helpers.go: generateNew, genCommitment, verifyPairingCheck", "spark/bls-tx_test.go", "spark/bls-rotate_test.go", "spark/pairing_bls12381/hashG2.go: HashToG2", "spark/bls-tx.go: Define", "spark/bls-rotate.go: Define"]}
{"id": "C102", "title": "What the rotation generator can produce, and when it returns", "statement": "The results of generateNew over all random numbers are exactly the key sets with one, two or three validators replaced by arbitrary secret keys below 2^230, weights below 2^10 and bits, each with its commitment, hash, aggregate signature and trusted weight. No sequence of random numbers makes it panic: whatever was drawn so far, further numbers let it return, and numbers it did not draw do not matter. It draws without bound while the same position comes up again. With other than ten public keys, or if the first position drawn is beyond the end of the private keys, weights or bits, it panics.", "quantifier": "all key sets of ten, weights, bits, and all finite sequences of random numbers", "why_tests_cant": "All random sequences, of any length; a test sees a few runs.", "anchors": ["spark/test_helpers.go: generateNew, genRandom, genPublickey, genCommitment"]}
{"id": "C103", "title": "How many points pass for the hash of one message", "statement": "For every 32-byte message at least r/26 of the r - 1 finite points of order r satisfy the constraints of both HashToG2 and HashToG2OnJac for that message, and at least r/26 those of both EncodeToG2 variants. [This measures the failure of C09: a prover is not limited to a few alternatives; a hash that bound its output would admit one point.]", "quantifier": "all 32-byte messages, any prover", "why_tests_cant": "A count of about 2^250 points, each with its own dishonest witness.", "anchors": ["spark/pairing_bls12381/hashG2.go: HashToField, HashToG2, HashToG2OnJac, EncodeToG2, EncodeToG2OnJac"]}
{"id": "C104", "title": "Honest histories are accepted", "statement": "For every sequence of transactions and rotations, of any length, in which each step is what honest parties produce (signers of the current set sign 32 bytes of a transaction; signers of the next set sign the 32 bytes of a rotation; keys, weights, commitments, bit lists and declared weights are the true ones) and no step meets an exception of C101: the honest prover finds a proof of every event, a verifier that keeps nothing but the current commitment accepts all of them and ends with the commitment of the last set, and a verifier that knows the sets themselves agrees with every declared weight.", "quantifier": "all histories, all sets of ten secret keys and weights, all signer sets (in the compiled circuit those of C19), all messages", "why_tests_cant": "Histories of any length over all key sets; acceptance must be preserved by every step.", "anchors": ["spark/bls-tx.go: Define", "spark/bls-rotate.go: Define", "spark/pairing_bls12381/pairing.go: AggregatePublicKeys_Rotate, CalculateTrustedWeight", "spark/pairing_bls12381/hashG2.go: HashToG2"]}
{"id": "C105", "title": "A signature determines its signers, unless key sums collide", "statement": "Let some validators sign a message (without an exception of C101). A proof that presents their signature with another bit list and a declared weight is accepted from the honest prover exactly when the declared weight is that of the listed validators and the keys of the listed validators have the same sum as the keys of those who signed; likewise for rotations. So if different sets of validators have different sums of keys, only the true bit list and the true weight are accepted. Of the r^10 tuples of secret keys at most (3^10 - 1) r^9 lack this property; but nothing in the circuits excludes them: with a key that is the sum of three others, a signature of validators of weight 201 is accepted as one of weight 412, in the compiled circuit as well.", "quantifier": "all sets of ten secret keys and weights, all messages, all pairs of signer sets (in the compiled circuit those of C19), all declared weights", "why_tests_cant": "All pairs of signer sets and all keys; the exceptions are too rare to be met by random tests.", "anchors": ["spark/bls-tx.go: Define", "spark/bls-rotate.go: Define", "spark/pairing_bls12381/pairing.go: AggregatePublicKeys_Rotate, PairingCheck"]}
{"id": "C106", "title": "Proofs in which nobody signs", "statement": "With a bit list of zeros, no prover can have a transaction or a rotation accepted in the semantics of gnark's test engine. In the compiled circuit the honest prover fails as soon as neither of the first two validators signs; but somebody who chooses the witness can, for every message and every validator set, have a transaction accepted in which all bits are zero, exactly with declared weight 0, and a rotation between any two sets, exactly with the trusted weight of the all-zero placeholders of the old set. [So the consumer of a proof must reject weight 0 and must not give weight to placeholders.]", "quantifier": "all keys, weights, messages, public values and provers", "why_tests_cant": "All provers; a test runs the honest prover on chosen bit lists.", "anchors": ["spark/bls-tx.go: Define", "spark/bls-rotate.go: Define", "spark/pairing_bls12381/pairing.go: AggregatePublicKeys, AggregatePublicKeys_Rotate, AddG1Points, MillerLoop, CalculateTrustedWeight"]}
{"id": "C107", "title": "Published signatures can be joined and taken apart, not counted twice", "statement": "Given aggregate signatures of any groups of validators on one message, a combination of them with integer coefficients (other than infinity) is accepted from the honest prover for a bit list whose validators can sign (C101) exactly when the declared weight is that of the bit list and the same combination of the groups' sums of keys is the sum of the keys of the bit list; likewise for rotations. So the sum of the signatures of two groups without a common member is accepted for both together, with the sum of their weights; the difference of the signatures of a group and of a part of it is accepted for the rest; and the sum of the signatures of two groups with a common member is not accepted for their union if different groups have different sums of keys.", "quantifier": "all sets of ten secret keys and weights, all messages, any number of groups, all integer coefficients, all bit lists (in the compiled circuit those of C19), all declared weights", "why_tests_cant": "All combinations of all groups for all keys; the converse says that no other combination is accepted.", "anchors": ["spark/bls-tx.go: Define", "spark/bls-rotate.go: Define", "spark/pairing_bls12381/pairing.go: AggregatePublicKeys_Rotate, PairingCheck", "spark/pairing_bls12381/pairing.go: AddG1Points"]}
{"id": "C108", "title": "The order of the validators", "statement": "List the same validators (keys, weights, bits) in another order. The aggregate signature and the weight stay the same. If the keys are in general position in the new order and the circuit aggregates the permuted bit list exactly, the honest prover has the transaction accepted exactly with the weight of the signers, as before, and likewise a rotation in which old and new validators are permuted alike. With keys of which different groups have different sums, this holds for every order in the semantics of gnark's test engine, and in the compiled circuit if all ten sign. In the compiled circuit it fails in general: a transaction with two absentees for which a proof is found becomes unprovable, for all public values, when two validators change places. [The commitment depends on the order, C17, C21.]", "quantifier": "all permutations of the ten positions, all sets of ten secret keys and weights, all signer sets, all messages, all declared weights", "why_tests_cant": "3628800 orders for each of 1024 signer sets and all keys.", "anchors": ["spark/bls-tx.go: Define", "spark/bls-rotate.go: Define", "spark/pairing_bls12381/pairing.go: AggregatePublicKeys_Rotate, AddG1Points, CalculateTrustedWeight"]}
{"id": "C109", "title": "Where tests speak for the deployed circuit", "statement": "If the keys have order r and are in general position, one of the first two validators signs, every later signer has an even number of non-signers before it and the number of non-signers is even, then for all weights, signatures, messages and public values: the honest prover of the compiled circuit finds a proof exactly if gnark's test engine accepts the assignment, and an accepting assignment of the internal variables exists for the one exactly if it exists for the other; likewise for rotations. [These are 76 of the 1024 signer sets, C19; for the others a passing test does not imply a provable statement, C63, C106.]", "quantifier": "all keys in general position, all bit lists of the kind described, all weights, signatures, messages and public values, all provers", "why_tests_cant": "The tests of the repository run in the test engine and do not see the compiled constraint system.", "anchors": ["spark/bls-tx.go: Define", "spark/bls-rotate.go: Define", "spark/pairing_bls12381/pairing.go: AggregatePublicKeys, AggregatePublicKeys_Rotate, AddG1Points"]}
{"id": "C110", "title": "What a signature is bound to", "statement": "Let some validators of a set sign a message. Presented for another message by the honest prover (for which the same validators could sign, C101), their signature is accepted exactly when the declared weight is theirs and the two messages have the same RFC 9380 hash; likewise for rotations. Presented with another validator set and a bit list of it, a transaction is accepted exactly when the declared weight is that of the listed validators in the other set (a rotation to the other set: when the trusted weight is that of the listed validators retained from the old set) and the listed keys have the same sum as the keys of those who signed. So a signature is not bound to the validator set: if the signers have the same keys at the same places in another set, for example after a rotation, their old signature is accepted with that set's commitment, exactly with their weight in that set. [A consumer that wants a signature to expire must put the set or an epoch into the message.]", "quantifier": "all pairs of sets of ten secret keys and weights, all pairs of messages, all signer sets (in the compiled circuit those of C19), all declared weights", "why_tests_cant": "All pairs of messages and of validator sets; a test replays a few signatures.", "anchors": ["spark/bls-tx.go: Define", "spark/bls-rotate.go: Define", "spark/pairing_bls12381/pairing.go: AggregatePublicKeys_Rotate, PairingCheck", "spark/pairing_bls12381/hashG2.go: HashToG2"]}
{"id": "C111", "title": "One change to an accepted proof", "statement": "Let some validators sign a message without an exception of C101. If one bit of the bit list is flipped, the test engine rejects the transaction and the rotation whatever weight is declared, provided that the keys of the changed list are in general position; no condition on sums of keys (C105) is needed. If a signer is exchanged for a non-signer (the new keys being in general position and the circuit aggregating the new list exactly), the proof is accepted from the honest prover exactly when the declared weight is that of the new list and the two have the same public key. If the key of one signer is replaced by another finite one (the keys still being in general position), the transaction is rejected in both modes, whatever commitment and weight are declared.", "quantifier": "all sets of ten secret keys and weights, all messages, all signer sets (in the compiled circuit those of C19), all positions, all declared weights", "why_tests_cant": "All single changes for all keys and messages; flipping a bit also changes which additions the circuit makes.", "anchors": ["spark/bls-tx.go: Define", "spark/bls-rotate.go: Define", "spark/pairing_bls12381/pairing.go: AggregatePublicKeys_Rotate, PairingCheck"]}
{"id": "C112", "title": "Accepted proofs are accepted again", "statement": "[Negative, for consumers.] A verifier that keeps only the current commitment (C83) has no memory. In every history it accepts, each transaction can be repeated any number of times or left out, and neighbouring transactions can be exchanged, without changing the rest or the final commitment. If a history leads back to a former commitment, the part since then can be repeated any number of times. A signature on a message by validators who have the same keys at the same places after an accepted rotation is accepted before the rotation with their old weight and after it with their new weight, and the honest prover finds both proofs. [Protection against replay must come from the signed message and from the consumer.]", "quantifier": "all accepted histories of any length, all positions, all numbers of repetitions, all sets of ten secret keys and weights, all messages, all signer sets (in the compiled circuit those of C19)", "why_tests_cant": "Histories and repetitions are unbounded.", "anchors": ["spark/bls-tx.go: Define", "spark/bls-rotate.go: Define"]}

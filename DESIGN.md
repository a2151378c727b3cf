# Formal model of etrapay/spark-awm: design

The repository under study (`/repo`, Go, package `spark` plus `sha256` and
`pairing_bls12381`) is a set of gnark v0.9.1 circuits: SHA-256 over bits,
Poseidon over the BN254 scalar field, BLS12-381 tower/curve/pairing arithmetic
over an emulated base field, RFC 9380 hash-to-G2, and the two top-level circuits
`BLS_BLS12_TX` and `BLS_BLS12_ROTATE`.

## 1. Modelling technique

### 1.1 Circuits as a two-sided monad (`Verif/Circ.lean`)

A gnark circuit fragment is run twice: by the honest solver (which evaluates the
hint functions) and by an arbitrary prover (who may choose any hint value that
satisfies the emitted constraints).  `Circ α` carries both:

* `run : Option α` - the value the honest solver computes; `none` if a hint
  fails, a constraint is violated by the honest values, or the Go code panics;
* `sat : α → Prop` - the results possible in *some* satisfying assignment
  (prover chooses all hints);
* `ok` - a proof that the honest run, if it succeeds, is a satisfying assignment.

`assert p` restricts both sides, `hint h` fixes `run` to `h` and leaves `sat`
unrestricted.  So "for all satisfying assignments" properties are statements
about `sat`, and completeness properties are statements about `run`.

### 1.2 gnark primitives (trusted, `Verif/Native.lean`, `Verif/Emulated.lean`)

gnark is a dependency whose source is not in `/repo`.  The following facts about
gnark v0.9.1 are *assumptions of the model*, written down as definitions:

* native API: `Select`, `And`, `Or`, `Xor` assert that selector/operands are
  boolean; `ToBinary(v, n)` returns boolean digits whose weighted sum is `v` (unique, for n = 254 digits
  canonical); `FromBinary`; `Cmp` is the exact comparison of canonical integers
  with result 1/0/-1; `AssertIsEqual`; `Add`, `Mul`, `Sub` are field operations of
  the BN254 scalar field. `ToBinary(v, n)` rejects values of 2^n and more only for witness variables: gnark silently
  truncates compile-time constants. The circuits apply it to constants that fit only, so the model does not distinguish;
* emulated field: `Add/Sub/Neg/MulMod/MulConst/Select/Lookup2/AssertIsEqual` are
  exact on the represented value modulo p; `NewHint` results are arbitrary
  values modulo p; `Inverse/Div` constrain the product; `IsZero` is exact;
  `Reduce` yields an arbitrary representative below 2^381 (canonical when run
  honestly);  `ToBits` are the bits of that representative; using an element in an
  operation enforces its limb widths (64,64,64,64,64,61 bits);
* gnark's Go handles (`Mode` in Model/Circuit.lean): in compiled circuits the limbs of a
  `Select` are fresh linear expressions, never `==` to the constant's `*big.Int`; in the
  test engine `Select` returns the chosen pointer itself. Theorems about the top-level
  circuits quantify over both modes unless they name one;
* gnark evaluates `Reduce` lazily (only when an element may have overflowed). The model lets
  the prover pick a representative below 2^381 at *every* `Reduce`. This includes every behaviour of gnark,
  so soundness theorems ("every satisfying assignment ...") carry over. Theorems that
  exhibit a lying prover at a `Reduce` (C50, C56, c44_*_lie, c46_placeholder_lie, c51_prover_false, c59_off_curve,
  C81, C82) hold for circuits in which that call does reduce, or in which its operand is the result of a multiplication
  (whose representative below 2^381 gnark leaves to the prover as well);
* limb widths of an input element are enforced when it is first used by an emulated operation;
  inputs never used by one stay unconstrained (they are in `G2In` of the unused `MessageHash`);
* hint functions: `hints.go` is modelled literally (Model/Hints.lean, flat integer lists), and C74 proves that the call
  sites with these functions equal the structured ones used everywhere else. gnark-crypto's
  `Inverse`, `Div`, `CyclotomicSquare` inside the hints are modelled by their mathematical
  meaning: inverse in the field, and Granger-Scott squaring as the formula valid on the cyclotomic subgroup.

### 1.2b Other dependencies

* `fp.Element{...}` literals in hashG2.go are Montgomery residues; the model stores the value `x * R^-1` (the conversion is
  redone by `tools/gen_hashconst.py` and the constants are pinned by C52, C54).
* The Poseidon hex tables of constants.go are stored as packed naturals generated from the text of
  `/repo` by `tools/gen_poseidon.py`; the parsers themselves are modelled in Model/Parse.lean (C73).
* `github.com/iden3/go-iden3-crypto/poseidon.Hash` (off-circuit) is a parameter `H` with contract
  `IsIden3Hash`: textbook Poseidon on 1..16 canonical inputs, error otherwise. `iden3_exists` shows the contract is
  met by a function.
* Off-circuit curve points of gnark-crypto are elements of Mathlib's group `E(Fp)` and of the twist; off-circuit
  `PairingCheck` is the product of the ate pairings (Spec/Pairing.lean) compared with 1.
* Randomness is an arbitrary list of draws; `crypto/rand` failing is outside the model.

### 1.3 Tower, curve, pairing

The emulated element is modelled by its value in `Fp = ZMod p`.  Most algebra is
generic in a field `K`; the concrete facts (p prime, -1 non-square, 1+u neither
square nor cube, table entries) are proved in the kernel, so that
`E2 Fp`, `E6 Fp`, `E12 Fp` are *fields* in Lean.  The elliptic-curve
specification is Mathlib's `WeierstrassCurve.Affine.Point` group.  Pairing
specification: Miller's recursion with explicit lines.

## 2. Layout

* `lean/Verif/Circ.lean`, `Native.lean`, `Emulated.lean` - circuit semantics
* `lean/Verif/Spec/*.lean` - independent specifications (FIPS 180-4, RFC 9380,
  textbook Poseidon, schoolbook tower arithmetic, Miller functions, ...)
* `lean/Verif/Model/*.lean` - the code, function by function, citing `/repo`
* `lean/Verif/Lemmas/*.lean`, `lean/Verif/Math/*.lean` - helper lemmas
* `lean/Verif/Props/*.lean` - the property theorems, one group per file, each
  with a non-vacuity example
* `lean/Verif/Instances/*.lean` - for every property theorem with hypotheses, a theorem
  `inst_*` that applies it to concrete data with all hypotheses proved (generators, the
  validators with secret keys 1, 2, 4, ..., 512, the message of the example, ...);
  `tools/check_instances.py` checks that none is missing
* `lean/Verif/Data/*.lean` - generated constant tables (Poseidon, precomputed lines),
  produced by `tools/*.py` from the text of `/repo`

## 3. Plan per property

"Exact" below means `c = pure v`: the honest solver finds `v` and no other value satisfies the constraints.

| Property | Model | Proof |
|---|---|---|
| C01-C03 | Model/Sha256: digest state machine over bit words | invariant "state = FIPS state of the processed blocks, buffer = tail"; induction over writes and over call sequences |
| C04-C06 | word gadgets, generic in the width | bit-vector refinement, exactness of each gadget |
| C07-C08 | Model/Expand: ExpandMsgXmd, HashToField | refinement against RFC 9380 on bytes (Spec/Rfc9380) |
| C09 | the unconstrained `RemHint` | FALSE of the code: negation with witnesses; `_partial` for what remains |
| C10-C12 | Model/Poseidon | state machine; table shapes; optimised = textbook by sparse-factorisation lemma, matrix identities and Grain LFSR evaluated in the kernel over the full tables |
| C13 | genCommitment, in-circuit commitment | equality of the two hash trees under `IsIden3Hash` |
| C14-C17, C20, C21 | Model/Circuit | inversion of the monadic constraints; integer bounds for no-wrap |
| C18, C22 | idem | FALSE of the code: refuted on concrete accepted proofs (Props/CircuitExamples) |
| C19 | AddG1Points with handle comparison | true in test-engine mode; FALSE compiled: what is computed (exactly, for signer sets with even gaps), counterexamples, and the exact list of signer sets for which it is right (all 1024 sets on one key list in the kernel) |
| C23 | whole circuits | soundness for every prover, completeness for honest witnesses, composition of C39-C43 and C50-C57 |
| C24-C30, C76 | Model/Tower, Model/Table over a field | ring identities; field structure (p prime, -1, 1+u non-residues in the kernel) |
| C31-C34 | torus arithmetic | norm-1 identities, non-residuosity of v, addition-chain exponents |
| C35-C37 | Model/FinalExp | composition + exponent identity; C37 FALSE when C1 = 0 (argument mutated) |
| C38-C43 | Model/Pairing | slope lemmas against Mathlib's group law, induction over the loop counter and the list of pairs; precomputed lines checked against a recomputed chain |
| C44-C49 | Model/G2 | Jacobian coordinates against Mathlib's group law; Budroni-Pintore formula as an identity of endomorphisms |
| C50-C57, C59 | Model/HashG2 | Euler criterion in Fp2, SSWU identity, isogeny identity on coefficient lists in the kernel; C50, C56, C59 FALSE against a lying prover |
| C58 | limb decomposition | base-2^64 digit lemmas |
| C60, C61 | Spec/Pairing on E(Fp) x G2 | bilinearity of the Miller product: cocycle argument for divisors of line functions (Math/Cocycle, Math/Reciprocity), eigenspace of psi; non-degeneracy from one value evaluated in the kernel |
| C62, C63 | circuits + group theory | BLS equation: accepted signature = sum(sk) H; honest one accepted; nine of ten signers in the compiled circuit: Miller value evaluated in the kernel |
| C64, C65 | cofactor clearing | order of the twist by point counting from explicit points (Lemmas/TwistOrder), psi characteristic equation |
| C66, C67 | circuits | FINDINGS: torsion-shifted keys, rogue-key rotations, with concrete accepted instances |
| C68-C72 | Model/Helpers: test_helpers.go, witness assembly in the tests | invariants of the drawing loops; composition with C13, C23, C62 |
| C73 | Model/Parse: table parsers on character lists | grammar (Spec/Table) and induction |
| C74 | Model/Hints: flat hint functions, registered names | each call site equals the structured gadget |
| C75 | Model/Bytes | bit lists of bytes |
| C77 | Model/Params | primality certificates (Pratt/Pocklington) |
| C78 | MixS | sparse matrix-vector product |
| C79 | small helpers | direct |
| C80 | MillerLoop/Pair/PairingCheck with (0,0) in second position | all lines become w³, killed by the final exponentiation; parity of the number of pairs |
| C81 | HashToG2 with a lying prover | an explicit run evaluated in the kernel, then HashToField is unconstrained |
| C82 | both Define functions with signature (0,0) | C80 + C81 |
| C83 | Spec/History: verifier keeping a commitment, ideal verifier knowing the set | induction over the history, commitment binding (C17, C21) at each step |
| C84 | histories of rotations | explicit three-step histories; C82 for the single steps |
| C85 | both Define functions | the constraint systems compared through `tx_cases`, `rotate_cases` |
| C86 | `finalExp`, `finalExpUnsafeExported`, `pairingCheck` | easy part of `c + w` computed in the torus: it is 1 exactly for `c` in `Fp2·v²`; counting by a bijection and by the kernel of a power map on a cyclic group |
| C87 | `pairingCheck` | the Miller value of `(-P, Q)` is minus the conjugate of that of `(P, Q)` (induction over the loop), so the product is a norm; C86 |
| C88 | Model/TestCircuits (tower_test.go) | C24-C29 |
| C89 | Model/TestCircuits (tower_test.go, torus part) | C31-C34; all exponents of the addition chain are coprime to p⁴-p²+1 (`decide +kernel` on the list) |
| C90 | Model/TestCircuits (pairing_test.go) | C35-C43, C60, C86, C87 |
| C91 | both Define functions, honest hints | C14, C17, C20, C21 and the exact pairing check of C86; `tx_run`/`rotate_run` for the converse |
| C92 | hashG2.go, both cofactor clearings | cofactor clearing commutes with psi and multiples and lands in the order-r subgroup, where psi is multiplication by the seed: every coincidence on the way maps to a relation excluded modulo r; kernel counted by Lagrange |
| C93 | Model/Poseidon, single layers | lemmas of C12 stated on their own; 5 is prime to the order of the multiplicative group |
| C94 | Model/Circuit, single methods | lemmas of C14-C21 stated on their own |
| C95 | Model/WordApi: exported wrappers | word lemmas of C05, induction over the list |
| C96 | no new model code; matrix table of Model/Poseidon, reference generator of Spec/Poseidon | Cauchy matrix kernel via polynomial interpolation, distinct points by kernel evaluation, rounds injective |
| C97 | Spec/HashToCurve: h_eff, hash_to_curve | both maps kill the cofactor part and agree on the subgroup of order r |
| C98 | no new model code; Lemmas/Counting | covering by 31 sets, each determined by nine keys |
| C99 | no new model code; Lemmas/Counting | roots of quartics and cubics, kernel of h_eff |
| C100 | both Define functions | selection discards the keys of non-signers; C91 and C63 transported |
| C101 | test helpers, RFC 9380, both Define functions | C97 gives the circuit's hash and its order, C69-C72 the witness; composed with C97's exact acceptance |
| C102 | generateNew | induction on the random sequence: loop lemma for a list of fresh positions, extension of unfinished sequences |
| C103 | hashToG2, hashToG2OnJac, encodeToG2, encodeToG2OnJac, any prover | honest tail on freely chosen field elements; fibres of map_to_curve have at most 25 elements, those of clearing the cofactor h2; covering argument over the p^2 field elements |
| C104 | both circuits, histories of honest parties | `Performs`: an inductive description of honest histories; induction with C97 for each step; examples of every length |
| C105 | both circuits, honest prover | C97 for both bit lists; points of order r; counting of linear relations with coefficients -1, 0, 1; a concrete collision |
| C106 | both circuits, bit list of zeros | test engine: the aggregated key is (0,0), whose ordinate has no inverse; compiled: C19 for the honest prover, C82 with the free slope of (0,0)+(0,0) for the dishonest one |
| C107 | both circuits, combinations of published signatures | C97 with the combined point; H and g1 both have prime order r, so the combination of signatures is an aggregate signature exactly if the combination of keys is the sum of keys; any finite family of groups |
| C108 | both circuits, validators in another order | sums over Fin 10 are invariant under permutations; C105 for the permuted set; the negative case by C106 (the first two positions absent) |
| C109 | both circuits in both modes | the aggregated keys agree (C19), everything after them is the same circuit; bit lists that are not boolean fail in both (C16) |
| C110 | both circuits, another message or set | C97 for the claimed signers; multiplication by a number prime to r is injective on points of order r; C105's comparison of sums |
| C111 | both circuits, one change | C105; one key more or less changes the sum; keys in general position have a finite sum; C106 if the last signer is removed |
| C112 | histories of proofs | induction over repetitions; histories split at every event; C110 for the signature used twice |
| C113 and later | see MANIFEST notes | |

## 4. Trusted base

* Lean 4.33.0 kernel; axioms at most `propext`, `Classical.choice`, `Quot.sound` for every theorem
  (vcheck prints them); Mathlib's definitions of `ZMod`, `WeierstrassCurve.Affine.Point`, matrices, etc.
* No `native_decide`, `bv_decide`, `sorry`, own axioms, `implemented_by` or `unsafe`.  Large closed computations use `decide +kernel`
  or `rfl`, that is, kernel reduction (with the kernel's GMP-accelerated `Nat`).
* The semantics of gnark and the other dependencies of 1.2 and 1.2b.
* The transcription Go -> Lean (each definition cites file and lines).
* The Python generators in `tools/` are *not* trusted for the curve-theoretic data (witness points, line tables, primality
  certificates are checked by the kernel); they are trusted to copy the literals of `/repo` (Poseidon tables,
  precomputed lines, Montgomery constants), which C12, C41, C52 and C54 pin down independently.

* The specifications in `Spec/`.  Those of published standards are also run, in the kernel, on published vectors:
  SHA-256("abc") (`Lemmas/Sha256Test`), circomlib's Poseidon(1, 2) (`c12_vector`), and RFC 9380 K.1 (two expansions) and J.10.1
  (`hash_to_field` and `hash_to_curve` of the empty message, with the RFC's tag and its published point; `Props/RfcVectors`).

### Modelled

| /repo file | Lean module | Functions |
|---|---|---|
| sha256/*.go | Model/Sha256, Model/WordApi | all |
| pairing_bls12381/poseidonHash.go | Model/Poseidon | all |
| pairing_bls12381/constants.go | Data/PoseidonTables, Model/Parse | tables and parsers |
| pairing_bls12381/tower.go | Model/Tower, Model/Table, Model/Hints | all methods, both tables, FromE2/6/12 |
| pairing_bls12381/hints.go | Model/Hints | all hints and their registration |
| pairing_bls12381/pairing.go | Model/FinalExp, Model/Pairing, Model/Circuit | all |
| pairing_bls12381/precomputations.go | Data/Lines | all literals |
| pairing_bls12381/g1.go, g2.go | Model/Circuit, Model/G2 | all |
| pairing_bls12381/hashG2.go | Model/Expand, Model/HashG2, Model/Bytes | all |
| pairing_bls12381/params.go | Model/Params | all |
| bls-tx.go, bls-rotate.go, bls-bls12381_sig.go | Model/Circuit | all |
| test_helpers.go | Model/Circuit, Model/Helpers | all |
| bls-tx_test.go, bls-rotate_test.go | Model/Helpers | assembly of the witnesses |
| pairing_test.go, tower_test.go | Model/TestCircuits | all circuits |

### Not modelled

gnark's compiler and backends, Groth16/PLONK, serialisation; constructors that only store the API handle (`NewExt6`, `NewPairing`,
`NewBLS_bls12`, `newUint8API`, ...); the emulated-field limb
arithmetic below `Reduce`/`ToBits`/limb widths; Go memory and timing behaviour except the aliasing effects named in the
properties (C03, C37, handle comparison in C19); the random number generator and the benchmarks of `pairing_test.go` and `tower_test.go`.

## 5. Findings (claims that are false of the code; the negation is proved)

1. `RemHint` is unconstrained: the point hashed to is not bound to the message (C09).
2. Transaction circuit: the public `MessageHash` is unused and the message bytes are free (C18).
3. Rotation circuit: the signed bytes are not linked to the new commitment; new weights are not signed (C22).
4. `AddG1Points` tests for infinity by comparing Go handles: in the compiled circuit non-signers corrupt the aggregated key (C19).
5. `CalculateTrustedWeight` compares keys by position (C20: a moved validator does not count); the helper `generateNew` does not (C69).
6. `FinalExponentiation` overwrites its argument when its second component is 0 (C37).
7. `sgn0` ignores the first-component-zero rule of RFC 9380 (C50, c52_sign_false).
8. Zero/equality tests can be answered falsely for non-canonical representatives (C56 and its consequences for C44, C46, C51, C59).
9. Poseidon panics for 0 or more than 16 inputs (C11).
10. Keys need not be in the prime-order subgroup (C66); signatures are not checked to be on the curve.
11. Rotations admit rogue keys (C67).
12. `big.Int.Bytes` drops leading zeros: commitments below 2^248 cannot be used (C72).
13. The table entry (0,-1) of `NewExt2_` is 1/2 instead of (1+u)^-1 (C76, dead data).
14. 0/0 divisions (equal points, the placeholder (0,0)) leave the quotient to the prover (C29, c47_equal_free).
15. Input limbs need not be canonical (c58_noncanonical): one key has several encodings, hence several commitments.
16. **Universal forgery** (C80-C82): nothing excludes (0,0) as signature or as hash. A prover can make HashToG2 return
    (0,0) for every message (free output of HashToField, a free slope for Q0 + Q1 with Q0 = Q1, false answers of zero
    tests) and PairingCheck accepts [(-g1, (0,0)), (apk, (0,0))]. So both circuits accept every message for every key
    set. The run uses false answers at `Reduce` in the scalar multiplications of ClearCofactor; these need a
    coordinate with a second representative below 2^381, which the evaluator `nFit` checks at each use.

17. **Takeover by rotations** (C84): new weights are not signed, so weight can be moved between validators at will; three
    rotations that each declare the whole weight as trusted replace any validator set by any other.
18. No domain separation between transaction and rotation signatures (C85).
19. Keys of new validators who did not sign a rotation can be replaced by whoever submits it (C100).
20. Signer sets whose keys have the same sum are interchangeable (C105): a signature of one counts for the other.
21. A compiled circuit accepts a proof without any signer, with weight 0, from a prover who chooses the witness (C106).
22. The compiled circuit depends on the order of the validators: exchanging two can make a provable transaction unprovable (C108).
23. Signatures are not bound to the validator set, and proofs not to a point in the history: both can be replayed (C110, C112).

## 6. Testing the theorems against wrong programs

`seeded/mutate.py` applies one edit to a scratch copy, rebuilds and records which theorems fail in `seeded/LOG.jsonl`.

import Verif.Lemmas.PoseidonEval
import Verif.Lemmas.TxWitness
import Verif.Data.RotWitness

/-!
# A concrete honest rotation, evaluated in the kernel

Validator 3 of the set with secret keys `2^i` and weights 100 is replaced by the secret key 1024 with weight 7;
everybody but validator 5 signs the bytes of the new commitment.  Here: the commitment, the hash of its bytes, the
signature, the Miller value.
-/

namespace Spark.Rot
open Circ NC G2 Spec Pairing PairingProps Circuit Poseidon PosData Witness Rfc Fips
set_option maxRecDepth 100000
set_option exponentiation.threshold 10000

/-! ### the commitment -/

noncomputable section

/-- six 64-bit limbs -/
def limbsN (x : ℕ) : ℕ :=
  packN 6 fun j => Nat.mod (Nat.shiftRight x (Nat.mul 64 j)) (Nat.pow 2 64)
/-- three numbers -/
def pack3 (a b c : ℕ) : ℕ := packN 3 fun j => Nat.rec a (fun j _ => Nat.rec b (fun _ _ => c) j) j
/-- hash of six limbs -/
def nPos6 (x : ℕ) : ℕ := nPos 6 63 (Poseidon.nth c7 0) s7 m7 p7 x
/-- hash of three elements -/
def nPos3 (x : ℕ) : ℕ := nPos 3 56 (Poseidon.nth c4 0) s4 m4 p4 x
/-- hash of ten elements -/
def nPos10 (x : ℕ) : ℕ := nPos 10 66 (Poseidon.nth c11 0) s11 m11 p11 x
/-- hash of one validator -/
def nVal (x y w : ℕ) : ℕ := nPos3 (pack3 (nPos6 (limbsN x)) (nPos6 (limbsN y)) w)
/-- commitment to ten validators -/
def nCommit (kx ky w : List ℕ) : ℕ :=
  nPos10 (packN 10 fun i => nVal (Poseidon.nth kx i) (Poseidon.nth ky i) (Poseidon.nth w i))

theorem nPos6_spec (x : ℕ) : poseidon (List.ofFn (vec 6 x)) = some ((nPos6 x : ℕ) : Fr) :=
  nPos_spec (n := 6) rfl rfl rfl rfl rfl rfl rfl rfl rfl (by decide +kernel) (by decide +kernel) (by decide +kernel)
    (by decide +kernel) (by decide +kernel) x
theorem nPos3_spec (x : ℕ) : poseidon (List.ofFn (vec 3 x)) = some ((nPos3 x : ℕ) : Fr) :=
  nPos_spec (n := 3) rfl rfl rfl rfl rfl rfl rfl rfl rfl (by decide +kernel) (by decide +kernel) (by decide +kernel)
    (by decide +kernel) (by decide +kernel) x
theorem nPos10_spec (x : ℕ) : poseidon (List.ofFn (vec 10 x)) = some ((nPos10 x : ℕ) : Fr) :=
  nPos_spec (n := 10) rfl rfl rfl rfl rfl rfl rfl rfl rfl (by decide +kernel) (by decide +kernel) (by decide +kernel)
    (by decide +kernel) (by decide +kernel) x

theorem nPos_lt (n rp c : ℕ) (S M P : List ℕ) (x : ℕ) : nPos n rp c S M P x < 2 ^ 256 := by
  rw [nPos, force_eq, force_eq, force_eq, force_eq, force_eq]
  exact mod_fr_lt _

theorem nPos6_lt (x : ℕ) : nPos6 x < 2 ^ 256 := nPos_lt _ _ _ _ _ _ _
theorem nVal_lt (x y w : ℕ) : nVal x y w < 2 ^ 256 := by
  rw [nVal, nPos3]; exact nPos_lt _ _ _ _ _ _ _
attribute [local irreducible] nPos6 nPos3 nPos10

theorem limbsN_vec {x : ℕ} (hx : x < fpOrder) : vec 6 (limbsN x) = valueOfIn (x : Fp) := by
  funext j
  rw [vec, limbsN, ent_packN (f := fun j => Nat.mod (Nat.shiftRight x (Nat.mul 64 j)) (Nat.pow 2 64))
    (fun _ _ => (Nat.mod_lt _ (by decide)).trans (by decide)) j.2, valueOfIn, valueOf, ZMod.val_natCast,
    Nat.mod_eq_of_lt hx]
  change (((x >>> (64 * j.val)) % 2 ^ 64 : ℕ) : Fr) = _
  rw [Nat.shiftRight_eq_div_pow]

theorem pack3_vec {a b c : ℕ} (ha : a < 2 ^ 256) (hb : b < 2 ^ 256) (hc : c < 2 ^ 256) :
    List.ofFn (vec 3 (pack3 a b c)) = [(a : Fr), (b : Fr), (c : Fr)] := by
  have h : ∀ j < 3, (fun j : ℕ => (Nat.rec a (fun j _ => Nat.rec b (fun _ _ => c) j) j : ℕ)) j < 2 ^ 256 := by
    intro j hj
    interval_cases j
    · exact ha
    · exact hb
    · exact hc
  have e : vec 3 (pack3 a b c) = ![(a : Fr), (b : Fr), (c : Fr)] := by
    funext j
    rw [vec, pack3, ent_packN h j.2]
    fin_cases j <;> rfl
  rw [e]
  simp [List.ofFn_succ]

/-- the evaluator computes the commitment -/
theorem nCommit_spec (kx ky w : List ℕ) (hx : ∀ i < 10, Poseidon.nth kx i < fpOrder)
    (hy : ∀ i < 10, Poseidon.nth ky i < fpOrder) (hw : ∀ i < 10, Poseidon.nth w i < 2 ^ 256) :
    IsCommitment (fun i => valueOfIn ((Poseidon.nth kx i : ℕ) : Fp)) (fun i => valueOfIn ((Poseidon.nth ky i : ℕ) : Fp))
      (fun i => ((Poseidon.nth w i : ℕ) : Fr)) ((nCommit kx ky w : ℕ) : Fr) := by
  refine ⟨fun i => ((nPos6 (limbsN (Poseidon.nth kx i)) : ℕ) : Fr), fun i => ((nPos6 (limbsN (Poseidon.nth ky i)) : ℕ) : Fr),
    fun i => ((nVal (Poseidon.nth kx i) (Poseidon.nth ky i) (Poseidon.nth w i) : ℕ) : Fr), fun i => ?_, fun i => ?_,
    fun i => ?_, ?_⟩
  · dsimp only
    rw [isPoseidon_iff, ← limbsN_vec (hx i i.2)]
    exact nPos6_spec _
  · dsimp only
    rw [isPoseidon_iff, ← limbsN_vec (hy i i.2)]
    exact nPos6_spec _
  · dsimp only
    rw [isPoseidon_iff, ← pack3_vec (nPos6_lt _) (nPos6_lt _) (hw i i.2), nVal]
    exact nPos3_spec _
  · rw [isPoseidon_iff, nCommit, ← nPos10_spec]
    refine congrArg (fun f => poseidon (List.ofFn f)) ?_
    funext i
    rw [vec, ent_packN (f := fun i => nVal (Poseidon.nth kx i) (Poseidon.nth ky i) (Poseidon.nth w i))
      (fun _ _ => nVal_lt _ _ _) i.2]

/-- the new weights -/
def wN : List ℕ := [100, 100, 100, 7, 100, 100, 100, 100, 100, 100]

theorem commit_check : nCommit kx ky wN = cN := by decide +kernel

end

/-! ### the hash of its bytes -/

theorem b0_check : sha256 (I2OSP 0 64 ++ msgN ++ I2OSP 256 2 ++ I2OSP 0 1 ++ exDst) = digest0 := by
  rw [← sha256T_eq 3 _ (by decide +kernel)]; decide +kernel
theorem b1_check : sha256 (digest0 ++ I2OSP 1 1 ++ exDst) = digest1 := by
  rw [← sha256T_eq 2 _ (by decide +kernel)]; decide +kernel
theorem b2_check : sha256 (strxor digest0 digest1 ++ I2OSP 2 1 ++ exDst) = digest2 := by
  rw [← sha256T_eq 2 _ (by decide +kernel)]; decide +kernel
theorem b3_check : sha256 (strxor digest0 digest2 ++ I2OSP 3 1 ++ exDst) = digest3 := by
  rw [← sha256T_eq 2 _ (by decide +kernel)]; decide +kernel
theorem b4_check : sha256 (strxor digest0 digest3 ++ I2OSP 4 1 ++ exDst) = digest4 := by
  rw [← sha256T_eq 2 _ (by decide +kernel)]; decide +kernel
theorem b5_check : sha256 (strxor digest0 digest4 ++ I2OSP 5 1 ++ exDst) = digest5 := by
  rw [← sha256T_eq 2 _ (by decide +kernel)]; decide +kernel
theorem b6_check : sha256 (strxor digest0 digest5 ++ I2OSP 6 1 ++ exDst) = digest6 := by
  rw [← sha256T_eq 2 _ (by decide +kernel)]; decide +kernel
theorem b7_check : sha256 (strxor digest0 digest6 ++ I2OSP 7 1 ++ exDst) = digest7 := by
  rw [← sha256T_eq 2 _ (by decide +kernel)]; decide +kernel
theorem b8_check : sha256 (strxor digest0 digest7 ++ I2OSP 8 1 ++ exDst) = digest8 := by
  rw [← sha256T_eq 2 _ (by decide +kernel)]; decide +kernel

/-- the expanded message -/
def bytesN : List Byte :=
  digest1 ++ (digest2 ++ (digest3 ++ (digest4 ++ (digest5 ++ (digest6 ++ (digest7 ++ digest8))))))

theorem expand_check : expandMessageXmd msgN (ascii dstString) 256 = some bytesN := by
  rw [expandMessageXmd]
  have hd : ¬ (255 < (256 + 31) / 32 ∨ 65535 < 256 ∨ 255 < (ascii dstString).length) := by decide +kernel
  dsimp only
  rw [if_neg hd]
  have hb := b0_check
  rw [exDst] at hb
  rw [hb]
  have v1 := b1_check; have v2 := b2_check; have v3 := b3_check; have v4 := b4_check
  have v5 := b5_check; have v6 := b6_check; have v7 := b7_check; have v8 := b8_check
  rw [← exDst]
  have b1 : bVal digest0 exDst 0 = digest1 := v1
  have b2 : bVal digest0 exDst 1 = digest2 := by rw [bVal, b1]; exact v2
  have b3 : bVal digest0 exDst 2 = digest3 := by rw [bVal, b2]; exact v3
  have b4 : bVal digest0 exDst 3 = digest4 := by rw [bVal, b3]; exact v4
  have b5 : bVal digest0 exDst 4 = digest5 := by rw [bVal, b4]; exact v5
  have b6 : bVal digest0 exDst 5 = digest6 := by rw [bVal, b5]; exact v6
  have b7 : bVal digest0 exDst 6 = digest7 := by rw [bVal, b6]; exact v7
  have b8 : bVal digest0 exDst 7 = digest8 := by rw [bVal, b7]; exact v8
  have hr : List.range ((256 + 31) / 32) = [0, 1, 2, 3, 4, 5, 6, 7] := by decide
  rw [hr]
  simp only [List.flatMap_cons, List.flatMap_nil, b1, b2, b3, b4, b5, b6, b7, b8, List.append_nil]
  rw [List.take_of_length_le (by decide +kernel)]
  rfl

theorem hash_to_field_check : hashToFieldFp2 msgN (ascii dstString) 2 = some [e2 u0, e2 u1] := by
  rw [hashToFieldFp2, show 2 * 2 * 64 = 256 from rfl, expand_check, Option.map_some]
  have h0 : ((OS2IP (chunk 64 (2 * 0) bytesN) : ℕ) : Fp) = u0.1 := cast_of_mod (by decide +kernel)
  have h1 : ((OS2IP (chunk 64 (2 * 0 + 1) bytesN) : ℕ) : Fp) = u0.2 := cast_of_mod (by decide +kernel)
  have h2 : ((OS2IP (chunk 64 (2 * 1) bytesN) : ℕ) : Fp) = u1.1 := cast_of_mod (by decide +kernel)
  have h3 : ((OS2IP (chunk 64 (2 * 1 + 1) bytesN) : ℕ) : Fp) = u1.2 := cast_of_mod (by decide +kernel)
  have hr : List.range 2 = [0, 1] := by decide
  rw [hr, List.map_cons, List.map_cons, List.map_nil, h0, h1, h2, h3]
  rfl

theorem hash_check : nHash u0 y0 u1 y1 = some hN := by decide +kernel

/-! ### points and pairing -/

theorem s_check : smulAux hN 2007 10 hN = some sN := by decide +kernel
theorem miller_check : (do
    let z1 ← nMiller gen1x (fpOrder - gen1y) sN
    let z2 ← nMiller ax ay hN
    pure (mul12 z1 z2)) = some zN := by decide +kernel
theorem easy_check : nz (pow12 zN (fpOrder ^ 2 + 1)).c1 = true := by decide +kernel
theorem c1_check : nz zN.c1 = true := by decide +kernel

theorem h_eqn : (e2 hN.2) ^ 2 = (e2 hN.1) ^ 3 + ⟨4, 4⟩ := by
  have h : mul hN.2 hN.2 = add (mul hN.1 (mul hN.1 hN.1)) (4, 4) := by decide +kernel
  have := congrArg e2 h
  rw [e2_mul, e2_add, e2_mul, e2_mul] at this
  have h4 : e2 (4, 4) = ⟨4, 4⟩ := by rw [e2, toE2_eq]; ext <;> simp
  rw [h4] at this
  rw [pow_two, this]; ring

/-- the hash point -/
noncomputable def Hpt : ETwist Fp :=
  .some (e2 hN.1) (e2 hN.2) (nonsingular_of two_ne_E2 (e2_nz (by decide +kernel)) h_eqn)

theorem H_pt : IsPt Hpt hN := ⟨_, rfl⟩
theorem H_ne : Hpt ≠ 0 := WeierstrassCurve.Affine.Point.some_ne_zero _
theorem H_order : rOrder • Hpt = 0 := hash_order hash_check H_pt
theorem enc2_H : enc2 Hpt = pt hN := rfl
theorem S_pt : IsPt (2007 • Hpt) sN := smul_spec H_pt 2007 10 s_check (by decide)

/-- the Miller value, if `ax, ay` are the coordinates of `2007 g1` -/
theorem miller_value (ha : Pt (2007 • G1gen) (ax : Fp) (ay : Fp)) :
    millerLoop [enc1 (-G1gen), enc1 (2007 • G1gen)] [enc2 (2007 • Hpt), enc2 Hpt] = .ok (pure (e12 zN)) := by
  have h := miller_check
  simp only [Option.bind_eq_bind, Option.bind_eq_some_iff, Option.pure_def, Option.some.injEq] at h
  obtain ⟨z1, h1, z2, h2, hz⟩ := h
  have m1 : miller1 (enc1 (-G1gen), enc2 (2007 • Hpt)) = pure (e12 z1) := by
    rw [enc1_neg_gen, enc2_pt S_pt]; exact nMiller_spec h1
  have m2 : miller1 (enc1 (2007 • G1gen), enc2 Hpt) = pure (e12 z2) := by
    rw [enc1_pt ha, enc2_H]; exact nMiller_spec h2
  rw [millerLoop_eq (by simp) rfl]
  refine congrArg Except.ok ?_
  simp only [List.zip_cons_cons, List.zip_nil_left, mapC]
  rw [m1, m2]
  simp only [pure_bind, List.prod_cons, List.prod_nil, mul_one]
  rw [← e12_mul, hz]

theorem easy_ne : safeInput (e12 zN) ^ ((fpOrder ^ 6 - 1) * (fpOrder ^ 2 + 1)) ≠ 1 := easy_ne_of c1_check easy_check

end Spark.Rot

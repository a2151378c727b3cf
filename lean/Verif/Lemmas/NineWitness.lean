import Verif.Lemmas.CompiledExact

/-!
# Nine of ten validators sign: the Miller values, evaluated in the kernel

Keys `2^i • g1`, validator 9 absent: the sum of the signers' keys is `511 • g1 = (x, y)`, the aggregated signature is
`511 H`.  The compiled circuit aggregates the keys to `(4/x², -4y/x³)`.  The literals come from
`tools/gen_nine_witness.py`; every one is checked here.
-/

namespace Spark.Witness
open Circ NC G2 Spec Pairing PairingProps Circuit
set_option maxRecDepth 100000

/-- `511 H` -/
@[irreducible] def s9N : NPt := ((0x17855a4ff0dfd9113d6bb0fda6138df5d222fdb6ccece5741453d94a73e08cd12f472b912e9beb5dc80ce28dfb06a7fe, 0x863efa244fb0dca073ecc0ec676dbb28c34e90612de043867c7df3731ff7918ee6ecabda7622c376abe3f8b5b0607c3),
  (0x8a65b765e6d1a193caa07d54236c420ce2b51f37f18acce8e29c9e877b6919f0cf257bab1fe14c9139ae8f92957b9f8, 0x75f35e7a82b190d9009ad3ec26abd9904821ba6b790cfff18e08434c8d038e580cbeaee29fa79d65457ee4d0dae12ff))
/-- abscissa of `511 g1` -/
@[irreducible] def x9 : ℕ := 0xe4d68c7ba041ed0faca26150dc1a9c5abaa23642baaa076e911bcfcd7f2d3a6dc683c71dc3179c66bff703ff5fefccb
/-- ordinate of `511 g1` -/
@[irreducible] def y9 : ℕ := 0xd1ffb6cf86df9d6e47dece7ccfa1ae2484f0efec016f2cabc8363493510d8a135ab0d7a0a49d36bd44c38dcdaaac6e0
/-- `4/x²` -/
@[irreducible] def cx9 : ℕ := 0x13ccc5432f5b193bc7a8bef26027c8bb9abaa132dd15862c1f9412ae60fa6abe62b1d3a10d65bb2057af27ca0e584919
/-- `-4y/x³` -/
@[irreducible] def cy9 : ℕ := 0x168189f1b200e9b2be6ad93f440e7f8be883f8fb1cf4001847137833f6dad7f1e2c819f57537235b376a3a3af72b38db

theorem s9_check : smulAux hN 511 8 hN = some s9N := by decide +kernel
theorem pt9 : Pt (511 • G1gen) (x9 : Fp) (y9 : Fp) :=
  gen_mul_pt 511 8 (by decide +kernel) (by decide) (by decide +kernel) (by decide +kernel)

/-- With `(4/x², -4y/x³)` the final exponentiation of the Miller value is not 1; with `(x, y)` its easy part is not
1. -/
theorem nine_check : (do
    let z1 ← nMiller gen1x (fpOrder - gen1y) s9N
    let z2 ← nMiller cx9 cy9 hN
    let z3 ← nMiller x9 y9 hN
    pure (nz (pow12 (mul12 z1 z2) ((fpOrder ^ 12 - 1) / rOrder)).c1 && nz (mul12 z1 z3).c1 &&
      nz (pow12 (mul12 z1 z3) (fpOrder ^ 2 + 1)).c1)) = some true := by
  decide +kernel

theorem cast9 : ((x9 : ℕ) : Fp) ≠ 0 ∧ 4 / ((x9 : ℕ) : Fp) ^ 2 = cx9 ∧ -(4 * ((y9 : ℕ) : Fp)) / ((x9 : ℕ) : Fp) ^ 3 = cy9 := by
  have h0 : ((x9 : ℕ) : Fp) ≠ 0 := cast_ne (by decide +kernel)
  refine ⟨h0, ?_, ?_⟩
  · have : ((4 : ℕ) : Fp) = ((cx9 * x9 ^ 2 : ℕ) : Fp) := by
      rw [ZMod.natCast_eq_natCast_iff']; decide +kernel
    push_cast at this
    rw [div_eq_iff (pow_ne_zero 2 h0)]
    exact this
  · have : ((4 * y9 + cy9 * x9 ^ 3 : ℕ) : Fp) = ((0 : ℕ) : Fp) := by
      rw [ZMod.natCast_eq_natCast_iff']; decide +kernel
    push_cast at this
    rw [div_eq_iff (pow_ne_zero 3 h0)]
    linear_combination -this

theorem S9_pt : IsPt (511 • Hpt) s9N := smul_spec H_pt 511 8 s9_check (by decide)

/-- the Miller values -/
theorem nine_values : ∃ z w : E12 Fp,
    millerLoop [enc1 (-G1gen), ⟨(cx9 : Fp), (cy9 : Fp)⟩] [enc2 (511 • Hpt), enc2 Hpt] = .ok (pure z) ∧
    z ^ ((fpOrder ^ 12 - 1) / rOrder) ≠ 1 ∧
    millerLoop [enc1 (-G1gen), enc1 (511 • G1gen)] [enc2 (511 • Hpt), enc2 Hpt] = .ok (pure w) ∧
    safeInput w ^ ((fpOrder ^ 6 - 1) * (fpOrder ^ 2 + 1)) ≠ 1 := by
  have h := nine_check
  simp only [Option.bind_eq_bind, Option.bind_eq_some_iff, Option.pure_def, Option.some.injEq, Bool.and_eq_true] at h
  obtain ⟨z1, h1, z2, h2, z3, h3, ⟨n1, n2⟩, n3⟩ := h
  have m1 := nMiller_spec h1
  have m2 := nMiller_spec h2
  have m3 := nMiller_spec h3
  refine ⟨e12 (mul12 z1 z2), e12 (mul12 z1 z3), ?_, ?_, ?_, easy_ne_of n2 n3⟩
  · rw [enc1_neg_gen, enc2_pt S9_pt, enc2_H, millerLoop_eq (by simp) rfl]
    refine congrArg Except.ok ?_
    simp only [List.zip_cons_cons, List.zip_nil_left, mapC]
    rw [show (⟨e2 s9N.1, e2 s9N.2⟩ : G2Affine Fp) = pt s9N from rfl, m1, m2]
    simp only [pure_bind, List.prod_cons, List.prod_nil, mul_one]
    rw [← e12_mul]
  · rw [← e12_pow _ exp_lt]
    exact (ne_one_of_c1 n1).1
  · rw [enc1_neg_gen, enc1_pt pt9, enc2_pt S9_pt, enc2_H, millerLoop_eq (by simp) rfl]
    refine congrArg Except.ok ?_
    simp only [List.zip_cons_cons, List.zip_nil_left, mapC]
    rw [show (⟨e2 s9N.1, e2 s9N.2⟩ : G2Affine Fp) = pt s9N from rfl, m1, m3]
    simp only [pure_bind, List.prod_cons, List.prod_nil, mul_one]
    rw [← e12_mul]

end Spark.Witness

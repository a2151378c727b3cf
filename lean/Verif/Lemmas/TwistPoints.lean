import Verif.Math.PointCount
import Verif.Math.NatJac
import Verif.Math.TwistPrime
import Verif.Math.Card
import Verif.Data.TwistPoints
import Verif.Lemmas.Cofactor
import Mathlib.Data.ZMod.Basic

/-! The order of the twist `E'(Fp2)`, its `r`-torsion, and the annihilator of cofactor clearing.

Explicit points of prime order generate a subgroup with more than half the points there can be, so
they generate everything; an endomorphism is then determined by its values on them. -/

namespace Spark.TwistPoints
open WeierstrassCurve Spec
open G2 (psiHom psiHom_pt bp e2_conj psiU_e2 psiV_e2 psiUN psiVN psi_gen)
set_option maxRecDepth 100000

/-- the curve equation on numbers -/
def onTwist (T : NC.NPt) : Bool :=
  NC.nz T.2 && NC.mul T.2 T.2 == NC.add (NC.mul T.1 (NC.mul T.1 T.1)) (4, 4)

theorem onTwist_eqn {T : NC.NPt} (h : onTwist T = true) :
    (NC.e2 T.2) ^ 2 = (NC.e2 T.1) ^ 3 + ⟨4, 4⟩ := by
  rw [onTwist, Bool.and_eq_true, beq_iff_eq] at h
  have := congrArg NC.e2 h.2
  rw [NC.e2_mul, NC.e2_add, NC.e2_mul, NC.e2_mul] at this
  have h4 : NC.e2 (4, 4) = ⟨4, 4⟩ := by rw [NC.e2, toE2_eq]; ext <;> simp
  rw [h4] at this
  rw [pow_two, this]; ring

/-- the point with the given coordinates -/
noncomputable def mk (T : NC.NPt) (h : onTwist T = true) : ETwist Fp :=
  .some (NC.e2 T.1) (NC.e2 T.2) (nonsingular_of two_ne_E2
    (NC.e2_nz (by rw [onTwist, Bool.and_eq_true] at h; exact h.1)) (onTwist_eqn h))

theorem mk_pt (T : NC.NPt) (h : onTwist T = true) : NC.IsPt (mk T h) T := ⟨_, rfl⟩
theorem mk_ne (T : NC.NPt) (h : onTwist T = true) : mk T h ≠ 0 := Affine.Point.some_ne_zero _

/-- `ψ` on numbers -/
def psiN (T : NC.NPt) : NC.NPt :=
  (NC.mul (T.1.1, (NC.neg T.1).2) psiUN, NC.mul (T.2.1, (NC.neg T.2).2) psiVN)

theorem psiN_spec {P : ETwist Fp} {T : NC.NPt} (h : NC.IsPt P T) : NC.IsPt (psiHom P) (psiN T) := by
  refine (psiHom_pt h).congr ?_ ?_
  · simp only [psiN, NC.e2_mul, e2_conj, psiU_e2]
  · simp only [psiN, NC.e2_mul, e2_conj, psiV_e2]

/-- the point with the opposite ordinate -/
def negN (T : NC.NPt) : NC.NPt := (T.1, NC.neg T.2)

theorem negN_spec {P : ETwist Fp} {T : NC.NPt} (h : NC.IsPt P T) : NC.IsPt (-P) (negN T) :=
  (Pt.neg h).congr rfl (NC.e2_neg _).symm

theorem order_of {P : ETwist Fp} {T : NC.NPt} (hP : NC.IsPt P T) {q i : ℕ} (h1 : 1 ≤ q)
    (h2 : NJ.smulCheck T (q - 1) i (negN T) = true) : q • P = 0 := by
  have h5 : (q - 1) • P = -P := Pt.ext (NJ.smul_spec two_ne_E2 hP h2) (negN_spec hP)
  calc q • P = (q - 1) • P + 1 • P := by rw [← add_nsmul, Nat.sub_add_cancel h1]
    _ = 0 := by rw [h5, one_nsmul, neg_add_cancel]

theorem psi_of {P : ETwist Fp} {T : NC.NPt} (hP : NC.IsPt P T) {l j : ℕ}
    (h : NJ.smulCheck T l j (psiN T) = true) : psiHom P = (l : ℤ) • P := by
  rw [natCast_zsmul]
  exact Pt.ext (psiN_spec hP) (NJ.smul_spec two_ne_E2 hP h)

theorem onM : onTwist ptM = true := by decide +kernel
theorem on2713 : onTwist pt2713 = true := by decide +kernel
theorem on11953 : onTwist pt11953 = true := by decide +kernel
theorem on262069 : onTwist pt262069 = true := by decide +kernel
theorem on13a : onTwist pt13a = true := by decide +kernel
theorem on13b : onTwist pt13b = true := by decide +kernel
theorem on23 : onTwist pt23 = true := by decide +kernel

theorem ordM : NJ.smulCheck ptM (bigM - 1) 447 (negN ptM) = true := by decide +kernel
theorem eigM : NJ.smulCheck ptM lamM 440 (psiN ptM) = true := by decide +kernel
theorem ord2713 : NJ.smulCheck pt2713 2712 11 (negN pt2713) = true := by decide +kernel
theorem eig2713 : NJ.smulCheck pt2713 lam2713 10 (psiN pt2713) = true := by decide +kernel
theorem ord11953 : NJ.smulCheck pt11953 11952 13 (negN pt11953) = true := by decide +kernel
theorem eig11953 : NJ.smulCheck pt11953 lam11953 11 (psiN pt11953) = true := by decide +kernel
theorem ord262069 : NJ.smulCheck pt262069 262068 17 (negN pt262069) = true := by decide +kernel
theorem eig262069 : NJ.smulCheck pt262069 lam262069 16 (psiN pt262069) = true := by decide +kernel
theorem ord13a : NJ.smulCheck pt13a 12 3 (negN pt13a) = true := by decide +kernel
theorem eig13a : NJ.smulCheck pt13a lam13a 2 (psiN pt13a) = true := by decide +kernel
theorem ord13b : NJ.smulCheck pt13b 12 3 (negN pt13b) = true := by decide +kernel
theorem eig13b : NJ.smulCheck pt13b lam13b 3 (psiN pt13b) = true := by decide +kernel
theorem ord23 : NJ.smulCheck pt23 22 4 (negN pt23) = true := by decide +kernel
theorem eig23 : NJ.smulCheck (psiN pt23) 16 4 psi16N = true := by decide +kernel
theorem add23 : NC.addP (psiN (psiN pt23)) pt23 = some psi16N := by decide +kernel

theorem bigM_prime : bigM.Prime := prime_402096035359507321594726366720466575392706800671181159425656785868777272553337714697862511267018014931937703598282857976535744623203249

theorem psi23 : psiHom (psiHom (mk pt23 on23)) = (16 : ℤ) • psiHom (mk pt23 on23) - mk pt23 on23 := by
  have h1 := psiN_spec (mk_pt pt23 on23)
  have h2 := NJ.smul_spec two_ne_E2 h1 eig23
  have h3 := NC.add_spec (psiN_spec h1) (mk_pt pt23 on23) add23
  rw [eq_sub_iff_add_eq, Pt.ext h3 h2, ← natCast_zsmul, Nat.cast_ofNat]

end Spark.TwistPoints

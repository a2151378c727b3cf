import Verif.Props.Groups
import Verif.Props.HashG2Examples

/-!
# C92: hashing to G2 without side conditions

The side conditions of C49, C53 and C57 made explicit: the affine cofactor clearing works exactly for the points it does
not send to infinity, these are counted, and 0 is the only exceptional input of the simplified SWU map.
-/

namespace Spark.HashProps
open Spark Circ Spec G2 CurveProps TwistPoints GroupProps
set_option maxRecDepth 100000

/-! ## The exceptional input of SWU -/

/-- **0 is the only exceptional input** of `MapElementToCurve2`. -/
theorem c53_only_zero (u : E2 Fp) :
    (Rfc.den u = 0 ↔ u = 0) ∧ ((mapElementToCurve2 u).Satisfiable ↔ u ≠ 0) := by
  have h : Rfc.den u = 0 ↔ u = 0 := by
    constructor
    · intro h
      by_contra hu
      have hZ : Rfc.Z ≠ 0 := fun e => Z_not_sq (e ▸ ⟨0, by simp⟩)
      have e : Rfc.Z * u ^ 2 * (Rfc.Z * u ^ 2 + 1) = 0 := by rw [← h, Rfc.den]; ring
      have e1 : Rfc.Z * u ^ 2 + 1 = 0 := (mul_eq_zero.1 e).resolve_left (mul_ne_zero hZ (pow_ne_zero 2 hu))
      refine Z_not_sq ⟨E2.u / u, ?_⟩
      have hi : (E2.u : E2 Fp) * E2.u = -1 := by ext <;> simp [E2.u]
      rw [div_mul_div_comm, hi, eq_div_iff (mul_ne_zero hu hu)]
      linear_combination e1
    · rintro rfl; simp [Rfc.den]
  refine ⟨h, fun ⟨q, hq⟩ hu => ?_, fun hu => ?_⟩
  · rw [mapElement_exceptional (h.2 hu)] at hq
    exact hq
  · obtain ⟨x, y, Q, r, -⟩ := mapIso_honest (fun e => hu (h.1 e))
    exact ⟨_, (mapElementToCurve2 u).ok _ r⟩

/-! ## Cofactor clearing on the whole twist -/

/-- the formula of cofactor clearing as an endomorphism -/
def bpG {G : Type} [AddCommGroup G] (f : G →+ G) (s : ℤ) : G →+ G where
  toFun P := (s ^ 2 - s - 1) • P + (s - 1) • f P + f (f (2 • P))
  map_zero' := by simp
  map_add' P Q := by
    simp only [zsmul_add, nsmul_add, map_add]
    abel

theorem bpG_comm {G : Type} [AddCommGroup G] (f : G →+ G) (s : ℤ) (P : G) : bpG f s (f P) = f (bpG f s P) := by
  simp only [bpG, AddMonoidHom.coe_mk, ZeroHom.coe_mk, map_add, map_zsmul, map_nsmul]

/-- cofactor clearing as an endomorphism of the twist -/
noncomputable def bpHom : ETwist Fp →+ ETwist Fp := bpG psiHom seed

theorem bpHom_apply (P : ETwist Fp) : bpHom P = bp P := rfl

theorem bpHom_psi (P : ETwist Fp) : bpHom (psiHom P) = psiHom (bpHom P) := bpG_comm psiHom seed P

/-- A point that is not sent to infinity is in general position: apply cofactor clearing to a coincidence. -/
theorem generic_of_bp {P : ETwist Fp} (h : bp P ≠ 0) : Generic P := by
  have g : Generic (bpHom P) := generic_of_subgroup (bp_order P) h (psi_of_order (bp_order P))
  refine ⟨fun m hm hle e => g.small m hm hle ?_, fun e => g.ne1 ?_, fun e => g.ne2 ?_, fun e => g.ne3 ?_,
    fun e => g.ne4 ?_⟩
  · rw [← map_nsmul, e, map_zero]
  all_goals
    have e' := congrArg bpHom e
    simpa only [map_add, map_neg, map_zsmul, map_nsmul, bpHom_psi] using e'

/-- **The affine cofactor clearing is defined exactly where its result is a finite point.** -/
theorem c92_defined {ψ : ETwist Fp →+ ETwist Fp} (hψ : IsPsi ψ) (P : ETwist Fp) :
    AffineDefined ψ P ↔ budroniPintore ψ P ≠ 0 := by
  obtain rfl := c48_unique hψ isPsi_psiHom
  refine ⟨fun h e => h.sub5.2 (eq_neg_of_add_eq_zero_left e), fun h => affineDefined_of (generic_of_bp h).affOk⟩

/-- **Both variants of cofactor clearing are forced to the formula, whatever the prover does**, for every point of the twist
they do not send to infinity. -/
theorem c92_exact {P : ETwist Fp} {p : G2Affine Fp} {j : G2Jacobian Fp} {ψ : ETwist Fp →+ ETwist Fp} (hψ : IsPsi ψ)
    (hP : Pt P p.X p.Y) (hJ : JacOf P j.X j.Y j.Z) (h : budroniPintore ψ P ≠ 0) :
    (∃ r, clearCofactorAff p = pure r ∧ Pt (budroniPintore ψ P) r.X r.Y) ∧
    (∃ r, clearCofactorJac j = pure r ∧ JacOf (budroniPintore ψ P) r.X r.Y r.Z) := by
  obtain rfl := c48_unique hψ isPsi_psiHom
  exact ⟨clearCofactorAff_sound hP (generic_of_bp h), clearCofactorJac_sound hJ (generic_of_bp h)⟩

/-- the cofactor: the twist has `cofactor · r` points -/
def cofactor : ℕ := twistOrder / rOrder

theorem cofactor_mul : rOrder * cofactor = twistOrder := by decide +kernel

theorem cofactor_coprime : Nat.Coprime cofactor rOrder := by decide +kernel

theorem eq_zero_of_coprime {G : Type} [AddCommGroup G] {a b : ℕ} {P : G} (ha : a • P = 0) (hb : b • P = 0)
    (h : Nat.Coprime a b) : P = 0 := by
  rw [← AddMonoid.addOrderOf_eq_one_iff]
  exact Nat.eq_one_of_dvd_coprimes h (addOrderOf_dvd_iff_nsmul_eq_zero.2 ha) (addOrderOf_dvd_iff_nsmul_eq_zero.2 hb)

theorem card_kernel {G : Type} [AddCommGroup G] [Finite G] {c r : ℕ} (hc : Nat.Coprime c r) {g : G}
    (hg : ∀ Q : G, r • Q = 0 ↔ Q ∈ AddSubgroup.zmultiples g) (ho : addOrderOf g = r) (h0 : 0 < r)
    (hk : Nat.card G = r * c) : Nat.card {P : G // c • P = 0} = c := by
  have hr : (nsmulAddMonoidHom (α := G) c).range = AddSubgroup.zmultiples g := by
    ext Q
    rw [← hg]
    constructor
    · rintro ⟨P, rfl⟩
      rw [nsmulAddMonoidHom_apply, ← mul_nsmul', ← hk]
      exact card_nsmul_eq_zero'
    · intro h
      refine ⟨Nat.gcdA c r • Q, ?_⟩
      have b := Nat.gcd_eq_gcd_ab c r
      rw [hc] at b
      have h' : ((r : ℤ) * Nat.gcdB c r) • Q = 0 := by
        rw [mul_comm, mul_zsmul, natCast_zsmul, h, zsmul_zero]
      have e : ((c : ℤ) * Nat.gcdA c r) • Q = Q := by
        have : ((1 : ℕ) : ℤ) • Q = Q := by simp
        rw [b, add_zsmul, h', add_zero] at this
        exact this
      rw [nsmulAddMonoidHom_apply, ← natCast_zsmul, ← mul_zsmul, e]
  have h1 := AddSubgroup.card_eq_card_quotient_mul_card_addSubgroup (nsmulAddMonoidHom (α := G) c).ker
  rw [Nat.card_congr (QuotientAddGroup.quotientKerEquivRange _).toEquiv, hr, Nat.card_zmultiples, ho, hk] at h1
  exact (Nat.eq_of_mul_eq_mul_left h0 h1).symm

theorem twist_smul (P : ETwist Fp) : rOrder • cofactor • P = 0 := by
  rw [← mul_nsmul', cofactor_mul, ← twist_card]
  exact card_nsmul_eq_zero'

/-- **The points sent to infinity** are those whose order divides the cofactor, and there are as many of them as the
cofactor says: one point in `r`. -/
theorem c92_kernel {ψ : ETwist Fp →+ ETwist Fp} (hψ : IsPsi ψ) :
    Nat.card (ETwist Fp) = rOrder * cofactor ∧
    (∀ P : ETwist Fp, budroniPintore ψ P = 0 ↔ cofactor • P = 0) ∧
    Nat.card {P : ETwist Fp // budroniPintore ψ P = 0} = cofactor := by
  obtain rfl := c48_unique hψ isPsi_psiHom
  have hk : ∀ P : ETwist Fp, budroniPintore psiHom P = 0 ↔ cofactor • P = 0 := by
    intro P
    constructor
    · intro h
      by_contra hn
      have e : (4 * seed ^ 2 - 2 * seed - 1) • (cofactor • P) = 0 := by
        rw [← bp_eigen psiHom seed (cofactor • P) (psi_of_order (twist_smul P))]
        have : bpHom (cofactor • P) = 0 := by rw [map_nsmul, bpHom_apply]; exact (congrArg _ h).trans (nsmul_zero _)
        exact this
      exact zsmul_ne_zero_of_order (twist_smul P) hn (by decide +kernel) e
    · intro h
      refine eq_zero_of_coprime (a := cofactor) (b := rOrder) ?_ (bp_order P) cofactor_coprime
      change cofactor • bpHom P = 0
      rw [← map_nsmul, h, map_zero]
  refine ⟨twist_card.trans cofactor_mul.symm, hk, ?_⟩
  simp only [hk]
  have : Fact rOrder.Prime := ⟨rOrder_prime⟩
  exact card_kernel cofactor_coprime mem_G2_iff (addOrderOf_eq_prime G2gen_order G2gen_ne)
    rOrder_prime.pos (twist_card.trans cofactor_mul.symm)

/-- non-vacuity: the standard generator is not sent to infinity, and a point of order 13 is -/
example : budroniPintore psiHom G2gen ≠ 0 ∧ ∃ P : ETwist Fp, P ≠ 0 ∧ budroniPintore psiHom P = 0 := by
  refine ⟨(c92_defined isPsi_psiHom _).1 (affineDefined_of generic_gen.affOk), ?_⟩
  obtain ⟨-, hk, -⟩ := c92_kernel isPsi_psiHom
  refine ⟨P13a, P13a_ne, (hk _).2 ?_⟩
  rw [show cofactor = (cofactor / 13) * 13 by decide +kernel, mul_nsmul', P13a_ord, nsmul_zero]

/-! ## Hashing -/

theorem twist_neg_ne {Q : ETwist Fp} (h : Q ≠ 0) : Q ≠ -Q := by
  intro e
  refine h (eq_zero_of_coprime (a := 2) (b := twistOrder) ?_ ?_ (by decide +kernel))
  · rw [two_nsmul]; exact add_eq_zero_iff_eq_neg.2 e
  · rw [← twist_card]; exact card_nsmul_eq_zero'

theorem reduce_tail (m : Circ (G2Affine Fp)) (k : G2Affine Fp → Circ (G2Affine Fp)) :
    (m >>= fun s => k s >>= fun s => e2Reduce s.X >>= fun x => e2Reduce s.Y >>= fun y => pure ⟨x, y⟩) = m >>= k := by
  simp only [e2Reduce_eq, pure_bind]
  have : ∀ s : G2Affine Fp, (⟨s.X, s.Y⟩ : G2Affine Fp) = s := fun s => rfl
  simp only [this, bind_pure]

/-- **C92.** `HashToG2` and `HashToG2OnJac` on every 32-byte message, honest prover: with `u0, u1` the two elements of
`hash_to_field(msg)`, both fail if one of these is 0; otherwise, with `Q0, Q1` their images on the twist, the Jacobian variant
returns the cofactor-cleared `Q0 + Q1` and fails exactly when that is infinity; and the affine variant does the same
for `Q0 ≠ Q1` whenever that is not infinity, and fails for `Q0 = -Q1`. -/
theorem c92_hash {msg : Vector Fips.Byte 32} {u0 u1 : E2 Fp} {ψ : ETwist Fp →+ ETwist Fp} (hψ : IsPsi ψ)
    (hu : Rfc.hashToFieldFp2 msg.toList (Rfc.ascii Rfc.dstString) 2 = some [u0, u1]) :
    (u0 = 0 ∨ u1 = 0 → (hashToG2 (msgVars msg)).run = none ∧ (hashToG2OnJac (msgVars msg)).run = none) ∧
    (u0 ≠ 0 → u1 ≠ 0 → ∃ Q0 Q1 : ETwist Fp, CodeMapsTo u0 Q0 ∧ CodeMapsTo u1 Q1 ∧
      (budroniPintore ψ (Q0 + Q1) = 0 → (hashToG2OnJac (msgVars msg)).run = none) ∧
      (budroniPintore ψ (Q0 + Q1) ≠ 0 → ∃ q, (hashToG2OnJac (msgVars msg)).run = some q ∧
        Pt (budroniPintore ψ (Q0 + Q1)) q.X q.Y ∧ (Q0 ≠ Q1 → (hashToG2 (msgVars msg)).run = some q)) ∧
      (Q0 = -Q1 → (hashToG2 (msgVars msg)).run = none)) := by
  refine ⟨fun h => c57_exceptional hu (h.imp (c53_only_zero _).1.2 (c53_only_zero _).1.2), fun h0 h1 => ?_⟩
  have h0' : Rfc.den u0 ≠ 0 := fun e => h0 ((c53_only_zero _).1.1 e)
  have h1' : Rfc.den u1 ≠ 0 := fun e => h1 ((c53_only_zero _).1.1 e)
  obtain rfl := c48_unique hψ isPsi_psiHom
  obtain ⟨x0, y0, Q0, r0, c0, i0, p0⟩ := mapIso_honest h0'
  obtain ⟨x1, y1, Q1, r1, c1, i1, p1⟩ := mapIso_honest h1'
  have hf := hashToField_run (n := 2) (by omega) (by omega) hu
  obtain ⟨j0, e0, hj0⟩ := jacFromAff_sound (q := ⟨Rfc.isoMapX x0, Rfc.isoMapY x0 y0⟩) p0 (Or.inl (twist_x_ne p0))
  obtain ⟨j1, e1, hj1⟩ := jacFromAff_sound (q := ⟨Rfc.isoMapX x1, Rfc.isoMapY x1 y1⟩) p1 (Or.inl (twist_x_ne p1))
  obtain ⟨s, es, hs⟩ := jacAdd_honest hj0 hj1
  obtain ⟨c, ec, hc⟩ := clearCofactorJac_honest hs
  have ej : (hashToG2OnJac (msgVars msg)).run = (affFromJac c).run := by
    rw [hashToG2OnJac_tail, run_bind, hf, Option.bind_some, hashTailJac, nth_zero, nth_one, pure_bind, run_bind, r0,
      Option.bind_some, pure_bind, run_bind, r1, Option.bind_some, i0, pure_bind, i1, pure_bind, e0, pure_bind, e1,
      pure_bind, run_bind, es, Option.bind_some, run_bind, ec, Option.bind_some]
  have ea : (hashToG2 (msgVars msg)).run =
      (affAdd ⟨Rfc.isoMapX x0, Rfc.isoMapY x0 y0⟩ ⟨Rfc.isoMapX x1, Rfc.isoMapY x1 y1⟩).run.bind
        fun s => (clearCofactorAff s).run := by
    rw [hashToG2_tail, run_bind, hf, Option.bind_some, hashTail, nth_zero, nth_one, pure_bind, run_bind, r0,
      Option.bind_some, pure_bind, run_bind, r1, Option.bind_some, i0, pure_bind, i1, pure_bind, reduce_tail, run_bind]
  refine ⟨Q0, Q1, codeMapsTo_of c0 p0, codeMapsTo_of c1 p1, fun hz => ?_, fun hne => ?_, fun h => ?_⟩
  · rw [ej]
    change bp (Q0 + Q1) = 0 at hz
    rw [hz] at hc
    exact affFromJac_run_zero hc
  · obtain ⟨q, eq, hq⟩ := affFromJac_sound hc hne
    refine ⟨q, by rw [ej, eq]; rfl, hq, fun hd => ?_⟩
    have h0 : Q0 + Q1 ≠ 0 := fun e => hne (by rw [e]; exact bpHom.map_zero)
    obtain ⟨s, es, hs⟩ := affAdd_sound (p := ⟨Rfc.isoMapX x0, Rfc.isoMapY x0 y0⟩)
      (q := ⟨Rfc.isoMapX x1, Rfc.isoMapY x1 y1⟩) p0 p1 hd h0
    obtain ⟨q', ec, hq'⟩ := clearCofactorAff_sound hs (generic_of_bp hne)
    rw [ea, es, run_pure, Option.bind_some, ec, run_pure]
    obtain ⟨e1, e2⟩ := Pt.unique hq hq'
    obtain ⟨qx, qy⟩ := q
    obtain ⟨qx', qy'⟩ := q'
    simp only at e1 e2
    rw [e1, e2]
  · subst h
    obtain ⟨ex, ey⟩ := Pt.unique p0 p1.neg
    rw [ea, c47_opposite_unsat (by exact ex) ?_]
    · rfl
    · intro e
      exact twist_neg_ne p1.ne_zero (p1.ext (p0.congr ex e))

/-- non-vacuity: an explicit message with non-zero field elements, different images and finite hash -/
theorem c92_example : ∃ u0 u1, Rfc.hashToFieldFp2 exMsg.toList (Rfc.ascii Rfc.dstString) 2 = some [u0, u1] ∧
    u0 ≠ 0 ∧ u1 ≠ 0 ∧ ∀ Q0 Q1, CodeMapsTo u0 Q0 → CodeMapsTo u1 Q1 →
      Q0 ≠ Q1 ∧ budroniPintore psiHom (Q0 + Q1) ≠ 0 := by
  obtain ⟨u0, u1, -, hu, h0, h1, -, -, h, -⟩ := c57_example
  exact ⟨u0, u1, hu, fun e => h0 ((c53_only_zero _).1.2 e), fun e => h1 ((c53_only_zero _).1.2 e), fun Q0 Q1 m0 m1 =>
    ⟨(h Q0 Q1 m0 m1).1, (c92_defined isPsi_psiHom _).1 (h Q0 Q1 m0 m1).2.2⟩⟩

/-- The same for the non-uniform encodings. -/
theorem c92_encode {msg : Vector Fips.Byte 32} {u : E2 Fp} {ψ : ETwist Fp →+ ETwist Fp} (hψ : IsPsi ψ)
    (hu : Rfc.hashToFieldFp2 msg.toList (Rfc.ascii Rfc.dstString) 1 = some [u]) :
    (u = 0 → (encodeToG2 (msgVars msg)).run = none ∧ (encodeToG2OnJac (msgVars msg)).run = none) ∧
    (u ≠ 0 → ∃ Q : ETwist Fp, CodeMapsTo u Q ∧
      (budroniPintore ψ Q = 0 → (encodeToG2OnJac (msgVars msg)).run = none) ∧
      (budroniPintore ψ Q ≠ 0 → ∃ q, (encodeToG2OnJac (msgVars msg)).run = some q ∧
        (encodeToG2 (msgVars msg)).run = some q ∧ Pt (budroniPintore ψ Q) q.X q.Y)) := by
  have hf := hashToField_run (n := 1) (by omega) (by omega) hu
  refine ⟨fun h => ?_, fun h => ?_⟩
  · have hd := (c53_only_zero u).1.2 h
    constructor
    · rw [encodeToG2_tail, run_bind, hf, Option.bind_some, encTail, nth_zero, pure_bind, mapElement_exceptional hd]; rfl
    · rw [encodeToG2OnJac_tail, run_bind, hf, Option.bind_some, encTailJac, nth_zero, pure_bind,
        mapElement_exceptional hd]; rfl
  · obtain ⟨Q, hm, hj, hz, ha⟩ := c57_encode_to_g2 hψ hu fun e => h ((c53_only_zero u).1.1 e)
    refine ⟨Q, hm, hz, fun hne => ?_⟩
    obtain ⟨q, e, hq⟩ := hj hne
    obtain ⟨q', e', hq'⟩ := ha ((c92_defined hψ Q).2 hne)
    obtain ⟨e1, e2⟩ := Pt.unique hq hq'
    have : q = q' := by
      obtain ⟨qx, qy⟩ := q
      obtain ⟨qx', qy'⟩ := q'
      simp only at e1 e2
      rw [e1, e2]
    exact ⟨q, e, this ▸ e', hq⟩

/-- For a given pair of honest images, everything after `MapElementToCurve2` is forced: **whatever the prover does** in the
isogenies, the addition and the cofactor clearing of `HashToG2`, it arrives at the cofactor-cleared sum of the two points,
unless these are equal or that sum is infinity. -/
theorem c92_after_map {p0 p1 : G2Affine Fp} {Q0 Q1 : ETwist Fp} {ψ : ETwist Fp →+ ETwist Fp} (hψ : IsPsi ψ)
    (h0 : p0.Y ^ 2 = p0.X ^ 3 + ⟨0, 240⟩ * p0.X + ⟨1012, 1012⟩) (h1 : p1.Y ^ 2 = p1.X ^ 3 + ⟨0, 240⟩ * p1.X + ⟨1012, 1012⟩)
    (hQ0 : Pt Q0 (Rfc.isoMapX p0.X) (Rfc.isoMapY p0.X p0.Y)) (hQ1 : Pt Q1 (Rfc.isoMapX p1.X) (Rfc.isoMapY p1.X p1.Y))
    (hne : Q0 ≠ Q1) (hb : budroniPintore ψ (Q0 + Q1) ≠ 0) :
    ∃ q, (do let q0 ← g2Isogeny p0
             let q1 ← g2Isogeny p1
             let s ← affAdd q0 q1
             clearCofactorAff s) = pure q ∧ Pt (budroniPintore ψ (Q0 + Q1)) q.X q.Y := by
  obtain rfl := c48_unique hψ isPsi_psiHom
  have h0' : Q0 + Q1 ≠ 0 := fun e => hb (by rw [e]; exact bpHom.map_zero)
  obtain ⟨s, es, hs⟩ := affAdd_sound (p := ⟨Rfc.isoMapX p0.X, Rfc.isoMapY p0.X p0.Y⟩)
    (q := ⟨Rfc.isoMapX p1.X, Rfc.isoMapY p1.X p1.Y⟩) hQ0 hQ1 hne h0'
  obtain ⟨q, ec, hq⟩ := clearCofactorAff_sound hs (generic_of_bp hb)
  refine ⟨q, ?_, hq⟩
  obtain ⟨x0, y0⟩ := p0
  obtain ⟨x1, y1⟩ := p1
  rw [(c54_isogeny h0).1, pure_bind, (c54_isogeny h1).1, pure_bind, es, pure_bind, ec]

end Spark.HashProps

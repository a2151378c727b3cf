import Verif.Lemmas.Exception
import Verif.Lemmas.MillerEval
import Mathlib.GroupTheory.SpecificGroups.Cyclic

/-!
# Properties C86, C87: the inputs the final exponentiation rejects, and pairings that cancel

`Exceptional e` is a condition on the coordinates of `e ∈ Fp12` alone (`Fp12 = Fp6[w]`, `Fp6 = Fp2[v]`,
`e = C0 + C1·w`, `⟨0, 0, b⟩ = b·v²`).
-/

namespace Spark.ExceptionProps
open Spark Circ Spec Pairing FinalExpProps PairingProps
set_option maxRecDepth 100000

/-! ## C86 -/

/-- `C0 = C1·b·v²` for some `b ∈ Fp2` (`C0 = b·v²` when `C1 = 0`). -/
def Exceptional (e : E12 Fp) : Prop :=
  ∃ b : E2 Fp, e.C0 = (if e.C1 = 0 then 1 else e.C1) * ⟨0, 0, b⟩

theorem exceptional_zero {e : E12 Fp} (h : e.C1 = 0) : Exceptional e ↔ e.C0.B0 = 0 ∧ e.C0.B1 = 0 := by
  unfold Exceptional
  simp only [if_pos h, one_mul]
  constructor
  · rintro ⟨b, hb⟩; rw [hb]; exact ⟨rfl, rfl⟩
  · rintro ⟨h0, h1⟩; exact ⟨e.C0.B2, by ext1 <;> simp [h0, h1]⟩

theorem exceptional_easy (e : E12 Fp) :
    Exceptional e ↔ safeInput e ^ ((fpOrder ^ 6 - 1) * (fpOrder ^ 2 + 1)) = 1 := by
  by_cases h : e.C1 = 0
  · have he : (⟨e.C0, 1⟩ : E12 Fp) ≠ 0 := fun h => one_ne_zero (congrArg E12.C1 h)
    rw [exceptional_zero h, safeInput, if_pos h, ← easy_eq he, Torus.easy_C1_one]
  · have he : e ≠ 0 := fun h' => h (by rw [h']; rfl)
    rw [safeInput, if_neg h, ← easy_eq he, Torus.easy_one_iff h, Exceptional]
    simp only [if_neg h]

/-- `FinalExponentiation` can be proved exactly for the inputs that are not exceptional; then the honest prover
succeeds and, unless the input is 0 (which is exceptional), the result is `e^(3(p¹²-1)/r)`. -/
theorem c86_safe (e : E12 Fp) :
    ((finalExp e).Satisfiable ↔ ¬ Exceptional e) ∧
    (¬ Exceptional e → ∃ e', finalExp e = pure (e ^ fullExponent, e')) ∧
    (Exceptional e → finalExp e = fail) := by
  have h1 : (finalExp e).Satisfiable ↔ ¬ Exceptional e := by
    rw [finalExp_satisfiable, exceptional_easy]
  refine ⟨h1, fun hne => ?_, fun hx => eq_fail fun a ha => h1.1 ⟨a, ha⟩ hx⟩
  by_cases h : e.C1 = 0
  · have he : e ≠ 0 := by
      rintro rfl
      exact hne ((exceptional_zero rfl).2 ⟨rfl, rfl⟩)
    refine ⟨⟨e.C0, 1⟩, ?_⟩
    rw [subfield_pow he h]
    refine (c36_safe_subfield_all e h).1 ?_
    have := (exceptional_easy e).not.1 hne
    rwa [safeInput, if_pos h] at this
  · exact ⟨e, c35_safe_exact_of_satisfiable e h (h1.2 hne)⟩

/-- Of the `p¹²` inputs exactly `p⁸` are rejected, whatever the prover does. -/
theorem c86_safe_count : Nat.card {e : E12 Fp // ¬ (finalExp e).Satisfiable} = fpOrder ^ 8 := by
  have e1 : {e : E12 Fp // ¬ (finalExp e).Satisfiable} ≃ {e : E12 Fp // Exceptional e} :=
    Equiv.subtypeEquivRight fun e => by rw [(c86_safe e).1, not_not]
  have key : ∀ c : E6 Fp, ∃ u : E6 Fp, u ≠ 0 ∧ ∀ a, Exceptional ⟨a, c⟩ ↔ ∃ b : E2 Fp, a = u * ⟨0, 0, b⟩ := by
    intro c
    by_cases hc : c = 0
    · exact ⟨1, one_ne_zero, fun a => by unfold Exceptional; dsimp only; rw [if_pos hc]⟩
    · exact ⟨c, hc, fun a => by unfold Exceptional; dsimp only; rw [if_neg hc]⟩
  choose u hu0 hu using key
  let f : E6 Fp × E2 Fp → {e : E12 Fp // Exceptional e} := fun x =>
    ⟨⟨u x.1 * ⟨0, 0, x.2⟩, x.1⟩, (hu x.1 _).2 ⟨x.2, rfl⟩⟩
  have hf : Function.Bijective f := by
    constructor
    · rintro ⟨c, b⟩ ⟨c', b'⟩ h
      have h1 := congrArg (fun e => e.1.C1) h
      have h0 := congrArg (fun e => e.1.C0) h
      dsimp only [f] at h0 h1
      subst h1
      have := mul_left_cancel₀ (hu0 c) h0
      exact Prod.ext rfl (congrArg E6.B2 this)
    · rintro ⟨⟨a, c⟩, he⟩
      obtain ⟨b, hb⟩ := (hu c a).1 he
      exact ⟨(c, b), Subtype.ext (E12.ext hb.symm rfl)⟩
  rw [Nat.card_congr e1, ← Nat.card_congr (Equiv.ofBijective f hf), Nat.card_prod, Nat.card_congr (E6.equiv Fp),
    Nat.card_prod, Nat.card_prod, Nat.card_congr (E2.equiv Fp), Nat.card_prod]
  have : Nat.card Fp = fpOrder := Nat.card_zmod fpOrder
  rw [this]; ring

/-- `FinalExponentiationUnsafe` can be proved exactly for 0 and for the inputs whose reduced value is not 1. -/
theorem c86_unsafe (e : E12 Fp) :
    (finalExpUnsafeExported e).Satisfiable ↔ e = 0 ∨ e ^ ((fpOrder ^ 12 - 1) / rOrder) ≠ 1 := by
  by_cases he : e = 0
  · subst he
    refine ⟨fun _ => Or.inl rfl, fun _ => ?_⟩
    obtain ⟨g, hg, h⟩ := exists_full_order
    refine ⟨_, c36_unsafe_zero_free g (g ^ fullExponent) ?_⟩
    rw [(c35_exact g hg h).2]
    rfl
  · by_cases h : e ^ ((fpOrder ^ 12 - 1) / rOrder) = 1
    · rw [(c35_unsafe_all e he).2 h]
      exact ⟨fun ⟨_, hs⟩ => hs.elim, fun h' => absurd h (h'.resolve_left he)⟩
    · rw [(c35_unsafe_all e he).1 h]
      exact ⟨fun _ => Or.inr h, fun _ => ⟨_, rfl⟩⟩

/-- Of the `p¹²` inputs exactly `(p¹²-1)/r` are rejected. -/
theorem c86_unsafe_count :
    Nat.card {e : E12 Fp // ¬ (finalExpUnsafeExported e).Satisfiable} = (fpOrder ^ 12 - 1) / rOrder := by
  have e1 : {e : E12 Fp // ¬ (finalExpUnsafeExported e).Satisfiable} ≃
      (powMonoidHom ((fpOrder ^ 12 - 1) / rOrder) : (E12 Fp)ˣ →* (E12 Fp)ˣ).ker :=
    { toFun := fun e => ⟨Units.mk0 e.1 fun h => e.2 ((c86_unsafe e.1).2 (Or.inl h)), by
        rw [MonoidHom.mem_ker, powMonoidHom_apply]
        ext1
        rw [Units.val_pow_eq_pow_val, Units.val_mk0, Units.val_one]
        by_contra h
        exact e.2 ((c86_unsafe e.1).2 (Or.inr h))⟩
      invFun := fun u => ⟨u.1, fun hs => by
        have hu := u.2
        rw [MonoidHom.mem_ker, powMonoidHom_apply] at hu
        have hu' := congrArg Units.val hu
        rw [Units.val_pow_eq_pow_val, Units.val_one] at hu'
        rcases (c86_unsafe _).1 hs with h | h
        · exact u.1.ne_zero h
        · exact h hu'⟩
      left_inv := fun e => rfl
      right_inv := fun u => by ext1; ext1; rfl }
  rw [Nat.card_congr e1, IsCyclic.card_powMonoidHom_ker, card_units]
  exact Nat.gcd_eq_right (Nat.div_dvd_of_dvd (by decide +kernel))

/-- A product of pairings equal to 1 is accepted by `PairingCheck`, except when the Miller value is exceptional; then
no prover can have it accepted. -/
theorem c86_pairingCheck (L : List (E1 Fp × ETwist Fp)) (h2 : 2 ≤ L.length) (h : ∀ x ∈ L, GoodPair x) :
    ∃ z, millerLoop (L.map fun x => enc1 x.1) (L.map fun x => enc2 x.2) = .ok (pure z) ∧
      pairingCheck (L.map fun x => enc1 x.1) (L.map fun x => enc2 x.2) =
        .ok (open Classical in if ateProd L = 1 ∧ ¬ Exceptional z then pure () else fail) := by
  by_cases h1 : ateProd L = 1
  · obtain ⟨z, c, hm, hc, hp, hf⟩ := c43_complete_easy L h2 h h1
    refine ⟨z, hm, ?_⟩
    rw [hc]
    congr 1
    by_cases hx : Exceptional z
    · rw [if_neg fun h => h.2 hx]; exact hf ((exceptional_easy z).1 hx)
    · rw [if_pos ⟨h1, hx⟩]; exact hp fun h' => hx ((exceptional_easy z).2 h')
  · have h0 : L ≠ [] := by rintro rfl; simp at h2
    obtain ⟨zs, e, -, -⟩ := miller_good_list L h
    refine ⟨zs.prod, by rw [millerLoop_eq (by simpa using h0) (by simp), e, pure_bind], ?_⟩
    rw [check_of_pair (c40_pair_exact L h0 h h1), if_neg fun h => h1 h.1, pure_bind, assert_false]
    intro h3
    obtain ⟨z, hz, hv, -⟩ := pair_eq L h0 h
    rw [← hv] at h1 h3
    exact h1 (pow_three_eq_one (order_r hz) h3)

/-- Exceptional and other inputs, in the subfield and outside it. -/
example : Exceptional ⟨⟨0, 0, 5⟩, 0⟩ ∧ Exceptional ⟨⟨0, 0, 5⟩, 1⟩ ∧ ¬ Exceptional 1 ∧
    ∃ e : E12 Fp, e.C1 ≠ 0 ∧ ¬ Exceptional e := by
  refine ⟨(exceptional_zero rfl).2 ⟨rfl, rfl⟩, ⟨5, ?_⟩, fun h => ?_, ?_⟩
  · show _ = (if (1 : E6 Fp) = 0 then 1 else 1) * _
    rw [ite_self, one_mul]
  · exact one_ne_zero ((exceptional_zero rfl).1 h).1
  · obtain ⟨g, hg, h⟩ := exists_full_order
    refine ⟨g, C1_ne hg h, (c86_safe g).1.1 ⟨(g ^ fullExponent, g), ?_⟩⟩
    rw [(c35_exact g hg h).1]; rfl

/-! ## C87 -/

/-- `(P, Q) ↦ (-P, Q)` on coordinates -/
def negG1 (P : G1Affine Fp) : G1Affine Fp := ⟨P.X, -P.Y⟩

/-- it is negation in the group -/
theorem enc1_neg (P : E1 Fp) : enc1 (-P) = negG1 (enc1 P) := by
  rcases P with _ | ⟨x, y, h⟩
  · show (⟨0, 0⟩ : G1Affine Fp) = ⟨0, -0⟩
    rw [neg_zero]
  · show (⟨x, _⟩ : G1Affine Fp) = ⟨x, -y⟩
    simp [WeierstrassCurve.Affine.negY, sw]

/-- `∏ zᵢ · ∏ (-z̄ᵢ)` -/
theorem prod_neg_conj (zs : List (E12 Fp)) :
    (zs ++ zs.map fun z => -E12.conj z).prod = (-1) ^ zs.length * (zs.prod * E12.conj zs.prod) := by
  rw [List.prod_append, conj_prod]
  have : (zs.map fun z => -E12.conj z).prod = (-1) ^ zs.length * (zs.map E12.conj).prod := by
    induction zs with
    | nil => simp
    | cons z zs ih => rw [List.map_cons, List.prod_cons, ih, List.map_cons, List.prod_cons, List.length_cons]; ring
  rw [this]; ring

theorem mapC_append {α β : Type} (f : α → Circ β) (l m : List α) :
    mapC f (l ++ m) = (mapC f l >>= fun a => mapC f m >>= fun b => pure (a ++ b)) := by
  induction l with
  | nil => simp [mapC]
  | cons x l ih => simp only [List.cons_append, mapC, ih, bind_assoc, pure_bind]

/-- The norm of `z` to `Fp6`, as an element of `Fp6`. -/
def norm6 (z : E12 Fp) : E6 Fp := (z * E12.conj z).C0

theorem norm6_spec (z : E12 Fp) : z * E12.conj z = ⟨norm6 z, 0⟩ := by
  ext1
  · rfl
  · rw [E12.C1_mul]; simp; ring

/-- A product of pairings with every pair `(P, Q)` accompanied by `(-P, Q)` - the honest way of cancelling it - is
accepted by `PairingCheck`, unless the norm to `Fp6` of the Miller value of the original pairs is a multiple of `v²` by
an element of `Fp2`; then nobody can have it accepted. -/
theorem c87_cancel (L : List (E1 Fp × ETwist Fp)) (h0 : L ≠ []) (h : ∀ x ∈ L, GoodPair x) :
    ∃ z, millerLoop (L.map fun x => enc1 x.1) (L.map fun x => enc2 x.2) = .ok (pure z) ∧
      pairingCheck ((L.map fun x => enc1 x.1) ++ L.map fun x => enc1 (-x.1))
        ((L.map fun x => enc2 x.2) ++ L.map fun x => enc2 x.2) =
        .ok (open Classical in if (norm6 z).B0 = 0 ∧ (norm6 z).B1 = 0 then fail else pure ()) := by
  obtain ⟨zs, e, hz, -⟩ := miller_good_list L h
  refine ⟨zs.prod, by rw [millerLoop_eq (by simpa using h0) (by simp), e, pure_bind], ?_⟩
  have hlen : zs.length = L.length := by
    have := (sat_mapC _ _ zs).1 (by rw [e]; rfl)
    rw [← this.length_eq]; simp
  have e2 : mapC miller1 ((L.map fun x => enc1 (-x.1)).zip (L.map fun x => enc2 x.2)) =
      pure (zs.map fun z => -E12.conj z) := by
    have h1 : ((L.map fun x => enc1 (-x.1)).zip (L.map fun x => enc2 x.2)) =
        ((L.map fun x => enc1 x.1).zip (L.map fun x => enc2 x.2)).map fun y => (negG1 y.1, y.2) := by
      clear * -
      induction L with
      | nil => rfl
      | cons x L ih => rw [List.map_cons, List.map_cons, List.zip_cons_cons, ih, List.map_cons, List.zip_cons_cons, List.map_cons,
          enc1_neg]
    rw [h1, mapC_map]
    have h2 : (fun y : G1Affine Fp × G2Affine Fp => miller1 (negG1 y.1, y.2)) =
        fun y => miller1 y >>= fun z => pure (-E12.conj z) := funext fun y => miller1_neg y.1 y.2
    rw [h2, mapC_pure, e, pure_bind]
  have e3 : mapC miller1 (((L.map fun x => enc1 x.1) ++ L.map fun x => enc1 (-x.1)).zip
      ((L.map fun x => enc2 x.2) ++ L.map fun x => enc2 x.2)) = pure (zs ++ zs.map fun z => -E12.conj z) := by
    rw [List.zip_append (by simp), mapC_append, e, e2, pure_bind, pure_bind]
  obtain ⟨N, hx, hN⟩ : ∃ N : E6 Fp, (Exceptional ⟨N, 0⟩ ↔ (norm6 zs.prod).B0 = 0 ∧ (norm6 zs.prod).B1 = 0) ∧
      (zs ++ zs.map fun z => -E12.conj z).prod = ⟨N, 0⟩ := by
    rw [prod_neg_conj, norm6_spec]
    generalize norm6 zs.prod = M
    rcases neg_one_pow_eq_or (E12 Fp) zs.length with h | h
    · exact ⟨M, exceptional_zero rfl, by rw [h, one_mul]⟩
    · refine ⟨-M, ?_, ?_⟩
      · rw [exceptional_zero rfl]; simp
      · rw [h, neg_one_mul]; ext1 <;> simp
  have hm : millerLoop ((L.map fun x => enc1 x.1) ++ L.map fun x => enc1 (-x.1))
      ((L.map fun x => enc2 x.2) ++ L.map fun x => enc2 x.2) =
        .ok (pure ⟨N, 0⟩) := by
    rw [millerLoop_eq (by simpa using h0) (by simp), e3, pure_bind, hN]
  have hl : (((L.map fun x => enc1 x.1) ++ L.map fun x => enc1 (-x.1)).length == 1) = false := by
    have := List.length_pos_iff.2 h0
    rw [beq_eq_false_iff_ne, List.length_append, List.length_map, List.length_map]; omega
  have hp : pair ((L.map fun x => enc1 x.1) ++ L.map fun x => enc1 (-x.1))
      ((L.map fun x => enc2 x.2) ++ L.map fun x => enc2 x.2) =
        .ok (finalExp ⟨N, 0⟩ >>= fun r => pure r.1) := by
    rw [pair, hm]
    simp only [pure_bind, hl]
    rfl
  rw [check_of_pair hp]
  refine congrArg Except.ok ?_
  generalize hE : (⟨N, 0⟩ : E12 Fp) = E at hx
  have hE1 : E.C1 = 0 := by rw [← hE]
  by_cases hc : Exceptional E
  · rw [(c86_safe E).2.2 hc, if_pos (hx.1 hc), fail_bind, fail_bind]
  · obtain ⟨e', he'⟩ := (c86_safe E).2.1 hc
    have hE0 : E ≠ 0 := by
      rintro rfl
      exact hc ((exceptional_zero hE1).2 ⟨rfl, rfl⟩)
    rw [if_neg (hx.not.1 hc), he', pure_bind, pure_bind, assert_true (subfield_pow hE0 hE1)]

/-- `PairingCheckCircuit` of the repository's tests (`pairing_test.go:131-163`) on points `P`, `-P`: two pairs. -/
theorem c87_four (P : E1 Fp) (Q R : ETwist Fp) (hP : P ≠ 0) (hQ : Q ≠ 0) (hR : R ≠ 0) (hQr : rOrder • Q = 0)
    (hRr : rOrder • R = 0) :
    ∃ z, millerLoop [enc1 P, enc1 P] [enc2 Q, enc2 R] = .ok (pure z) ∧
      pairingCheck [enc1 P, enc1 P, enc1 (-P), enc1 (-P)] [enc2 Q, enc2 R, enc2 Q, enc2 R] =
        .ok (open Classical in if (norm6 z).B0 = 0 ∧ (norm6 z).B1 = 0 then fail else pure ()) := by
  refine c87_cancel [(P, Q), (P, R)] (by simp) ?_
  intro x hx
  simp only [List.mem_cons, List.not_mem_nil, or_false] at hx
  rcases hx with rfl | rfl
  · exact ⟨hP, hQ, hQr⟩
  · exact ⟨hP, hR, hRr⟩

/-- the norm is not such a multiple of `v²`: the Miller value at the generators -/
theorem norm_gen : ((NC.nMiller gen1x gen1y genN).map fun z => (NC.mul12 z (NC.conj12 z)).c0.1 % fpOrder != 0) = some true := by
  decide +kernel

/-- The standard generators: `e(g₁, g₂)·e(-g₁, g₂) = 1` is accepted (`FinalExponentiationSafeCircuit`,
`pairing_test.go:166-200`). -/
theorem c87_generators :
    pairingCheck [enc1 G1gen, enc1 (-G1gen)] [enc2 G2gen, enc2 G2gen] = .ok (pure ()) := by
  obtain ⟨z, hm, hc⟩ := c87_cancel [(G1gen, G2gen)] (by simp) (by simpa using goodPair_gen)
  have h := norm_gen
  rcases hn : NC.nMiller gen1x gen1y genN with _ | n
  · rw [hn] at h; cases h
  rw [hn] at h
  simp only [Option.map_some, Option.some.injEq, bne_iff_ne, ne_eq] at h
  have hs := NC.nMiller_spec hn
  have hz : z = NC.e12 n := by
    have h1 := millerLoop_one (enc1 G1gen) (enc2 G2gen)
    have h2 : millerLoop [enc1 G1gen] [enc2 G2gen] = .ok (pure z) := hm
    have h3 : miller1 (enc1 G1gen, enc2 G2gen) = pure (NC.e12 n) := hs
    rw [h3, h2] at h1
    have := congrArg Circ.run (Except.ok.inj h1)
    exact Option.some.inj this
  have hB : (norm6 z).B0 ≠ 0 := by
    rw [hz, norm6, ← NC.e12_conj, ← NC.e12_mul]
    generalize NC.mul12 n (NC.conj12 n) = m at h
    intro h0
    exact cast_ne h (congrArg E2.A0 h0)
  have hc' : pairingCheck [enc1 G1gen, enc1 (-G1gen)] [enc2 G2gen, enc2 G2gen] = _ := hc
  rw [hc', if_neg fun h => hB h.1]

end Spark.ExceptionProps

import Verif.Lemmas.PoseidonMds
import Verif.Props.Poseidon
import Verif.Props.Api

/-!
# C96: the Poseidon permutation loses nothing

The matrix of every supported width is MDS, the permutation is a bijection of the state space, `PoseidonEx` asked for
the whole state is injective and onto, and every value of the first output element is taken equally often.
-/

namespace Spark.PoseidonProps

open Poseidon

/-- **C96, matrix.** For every supported number of inputs, every square submatrix (rows `r`, columns `c`, no repetition,
of any size) of the matrix table the code holds for that width is invertible: the matrix is MDS. -/
theorem c96_mds (n : ℕ) (h1 : 1 ≤ n) (h2 : n ≤ 16) : ∃ m, tableM (n + 1) = some m ∧
    ∀ (k : ℕ) (r c : Fin k → Fin (n + 1)), Function.Injective r → Function.Injective c →
      (Matrix.of fun i j : Fin k => (((m.getD (r i) []).getD (c j) 0 : ℕ) : Fr)).det ≠ 0 := by
  obtain ⟨rp, N, consts, points, e1, e2, -⟩ := poseidonEx_text n h1 h2
  obtain ⟨hx, hy, h0, m, hm, hM⟩ := points_facts n h1 h2 rp e1 N consts points e2
  refine ⟨m, hm, fun k r c hr hc => ?_⟩
  have : (Matrix.of fun i j : Fin k => (((m.getD (r i) []).getD (c j) 0 : ℕ) : Fr)) = (Matrix.of fun j i : Fin k =>
      (((points.getD (c j) 0 : ℕ) : Fr) + ((points.getD (n + 1 + r i) 0 : ℕ) : Fr))⁻¹).transpose := by
    ext i j
    exact congrFun (congrFun hM (c j)) (r i)
  rw [this, Matrix.det_transpose]
  exact cauchy_det (hx.comp hc) (hy.comp hr) fun i j => h0 _ _

/-- The S-box of one element is injective. -/
theorem pow5_inj {x y : Fr} (h : x ^ 5 = y ^ 5) : x = y :=
  UtilProps.c93_sigma.2.1 (by rw [UtilProps.c93_sigma.1, UtilProps.c93_sigma.1, h])

/-- a round with an invertible matrix is injective -/
theorem round_inj {t : ℕ} {M : Matrix (Fin t) (Fin t) Fr} (hM : M.det ≠ 0) (consts : List ℕ) (rp k : ℕ) :
    Function.Injective fun x => PosSpec.round M consts rp x k := by
  have hi : Function.Injective M.mulVec := fun v w h => by
    by_contra hne
    exact hM (Matrix.exists_mulVec_eq_zero_iff.1 ⟨v - w, sub_ne_zero.2 hne, by rw [Matrix.mulVec_sub, h, sub_self]⟩)
  intro x y h
  simp only [PosSpec.round] at h
  split at h
  · have h := hi h
    funext i
    have h := congrFun h i
    split at h
    · exact add_right_cancel (pow5_inj h)
    · exact add_right_cancel h
  · have h := hi h
    funext i
    exact add_right_cancel (pow5_inj (congrFun h i))

/-- **C96, permutation.** For every supported number of inputs, with the constants and Cauchy points of the reference
generator, the Poseidon permutation is a bijection of the state space. -/
theorem c96_bijective (n : ℕ) (h1 : 1 ≤ n) (h2 : n ≤ 16) (rp : ℕ) (hrp : PosSpec.partialRounds[n - 1]? = some rp) (N : ℕ)
    (consts points : List ℕ) (href : PosSpec.reference (n + 1) rp N = some (consts, points)) :
    Function.Bijective (PosSpec.permutation consts points rp : (Fin (n + 1) → Fr) → Fin (n + 1) → Fr) := by
  obtain ⟨hx, hy, h0, -⟩ := points_facts n h1 h2 rp hrp N consts points href
  have hM : (PosSpec.cauchy points : Matrix (Fin (n + 1)) (Fin (n + 1)) Fr).det ≠ 0 := cauchy_det hx hy h0
  refine Finite.injective_iff_bijective.1 ?_
  have : ∀ l : List ℕ, Function.Injective fun x : Fin (n + 1) → Fr =>
      l.foldl (PosSpec.round (PosSpec.cauchy points) consts rp) x := by
    intro l
    induction l with
    | nil => exact fun x y h => h
    | cons a l ih => exact ih.comp (round_inj hM consts rp a)
  exact this _

/-- **C96, API.** Asked for the whole state, `PoseidonEx` on `1..16` inputs is injective in the inputs and the initial
state together, and every list of `n + 1` field elements is the output for some inputs and initial state. -/
theorem c96_api (n : ℕ) (h1 : 1 ≤ n) (h2 : n ≤ 16) :
    (∀ (x y : List Fr) (i j : Fr), x.length = n → y.length = n →
      poseidonEx x i (n + 1) = poseidonEx y j (n + 1) → x = y ∧ i = j) ∧
    (∀ out : List Fr, out.length = n + 1 → ∃ x i, x.length = n ∧ poseidonEx x i (n + 1) = some out) := by
  obtain ⟨rp, N, consts, points, e1, e2, h⟩ := poseidonEx_text n h1 h2
  have hb := c96_bijective n h1 h2 rp e1 N consts points e2
  have h : ∀ (x : Fin n → Fr) i, poseidonEx (List.ofFn x) i (n + 1) =
      some (List.ofFn (PosSpec.permutation consts points rp (Fin.cons i x : Fin (n + 1) → Fr))) := fun x i =>
    h x i (n + 1) le_rfl
  constructor
  · intro x y i j hx hy e
    obtain ⟨x, rfl⟩ : ∃ f : Fin n → Fr, List.ofFn f = x := by
      subst hx; exact ⟨x.get, List.ofFn_get x⟩
    obtain ⟨y, rfl⟩ : ∃ f : Fin n → Fr, List.ofFn f = y := by
      subst hy; exact ⟨y.get, List.ofFn_get y⟩
    rw [h, h] at e
    have e := hb.1 (List.ofFn_injective (Option.some.inj e))
    obtain ⟨e1, e2⟩ := Fin.cons_injective2 e
    exact ⟨by rw [e2], e1⟩
  · intro out ho
    obtain ⟨o, rfl⟩ : ∃ f : Fin (n + 1) → Fr, List.ofFn f = out := by
      obtain rfl : n = out.length - 1 := by omega
      obtain ⟨a, l, rfl⟩ := List.exists_cons_of_length_eq_add_one ho
      exact ⟨(a :: l).get, List.ofFn_get _⟩
    obtain ⟨s, hs⟩ := hb.2 o
    refine ⟨List.ofFn (Fin.tail s), s 0, List.length_ofFn, ?_⟩
    rw [h, Fin.cons_self_tail, hs]

/-- **C96, balance.** Over all initial states and inputs, `PoseidonEx` returns every first element equally often: for
`n` inputs exactly `q ^ n` of the `q ^ (n + 1)` calls give the digest `d`, whatever `d` is. -/
theorem c96_balanced (n : ℕ) (h1 : 1 ≤ n) (h2 : n ≤ 16) (d : Fr) :
    Nat.card {s : Fr × (Fin n → Fr) // poseidonEx (List.ofFn s.2) s.1 1 = some [d]} = frOrder ^ n := by
  obtain ⟨rp, N, consts, points, e1, e2, h⟩ := poseidonEx_text n h1 h2
  have hb := c96_bijective n h1 h2 rp e1 N consts points e2
  have h : ∀ s : Fr × (Fin n → Fr), poseidonEx (List.ofFn s.2) s.1 1 = some [d] ↔
      PosSpec.permutation consts points rp (Fin.cons s.1 s.2 : Fin (n + 1) → Fr) 0 = d := fun s => by
    rw [h s.2 s.1 1 (by omega)]
    simp
  have e : {s : Fr × (Fin n → Fr) // poseidonEx (List.ofFn s.2) s.1 1 = some [d]} ≃ (Fin n → Fr) :=
    ((Fin.consEquiv fun _ => Fr).subtypeEquiv (q := fun s => PosSpec.permutation consts points rp s 0 = d) h).trans <|
    ((Equiv.ofBijective _ hb).subtypeEquiv (q := fun s => s 0 = d) fun s => Iff.rfl).trans
      { toFun := fun s => Fin.tail s.1
        invFun := fun x => ⟨Fin.cons d x, rfl⟩
        left_inv := fun ⟨s, hs⟩ => Subtype.ext (by subst hs; exact Fin.cons_self_tail s)
        right_inv := fun x => rfl }
  rw [Nat.card_congr e, Nat.card_eq_fintype_card, Fintype.card_fun, Fintype.card_fin, ZMod.card]

/-- C96 on a concrete case: exchanging two inputs changes the full state -/
example : poseidonEx [1, 2] 0 3 ≠ poseidonEx [2, 1] 0 3 := fun e =>
  absurd ((c96_api 2 (by omega) (by omega)).1 _ _ _ _ rfl rfl e).1 (by decide)

end Spark.PoseidonProps

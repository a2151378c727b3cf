import Verif.Lemmas.Tower
import Verif.Model.Pairing

/-! The multi-Miller loop is the product of single Miller loops, as circuits (constraints and honest
solver), for arbitrary coordinates. -/

namespace Spark

namespace Circ
variable {α β γ : Type}

theorem bind_comm (m : Circ α) (n : Circ β) (f : α → β → Circ γ) :
    (m >>= fun a => n >>= fun b => f a b) = (n >>= fun b => m >>= fun a => f a b) := by
  refine ext' ?_ (fun c => ?_)
  · simp only [run_bind]
    cases m.run <;> cases n.run <;> rfl
  · simp only [sat_bind]
    exact ⟨fun ⟨a, ha, b, hb, h⟩ => ⟨b, hb, a, ha, h⟩, fun ⟨b, hb, a, ha, h⟩ => ⟨a, ha, b, hb, h⟩⟩

/-- run the fragments one after the other -/
def mapC (f : α → Circ β) : List α → Circ (List β)
  | [] => pure []
  | a :: l => f a >>= fun b => mapC f l >>= fun bs => pure (b :: bs)

theorem mapC_comp (f : α → Circ β) (g : β → Circ γ) (l : List α) :
    (mapC f l >>= fun bs => mapC g bs) = mapC (fun a => f a >>= g) l := by
  induction l with
  | nil => simp [mapC]
  | cons a l ih =>
    simp only [mapC, bind_assoc, pure_bind]
    congr 1; funext b
    rw [← ih]
    simp only [bind_assoc]
    rw [bind_comm]

theorem mapC_map (f : β → Circ γ) (h : α → β) (l : List α) :
    mapC f (l.map h) = mapC (fun a => f (h a)) l := by
  induction l with
  | nil => rfl
  | cons a l ih => simp only [List.map_cons, mapC, ih]

theorem mapC_pure (f : α → Circ β) (h : β → γ) (l : List α) :
    mapC (fun a => f a >>= fun b => pure (h b)) l = (mapC f l >>= fun bs => pure (bs.map h)) := by
  induction l with
  | nil => simp [mapC]
  | cons a l ih => simp only [mapC, ih, bind_assoc, pure_bind, List.map_cons]

theorem mapC_congr {f g : α → Circ β} {l : List α} (h : ∀ a ∈ l, f a = g a) : mapC f l = mapC g l := by
  induction l with
  | nil => rfl
  | cons a l ih =>
    simp only [mapC]
    rw [h a (by simp), ih (fun b hb => h b (by simp [hb]))]

theorem mapC_eq_pure {f : α → Circ β} {h : α → β} {l : List α} (H : ∀ a ∈ l, f a = pure (h a)) :
    mapC f l = pure (l.map h) := by
  induction l with
  | nil => rfl
  | cons a l ih =>
    simp only [mapC]
    rw [H a (by simp), ih (fun b hb => H b (by simp [hb])), pure_bind, pure_bind]; rfl

theorem sat_mapC (f : α → Circ β) (l : List α) (bs : List β) :
    (mapC f l).sat bs ↔ List.Forall₂ (fun a b => (f a).sat b) l bs := by
  induction l generalizing bs with
  | nil => simp [mapC]
  | cons a l ih =>
    simp only [mapC, sat_bind, sat_pure, ih]
    constructor
    · rintro ⟨b, hb, cs, hcs, rfl⟩; exact .cons hb hcs
    · intro h
      cases h with
      | cons hb hcs => exact ⟨_, hb, _, hcs, rfl⟩

end Circ

namespace Pairing
open Circ
variable {K : Type} [Field K] [TowerField K] [DecidableEq K]

/-- the circuit `f` multiplies the accumulator by a factor that does not depend on it -/
def Factors (f : PairState K → E12 K → Circ (PairState K × E12 K))
    (g : PairState K → Circ (PairState K × E12 K)) : Prop :=
  ∀ s res, f s res = (g s >>= fun x => pure (x.1, res * x.2))

theorem forPairs_eq {f : PairState K → E12 K → Circ (PairState K × E12 K)}
    {g : PairState K → Circ (PairState K × E12 K)} (h : Factors f g) (ss : List (PairState K))
    (res : E12 K) : forPairs f ss res =
      (mapC g ss >>= fun L => pure (L.map Prod.fst, res * (L.map Prod.snd).prod)) := by
  induction ss generalizing res with
  | nil => simp [forPairs, mapC]
  | cons s ss ih =>
    simp only [forPairs, mapC, h s res, bind_assoc, pure_bind, ih, List.map_cons, List.prod_cons,
      mul_assoc]

/-- factor of `body0` -/
def fac0 (s : PairState K) : Circ (PairState K × E12 K) := do
  let (Qacc, l1) ← doubleStep s.Qacc
  let l1 := evalLine s l1
  pure ({ s with Qacc := Qacc }, Ext12.sparse014 l1.R1 l1.R0)

/-- factor of `body1` -/
def fac1 (s : PairState K) : Circ (PairState K × E12 K) := do
  let (Qacc, l1, l2) ← doubleAndAddStep s.Qacc s.Q
  let l1 := evalLine s l1
  let l2 := evalLine s l2
  pure ({ s with Qacc := Qacc }, Ext12.sparse014 l1.R1 l1.R0 * Ext12.sparse014 l2.R1 l2.R0)

/-- factor of `body62` -/
def fac62 (s : PairState K) : Circ (PairState K × E12 K) := do
  let (Qacc, l1, l2) ← tripleStep s.Qacc
  let l1 := evalLine s l1
  let l2 := evalLine s l2
  pure ({ s with Qacc := Qacc }, Ext12.sparse014 l1.R1 l1.R0 * Ext12.sparse014 l2.R1 l2.R0)

/-- factor of `bodyLast` -/
def facLast (s : PairState K) : Circ (PairState K × E12 K) := do
  let l1 ← tangentCompute s.Qacc
  let l1 := evalLine s l1
  pure (s, Ext12.sparse014 l1.R1 l1.R0)

theorem factors0 : Factors (K := K) body0 fac0 := fun s res => by
  simp only [body0, fac0, bind_assoc, pure_bind, tower]
theorem factors1 : Factors (K := K) body1 fac1 := fun s res => by
  simp only [body1, fac1, bind_assoc, pure_bind, tower, mul_assoc]
theorem factors62 : Factors (K := K) body62 fac62 := fun s res => by
  simp only [body62, fac62, bind_assoc, pure_bind, tower, mul_assoc]
theorem factorsLast : Factors (K := K) bodyLast facLast := fun s res => by
  simp only [bodyLast, facLast, bind_assoc, pure_bind, tower]

theorem body62first_eq (s : PairState K) : body62first s = fac62 s := by
  simp only [body62first, fac62]
  congr 1; funext x
  simp only [evalLine]
  congr 2
  have := Ext12.mul014By014_eq (Ext2.mulByElement x.2.2.R1 s.yInv) (Ext2.mulByElement x.2.2.R0 s.xOverY)
    (Ext2.mulByElement x.2.1.R1 s.yInv) (Ext2.mulByElement x.2.1.R0 s.xOverY)
  rw [mul_comm (Ext12.sparse014 _ _)]
  exact this

/-- the factor of iteration `i` -/
def facI (i : ℕ) : PairState K → Circ (PairState K × E12 K) :=
  if loopCounter.getD i 0 = 0 then fac0 else fac1

/-- the main loop for one pair -/
def loop1 : ℕ → PairState K × E12 K → Circ (PairState K × E12 K)
  | 0, x => pure x
  | i + 1, x => do
    let y ← facI (i + 1) x.1
    loop1 i (y.1, x.2 * x.2 * y.2)

theorem prod_square {M : Type} [CommMonoid M] (l : List M) : l.prod * l.prod = (l.map fun x => x * x).prod := by
  induction l with
  | nil => simp
  | cons a l ih => simp only [List.prod_cons, List.map_cons, ← ih]; exact mul_mul_mul_comm ..

theorem prod_map_mul {M α : Type} [CommMonoid M] (l : List α) (f g : α → M) :
    (l.map f).prod * (l.map g).prod = (l.map fun x => f x * g x).prod := by
  induction l with
  | nil => simp
  | cons a l ih => simp only [List.prod_cons, List.map_cons, ← ih]; exact mul_mul_mul_comm ..

theorem mapC_fst (g : PairState K → Circ (PairState K × E12 K)) (h : E12 K → E12 K)
    (L : List (PairState K × E12 K)) :
    (mapC g (L.map Prod.fst) >>= fun L' =>
        pure (L'.map Prod.fst, (L.map fun x => h x.2).prod * (L'.map Prod.snd).prod)) =
      (mapC (fun x => g x.1 >>= fun y => pure (y.1, h x.2 * y.2)) L >>= fun L' =>
        pure (L'.map Prod.fst, (L'.map Prod.snd).prod)) := by
  induction L with
  | nil => simp [mapC]
  | cons a L ih =>
    simp only [List.map_cons, mapC, bind_assoc, pure_bind, List.prod_cons]
    congr 1; funext y
    have key : ∀ {m : Circ (List (PairState K) × E12 K)} {m' : Circ (List (PairState K) × E12 K)},
        m = m' → (m >>= fun z => pure (y.1 :: z.1, h a.2 * y.2 * z.2)) =
          (m' >>= fun z => pure (y.1 :: z.1, h a.2 * y.2 * z.2)) := by rintro _ _ rfl; rfl
    have := key ih
    simp only [bind_assoc, pure_bind] at this
    rw [← this]
    congr 1; funext z
    rw [mul_mul_mul_comm]

theorem mainLoop_eq (i : ℕ) (L : List (PairState K × E12 K)) :
    mainLoop i (L.map Prod.fst) (L.map Prod.snd).prod =
      (mapC (loop1 i) L >>= fun L' => pure (L'.map Prod.fst, (L'.map Prod.snd).prod)) := by
  induction i generalizing L with
  | zero =>
    simp only [mainLoop]
    rw [mapC_eq_pure (h := id) (by intro a _; rfl), pure_bind, List.map_id]
  | succ i ih =>
    simp only [mainLoop]
    have h1 : (if loopCounter.getD (i + 1) 0 = 0
        then forPairs body0 (L.map Prod.fst) (Ext12.square (L.map Prod.snd).prod)
        else forPairs body1 (L.map Prod.fst) (Ext12.square (L.map Prod.snd).prod)) =
        (mapC (fun x => facI (i + 1) x.1 >>= fun y => pure (y.1, x.2 * x.2 * y.2)) L >>= fun L' =>
          pure (L'.map Prod.fst, (L'.map Prod.snd).prod)) := by
      rw [← mapC_fst (facI (i + 1)) (fun x => x * x)]
      simp only [tower, prod_square, List.map_map, facI]
      split
      · rw [forPairs_eq factors0]; rfl
      · rw [forPairs_eq factors1]; rfl
    rw [h1]
    simp only [bind_assoc, pure_bind, ih]
    rw [← bind_assoc, mapC_comp]
    simp only [bind_assoc, pure_bind]
    rfl

/-- the Miller loop for one pair, from the state prepared by `initPair` -/
def body1pair (s : PairState K) : Circ (E12 K) := do
  let x ← fac62 s
  let x ← loop1 61 x
  let y ← facLast x.1
  pure (E12.conj (x.2 * x.2 * y.2))

theorem conj_prod (l : List (E12 K)) : E12.conj l.prod = (l.map E12.conj).prod :=
  map_list_prod E12.conjHom l

theorem millerBody_eq (s : PairState K) (ss : List (PairState K)) :
    millerBody s ss = (mapC body1pair (s :: ss) >>= fun zs => pure zs.prod) := by
  have h62 : (body62first s >>= fun x => forPairs body62 ss x.2 >>= fun y =>
        pure (x.1 :: y.1, y.2)) =
      (mapC fac62 (s :: ss) >>= fun L => pure (L.map Prod.fst, (L.map Prod.snd).prod)) := by
    simp only [body62first_eq, forPairs_eq factors62, mapC, bind_assoc, pure_bind, List.map_cons,
      List.prod_cons]
  have key : millerBody s ss = ((body62first s >>= fun x => forPairs body62 ss x.2 >>= fun y =>
        pure (x.1 :: y.1, y.2)) >>= fun z => mainLoop 61 z.1 z.2 >>= fun u =>
          forPairs bodyLast u.1 (Ext12.square u.2) >>= fun v => pure (Ext12.conjugate v.2)) := by
    simp only [millerBody, bind_assoc, pure_bind]
  rw [key, h62]
  simp only [bind_assoc, pure_bind, mainLoop_eq]
  rw [← bind_assoc, mapC_comp]
  have hl : ∀ L : List (PairState K × E12 K),
      (forPairs bodyLast (L.map Prod.fst) (Ext12.square (L.map Prod.snd).prod) >>= fun v =>
        pure (Ext12.conjugate v.2)) =
      (mapC (fun x => facLast x.1 >>= fun y => pure (E12.conj (x.2 * x.2 * y.2))) L >>= fun zs =>
        pure zs.prod) := by
    intro L
    have h1 := mapC_fst facLast (fun x => x * x) L
    have h2 : forPairs bodyLast (L.map Prod.fst) (Ext12.square (L.map Prod.snd).prod) =
        (mapC (fun x => facLast x.1 >>= fun y => pure (y.1, x.2 * x.2 * y.2)) L >>= fun L' =>
          pure (L'.map Prod.fst, (L'.map Prod.snd).prod)) := by
      rw [← h1]
      simp only [tower, prod_square, List.map_map]
      rw [forPairs_eq factorsLast]; rfl
    rw [h2]
    have h3 := mapC_pure (fun x : PairState K × E12 K => facLast x.1 >>= fun y =>
      pure (y.1, x.2 * x.2 * y.2)) (fun y => E12.conj y.2) L
    simp only [bind_assoc, pure_bind] at h3
    rw [h3]
    simp only [bind_assoc, pure_bind, tower, conj_prod, List.map_map]
    rfl
  simp only [hl]
  rw [← bind_assoc, mapC_comp]
  simp only [bind_assoc]
  rfl

theorem initPairs_eq (P : List (G1Affine K)) (Q : List (G2Affine K)) :
    initPairs P Q = mapC (fun x => initPair x.1 x.2) (P.zip Q) := by
  induction P generalizing Q with
  | nil => simp [initPairs, mapC]
  | cons p P ih =>
    cases Q with
    | nil => simp [initPairs, mapC]
    | cons q Q => simp only [initPairs, ih, List.zip_cons_cons, mapC]

/-- The Miller loop of one pair. -/
def miller1 (x : G1Affine K × G2Affine K) : Circ (E12 K) := initPair x.1 x.2 >>= body1pair

theorem millerLoop_eq {P : List (G1Affine K)} {Q : List (G2Affine K)} (h0 : P ≠ [])
    (h : P.length = Q.length) :
    millerLoop P Q = .ok (mapC miller1 (P.zip Q) >>= fun zs => pure zs.prod) := by
  have hn : ¬ (P.length = 0 ∨ P.length ≠ Q.length) := by
    rintro (h' | h')
    · exact h0 (List.length_eq_zero_iff.1 h')
    · exact h' h
  simp only [millerLoop]
  rw [if_neg hn]
  congr 1
  rw [initPairs_eq]
  have : mapC miller1 (P.zip Q) = (mapC (fun x => initPair x.1 x.2) (P.zip Q) >>= mapC body1pair) :=
    (mapC_comp _ _ _).symm
  rw [this]
  obtain ⟨p, P, rfl⟩ := List.exists_cons_of_ne_nil h0
  obtain ⟨q, Q, rfl⟩ := List.exists_cons_of_ne_nil (l := Q) (by
    rintro rfl; simp at h)
  simp only [List.zip_cons_cons, mapC, bind_assoc, pure_bind, millerBody_eq]

theorem millerLoop_one (p : G1Affine K) (q : G2Affine K) : millerLoop [p] [q] = .ok (miller1 (p, q)) := by
  rw [millerLoop_eq (by simp) rfl]
  congr 1
  simp only [List.zip_cons_cons, List.zip_nil_left, mapC, bind_assoc, pure_bind, List.prod_singleton,
    bind_pure]

end Pairing
end Spark

import Verif.Lemmas.CircuitAgg
import Verif.Props.HashG2
import Verif.Props.Pairing
import Verif.Props.Poseidon

/-! The transaction and rotation circuits as conjunctions of conditions. -/

namespace Spark.Circuit

open Circ Spec Pairing Spark.PairingProps

/-! ### points as circuit inputs -/

def G2In.Fits (q : G2In) : Prop := q.XA0.Fits ∧ q.XA1.Fits ∧ q.YA0.Fits ∧ q.YA1.Fits

def G2In.val (q : G2In) : G2Affine Fp := ⟨⟨q.XA0.val, q.XA1.val⟩, ⟨q.YA0.val, q.YA1.val⟩⟩

theorem useG2_fits {q : G2In} (h : q.Fits) : useG2 q = pure q.val := by
  rw [useG2, useElement_fits h.1, pure_bind, useElement_fits h.2.1, pure_bind, useElement_fits h.2.2.1, pure_bind,
    useElement_fits h.2.2.2, pure_bind, G2In.val]

theorem useG2_not {q : G2In} (h : ¬ q.Fits) : useG2 q = fail := by
  rw [useG2]
  by_cases h1 : q.XA0.Fits
  · rw [useElement_fits h1, pure_bind]
    by_cases h2 : q.XA1.Fits
    · rw [useElement_fits h2, pure_bind]
      by_cases h3 : q.YA0.Fits
      · rw [useElement_fits h3, pure_bind, useElement_not fun h4 => h ⟨h1, h2, h3, h4⟩, fail_bind]
      · rw [useElement_not h3, fail_bind]
    · rw [useElement_not h2, fail_bind]
  · rw [useElement_not h1, fail_bind]

theorem enc1_pt {P : E1 Fp} {x y : Fp} (h : Pt P x y) : enc1 P = ⟨x, y⟩ := by
  obtain ⟨h, rfl⟩ := h; rfl

theorem enc2_pt {P : ETwist Fp} {x y : E2 Fp} (h : Pt P x y) : enc2 P = ⟨x, y⟩ := by
  obtain ⟨h, rfl⟩ := h; rfl

theorem g1neg_eq : g1neg = enc1 (-G1gen) := by
  have : Pt G1gen ((gen1x : ℕ) : Fp) ((gen1y : ℕ) : Fp) := ⟨_, rfl⟩
  rw [enc1_pt this.neg]; rfl

/-- the check performed at the end of both circuits -/
theorem check_ok (P Q : G1Affine Fp) (R S : G2Affine Fp) :
    ∃ c, pairingCheck [P, Q] [R, S] = .ok c ∧ pairingCheckStmt [P, Q] [R, S] = c := by
  rcases h : pairingCheck [P, Q] [R, S] with e | c
  · have := (c42_pairingCheck [P, Q] [R, S]).1 ⟨e, h⟩
    simp [BadSizes] at this
  · exact ⟨c, rfl, by rw [pairingCheckStmt, h]⟩

theorem bind_unit_sat {α : Type} {m : Circ Unit} {f : Unit → Circ α} :
    (m >>= f).Satisfiable ↔ m.Satisfiable ∧ (f ()).Satisfiable :=
  ⟨fun ⟨a, u, h1, h2⟩ => ⟨⟨u, h1⟩, a, h2⟩, fun ⟨⟨u, h1⟩, a, h2⟩ => ⟨a, u, h1, h2⟩⟩

theorem bind_sat {α β : Type} {m : Circ α} {f : α → Circ β} :
    (m >>= f).Satisfiable ↔ ∃ a, m.sat a ∧ (f a).Satisfiable :=
  ⟨fun ⟨b, a, h1, h2⟩ => ⟨a, h1, b, h2⟩, fun ⟨a, h1, b, h2⟩ => ⟨b, a, h1, h2⟩⟩

theorem assert_sat {p : Prop} [Decidable p] : (assert p).Satisfiable ↔ p := ⟨fun ⟨_, h⟩ => h, fun h => ⟨(), h⟩⟩

theorem pure_sat {α : Type} (a : α) : (pure a : Circ α).Satisfiable := ⟨a, rfl⟩

theorem fail_sat {α : Type} : ¬ (fail : Circ α).Satisfiable := fun ⟨_, h⟩ => h

/-! ### transaction -/

theorem tx_cases (mode : Mode) (pub : TxPublic) (priv : TxPrivate) :
    (txDefine mode pub priv).Satisfiable ↔ ∃ bs : Fin 10 → Bool, priv.bitList = (fun i => bit (bs i)) ∧
      (∀ i, (priv.publicKeys i).Fits) ∧ (∑ i, if bs i then priv.weights i else 0) = pub.signedWeight ∧
      pub.apkCommitment = commit priv.publicKeys priv.weights ∧ priv.signature.Fits ∧
      ∃ apk h, (addAll (selected mode priv.publicKeys bs)).sat apk ∧ (G2.hashToG2 priv.msgBytes).sat h ∧
        (pairingCheckStmt [g1neg, ⟨apk.X, apk.Y⟩] [priv.signature.val, h]).Satisfiable := by
  rw [txDefine, verifyTx]
  by_cases hb : (∀ i, (priv.publicKeys i).Fits) ∧ ∃ bs : Fin 10 → Bool, priv.bitList = fun i => bit (bs i)
  · obtain ⟨hf, bs, hbs⟩ := hb
    rw [hbs, aggregate_eq mode bs priv.weights _ hf]
    simp only [computeAPKCommitment_eq, pure_bind, bind_assoc, commitmentCheck, apiAssertEq]
    rw [bind_unit_sat, assert_sat]
    by_cases hs : priv.signature.Fits
    · simp only [useG2_fits hs, pure_bind, bind_sat (m := addAll _), bind_sat (m := G2.hashToG2 _),
        bind_unit_sat (m := assert _), assert_sat]
      constructor
      · rintro ⟨h1, apk, h2, h3, h, h4, h5⟩
        exact ⟨bs, rfl, hf, h1, h3, hs, apk, h, h2, h4, h5⟩
      · rintro ⟨bs', e, -, h1, h3, -, apk, h, h2, h4, h5⟩
        obtain rfl : bs = bs' := funext fun i => bit_injective (congrFun e i)
        exact ⟨h1, apk, h2, h3, h, h4, h5⟩
    · simp only [useG2_not hs, fail_bind, bind_sat (m := addAll _), bind_sat (m := G2.hashToG2 _),
        bind_unit_sat (m := assert _), fail_sat, hs]
      simp
  · rw [aggregate_fail mode _ _ hb, fail_bind]
    constructor
    · exact fun h => absurd h fail_sat
    · rintro ⟨bs, h1, h2, -⟩
      exact absurd ⟨h2, bs, h1⟩ hb

/-- the honest prover succeeds when every part does -/
theorem tx_run {mode : Mode} {pub : TxPublic} {priv : TxPrivate} {bs : Fin 10 → Bool} {apk : G1Var}
    {h : G2Affine Fp} (hb : priv.bitList = fun i => bit (bs i)) (hf : ∀ i, (priv.publicKeys i).Fits)
    (hw : (∑ i, if bs i then priv.weights i else 0) = pub.signedWeight)
    (hc : pub.apkCommitment = commit priv.publicKeys priv.weights) (hs : priv.signature.Fits)
    (ha : (addAll (selected mode priv.publicKeys bs)).run = some apk)
    (hh : (G2.hashToG2 priv.msgBytes).run = some h)
    (hp : (pairingCheckStmt [g1neg, ⟨apk.X, apk.Y⟩] [priv.signature.val, h]).run = some ()) :
    (txDefine mode pub priv).run = some () := by
  rw [txDefine, verifyTx, hb, aggregate_eq mode bs priv.weights _ hf, assert_true hw, pure_bind, run_bind, ha,
    Option.bind_some, computeAPKCommitment_eq, pure_bind, commitmentCheck, apiAssertEq, assert_true hc, pure_bind,
    run_bind, hh, Option.bind_some, useG2_fits hs, pure_bind, hp]

/-! ### rotation -/

theorem rotate_cases (mode : Mode) (pub : RotatePublic) (priv : RotatePrivate) :
    (rotateDefine mode pub priv).Satisfiable ↔ ∃ bs : Fin 10 → Bool, priv.bitList = (fun i => bit (bs i)) ∧
      (∀ i, (priv.newPublicKeys i).Fits) ∧
      pub.trustedWeight = (∑ i, if counts (priv.oldPublicKeys i) (priv.newPublicKeys i) (bs i)
        then priv.oldWeights i else 0) ∧
      pub.oldApkCommitment = commit priv.oldPublicKeys priv.oldWeights ∧
      pub.newCommitment = commit priv.newPublicKeys priv.newWeights ∧ priv.signature.Fits ∧
      ∃ apk h, (addAll (selected mode priv.newPublicKeys bs)).sat apk ∧
        (G2.hashToG2 pub.newApkCommitmentBytes).sat h ∧
        (pairingCheckStmt [g1neg, ⟨apk.X, apk.Y⟩] [priv.signature.val, h]).Satisfiable := by
  rw [rotateDefine, verifyRotate]
  by_cases hb : ∃ bs : Fin 10 → Bool, priv.bitList = fun i => bit (bs i)
  · obtain ⟨bs, hbs⟩ := hb
    rw [hbs, trustedWeight_eq]
    simp only [computeAPKCommitment_eq, pure_bind, bind_assoc, commitmentCheck, apiAssertEq]
    by_cases hf : ∀ i, (priv.newPublicKeys i).Fits
    · rw [aggregateRotate_eq mode bs hf]
      by_cases hs : priv.signature.Fits
      · simp only [useG2_fits hs, pure_bind, bind_sat (m := addAll _), bind_sat (m := G2.hashToG2 _),
          bind_unit_sat (m := assert _), assert_sat]
        constructor
        · rintro ⟨h1, h2, h3, apk, h4, h, h5, h6⟩
          exact ⟨bs, rfl, hf, h1, h2, h3, hs, apk, h, h4, h5, h6⟩
        · rintro ⟨bs', e, -, h1, h2, h3, -, apk, h, h4, h5, h6⟩
          obtain rfl : bs = bs' := funext fun i => bit_injective (congrFun e i)
          exact ⟨h1, h2, h3, apk, h4, h, h5, h6⟩
      · simp only [useG2_not hs, fail_bind, bind_sat (m := addAll _), bind_sat (m := G2.hashToG2 _),
          bind_unit_sat (m := assert _), fail_sat, hs]
        simp
    · rw [aggregateRotate_fail mode (fun h => hf h.1)]
      simp only [fail_bind, bind_unit_sat (m := assert _), fail_sat, hf]
      simp
  · rw [trustedWeight_fail _ _ _ hb, fail_bind]
    constructor
    · exact fun h => absurd h fail_sat
    · rintro ⟨bs, h1, -⟩
      exact absurd ⟨bs, h1⟩ hb

theorem rotate_run {mode : Mode} {pub : RotatePublic} {priv : RotatePrivate} {bs : Fin 10 → Bool} {apk : G1Var}
    {h : G2Affine Fp} (hb : priv.bitList = fun i => bit (bs i)) (hf : ∀ i, (priv.newPublicKeys i).Fits)
    (hw : pub.trustedWeight = (∑ i, if counts (priv.oldPublicKeys i) (priv.newPublicKeys i) (bs i)
        then priv.oldWeights i else 0))
    (ho : pub.oldApkCommitment = commit priv.oldPublicKeys priv.oldWeights)
    (hn : pub.newCommitment = commit priv.newPublicKeys priv.newWeights) (hs : priv.signature.Fits)
    (ha : (addAll (selected mode priv.newPublicKeys bs)).run = some apk)
    (hh : (G2.hashToG2 pub.newApkCommitmentBytes).run = some h)
    (hp : (pairingCheckStmt [g1neg, ⟨apk.X, apk.Y⟩] [priv.signature.val, h]).run = some ()) :
    (rotateDefine mode pub priv).run = some () := by
  rw [rotateDefine, verifyRotate, hb, trustedWeight_eq, pure_bind, commitmentCheck, apiAssertEq, assert_true hw,
    pure_bind, computeAPKCommitment_eq, pure_bind, commitmentCheck, apiAssertEq, assert_true ho, pure_bind,
    computeAPKCommitment_eq, pure_bind, commitmentCheck, apiAssertEq, assert_true hn, pure_bind,
    aggregateRotate_eq mode bs hf, run_bind, ha, Option.bind_some, run_bind, hh, Option.bind_some, useG2_fits hs,
    pure_bind, hp]

/-! ### textbook commitment -/

theorem isPoseidon_pos {xs : List Fr} (h1 : 1 ≤ xs.length) (h2 : xs.length ≤ 16) : IsPoseidon xs (pos xs) := by
  obtain ⟨rp, N, consts, points, e1, e2, h⟩ := Poseidon.poseidonEx_text xs.length h1 h2
  refine ⟨h1, rp, N, consts, points, e1, e2, ?_⟩
  have := h (fun i => xs[i]) 0 1 (by omega)
  rw [← Poseidon.ofFn_get] at this
  rw [pos, Poseidon.poseidon, this]
  simp

theorem isPoseidon_unique {xs : List Fr} {h h' : Fr} (a : IsPoseidon xs h) (b : IsPoseidon xs h') : h = h' := by
  obtain ⟨-, rp, N, consts, points, e1, e2, rfl⟩ := a
  obtain ⟨-, rp', N', consts', points', e1', e2', rfl⟩ := b
  rw [e1] at e1'
  cases e1'
  obtain ⟨rfl, rfl⟩ := Prod.mk.inj (Poseidon.reference_unique e2 e2')
  rfl

theorem isPoseidon_length {xs : List Fr} {h : Fr} (a : IsPoseidon xs h) : 1 ≤ xs.length ∧ xs.length ≤ 16 := by
  obtain ⟨h1, rp, N, consts, points, e1, -⟩ := a
  refine ⟨h1, ?_⟩
  by_contra hc
  rw [List.getElem?_eq_none] at e1
  · cases e1
  · simp only [PosSpec.partialRounds, List.length_cons, List.length_nil]; omega

theorem isPoseidon_iff {xs : List Fr} {h : Fr} : IsPoseidon xs h ↔ Poseidon.poseidon xs = some h := by
  constructor
  · intro a
    obtain ⟨h1, h2⟩ := isPoseidon_length a
    rw [poseidon_pos h1 h2, isPoseidon_unique a (isPoseidon_pos h1 h2)]
  · intro e
    obtain ⟨h1, h2⟩ := (PoseidonProps.c11_defined xs).1 (by rw [e]; rfl)
    rw [poseidon_pos h1 h2] at e
    rw [← Option.some.inj e]
    exact isPoseidon_pos h1 h2

theorem commit_isCommitment (keys : Fin 10 → G1In) (w : Fin 10 → Fr) :
    IsCommitment (fun i => (keys i).X) (fun i => (keys i).Y) w (commit keys w) :=
  ⟨fun i => pos (List.ofFn (keys i).X), fun i => pos (List.ofFn (keys i).Y), fun i => valHash (keys i) (w i),
    fun _ => isPoseidon_pos (by simp) (by simp), fun _ => isPoseidon_pos (by simp) (by simp),
    fun _ => isPoseidon_pos (by simp) (by simp), isPoseidon_pos (by simp) (by simp)⟩

theorem isCommitment_unique {x y : Fin 10 → Fin 6 → Fr} {w : Fin 10 → Fr} {c c' : Fr}
    (a : IsCommitment x y w c) (b : IsCommitment x y w c') : c = c' := by
  obtain ⟨hx, hy, m, a1, a2, a3, a4⟩ := a
  obtain ⟨hx', hy', m', b1, b2, b3, b4⟩ := b
  obtain rfl : hx = hx' := funext fun i => isPoseidon_unique (a1 i) (b1 i)
  obtain rfl : hy = hy' := funext fun i => isPoseidon_unique (a2 i) (b2 i)
  obtain rfl : m = m' := funext fun i => isPoseidon_unique (a3 i) (b3 i)
  exact isPoseidon_unique a4 b4

end Spark.Circuit

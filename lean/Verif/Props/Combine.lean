import Verif.Props.Accountability

/-!
# C107: what can be made of published signatures

Aggregate signatures on one message can be added and subtracted by anybody.  A sum with integer coefficients of published
aggregates is accepted for a bit list exactly when the same combination of the sums of keys is the sum of the keys of the bit list:
disjoint groups of signers can be joined, a group can be taken out of a larger one, and a signer cannot be counted twice.
-/

namespace Spark.HistoryProps
open Spark Circ Spec Circuit Pairing PairingProps CircuitProps GroupProps HonestProps ExceptionProps HelperProps HashProps
open scoped BigOperators
set_option maxRecDepth 100000

/-- a combination with coefficients `k` of the aggregate signatures of the groups `b j` -/
noncomputable def Validators.combine {ι : Type} [Fintype ι] (V : Validators) (k : ι → ℤ) (b : ι → Fin 10 → Bool)
    (H : ETwist Fp) : ETwist Fp := ∑ j, k j • aggregateSignature V.sk (fun i => b j i = true) H

/-- the sum of the public keys of a group -/
noncomputable def Validators.key (V : Validators) (b : Fin 10 → Bool) : E1 Fp :=
  signersSum (fun i => V.sk i • G1gen) fun i => b i = true

theorem sum_mul_zsmul {ι A : Type*} [Fintype ι] [AddCommGroup A] (k : ι → ℤ) (s : ι → ℕ) (g : A) :
    ∑ j, k j • s j • g = (∑ j, k j * (s j : ℤ)) • g := by
  rw [Finset.sum_smul]
  exact Finset.sum_congr rfl fun j _ => by rw [mul_zsmul, natCast_zsmul]

theorem ite_or_add {A : Type*} [AddMonoid A] {x y : Bool} (h : ¬ (x = true ∧ y = true)) (a : A) :
    (if (x || y) then a else 0) = (if x then a else 0) + if y then a else 0 := by
  cases x <;> cases y <;> simp_all

theorem combine_eq {ι : Type} [Fintype ι] (V : Validators) (k : ι → ℤ) (b : ι → Fin 10 → Bool) (H : ETwist Fp) :
    V.combine k b H = (∑ j, k j * (secretSum V.sk (fun i => b j i = true) : ℤ)) • H := by
  rw [Validators.combine, ← sum_mul_zsmul]
  exact Finset.sum_congr rfl fun j _ => by rw [aggregateSignature_eq]

theorem combine_key {ι : Type} [Fintype ι] (V : Validators) (k : ι → ℤ) (b : ι → Fin 10 → Bool) :
    ∑ j, k j • V.key (b j) = (∑ j, k j * (secretSum V.sk (fun i => b j i = true) : ℤ)) • G1gen := by
  rw [← sum_mul_zsmul]
  exact Finset.sum_congr rfl fun j _ => by rw [Validators.key, signersSum_secret]

theorem combine_eq_iff {ι : Type} [Fintype ι] {V : Validators} {k : ι → ℤ} {b : ι → Fin 10 → Bool} {b' : Fin 10 → Bool}
    {H : ETwist Fp} (hr : rOrder • H = 0) (h0 : H ≠ 0) :
    V.combine k b H = aggregateSignature V.sk (fun i => b' i = true) H ↔ ∑ j, k j • V.key (b j) = V.key b' := by
  have hp := Fact.mk rOrder_prime
  have o1 : addOrderOf H = rOrder := addOrderOf_eq_prime hr h0
  have o2 : addOrderOf G1gen = rOrder := addOrderOf_eq_prime Witness.G1gen_order G1gen_ne
  rw [combine_eq, combine_key, aggregateSignature_eq, Validators.key, signersSum_secret, ← natCast_zsmul H,
    ← natCast_zsmul G1gen, zsmul_eq_zsmul_iff_modEq, zsmul_eq_zsmul_iff_modEq, o1, o2]

theorem combine_order {ι : Type} [Fintype ι] (V : Validators) (k : ι → ℤ) (b : ι → Fin 10 → Bool) {H : ETwist Fp}
    (hr : rOrder • H = 0) : rOrder • V.combine k b H = 0 := by
  rw [combine_eq, ← natCast_zsmul, zsmul_comm, natCast_zsmul, hr, zsmul_zero]

/-- **C107, transactions.** Published are aggregate signatures of the groups `b j` on one message; somebody submits the
combination with coefficients `k` (not infinity) for the bit list `b'`. -/
theorem c107_transaction {mode : Mode} {V : Validators} {ι : Type} [Fintype ι] {k : ι → ℤ} {b : ι → Fin 10 → Bool}
    {b' : Fin 10 → Bool} {msg : Vector Fips.Byte 32} {H : ETwist Fp} (h : V.CanSign mode b' msg H)
    (h0 : V.combine k b H ≠ 0) (M : G2In) {c : Fr} (hc : V.set.CommitsTo c) (w : Fr) :
    (txDefine mode ⟨M, c, w⟩
        ⟨V.keys, newG2Affine (enc2 (V.combine k b H)), fun i => bit (b' i), V.weights, msgVars msg⟩).run = some () ↔
      w = (∑ i, if b' i then V.weights i else 0) ∧ ∑ j, k j • V.key (b j) = V.key b' := by
  obtain ⟨u0, u1, hu, t0, t1, hne⟩ := h.regular
  have hr := rfcHash_order h.hash
  obtain ⟨z, hz, hrun⟩ := c97_transaction (mode := mode) (pub := ⟨M, c, w⟩)
    (priv := ⟨V.keys, newG2Affine (enc2 (V.combine k b H)), fun i => bit (b' i), V.weights, msgVars msg⟩) V.sk
    (V.denotes h.keys) (fun i => bit_cases (b' i)) h.general h.exact h.secret rfl hu t0 t1 hne h.hash h.finite _ rfl h0
    (combine_order V k b hr)
  have e := combine_eq_iff (V := V) (k := k) (b := b) (b' := b') hr h.finite
  have hm := h.miller
  rw [hrun, sum_bits]
  simp only [bits_eq] at hz hm ⊢
  refine ⟨fun ⟨a1, _, a3, _⟩ => ⟨a1, e.1 a3⟩, fun ⟨a1, a2⟩ => ⟨a1, hc, e.2 a2, hm z ?_⟩⟩
  rw [← e.2 a2]; exact hz

/-- **C107, rotations.** The same for aggregate signatures of groups of new validators. -/
theorem c107_rotation {mode : Mode} {V N : Validators} {ι : Type} [Fintype ι] {k : ι → ℤ} {b : ι → Fin 10 → Bool}
    {b' : Fin 10 → Bool} {msg : Vector Fips.Byte 32} {H : ETwist Fp} (h : N.CanSign mode b' msg H)
    (h0 : N.combine k b H ≠ 0) (M : G2In) {c c' : Fr} (hV : ∀ i, V.sk i • G1gen ≠ 0) (hc : V.set.CommitsTo c)
    (hc' : N.set.CommitsTo c') (w : Fr) :
    (rotateDefine mode ⟨M, c, c', msgVars msg, w⟩ ⟨V.weights, N.weights, V.keys, N.keys, fun i => bit (b' i),
        newG2Affine (enc2 (N.combine k b H))⟩).run = some () ↔
      w = (∑ i, open Classical in if b' i ∧ N.sk i • G1gen = V.sk i • G1gen then V.weights i else 0) ∧
      ∑ j, k j • N.key (b j) = N.key b' := by
  obtain ⟨u0, u1, hu, t0, t1, hne⟩ := h.regular
  have hr := rfcHash_order h.hash
  obtain ⟨z, hz, hrun⟩ := c97_rotation (mode := mode) (pub := ⟨M, c, c', msgVars msg, w⟩)
    (priv := ⟨V.weights, N.weights, V.keys, N.keys, fun i => bit (b' i), newG2Affine (enc2 (N.combine k b H))⟩) N.sk
    (N.denotes h.keys) (fun i => bit_cases (b' i)) h.general h.exact h.secret rfl hu t0 t1 hne h.hash h.finite _ rfl h0
    (combine_order N k b hr)
  have e := combine_eq_iff (V := N) (k := k) (b := b) (b' := b') hr h.finite
  have hm := h.miller
  rw [hrun, sum_trusted hV b']
  simp only [bits_eq] at hz hm
  refine ⟨fun ⟨a1, _, _, a3, _⟩ => ⟨a1, e.1 (by simpa only [bits_eq] using a3)⟩, fun ⟨a1, a2⟩ => ⟨a1, hc, hc', ?_, hm z ?_⟩⟩
  · simpa only [bits_eq] using e.2 a2
  · rw [← e.2 a2]; exact hz

/-- the aggregate signature of a group, as a point -/
noncomputable def Validators.signature (V : Validators) (b : Fin 10 → Bool) (H : ETwist Fp) : ETwist Fp :=
  ∑ i, if b i then V.sk i • H else 0

theorem signature_eq (V : Validators) (b : Fin 10 → Bool) (H : ETwist Fp) :
    V.signature b H = aggregateSignature V.sk (fun i => b i = true) H := by
  rw [Validators.signature, aggregateSignature]
  exact Finset.sum_congr rfl fun i _ => by cases b i <;> simp

theorem key_eq (V : Validators) (b : Fin 10 → Bool) : V.key b = ∑ i, if b i then V.sk i • G1gen else 0 := by
  rw [Validators.key, signersSum]
  exact Finset.sum_congr rfl fun i _ => by cases b i <;> simp

theorem combine_two (V : Validators) (k l : ℤ) (b d : Fin 10 → Bool) (H : ETwist Fp) :
    V.combine (fun j : Bool => if j then k else l) (fun j => if j then b else d) H =
      k • V.signature b H + l • V.signature d H := by
  rw [Validators.combine, Fintype.sum_bool, signature_eq, signature_eq]
  rfl

theorem key_two (V : Validators) (k l : ℤ) (b d : Fin 10 → Bool) :
    (∑ j : Bool, (if j then k else l) • V.key (if j then b else d)) = k • V.key b + l • V.key d := by
  rw [Fintype.sum_bool]; rfl

theorem key_union (V : Validators) (b d : Fin 10 → Bool) :
    V.key b + V.key d = V.key (fun i => b i || d i) + V.key fun i => b i && d i := by
  simp only [key_eq, ← Finset.sum_add_distrib]
  exact Finset.sum_congr rfl fun i _ => by cases b i <;> cases d i <;> simp

theorem key_empty (V : Validators) {b : Fin 10 → Bool} (h : ∀ i, b i = false) : V.key b = 0 := by
  rw [key_eq]; exact Finset.sum_eq_zero fun i _ => by simp [h i]

theorem weight_union (w : Fin 10 → Fr) {b d : Fin 10 → Bool} (h : ∀ i, ¬ (b i = true ∧ d i = true)) :
    (∑ i, if (b i || d i) then w i else 0) = (∑ i, if b i then w i else 0) + ∑ i, if d i then w i else 0 := by
  rw [← Finset.sum_add_distrib]
  exact Finset.sum_congr rfl fun i _ => ite_or_add (h i) _

theorem sig_ne {V : Validators} {mode : Mode} {b : Fin 10 → Bool} {msg : Vector Fips.Byte 32} {H : ETwist Fp}
    (h : V.CanSign mode b msg H) : V.signature b H ≠ 0 := by
  have := (CanSign_signature h).1
  simp only [bits_eq] at this
  rwa [signature_eq]

theorem signature_union (V : Validators) {b d : Fin 10 → Bool} (h : ∀ i, ¬ (b i = true ∧ d i = true)) (H : ETwist Fp) :
    V.signature (fun i => b i || d i) H = V.signature b H + V.signature d H := by
  simp only [Validators.signature, ← Finset.sum_add_distrib]
  exact Finset.sum_congr rfl fun i _ => ite_or_add (h i) _

/-- **C107, two groups.** The sum of the aggregate signatures of any two groups is accepted for their union exactly if the
keys of the validators in both groups have sum infinity. -/
theorem c107_two_groups {mode : Mode} {V : Validators} {b d : Fin 10 → Bool} {msg : Vector Fips.Byte 32} {H : ETwist Fp}
    (h : V.CanSign mode (fun i => b i || d i) msg H) (h0 : V.signature b H + V.signature d H ≠ 0) (M : G2In) {c : Fr}
    (hc : V.set.CommitsTo c) (w : Fr) :
    (txDefine mode ⟨M, c, w⟩ ⟨V.keys, newG2Affine (enc2 (V.signature b H + V.signature d H)), fun i => bit (b i || d i),
        V.weights, msgVars msg⟩).run = some () ↔
      w = (∑ i, if (b i || d i) then V.weights i else 0) ∧ (∑ i, if (b i && d i) then V.sk i • G1gen else 0) = 0 := by
  have e := combine_two V 1 1 b d H
  rw [one_zsmul, one_zsmul] at e
  have := c107_transaction (k := fun j : Bool => if j then 1 else 1) (b := fun j => if j then b else d) h
    (by rw [e]; exact h0) M hc w
  rw [e, key_two, one_zsmul, one_zsmul, key_union, add_eq_left, key_eq] at this
  exact this

/-- **C107, joining.** Two groups without a common member: the sum of their signatures is accepted for both together, with
the sum of their weights. -/
theorem c107_join {mode : Mode} {V : Validators} {b d : Fin 10 → Bool} {msg : Vector Fips.Byte 32} {H : ETwist Fp}
    (h : V.CanSign mode (fun i => b i || d i) msg H) (hd : ∀ i, ¬ (b i = true ∧ d i = true)) (M : G2In) {c : Fr}
    (hc : V.set.CommitsTo c) (w : Fr) :
    (txDefine mode ⟨M, c, w⟩ ⟨V.keys, newG2Affine (enc2 (V.signature b H + V.signature d H)), fun i => bit (b i || d i),
        V.weights, msgVars msg⟩).run = some () ↔
      w = (∑ i, if b i then V.weights i else 0) + ∑ i, if d i then V.weights i else 0 := by
  rw [c107_two_groups h (by rw [← signature_union V hd]; exact sig_ne h) M hc w, weight_union _ hd, and_iff_left]
  refine Finset.sum_eq_zero fun i _ => if_neg fun hi => hd i ?_
  simpa using hi

/-- **C107, no double counting.** If different groups have different sums of keys, the sum of the signatures of two groups
with a common member is not accepted for their union, whatever the weight. -/
theorem c107_overlap {mode : Mode} {V : Validators} {b d : Fin 10 → Bool} {msg : Vector Fips.Byte 32} {H : ETwist Fp}
    (h : V.CanSign mode (fun i => b i || d i) msg H) (h0 : V.signature b H + V.signature d H ≠ 0)
    (hs : DistinctSums fun i => V.sk i • G1gen) (hd : ∃ i, b i = true ∧ d i = true) (M : G2In) {c : Fr}
    (hc : V.set.CommitsTo c) (w : Fr) :
    (txDefine mode ⟨M, c, w⟩ ⟨V.keys, newG2Affine (enc2 (V.signature b H + V.signature d H)), fun i => bit (b i || d i),
        V.weights, msgVars msg⟩).run = none := by
  refine Option.eq_none_iff_forall_ne_some.2 fun _ hrun => ?_
  have := ((c107_two_groups h h0 M hc w).1 hrun).2
  rw [← key_eq] at this
  obtain ⟨i, hi⟩ := hd
  exact hs.ne (signs := fun i => (b i && d i) = true) ⟨i, by simpa using hi⟩ this

/-- **C107, taking out.** From the aggregate signatures of a group `b` and of a part `d` of it anybody makes the signature of
the rest: it is accepted, with the difference of the weights. -/
theorem c107_remove {mode : Mode} {V : Validators} {b d : Fin 10 → Bool} {msg : Vector Fips.Byte 32} {H : ETwist Fp}
    (h : V.CanSign mode (fun i => b i && !d i) msg H) (hd : ∀ i, d i = true → b i = true) (M : G2In) {c : Fr}
    (hc : V.set.CommitsTo c) (w : Fr) :
    (txDefine mode ⟨M, c, w⟩ ⟨V.keys, newG2Affine (enc2 (V.signature b H - V.signature d H)), fun i => bit (b i && !d i),
        V.weights, msgVars msg⟩).run = some () ↔
      w = (∑ i, if b i then V.weights i else 0) - ∑ i, if d i then V.weights i else 0 := by
  have hu : (fun i => (b i && !d i) || d i) = b := funext fun i => by
    have := hd i
    cases hb : b i <;> cases hd : d i <;> simp_all
  have hx : ∀ i, ¬ ((b i && !d i) = true ∧ d i = true) := fun i => by cases b i <;> cases d i <;> simp
  have e := combine_two V 1 (-1) b d H
  rw [one_zsmul, neg_one_zsmul, ← sub_eq_add_neg] at e
  have hsig := signature_union V hx H
  have hkey := key_union V (fun i => b i && !d i) d
  have hw := weight_union V.weights hx
  have hbool : ∀ i, ((b i && !d i || d i) = b i) := fun i => congrFun hu i
  simp only [hbool] at hsig hkey hw
  rw [key_empty V (b := fun i => b i && !d i && d i) (fun i => by cases b i <;> cases d i <;> rfl), add_zero] at hkey
  have := c107_transaction (k := fun j : Bool => if j then 1 else -1) (b := fun j => if j then b else d) h
    (by rw [e, hsig, add_sub_cancel_right]; exact sig_ne h) M hc w
  rw [e, key_two, one_zsmul, neg_one_zsmul, ← hkey, add_neg_cancel_right] at this
  rw [this, hw, add_sub_cancel_right, and_iff_left rfl]

end Spark.HistoryProps

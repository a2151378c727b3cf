import Verif.Props.Scope
import Verif.Props.NoSigner

/-!
# C111: one change to an accepted transaction

Accountability (C105) supposes that different groups of validators have different sums of keys.  A single change needs no such
condition: one bit, one key or one exchange of a signer for a non-signer always changes the sum of the keys.
-/

namespace Spark.HistoryProps
open Spark Circ Spec Circuit Pairing PairingProps CircuitProps GroupProps HonestProps ExceptionProps HelperProps HashProps
open scoped BigOperators
set_option maxRecDepth 100000

theorem signersSum_pair (K : Fin 10 → E1 Fp) {A B : Fin 10 → Prop} (i : Fin 10) (hi : A i) (hn : ¬ B i)
    (h : ∀ j, j ≠ i → (A j ↔ B j)) : signersSum K A = signersSum K B + K i := by
  rw [signersSum_split K A B, ← signersSum_single K i]
  congr 1
  · exact congrArg _ (funext fun j => propext ⟨fun h => h.2, fun hj => ⟨(h j fun e => hn (e ▸ hj)).2 hj, hj⟩⟩)
  · refine congrArg _ (funext fun j => propext ⟨fun hj => ?_, fun e => ?_⟩)
    · by_contra e; exact hj.2 ((h j e).1 hj.1)
    · subst e; exact ⟨hi, hn⟩

/-- keys in general position have a finite sum -/
theorem general_ne {K : Fin 10 → E1 Fp} (hK : ∀ i, K i ≠ 0) {b : Fin 10 → Bool} (hg : GeneralPosition K fun i => b i = true)
    (hb : ∃ i, b i = true) : signersSum K (fun i => b i = true) ≠ 0 := by
  classical
  obtain ⟨i0, hi0⟩ := hb
  let s := Finset.univ.filter fun i => b i = true
  have hs : s.Nonempty := ⟨i0, by simp [s, hi0]⟩
  have hm := s.max'_mem hs
  have hlt : ∀ j, b j = true → j ≠ s.max' hs → j < s.max' hs := fun j hj hn =>
    lt_of_le_of_ne (s.le_max' j (by simp [s, hj])) hn
  generalize s.max' hs = m at hm hlt
  have hbm : b m = true := by simpa [s] using hm
  rw [signersSum_pair K (B := fun j => j < m ∧ b j = true) m hbm (fun h => lt_irrefl _ h.1)
    fun j hj => ⟨fun h => ⟨hlt j h hj, h⟩, fun h => h.2⟩]
  by_cases he : ∃ j, j < m ∧ b j = true
  · exact fun e => (hg m hbm he).2 (eq_neg_of_add_eq_zero_left e)
  · have : (fun j => j < m ∧ b j = true) = fun _ => False := funext fun j => eq_false fun h => he ⟨j, h⟩
    rw [this, signersSum_false, zero_add]
    exact hK m

theorem general_secret {V : Validators} (hK : ∀ i, V.sk i • G1gen ≠ 0) {b : Fin 10 → Bool}
    (hg : GeneralPosition (fun i => V.sk i • G1gen) fun i => bit (b i) = 1) (hb : ∃ i, b i = true) :
    ¬ rOrder ∣ secretSum V.sk fun i => bit (b i) = 1 := fun ⟨k, e⟩ => by
  simp only [bits_eq] at hg e
  refine general_ne hK hg hb ?_
  rw [signersSum_secret, e, mul_comm, mul_nsmul', Witness.G1gen_order, nsmul_zero]

/-- **C111, one bit.** In the test engine: the validators in `b` have signed; if one bit is flipped, the transaction is rejected,
whatever weight is declared. -/
theorem c111_bit {V : Validators} {b : Fin 10 → Bool} {msg : Vector Fips.Byte 32} {H : ETwist Fp}
    (h : V.CanSign .engine b msg H) (i : Fin 10)
    (hg : GeneralPosition (fun i => V.sk i • G1gen) fun j => bit (Function.update b i (!b i) j) = 1) (M : G2In) {c : Fr}
    (hc : V.set.CommitsTo c) (w : Fr) :
    (txDefine .engine ⟨M, c, w⟩
      ⟨V.keys, V.sign b H, fun j => bit (Function.update b i (!b i) j), V.weights, msgVars msg⟩).run ≠ some () := by
  intro hr
  have hu : ∀ j, j ≠ i → Function.update b i (!b i) j = b j := fun j hj => Function.update_of_ne hj _ _
  have hi : Function.update b i (!b i) i = !b i := Function.update_self _ _ _
  generalize Function.update b i (!b i) = b' at hg hr hu hi
  by_cases hb : ∃ j, b' j = true
  · have e := ((c105_transaction h hg (Or.inl rfl) (general_secret h.keys hg hb) M hc w).1 hr).2
    by_cases hbi : b i = true
    · rw [signersSum_pair _ (A := fun i => b i = true) (B := fun i => b' i = true) i hbi (by simp [hi, hbi])
        fun j hj => by rw [hu j hj]] at e
      exact h.keys i (left_eq_add.1 e)
    · rw [signersSum_pair _ (A := fun i => b' i = true) (B := fun i => b i = true) i (by simp [hi, hbi]) hbi
        fun j hj => by rw [hu j hj]] at e
      exact h.keys i (add_eq_left.1 e)
  · exact c106_engine (fun j => by simp [Bool.eq_false_iff.2 fun h => hb ⟨j, h⟩]) ⟨(), (txDefine _ _ _).ok _ hr⟩

/-- The same for rotations. -/
theorem c111_bit_rotation {V N : Validators} {b : Fin 10 → Bool} {msg : Vector Fips.Byte 32} {H : ETwist Fp}
    (h : N.CanSign .engine b msg H) (i : Fin 10)
    (hg : GeneralPosition (fun i => N.sk i • G1gen) fun j => bit (Function.update b i (!b i) j) = 1) (M : G2In) {c c' : Fr}
    (hV : ∀ i, V.sk i • G1gen ≠ 0) (hc : V.set.CommitsTo c) (hc' : N.set.CommitsTo c') (w : Fr) :
    (rotateDefine .engine ⟨M, c, c', msgVars msg, w⟩
      ⟨V.weights, N.weights, V.keys, N.keys, fun j => bit (Function.update b i (!b i) j), N.sign b H⟩).run ≠ some () := by
  intro hr
  have hu : ∀ j, j ≠ i → Function.update b i (!b i) j = b j := fun j hj => Function.update_of_ne hj _ _
  have hi : Function.update b i (!b i) i = !b i := Function.update_self _ _ _
  generalize Function.update b i (!b i) = b' at hg hr hu hi
  by_cases hb : ∃ j, b' j = true
  · have e := ((c105_rotation h hg (Or.inl rfl) (general_secret h.keys hg hb) M hV hc hc' w).1 hr).2
    by_cases hbi : b i = true
    · rw [signersSum_pair _ (A := fun i => b i = true) (B := fun i => b' i = true) i hbi (by simp [hi, hbi])
        fun j hj => by rw [hu j hj]] at e
      exact h.keys i (left_eq_add.1 e)
    · rw [signersSum_pair _ (A := fun i => b' i = true) (B := fun i => b i = true) i (by simp [hi, hbi]) hbi
        fun j hj => by rw [hu j hj]] at e
      exact h.keys i (add_eq_left.1 e)
  · exact c106_engine_rotation (fun j => by simp [Bool.eq_false_iff.2 fun h => hb ⟨j, h⟩]) ⟨(), (rotateDefine _ _ _).ok _ hr⟩

theorem exchange_iff (K : Fin 10 → E1 Fp) {b : Fin 10 → Bool} {i j : Fin 10} (hi : b i = true) (hj : b j = false) :
    signersSum K (fun k => b (Equiv.swap i j k) = true) = signersSum K (fun k => b k = true) ↔ K j = K i := by
  rw [signersSum_pair _ (A := fun k => b (Equiv.swap i j k) = true) (B := fun k => b k = true ∧ k ≠ i) j
      (by rw [Equiv.swap_apply_right]; exact hi) (by simp [hj]) fun k hk => ?_,
    signersSum_pair _ (A := fun k => b k = true) (B := fun k => b k = true ∧ k ≠ i) i hi (by simp) fun k hk => by simp [hk]]
  · exact add_right_inj _
  · by_cases e : k = i
    · subst e; simp [hj]
    · rw [Equiv.swap_apply_of_ne_of_ne e hk]; simp [e]

/-- **C111, another signer.** Validator `i` has signed and `j` has not; the transaction claims the opposite. It is accepted, with the
weight claimed, only if the two have the same key. -/
theorem c111_exchange {mode : Mode} {V : Validators} {b : Fin 10 → Bool} {msg : Vector Fips.Byte 32} {H : ETwist Fp}
    (h : V.CanSign mode b msg H) {i j : Fin 10} (hi : b i = true) (hj : b j = false)
    (hg : GeneralPosition (fun i => V.sk i • G1gen) fun k => bit (b (Equiv.swap i j k)) = 1)
    (he : ExactAggregation mode fun k => bit (b (Equiv.swap i j k))) (M : G2In) {c : Fr} (hc : V.set.CommitsTo c) (w : Fr) :
    (txDefine mode ⟨M, c, w⟩
      ⟨V.keys, V.sign b H, fun k => bit (b (Equiv.swap i j k)), V.weights, msgVars msg⟩).run = some () ↔
      w = (∑ k, if b (Equiv.swap i j k) then V.weights k else 0) ∧ V.sk j • G1gen = V.sk i • G1gen := by
  have hb : ∃ k, b (Equiv.swap i j k) = true := ⟨j, by rw [Equiv.swap_apply_right]; exact hi⟩
  rw [c105_transaction (b' := fun k => b (Equiv.swap i j k)) h hg he (general_secret h.keys hg hb) M hc w]
  exact and_congr_right fun _ => exchange_iff _ hi hj

/-- The same for rotations. -/
theorem c111_exchange_rotation {mode : Mode} {V N : Validators} {b : Fin 10 → Bool} {msg : Vector Fips.Byte 32} {H : ETwist Fp}
    (h : N.CanSign mode b msg H) {i j : Fin 10} (hi : b i = true) (hj : b j = false)
    (hg : GeneralPosition (fun i => N.sk i • G1gen) fun k => bit (b (Equiv.swap i j k)) = 1)
    (he : ExactAggregation mode fun k => bit (b (Equiv.swap i j k))) (M : G2In) {c c' : Fr} (hV : ∀ i, V.sk i • G1gen ≠ 0)
    (hc : V.set.CommitsTo c) (hc' : N.set.CommitsTo c') (w : Fr) :
    (rotateDefine mode ⟨M, c, c', msgVars msg, w⟩
      ⟨V.weights, N.weights, V.keys, N.keys, fun k => bit (b (Equiv.swap i j k)), N.sign b H⟩).run = some () ↔
      w = (∑ k, open Classical in if b (Equiv.swap i j k) ∧ N.sk k • G1gen = V.sk k • G1gen then V.weights k else 0) ∧
      N.sk j • G1gen = N.sk i • G1gen := by
  have hb : ∃ k, b (Equiv.swap i j k) = true := ⟨j, by rw [Equiv.swap_apply_right]; exact hi⟩
  rw [c105_rotation (b' := fun k => b (Equiv.swap i j k)) h hg he (general_secret h.keys hg hb) M hV hc hc' w]
  exact and_congr_right fun _ => exchange_iff _ hi hj

/-- **C111, another key.** The transaction claims that signer `i` has the key of the secret `k`. It is accepted only if that is the
key it has; the commitment is that of the claimed keys. -/
theorem c111_key {mode : Mode} {V : Validators} {b : Fin 10 → Bool} {msg : Vector Fips.Byte 32} {H : ETwist Fp}
    (h : V.CanSign mode b msg H) {i : Fin 10} (hi : b i = true) {k : ℕ} (hk : k • G1gen ≠ 0) (hd : k • G1gen ≠ V.sk i • G1gen)
    {W : Validators} (hW : W.sk = Function.update V.sk i k)
    (hg : GeneralPosition (fun j => W.sk j • G1gen) fun j => bit (b j) = 1) (M : G2In) (c w : Fr) :
    (txDefine mode ⟨M, c, w⟩ ⟨W.keys, V.sign b H, fun j => bit (b j), W.weights, msgVars msg⟩).run ≠ some () := by
  intro hr
  have hWi : W.sk i = k := by rw [hW]; exact Function.update_self _ _ _
  have hWj : ∀ j, j ≠ i → W.sk j = V.sk j := fun j hj => by rw [hW]; exact Function.update_of_ne hj _ _
  have hK : ∀ j, W.sk j • G1gen ≠ 0 := fun j => by
    by_cases e : j = i
    · subst e; rw [hWi]; exact hk
    · rw [hWj j e]; exact h.keys j
  obtain ⟨u0, u1, hu, t0, t1, hne⟩ := h.regular
  have hHr := rfcHash_order h.hash
  have hs := general_secret hK hg ⟨i, hi⟩
  obtain ⟨z, -, hrun⟩ := c97_transaction (mode := mode) (pub := ⟨M, c, w⟩)
    (priv := ⟨W.keys, V.sign b H, fun i => bit (b i), W.weights, msgVars msg⟩) W.sk (W.denotes hK)
    (fun i => bit_cases (b i)) hg h.exact hs rfl hu t0 t1 hne h.hash h.finite _ rfl
    (by rw [aggregateSignature_eq]; exact smul_ne_of hHr h.finite h.secret)
    (by rw [aggregateSignature_eq]; exact order_nsmul hHr _)
  have e := (hrun.1 hr).2.2.1
  have hp := Fact.mk rOrder_prime
  have o1 : addOrderOf H = rOrder := addOrderOf_eq_prime hHr h.finite
  have o2 : addOrderOf G1gen = rOrder := addOrderOf_eq_prime Witness.G1gen_order G1gen_ne
  have e' : signersSum (fun i => V.sk i • G1gen) (fun i => b i = true) = signersSum (fun i => W.sk i • G1gen) fun i => b i = true := by
    simp only [bits_eq] at e
    rwa [aggregateSignature_eq, aggregateSignature_eq, nsmul_eq_nsmul_iff_modEq, o1, ← o2, ← nsmul_eq_nsmul_iff_modEq,
      ← signersSum_secret, ← signersSum_secret] at e
  rw [signersSum_pair _ (A := fun k => b k = true) (B := fun k => b k = true ∧ k ≠ i) i hi (by simp) fun k hk => by simp [hk],
    signersSum_pair (fun i => W.sk i • G1gen) (A := fun k => b k = true) (B := fun k => b k = true ∧ k ≠ i) i hi (by simp)
      fun k hk => by simp [hk],
    HonestProps.signersSum_congr (K' := fun i => W.sk i • G1gen) fun j hj => by rw [hWj j hj.2], add_right_inj] at e'
  rw [hWi] at e'
  exact hd e'.symm

end Spark.HistoryProps

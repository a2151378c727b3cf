import Verif.Lemmas.HashExample
import Verif.Lemmas.MillerEval
import Verif.Lemmas.Generators
import Verif.Lemmas.CircuitMain
import Verif.Lemmas.TwistOrder

/-!
# A concrete signed transaction, evaluated in the kernel

`H` is the hash of the example message, the ten secret keys are `2^i` (so their sum is 1023), the aggregated
signature is `1023 H`.  The literals come from `tools/gen_witness.py`; every one is checked here.
-/

namespace Spark.Witness
open Circ NC G2 Spec Pairing PairingProps Circuit
set_option maxRecDepth 100000

/-- the hash point -/
@[irreducible] def hN : NPt := ((0x4931594429eea5f457841eb7a0d8cfda89905d1b268d98b6a825017a99bdfd1e35aa5ffd4c68a315099d70ab3e78c3e, 0x38f8eb28984e6eab900be6cd1b6bfd3df42ce7c787182b86e1e79724f0b23136851e6a768a88535a219cf4b171680ff),
  (0x1335da65573fa74bb27f49aa0fd5c141f7acce9bdecd8269c8fead1352345e459e36842dd1fa71b7a97f094f67025276, 0xda27fd8dcf76386d765bb98bd5e5764bc47aa041a3008d572429d8e3d207f4f9e8f66b1935df3643d05a1ca257b0d8e))
/-- `1023 H` -/
@[irreducible] def sN : NPt := ((0x405374aaaf9b069dc1c1e4ad77574b2cc1edd7b0d08e05145d96dd7736ec4eab7af1dabf9aa1e7a0d8c55608d0d8918, 0xc7776e9845ceab1b1b71fdba8af523ef5159bc5e68c729c3022ff56a8bc5ac5a47d0bb0b1820758311f9e9669f2411d),
  (0x73cec03365d9b59beb81ee2fa8e5531b2d6c33fe0dceb475f2487e353faa70020ae9f01d8685256338860f6993a8008, 0x3d5ac66fb8dacd421d51728bcb8dc83709c2acc2515b52b6094abeb4f32dc2865ad81aee0ddc65f4938ff06eb724a4f))
/-- the generator of G1, with coordinates in `Fp2` -/
def gN : NPt := ((gen1x, 0), (gen1y, 0))
/-- abscissa of `1023 g1` -/
@[irreducible] def ax : ℕ := 0x1137dd4bad5051af74083172f5d879e34e53df579c296c6f8a6ce8e350ff6d3653c8bdcd42522d1a2f6b0523257bfa30
/-- ordinate of `1023 g1` -/
@[irreducible] def ay : ℕ := 0x11ef7a19d473f6a5b7cbe9339f0e863ef04b066044ed614c369179757aff3eb9bd9e78d35fad40bbc2f8aeb8f7885aff
/-- the Miller value of `(-g1, 1023 H), (1023 g1, H)` -/
@[irreducible] def zN : N12 := ⟨(0x1649c20743e6170d408a1755898fb2b228d047fe2a29bb15569e171f990ce084723d39c0bc3e1ff81d3f81fbd45cc42f, 0x124057058192441aee283118fced56c14043f1ac0dd275a490a0651ddf247519e592b201bf5f8678fa5963c4e9a15694),
  (0x102c5c3849cad6905324b670442849e0ffcfe04668989eb2747b596e016356532498abc35f398cccfc7db6e5c5118526, 0xf496d1848914ebe8d31240aa5cf2bf3d56848f732a0e67dac49b6752e8d7befb3a746a9480cb0c086220f136ff6810f),
  (0x4b495ee6b734b2821ccba8243a6e893cebe3510096c9cc5f1564dcb4213e1f3c68ed5806d95aac7edeaab8b3fc8d744, 0x2b8d3032ea27468ce5c7de5a0fd3c7c63f7fb8cdaff37c7a3139fc011d74cf86c614e2cc4208618f1423f082547346e),
  (0x873aefcf8ecfb750ebaf37fb4250a360da6cbd7efabfb5b186a10176db590ae3e499d53bd636dd6a2fe3597aeda9125, 0x13f8e896f84d51eeed61db139f5c1cb1a13b881f8ce1e64e957bc594ec3043f6c7aad324be8dbb707c5bd83ddd67b4b9),
  (0x1d4cd9e02d60543a26763405f1b69092365ec1e7a8a286df3c2e65fa528b259f814a2480b88ea41f68f61d22cd677ca, 0x4cf001523bf2f56423f376d90bd0daf79207cfea1a62d4b73ed5e76679d5ecf43344fc423176d37ca58f76e70e5ffa3),
  (0x538250ae93384ebae26cd596667173b7fa008b04d753d3060e6a2556799dcc8d593d631df4c0b0a5e59e32411924520, 0xee225f2b42fcf5a3de4ac6ea43b7e6ec3d7ee14b705aefeedec99ef71597ce308dc6ab7315fcdc4a6382af5b7308df8)⟩

theorem hash_check : nHash exU0 exY0 exU1 exY1 = some hN := by decide +kernel
theorem s_check : smulAux hN 1023 9 hN = some sN := by decide +kernel
theorem g_order_check : smulAux gN (rOrder - 1) 254 gN = some (gN.1, neg gN.2) := by decide +kernel
theorem a_check : smulAux gN 1023 9 gN = some ((ax, 0), (ay, 0)) := by decide +kernel
theorem miller_check : (do
    let z1 ← nMiller gen1x (fpOrder - gen1y) sN
    let z2 ← nMiller ax ay hN
    pure (mul12 z1 z2)) = some zN := by decide +kernel
theorem easy_check : nz (pow12 zN (fpOrder ^ 2 + 1)).c1 = true := by decide +kernel
theorem c1_check : nz zN.c1 = true := by decide +kernel
/-- `e(-g1, S) · e(1023 g1, g2)` is not 1 -/
theorem other_check : ((do
    let z1 ← nMiller gen1x (fpOrder - gen1y) sN
    let z2 ← nMiller ax ay genN
    pure (pow12 (mul12 z1 z2) ((fpOrder ^ 12 - 1) / rOrder))).map fun z : N12 => nz z.c1) = some true := by
  decide +kernel

/-! ### the points -/

/-- `E(Fp)` inside `E(Fp2)` -/
noncomputable def embed : E1 Fp →+ (sw (4 : E2 Fp)).Point :=
  twistHom (b := (4 : Fp)) E2.ofHom one_ne_zero (by rw [one_pow, one_mul, map_ofNat])

theorem embed_pt {P : E1 Fp} {x y : ℕ} : Pt P (x : Fp) (y : Fp) → IsPt (embed P) ((x, 0), (y, 0)) := by
  intro h
  have e : ∀ n : ℕ, e2 (n, 0) = E2.ofHom (n : Fp) := fun n => by
    rw [E2.ofHom_apply]
    ext <;> simp [e2, toE2, E2.of]
  have h1 := h.twist E2.ofHom one_ne_zero (b' := (4 : E2 Fp)) (by rw [one_pow, one_mul, map_ofNat])
  refine h1.congr ?_ ?_
  · rw [e, one_pow, one_mul]
  · rw [e, one_pow, one_mul]

theorem embed_inj : Function.Injective embed := twistHom_injective _ _ _

theorem gen_pt : Pt G1gen (gen1x : Fp) (gen1y : Fp) := ⟨_, rfl⟩

/-- the generator of G1 has order `r` -/
theorem G1gen_order : rOrder • G1gen = 0 := by
  apply embed_inj
  rw [map_nsmul, map_zero]
  exact order_of_check (embed_pt gen_pt) 254 g_order_check (by decide +kernel) rfl (e2_neg _)

theorem smul_gen_eq_zero {n : ℕ} (h : n • G1gen = 0) : rOrder ∣ n := by
  have h1 : addOrderOf G1gen = rOrder :=
    addOrderOf_eq_prime (hp := ⟨rOrder_prime⟩) G1gen_order G1gen_ne
  rw [← h1]
  exact addOrderOf_dvd_of_nsmul_eq_zero h

theorem a_eqn : ((ay : ℕ) : Fp) ^ 2 = ((ax : ℕ) : Fp) ^ 3 + 4 := by
  have : ((ay ^ 2 : ℕ) : Fp) = ((ax ^ 3 + 4 : ℕ) : Fp) := by
    rw [ZMod.natCast_eq_natCast_iff']; decide +kernel
  push_cast at this
  exact this

theorem ay_ne : ((ay : ℕ) : Fp) ≠ 0 := cast_ne (by decide +kernel)

/-- the sum of the keys -/
theorem a_pt : Pt (1023 • G1gen) (ax : Fp) (ay : Fp) := by
  set A' : E1 Fp := .some (ax : Fp) (ay : Fp) (nonsingular_of two_ne_Fp ay_ne a_eqn) with hA
  have h1 : Pt A' (ax : Fp) (ay : Fp) := ⟨_, rfl⟩
  have h2 : embed (1023 • G1gen) = embed A' := by
    rw [map_nsmul]
    exact (smul_spec (embed_pt gen_pt) 1023 9 a_check (by decide)).ext (embed_pt h1)
  rw [embed_inj h2]
  exact h1

theorem h_eqn : (e2 hN.2) ^ 2 = (e2 hN.1) ^ 3 + ⟨4, 4⟩ := by
  have h : mul hN.2 hN.2 = add (mul hN.1 (mul hN.1 hN.1)) (4, 4) := by decide +kernel
  have := congrArg e2 h
  rw [e2_mul, e2_add, e2_mul, e2_mul] at this
  have h4 : e2 (4, 4) = ⟨4, 4⟩ := by rw [e2, toE2_eq]; ext <;> simp
  rw [h4] at this
  rw [pow_two, this]; ring

/-- hashed points have order `r` -/
theorem hash_order {u0 y0 u1 y1 : N2} {R : NPt} {Q : ETwist Fp} (h : nHash u0 y0 u1 y1 = some R) (hQ : IsPt Q R) :
    rOrder • Q = 0 := by
  obtain ⟨d0, d1, -, -, hp, -⟩ := nHash_spec h
  obtain ⟨x0, y0', x1, y1', Q0, Q1, c0, c1, q0, q1, -⟩ := hashTail_run d0 d1
  obtain ⟨-, -, -, hb⟩ := hp Q0 Q1 (HashProps.codeMapsTo_of c0 q0) (HashProps.codeMapsTo_of c1 q1)
  rw [hQ.ext hb]
  exact TwistPoints.bp_order _

/-- the hash point -/
noncomputable def Hpt : ETwist Fp :=
  .some (e2 hN.1) (e2 hN.2) (nonsingular_of two_ne_E2 (e2_nz (by decide +kernel)) h_eqn)

theorem H_pt : IsPt Hpt hN := ⟨_, rfl⟩
theorem H_ne : Hpt ≠ 0 := WeierstrassCurve.Affine.Point.some_ne_zero _
theorem H_order : rOrder • Hpt = 0 := hash_order hash_check H_pt

theorem enc2_H : enc2 Hpt = pt hN := rfl

theorem S_pt : IsPt (1023 • Hpt) sN := smul_spec H_pt 1023 9 s_check (by decide)
theorem S_ne : 1023 • Hpt ≠ 0 := S_pt.ne_zero
theorem S_order : rOrder • (1023 • Hpt) = 0 := by
  rw [smul_comm, H_order, nsmul_zero]
theorem enc2_S : enc2 (1023 • Hpt) = pt sN := enc2_pt S_pt

theorem A_ne : 1023 • G1gen ≠ 0 := a_pt.ne_zero
theorem enc1_A : enc1 (1023 • G1gen) = ⟨(ax : Fp), (ay : Fp)⟩ := enc1_pt a_pt

theorem neg_gen_pt : Pt (-G1gen) (gen1x : Fp) ((fpOrder - gen1y : ℕ) : Fp) := by
  have := gen_pt.neg
  rw [Nat.cast_sub (by decide +kernel)]
  simpa using this

theorem enc1_neg_gen : enc1 (-G1gen) = ⟨(gen1x : Fp), ((fpOrder - gen1y : ℕ) : Fp)⟩ := enc1_pt neg_gen_pt

/-! ### the pairing equation -/

theorem pure_inj {α : Type} {a b : α} (h : (pure a : Circ α) = pure b) : a = b := by
  have := congrArg Circ.run h
  rw [run_pure, run_pure] at this
  exact Option.some.inj this

/-- a kernel evaluation of the Miller loop gives the reduced pairing -/
theorem ate_of_eval {P : E1 Fp} {Q : ETwist Fp} (h : GoodPair (P, Q)) {x y : ℕ} {T : NPt} {z : N12}
    (hP : enc1 P = ⟨(x : Fp), (y : Fp)⟩) (hQ : enc2 Q = pt T) (hz : nMiller x y T = some z) :
    miller1 (enc1 P, enc2 Q) = pure (e12 z) ∧ e12 z ^ ((fpOrder ^ 12 - 1) / rOrder) = ate P Q := by
  obtain ⟨z', h1, -, h2⟩ := miller_good h
  have h3 := nMiller_spec hz
  dsimp only at h1 h2
  rw [hP, hQ] at h1 ⊢
  obtain rfl := pure_inj (h1.symm.trans h3)
  refine ⟨h3, ?_⟩
  rw [ateExp_def] at h2
  exact h2

theorem good1 : GoodPair (-G1gen, 1023 • Hpt) := ⟨neg_ne_zero.2 G1gen_ne, S_ne, S_order⟩
theorem good2 : GoodPair (1023 • G1gen, Hpt) := ⟨A_ne, H_ne, H_order⟩
theorem good3 : GoodPair (1023 • G1gen, G2gen) := ⟨A_ne, G2gen_ne, G2gen_order⟩

theorem exp_lt : (fpOrder ^ 12 - 1) / rOrder < 2 ^ 4400 := by decide +kernel
theorem easy_lt : fpOrder ^ 2 + 1 < 2 ^ 4400 := by decide +kernel

/-- the Miller value -/
theorem miller_value : millerLoop [enc1 (-G1gen), enc1 (1023 • G1gen)] [enc2 (1023 • Hpt), enc2 Hpt] =
    .ok (pure (e12 zN)) := by
  have h := miller_check
  simp only [Option.bind_eq_bind, Option.bind_eq_some_iff, Option.pure_def, Option.some.injEq] at h
  obtain ⟨z1, h1, z2, h2, hz⟩ := h
  have m1 := (ate_of_eval good1 enc1_neg_gen enc2_S h1).1
  have m2 := (ate_of_eval good2 enc1_A enc2_H h2).1
  rw [millerLoop_eq (by simp) rfl]
  refine congrArg Except.ok ?_
  simp only [List.zip_cons_cons, List.zip_nil_left, mapC]
  rw [m1, m2]
  simp only [pure_bind, List.prod_cons, List.prod_nil, mul_one]
  rw [← e12_mul, hz]

theorem ne_one_of_c1 {z : N12} (h : nz z.c1 = true) : e12 z ≠ 1 ∧ (e12 z).C1 ≠ 0 := by
  have h1 := e2_nz h
  refine ⟨fun e => h1 ?_, fun e => h1 ?_⟩
  · have := congrArg (fun z : E12 Fp => z.C1.B0) e
    exact this
  · exact congrArg E6.B0 e

/-- the easy part is not 1 if `z^(p²+1)` is not in `Fp6` -/
theorem easy_ne_of {z : N12} (h1 : nz z.c1 = true) (h2 : nz (pow12 z (fpOrder ^ 2 + 1)).c1 = true) :
    safeInput (e12 z) ^ ((fpOrder ^ 6 - 1) * (fpOrder ^ 2 + 1)) ≠ 1 := by
  rw [safeInput, if_neg (ne_one_of_c1 h1).2]
  intro h
  have hw := (ne_one_of_c1 h2).2
  rw [e12_pow _ easy_lt] at hw
  rw [mul_comm, pow_mul] at h
  generalize e12 z ^ (fpOrder ^ 2 + 1) = w at h hw
  have h3 : E12.conj w = w := by
    rw [← E12.frob6]
    conv_lhs => rw [← Nat.sub_add_cancel (Nat.one_le_pow 6 fpOrder fpOrder_pos), pow_succ, h, one_mul]
  have h4 : -w.C1 = w.C1 := congrArg E12.C1 h3
  refine hw (mul_left_cancel₀ (Torus.two_ne6 (K := Fp)) ?_)
  linear_combination -h4

/-- the easy part is not 1, so the final exponentiation succeeds -/
theorem easy_ne : safeInput (e12 zN) ^ ((fpOrder ^ 6 - 1) * (fpOrder ^ 2 + 1)) ≠ 1 := easy_ne_of c1_check easy_check

/-- the signature is not one over the generator of G2 -/
theorem other_ne : ate (-G1gen) (1023 • Hpt) * ate (1023 • G1gen) G2gen ≠ 1 := by
  have h := other_check
  simp only [Option.bind_eq_bind, Option.map_eq_some_iff, Option.bind_eq_some_iff, Option.pure_def,
    Option.some.injEq] at h
  obtain ⟨z, ⟨z1, h1, z2, h2, hz⟩, hn⟩ := h
  have a1 := (ate_of_eval good1 enc1_neg_gen enc2_S h1).2
  have a2 := (ate_of_eval good3 enc1_A (T := genN) rfl h2).2
  rw [← a1, ← a2, ← mul_pow, ← e12_mul, ← e12_pow _ exp_lt, hz]
  exact (ne_one_of_c1 hn).1

/-! ### the keys -/

/-- the keys: `2^i` times the generator -/
noncomputable def key (i : Fin 10) : E1 Fp := 2 ^ i.val • G1gen

theorem smul_ne {n : ℕ} (h0 : n ≠ 0) (h : n < rOrder) : n • G1gen ≠ 0 := fun e =>
  absurd (Nat.le_of_dvd (Nat.pos_of_ne_zero h0) (smul_gen_eq_zero e)) (not_le.2 h)

theorem big : 5000 < rOrder := by decide +kernel

theorem pow_lt (i : Fin 10) : 2 ^ i.val < 1024 := by
  calc 2 ^ i.val < 2 ^ 10 := Nat.pow_lt_pow_right (by norm_num) i.2
    _ = 1024 := by norm_num

theorem key_ne (i : Fin 10) : key i ≠ 0 :=
  smul_ne (by positivity) (by have := pow_lt i; have := big; omega)

/-- sums of keys are small multiples of the generator -/
theorem signersSum_key (P : Fin 10 → Prop) :
    signersSum key P = (∑ i, open Classical in if P i then 2 ^ i.val else 0) • G1gen := by
  rw [signersSum, ← Finset.sum_nsmul_assoc]
  refine Finset.sum_congr rfl fun i _ => ?_
  by_cases h : P i
  · rw [if_pos h, if_pos h, key]
  · rw [if_neg h, if_neg h, zero_nsmul]

theorem sum_keys : ∑ i, key i = 1023 • G1gen := by
  simp only [key]
  rw [Finset.sum_nsmul_assoc]
  rfl

theorem sum_below : ∀ i : Fin 10, (∑ j : Fin 10, if j < i then 2 ^ j.val else 0) + 1 = 2 ^ i.val := by decide

theorem smul_diff {A : Type} [AddCommGroup A] {g : A} {n m : ℕ} (h : n + 1 ≤ m) (e : n • g = m • g) :
    (m - n) • g = 0 := by
  have h1 : (m - n) • g + n • g = n • g := by
    rw [← add_nsmul, Nat.sub_add_cancel (by omega)]
    exact e.symm
  exact add_eq_right.1 h1

theorem below_bound {P : Fin 10 → Prop} {i j : Fin 10} (hj : j < i) (hPj : P j) :
    ∃ n, signersSum key (fun k => k < i ∧ P k) = n • G1gen ∧ 0 < n ∧ n + 1 ≤ 2 ^ i.val := by
  classical
  refine ⟨_, signersSum_key _, ?_, ?_⟩
  · refine Finset.sum_pos' (fun _ _ => Nat.zero_le _) ⟨j, Finset.mem_univ _, ?_⟩
    rw [if_pos ⟨hj, hPj⟩]
    positivity
  · rw [← sum_below i]
    refine Nat.add_le_add_right (Finset.sum_le_sum fun k _ => ?_) 1
    split
    · next h => rw [if_pos h.1]
    · exact Nat.zero_le _

/-- the keys are in general position, whoever signs -/
theorem key_general (P : Fin 10 → Prop) : GeneralPosition key P := by
  intro i hi ⟨j, hj, hPj⟩
  obtain ⟨n, hn, h2, h1⟩ := below_bound hj hPj
  rw [hn, key]
  have h3 := pow_lt i
  have h4 := big
  generalize 2 ^ i.val = m at *
  refine ⟨fun e => ?_, fun e => ?_⟩
  · exact smul_ne (n := m - n) (by omega) (by omega) (smul_diff h1 e)
  · refine smul_ne (n := n + m) (by omega) (by omega) ?_
    rw [add_nsmul, e, neg_add_cancel]

end Spark.Witness

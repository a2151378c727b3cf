import Verif.Lemmas.CompiledAgg
import Verif.Lemmas.TxWitness

/-! The compiled aggregation of the keys `2^i • g1` for every set of signers, evaluated in the kernel without
divisions. -/

namespace Spark.Circuit
open Circ Spec Witness NC
set_option maxRecDepth 100000

/-- homogeneous coordinates -/
abbrev NHom := ℕ × ℕ × ℕ

/-- difference modulo `p` -/
def msub (x y : ℕ) : ℕ := (x + (fpOrder - y % fpOrder) % fpOrder) % fpOrder
/-- product modulo `p` -/
def mmul (x y : ℕ) : ℕ := x * y % fpOrder

theorem cast_msub (x y : ℕ) : ((msub x y : ℕ) : Fp) = x - y := by
  rw [msub, cast_mod, Nat.cast_add, cast_neg, sub_eq_add_neg]

theorem cast_mmul (x y : ℕ) : ((mmul x y : ℕ) : Fp) = x * y := by
  rw [mmul, cast_mod, Nat.cast_mul]

/-- the chord formula, `none` if the abscissas agree -/
def hchord (t : NHom) (q : ℕ × ℕ) : Option NHom :=
  let n := msub (mmul q.2 t.2.2) t.2.1
  let d := msub (mmul q.1 t.2.2) t.1
  let dd := mmul d d
  let xd := mmul t.1 dd
  let u := msub (msub (mmul (mmul n n) t.2.2) xd) (mmul (mmul q.1 t.2.2) dd)
  let ddd := mmul dd d
  if d = 0 then none else some (mmul d u, msub (mmul n (msub xd u)) (mmul t.2.1 ddd), mmul ddd t.2.2)

/-- `v` has homogeneous coordinates `t` -/
def HRep (v : G1Var) (t : NHom) : Prop :=
  (t.2.2 : Fp) ≠ 0 ∧ v = ⟨(t.1 : Fp) / t.2.2, (t.2.1 : Fp) / t.2.2, false⟩

theorem hchord_spec {v : G1Var} {t t' : NHom} {q : ℕ × ℕ} (h : HRep v t) (e : hchord t q = some t') :
    ∃ v', addG1Points v ⟨(q.1 : Fp), (q.2 : Fp), false⟩ = pure v' ∧ HRep v' t' := by
  obtain ⟨hZ, rfl⟩ := h
  rw [hchord] at e
  split at e
  · cases e
  · next hd =>
    obtain rfl := Option.some.inj e
    have hd' : ((msub (mmul q.1 t.2.2) t.1 : ℕ) : Fp) ≠ 0 := fun h0 => hd (by
      rw [ZMod.natCast_eq_zero_iff] at h0
      exact Nat.eq_zero_of_dvd_of_lt h0 (by rw [msub]; exact Nat.mod_lt _ fpOrder_pos))
    rw [cast_msub, cast_mmul] at hd'
    have hx : (q.1 : Fp) ≠ (t.1 : Fp) / t.2.2 := fun h0 => hd' (by rw [h0, div_mul_cancel₀ _ hZ, sub_self])
    refine ⟨_, add_chord_ne rfl rfl hx, ?_⟩
    simp only [HRep, cast_msub, cast_mmul]
    generalize (t.1 : Fp) = X at *
    generalize (t.2.1 : Fp) = Y at *
    generalize (t.2.2 : Fp) = Z at *
    generalize (q.1 : Fp) = a at *
    generalize (q.2 : Fp) = b at *
    refine ⟨mul_ne_zero (mul_ne_zero (mul_ne_zero hd' hd') hd') hZ, ?_⟩
    have hl : (b - Y / Z) / (a - X / Z) = (b * Z - Y) / (a * Z - X) := by
      rw [div_eq_div_iff (sub_ne_zero.2 hx) hd']; field_simp
    rw [chord, hl]
    have e1 : (b * Z - Y) / (a * Z - X) * ((b * Z - Y) / (a * Z - X)) - X / Z - a =
        (a * Z - X) * ((b * Z - Y) * (b * Z - Y) * Z - X * ((a * Z - X) * (a * Z - X)) -
          a * Z * ((a * Z - X) * (a * Z - X))) / ((a * Z - X) * (a * Z - X) * (a * Z - X) * Z) := by
      generalize b * Z - Y = n at *
      generalize hD : a * Z - X = d at *
      field_simp
    refine G1Var.ext e1 ?_ rfl
    show (b * Z - Y) / (a * Z - X) * (X / Z - ((b * Z - Y) / (a * Z - X) * ((b * Z - Y) / (a * Z - X)) - X / Z - a)) -
      Y / Z = _
    rw [e1]
    generalize b * Z - Y = n at *
    generalize hD : a * Z - X = d at *
    field_simp

/-- a summand: `none` is the constant (0,0) -/
def SRep (v : G1Var) (q : Option (ℕ × ℕ)) : Prop :=
  match q with
  | none => v.isZeroConst = true
  | some q => v = ⟨(q.1 : Fp), (q.2 : Fp), false⟩

/-- a partial sum: `none` is the constant (0,0) -/
def ARep (v : G1Var) (t : Option NHom) : Prop :=
  match t with
  | none => v.isZeroConst = true
  | some t => HRep v t

/-- a summand as a partial sum -/
def lift1 (q : ℕ × ℕ) : NHom := (q.1, q.2, 1)

theorem SRep.toA {v : G1Var} {q : Option (ℕ × ℕ)} (h : SRep v q) : ARep v (q.map lift1) := by
  cases q with
  | none => exact h
  | some q =>
    refine ⟨by simp [lift1], ?_⟩
    rw [h]; simp [lift1]

/-- `AddG1Points` -/
def hadd (t : Option NHom) (q : Option (ℕ × ℕ)) : Option (Option NHom) :=
  match t, q with
  | none, q => some (q.map lift1)
  | some t, none => some (some t)
  | some t, some q => (hchord t q).map some

theorem hadd_spec {v s : G1Var} {t t' : Option NHom} {q : Option (ℕ × ℕ)} (h : ARep v t) (hq : SRep s q)
    (e : hadd t q = some t') : ∃ v', addG1Points v s = pure v' ∧ ARep v' t' := by
  cases t with
  | none =>
    obtain rfl := Option.some.inj e
    exact ⟨s, by rw [addG1Points, if_pos (show v.isZeroConst = true from h)], hq.toA⟩
  | some t =>
    cases q with
    | none =>
      obtain rfl := Option.some.inj e
      have h0 : v.isZeroConst = false := by rw [h.2]
      exact ⟨v, by rw [addG1Points, if_neg (by simp [h0]), if_pos (show s.isZeroConst = true from hq)], h⟩
    | some q =>
      simp only [hadd, Option.map_eq_some_iff] at e
      obtain ⟨t1, e1, rfl⟩ := e
      rw [hq]
      exact hchord_spec h e1

/-- all summands -/
def hsum : Option NHom → List (Option (ℕ × ℕ)) → Option (Option NHom)
  | t, [] => some t
  | t, q :: qs => match hadd t q with
    | none => none
    | some t => hsum t qs

theorem hsum_spec {ss : List G1Var} {qs : List (Option (ℕ × ℕ))} (hs : List.Forall₂ SRep ss qs) :
    ∀ {v : G1Var} {t t' : Option NHom}, ARep v t → hsum t qs = some t' →
      ∃ v', ss.foldlM addG1Points v = pure v' ∧ ARep v' t' := by
  induction hs with
  | nil =>
    intro v t t' h e
    obtain rfl := Option.some.inj e
    exact ⟨v, rfl, h⟩
  | cons hq _ ih =>
    intro v t t' h e
    rw [hsum] at e
    split at e
    · cases e
    · next t1 e1 =>
      obtain ⟨v1, h1, h2⟩ := hadd_spec h hq e1
      obtain ⟨v2, h3, h4⟩ := ih h2 e
      exact ⟨v2, by rw [List.foldlM_cons, h1, pure_bind, h3], h4⟩

/-- sum of a non-empty list -/
def hall : List (Option (ℕ × ℕ)) → Option (Option NHom)
  | [] => none
  | q :: qs => hsum (q.map lift1) qs

theorem hall_spec {ss : List G1Var} {qs : List (Option (ℕ × ℕ))} (hs : List.Forall₂ SRep ss qs) {t : Option NHom}
    (e : hall qs = some t) : ∃ v, addAll ss = pure v ∧ ARep v t := by
  cases hs with
  | nil => cases e
  | cons hq hs => exact hsum_spec hs hq.toA e

/-! ### the keys `2^i • g1` -/

/-- coordinates of `2^i • g1` -/
@[irreducible] def kN : List (ℕ × ℕ) := [
  (0x17f1d3a73197d7942695638c4fa9ac0fc3688c4f9774b905a14e3a3f171bac586c55e83ff97a1aeffb3af00adb22c6bb,
    0x8b3f481e3aaa0f1a09e30ed741d8ae4fcf5e095d5d00af600db18cb2c04b3edd03cc744a2888ae40caa232946c5e7e1),
  (0x572cbea904d67468808c8eb50a9450c9721db309128012543902d0ac358a62ae28f75bb8f1c7c42c39a8c5529bf0f4e,
    0x166a9d8cabc673a322fda673779d8e3822ba3ecb8670e461f73bb9021d5fd76a4c56d9d4cd16bd1bba86881979749d28),
  (0xc9b60d5afcbd5663a8a44b7c5a02f19e9a77ab0a35bd65809bb5c67ec582c897feb04decc694b13e08587f3ff9b5b60,
    0x143be6d078c2b79a7d4f1d1b21486a030ec93f56aa54e1de880db5a66dd833a652a95bee27c824084006cb5644cbd43f),
  (0x85ae765588126f5e860d019c0e26235f567a9c0c0b2d8ff30f3e8d436b1082596e5e7462d20f5be3764fd473e57f9cf,
    0x19e7dfab8a794b6abb9f84e57739de172a63415273f460d1607fa6a74f0acd97d9671b801dd1fd4f18232dd1259359a1),
  (0x73eb991aa22cdb794da6fcde55a427f0a4df5a4a70de23a988b5e5fc8c4d844f66d990273267a54dd21579b7ba6a086,
    0x1825bacd18f695351f843521ebeada20352c3c3965626f98bc4c68e6ff7c4eed38b48f328204bbb9cd461511d24ebfb3),
  (0x72841987e4f219d54f2b6a9eac5fe6e78704644753c3579e776a3691bc123743f8c63770ed0f72a71e9e964dbf58f43,
    0xd6a2b27f2dc2f80885d7b3679d718c03978c664236ceae4bdb8a1a1f61d5c1433b538ddb43fef229cf4b0b03fad72e7),
  (0x111bb496153aa457e3302ea8e74427962c6eb57e97096f65cafe45a238f739b86d4b790debd5c7359f18f3642d7d774c,
    0x5120bf6abdb2aa0b467ba483df88a0745bffeefd606b6126813bc54a2acd1a57612c32b3e7329a1e163f782a75a291d),
  (0xb737f47d5b2794819b5dc01236895e684f1406f8b9f0d9aa06b5fb36dba6c185efec755b77d9424d09b848468127559,
    0x48ba1134d9ffeb5eb19f7006b3c7f64704674de5c9f2cbb52ad0278ff9d46e495b89dbb3189cd567d6fd160c676282),
  (0x25cdadf2afc5906b2602574a799f4089d90f36d73f94c1cf317cfc1a207c57f232bca6057924dd34cff5bde87f1930,
    0xd39b79486e185b221147b7d85eaf2238d756842bd84f57c6f37542a047a44d0c06b5de39f22721d14e54addecaea80),
  (0x9843dc6497bb8028cdbaea5c085b8e8c28bb5182ce691fa9ab5303b6792b2f5af0fc8fe52abb92c07ad5f4cf586c400,
    0x1706760b494640dd33fa5a9a078727a04c402f1714071bf2ada62eb4131718fc34864aeb9c27eef1475de5dd810d57bf)]

/-- the summands in the two modes -/
def summand (mode : Mode) (b : Bool) (k : ℕ × ℕ) : Option (ℕ × ℕ) :=
  match mode, b with
  | _, true => some k
  | .compiled, false => some (0, 0)
  | .engine, false => none

/-- the sum for the set of signers with bit mask `m` -/
def hmask (mode : Mode) (m : ℕ) : Option (Option NHom) :=
  hall ((List.finRange 10).map fun i => summand mode (m.testBit i.val) (kN.getD i.val (0, 0)))

/-- for the set of signers `m`: the compiled circuit and the test engine compute, and compute different pairs -/
def differ (m : ℕ) : Bool :=
  match hmask .compiled m, hmask .engine m with
  | some (some t), some (some s) =>
    mmul t.1 s.2.2 != mmul s.1 t.2.2 || mmul t.2.1 s.2.2 != mmul s.2.1 t.2.2
  | _, _ => false

instance (bs : Fin 10 → Bool) : Decidable (GoodPattern bs) := by unfold GoodPattern; infer_instance

/-- one of the first two validators does not sign, or even gaps and an even number of non-signers, or the compiled
circuit is wrong -/
def maskOk (m : ℕ) : Bool :=
  !(m.testBit 0 || m.testBit 1) ||
    (decide (GoodPattern fun i => m.testBit i.val) && absent (fun i => m.testBit i.val) 9 % 2 == 0) || differ m

theorem mask_check : (List.range 1024).all maskOk = true := by decide +kernel

/-- the coordinates of a multiple of the generator, by a kernel check -/
theorem gen_mul_pt {x y : ℕ} (k i : ℕ) (h : smulAux gN k i gN = some ((x, 0), (y, 0))) (hk : bitsVal k i 1 = k)
    (hy : y % fpOrder ≠ 0) (he : y ^ 2 % fpOrder = (x ^ 3 + 4) % fpOrder) : Pt (k • G1gen) (x : Fp) (y : Fp) := by
  have heq : (y : Fp) ^ 2 = (x : Fp) ^ 3 + 4 := by
    have : ((y ^ 2 : ℕ) : Fp) = ((x ^ 3 + 4 : ℕ) : Fp) := by rw [ZMod.natCast_eq_natCast_iff']; exact he
    push_cast at this
    exact this
  have hy0 : (y : Fp) ≠ 0 := fun e => hy (Nat.eq_zero_of_dvd_of_lt
    ((Nat.dvd_mod_iff (dvd_refl _)).2 ((ZMod.natCast_eq_zero_iff _ _).1 e)) (Nat.mod_lt _ (by decide +kernel)))
  set A' : E1 Fp := .some (x : Fp) (y : Fp) (nonsingular_of two_ne_Fp hy0 heq) with hA
  have h1 : Pt A' (x : Fp) (y : Fp) := ⟨_, rfl⟩
  have h2 : embed (k • G1gen) = embed A' := by
    rw [map_nsmul]
    exact (smul_spec (embed_pt gen_pt) k i h hk).ext (embed_pt h1)
  rw [embed_inj h2]
  exact h1

theorem kN_check : ∀ i : Fin 10, smulAux gN (2 ^ i.val) i.val gN =
      some (((kN.getD i.val (0, 0)).1, 0), ((kN.getD i.val (0, 0)).2, 0)) ∧
    bitsVal (2 ^ i.val) i.val 1 = 2 ^ i.val ∧ (kN.getD i.val (0, 0)).2 % fpOrder ≠ 0 ∧
    (kN.getD i.val (0, 0)).2 ^ 2 % fpOrder = ((kN.getD i.val (0, 0)).1 ^ 3 + 4) % fpOrder := by decide +kernel

theorem key_pt (i : Fin 10) : Pt (key i) ((kN.getD i.val (0, 0)).1 : Fp) ((kN.getD i.val (0, 0)).2 : Fp) := by
  obtain ⟨h1, h2, h3, h4⟩ := kN_check i
  exact gen_mul_pt _ _ h1 h2 h3 h4

theorem summand_rep {keys : Fin 10 → G1In} (hk : ∀ i, Denotes (keys i) (key i)) (mode : Mode) (b : Bool) (i : Fin 10) :
    SRep (selVal mode b (keys i)) (summand mode b (kN.getD i.val (0, 0))) := by
  obtain ⟨hX, hY⟩ := (hk i).2.unique (key_pt i)
  cases b
  · cases mode
    · rw [selVal_false, summand]
      exact congrArg₂ (G1Var.mk · · false) (Nat.cast_zero (R := Fp)).symm (Nat.cast_zero (R := Fp)).symm
    · rw [summand, selVal.eq_def]; rfl
  · rw [summand]
    cases mode <;> simp [SRep, selVal.eq_def, hX, hY]

theorem hmask_spec {keys : Fin 10 → G1In} (hk : ∀ i, Denotes (keys i) (key i)) (mode : Mode) {bs : Fin 10 → Bool}
    {m : ℕ} (hm : ∀ i : Fin 10, m.testBit i.val = bs i) {t : Option NHom} (e : hmask mode m = some t) :
    ∃ v, addAll (selected mode keys bs) = pure v ∧ ARep v t := by
  refine hall_spec ?_ e
  rw [selected, List.ofFn_eq_map, List.forall₂_map_left_iff, List.forall₂_map_right_iff, List.forall₂_same]
  intro i _
  rw [hm]
  exact summand_rep hk mode _ i

/-- **Every set of signers that has not even gaps or not an even number of non-signers**: with the keys `2^i • g1` the
compiled circuit computes something else than the test engine. -/
theorem compiled_ne_engine {keys : Fin 10 → G1In} (hk : ∀ i, Denotes (keys i) (key i)) {bs : Fin 10 → Bool}
    (h01 : bs 0 = true ∨ bs 1 = true) (hbad : ¬ (GoodPattern bs ∧ absent bs 9 % 2 = 0)) :
    ∃ v w, addAll (selected .compiled keys bs) = pure v ∧ addAll (selected .engine keys bs) = pure w ∧
      (v.X, v.Y) ≠ (w.X, w.Y) := by
  set m := Nat.ofBits bs with hmdef
  have hm : ∀ i : Fin 10, m.testBit i.val = bs i := fun i => Nat.testBit_ofBits_lt bs i.val i.2
  have hlt : m < 1024 := Nat.ofBits_lt_two_pow bs
  have hc := List.all_eq_true.1 mask_check m (List.mem_range.2 hlt)
  have hfun : (fun i : Fin 10 => m.testBit i.val) = bs := funext hm
  have hd : differ m = true := by
    rw [maskOk, hfun] at hc
    have h0 : m.testBit 0 = bs 0 := hm 0
    have h1 : m.testBit 1 = bs 1 := hm 1
    rw [h0, h1] at hc
    have hor : (bs 0 || bs 1) = true := by simpa using h01
    rw [hor] at hc
    by_contra hne
    apply hbad
    simpa [hne] using hc
  rw [differ] at hd
  split at hd
  · next t s ht hs =>
    obtain ⟨v, hv, hvr⟩ := hmask_spec hk .compiled hm ht
    obtain ⟨w, hw, hwr⟩ := hmask_spec hk .engine hm hs
    refine ⟨v, w, hv, hw, fun e => ?_⟩
    obtain ⟨hZ, rfl⟩ := hvr
    obtain ⟨hZ', rfl⟩ := hwr
    obtain ⟨eX, eY⟩ := Prod.mk.inj e
    simp only at eX eY
    rw [div_eq_div_iff hZ hZ'] at eX eY
    have back : ∀ a b c d : ℕ, (a : Fp) * b = c * d → mmul a b = mmul c d := fun a b c d h => by
      have : ((a * b : ℕ) : Fp) = ((c * d : ℕ) : Fp) := by push_cast; exact h
      exact (ZMod.natCast_eq_natCast_iff' _ _ _).1 this
    rw [back _ _ _ _ eX, back _ _ _ _ eY] at hd
    simp at hd
  · cases hd

end Spark.Circuit

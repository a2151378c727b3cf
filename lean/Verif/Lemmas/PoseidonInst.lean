import Verif.Lemmas.PoseidonGrain

/-! Generated by tools/gen_poseidon.py: the checks of Lemmas/PoseidonCheck and Lemmas/PoseidonGrain for the
sixteen widths, evaluated by the kernel. -/

set_option maxRecDepth 100000

namespace Spark.Poseidon

open PosData

/-- the stored matrix is the Cauchy matrix of the points -/
noncomputable def chkMds (n : ℕ) (M : List ℕ) (xy : ℕ) : Bool :=
  allN (Nat.succ n) fun i => allN (Nat.succ n) fun j =>
    eqm (Nat.mul (cell M j i) (Nat.add (ent xy i) (ent xy (Nat.add (Nat.succ n) j)))) 1

/-- dimensions, relations and generator -/
noncomputable def fullChk (n rp k m nrc : ℕ) (C S M P R : List ℕ) (xy : ℕ) : Bool :=
  andB (Nat.beq C.length 1) (andB (Nat.beq S.length rp) (andB (Nat.beq M.length (Nat.succ n))
    (andB (Nat.beq P.length (Nat.succ n)) (andB (chk n rp (nth C 0) S M P R)
      (andB (chkMds n M xy) (grainChk (Nat.succ n) rp k m nrc R xy))))))

theorem full2 : fullChk 1 56 12 16 178 c2 s2 m2 p2 rc2 xy2 = true := by decide +kernel
theorem full3 : fullChk 2 57 12 24 265 c3 s3 m3 p3 rc3 xy3 = true := by decide +kernel
theorem full4 : fullChk 3 56 13 29 334 c4 s4 m4 p4 rc4 xy4 = true := by decide +kernel
theorem full5 : fullChk 4 60 13 41 473 c5 s5 m5 p5 rc5 xy5 = true := by decide +kernel
theorem full6 : fullChk 5 60 13 44 508 c6 s6 m6 p6 rc6 xy6 = true := by decide +kernel
theorem full7 : fullChk 6 63 14 57 649 c7 s7 m7 p7 rc7 xy7 = true := by decide +kernel
theorem full8 : fullChk 7 64 14 66 755 c8 s8 m8 p8 rc8 xy8 = true := by decide +kernel
theorem full9 : fullChk 8 63 14 73 838 c9 s9 m9 p9 rc9 xy9 = true := by decide +kernel
theorem full10 : fullChk 9 60 14 77 887 c10 s10 m10 p10 rc10 xy10 = true := by decide +kernel
theorem full11 : fullChk 10 66 14 94 1087 c11 s11 m11 p11 rc11 xy11 = true := by decide +kernel
theorem full12 : fullChk 11 60 14 93 1073 c12 s12 m12 p12 rc12 xy12 = true := by decide +kernel
theorem full13 : fullChk 12 65 14 108 1246 c13 s13 m13 p13 rc13 xy13 = true := by decide +kernel
theorem full14 : fullChk 13 70 15 125 1443 c14 s14 m14 p14 rc14 xy14 = true := by decide +kernel
theorem full15 : fullChk 14 60 15 115 1326 c15 s15 m15 p15 rc15 xy15 = true := by decide +kernel
theorem full16 : fullChk 15 64 15 133 1529 c16 s16 m16 p16 rc16 xy16 = true := by decide +kernel
theorem full17 : fullChk 16 68 15 146 1690 c17 s17 m17 p17 rc17 xy17 = true := by decide +kernel

/-- parameters of every supported number of inputs -/
theorem params (n : ℕ) (h1 : 1 ≤ n) (h2 : n ≤ 16) : ∃ (rp k m nrc : ℕ) (C S M P R : List ℕ) (xy : ℕ),
    partialRounds n = some rp ∧ PosSpec.partialRounds[n - 1]? = some rp ∧
    PosData.C (n + 1) = some (C, 8 * (n + 1) + rp) ∧ PosData.S (n + 1) = some (S, 2 * n + 1) ∧
    PosData.M (n + 1) = some (M, n + 1) ∧ PosData.P (n + 1) = some (P, n + 1) ∧
    fullChk n rp k m nrc C S M P R xy = true := by
  interval_cases n
  · exact ⟨56, 12, 16, 178, c2, s2, m2, p2, rc2, xy2, rfl, rfl, rfl, rfl, rfl, rfl, full2⟩
  · exact ⟨57, 12, 24, 265, c3, s3, m3, p3, rc3, xy3, rfl, rfl, rfl, rfl, rfl, rfl, full3⟩
  · exact ⟨56, 13, 29, 334, c4, s4, m4, p4, rc4, xy4, rfl, rfl, rfl, rfl, rfl, rfl, full4⟩
  · exact ⟨60, 13, 41, 473, c5, s5, m5, p5, rc5, xy5, rfl, rfl, rfl, rfl, rfl, rfl, full5⟩
  · exact ⟨60, 13, 44, 508, c6, s6, m6, p6, rc6, xy6, rfl, rfl, rfl, rfl, rfl, rfl, full6⟩
  · exact ⟨63, 14, 57, 649, c7, s7, m7, p7, rc7, xy7, rfl, rfl, rfl, rfl, rfl, rfl, full7⟩
  · exact ⟨64, 14, 66, 755, c8, s8, m8, p8, rc8, xy8, rfl, rfl, rfl, rfl, rfl, rfl, full8⟩
  · exact ⟨63, 14, 73, 838, c9, s9, m9, p9, rc9, xy9, rfl, rfl, rfl, rfl, rfl, rfl, full9⟩
  · exact ⟨60, 14, 77, 887, c10, s10, m10, p10, rc10, xy10, rfl, rfl, rfl, rfl, rfl, rfl, full10⟩
  · exact ⟨66, 14, 94, 1087, c11, s11, m11, p11, rc11, xy11, rfl, rfl, rfl, rfl, rfl, rfl, full11⟩
  · exact ⟨60, 14, 93, 1073, c12, s12, m12, p12, rc12, xy12, rfl, rfl, rfl, rfl, rfl, rfl, full12⟩
  · exact ⟨65, 14, 108, 1246, c13, s13, m13, p13, rc13, xy13, rfl, rfl, rfl, rfl, rfl, rfl, full13⟩
  · exact ⟨70, 15, 125, 1443, c14, s14, m14, p14, rc14, xy14, rfl, rfl, rfl, rfl, rfl, rfl, full14⟩
  · exact ⟨60, 15, 115, 1326, c15, s15, m15, p15, rc15, xy15, rfl, rfl, rfl, rfl, rfl, rfl, full15⟩
  · exact ⟨64, 15, 133, 1529, c16, s16, m16, p16, rc16, xy16, rfl, rfl, rfl, rfl, rfl, rfl, full16⟩
  · exact ⟨68, 15, 146, 1690, c17, s17, m17, p17, rc17, xy17, rfl, rfl, rfl, rfl, rfl, rfl, full17⟩

end Spark.Poseidon

import Verif.Math.Frobenius
import Verif.Lemmas.Tower

/-! The non-residue tables of tower.go hold the powers of `ξ = 1+u` they claim (kernel-evaluated
over the full finite table). -/

namespace Spark
set_option maxRecDepth 100000

namespace Ext2

theorem lit_of (n : ℕ) : (⟨(n : Fp), ((0 : ℕ) : Fp)⟩ : E2 Fp) = E2.of (n : Fp) := by
  ext <;> simp

theorem nonResidues_1_1 : nonResidues 1 1 = some (E2.xi ^ (1 * (fpOrder ^ 1 - 1) / 6)) := by
  rw [E2.xi_pow_eval _ (by decide +kernel) _ _ (by decide +kernel : _ = (3850754370037169011952147076051364057158807420970682438676050522613628423219637725072182697113062777891589506424760, 151655185184498381465642749684540099398075398968325446656007613510403227271200139370504932015952886146304766135027))]
  simp only [nonResidues]; congr 2
theorem xi_1_2 : (E2.xi : E2 Fp) ^ (2 * (fpOrder ^ 1 - 1) / 6) = ⟨0, 4002409555221667392624310435006688643935503118305586438271171395842971157480381377015405980053539358417135540939436⟩ := by
  rw [E2.xi_pow_eval _ (by decide +kernel) _ _ (by decide +kernel : _ = (0, 4002409555221667392624310435006688643935503118305586438271171395842971157480381377015405980053539358417135540939436))]
  rfl
theorem nonResidues_1_3 : nonResidues 1 3 = some (E2.xi ^ (3 * (fpOrder ^ 1 - 1) / 6)) := by
  rw [E2.xi_pow_eval _ (by decide +kernel) _ _ (by decide +kernel : _ = (1028732146235106349975324479215795277384839936929757896155643118032610843298655225875571310552543014690878354869257, 1028732146235106349975324479215795277384839936929757896155643118032610843298655225875571310552543014690878354869257))]
  simp only [nonResidues]; congr 2
theorem xi_1_4 : (E2.xi : E2 Fp) ^ (4 * (fpOrder ^ 1 - 1) / 6) = E2.of 4002409555221667392624310435006688643935503118305586438271171395842971157480381377015405980053539358417135540939437 := by
  rw [E2.xi_pow_eval _ (by decide +kernel) _ _ (by decide +kernel : _ = (4002409555221667392624310435006688643935503118305586438271171395842971157480381377015405980053539358417135540939437, 0))]
  exact lit_of _
theorem nonResidues_1_5 : nonResidues 1 5 = some (E2.xi ^ (5 * (fpOrder ^ 1 - 1) / 6)) := by
  rw [E2.xi_pow_eval _ (by decide +kernel) _ _ (by decide +kernel : _ = (877076961050607968509681729531255177986764537961432449499635504522207616027455086505066378536590128544573588734230, 3125332594171059424908108096204648978570118281977575435832422631601824034463382777937621250592425535493320683825557))]
  simp only [nonResidues]; congr 2
theorem xi_2_1 : (E2.xi : E2 Fp) ^ (1 * (fpOrder ^ 2 - 1) / 6) = E2.of 793479390729215512621379701633421447060886740281060493010456487427281649075476305620758731620351 := by
  rw [E2.xi_pow_eval _ (by decide +kernel) _ _ (by decide +kernel : _ = (793479390729215512621379701633421447060886740281060493010456487427281649075476305620758731620351, 0))]
  exact lit_of _
theorem xi_2_2 : (E2.xi : E2 Fp) ^ (2 * (fpOrder ^ 2 - 1) / 6) = E2.of 793479390729215512621379701633421447060886740281060493010456487427281649075476305620758731620350 := by
  rw [E2.xi_pow_eval _ (by decide +kernel) _ _ (by decide +kernel : _ = (793479390729215512621379701633421447060886740281060493010456487427281649075476305620758731620350, 0))]
  exact lit_of _
theorem xi_2_3 : (E2.xi : E2 Fp) ^ (3 * (fpOrder ^ 2 - 1) / 6) = E2.of 4002409555221667393417789825735904156556882819939007885332058136124031650490837864442687629129015664037894272559786 := by
  rw [E2.xi_pow_eval _ (by decide +kernel) _ _ (by decide +kernel : _ = (4002409555221667393417789825735904156556882819939007885332058136124031650490837864442687629129015664037894272559786, 0))]
  exact lit_of _
theorem xi_2_4 : (E2.xi : E2 Fp) ^ (4 * (fpOrder ^ 2 - 1) / 6) = E2.of 4002409555221667392624310435006688643935503118305586438271171395842971157480381377015405980053539358417135540939436 := by
  rw [E2.xi_pow_eval _ (by decide +kernel) _ _ (by decide +kernel : _ = (4002409555221667392624310435006688643935503118305586438271171395842971157480381377015405980053539358417135540939436, 0))]
  exact lit_of _
theorem xi_2_5 : (E2.xi : E2 Fp) ^ (5 * (fpOrder ^ 2 - 1) / 6) = E2.of 4002409555221667392624310435006688643935503118305586438271171395842971157480381377015405980053539358417135540939437 := by
  rw [E2.xi_pow_eval _ (by decide +kernel) _ _ (by decide +kernel : _ = (4002409555221667392624310435006688643935503118305586438271171395842971157480381377015405980053539358417135540939437, 0))]
  exact lit_of _

end Ext2
end Spark

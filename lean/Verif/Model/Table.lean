import Verif.Model.Tower

/-!
# Model of the table of `NewExt2_`
-/

namespace Spark.Ext2
open Spark

/-- tower.go:72-107 `NewExt2_`: the map `nonResidues` of the lower-case `ext2` (missing keys: nil) -/
def nonResiduesLc : ℕ → ℤ → Option (E2 Fp)
  | 0, -1 => some ⟨2001204777610833696708894912867952078278441409969503942666029068062015825245418932221343814564507832018947136279894, 0⟩
  | 0, 1 => some ⟨1, 1⟩
  | 1, 1 => some ⟨3850754370037169011952147076051364057158807420970682438676050522613628423219637725072182697113062777891589506424760, 151655185184498381465642749684540099398075398968325446656007613510403227271200139370504932015952886146304766135027⟩
  | 1, 2 => some ⟨0, 4002409555221667392624310435006688643935503118305586438271171395842971157480381377015405980053539358417135540939436⟩
  | 1, 3 => some ⟨1028732146235106349975324479215795277384839936929757896155643118032610843298655225875571310552543014690878354869257, 1028732146235106349975324479215795277384839936929757896155643118032610843298655225875571310552543014690878354869257⟩
  | 1, 4 => some ⟨4002409555221667392624310435006688643935503118305586438271171395842971157480381377015405980053539358417135540939437, 0⟩
  | 1, 5 => some ⟨877076961050607968509681729531255177986764537961432449499635504522207616027455086505066378536590128544573588734230, 3125332594171059424908108096204648978570118281977575435832422631601824034463382777937621250592425535493320683825557⟩
  | 2, 1 => some ⟨793479390729215512621379701633421447060886740281060493010456487427281649075476305620758731620351, 0⟩
  | 2, 2 => some ⟨793479390729215512621379701633421447060886740281060493010456487427281649075476305620758731620350, 0⟩
  | 2, 3 => some ⟨4002409555221667393417789825735904156556882819939007885332058136124031650490837864442687629129015664037894272559786, 0⟩
  | 2, 4 => some ⟨4002409555221667392624310435006688643935503118305586438271171395842971157480381377015405980053539358417135540939436, 0⟩
  | 2, 5 => some ⟨4002409555221667392624310435006688643935503118305586438271171395842971157480381377015405980053539358417135540939437, 0⟩
  | _, _ => none

end Spark.Ext2

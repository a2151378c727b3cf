import Verif.Model.Expand

/-!
# Model of the byte helpers of `hashG2.go` that no circuit calls
-/

namespace Spark.H2C
open Spark Circ

/-- hashG2.go:144-152 `Get64BitsFrom8Bytes`: byte `j` supplies bits `64-8(j+1) … 64-8j-1` -/
def get64BitsFrom8Bytes (v : Vector Fr 8) : Circ (List Fr) := do
  let bs ← v.toList.mapM (toBinary 8)
  pure (bs.reverse.flatMap Vector.toList)

/-- hashG2.go:121-126 `min` -/
def goMin (a b : ℤ) : ℤ := if a < b then a else b

end Spark.H2C

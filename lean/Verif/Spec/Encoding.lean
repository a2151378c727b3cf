import Verif.Math.Fp

/-!
# Encodings of machine words as circuit variables (specification)
-/

namespace Spark

/-- the field element of a bit -/
def bit (b : Bool) : Fr := if b then 1 else 0

namespace Sha

/-- The `n` bit variables that denote the machine word `v`, least significant bit first (the
representation of `xuint8`, `xuint32`, `xuint64`). -/
def enc {n : ℕ} (v : BitVec n) : Vector Fr n := Vector.ofFn fun i => bit (v.getLsbD i)

/-- The variable that denotes a byte. -/
def byteVar (b : BitVec 8) : Fr := (b.toNat : Fr)

end Sha
end Spark

import Verif.Model.Sha256

/-! The exported methods of the byte and word interfaces of the `sha256` package (one-line wrappers). -/

namespace Spark.Sha
open Spark Circ

/-- uint8api.go:43-45 `AsUint8` -/
def exportedAsUint8 (v : Fr) : Circ (Word 8) := asWord 8 v
/-- uint8api.go:54-56 `FromUint8` -/
def exportedFromUint8 (w : Word 8) : Fr := fromWord w
/-- uint8api.go:75-77 `Xor` -/
def exportedXor (ins : List (Word 8)) : Circ (Word 8) := wXor ins
/-- uint64api.go:50-52 `FromUint64` -/
def exportedFromUint64 (w : Word 64) : Fr := fromWord w

end Spark.Sha

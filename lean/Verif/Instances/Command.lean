import Verif.Circ

/-!
# Concrete instances of the property theorems

`instance_of inst_x := x a b h` proves, under the name `inst_x`, the statement of the property theorem `x` at the
arguments `a b` with all hypotheses discharged.  It shows that the hypotheses of `x` can be met.
-/

namespace Spark

/-- `instance_of n binders := e` is `theorem n binders : type of e := e`. -/
macro "instance_of " n:ident bs:bracketedBinder* " := " e:term : command =>
  `(theorem $n $bs* : type_of% $e := $e)

end Spark

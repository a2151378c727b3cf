import Verif.Instances.Helpers
import Verif.Props.Replacement

/-!
# Instances: C102
-/

namespace Spark.Instances
open Spark Circ Spec Circuit Pairing PairingProps CircuitProps GroupProps HelperProps Witness
set_option autoImplicit false

instance_of inst_c102_results :=
  (c102_results hashH_spec exHashG2 rotSk (fun _ => 100) rotBits rotBits_lt (fun _ => hundred_lt) exOut).1 ⟨_, _, exOut_spec⟩
-- three positions are to be replaced and only one index was drawn
instance_of inst_c102_progress :=
  c102_progress hashH_spec exHashG2 rotSk (fun _ => 100) rotBits rotBits_lt (fun _ => hundred_lt) [3, 7]
instance_of inst_c102_unused := c102_unused hashH exHashG2 _ _ _ _ _ _ [5, 6] exOut exOut_spec
-- nine weights, position 9 is drawn
instance_of inst_c102_short := c102_short hashH exHashG2 (List.ofFn rotSk) (List.ofFn fun i => rotSk i • G1gen)
  (List.replicate 9 100) (List.replicate 10 1) [] 1 9 (Or.inr (Or.inr (Or.inl (by decide))))

end Spark.Instances

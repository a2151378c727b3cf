import Verif.Instances.Command
import Verif.Props.Sha256
import Verif.Props.Expand
import Verif.Props.Poseidon
import Verif.Props.PoseidonMds
import Verif.Props.Parse
import Verif.Props.Utilities
import Verif.Props.Api
import Verif.Props.Extra
import Verif.Props.HashG2Examples

/-!
# Instances: SHA-256, message expansion, Poseidon, parsers (C02-C12, C73, C78, C95, C96)
-/

namespace Spark.Instances
open Spark Circ Spec

instance_of inst_c02_same_concat := Sha.c02_same_concat [[1, 2], [], [3]] [[], [1], [2, 3]] rfl

instance_of inst_c04_non_bytes_rejected (d : Sha.Digest) :=
  Sha.c04_non_bytes_rejected d [1, 300] ⟨300, by simp, by decide +kernel⟩

instance_of inst_c05_shift_out_of_range (w : Sha.Word 32) := Sha.c05_shift_out_of_range w 33 (by decide)
instance_of inst_c05_lrot := Sha.c05_lrot 0xdeadbeef#32 7 (by decide)
instance_of inst_c05_lrot_out_of_range (w : Sha.Word 32) := Sha.c05_lrot_out_of_range w 40 (by decide) (by decide)
instance_of inst_c05_rshift := Sha.c05_rshift 0xdeadbeef#32 10 (by decide)
instance_of inst_c05_lshift := Sha.c05_lshift 0xdeadbeef#32 10 (by decide)
instance_of inst_c05_add := Sha.c05_add 0xffffffff#32 1#32 [0xffffffff#32, 2#32] (by decide)

instance_of inst_c06_putUint32 (w : Sha.Word 8) := Sha.c06_putUint32 [w, w, w, w, w] 0x01020304#32 (by simp)
instance_of inst_c06_putUint64 (w : Sha.Word 8) := Sha.c06_putUint64 [w, w, w, w, w, w, w, w] 0x0102030405060708#64 (by simp)

instance_of inst_c07_expand_msg_xmd := H2C.c07_expand_msg_xmd G2.exMsg 4 (by decide) (by decide)
instance_of inst_c07_non_byte := H2C.c07_non_byte (Vector.replicate 32 (300 : Fr)) 4
  ⟨0, by rw [Fin.getElem_fin, Vector.getElem_replicate]; decide +kernel⟩
instance_of inst_c08_hash_to_field_honest := H2C.c08_hash_to_field_honest G2.exMsg 2 (by decide) (by decide)
instance_of inst_c09_hash_to_field_unconstrained :=
  H2C.c09_hash_to_field_unconstrained G2.exMsg 2 (by decide) [⟨1, 2⟩, ⟨3, 4⟩] rfl
instance_of inst_c09_length_partial := H2C.c09_length_partial G2.exMsg 2 [⟨1, 2⟩, ⟨3, 4⟩]
  (H2C.c09_hash_to_field_unconstrained G2.exMsg 2 (by decide) [⟨1, 2⟩, ⟨3, 4⟩] rfl)

/-- the hash of the example message is accepted for the message of 32 zero bytes -/
theorem inst_c09_hash_to_g2_substitution : ∃ q, (G2.hashToG2 (HashProps.msgVars G2.exMsg)).run = some q ∧
    (G2.hashToG2 (HashProps.msgVars (Vector.replicate 32 0))).sat q := by
  obtain ⟨-, -, q, -, -, -, -, -, -, h, -⟩ := HashProps.c57_example
  exact ⟨q, h, HashProps.c09_hash_to_g2_substitution _ _ q h⟩

/-- writes and a sum before the `Reset` do not matter -/
theorem inst_c10_reset : ∃ ds, PoseidonProps.exec Poseidon.newHasher
    ([.write [5], .sum, .write [7]] ++ [.reset, .write [1, 2], .sum]) =
      some (ds ++ [7853200120776062878684798364095072458815029376092732009249414926327459813530]) := by
  obtain ⟨ds, d, h, hd⟩ := PoseidonProps.c10_reset [.write [5], .sum, .write [7]] [1, 2] (by
    rw [PoseidonProps.c10_hasher]
    have e : PoseidonProps.histories ([.write [5], .sum, .write [7]] ++ [.reset, .write [1, 2], .sum]) =
      [[.write [5]], [.write [5], .sum, .write [7], .reset, .write [1, 2]]] := rfl
    have w1 : PoseidonProps.written [.write [5]] = [5] := rfl
    have w2 : PoseidonProps.written [.write [5], .sum, .write [7], .reset, .write [1, 2]] = [1, 2] := rfl
    have h5 : (Poseidon.poseidon [5]).isSome = true := by decide +kernel
    obtain ⟨d, hd⟩ := Option.isSome_iff_exists.1 h5
    rw [e, List.mapM_cons, w1, hd, List.mapM_cons, w2, PoseidonProps.c12_vector]
    rfl)
  rw [PoseidonProps.c12_vector] at hd
  obtain rfl := Option.some.inj hd
  exact ⟨ds, h⟩

/-- the hash of two numbers is the permutation with the reference parameters for a state of three -/
theorem inst_c12 : ∃ rp N consts points, PosSpec.partialRounds[2 - 1]? = some rp ∧
    PosSpec.reference 3 rp N = some (consts, points) ∧
    (Poseidon.poseidonEx (List.ofFn ![(1 : Fr), 2]) 7 3 =
      some (List.ofFn fun i : Fin 3 => PosSpec.permutation consts points rp (Fin.cons 7 ![1, 2]) (Fin.castLE (by decide : 3 ≤ 3) i))) ∧
    Poseidon.poseidon (List.ofFn ![(1 : Fr), 2]) = some (PosSpec.permutation consts points rp (Fin.cons 0 ![1, 2]) 0) ∧
    Function.Bijective (PosSpec.permutation (t := 3) consts points rp) := by
  obtain ⟨rp, N, consts, points, h1, h2, -⟩ := PoseidonProps.c12_reference_exists 2 (by decide) (by decide)
  exact ⟨rp, N, consts, points, h1, h2,
    PoseidonProps.c12_permutation 2 (by decide) (by decide) rp h1 N consts points h2 _ 7 3 (by decide),
    PoseidonProps.c12_hash 2 (by decide) (by decide) rp h1 N consts points h2 _,
    PoseidonProps.c96_bijective 2 (by decide) (by decide) rp h1 N consts points h2⟩

instance_of inst_c12_reference_exists := PoseidonProps.c12_reference_exists 4 (by decide) (by decide)
instance_of inst_c96_mds := PoseidonProps.c96_mds 4 (by decide) (by decide)
instance_of inst_c96_api := PoseidonProps.c96_api 4 (by decide) (by decide)
instance_of inst_c96_balanced := PoseidonProps.c96_balanced 4 (by decide) (by decide)

/-- a row of two numerals, `0x1f,7` -/
theorem row : ParseProps.Row "0x1f,7".toList [31, 7] :=
  .cons _ 31 _ [7] (.mk [] ['1', 'f'] [] 31 true (by simp) (by simp)
    (.snoc ['1'] 1 'f' 15 (.single '1' 1 (.inl rfl)) (.inl rfl)))
    (.last _ 7 (.mk [] ['7'] [] 7 false (by simp) (by simp) (.single '7' 7 (.inl rfl))))

instance_of inst_c73_one := ParseProps.c73_one "[0x1f,7]".toList [31, 7] row
instance_of inst_c73_trailing_comma := ParseProps.c73_trailing_comma "0x1f,7".toList [31, 7] row
instance_of inst_c73_two := ParseProps.c73_two "[[0x1f, 7],\n [0x1f,7]]".toList "0x1f,7],[0x1f,7".toList [[31, 7], [31, 7]]
  (.cons _ [31, 7] _ [[31, 7]] row (.last _ [31, 7] row)) (by decide +kernel) (by simp [ParseProps.IsBlank])

instance_of inst_c78_partial_round := UtilProps.c78_partial_round ![(3 : Fr), 4] (List.replicate 11 9) [2, 5, 7] 0
  (by simp) (by simp)

instance_of inst_c95_word := Sha.c95_word 0x0102030405060708 (2 ^ 63) (by decide) (by decide)

end Spark.Instances

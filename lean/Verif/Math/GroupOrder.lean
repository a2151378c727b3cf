import Verif.Math.Primes

/-! Generated by tools/gen_primes.py: primality of the order of the BLS12-381 groups. -/

namespace Spark
set_option maxRecDepth 100000

theorem prime_254760293 : Nat.Prime 254760293 := by norm_num

theorem prime_52437899 : Nat.Prime 52437899 := by norm_num

theorem prime_2529403 : Nat.Prime 2529403 := by norm_num

theorem prime_2508409 : Nat.Prime 2508409 := by norm_num

theorem prime_906349 : Nat.Prime 906349 := by norm_num

theorem prime_859267 : Nat.Prime 859267 := by norm_num

theorem prime_52435875175126190479447740508185965837690552500527637822603658699938581184513 : Nat.Prime 52435875175126190479447740508185965837690552500527637822603658699938581184513 :=
  prime_of_dvd_sub_one (F := 254760293*52437899*2529403*2508409*906349*859267) (by norm_num) (by norm_num)
    (fun l h1 h2 => (dvd_mul2 (by norm_num) (dvd_mul2 (by norm_num) (dvd_mul2 (by norm_num) (dvd_mul2 (by norm_num) (dvd_mul2 (by norm_num) (pock (n := 52435875175126190479447740508185965837690552500527637822603658699938581184513) (q := 254760293) (a := 2) prime_254760293 (by decide +kernel) l h1 h2) (pock (n := 52435875175126190479447740508185965837690552500527637822603658699938581184513) (q := 52437899) (a := 2) prime_52437899 (by decide +kernel) l h1 h2)) (pock (n := 52435875175126190479447740508185965837690552500527637822603658699938581184513) (q := 2529403) (a := 2) prime_2529403 (by decide +kernel) l h1 h2)) (pock (n := 52435875175126190479447740508185965837690552500527637822603658699938581184513) (q := 2508409) (a := 2) prime_2508409 (by decide +kernel) l h1 h2)) (pock (n := 52435875175126190479447740508185965837690552500527637822603658699938581184513) (q := 906349) (a := 2) prime_906349 (by decide +kernel) l h1 h2)) (pock (n := 52435875175126190479447740508185965837690552500527637822603658699938581184513) (q := 859267) (a := 2) prime_859267 (by decide +kernel) l h1 h2)))

/-- order of the BLS12-381 groups G1, G2, GT (the scalar field modulus) -/
def rOrder : ℕ := 52435875175126190479447740508185965837690552500527637822603658699938581184513

theorem rOrder_prime : Nat.Prime rOrder := prime_52435875175126190479447740508185965837690552500527637822603658699938581184513

end Spark

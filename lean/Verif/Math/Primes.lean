import Verif.Math.Primality
import Mathlib.Tactic.NormNum.Prime
import Mathlib.Tactic.NormNum.GCD

/-! Generated by tools/gen_primes.py: primality of the BN254 scalar modulus and the BLS12-381
base modulus, with all intermediate certificates checked by the kernel. -/

namespace Spark
set_option maxRecDepth 100000

theorem prime_93001 : Nat.Prime 93001 := by norm_num

theorem prime_661 : Nat.Prime 661 := by norm_num

theorem prime_12048837557 : Nat.Prime 12048837557 :=
  prime_of_dvd_sub_one (F := 93001*661) (by norm_num) (by norm_num)
    (fun l h1 h2 => (dvd_mul2 (by norm_num) (pock (n := 12048837557) (q := 93001) (a := 2) prime_93001 (by decide +kernel) l h1 h2) (pock (n := 12048837557) (q := 661) (a := 2) prime_661 (by decide +kernel) l h1 h2)))

theorem prime_5156902474397 : Nat.Prime 5156902474397 :=
  prime_of_dvd_sub_one (F := 12048837557) (by norm_num) (by norm_num)
    (fun l h1 h2 => (pock (n := 5156902474397) (q := 12048837557) (a := 2) prime_12048837557 (by decide +kernel) l h1 h2))

theorem prime_1670836401704629 : Nat.Prime 1670836401704629 :=
  prime_of_dvd_sub_one (F := 5156902474397) (by norm_num) (by norm_num)
    (fun l h1 h2 => (pock (n := 1670836401704629) (q := 5156902474397) (a := 2) prime_5156902474397 (by decide +kernel) l h1 h2))

theorem prime_639533339 : Nat.Prime 639533339 := by norm_num

theorem prime_65865678001877903 : Nat.Prime 65865678001877903 :=
  prime_of_dvd_sub_one (F := 639533339) (by norm_num) (by norm_num)
    (fun l h1 h2 => (pock (n := 65865678001877903) (q := 639533339) (a := 2) prime_639533339 (by decide +kernel) l h1 h2))

theorem prime_13818364434197438864469338081 : Nat.Prime 13818364434197438864469338081 :=
  prime_of_dvd_sub_one (F := 65865678001877903) (by norm_num) (by norm_num)
    (fun l h1 h2 => (pock (n := 13818364434197438864469338081) (q := 65865678001877903) (a := 2) prime_65865678001877903 (by decide +kernel) l h1 h2))

theorem prime_21888242871839275222246405745257275088548364400416034343698204186575808495617 : Nat.Prime 21888242871839275222246405745257275088548364400416034343698204186575808495617 :=
  prime_of_dvd_sub_one (F := 1670836401704629*13818364434197438864469338081) (by norm_num) (by norm_num)
    (fun l h1 h2 => (dvd_mul2 (by norm_num) (pock (n := 21888242871839275222246405745257275088548364400416034343698204186575808495617) (q := 1670836401704629) (a := 2) prime_1670836401704629 (by decide +kernel) l h1 h2) (pock (n := 21888242871839275222246405745257275088548364400416034343698204186575808495617) (q := 13818364434197438864469338081) (a := 2) prime_13818364434197438864469338081 (by decide +kernel) l h1 h2)))

theorem prime_431 : Nat.Prime 431 := by norm_num

theorem prime_390791 : Nat.Prime 390791 := by norm_num

theorem prime_16902042922351 : Nat.Prime 16902042922351 :=
  prime_of_dvd_sub_one (F := 431*390791) (by norm_num) (by norm_num)
    (fun l h1 h2 => (dvd_mul2 (by norm_num) (pock (n := 16902042922351) (q := 431) (a := 2) prime_431 (by decide +kernel) l h1 h2) (pock (n := 16902042922351) (q := 390791) (a := 2) prime_390791 (by decide +kernel) l h1 h2)))

theorem prime_28955093 : Nat.Prime 28955093 := by norm_num

theorem prime_47248110014797 : Nat.Prime 47248110014797 :=
  prime_of_dvd_sub_one (F := 28955093) (by norm_num) (by norm_num)
    (fun l h1 h2 => (pock (n := 47248110014797) (q := 28955093) (a := 2) prime_28955093 (by decide +kernel) l h1 h2))

theorem prime_2173413060680663 : Nat.Prime 2173413060680663 :=
  prime_of_dvd_sub_one (F := 47248110014797) (by norm_num) (by norm_num)
    (fun l h1 h2 => (pock (n := 2173413060680663) (q := 47248110014797) (a := 2) prime_47248110014797 (by decide +kernel) l h1 h2))

theorem prime_597593 : Nat.Prime 597593 := by norm_num

theorem prime_26647 : Nat.Prime 26647 := by norm_num

theorem prime_73779548989605253 : Nat.Prime 73779548989605253 :=
  prime_of_dvd_sub_one (F := 597593*26647) (by norm_num) (by norm_num)
    (fun l h1 h2 => (dvd_mul2 (by norm_num) (pock (n := 73779548989605253) (q := 597593) (a := 2) prime_597593 (by decide +kernel) l h1 h2) (pock (n := 73779548989605253) (q := 26647) (a := 2) prime_26647 (by decide +kernel) l h1 h2)))

theorem prime_156083864923250991785002799 : Nat.Prime 156083864923250991785002799 :=
  prime_of_dvd_sub_one (F := 73779548989605253) (by norm_num) (by norm_num)
    (fun l h1 h2 => (pock (n := 156083864923250991785002799) (q := 73779548989605253) (a := 2) prime_73779548989605253 (by decide +kernel) l h1 h2))

theorem prime_307202528959414010196955747273574637769335820764971303266458398669801375004184727427572867063 : Nat.Prime 307202528959414010196955747273574637769335820764971303266458398669801375004184727427572867063 :=
  prime_of_dvd_lucas2 (F := 16902042922351*2173413060680663*156083864923250991785002799) (by norm_num) (by norm_num) (by norm_num) (by norm_num)
    (fun l h1 h2 h3 => (dvd_mul2 (by norm_num) (dvd_mul2 (by norm_num) (lucas2 (n := 307202528959414010196955747273574637769335820764971303266458398669801375004184727427572867063) (q := 16902042922351) (g := (245762023167531208157564597818859710215468656611977042613166718935841100003347781942058293651, 122881011583765604078782298909429855107734328305988521306583359467920550001673890971029146826)) prime_16902042922351 (by decide +kernel) l h1 h2 h3) (lucas2 (n := 307202528959414010196955747273574637769335820764971303266458398669801375004184727427572867063) (q := 2173413060680663) (g := (245762023167531208157564597818859710215468656611977042613166718935841100003347781942058293651, 122881011583765604078782298909429855107734328305988521306583359467920550001673890971029146826)) prime_2173413060680663 (by decide +kernel) l h1 h2 h3)) (lucas2 (n := 307202528959414010196955747273574637769335820764971303266458398669801375004184727427572867063) (q := 156083864923250991785002799) (g := (245762023167531208157564597818859710215468656611977042613166718935841100003347781942058293651, 122881011583765604078782298909429855107734328305988521306583359467920550001673890971029146826)) prime_156083864923250991785002799 (by decide +kernel) l h1 h2 h3)))

theorem prime_845817742016413227687614079825846186930871263723374447449716427752331287085975880059739566595311847852471317109 : Nat.Prime 845817742016413227687614079825846186930871263723374447449716427752331287085975880059739566595311847852471317109 :=
  prime_of_dvd_sub_one (F := 307202528959414010196955747273574637769335820764971303266458398669801375004184727427572867063) (by norm_num) (by norm_num)
    (fun l h1 h2 => (pock (n := 845817742016413227687614079825846186930871263723374447449716427752331287085975880059739566595311847852471317109) (q := 307202528959414010196955747273574637769335820764971303266458398669801375004184727427572867063) (a := 2) prime_307202528959414010196955747273574637769335820764971303266458398669801375004184727427572867063 (by decide +kernel) l h1 h2))

theorem prime_4002409555221667393417789825735904156556882819939007885332058136124031650490837864442687629129015664037894272559787 : Nat.Prime 4002409555221667393417789825735904156556882819939007885332058136124031650490837864442687629129015664037894272559787 :=
  prime_of_dvd_lucas2 (F := 845817742016413227687614079825846186930871263723374447449716427752331287085975880059739566595311847852471317109) (by norm_num) (by norm_num) (by norm_num) (by norm_num)
    (fun l h1 h2 h3 => (lucas2 (n := 4002409555221667393417789825735904156556882819939007885332058136124031650490837864442687629129015664037894272559787) (q := 845817742016413227687614079825846186930871263723374447449716427752331287085975880059739566595311847852471317109) (g := (800481911044333478683557965147180831311376563987801577066411627224806330098167572888537525825803132807578854511958, 2401445733133000436050673895441542493934129691963404731199234881674418990294502718665612577477409398422736563535873)) prime_845817742016413227687614079825846186930871263723374447449716427752331287085975880059739566595311847852471317109 (by decide +kernel) l h1 h2 h3))

/-- BN254 scalar field modulus (gnark `ecc.BN254.ScalarField()`, the native field of the circuits). -/
def frOrder : ℕ := 21888242871839275222246405745257275088548364400416034343698204186575808495617
/-- BLS12-381 base field modulus (`emulated.BLS12381Fp`). -/
def fpOrder : ℕ := 4002409555221667393417789825735904156556882819939007885332058136124031650490837864442687629129015664037894272559787

instance fact_fr : Fact (Nat.Prime frOrder) := ⟨prime_21888242871839275222246405745257275088548364400416034343698204186575808495617⟩
instance fact_fp : Fact (Nat.Prime fpOrder) := ⟨prime_4002409555221667393417789825735904156556882819939007885332058136124031650490837864442687629129015664037894272559787⟩

end Spark

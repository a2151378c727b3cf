import Verif.Math.Primes

/-! Generated by tools/gen_primes.py: primality of the large factor of the order of `E'(Fp2)`. -/

namespace Spark
set_option maxRecDepth 100000

theorem prime_1367711 : Nat.Prime 1367711 := by norm_num

theorem prime_541 : Nat.Prime 541 := by norm_num

theorem prime_12192593745179 : Nat.Prime 12192593745179 :=
  prime_of_dvd_sub_one (F := 1367711*541) (by norm_num) (by norm_num)
    (fun l h1 h2 => (dvd_mul2 (by norm_num) (pock (n := 12192593745179) (q := 1367711) (a := 2) prime_1367711 (by decide +kernel) l h1 h2) (pock (n := 12192593745179) (q := 541) (a := 2) prime_541 (by decide +kernel) l h1 h2)))

theorem prime_512088937297519 : Nat.Prime 512088937297519 :=
  prime_of_dvd_sub_one (F := 12192593745179) (by norm_num) (by norm_num)
    (fun l h1 h2 => (pock (n := 512088937297519) (q := 12192593745179) (a := 2) prime_12192593745179 (by decide +kernel) l h1 h2))

theorem prime_1857858664515398933 : Nat.Prime 1857858664515398933 :=
  prime_of_dvd_sub_one (F := 512088937297519) (by norm_num) (by norm_num)
    (fun l h1 h2 => (pock (n := 1857858664515398933) (q := 512088937297519) (a := 2) prime_512088937297519 (by decide +kernel) l h1 h2))

theorem prime_22294303974184787197 : Nat.Prime 22294303974184787197 :=
  prime_of_dvd_sub_one (F := 1857858664515398933) (by norm_num) (by norm_num)
    (fun l h1 h2 => (pock (n := 22294303974184787197) (q := 1857858664515398933) (a := 2) prime_1857858664515398933 (by decide +kernel) l h1 h2))

theorem prime_19931107752921199754119 : Nat.Prime 19931107752921199754119 :=
  prime_of_dvd_sub_one (F := 22294303974184787197) (by norm_num) (by norm_num)
    (fun l h1 h2 => (pock (n := 19931107752921199754119) (q := 22294303974184787197) (a := 2) prime_22294303974184787197 (by decide +kernel) l h1 h2))

theorem prime_81162125843606155545104998607900118769099783 : Nat.Prime 81162125843606155545104998607900118769099783 :=
  prime_of_dvd_sub_one (F := 19931107752921199754119) (by norm_num) (by norm_num)
    (fun l h1 h2 => (pock (n := 81162125843606155545104998607900118769099783) (q := 19931107752921199754119) (a := 2) prime_19931107752921199754119 (by decide +kernel) l h1 h2))

theorem prime_26935696298915610574513298451669528361624243820491956655650666425177 : Nat.Prime 26935696298915610574513298451669528361624243820491956655650666425177 :=
  prime_of_dvd_sub_one (F := 81162125843606155545104998607900118769099783) (by norm_num) (by norm_num)
    (fun l h1 h2 => (pock (n := 26935696298915610574513298451669528361624243820491956655650666425177) (q := 81162125843606155545104998607900118769099783) (a := 2) prime_81162125843606155545104998607900118769099783 (by decide +kernel) l h1 h2))

theorem prime_4638704574076146691498289350639807119782054683906549022985642612861209609656189848749536921852444848596916990932297 : Nat.Prime 4638704574076146691498289350639807119782054683906549022985642612861209609656189848749536921852444848596916990932297 :=
  prime_of_dvd_sub_one (F := 26935696298915610574513298451669528361624243820491956655650666425177) (by norm_num) (by norm_num)
    (fun l h1 h2 => (pock (n := 4638704574076146691498289350639807119782054683906549022985642612861209609656189848749536921852444848596916990932297) (q := 26935696298915610574513298451669528361624243820491956655650666425177) (a := 2) prime_26935696298915610574513298451669528361624243820491956655650666425177 (by decide +kernel) l h1 h2))

theorem prime_402096035359507321594726366720466575392706800671181159425656785868777272553337714697862511267018014931937703598282857976535744623203249 : Nat.Prime 402096035359507321594726366720466575392706800671181159425656785868777272553337714697862511267018014931937703598282857976535744623203249 :=
  prime_of_dvd_sub_one (F := 4638704574076146691498289350639807119782054683906549022985642612861209609656189848749536921852444848596916990932297) (by norm_num) (by norm_num)
    (fun l h1 h2 => (pock (n := 402096035359507321594726366720466575392706800671181159425656785868777272553337714697862511267018014931937703598282857976535744623203249) (q := 4638704574076146691498289350639807119782054683906549022985642612861209609656189848749536921852444848596916990932297) (a := 2) prime_4638704574076146691498289350639807119782054683906549022985642612861209609656189848749536921852444848596916990932297 (by decide +kernel) l h1 h2))

end Spark

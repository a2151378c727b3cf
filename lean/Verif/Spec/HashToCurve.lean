import Verif.Spec.MapToCurve

/-!
# RFC 9380, `hash_to_curve` and `encode_to_curve` for BLS12-381 G2, specification

§3: `hash_to_curve(msg) = clear_cofactor(map_to_curve(u0) + map_to_curve(u1))`; §7: `clear_cofactor(P) = h_eff * P`;
§8.8.2: the suites BLS12381G2_XMD:SHA-256_SSWU_RO_ and _NU_.
-/

namespace Spark.Rfc

open Spec

/-- §8.8.2: `h_eff` -/
def hEff : ℕ :=
  0xbc69f08f2ee75b3584c6a0ea91b352888e2a8e9145ad7689986ff031508ffe1329c2f178731db956d82bf015d1212b02ec0ec69d7477c1ae954cbc06689f6a359894c0adebbf6b4e8020005aaa95551

/-- §3, random-oracle variant: `H = hash_to_curve(msg)` with domain separation tag `dst` -/
def HashesTo (msg dst : List Fips.Byte) (H : ETwist Fp) : Prop :=
  ∃ u0 u1 Q0 Q1, hashToFieldFp2 msg dst 2 = some [u0, u1] ∧ MapsTo u0 Q0 ∧ MapsTo u1 Q1 ∧ H = hEff • (Q0 + Q1)

/-- §3, nonuniform variant: `H = encode_to_curve(msg)` -/
def EncodesTo (msg dst : List Fips.Byte) (H : ETwist Fp) : Prop :=
  ∃ u Q, hashToFieldFp2 msg dst 1 = some [u] ∧ MapsTo u Q ∧ H = hEff • Q

end Spark.Rfc

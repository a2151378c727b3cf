import Verif.Spec.Sha256

/-! A kernel-checked test vector for the SHA-256 specification: `SHA-256("abc")` (FIPS 180-4, examples). -/

namespace Spark.Fips

/-- `[W (n-1), …, W 0]`, computed without recomputation -/
def wTab (B : List Byte) : ℕ → List W32
  | 0 => []
  | n+1 =>
    let l := wTab B n
    (if n < 16 then blockWord B n
     else smallSigma1 (l.getD 1 0) + l.getD 6 0 + smallSigma0 (l.getD 14 0) + l.getD 15 0) :: l

theorem wTab_getD (B : List Byte) (n i : ℕ) (h : i < n) : (wTab B n).getD i 0 = W B (n - 1 - i) := by
  induction n using Nat.strong_induction_on generalizing i with
  | _ n ih =>
    cases n with
    | zero => omega
    | succ n =>
      cases i with
      | zero =>
        rw [wTab, List.getD_cons_zero, Nat.add_sub_cancel, Nat.sub_zero]
        conv_rhs => rw [W]
        by_cases hn : n < 16
        · rw [if_pos hn, if_pos hn]
        · rw [if_neg hn, if_neg hn, ih n (by omega) 1 (by omega), ih n (by omega) 6 (by omega),
            ih n (by omega) 14 (by omega), ih n (by omega) 15 (by omega)]
          rw [show n - 1 - 1 = n - 2 by omega, show n - 1 - 6 = n - 7 by omega,
            show n - 1 - 14 = n - 15 by omega, show n - 1 - 15 = n - 16 by omega]
      | succ i =>
        rw [wTab, List.getD_cons_succ, ih n (by omega) i (by omega)]
        congr 1; omega

/-- rounds with a precomputed schedule -/
def roundsT (T : List W32) (s : Vars) : ℕ → Vars
  | 0 => s
  | t+1 => round (BitVec.ofNat 32 (K.getD t 0)) (T.getD (63 - t) 0) (roundsT T s t)

theorem roundsT_eq (B : List Byte) (s : Vars) (t : ℕ) (h : t ≤ 64) :
    roundsT (wTab B 64) s t = rounds B s t := by
  induction t with
  | zero => rfl
  | succ t ih =>
    rw [roundsT, rounds, ih (by omega), wTab_getD B 64 _ (by omega)]
    congr 2; omega

theorem sha256_abc : sha256 [0x61, 0x62, 0x63] =
    [0xba, 0x78, 0x16, 0xbf, 0x8f, 0x01, 0xcf, 0xea, 0x41, 0x41, 0x40, 0xde, 0x5d, 0xae, 0x22, 0x23,
     0xb0, 0x03, 0x61, 0xa3, 0x96, 0x17, 0x7a, 0x9c, 0xb4, 0x10, 0xff, 0x61, 0xf2, 0x00, 0x15, 0xad] := by
  have hlen : (pad [0x61, 0x62, 0x63]).length = 64 := by decide +kernel
  have hb : blocks (pad [0x61, 0x62, 0x63]) = [pad [0x61, 0x62, 0x63]] := by
    rw [blocks, if_pos hlen.ge, List.take_of_length_le hlen.le, blocks, if_neg (by rw [List.length_drop, hlen]; decide)]
  unfold sha256
  rw [hb]
  simp only [List.foldl_cons, List.foldl_nil, compress, ← roundsT_eq _ _ 64 le_rfl]
  decide +kernel

end Spark.Fips

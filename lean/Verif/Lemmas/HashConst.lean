import Verif.Model.HashG2
import Verif.Math.NatCurve
import Verif.Spec.MapToCurve
import Verif.Lemmas.Tower

/-! Values of the `fp.Element` constants of hashG2.go, and polynomials over `Fp2` the kernel can
multiply.  Generated by tools/gen_hashconst.py. -/

namespace Spark.G2
set_option maxRecDepth 100000
set_option exponentiation.threshold 10000

open NC

theorem pow384_ne : ((2 : Fp) ^ 384) ≠ 0 := by
  apply pow_ne_zero
  intro h
  have h2 : ((2 : ℕ) : Fp) = 0 := by exact_mod_cast h
  rw [ZMod.natCast_eq_zero_iff] at h2
  revert h2; decide +kernel

theorem fpElement_eval (l : List ℕ) (v : ℕ)
    (h : (l.foldr (fun l acc => l + 2 ^ 64 * acc) 0) % fpOrder = v * 2 ^ 384 % fpOrder) :
    fpElement l = (v : Fp) := by
  rw [fpElement, mul_inv_eq_iff_eq_mul₀ pow384_ne]
  have h2 := (ZMod.natCast_eq_natCast_iff' _ _ fpOrder).2 h
  rw [h2, Nat.cast_mul, Nat.cast_pow, Nat.cast_ofNat]

/-- the pair denoted by two literals -/
theorem fpElement_pair (l m : List ℕ) (v : N2)
    (h : (l.foldr (fun l acc => l + 2 ^ 64 * acc) 0) % fpOrder = v.1 * 2 ^ 384 % fpOrder)
    (h' : (m.foldr (fun l acc => l + 2 ^ 64 * acc) 0) % fpOrder = v.2 * 2 ^ 384 % fpOrder) :
    (⟨fpElement l, fpElement m⟩ : E2 Fp) = e2 v := by
  rw [fpElement_eval l v.1 h, fpElement_eval m v.2 h']; rfl

theorem sswuIsoCurveCoeffA_val : sswuIsoCurveCoeffA = e2 (0, 240) :=
  fpElement_pair _ _ _ (by decide +kernel) (by decide +kernel)

theorem sswuIsoCurveCoeffB_val : sswuIsoCurveCoeffB = e2 (1012, 1012) :=
  fpElement_pair _ _ _ (by decide +kernel) (by decide +kernel)

theorem tv4Z_val : tv4Z = e2 (4002409555221667393417789825735904156556882819939007885332058136124031650490837864442687629129015664037894272559785, 4002409555221667393417789825735904156556882819939007885332058136124031650490837864442687629129015664037894272559786) :=
  fpElement_pair _ _ _ (by decide +kernel) (by decide +kernel)

theorem sqrtTv1_val : sqrtTv1 = e2 (1028732146235106349975324479215795277384839936929757896155643118032610843298655225875571310552543014690878354869257, 1028732146235106349975324479215795277384839936929757896155643118032610843298655225875571310552543014690878354869257) :=
  fpElement_pair _ _ _ (by decide +kernel) (by decide +kernel)

theorem sqrtC7_val : sqrtC7 = e2 (3056659667563321987249772579925648764743501102978097015962339259696499184926306265952060086002605894757692300553566, 1094990774406846945195722631661055869817460233973571214612739209165339342571801705456419180905382805863896627811201) :=
  fpElement_pair _ _ _ (by decide +kernel) (by decide +kernel)

theorem isoXDen0_val : isoXDen0 = e2 (0, 4002409555221667393417789825735904156556882819939007885332058136124031650490837864442687629129015664037894272559715) :=
  fpElement_pair _ _ _ (by decide +kernel) (by decide +kernel)

theorem isoXDen1_val : isoXDen1 = e2 (12, 4002409555221667393417789825735904156556882819939007885332058136124031650490837864442687629129015664037894272559775) :=
  fpElement_pair _ _ _ (by decide +kernel) (by decide +kernel)

theorem isoXNum0_val : isoXNum0 = e2 (889424345604814976315064405719089812568196182208668418962679585805340366775741747653930584250892369786198727235542, 889424345604814976315064405719089812568196182208668418962679585805340366775741747653930584250892369786198727235542) :=
  fpElement_pair _ _ _ (by decide +kernel) (by decide +kernel)

theorem isoXNum1_val : isoXNum1 = e2 (0, 2668273036814444928945193217157269437704588546626005256888038757416021100327225242961791752752677109358596181706522) :=
  fpElement_pair _ _ _ (by decide +kernel) (by decide +kernel)

theorem isoXNum2_val : isoXNum2 = e2 (2668273036814444928945193217157269437704588546626005256888038757416021100327225242961791752752677109358596181706526, 1334136518407222464472596608578634718852294273313002628444019378708010550163612621480895876376338554679298090853261) :=
  fpElement_pair _ _ _ (by decide +kernel) (by decide +kernel)

theorem isoXNum3_val : isoXNum3 = e2 (3557697382419259905260257622876359250272784728834673675850718343221361467102966990615722337003569479144794908942033, 0) :=
  fpElement_pair _ _ _ (by decide +kernel) (by decide +kernel)

theorem isoYDen0_val : isoYDen0 = e2 (4002409555221667393417789825735904156556882819939007885332058136124031650490837864442687629129015664037894272559355, 4002409555221667393417789825735904156556882819939007885332058136124031650490837864442687629129015664037894272559355) :=
  fpElement_pair _ _ _ (by decide +kernel) (by decide +kernel)

theorem isoYDen1_val : isoYDen1 = e2 (0, 4002409555221667393417789825735904156556882819939007885332058136124031650490837864442687629129015664037894272559571) :=
  fpElement_pair _ _ _ (by decide +kernel) (by decide +kernel)

theorem isoYDen2_val : isoYDen2 = e2 (18, 4002409555221667393417789825735904156556882819939007885332058136124031650490837864442687629129015664037894272559769) :=
  fpElement_pair _ _ _ (by decide +kernel) (by decide +kernel)

theorem isoYNum0_val : isoYNum0 = e2 (3261222600550988246488569487636662646083386001431784202863158481286248011511053074731078808919938689216061999863558, 3261222600550988246488569487636662646083386001431784202863158481286248011511053074731078808919938689216061999863558) :=
  fpElement_pair _ _ _ (by decide +kernel) (by decide +kernel)

theorem isoYNum1_val : isoYNum1 = e2 (0, 889424345604814976315064405719089812568196182208668418962679585805340366775741747653930584250892369786198727235518) :=
  fpElement_pair _ _ _ (by decide +kernel) (by decide +kernel)

theorem isoYNum2_val : isoYNum2 = e2 (2668273036814444928945193217157269437704588546626005256888038757416021100327225242961791752752677109358596181706524, 1334136518407222464472596608578634718852294273313002628444019378708010550163612621480895876376338554679298090853263) :=
  fpElement_pair _ _ _ (by decide +kernel) (by decide +kernel)

theorem isoYNum3_val : isoYNum3 = e2 (2816510427748580758331037284777117739799287910327449993381818688383577828123182200904113516794492504322962636245776, 0) :=
  fpElement_pair _ _ _ (by decide +kernel) (by decide +kernel)

/-! ### polynomials -/

/-- evaluation of a polynomial given by its coefficients, constant term first -/
def pev (l : List N2) (x : E2 Fp) : E2 Fp := l.foldr (fun c acc => e2 c + x * acc) 0

/-- sum of polynomials -/
def padd : List N2 → List N2 → List N2
  | [], m => m
  | l, [] => l
  | a :: l, b :: m => add a b :: padd l m

/-- product of polynomials -/
def pmul : List N2 → List N2 → List N2
  | [], _ => []
  | a :: l, m => padd (m.map (mul a)) ((0, 0) :: pmul l m)

theorem e2_zero : e2 (0, 0) = 0 := by ext <;> simp [e2, toE2]

theorem pev_nil (x : E2 Fp) : pev [] x = 0 := rfl
theorem pev_cons (a : N2) (l : List N2) (x : E2 Fp) : pev (a :: l) x = e2 a + x * pev l x := rfl

theorem pev_padd (l m : List N2) (x : E2 Fp) : pev (padd l m) x = pev l x + pev m x := by
  induction l generalizing m with
  | nil => simp [padd, pev_nil]
  | cons a l ih =>
    cases m with
    | nil => simp [padd, pev_nil]
    | cons b m => simp only [padd, pev_cons, ih, e2_add]; ring

theorem pev_map (a : N2) (m : List N2) (x : E2 Fp) : pev (m.map (mul a)) x = e2 a * pev m x := by
  induction m with
  | nil => simp [pev_nil]
  | cons b m ih => rw [List.map_cons, pev_cons, ih, e2_mul, pev_cons]; ring

theorem pev_pmul (l m : List N2) (x : E2 Fp) : pev (pmul l m) x = pev l x * pev m x := by
  induction l with
  | nil => simp [pmul, pev_nil]
  | cons a l ih => rw [pmul, pev_padd, pev_map, pev_cons, ih, e2_zero, pev_cons]; ring


/-- coefficients of the polynomial `isoXDen` -/
def pXDen : List N2 := [(0, 4002409555221667393417789825735904156556882819939007885332058136124031650490837864442687629129015664037894272559715), (12, 4002409555221667393417789825735904156556882819939007885332058136124031650490837864442687629129015664037894272559775), (1, 0)]

/-- coefficients of the polynomial `isoXNum` -/
def pXNum : List N2 := [(889424345604814976315064405719089812568196182208668418962679585805340366775741747653930584250892369786198727235542, 889424345604814976315064405719089812568196182208668418962679585805340366775741747653930584250892369786198727235542), (0, 2668273036814444928945193217157269437704588546626005256888038757416021100327225242961791752752677109358596181706522), (2668273036814444928945193217157269437704588546626005256888038757416021100327225242961791752752677109358596181706526, 1334136518407222464472596608578634718852294273313002628444019378708010550163612621480895876376338554679298090853261), (3557697382419259905260257622876359250272784728834673675850718343221361467102966990615722337003569479144794908942033, 0)]

/-- coefficients of the polynomial `isoYDen` -/
def pYDen : List N2 := [(4002409555221667393417789825735904156556882819939007885332058136124031650490837864442687629129015664037894272559355, 4002409555221667393417789825735904156556882819939007885332058136124031650490837864442687629129015664037894272559355), (0, 4002409555221667393417789825735904156556882819939007885332058136124031650490837864442687629129015664037894272559571), (18, 4002409555221667393417789825735904156556882819939007885332058136124031650490837864442687629129015664037894272559769), (1, 0)]

/-- coefficients of the polynomial `isoYNum` -/
def pYNum : List N2 := [(3261222600550988246488569487636662646083386001431784202863158481286248011511053074731078808919938689216061999863558, 3261222600550988246488569487636662646083386001431784202863158481286248011511053074731078808919938689216061999863558), (0, 889424345604814976315064405719089812568196182208668418962679585805340366775741747653930584250892369786198727235518), (2668273036814444928945193217157269437704588546626005256888038757416021100327225242961791752752677109358596181706524, 1334136518407222464472596608578634718852294273313002628444019378708010550163612621480895876376338554679298090853263), (2816510427748580758331037284777117739799287910327449993381818688383577828123182200904113516794492504322962636245776, 0)]

end Spark.G2

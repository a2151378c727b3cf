import Verif.Math.NatCurve

/-! An explicit run of `HashToG2` that ends in `(0, 0)`, written by tools/gen_forge_witness.py.  These are
data: every fact about them is checked by the kernel in `Lemmas/Forgery.lean`. -/

namespace Spark.G2
open NC

/-- the field element presented as both outputs of `HashToField` -/
def fgU : N2 := (380592288895454721804712840530140763105204637410342294343218725828451867211898553304710586003844644735953059702177,
  931847599921976759922646892055080748247997517891814761077765861022426458789038495733342114095397513876237880132662)
/-- the ordinate of its SWU point -/
def fgY : N2 := (3568366199767258125046026440302960543658282733597061420975019353801207693966186881696530978849347546567431189117531,
  993604107004374998193279393227108222953889536706073557149609052611034246522944488109865070806876987177044570786752)
/-- the slope presented for `Q0 + Q1`, where `Q0 = Q1` -/
def fgLam : N2 := (1187003306365701265734006819925708061842649820334955796394467538208827387150901930301027105504004521317115546175085,
  2945874141902754855437636971418460425077732034026876414948300670867595841017837358221502925102702300653758060119302)
/-- the slope presented for `res - a` -/
def fgL2 : N2 := (1847473984020617297217157375148069787771379639913707658079803156519201757868262612551271307125314756941812095397345,
  2904671495794436094238650273444046816213685481428633946805298412476769264443858857299970909280642386183918147416514)
/-- the slope presented for `xg - a` -/
def fgLp : N2 := (155945932599019611373176380532265268107478438031528057227786484785616112386080396021150225483262788689948767769287,
  493123987729571406203674318532983828059451277698997526947100730080369375593087711559628135686714017413592590438277)

end Spark.G2

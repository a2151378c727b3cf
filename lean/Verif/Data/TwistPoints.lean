import Verif.Math.NatCurve

/-! Generated by tools/gen_twist.py: points of prime order on `E'(Fp2)`. -/

namespace Spark.TwistPoints

/-- a point of order `402096035359507321594726366720466575392706800671181159425656785868777272553337714697862511267018014931937703598282857976535744623203249` -/
def ptM : NC.NPt :=
  ((1696911420722502171588416596760572440516917217914925430607948868753000528776008207265964156253411889146606627614582,
    1724928771783243018891768491873301270570267907984800760721692115076269864491915864101867554731151881636980373877180),
   (1819339942737694651620323232225803149556014933411102770037564263497144199539714304854209365234655336823939742024933,
    2982036971829906746353812797734899867745102648942232186142634506136399244543878214067661826538365032857384175415939))

/-- a point of order `2713` -/
def pt2713 : NC.NPt :=
  ((3949233450558364668298348829993882266210057361438833081222510791780553457416745902613199318472213290103982450912502,
    797792305574861144144203280421096493501495103399969067559077823897905818235444793970062579212258660093348626908257),
   (3637011585049407965810089835657189725715752538965845944540523360049778653280504332347692878430984927383637422053930,
    2225352297981655400089923597879062351019466687898608982584849360274814353903206126071960984821180873492585334497155))

/-- a point of order `11953` -/
def pt11953 : NC.NPt :=
  ((2715633562291330493191892111607344943089680416621823682079994138879659252825082627525063647274835324311708308524028,
    2963748164887172084831468311261124586138842453139388743459608464323482974050363156392429356758367522677634161452645),
   (872953331787216379455568023474755111664353128821254600796245565268532655147469576202790670833216102273211789573300,
    2884847176695491860127907914820504938142194110052108420983474105467195973545220218739537416665409793282836124201620))

/-- a point of order `262069` -/
def pt262069 : NC.NPt :=
  ((2796172420795711553444572723893225059473672411856435457619591117669917613039383492002649548517117292625414760062089,
    2241240792954501691631033068674834106544090915703514403816135386949164196240128776758367076572298414041045425130943),
   (1777325741798014799867662965650538671733260671993719254925182766255910197081312801868984836356724947138717364494664,
    2499216011012832002109905735931703628197383174102869010499164929629701347327340829231850992565416348136187146518697))

/-- a point of order 13 -/
def pt13a : NC.NPt :=
  ((1548756856117135681187003305508368423557841270187070672220640266387570837990374934406846925677353372478686234225505,
    1049289535694190760778640135736273688367225088528422493835706151176969782876847105271216082057436225005928103682255),
   (3192015667874979044140247784707451157925267789149373200880486999531783553576198888776385568159099569365929012624590,
    2439562863409191763085715163418213794413790087363453605483980217195396690671680350027607343232013856410623116976051))

/-- a point of order 13 -/
def pt13b : NC.NPt :=
  ((798188780589433354913231064010890575648423131234492138779711127823062252460596336378697687324932737739985866056449,
    2421607336574695072722664207905391521740988639955050885059737786335008339209114705354061266805375748696822228673795),
   (3759855240537496315191884535625196662595626701545279265647765647246344518057080039103349723603514985860133577299629,
    3901518365770590965171518920462679829925422518414351672749156654942999864178977671852264593554843987223967993986829))

/-- a point of order 23 -/
def pt23 : NC.NPt :=
  ((661134761713547020938916594900760414551884078866184098305105635587410482660070730164945514711674987016738336966673,
    3306373093986751932507969793023562408217558407084975570060972725166341851939768236647106615478708704365162934174467),
   (2462584348943858333106259765616220061096730499475839013371799697452481103239022114755640707124743941671797192276139,
    723076762916514815655169270433358146038000425575255652046867294287672739919964232451560097707487942646467182225552))

/-- `16 psi` of it -/
def psi16N : NC.NPt :=
  ((81594706476999738705434523545547933578605036124117892812841474380988578363984784889970577344273007341466494929413,
    696842034948846035455343806947358430118303416867917311896214689254169585260255014652437087399759309833546449180894),
   (2627937473850759654687386203576889297060132112865337913736545566075202877876717535772860845882915918200410935214489,
    247719072881901726847316125234133874629486806024282087631262921877449959134249923929583612928566611902229972592445))
/-- eigenvalue of psi on `ptM` -/
def lamM : ℕ := 4253797026575674604611499517168930088276112489475691392429977298260147811040741003835580278071866870177886590453580732384786071995556
/-- eigenvalue of psi on `pt2713` -/
def lam2713 : ℕ := 2017
/-- eigenvalue of psi on `pt11953` -/
def lam11953 : ℕ := 3605
/-- eigenvalue of psi on `pt262069` -/
def lam262069 : ℕ := 88066
/-- eigenvalue of psi on `pt13a` -/
def lam13a : ℕ := 7
/-- eigenvalue of psi on `pt13b` -/
def lam13b : ℕ := 11

/-- the large prime factor of the order of `E'(Fp2)` -/
def bigM : ℕ := 402096035359507321594726366720466575392706800671181159425656785868777272553337714697862511267018014931937703598282857976535744623203249

end Spark.TwistPoints

import Verif.Math.Fp

/-! The table `PrecomputedLines [4][63]E2` (pairing_bls12381/precomputations.go:5-344).
Generated by tools/gen_lines.py; entries never assigned by `init()` are Go zero values (elements without
limbs), here `none`. -/

namespace Spark

/-- precomputations.go:7-344 `PrecomputedLines[k][i]` -/
def precomputedLines : ℕ → ℕ → Option (ℕ × ℕ)
  | 0, 62 => some (669548411974166141085976469385723866436472370505741175753098277111398794822779266854375792083840680157046782393346,
      485573966283411892033555951945153738534613704502175152712350069145458247051515827246727572080547567638993006152517)
  | 0, 61 => some (3167355389248931702681920381216519418222081367984652005711617948531982787239184999431930575874115723238533491899165,
      3447267127263115595642074965719097743009312894047812306615936074422000773646907921701766406039366119066738894122723)
  | 0, 60 => some (1920944633235921513988518596278041022953356985015778043050763086272582601493666355019095852609650813854128544305181,
      860492157934473231829635744790033660958584147179311700394847602967819509512077660148051140335608956838465539095273)
  | 0, 59 => some (2872686259828813821901776510081648106707612949930121757477603035304773855306148547185864242118276240939276501471912,
      920463563137047419952256970631145852261809899713740156757053940295816615150445509541799135283673190039502817405204)
  | 0, 58 => some (3714619193743885419585832708131169264803874205331637930392693795744061038893458100694631895928325428608821091186201,
      2803750130323180936787347666144632907990389635882238646661111781401631109359498707800960039585964112969347050693538)
  | 0, 57 => some (3809995718071284042151900973024488933103030049864031067071220848309199706820588472594891801557974102218497622700071,
      3912165225431699058345901061393683854947363816159330562713945608955852170345560967680689194395447164868631283050372)
  | 0, 56 => some (622347879759205768011022247468749680855686299123085419284274056276134429911385606501233967974766218644366424518736,
      1500740749189462026269065089655113278077195444343693251448994052320674556195186935156668341304929570114492129622057)
  | 0, 55 => some (1683807955380296529179464277356150583410685997285060844955332063027770486188723773848801053602792684661825764852985,
      2719558810791192088850367207927359344511225919945451359115915371928444741396004265400249643841105922892835790005551)
  | 0, 54 => some (375779067730788644310925153474821811448285005848537210975950783963851371044263319992105676186250155417651098156170,
      3733966523158115416788023430991316807003829120352154621710514483269358061039041785724604609643071428687478543399533)
  | 0, 53 => some (627679888100276358357176940007265575606442637514150679111460077647327322461845493796232024954906194988731412742990,
      1640474007465603807593221117315813768631350077835933129371268729206573832387041087097824928540207001461881471678365)
  | 0, 52 => some (3650296230206170331461948170412665436446748701218003831277887253654064277753511532962960553265563620360134226064014,
      2409561215938887896965536259947303617818362458239899554408099496657146779228013561109106195165888510812287420438371)
  | 0, 51 => some (3965943146012523012436886123935901259641842878949589183385440733070650071752022700848687298008706652773189789571156,
      3781587587887830119678014027926478229242655143168314612514566854608758381016640445590396766447463238149599614345643)
  | 0, 50 => some (2516524990890051114557830172624952846622696966741855268858924752689012638050134098337291599300347049762631249499009,
      2838277724440483542250261902488325609796685855313384724751745262627242917164815168643675221659225278029646010530898)
  | 0, 49 => some (1020346919919454689345686298025664492420578570709403850078404276953749437271628605608591033953577550721312654894751,
      2035233040573767290854203089478489933625643223841740794072513917724855861269094032057797894488383395594601648501710)
  | 0, 48 => some (3999794500002364705194387996540043058996671076749672420994976952879632456695054734701262124117567376514305999316548,
      2037523712914198976262251711094301512285508453137565038665483625864472133289646125530201428506022430707543797731060)
  | 0, 47 => some (1352228522597441161137908156105710498714604453933397629408772872193339853796874615484054546448392540809392766374868,
      1672392011071112149342136031100062933670641454779307380594553264807703694958126664626067442230569492865463262059558)
  | 0, 46 => some (3471020969331868339274745424267673875484897140558715059509458909017470303217040695247408058206798726472147178123123,
      2819047325620898479367544526754144985358723664205955650131575490077399551405667341723146320896830720801098582857709)
  | 0, 45 => some (198412400636007802811072148882119615622478984710784674204538043831911964641933587009134635150884704808699172988667,
      1235538121757394673935269190943945445103307027490144781712140275173202783709742505176430745360811309204020795810303)
  | 0, 44 => some (3542992614482057236559067235605651529999889272871178993863126553661986885573156923893097305492580034291218414473014,
      3584527953490094615607685914397103924239362747279962542688598060206411425604001638641737039186638967633649455194291)
  | 0, 43 => some (1428505519858414724963788585080455020779142968543396706742348738430903946057154444325924558405113243287649847547028,
      255469568805094053943811439244838133421341964456430345396115388192792360855759659375210457840330885549905265166174)
  | 0, 42 => some (1161813519543100832448485023726218217911506899980751063568982100444610240283155458678085859357761886310777271380218,
      2024543557518754018225240025183007210142579342901765863468909024213131985052250019822553016575047190637324971172371)
  | 0, 41 => some (3663938147630410348590845529884105686512799097554693485461263550839609650459905357149747443181106900675222183621502,
      1167353691883536575912237192065757084296471281152540061033126407319851295132511138053309418864479978963783870392046)
  | 0, 40 => some (3422147736366383751754174069648796681157726214083354570593473083443425258197833570132918683247736376295040893339583,
      11337927206202880824871358790200052804337474988256558556739237234008272644532973070128389538534846278251601901582)
  | 0, 39 => some (3612997970192046360277946172414595493705800672421085458639618548707813391029436946048064626238111588216813929361632,
      1878416626790773315050527185017103501757993372372008108763726391343181754684270883343531865692543923966766615449574)
  | 0, 38 => some (1735664856890207310169253204399524178813326485311425355248369023944857598179113751774794101343852837913801486402934,
      257987757689159452904715641284385152828467715986517600177681521531352535362174538747360373817060560772313858089722)
  | 0, 37 => some (1401520457984247779943479808418140600316441439198119727504755495446774329464642961053357870501084879285839953943267,
      3801631184852487334845090396139279606066156434973587251458920274531296829855683500529675477873800149183554843368547)
  | 0, 36 => some (1386206426371721430883261200223512381487749770457988721883157746964420160482463384316863927260168499246730796790725,
      105258678333128666521354740403587795176240437377501517632246986958341935429854720947092812955927086837476976184408)
  | 0, 35 => some (643376698540159636558778051726667023044743522340636476360479502393735290090800846463555049440499660661597709502815,
      273152130480947176848926276607476536605977478035570463953153325427234725841518087669121533072492261967650512345505)
  | 0, 34 => some (2355394091472044936279825599359959938355474687645308765411687460086621236866142452518153528913315194632130423391438,
      1514545828569599419557358915925562383958111322715051805092136729868625115938669404676383501473562085370690718143393)
  | 0, 33 => some (2657084885954644398746184778816531794363952823725527101620555492372505275656368937266127716153751518258248254165182,
      2950867322457899876246688634040402014645144799326166449560101370115712320898754509054993314536417523566518362136876)
  | 0, 32 => some (3132063229600917670613891136589922564588967418494067208567202658993587612721110746333109603494327519775953076104661,
      1275373167524064736373612114593617177217617901632801154941510388392008224603906384641920546232940016648324112284352)
  | 0, 31 => some (86053440242818054368053994258080131501108197513542421797885566985997737396079590383222681554582578024765554005575,
      3230634811109724887953064878272037919734346474897928436938220980193233349186994534217923136215960889197535862790414)
  | 0, 30 => some (563606101962267088332267732828721041043582587025246353580116346987890608083331016733410427361695949570965227520789,
      1447710510444163006794573556490053458339113778154087329237293023456254973340533160850843017629474417093574674355164)
  | 0, 29 => some (553104808200198436637099795198248457859794790285185304908007586812710981503044298036311960523402366230566783003653,
      2003955291719445647798366785133721961713094985232133195662878880175842141635740179320897168340231736128384133534354)
  | 0, 28 => some (1777745173717667099342756119046464257151872581855146300331383956582867311823203204529781655612736609774045268711658,
      1041287756528278863695913064899216705646770322785896202378661226081642192837187951527490143718478781509638589819902)
  | 0, 27 => some (152937177363112535899008097612480126842969909709502300529346908402930035839474413363166062865253708049557944378422,
      897596282626309905062469669236886665340011419494984372382213783173084576758483513318145997370160010502859725827132)
  | 0, 26 => some (3620566506706159804708100239488627313869689908825766518776558079707132636874047944658510407093741323189240311926227,
      587825566103826950433417267558764839534823650855845168865859272218400707217937201097874915851900418500280049177693)
  | 0, 25 => some (979555040667686144734321069717744602937606084006969482488036046063313229494574591630057601636979700665914802203854,
      1083328512005369786522146909067018806083197802603736575975871992537930820832853483250551205803668495310640749336142)
  | 0, 24 => some (3023305939043287566376775840182397466273202632600006671914074027221173655043488882180663551326278326566212930523605,
      211345580778501530278518067818080421373636225064710189149613966659012842944717863500047454846418617510601303495382)
  | 0, 23 => some (3524508898240761195109795597763114367092144781256655615102582904100668274549691032362784563296727499220983570152441,
      154109098599910912999381594862896628943756799853257522903745986263346741806885494047064041211163702319803554533636)
  | 0, 22 => some (908014978798891590190712328207935319381397213593311780079258255744362291021841393725131242015616027170757756445593,
      200639170601284184001774623835371352522039806052768444417749601795225843628193407696221357162246810418514142831843)
  | 0, 21 => some (2360461348846359806382917405942817466536487234848314274910044461635090577997989305621192270573165846745607113076841,
      947341937929141884122447526020770991735996295941158962518194558209791699726852221249234839377751905155930729993341)
  | 0, 20 => some (1572650153562580171679461063610490558238392713851486235102056983067440099520233982149463624217641871971604769598051,
      2618980509891451881049009354979162559943307077780444024131691302777717224275262406075437879469156653370163741776352)
  | 0, 19 => some (3121648410086279280187939190420325208219240333621791237185060309660921657630544662333480321336847899031625344257388,
      2427620357688217067501558172333787193041787904721169429351785053557711405904561884061991426620314542234334857364382)
  | 0, 18 => some (2517225236557550934850433410068330464823062596484997219643623944432723816139315676042622268129511422705552411378459,
      2316477955778739510775794399658217674719353791845398241574961924479405948992154924007863632495072289492221251858022)
  | 0, 17 => some (1871012489878727224876595505058665788857585521570986653035860338904253701870605154927982874728131181637596420475443,
      1901160185068128975791454167192809834079447334201748146854907081248444189191761875810491917795581071947191880288163)
  | 0, 16 => some (2741229165070269117924902999145560172156178221528003351492036613433272629200676282018955648591068110182854114550924,
      394754449245515942947222210401725628247299909612001534445659911053162507221378908343285116791344668589530229643106)
  | 0, 15 => some (2456248725387547397262525114643040834056469397193019364301066598073765581121143668240981415630210804907944829744944,
      1043012900187598140574711455572545751706624394067345211899147242871854241505831150194052069901037949851965337396572)
  | 0, 14 => some (1583907611945126402969342158670251457555916265122712423938192754774277188592755130719033171706996928741333176355259,
      1480043754732647907528102591669853624107177184606806464768162240804848473641199943564132307414898940662237778707880)
  | 0, 13 => some (3611482998132061804020855119834275656700118225321062337009879540758621588230203253953916980074315068068764047335052,
      2346170214863078560104862811778279655418099426832641872989862189028138184629798194757339729949883260228219986435351)
  | 0, 12 => some (1175103434969115663465243478736530988428094788060063630270795460718911007942618967214053003288533838183840301794166,
      2153876779718109562719530248580382631701336274595917146227223627547555040502114589540617386615636683082237211673265)
  | 0, 11 => some (288579508917537216032217176846572026112298341738458834446349503424029838166869418511639725695422373336634256356505,
      3992933519722599233380063922132718381812819049463872046892870883016443953054792323020456056344685398204485574386423)
  | 0, 10 => some (674049131642920716773292998275635125430185488384219499251573331404631012361307801528514714700059774333017906904071,
      2986041691645477878693593345744447039959458233932414756236894338913165710653579464932153470232310464980926622514460)
  | 0, 9 => some (903980085139727083659669247383921724226476199049306205220045968334604361831284928601247223629870059814604444022210,
      1347827538635308235340411256030642664724853897798539165023305691688910037429723163256786901153134931835025303767837)
  | 0, 8 => some (1451288507938675216820664191752001443661941658972340336364138619052459160919783010387521742272982958657081720589057,
      780091844842754045057312647019433725300884829443248665854800094483946888790564309147834461359778064434157512664965)
  | 0, 7 => some (3108259519725255622160865392868985983941931146911727818694357361341016397681604262681477576824444998720748752183853,
      2746312800933380638719051663688878535959804042913702866743872475497377391010820849783618378511743189938152475719597)
  | 0, 6 => some (998401711577030801499823016548091904661868235334825752872616271090737140683615722295667334501710630177910370409188,
      3113580388271795111973808218003838749115342656107628938242379127409951356994761702310134652453351993186439880409956)
  | 0, 5 => some (2841471010438431779967254954386974501546987002770608809461472519141013537463963266051229253731270768522508156999616,
      696566894503412538642690079753767069302913336129171106478522752438805851287179825258314756117624623080809738255414)
  | 0, 4 => some (2626722221901546525450495131546494365497693562193436563425832546273615525185343652803128707511796650054409580651607,
      2898515900951479363905069458547895124826329747625108263493772297820331408153856994348030852520595550159245759652161)
  | 0, 3 => some (3921602381215869979684331626432646546716509921608717347721382117849039021022887606324288626301870542752693783471927,
      2523702364140531959195061579572246079207345591008472492207286834773077913074321681802231395020396532561725831993635)
  | 0, 2 => some (1680458512589067571896634706380419213249047340047151052382898514607798507250939135807299863867577040318561590393585,
      1033946335839836561404870194835625676362202728567409441052246502652005038621446258562651084280524280496231515354305)
  | 0, 1 => some (3565448959257374800198419850448580122970161672942598117316274721696483682407630545127619505130456918163042800666213,
      3345751791634611319739837464169473359182614679402518952036363106531863475124919612432455420087836710231316659292948)
  | 0, 0 => some (3021393366864267596780779365081014671914599573258232428274167592862693896278193045742059529785963318957699876618598,
      2774709764298624490594173467667228199179204402302427867108160491882432826696994080161627641500497330778328523750634)
  | 1, 62 => some (732314894289793391974712446827048498840404262185434961420778947287791823788298610205403980970134873973855179358473,
      812131749855875379265953416260136615241951347320592877965506695109494376177747525031326561409216449039455993646505)
  | 1, 61 => some (688058980511165006458564368448205274272822292909762824504151377882157830132026052687556627274968720237714650160120,
      3135587461047004958207254072262540591320988757795402058246794065635354508091637006911264790495996819610302037162717)
  | 1, 60 => some (154735886397992143544806730614061370678971837934333975977429679584966012416707029831585725093568219539315233881659,
      376818648643968640397954810189258513612631887956420766739477434016962285151114935114922630691454914927141730374752)
  | 1, 59 => some (3229873723050285868589420275301455820861051245243344751135273165330871017410167055454147819278539515196847338970604,
      3250551647670882224581247559778513579667585374140502287850693829340751460016290130863912315736341727657711566097737)
  | 1, 58 => some (1472897540326065072059132746588167179515249703686025418792853111589229339540168375181352277937001709294618169294768,
      3135206684301227064375208594383629110896364928784129558817953479498838576564714827663870236430119199289098913046652)
  | 1, 57 => some (2612385026547803629760760529969977825484378330987722663235351236102353757267355059756029342891246063337681516513239,
      3138408358796246446673337034537560252797484869470651011585286460917182785261415450828915245077625596387266880447102)
  | 1, 56 => some (2795735917000119332024849594147759966503120883167292404312386146916548928506191157798369716404301202392840237584010,
      574044548578100921001269599195979818060436038680486863462612989496313429331211929276265366750107217926566428464671)
  | 1, 55 => some (2969634126445395157111080166389580842022545720354905778776357619927566473203993743030834911454836656475683368211894,
      3170175285127781392809786438941043126306291403685156491643424647115525372973022802000864505005625723904690328063907)
  | 1, 54 => some (750499460814355297922927817774908099053943604885008295706164614840446320259237167343783111403152276091379252684616,
      2825318853533025835349605808545710541034664742563654571824138682643441922126128300908285862303401700954453127481714)
  | 1, 53 => some (3023647540724840221448340194237062576117700682390969333781535156475098745856085799973057471235608525769873178028191,
      486526745657630431509941094224758430578307862719388319027652292841508433960493074790673321073294175358344563135416)
  | 1, 52 => some (2519665618777597708805426117626873044241626169780728743913542033986762322452960126595474642740412111194932498442424,
      2995288065509063655204878433593032419361001555657280878228932810763402933565472618640755136903486140985217860614430)
  | 1, 51 => some (281493173741755688481134681014554614648591125791327736577228157760720931895294993775883808637897570982349481278455,
      3993652227334123342020529370134577009762551708442580124648039753538411625652437681601773709227840139276954956023720)
  | 1, 50 => some (205814431017841781529711167473014574588315078838308781682081636487986677792974415834575517630013694964226548873843,
      457345270056658240314731954295238544045524550279216572405272871385901601878145910922764232048405028749348986319946)
  | 1, 49 => some (1327235758160253855593076914415418147974794848908239888587061087772903111782401424731516402162647994151356947511796,
      2345983157885705725975284492081588828805085626463839465716669020430923654178549024685469937397030677495963662130017)
  | 1, 48 => some (1634161835818922950487208355001947642560543372116279175990598010448156542079631096605929066390913044814879119808353,
      2554166153844771975465431059358548130366205693353150926329014635702290148449003780762406943828228518337363360267088)
  | 1, 47 => some (1599374044309101711396661090243685761282731445460192675445448884679532421917337092819806700750615911921798461360121,
      2512650952901556745731974003978943420505200981672715597095524880689593099413101445780656721815785475053889081706678)
  | 1, 46 => some (630925931142976074685573795766009010345551824202186317510723152511213269382926514663889003322958192458264917883739,
      730708946329622469595393173442148447611685401673527273593418546020927684409753133837520124894637951916365839386160)
  | 1, 45 => some (127449723165767618160544163158081887167750270799206910156801724420258731910725471222101164978860927062135819778920,
      1980335922546437651709751133736030207175349461879996979062693453362277374709777569183416036000958323716762049291744)
  | 1, 44 => some (2933771789553990042831343608346228744924936740235468281265740746084993415654144367825141102522105790771732605662673,
      357221450466112351467892138625473814367000466631434933520256036228321581439111528221088566194593092448380607628937)
  | 1, 43 => some (2841916087237451089871919956880030230404765495311921549225109128734951911064362232331455183143163787624459526919204,
      2080277921400703811750799004531700060990459649936071284451991088891151958553636754908447208794532902985981717385197)
  | 1, 42 => some (1300348585886929751726227943801215133444838387886469335147731950649896068046555404665420122667116820807544395572991,
      132553990561974819643301422280568738175710696265452865499319629218595397851655434827834869071879254702329949577177)
  | 1, 41 => some (2502366363958385636575096731742781445822573495751060987471063288395705513008577494849055381410929299192520021143963,
      168012017786556155916365424936030459963969329890011871555391199195524501359161804719804475541392820589754269324473)
  | 1, 40 => some (937059775967306522240360587341180755614199042950625504697937131942983650460054919541269959395433778244986419803777,
      452377712017692674398905129564653333739311305247415895016831258644194298528119821127996385402381262854234490259250)
  | 1, 39 => some (1064399826825526943533915590474819784350899403610383371512627205253691058435433480324428528977455879008913187859489,
      1493858117017686382025018246020080696784248677063660248506323896583625254078001520559429449267479753774555640656115)
  | 1, 38 => some (3946465293088454781014388324927134871913047898475854876800085625862621433529365655612871749364409826568968642462682,
      3514516048833750160654616198372533402722421230509993177084104711179394585961253245647565370709206323382607579115108)
  | 1, 37 => some (3793843723599766510128907097460302748913564383405034491079209933664814101598005798700867405427941067839702387132551,
      3306940590973833542721039863858362748858705070089020543718304082366722282663705234043233941444934273726393427156475)
  | 1, 36 => some (932703267338824377065600514218801996331026291359027400436063614448672472594233465820977170328221080390337491527475,
      1997691216719219792140629951813670927631278876322624455128068353052974430392275280843680022909857531980837305445355)
  | 1, 35 => some (2884756623806302783060959589833895994361358453330946927482503242534883207284024199766671460228049002959968955556544,
      1104408845625748157498570748739992116575830335623545342349641509468821031457722373198091225304845345864484821816520)
  | 1, 34 => some (2342810081178981235002861700946741808510377823228526922452112941039257271124158122048943685128217560845825533768234,
      503445239041840170015602950815430394154806858030319353226841813139639784228695779691934743598652740721050230266959)
  | 1, 33 => some (2243909572679435242054837525492887593116525671610805132367202750543401085997072583661340355528884399865342689858236,
      3479899708432584697662617257428806293863393731873139669667415845090665473410343628859481184318696801412878547924785)
  | 1, 32 => some (1951281490834827378430403879656313795704179094690571238995959924602423201300568801597213153338556343940337082564163,
      874739535077666291108709093692947749877527789473195415417438679809595046593449884845499149689457088132546512367865)
  | 1, 31 => some (1578872153108485586740648390134492363858521364266818906972887979762709384757209232552002419238395578707827072494146,
      3346182034080587137847082053075136548616290128507231616924000212671337956860278775275340632986689511391294754917950)
  | 1, 30 => some (271208876921370646099156956119790748292096870574678731086094113909284881874681676160093634310679644399904203270909,
      734014135075220340217360055586287717623361723625999277128094287557651444748005340858829326263676471443653917380028)
  | 1, 29 => some (2178147651395974400304695746874894783920829064896437782855376270213935679743301253682869488818132822182583360124241,
      2021924461162721359703592906360932111888647290905383591545198703128435999832129964838104126457865901358842626541451)
  | 1, 28 => some (1967355981600226768199599440345674395956405622419425164671491474464778947731825391685654108331113188849139873946423,
      3256694521155602227991873365090666099769483235980732713464480092130836478909542237706421755139181299068417733946618)
  | 1, 27 => some (2346758308810875365168118646648040744389722928738625003408785886492711195838395334630420578844405693367496418920211,
      2656981446205865501558128157203546483094652284695248391187003029925483050287333375605638675631123261261698615316370)
  | 1, 26 => some (315851704572083517038658574619778523404095735851866846909808016842341190792198628387184169216243993584352479330528,
      229972078916735518731751050710560968941984639445244488397477314523703531099960305941377239301202435021499588716423)
  | 1, 25 => some (792214870461187352036421584558521612384249649331727031805894500139426113040621396016975323081727321304814602705639,
      293126960439059888314336502484927086559096380766871756432786584741451879297750115116060526063096689019596377256462)
  | 1, 24 => some (1083967895923493980361373119038766728523388392678856516526946919892547528455219127949867777528733801974645664040222,
      27259736067175495975204418838888242237774672904102535395102952871757057779325470610149549006171411043997579252843)
  | 1, 23 => some (1507508929647441259276327449399270586674159083549117937291801300548797928248720243445837206614212644609961366620912,
      1868673061074969251396600047373562479665360443636499083160191471647935542691413181537129994029355285946490530299296)
  | 1, 22 => some (2350371217279740579820143271264453949977038917578227565960325061648448714010069328159980890814283501689783961524702,
      1593895841197462027228582101998016460630082782005665672367357528349861944810760713747730739706721098594296662524458)
  | 1, 21 => some (2371915419268388555770713628437540544538124706813717269034056295021127101714581368189393845415492802863632836193876,
      3820176191003385401211443983255159967207554116103848359429328989702264327090629066820234833787173268959129598582288)
  | 1, 20 => some (914440712713401078461992974124539925054406459556882995700401997575824770950958824081091612726953802622133206086132,
      3761729476045264945742115214328854993283781354642998410783435809759489218467630853313060142896942920368784023624564)
  | 1, 19 => some (2708786771252814590617678344796738582404650900020338773987915299039612698556736430693452560828818771063820703207467,
      517411305194592772809763582146889163055266117798808949181626918347108724425656691661675351924493197452027981397318)
  | 1, 18 => some (3355942814100146198477737240362747495473665280368926326861352687278625310382944378160190997562974389721544171232057,
      1405256119069207071356021656215306373736938017990909711990090738437615436721191173454389898556042490086922502478452)
  | 1, 17 => some (1508805355272822827788090744062050727018818455929522068131059654827967915946146897794939483471020907220031424503902,
      392176457381240086084667193945896246039077028491953999599542527450836164540698798542367795135108835354979937729176)
  | 1, 16 => some (3281821044964510076704259445805281918044215707355772313190483116134259563285207680309643894942896092949741436198183,
      2279727743915060359386920658508386508396853897423119737675172726894449285404134596174496441719084502944932053797831)
  | 1, 15 => some (2818047063092228393255521223699593672793582976332754074700446958296103353245361019407731583187313322019846120441360,
      609324778570449498894287960818577137803498106249221775461586760331332978890739893282037207179739452898113233757842)
  | 1, 14 => some (1073770434466187296401264518401836490010154190466732406500178370991399776232002701153045477118496857622558404986124,
      2040088101627138737987871617873915758242178143051551613106980725563415248571813669113484542372670569201005661094588)
  | 1, 13 => some (1200357469471453477416622874970904427768324541884587100292052206488927915687048371988316685540349619282470657037061,
      3484088805784391480522749040297723013103515240980206599299861821416786877289405050312590194417722749870526191019673)
  | 1, 12 => some (196906826244106976903807716766844478488002154571305434677738804785501147563736236264422551863677725322188941142814,
      3003134029129368381569085969742217191347104600214895562498282523853129629358228016925981694439115028848189047930274)
  | 1, 11 => some (1901084398218251517716150525360269215916704505616118339628161776708362087441629181428748618965084417219509574513576,
      1952189648467839796870124474683061875216340850091397726737866109626602833143447824132199531004749663678290861592934)
  | 1, 10 => some (396980881920070119281371625216467857543862821632618429299867864848221772789254174263915490714491686803960122676841,
      3363488693200112955217599550745786026344253629302768961678458665321585247924625609690843453377126238012557561047704)
  | 1, 9 => some (362946095859932580358415564370912182581787648319175363986622115682210008263959828660939888692668763890646644654633,
      1521162638370174260915444190906972864974462580865371310106941096343692947339423700927310107639026264108572639880763)
  | 1, 8 => some (2025397797410857541801387239105980546331437474914109199821350959051310813036349354931803123302652471034747102363943,
      1349804482686745175789105413999273853512844505258621270714326733460020468417764035353237622608805002148395864268050)
  | 1, 7 => some (2080362443193479154911701830952814560889592049737440328591160551538249466843193733836470398280062259043136979920854,
      3964650959705446256700736846818753122873391146832851772353426653959701656164345607420376069170669631695894867766661)
  | 1, 6 => some (2209895036333273778785791339299432698003341556381168283301669691693492869926045293967113459553699553056033465779798,
      959647019662444226972580453114544223706755036638831753478672703623585644987424105312187217218661108832975493877168)
  | 1, 5 => some (2911265147164022514710363886878608210045172248737826097784218655566417385178563726914426070452767585831687080991147,
      2744818944054579004598792944387297677957805313049835664087933533436786259115891347376732045096926518910859165808954)
  | 1, 4 => some (1921592673575952646060010989725488734583736903852633912443953723136259718959911482580429310015710706499067320270317,
      956251362899975176731442839970722287994171762098273356212496480881340499428283976466263674939566948363663432606399)
  | 1, 3 => some (365550321315950743851268167652946217061103742807645488424195332015419615371374089484470568460278262393265512170365,
      2367775129286209205281261235584543398195849023700633569371476648532398963866035316135040295345655465417403167550696)
  | 1, 2 => some (3777662686667655344658815583791672223988649461202850693112863279144808037867254199316045088493867424310466772435262,
      2064839480899148857837309570504205604502488145969799920908269678849234113812590058688143649401420761848749422330662)
  | 1, 1 => some (1617681413845042635925097980110882198826532425223057956385624726626794238122669810593496494648798312736702002674001,
      623718078700217167207278824799657763292593672163484469137343331952443014063067608809944893696957512085202161610194)
  | 1, 0 => some (887601706871077344640254225359406175214680885957404575459587548760809083522151140664098119031225155506199574629967,
      2676643094794718705520885263561335025726613452251214882260540192490012199952733082631183814711038861520905961974067)
  | 2, 62 => some (812813015191018354207694813555941619677019645169301374927303155179580064739571240876370786966001693001968716962848,
      3422194989631851684366263045255187543169850434295111246095065735670714951846252356682387297924035567868374078778836)
  | 2, 60 => some (641527568955787391077163687908538469505081470399460441692301288737222490738061487415717406714694506016714777293130,
      3744267661141807834055307161213218479864096716748396680737728943139485914722174229482692458759736989024915141720741)
  | 2, 57 => some (2710175849436261653096354516342437318921319381660945851344881244999005767888550326063765862016499488689860335247904,
      3299315682062156295281559161247281711935174505100911525914443559341485746169616283628132512486441613155889807522683)
  | 2, 48 => some (2774236537775390183063657058358755572488017173035729341596763163103225009018936586885492696339030774916510005182013,
      1173654495128890249932151437147000173891141885237377296676843456320239874043343036348838009942995118588197235041811)
  | 2, 16 => some (353345079382094137526926194700107849760485245746200219086878713290578018072683764914127968225936663626062935997429,
      1564619051727543092268240068918461744410102185232141167890515232410738747169856682086977412134170322374787182604285)
  | 3, 62 => some (157456865461253934305228427450035810208837931422473369102772999374350410389521892324920360694666903623614196805494,
      3411528111412942541370177329760558674332800117796166840462360536268624996289772462833524354828959884682972709883122)
  | 3, 60 => some (1979277100806290341353932143559540821614946287031881379641593473632280348718200753415872393941708408115665834864981,
      3524079793475292610139160896458047061630390153266629174975238784247652400355301532647529891858932671865719593746519)
  | 3, 57 => some (3885957143056127103039913083706920216817048993469158176611416475280944971176966597194215917398415610118443429941518,
      1172972047837757111565152162191536831837373537643921973246599500915199390098182165856110670906629269605489393487725)
  | 3, 48 => some (319716182789485809633400119894079442154863170302317662942572724308602882847075525211093447184144874467659787199054,
      665774523119220953421023874996858698673633880237440435786173568687987025043665032919009942945066009450203009618903)
  | 3, 16 => some (1031783123982449084107331586608935203701652584407973805774838114682364185882412466765964240680264636252893789921832,
      1674505309126597529030651480135394381023726406881712713659095642254644276683224627684705587858451842527993474727715)
  | _, _ => none

end Spark

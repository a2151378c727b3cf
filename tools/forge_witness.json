{"a": [[2068308598237557110612598654825470717559558338058952363685298758559814738855652898668733290387572774048903369933336, 2954635019102967512508434257868831038375404503357937226006829492940551549989063328971868972253524910740245134612862], [2791129664459567203900661989489470953205391999230440256832547013480037823363295436910378634295994078645088021380709, 3234430830137923586047288617299099479341648133319050747446944805976509592676782978433114310294287751425354494663604]], "lam": [1187003306365701265734006819925708061842649820334955796394467538208827387150901930301027105504004521317115546175085, 2945874141902754855437636971418460425077732034026876414948300670867595841017837358221502925102702300653758060119302], "Q": [[339209671931551988796254741450416721376727451254365452563548204106858766415396415950258135179421454493059967926328, 1345669316640538379904969744332398687297174205921746143270759006877104876532028158191440783325066479814911009061159], [1160617291919907955271702134981663670312621258160557201192022597314016843178155452690657167938168883731057846629258, 3938159027903828789319029678051568431089093395077199206163651176870138608254862709428348918981512782131901161940340]], "u": [380592288895454721804712840530140763105204637410342294343218725828451867211898553304710586003844644735953059702177, 931847599921976759922646892055080748247997517891814761077765861022426458789038495733342114095397513876237880132662], "x": [2932912797327998172638312766405172155944724075837131260810196059992060894214236288482175995353458404527239895818223, 1577769320225434319314949448514823078903691112805711085719272489863981238923778541873275747057503160384791913606412], "y": [3568366199767258125046026440302960543658282733597061420975019353801207693966186881696530978849347546567431189117531, 993604107004374998193279393227108222953889536706073557149609052611034246522944488109865070806876987177044570786752], "l2": [1847473984020617297217157375148069787771379639913707658079803156519201757868262612551271307125314756941812095397345, 2904671495794436094238650273444046816213685481428633946805298412476769264443858857299970909280642386183918147416514], "lp": [155945932599019611373176380532265268107478438031528057227786484785616112386080396021150225483262788689948767769287, 493123987729571406203674318532983828059451277698997526947100730080369375593087711559628135686714017413592590438277], "i1": 3, "i2": 2}
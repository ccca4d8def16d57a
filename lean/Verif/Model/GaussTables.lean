/-!
GENERATED by tools/gen_gauss.py from the tables of /repo; do not edit.

Gauss-Legendre tables: `Nodes::get_gauss_legendre_segment_nodes` (src/numerics/nodes.cpp:97-502) and
`SegmentQuadrature::get_segment_weights_gl` (src/numerics/quadrature/segment.cpp:7-412).  A case of
the `switch` is the list of its assignments `view(index) = value` in program order; `value` is the
decimal constant of the source times `10^33`, exactly (the compiler rounds it to double).  `none` =
no case (the switch has no default).
-/
namespace DG

/-- decimal places of the constants (numerics/nodes.cpp 97-502) -/
def gaussScale : Nat := 33

/-- assignments of each case, nodes.cpp:97-502 -/
def glNodeWrites (order : Nat) : Option (List (Nat × Int)) :=
  match order with
  | 0 | 1 => some [(0, 0)]
  | 2 | 3 => some [(0, -577350269189625764509148780501960),
      (1, 577350269189625764509148780501960)]
  | 4 | 5 => some [(0, -774596669241483377035853079956480),
      (1, 0),
      (2, 774596669241483377035853079956480)]
  | 6 | 7 => some [(0, -861136311594052575223946488892810),
      (1, -339981043584856264802665759103240),
      (2, 339981043584856264802665759103240),
      (3, 861136311594052575223946488892810)]
  | 8 | 9 => some [(0, -906179845938663992797626878299390),
      (1, -538469310105683091036314420700210),
      (2, 0),
      (3, 538469310105683091036314420700210),
      (4, 906179845938663992797626878299390)]
  | 10 | 11 => some [(0, -932469514203152027812301554493990),
      (1, -661209386466264513661399595019910),
      (2, -238619186083196908630501721680710),
      (3, 238619186083196908630501721680710),
      (4, 661209386466264513661399595019910),
      (5, 932469514203152027812301554493990)]
  | 12 | 13 => some [(0, -949107912342758524526189684047850),
      (1, -741531185599394439863864773280790),
      (2, -405845151377397166906606412076960),
      (3, 0),
      (4, 405845151377397166906606412076960),
      (5, 741531185599394439863864773280790),
      (6, 949107912342758524526189684047850)]
  | 14 | 15 => some [(0, -960289856497536231683560868569470),
      (1, -796666477413626739591553936475830),
      (2, -525532409916328985817739049189250),
      (3, -183434642495649804939476142360180),
      (4, 183434642495649804939476142360180),
      (5, 525532409916328985817739049189250),
      (6, 796666477413626739591553936475830),
      (7, 960289856497536231683560868569470)]
  | 16 | 17 => some [(0, -968160239507626089835576202903670),
      (1, -836031107326635794299429788069730),
      (2, -613371432700590397308702039341470),
      (3, -324253423403808929038538014643340),
      (4, 0),
      (5, 324253423403808929038538014643340),
      (6, 613371432700590397308702039341470),
      (7, 836031107326635794299429788069730),
      (8, 968160239507626089835576202903670)]
  | 18 | 19 => some [(0, -973906528517171720077964012084450),
      (1, -865063366688984510732096688423490),
      (2, -679409568299024406234327365114870),
      (3, -433395394129247190799265943165780),
      (4, -148874338981631210884826001129720),
      (5, 148874338981631210884826001129720),
      (6, 433395394129247190799265943165780),
      (7, 679409568299024406234327365114870),
      (8, 865063366688984510732096688423490),
      (9, 973906528517171720077964012084450)]
  | 20 | 21 => some [(0, -978228658146056992803938001122860),
      (1, -887062599768095299075157769303930),
      (2, -730152005574049324093416252031150),
      (3, -519096129206811815925725669458610),
      (4, -269543155952344972331531985400860),
      (5, 0),
      (6, 269543155952344972331531985400860),
      (7, 519096129206811815925725669458610),
      (8, 730152005574049324093416252031150),
      (9, 887062599768095299075157769303930),
      (10, 978228658146056992803938001122860)]
  | 22 | 23 => some [(0, -981560634246719250690549090149280),
      (1, -904117256370474856678465866119100),
      (2, -769902674194304687036893833212820),
      (3, -587317954286617447296702418940530),
      (4, -367831498998180193752691536643720),
      (5, -125233408511468915472441369463850),
      (6, 125233408511468915472441369463850),
      (7, 367831498998180193752691536643720),
      (8, 587317954286617447296702418940530),
      (9, 769902674194304687036893833212820),
      (10, 904117256370474856678465866119100),
      (11, 981560634246719250690549090149280)]
  | 24 | 25 => some [(0, -984183054718588149472829448807110),
      (1, -917598399222977965206547836500720),
      (2, -801578090733309912794206489582860),
      (3, -642349339440340220643984606995520),
      (4, -448492751036446852877912852127640),
      (5, -230458315955134794065528121097990),
      (6, 0),
      (7, 230458315955134794065528121097990),
      (8, 448492751036446852877912852127640),
      (9, 642349339440340220643984606995520),
      (10, 801578090733309912794206489582860),
      (11, 917598399222977965206547836500720),
      (12, 984183054718588149472829448807110)]
  | 26 | 27 => some [(0, -986283808696812338841597266704050),
      (1, -928434883663573517336391139377870),
      (2, -827201315069764993189794742650390),
      (3, -687292904811685470148019803019330),
      (4, -515248636358154091965290718551190),
      (5, -319112368927889760435671824168480),
      (6, -108054948707343662066244650219830),
      (7, 108054948707343662066244650219830),
      (8, 319112368927889760435671824168480),
      (9, 515248636358154091965290718551190),
      (10, 687292904811685470148019803019330),
      (11, 827201315069764993189794742650390),
      (12, 928434883663573517336391139377870),
      (13, 986283808696812338841597266704050)]
  | 28 | 29 => some [(0, -987992518020485428489565718586610),
      (1, -937273392400705904307758947710210),
      (2, -848206583410427216200648320774220),
      (3, -724417731360170047416186054613940),
      (4, -570972172608538847537226737253910),
      (5, -394151347077563369897207370981050),
      (6, -201194093997434522300628303394600),
      (7, 0),
      (8, 201194093997434522300628303394600),
      (9, 394151347077563369897207370981050),
      (10, 570972172608538847537226737253910),
      (11, 724417731360170047416186054613940),
      (12, 848206583410427216200648320774220),
      (13, 937273392400705904307758947710210),
      (14, 987992518020485428489565718586610)]
  | 30 | 31 => some [(0, -989400934991649932596154173450330),
      (1, -944575023073232576077988415534610),
      (2, -865631202387831743880467897712390),
      (3, -755404408355003033895101194847440),
      (4, -617876244402643748446671764048790),
      (5, -458016777657227386342419442983580),
      (6, -281603550779258913230460501460500),
      (7, -95012509837637440185319335424958),
      (8, 95012509837637440185319335424958),
      (9, 281603550779258913230460501460500),
      (10, 458016777657227386342419442983580),
      (11, 617876244402643748446671764048790),
      (12, 755404408355003033895101194847440),
      (13, 865631202387831743880467897712390),
      (14, 944575023073232576077988415534610),
      (15, 989400934991649932596154173450330)]
  | 32 | 33 => some [(0, -990575475314417335675434019940670),
      (1, -950675521768767761222716957895800),
      (2, -880239153726985902122955694488160),
      (3, -781514003896801406925230055520480),
      (4, -657671159216690765850302216643000),
      (5, -512690537086476967886246568629550),
      (6, -351231763453876315297185517095350),
      (7, -178484181495847855850677493654070),
      (8, 0),
      (9, 178484181495847855850677493654070),
      (10, 351231763453876315297185517095350),
      (11, 512690537086476967886246568629550),
      (12, 657671159216690765850302216643000),
      (13, 781514003896801406925230055520480),
      (14, 880239153726985902122955694488160),
      (15, 950675521768767761222716957895800),
      (16, 990575475314417335675434019940670)]
  | 34 | 35 => some [(0, -991565168420930946730016004706150),
      (1, -955823949571397755181195892929780),
      (2, -892602466497555739206060591127150),
      (3, -803704958972523115682417455014590),
      (4, -691687043060353207874891081288850),
      (5, -559770831073947534607871548525330),
      (6, -411751161462842646035931793833050),
      (7, -251886225691505509588972854877910),
      (8, -84775013041735301242261852935784),
      (9, 84775013041735301242261852935784),
      (10, 251886225691505509588972854877910),
      (11, 411751161462842646035931793833050),
      (12, 559770831073947534607871548525330),
      (13, 691687043060353207874891081288850),
      (14, 803704958972523115682417455014590),
      (15, 892602466497555739206060591127150),
      (16, 955823949571397755181195892929780),
      (17, 991565168420930946730016004706150)]
  | 36 | 37 => some [(0, -992406843843584403189017670253260),
      (1, -960208152134830030852778840687650),
      (2, -903155903614817901642660928532310),
      (3, -822714656537142824978922486712710),
      (4, -720966177335229378617095860823780),
      (5, -600545304661681023469638164946240),
      (6, -464570741375960945717267148104100),
      (7, -316564099963629831990117328849840),
      (8, -160358645640225375868096115740740),
      (9, 0),
      (10, 160358645640225375868096115740740),
      (11, 316564099963629831990117328849840),
      (12, 464570741375960945717267148104100),
      (13, 600545304661681023469638164946240),
      (14, 720966177335229378617095860823780),
      (16, 822714656537142824978922486712710),
      (16, 903155903614817901642660928532310),
      (17, 960208152134830030852778840687650),
      (18, 992406843843584403189017670253260)]
  | 38 | 39 => some [(0, -993128599185094924786122388471320),
      (1, -963971927277913791267666131197280),
      (2, -912234428251325905867752441203300),
      (3, -839116971822218823394529061701520),
      (4, -746331906460150792614305070355640),
      (5, -636053680726515025452836696226290),
      (6, -510867001950827098004364050955250),
      (7, -373706088715419560672548177024930),
      (8, -227785851141645078080496195368570),
      (9, -76526521133497333754640409398838),
      (10, 76526521133497333754640409398838),
      (11, 227785851141645078080496195368570),
      (12, 373706088715419560672548177024930),
      (13, 510867001950827098004364050955250),
      (14, 636053680726515025452836696226290),
      (15, 746331906460150792614305070355640),
      (16, 839116971822218823394529061701520),
      (17, 912234428251325905867752441203300),
      (18, 963971927277913791267666131197280),
      (19, 993128599185094924786122388471320)]
  | 40 | 41 => some [(0, -993752170620389500260242035937940),
      (1, -967226838566306294316622214907700),
      (2, -920099334150400828790187133714970),
      (3, -853363364583317283647250638587570),
      (4, -768439963475677908615877851306230),
      (5, -667138804197412319305966669990340),
      (6, -551618835887219807059018796724310),
      (7, -424342120207438783573668888543790),
      (8, -288021316802401096600792516064600),
      (9, -145561854160895090937030982338690),
      (10, 0),
      (11, 145561854160895090937030982338690),
      (12, 288021316802401096600792516064600),
      (13, 424342120207438783573668888543790),
      (14, 551618835887219807059018796724310),
      (15, 667138804197412319305966669990340),
      (16, 768439963475677908615877851306230),
      (17, 853363364583317283647250638587570),
      (18, 920099334150400828790187133714970),
      (19, 967226838566306294316622214907700),
      (20, 993752170620389500260242035937940)]
  | 42 | 43 => some [(0, -994294585482399292073031421161300),
      (1, -970060497835428727123950986765270),
      (2, -926956772187174000520692939259050),
      (3, -865812577720300136536425637019380),
      (4, -787816805979208162004277955408350),
      (5, -694487263186682780050689835762260),
      (6, -587640403506911592958876927638650),
      (7, -469355837986757026406330710966410),
      (8, -341935820892084225158147420427380),
      (9, -207860426688221285478846533919550),
      (10, -69739273319722221213841796118628),
      (11, 69739273319722221213841796118628),
      (12, 207860426688221285478846533919550),
      (13, 341935820892084225158147420427380),
      (14, 469355837986757026406330710966410),
      (15, 587640403506911592958876927638650),
      (16, 694487263186682780050689835762260),
      (17, 787816805979208162004277955408350),
      (18, 865812577720300136536425637019380),
      (19, 926956772187174000520692939259050),
      (20, 970060497835428727123950986765270),
      (21, 994294585482399292073031421161300)]
  | 44 | 45 => some [(0, -994769334997552123523925715445570),
      (1, -972542471218115231956024076820780),
      (2, -932971086826016102349196989038420),
      (3, -876752358270441667378156885934150),
      (4, -804888401618839892151118406996780),
      (5, -718661363131950194461624483748620),
      (6, -619609875763646156385097311649600),
      (7, -509501477846007549689793047866850),
      (8, -390301038030290831421488872880610),
      (9, -264135680970344930533869538283310),
      (10, -133256824298466110931742682241770),
      (11, 0),
      (12, 133256824298466110931742682241770),
      (13, 264135680970344930533869538283310),
      (14, 390301038030290831421488872880610),
      (15, 509501477846007549689793047866850),
      (16, 619609875763646156385097311649600),
      (17, 718661363131950194461624483748620),
      (18, 804888401618839892151118406996780),
      (19, 876752358270441667378156885934150),
      (20, 932971086826016102349196989038420),
      (21, 972542471218115231956024076820780),
      (22, 994769334997552123523925715445570)]
  | 46 | 47 => some [(0, -995187219997021360179997409700740),
      (1, -974728555971309498198391993008170),
      (2, -938274552002732758523649001708720),
      (3, -886415527004401034213154341982200),
      (4, -820001985973902921953949872669750),
      (5, -740124191578554364243828103099980),
      (6, -648093651936975569252495786910750),
      (7, -545421471388839535658375617218370),
      (8, -433793507626045138487084231913350),
      (9, -315042679696163374386793291319810),
      (10, -191118867473616309158639820757070),
      (11, -64056892862605626085043082624745),
      (12, 64056892862605626085043082624745),
      (13, 191118867473616309158639820757070),
      (14, 315042679696163374386793291319810),
      (15, 433793507626045138487084231913350),
      (16, 545421471388839535658375617218370),
      (17, 648093651936975569252495786910750),
      (18, 740124191578554364243828103099980),
      (19, 820001985973902921953949872669750),
      (20, 886415527004401034213154341982200),
      (21, 938274552002732758523649001708720),
      (22, 974728555971309498198391993008170),
      (23, 995187219997021360179997409700740)]
  | 48 | 49 => some [(0, -995556969790498097908784946893900),
      (1, -976663921459517511498315386479590),
      (2, -942974571228974339414011169658470),
      (3, -894991997878275368851042006782800),
      (4, -833442628760834001421021108693570),
      (5, -759259263037357630577282865204360),
      (6, -673566368473468364485120633247620),
      (7, -577662930241222967723689841612650),
      (8, -473002731445714960522182115009190),
      (9, -361172305809387837735821730127640),
      (10, -243866883720988432045190362797450),
      (11, -122864692610710396387359818808040),
      (12, 0),
      (13, 122864692610710396387359818808040),
      (14, 243866883720988432045190362797450),
      (15, 361172305809387837735821730127640),
      (16, 473002731445714960522182115009190),
      (17, 577662930241222967723689841612650),
      (18, 673566368473468364485120633247620),
      (19, 759259263037357630577282865204360),
      (20, 833442628760834001421021108693570),
      (21, 894991997878275368851042006782800),
      (22, 942974571228974339414011169658470),
      (23, 976663921459517511498315386479590),
      (24, 995556969790498097908784946893900)]
  | _ => none

/-- assignments of each case, segment.cpp:7-412 -/
def glWeightWrites (order : Nat) : Option (List (Nat × Int)) :=
  match order with
  | 0 | 1 => some [(0, 2000000000000000000000000000000000)]
  | 2 | 3 => some [(0, 1000000000000000000000000000000000),
      (1, 1000000000000000000000000000000000)]
  | 4 | 5 => some [(0, 555555555555555555555555555555560),
      (1, 888888888888888888888888888888890),
      (2, 555555555555555555555555555555560)]
  | 6 | 7 => some [(0, 347854845137453857373063949222000),
      (1, 652145154862546142626936050778000),
      (2, 652145154862546142626936050778000),
      (3, 347854845137453857373063949222000)]
  | 8 | 9 => some [(0, 236926885056189087514264040719920),
      (1, 478628670499366468041291514835640),
      (2, 568888888888888888888888888888890),
      (3, 478628670499366468041291514835640),
      (4, 236926885056189087514264040719920)]
  | 10 | 11 => some [(0, 171324492379170345040296142172730),
      (1, 360761573048138607569833513837720),
      (2, 467913934572691047389870343989550),
      (3, 467913934572691047389870343989550),
      (4, 360761573048138607569833513837720),
      (5, 171324492379170345040296142172730)]
  | 12 | 13 => some [(0, 129484966168869693270611432679080),
      (1, 279705391489276667901467771423780),
      (2, 381830050505118944950369775488980),
      (3, 417959183673469387755102040816330),
      (4, 381830050505118944950369775488980),
      (5, 279705391489276667901467771423780),
      (6, 129484966168869693270611432679080)]
  | 14 | 15 => some [(0, 101228536290376259152531354309960),
      (1, 222381034453374470544355994426240),
      (2, 313706645877887287337962201986600),
      (3, 362683783378361982965150449277200),
      (4, 362683783378361982965150449277200),
      (5, 313706645877887287337962201986600),
      (6, 222381034453374470544355994426240),
      (7, 101228536290376259152531354309960)]
  | 16 | 17 => some [(0, 81274388361574411971892158110524),
      (1, 180648160694857404058472031242910),
      (2, 260610696402935462318742869418630),
      (3, 312347077040002840068630406584440),
      (4, 330239355001259763164525069286970),
      (5, 312347077040002840068630406584440),
      (6, 260610696402935462318742869418630),
      (7, 180648160694857404058472031242910),
      (8, 81274388361574411971892158110524)]
  | 18 | 19 => some [(0, 66671344308688137593568809893332),
      (1, 149451349150580593145776339657700),
      (2, 219086362515982043995534934228160),
      (3, 269266719309996355091226921569470),
      (4, 295524224714752870173892994651340),
      (5, 295524224714752870173892994651340),
      (6, 269266719309996355091226921569470),
      (7, 219086362515982043995534934228160),
      (8, 149451349150580593145776339657700),
      (9, 66671344308688137593568809893332)]
  | 20 | 21 => some [(0, 55668567116173666482753720442549),
      (1, 125580369464904624634694299223940),
      (2, 186290210927734251426097641431660),
      (3, 233193764591990479918523704843180),
      (4, 262804544510246662180688869890510),
      (5, 272925086777900630714483528336340),
      (6, 262804544510246662180688869890510),
      (7, 233193764591990479918523704843180),
      (8, 186290210927734251426097641431660),
      (9, 125580369464904624634694299223940),
      (10, 55668567116173666482753720442549)]
  | 22 | 23 => some [(0, 47175336386511827194615961485017),
      (1, 106939325995318430960254718194000),
      (2, 160078328543346226334652529543360),
      (3, 203167426723065921749064455809800),
      (4, 233492536538354808760849898924880),
      (5, 249147045813402785000562436042950),
      (6, 249147045813402785000562436042950),
      (7, 233492536538354808760849898924880),
      (8, 203167426723065921749064455809800),
      (9, 160078328543346226334652529543360),
      (10, 106939325995318430960254718194000),
      (11, 47175336386511827194615961485017)]
  | 24 | 25 => some [(0, 40484004765315879520021592200986),
      (1, 92121499837728447914421775953797),
      (2, 138873510219787238463601776868870),
      (3, 178145980761945738280046691996100),
      (4, 207816047536888502312523219306050),
      (5, 226283180262897238412090186039780),
      (6, 232551553230873910194589515268840),
      (7, 226283180262897238412090186039780),
      (8, 207816047536888502312523219306050),
      (9, 178145980761945738280046691996100),
      (10, 138873510219787238463601776868870),
      (11, 92121499837728447914421775953797),
      (12, 40484004765315879520021592200986)]
  | 26 | 27 => some [(0, 35119460331751863031832876138192),
      (1, 80158087159760209805633277062854),
      (2, 121518570687903184689414809072480),
      (3, 157203167158193534569601938623840),
      (4, 185538397477937813741716590125160),
      (5, 205198463721295603965924065661220),
      (6, 215263853463157790195876443316260),
      (7, 215263853463157790195876443316260),
      (8, 205198463721295603965924065661220),
      (9, 185538397477937813741716590125160),
      (10, 157203167158193534569601938623840),
      (11, 121518570687903184689414809072480),
      (12, 80158087159760209805633277062854),
      (13, 35119460331751863031832876138192)]
  | 28 | 29 => some [(0, 30753241996117268354628393577204),
      (1, 70366047488108124709267416450667),
      (2, 107159220467171935011869546685870),
      (3, 139570677926154314447804794511030),
      (4, 166269205816993933553200860481210),
      (5, 186161000015562211026800561866420),
      (6, 198431485327111576456118326443840),
      (7, 202578241925561272880620199967520),
      (8, 198431485327111576456118326443840),
      (9, 186161000015562211026800561866420),
      (10, 166269205816993933553200860481210),
      (11, 139570677926154314447804794511030),
      (12, 107159220467171935011869546685870),
      (13, 70366047488108124709267416450667),
      (14, 30753241996117268354628393577204)]
  | 30 | 31 => some [(0, 27152459411754094851780572456018),
      (1, 62253523938647892862843836994378),
      (2, 95158511682492784809925107602246),
      (3, 124628971255533872052476282192020),
      (4, 149595988816576732081501730547480),
      (5, 169156519395002538189312079030360),
      (6, 182603415044923588866763667969220),
      (7, 189450610455068496285396723208280),
      (8, 189450610455068496285396723208280),
      (9, 182603415044923588866763667969220),
      (10, 169156519395002538189312079030360),
      (11, 149595988816576732081501730547480),
      (12, 124628971255533872052476282192020),
      (13, 95158511682492784809925107602246),
      (14, 62253523938647892862843836994378),
      (15, 27152459411754094851780572456018)]
  | 32 | 33 => some [(0, 24148302868547931960110026287565),
      (1, 55459529373987201129440165358245),
      (2, 85036148317179180883535370191062),
      (3, 111883847193403971094788385626360),
      (4, 135136368468525473286319981702350),
      (5, 154045761076810288081431594801960),
      (6, 168004102156450044509970663788320),
      (7, 176562705366992646325270990113200),
      (8, 179446470356206525458265644261890),
      (9, 176562705366992646325270990113200),
      (10, 168004102156450044509970663788320),
      (11, 154045761076810288081431594801960),
      (12, 135136368468525473286319981702350),
      (13, 111883847193403971094788385626360),
      (14, 85036148317179180883535370191062),
      (15, 55459529373987201129440165358245),
      (16, 24148302868547931960110026287565)]
  | 34 | 35 => some [(0, 21616013526483310313342710266452),
      (1, 49714548894969796453334946202639),
      (2, 76425730254889056529129677616637),
      (3, 100942044106287165562813984924830),
      (4, 122555206711478460184519126800200),
      (5, 140642914670650651204731303751950),
      (6, 154684675126265244925418003836370),
      (7, 164276483745832722986053776465930),
      (8, 169142382963143591840656470134990),
      (9, 169142382963143591840656470134990),
      (10, 164276483745832722986053776465930),
      (11, 154684675126265244925418003836370),
      (12, 140642914670650651204731303751950),
      (13, 122555206711478460184519126800200),
      (14, 100942044106287165562813984924830),
      (15, 76425730254889056529129677616637),
      (16, 49714548894969796453334946202639),
      (17, 21616013526483310313342710266452)]
  | 36 | 37 => some [(0, 19461788229726477036312041464438),
      (1, 44814226765699600332838157401994),
      (2, 69044542737641226580708258006013),
      (3, 91490021622449999464462094123840),
      (4, 111566645547333994716023901681770),
      (5, 128753962539336227675515784856880),
      (6, 142606702173606611775746109441900),
      (7, 152766042065859666778855400897660),
      (8, 158968843393954347649956439465050),
      (9, 161054449848783695979163625320920),
      (10, 158968843393954347649956439465050),
      (11, 152766042065859666778855400897660),
      (12, 142606702173606611775746109441900),
      (13, 128753962539336227675515784856880),
      (14, 111566645547333994716023901681770),
      (15, 91490021622449999464462094123840),
      (16, 69044542737641226580708258006013),
      (17, 44814226765699600332838157401994),
      (18, 19461788229726477036312041464438)]
  | 38 | 39 => some [(0, 17614007139152118311861962351853),
      (1, 40601429800386941331039952274932),
      (2, 62672048334109063569506535187042),
      (3, 83276741576704748724758143222046),
      (4, 101930119817240435036750135480350),
      (5, 118194531961518417312377377711380),
      (6, 131688638449176626898494499748160),
      (7, 142096109318382051329298325067160),
      (8, 149172986472603746787828737001970),
      (9, 152753387130725850698084331955100),
      (10, 152753387130725850698084331955100),
      (11, 149172986472603746787828737001970),
      (12, 142096109318382051329298325067160),
      (13, 131688638449176626898494499748160),
      (14, 118194531961518417312377377711380),
      (15, 101930119817240435036750135480350),
      (16, 83276741576704748724758143222046),
      (17, 62672048334109063569506535187042),
      (18, 40601429800386941331039952274932),
      (19, 17614007139152118311861962351853)]
  | 40 | 41 => some [(0, 16017228257774333324224616858471),
      (1, 36953789770852493799950668299330),
      (2, 57134425426857208283635826472448),
      (3, 76100113628379302017051653300183),
      (4, 93444423456033861553289741113932),
      (5, 108797299167148377663474578070110),
      (6, 121831416053728534195367177125730),
      (7, 132268938633337461781052574496780),
      (8, 139887394791073154722133423867580),
      (9, 144524403989970059063827166553750),
      (10, 146081133649690427191985147683370),
      (11, 144524403989970059063827166553750),
      (12, 139887394791073154722133423867580),
      (13, 132268938633337461781052574496780),
      (14, 121831416053728534195367177125730),
      (15, 108797299167148377663474578070110),
      (16, 93444423456033861553289741113932),
      (17, 76100113628379302017051653300183),
      (18, 57134425426857208283635826472448),
      (19, 36953789770852493799950668299330),
      (20, 16017228257774333324224616858471)]
  | 42 | 43 => some [(0, 14627995298272200684991098047185),
      (1, 33774901584814154793302246865913),
      (2, 52293335152683285940312051273211),
      (3, 69796468424520488094961418930218),
      (4, 85941606217067727414443681372703),
      (5, 100414144442880964932078837830540),
      (6, 112932296080539218393400607421780),
      (7, 123252376810512424285560986154810),
      (8, 131173504787062370732964992530310),
      (9, 136541498346015171352573831231520),
      (10, 139251872855631993375410248341810),
      (11, 139251872855631993375410248341810),
      (12, 136541498346015171352573831231520),
      (13, 131173504787062370732964992530310),
      (14, 123252376810512424285560986154810),
      (15, 112932296080539218393400607421780),
      (16, 100414144442880964932078837830540),
      (17, 85941606217067727414443681372703),
      (18, 69796468424520488094961418930218),
      (19, 52293335152683285940312051273211),
      (20, 33774901584814154793302246865913),
      (21, 14627995298272200684991098047185)]
  | 44 | 45 => some [(0, 13411859487141772081309493458615),
      (1, 30988005856979444310694219641885),
      (2, 48037671731084668571641071632034),
      (3, 64232421408525852127169615158911),
      (4, 79281411776718954922892524742043),
      (5, 92915766060035147477018617369765),
      (6, 104892091464541410074086185014740),
      (7, 114996640222411364941643512933960),
      (8, 123049084306729530467578400672010),
      (9, 128905722188082149978595339399790),
      (10, 132462039404696617371642464703320),
      (11, 133654572186106175351457110545840),
      (12, 132462039404696617371642464703320),
      (13, 128905722188082149978595339399790),
      (14, 123049084306729530467578400672010),
      (15, 114996640222411364941643512933960),
      (16, 104892091464541410074086185014740),
      (17, 92915766060035147477018617369765),
      (18, 79281411776718954922892524742043),
      (19, 64232421408525852127169615158911),
      (20, 48037671731084668571641071632034),
      (21, 30988005856979444310694219641885),
      (22, 13411859487141772081309493458615)]
  | 46 | 47 => some [(0, 12341229799987199546805667070037),
      (1, 28531388628933663181307815951878),
      (2, 44277438817419806168602748211338),
      (3, 59298584915436780746367758500109),
      (4, 73346481411080305734033615253117),
      (5, 86190161531953275917185202983743),
      (6, 97618652104113888269880664464247),
      (7, 107444270115965634782577342446610),
      (8, 115505668053725601353344483906780),
      (9, 121670472927803391204463153476260),
      (10, 125837456346828296121375382511180),
      (11, 127938195346752156974056165224700),
      (12, 127938195346752156974056165224700),
      (13, 125837456346828296121375382511180),
      (14, 121670472927803391204463153476260),
      (15, 115505668053725601353344483906780),
      (16, 107444270115965634782577342446610),
      (17, 97618652104113888269880664464247),
      (18, 86190161531953275917185202983743),
      (19, 73346481411080305734033615253117),
      (20, 59298584915436780746367758500109),
      (21, 44277438817419806168602748211338),
      (22, 28531388628933663181307815951878),
      (23, 12341229799987199546805667070037)]
  | 48 | 49 => some [(0, 11393798501026287947902964113235),
      (1, 26354986615032137261901815295299),
      (2, 40939156701306312655623487711646),
      (3, 54904695975835191925936891540473),
      (4, 68038333812356917207187185656708),
      (5, 80140700335001018013234959669111),
      (6, 91028261982963649811497220702892),
      (7, 100535949067050644202206890392690),
      (8, 108519624474263653116093957050120),
      (9, 114858259145711648339325545869560),
      (10, 119455763535784772228178126512900),
      (11, 122242442990310041688959518945850),
      (12, 123176053726715451203902873079050),
      (13, 122242442990310041688959518945850),
      (14, 119455763535784772228178126512900),
      (15, 114858259145711648339325545869560),
      (16, 108519624474263653116093957050120),
      (17, 100535949067050644202206890392690),
      (18, 91028261982963649811497220702892),
      (19, 80140700335001018013234959669111),
      (20, 68038333812356917207187185656708),
      (21, 54904695975835191925936891540473),
      (22, 40939156701306312655623487711646),
      (23, 26354986615032137261901815295299),
      (24, 11393798501026287947902964113235)]
  | _ => none

end DG

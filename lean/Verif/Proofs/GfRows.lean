import Verif.Model.Gf

/-! The rows of the power tables with the three words put together; used only to make kernel evaluation fast. -/

namespace Verif.Gf

def row0 : List Nat := [
  1, 4, 16, 64, 256, 1024, 4096, 16384, 65536, 262144, 1048576, 4194304, 16777216, 67108864, 268435456,
  1073741824, 4294967296, 17179869184, 68719476736, 274877906944, 1099511627776, 4398046511104, 17592186044416,
  70368744177664, 281474976710656, 1125899906842624, 4503599627370496, 18014398509481984, 72057594037927936,
  288230376151711744, 1152921504606846976, 4611686018427387904, 18446744073709551616, 73786976294838206464,
  295147905179352825856, 1180591620717411303424, 4722366482869645213696, 18889465931478580854784,
  75557863725914323419136, 302231454903657293676544, 1208925819614629174706176, 4835703278458516698824704,
  19342813113834066795298816, 77371252455336267181195264, 309485009821345068724781056,
  1237940039285380274899124224, 4951760157141521099596496896, 19807040628566084398385987584,
  79228162514264337593543950336, 316912650057057350374175801344, 1267650600228229401496703205376,
  5070602400912917605986812821504, 20282409603651670423947251286016, 81129638414606681695789005144064,
  324518553658426726783156020576256, 1298074214633706907132624082305024, 5192296858534827628530496329220096,
  20769187434139310514121985316880384, 83076749736557242056487941267521536, 332306998946228968225951765070086144,
  1329227995784915872903807060280344576, 5316911983139663491615228241121378304,
  21267647932558653966460912964485513216, 85070591730234615865843651857942052864,
  340282366920938463463374607431768211456, 1361129467683753853853498429727072845824,
  5444517870735015415413993718908291383296, 21778071482940061661655974875633165533184,
  87112285931760246646623899502532662132736, 348449143727040986586495598010130648530944,
  1393796574908163946345982392040522594123776, 5575186299632655785383929568162090376495104,
  22300745198530623141535718272648361505980416, 89202980794122492566142873090593446023921664,
  356811923176489970264571492362373784095686656, 1427247692705959881058285969449495136382746624,
  5708990770823839524233143877797980545530986496, 22835963083295358096932575511191922182123945984,
  91343852333181432387730302044767688728495783936, 365375409332725729550921208179070754913983135744,
  1461501637330902918203684832716283019655932542976, 5846006549323611672814739330865132078623730171904,
  23384026197294446691258957323460528314494920687616, 93536104789177786765035829293842113257979682750464,
  374144419156711147060143317175368453031918731001856, 1496577676626844588240573268701473812127674924007424,
  5986310706507378352962293074805895248510699696029696, 23945242826029513411849172299223580994042798784118784,
  95780971304118053647396689196894323976171195136475136, 383123885216472214589586756787577295904684780545900544,
  1532495540865888858358347027150309183618739122183602176,
  6129982163463555433433388108601236734474956488734408704,
  24519928653854221733733552434404946937899825954937634816,
  98079714615416886934934209737619787751599303819750539264,
  392318858461667547739736838950479151006397215279002157056,
  1569275433846670190958947355801916604025588861116008628224, 135, 540, 2160, 8640, 34560, 138240, 552960,
  2211840, 8847360, 35389440, 141557760, 566231040, 2264924160, 9059696640, 36238786560, 144955146240,
  579820584960, 2319282339840, 9277129359360, 37108517437440, 148434069749760, 593736278999040, 2374945115996160,
  9499780463984640, 37999121855938560, 151996487423754240, 607985949695016960, 2431943798780067840,
  9727775195120271360, 38911100780481085440, 155644403121924341760, 622577612487697367040,
  2490310449950789468160, 9961241799803157872640, 39844967199212631490560, 159379868796850525962240,
  637519475187402103848960, 2550077900749608415395840, 10200311602998433661583360, 40801246411993734646333440,
  163204985647974938585333760, 652819942591899754341335040, 2611279770367599017365340160,
  10445119081470396069461360640, 41780476325881584277845442560, 167121905303526337111381770240,
  668487621214105348445527080960, 2673950484856421393782108323840, 10695801939425685575128433295360,
  42783207757702742300513733181440, 171132831030810969202054932725760, 684531324123243876808219730903040,
  2738125296492975507232878923612160, 10952501185971902028931515694448640, 43810004743887608115726062777794560,
  175240018975550432462904251111178240, 700960075902201729851617004444712960,
  2803840303608806919406468017778851840, 11215361214435227677625872071115407360,
  44861444857740910710503488284461629440, 179445779430963642842013953137846517760,
  717783117723854571368055812551386071040, 2871132470895418285472223250205544284160,
  11484529883581673141888893000822177136640, 45938119534326692567555572003288708546560,
  183752478137306770270222288013154834186240, 735009912549227081080889152052619336744960,
  2940039650196908324323556608210477346979840, 11760158600787633297294226432841909387919360,
  47040634403150533189176905731367637551677440, 188162537612602132756707622925470550206709760,
  752650150450408531026830491701882200826839040, 3010600601801634124107321966807528803307356160,
  12042402407206536496429287867230115213229424640, 48169609628826145985717151468920460852917698560,
  192678438515304583942868605875681843411670794240, 770713754061218335771474423502727373646683176960,
  3082855016244873343085897694010909494586732707840, 12331420064979493372343590776043637978346930831360,
  49325680259917973489374363104174551913387723325440, 197302721039671893957497452416698207653550893301760,
  789210884158687575829989809666792830614203573207040, 3156843536634750303319959238667171322456814292828160,
  12627374146539001213279836954668685289827257171312640, 50509496586156004853119347818674741159309028685250560,
  202037986344624019412477391274698964637236114741002240, 808151945378496077649909565098795858548944458964008960,
  3232607781513984310599638260395183434195777835856035840,
  12930431126055937242398553041580733736783111343424143360,
  51721724504223748969594212166322934947132445373696573440,
  206886898016894995878376848665291739788529781494786293760,
  827547592067579983513507394661166959154119125979145175040,
  3310190368270319934054029578644667836616476503916580700160,
  686558002307918208544539468163338514261195126738253775118,
  2746232009231672834178157872653354057044780506953015100472,
  4707826301540010572876842067405749812076766583348025888871]

def row1 : List Nat := [
  1, 16, 256, 4096, 65536, 1048576, 16777216, 268435456, 4294967296, 68719476736, 1099511627776, 17592186044416,
  281474976710656, 4503599627370496, 72057594037927936, 1152921504606846976, 18446744073709551616,
  295147905179352825856, 4722366482869645213696, 75557863725914323419136, 1208925819614629174706176,
  19342813113834066795298816, 309485009821345068724781056, 4951760157141521099596496896,
  79228162514264337593543950336, 1267650600228229401496703205376, 20282409603651670423947251286016,
  324518553658426726783156020576256, 5192296858534827628530496329220096, 83076749736557242056487941267521536,
  1329227995784915872903807060280344576, 21267647932558653966460912964485513216,
  340282366920938463463374607431768211456, 5444517870735015415413993718908291383296,
  87112285931760246646623899502532662132736, 1393796574908163946345982392040522594123776,
  22300745198530623141535718272648361505980416, 356811923176489970264571492362373784095686656,
  5708990770823839524233143877797980545530986496, 91343852333181432387730302044767688728495783936,
  1461501637330902918203684832716283019655932542976, 23384026197294446691258957323460528314494920687616,
  374144419156711147060143317175368453031918731001856, 5986310706507378352962293074805895248510699696029696,
  95780971304118053647396689196894323976171195136475136, 1532495540865888858358347027150309183618739122183602176,
  24519928653854221733733552434404946937899825954937634816,
  392318858461667547739736838950479151006397215279002157056, 135, 2160, 34560, 552960, 8847360, 141557760,
  2264924160, 36238786560, 579820584960, 9277129359360, 148434069749760, 2374945115996160, 37999121855938560,
  607985949695016960, 9727775195120271360, 155644403121924341760, 2490310449950789468160,
  39844967199212631490560, 637519475187402103848960, 10200311602998433661583360, 163204985647974938585333760,
  2611279770367599017365340160, 41780476325881584277845442560, 668487621214105348445527080960,
  10695801939425685575128433295360, 171132831030810969202054932725760, 2738125296492975507232878923612160,
  43810004743887608115726062777794560, 700960075902201729851617004444712960,
  11215361214435227677625872071115407360, 179445779430963642842013953137846517760,
  2871132470895418285472223250205544284160, 45938119534326692567555572003288708546560,
  735009912549227081080889152052619336744960, 11760158600787633297294226432841909387919360,
  188162537612602132756707622925470550206709760, 3010600601801634124107321966807528803307356160,
  48169609628826145985717151468920460852917698560, 770713754061218335771474423502727373646683176960,
  12331420064979493372343590776043637978346930831360, 197302721039671893957497452416698207653550893301760,
  3156843536634750303319959238667171322456814292828160, 50509496586156004853119347818674741159309028685250560,
  808151945378496077649909565098795858548944458964008960,
  12930431126055937242398553041580733736783111343424143360,
  206886898016894995878376848665291739788529781494786293760,
  3310190368270319934054029578644667836616476503916580700160,
  2746232009231672834178157872653354057044780506953015100472, 16405, 262480, 4199680, 67194880, 1075118080,
  17201889280, 275230228480, 4403683655680, 70458938490880, 1127343015854080, 18037488253665280,
  288599812058644480, 4617596992938311680, 73881551887012986880, 1182104830192207790080, 18913677283075324641280,
  302618836529205194260480, 4841901384467283108167680, 77470422151476529730682880, 1239526754423624475690926080,
  19832428070777991611054817280, 317318849132447865776877076480, 5077101586119165852430033223680,
  81233625377906653638880531578880, 1299738006046506458222088505262080, 20795808096744103331553416084193280,
  332732929547905653304854657347092480, 5323726872766490452877674517553479680,
  85179629964263847246042792280855674880, 1362874079428221555936684676493690798080,
  21805985270851544894986954823899052769280, 348895764333624718319791277182384844308480,
  5582332229337995493116660434918157508935680, 89317315669407927889866566958690520142970880,
  1429077050710526846237865071339048322287534080, 22865232811368429539805841141424773156600545280,
  365843724981894872636893458262796370505608724480, 5853499599710317962190295332204741928089739591680,
  93655993595365087395044725315275870849435833466880, 1498495897525841398320715605044413933590973335470080,
  23975934360413462373131449680710622937455573367521280, 383614949766615397970103194891369966999289173880340480,
  6137839196265846367521651118261919471988626782085447680,
  98205427140253541880346417892190711551818028513367162880,
  1571286834244056670085542686275051384829088456213874606080,
  32182406358183666025525287570156492855993521565855646236,
  514918501730938656408404601122503885695896345053690339776,
  1961594292308337738698684194752395755031986076395010923655, 2214635, 35434160, 566946560, 9071144960,
  145138319360, 2322213109760, 37155409756160, 594486556098560, 9511784897576960, 152188558361231360,
  2435016933779701760, 38960270940475228160, 623364335047603650560, 9973829360761658408960,
  159581269772186534543360, 2553300316354984552693760, 40852805061679752843100160, 653644880986876045489602560,
  10458318095790016727833640960, 167333089532640267645338255360, 2677329432522244282325412085760,
  42837270920355908517206593372160, 685396334725694536275305493954560, 10966341355611112580404887903272960,
  175461461689777801286478206452367360, 2807383387036444820583651303237877760,
  44918134192583117129338420851806044160, 718690147081329874069414733628896706560,
  11499042353301277985110635738062347304960, 183984677652820447761770171808997556879360,
  2943754842445127164188322748943960910069760, 47100077479122034627013163983103374561116160,
  753601239665952554032210623729653992977858560, 12057619834655240864515369979674463887645736960,
  192921917354483853832245919674791422202331791360, 3086750677671741661315934714796662755237308661760,
  49388010842747866581054955436746604083796938588160, 790208173483965865296879286987945665340751017410560,
  12643330775743453844750068591807130645452016278568960, 202293292411895261516001097468914090327232260457103360,
  3236692678590324184256017559502625445235716167313653760,
  51787082857445186948096280952042007123771458677018460160,
  828593325719122991169540495232672113980343338832295362560,
  703289740732606331041069077307420991480782532388656775438,
  4975534116335020532821315813711069447590165073754473893991,
  4283325036720159359111579940885114168214375846503168147540,
  5762183233655742107427384822085162530406459099410345230454,
  4315507443078343025137105228455270661070369368069040504906]

def row2 : List Nat := [
  1, 65536, 4294967296, 281474976710656, 18446744073709551616, 1208925819614629174706176,
  79228162514264337593543950336, 5192296858534827628530496329220096, 340282366920938463463374607431768211456,
  22300745198530623141535718272648361505980416, 1461501637330902918203684832716283019655932542976,
  95780971304118053647396689196894323976171195136475136, 135, 8847360, 579820584960, 37999121855938560,
  2490310449950789468160, 163204985647974938585333760, 10695801939425685575128433295360,
  700960075902201729851617004444712960, 45938119534326692567555572003288708546560,
  3010600601801634124107321966807528803307356160, 197302721039671893957497452416698207653550893301760,
  12930431126055937242398553041580733736783111343424143360, 16405, 1075118080, 70458938490880,
  4617596992938311680, 302618836529205194260480, 19832428070777991611054817280,
  1299738006046506458222088505262080, 85179629964263847246042792280855674880,
  5582332229337995493116660434918157508935680, 365843724981894872636893458262796370505608724480,
  23975934360413462373131449680710622937455573367521280,
  1571286834244056670085542686275051384829088456213874606080, 2214635, 145138319360, 9511784897576960,
  623364335047603650560, 40852805061679752843100160, 2677329432522244282325412085760,
  175461461689777801286478206452367360, 11499042353301277985110635738062347304960,
  753601239665952554032210623729653992977858560, 49388010842747866581054955436746604083796938588160,
  3236692678590324184256017559502625445235716167313653760,
  4975534116335020532821315813711069447590165073754473893991, 268435729, 17592203935744, 1152922677132918784,
  75557940568582965428224, 4951765193102653222304088064, 324518883695175481576920715362304,
  21267669561847020360625076001983954944, 1393797992405206326353924980866020471209984,
  91343945230267601803930827546035517601217511424, 5986316794610817551822410714056983681513390828683264,
  392319257451614539076233508556438482551661581348586389504,
  26148205166024228645739296150752150445494736272258265088, 36238823415, 2374947531325440, 155644561412944035840,
  10200321976758700332810240, 668488301068858185011051888640, 43810049298848690012884296573911040,
  2871135390849347748684385260267833917440, 188162728974702854057779872416912763613347840,
  12331432606086126243530661718714794876164364042240, 808152767272460369496025446397692797004307761872240640,
  2746285872874516664605208269457863815655469926346886480952,
  3530007697413270867174804980351540310141789396754858332160, 4403688133701, 288600105530228736,
  18913696516029070442496, 1239528014874481160519417856, 81233707982813997335800568610816,
  5323732286361698129399026064478437376, 348896119119000248608294572161658871873536,
  22865256062582800292793193081186475827104055296, 1498497421317426399988494701768636879805091367878656,
  98205527003458856549645988775109386554906467885295599616,
  1968138927331839905915361577710680757435948755097040854151,
  2066282893943738771335288776044601251137941192688249246684, 594486085783387, 38960240117900050432,
  2553298296366697705111552, 167332957150687900802190671872, 10966332679827482266972367871803392,
  718689578505173877848301100846507098112, 47100040216915075258666260945076689181868032,
  3086748235655746372151952077296545902222903345152, 202293132371934994245350331337706432248080193627881472,
  703279252353770255191700468132595911605472680668771123470,
  3628141047677276160915934347118835952763927053642953130058,
  3515065865889828450805811096836824795601506691413012643909, 72057594037993729, 4722366482873957023744,
  309485009821627647508086784, 20282409603670189507089975476224, 1329227995786129539536648632809816064,
  87112285931839785503073804799824105570304, 5708990770829052182729444871361272582655442944,
  374144419157052763847356899089532359976907108777984, 24519928653876609931500381738731592743446584280873959424,
  1467232928846925288351059512312353648562969544448, 96156577224912095697375036198902408712222772064944128,
  24615709625158339787380949123601841261876145584143859847, 9727775195129153415, 637519475187984198205440,
  41780476325919732413591715840, 2738125296495475583457146689290240, 179445779431127487837447565429325168640,
  11760158600798371042914963647976254251991040, 770713754061922044668475057633771798658484797440,
  50509496586202123119393181377086868596882459685027840,
  3310190368273342340752551534728765020365288877917984522240,
  198076445394334913927393034162167742556000888034560, 12981137925363132919145629886851825176150074198232924160,
  3323120799396375871296428131686248570353277652748258525205, 1182104830193287124245, 77470422151547264974520320,
  5077101586123801557370163691520, 332732929548209458863811047687454720,
  21805985270871455096098720821245032529920, 1429077050711831681177925767741114451880837120,
  93655993595450601057676543114681676718462541496320, 6137839196271450590915889929563778365421161119502827520,
  514918502098217040773239338601128325690466682039095534016,
  24069956197733809355399131299484161604675515376659200,
  1577448649374682929915437468842994014924014575724737331200,
  2086205335974995326493947287397555270527419818201346861867, 159581269772332211118571,
  10458318095799563787866669056, 685396334726320212401630023254016, 44918134192624121439953225203975192576,
  2943754842447814422688774566967718220660736, 192921917354659966005331530020796381309221994496,
  12643330775754995532125407151442911645481172631289856,
  828593325719879387193370683076962657598254129564212002816,
  5762183283226911925162575385510229073808040506299281047670,
  3248696185175093448764625160988366039081873366436614400,
  5762195923874459051657423584680565005891923275476822397031,
  831666173833657059820345452296633415380242692716310302976, 19342832785574900341411857,
  1267651889435436668774767460352, 83076834226040777524823160281628672, 5444523407837808395866810632216816648192,
  356812286056058611031527301592961295855910912, 23384049978969857132562173237196311485212977528832,
  1532497099421768557039594585272897469494917695329533952,
  102141518131932774239969121945903181238969691784874096,
  416844796907665528754826952639044469574762276349474242695,
  393857737933408262983598352654115174169648531665769723648,
  418377293812622000335531310167751369200583611774692522096,
  393947134973837554651742582666826394358999847346376343408, 2611282426052611546090600695,
  171133005073783950284593607147520, 11215372620515504965851126638019870720,
  735010660058104133442019435349270247505920, 48169658617567912489256185715049774940547973120,
  3156846747160930712895893387021502050503751966392320,
  206887108421938755200345269011841158381813888869487083520,
  13789104947810924522395831462696929467260908390957973840,
  6057233699441400271215323220609672063774063751464838251565,
  2953980737916669392099462222644217184083708094097061593400,
  6264120781610523934610411486985103513251747474204204029288,
  2966049338374623767298933274360231372476401498858114596968, 317319171807580447641464803653,
  20795829243581592216631037372203008, 1362875465307363227509131665224696332288,
  89317406494383356478038452812165698832826368, 5853505552015907650144728043498091238708108853248,
  383615339856914523759884897058690907419974621806460928,
  32207971316027173784658920807701644266035036852085326364,
  1675425077232124502581787855759042808480745798348352302768,
  1594306100691480184420324276128546131755205992724812789676,
  2086229405544052123656811068791794685473566109476515038619,
  1577423277706258865440777452874298070224614781753846931947,
  423447674135505915175140762940123450662522141928137091883, 42837237030537673426895871661147,
  2807381166033316965705047845184929792, 183984532097159460664446015582039558848512,
  12057610295519442414105134077184544528696082432, 790207548327162178050794066882366310232626458263552,
  51787041887168900500736839967202758507405407568760143872,
  4280640008693450744963255558460116846048850415686151897172,
  6069953567838005326651166668397820627093673865484311724153,
  1708745171397040845375663180128829556438866360593960402979,
  828593378084015708978862898204947511524678647413257273360,
  5765615019264896459180386013125615995965242261330129322102,
  5206940943005769750433426214889994296830859018797741834345]

def row3 : List Nat := [
  1, 2490310449950789468160, 5582332229337995493116660434918157508935680, 268435729,
  668488301068858185011051888640, 1498497421317426399988494701768636879805091367878656, 72057594037993729,
  179445779431127487837447565429325168640, 514918502098217040773239338601128325690466682039095534016,
  19342832785574900341411857, 48169658617567912489256185715049774940547973120,
  1594306100691480184420324276128546131755205992724812789676, 5192296858534827628530500624252929,
  12930431126055937242398563737545880638427111361232240640,
  23976300209720776497342082067286169533079284088832000, 1393797992405206326353926133806290076500241,
  3530007697413270870045984181918675208585045726330318049280,
  2066282893966604376075284250337480614898499789560624585863,
  374144419157052763847357208579264620145014021816577,
  3323120800167101385696396732764963741965477892956283224085,
  2092343268828689427654414332594897608444571506324124912320,
  102141518131932774156893724369910624686608097099192417,
  2759165807657313019091905263459627218103527291512985829480,
  2066284398303054139351244985170089368597197982760000459740, 18446744649235169281,
  45938120843968218930835382874520997068800, 3212775204300986290228952252708340134053964988759001835,
  4951765347594291958383640849, 12331432260061851913606546480998214138845357670400,
  4798614361335276126775620438066916892698785684599770289046, 1329228037257120855706810992931438849,
  3310190462642959782736229894677616231804572234641781555200,
  4666971599134468608876638618958040387991224828265171521612, 356812297188354397301648659583683392925863953,
  6231915804192256645735890480422321417731716824321127106097,
  5748732009942010515971155682610741371726383986690597323370,
  95780974292417910255692566250589330571702533475074049,
  12930628431793159934153449468383543748876560292026122240,
  3405185231824104671765093781742793568007443936220321354102,
  26950371616503472016943899141991281708444003720308027665,
  6277100225448414437861626180618022549363817572322976420920,
  1885817741726253122444931601245551917565469731819502211794,
  24616280384499040388028076116420760596579511343513637766,
  3586047517398671013173657914469114230021828414775574295765,
  4197940296848679154542818803158457343508036611496376021149,
  2952448243703502841720730038687003371166411169632069243177,
  6166106817557088368373088779192855826742585458469456907880,
  5093647850623664379427373649636035389575398818893936941564, 340282366920938766063764392563252920321,
  753558023805353594847353265464960109204488213, 5582332229337995533969465496597946593002780,
  91343945230267683032687055201958976277746549009, 202281897065668518912646189743929310394895805926626373,
  1498497421317426410954827381596128875147140436855004, 24519928653876631736156424614400559302702814487134667009,
  2648152344190447908477829965049654764811181227457619776867,
  514918502098219810303509922892717083869135396172052592860,
  416844802749396276096530419529903008877606098378740994198,
  4382204558267431251846531842742166371919771664947362485579,
  1594306832438201827788461982075106427859382927894425052016,
  1571191054734276490448285597309087262968251136698751188993,
  15975332099730253640834626608885056765927945930433445909,
  4975558092635407276403617442094534758008889799504153105787,
  1699927064103574505515902032770725668305265473066481738445,
  2762035866433138381419826175769893211006453580150199025977,
  5372788316893680469216814719897107160578686323157784990750,
  2086205429632418020801245403694664520365469328820546923949,
  9323975307181257578747069302678421988801152742037979409,
  2108250116105040670615737820379882293597243546340710581132,
  393972950961625309793424598112408127604954976558025834961,
  4990060177052821290764969933438744747266585478729230233509,
  5372556238230613004854901782381758001733936673498252855108,
  195841224984673394531565497458215176604158005346438, 395531788585890110013113044993845518743935400830490902801,
  3212775205043436498174035919211011189058230865939697655,
  2353965120765014147500234729079689150101721389367369435870,
  4405952095681885584786120353801195099342856801247822027252,
  4798412537381436336519551722218063163271381480671875013450,
  527815651863315785108272510375156964563356252769681319750,
  2004780674022644988692159887299159417224377541043734214768,
  2090834654612188100683567790004824975658285705977095801126,
  215943672601939567309737421270360385346531064844534657050,
  603788647564192343685349755772172216467106781233279170124,
  45139139662985071976580902256473662884371062459283461825,
  1583379397081304826707133227559634929029791564957844652052,
  5393834129230612254308711058634515094055448936697876079982,
  24537987760165840397783592573290834103819562988434687082,
  5858439466578111714876099942420325031023655137853010083383,
  4171124855803128758895958264273071971640230229573013947620,
  2196887199659696207924715560224537148273676366281857868625,
  5487320531391995180314900635989682370390031347015395411675,
  624591303045713594353755063168883854226880784137599867087,
  694302160739434228680025660722579586825302114778337362826,
  2266694846634130764134792312369923858174890797502880694307,
  3410685445600508798631660995134426698986804128324491388984,
  3384903995778706232812954029404164146003592799306693184770, 91343944889985234882992366572971360120238768129,
  5582332229337995493119150745372511986521168, 5582332240304328132701703508121674449944849,
  24519928745220380256631386848780501183792066964551106833, 1498497421317426399989163190068526659583262415978832,
  1498497424217625110431609993475883981460716738642177,
  392324868253833694717741275098216729353179616880299671942,
  514918502098217040952685118349574946229766353131277411728,
  514919292304989605946174652822965997718197813397813211601,
  416844798416645501261860967093640074445970782048686706838,
  1594306100736081720318342066526072749522077978749949945596,
  3431098519137273742585054444740379854791193067781465761738,
  405255673524285093950072873057733150971442738331759214593,
  12954407449075159411209967722254098992369923469897634896,
  1708756504365721500679500758881860016265932798478341181747,
  3897716857497738784246106634298461363843550326938001266193,
  5393051227282479374696492234065084900598395039882745630167,
  6153460770458353986558122667052311458961319348281550179523,
  3690830334304288429696785621831434879007902004392165329379,
  3696978351765209823141857379998556911421712791231317565493,
  304535049942586941563389481242301424348676666865038902172,
  2366750947440161338416983176606217521080114591138891159417,
  2368309479695671657527880092547890736668147470961246415956,
  1092800656012965996156847989716781826685606346855300371424,
  2353966419673026714016089800458869044021480752331840588617,
  3212775204301028825526208245252695455506482055132602043,
  3408573416891217269811387657930534527653392082182196218,
  2391270875278232467846113512291935570328726340138864938329,
  4798614349369243641738795405185454067599606678034007233222,
  996302573378073358123914229941294004124230571252320080609,
  2989802341872521344312045143439050175609982732267560358894,
  1405820989629976491406271932671488487150016128231309071388,
  4668604483857995933317330287087919751067048249926927908956,
  43510310164730569067765853193455683546078175710704452445,
  2067209482390806951506319343617891547361333761500586710283,
  4992444921743751342413186470822421201365934398906763907707,
  6250151351530084442721068178405997704261771201999324459113,
  3301669600467902463343538031136996476860994068979666360308,
  1570663345262342772975493174624174562285979652719532732673,
  3310287843516064961716972606160429857470386755087192999891,
  4181544771446638963036762680203398396668482746455480484931,
  4486658986428158403538414211076035866460949043164923369669,
  3194254844232919194578288417188414135996939096292706842678,
  1878317439033908924949726331433723009852438381801341129535,
  4767451234863067333101141069639314646471989569878382442834,
  516864083402539904194873393974898671974747504896815372495,
  499563569283329247453432498987377439674147446293934703816,
  898041064801637517712129993764777385121311222382023628954, 92097503254072956067266781252568829406853106388,
  1498498163678800533484754927795915344708848941601113,
  3310392650255028584717386445639636482115593506819313517597,
  24722210550897677139461826673578298678795666794489377684,
  515120783261097594588313691109275041427284215915262344201,
  3777063101029386556568574802962224664268073096463536643222,
  3064997141042807607297599415479122361779719005244414778917,
  1103811786710166079746511466052490379262235041291937169283,
  2298005165289252911993094019639498977939527889093701221410,
  4370615068006804394491000680053975939681141416713695470490,
  5976455648902119357897019823163830008286075844171393507527,
  6237568672374106809286082887604035340018242988130173335069,
  5486607674393107467860750629613304599594989993312450239188,
  3390722075034555023456192995629487091745917515398737624802,
  4388577175846741103917984925621121954522745147874181101560,
  325997643834598095280589544581451471624172726165766066721,
  4578567236816729800360803008654834791704980466557877503280,
  2165322182315942731641076388311586107934360246841164838078,
  2494674835419032549445237622182815408560719369236418031583,
  1706763162637102411553354300955830449409330620625119661069,
  5581772791285158535220058260196967483755449626948087519804,
  1865648110948513458116210017414943075486020215222290908805,
  410634337689284285341000608680838152213965502766524114689,
  709934291668036985062261414491256393842945900256959679316,
  2749394848396823005861597485514309177840953812592966909983,
  5163199143986936780957834096012159620388140151186203395019,
  107303334947660566625568260118525999492963258260910185612,
  1304804542928496732989185746338846210930646973994052630946,
  12937919668061019376325764128193528230474686160044171635,
  1182150283050839465610001707983547060956857268489318965423,
  4793887202733707380237901007512456010038065354913766981928,
  4365171819295527464736000009071622742777130739637223994243,
  5751142818027574128760963598334258361161004213583723461262,
  5381741293887115897336209146505696044686598255337103025085,
  3290502773505130217639508270796122682650880397441995990821,
  5484984389782389331551034174656631185263017894939919352445,
  1767616312162100451377968097975333836902233012171020914118,
  4884487199752336511626676226512519381458108082360858057982,
  5965296631550038674423394407902056444101063396787957772194,
  5472954789969391720935697020003063271442801333584129573210,
  4583110205504286165533387850092209647039910706883228398303,
  4126367169941478219328751942202233836146678791425823204749,
  5368307860082807692244005679316947564331444189380528651734,
  2981634646734400605024599063803401765841805108872945056097,
  4371817044477145366796260462334871412564765091548497168779,
  1811629146512688071102478720564089507492789220749450560231,
  4383726557458942043901385001816551636682589232866238402296,
  5126014763492315382056782411182158169149253448868256189487]

def row4 : List Nat := [
  1, 924418832659701580835529821405086564542953477302335913934,
  13899402567082951219962786335797184425802505400837284342,
  514918513698898294333773252079312257478897823709382320577,
  1572463083914479558875431209092351882377629064087043556472,
  5288923043989034119311989208380053794909319634219974676306,
  3530007697413273808101096978435202271091739119264690931997,
  3699307835460187880266612595462784496170031942260281668237,
  2746530125602573766697145321538172859801234909605082962319,
  3807018440315602635481139560779916432679998890768471016365,
  2962055116533696532758097537514602053258012498095848621424,
  4003481256691132826471931866677534155128482609679482701154,
  5745362446303563888719609201703967801518900326872520002970,
  5976451059834713696878998544284825851935052001365438136597,
  325401182842109643310493596656693723711223303049989671990,
  413626543351220596754868641971055235531083898464573633465,
  6132000524505423502248065696066779584169251354225992042488,
  1793520588575449574535437965091357602542750233678362669238,
  792919604010573523322576242486269901991976850849603047322,
  2087539245789157726194656592950904709040499247265707449259,
  5485618851986146128538508142173542802284132285619945363229,
  1473326059683253924732703322004329179859499262273864904749,
  3421152296549521349444936904964027099473579159747398098010,
  5663856479190758359850913839956918206915832130059240146701,
  3520682285379074120230670019628207556705876484526471456265,
  635630789704951774318536118811253085641714445636243804084,
  2694906560935328828600706644184800064516618798986861823792,
  3221274243065050737361464410559192439095869867588354797117,
  1385303261563742490849860773016522587126077770503888068243,
  6170639986300603901354632570145751943225468492307681076525,
  5276034150349274319499566543369020493958982728010847047094,
  3515609987263896476726143179079955226946250413965673157000,
  1804662646731983822964487339954501746240978946119054255201,
  1006602661640959252040321847247120793696117462019578591069,
  498069265497696119006233622300746783079004316122893880171,
  3222701786740946611422559049843415360453355137920735472976,
  1792826874396705933985285861607467473657118099723863039073,
  2370019599193893790626729779846413163400422115849131684607,
  5760686451004690524675187150940041375769673490249780128230,
  5284890523741860353334462461189913283287637339201959512163,
  1888822806537337837800171810517536315784543581829665345593,
  718941885082686929520537715060286854344017722971533264134,
  5655063135617203783117698390013484709560275885930201932824,
  2172532874764345367116461698022157742814720061513208547176,
  5968673337632865665318632564147604616243580925813810679011,
  1500886612135568293912650443908082880135343109746398702711,
  4070885637211130415041455388436633474566033189181429462251,
  3504734343912538468977142469210354320297926214623474719981,
  4194254161216111609284045261566703458435611486642169923898,
  1088567301489797796143774313138087283804638206998179176352,
  3976205592849669804488097092745731583554340736165585411084,
  3879125950764181784952004012644264565762202271951189345223,
  497736865025642861571871875209671027876477515596799195894,
  3887207406838912079166636251936198947949820693139509594084,
  5259894394719771089700131780122091709737943691940427880538,
  1082254746269761226065752869632450038045165122742985971876,
  6175556012560239598052208049638453138688294970718361342972,
  3804325437018053622603634454306396929323637113695387988392,
  2267420634048759681162241754417812416780725867413699091435,
  3432659913219194504826381454165408554577260022096518282504,
  3081604937685473507893097991922388757597757591721112072231,
  2653732649537061778712923429381805075984658455319966821523,
  6261919408875503788062578936305444576767115301158267676092,
  1086234128289907982373271119416966752083694560473038756667,
  421742468554863856633438585731706531541451822172007784997,
  4580369327742610620960050708078814842127201758727051825603,
  1397938395450613257941754513644566637987370561147034290536,
  4856853945503991113026919348547093647604963773277594333397,
  3512187581360299524273979682680349352466553485898023541657,
  5873739839694694820905107396821120548048660968154195424743,
  5267595190512398975443389091503082556597845990539115042700,
  920356200810191675181089947699711453002719192131056154425,
  515588239621449446642247358753008679239066503444067247497,
  1906037591847956803587962745192785084245952700858546327241,
  1015271402182381380464341125149722038789708029120338678520,
  1219010195153860936695803194508187944703233756157051443661,
  3817751082644076628151996450690607748131455516650247517429,
  127878182977244467626687541945158884404634514212615324590,
  1018595456198359667355117854880672640206570151844516995357,
  3490528753440530310883003175548255900436878909165195683296,
  232095911139388796820260809116200303189415802960549468386,
  322875175996134149716689848667854541317640538927416815860,
  4566419185182922022683550693245608025872677512351416683896,
  621748912938136123492674193599252694164569522959323112139,
  5640617968416947234137541470892709715675777335155093911569,
  490980439884698352004694543106471654597362455492677054190,
  3724455324383907264866615547299486951506776546347873846280,
  2576032381106901846666745057324920418107000826749820505520,
  1019522267495587506943739479387126160973062726799736979960,
  3288744853672558558779995672747378756436066336012397687029,
  5667320728547943463975290484764722109748001132251930644407,
  5981844804441856384254571731737498073617973582270352277660,
  5160804132325610975045525827702680187979972137144673208247,
  110227085357345040053341558813636052048117373977617263135,
  4303607846046030799565347417696133137087358597894950280449,
  2472279606253267358277151568758304366866644679675058734479,
  4269387381320576461521389177117622446813004259840790794545,
  5760747762724215088805680593412986231775420537367140555930,
  2763035940544952844905980103478232176088149841764999791886,
  5073795032451306079993395292428669419948919278186483971855,
  4984750121739429257884464030948567883778706565681090343122,
  1004897302554974240776378034572394037951641693055135157672,
  2670737850136352048824977087120218238431543784601595414494,
  5065197289730875583069332188813933820978664301458310842115,
  3780390294747480789203102445252737849983945371353129616639,
  1976051558662668247535972821612061194733361820969459652948,
  1412262561165148825318028300678334706138745523322390234075,
  1900924609594720999065738889706551693896934558202801970020,
  1079717550277939810797870364196391074515811645718799614620,
  4901911949330518559674030786414691493634902822772423318408,
  1315078193488085301377510595840430548371262791153777107269,
  1113751652340153041895343317607689184855796428011126591003,
  622888056468961153553713722723531289964196818685070043946,
  1275948696874929423608381609571218068842812822827726799143,
  1209936274767809184679092585270465489634539638228957555707,
  785129064350790447325090743832213933076644610526487668179,
  3921165185715677164522403121056322262777508808761236126929,
  6038292789693317164364658391653495133949622148265631361103,
  5644594827514087384332147793848138738863812108893309904187,
  1894589320122358394710912149393447037032900549502018752716,
  3685717684952573694676455448024794955568243911237234862143,
  2847339011890898120043084801544799906868182737297160423230,
  438931572907600787634005083549842144869775389613335849640,
  1008704607590174441759773362985361412427688748303718892610,
  35293997165226450076708955094237606792198722567035868970,
  39373277234044131553693919804186938618668899431932142040,
  2394910604906062562176689204582777464896984942214279997200,
  2379805016345026827522610544241209851702839685973330803642,
  4775410576972510981075954419474901259894566764549876483130,
  4572616462397282281481448700730307011083104719307653839882,
  3057405084888344408562545559134651494241185072118009919047,
  1506417646365075047911144101031244878639178872782421880808,
  4174814008228578342941678705912942919911382500803692485305,
  1183205828124718326073370397988152533980420950537604136053,
  4204553285354459472224942173058401139028001482654060922190,
  4189387106520557377152707551604509057737015239064036102410,
  5864563595746266070416424048441440623063409475644707826662,
  4978881845789990066789709663074563576440531128454845445398,
  3190169899804056282883660848832862599944772971019980595332,
  5882249195362022151787639280569320432665339145893968426223,
  1005741904300406989796355187110494791115864912058854572116,
  5935582765262992941745441800997591007919251138966753028420,
  1980625123551906878527711089095707956070851067073353601171,
  5451485503848164125680473660518008215356324597054079592574,
  3505110010143588751373253241355041810064786736958956143345,
  206227027611622677752123104495610283613958529566620428416,
  2165934537455094654956046493595271154436557206307505280254,
  4184531738751961843789099995392833935941242506017729428346,
  2973844475943235135787852382917129411238228357025684555977,
  5265480753537435055843026402482274654860848055954538565760,
  3528194099903837544184594499483435555340049394071855719663,
  3400413555566316317119791837194584235044586883589958784504,
  888187645750933694766633959240869261309672322526226473386,
  1393132274903491439909372926684558137058450400291068431687,
  611992771521819854895425572545877270053846303711641366356,
  1701032218530654118532142210816935533395682588426277568058,
  3045710180166485627048177104949979491549385438148667129647,
  428613030613199650515513111219765717875264841909136049165,
  6169899124614192101176092080936038063066423667018827405536,
  1498774047581083109287261973438092107842352253730283907360,
  2772082649078614146979844127604116106475405350593808178036,
  5185627754093244519946625358207948669856551264633788581138,
  2952083233285790955374379586701001915405640857156957583632,
  818392882248580211689353834004192697519375229504441192906,
  1024735605416898257683801525186271224313692695291378673090,
  3723273388944208966650303337100646120677809781687238372962,
  6033035455886233565238973432736228460992261622738011405250,
  5852033357095583422619916253567668888763775535669103359493,
  4474644495436535549208493139568114665264055116885852370363,
  1499605085278691433472824022131670556688032224252566265090,
  3805693086037769718072797952455922828555983882865652476964,
  1579298912664449510156724170050469405747534978655309194926,
  331559543026883030413893467835811317387049975099018249467,
  2002027354759547867079240226047937593055076998141870075432,
  596356084691149720085198621724289894696471011532930839942,
  1593466546537925839175099394464466584984453891064469789907,
  1090286173221416048342978335364706058704256469623665007381,
  6153526243226851607999101732423646526295772594205774430292,
  5478514917329201333249288682175070332773895613863073064118,
  3507997001621983559752565090196518702210675145629640507042,
  4505260360950952972062172328535772582351406464038826205252,
  3903663155086650479371594787744250573951710715764913175395,
  2982249393900788106799411617225600098781987782652542099889,
  4884653232730519911998134557918166177411028207810329675972,
  1209384068347240489002743199521857560915309778904557537997,
  2994002231140776164660632549473874140517083763276928705071,
  232509997889686924693674171091041586668958884024330494009,
  2455132487993067178103573600292878994330681489278242846496,
  5542895183971309528015327310989000835504871129054084804276,
  5784288091087000728174558644560425337235975105838813311845,
  1308482542830385636056305177124006232714841084509799371812,
  6109936567863595911585862321758915502634654510207631368090]

def row5 : List Nat := [
  1, 3191459720085060361317801196485120526794417915820227902013,
  3294311882481599014938596332483897829532532718031620478762,
  6157335905759695576867727721718224730539755760424096756561,
  4980684142645108709262433542201300516753660719051449191700,
  241378336212981046968560072571857185839847386901286740854,
  2166916638368576104433165950538262983894380501395142781051,
  5492213015373116882244045343774801035053468875522524377909,
  5156110122024637347043735190657696443600630831696750781007,
  1487532523221611289491843135129634174150634283256505120209,
  887220570496423251556823694410327038468269242316673859219,
  6135094036731186510281066460854429704847911942157266534552,
  3595022417617115363080097554697872024542867258579559626646,
  592984518415894298727944765434746086903655071633513167895,
  2183807426607790848691640935289326566528682237035262843682,
  2465349568410510884695941593665268600794126165492634425367,
  2778516763524497243988726145250449135617996022881855469901,
  5173524375388486822033898544863752964432517938209682171240,
  3992432213190619477632082549482657584231036089556388856163,
  1803332416431149146398369234546825872412214085275558364090,
  395619647235312752530234654719684373085350034129160957984,
  5377095808794279768219933651318847506297665356244866803681,
  1779186423996606671733861828625134453343601301067455989578,
  4782897271302815166261771592325933022282324918592339977348,
  1703799099946256604707726789596813932625961496201499136344,
  1593508536345140580154578380240295797844683580332460085962,
  5554375627960097517986346694384460342977055029767006467730,
  5745199820188398204165343972777479381188115214534419638474,
  3588195876855699368642728478193532966082848984613701636940,
  1184089709803373576693052347271169049659661870215415542701,
  792392328682995069203121890464938908064654538659765947512,
  1416628967843850433816212005108439667030143622658717932368,
  5881618671483204424694579271171443389712825217112501993063,
  2664407037542598281911620961311317536631544126422254684686,
  1284550660905201511811413130873104796023463550966180655256,
  5282083538118181609366777296925167569141116242167921076273,
  4982665733633151754613269608566798900056120982838620587335,
  1612349604985603755557413330253062134455039809816134697160,
  1990970308139921626476960786255704860283743460641248956604,
  2945470684276700033094369531157633654202220340017131846843,
  3194419262496171269149387889900630050451982898491037665728,
  1411404967390509433712655046339410873198566308180091539707,
  8340061744315540540499007152279399565431038477777283525,
  3792998572827994527059947772576799299607217253519091561467,
  1616870834012969067025323665387190247916046143353328707856,
  400219328772963801393617178237739915577535180567261037164,
  5555218174135564418251435630516425805111943168317618649288,
  2466110363080043650602359520787623118248114402696801801604,
  3062742822435914525342446027903122926271275166007909337556,
  5974293097342516248244038295332585511824096080471881002276,
  2462553918949063007653797459201353965516715824418477548375,
  1692776312807861488452675313618631564335823025842289859817,
  6133992299150789813658640766810767049185622990621065714702,
  4994697704570145063083942247543438597322595027474140594450,
  3917547817692645084771282929018129939701291992701689717625,
  1010320510078775808313770381673287120659135319312757485809,
  394011876336599900317809326982095361392309476533035328327,
  5746502207105241586299615175797746786142399482073206605567,
  5353894242526637208612879620529402573071660078928828277919,
  3714427550011837961516050169502601909228210832136279826295,
  301317269906953741294916878161341859620699869954771837774,
  2775000893787419960547038015599625886922668673811830693997,
  4172959594897353991727576451789007348173121972735119562510,
  5934586788018193677568551425294359602359287973901725991531,
  5156012712141062447276135293160457997559244849870504349336,
  2858166644035915082943751366779835616844618802514816907127,
  1681523788660216192993188212080624678516723559219920854142,
  4182035649435898810556140078502078917192555202167809251485,
  5159377675785918380687022344711773334577247834198409841186,
  521355692826473691895295465422436658804509308649565756525,
  2963970000892662162106477113683773788066413359285296322142,
  4293371956129700329845211293564027525977819864924695653622,
  3293126262283190752953522352341687443235909690656359786429,
  2360153118940510675230076981084504568264375330213359307644,
  1224076682092355770304847093962819271772410164707930229448,
  986923854522952964464186957615263899692151135962825310417,
  5579963487340495469523611451327132991518615078057980123379,
  2400788042105242244649556351492369239210370314396063310721,
  3894369482326302240680604610400197532113751325005814653215,
  328225649065289701577713849785383381704242538059435917601,
  3293738095397289271611844643010966793726002056786718823355,
  3877649278134889009502065407976844224233327202771011860685,
  4595179770358826318086523866333253639082901264534180808935,
  5092725977429896168680463520523935645458741482609693295294,
  33017747443694811221785455315314542368994719418852989002,
  2092344619917343786793009017051366280593303561893321607839,
  2787141791166898477787260437779799183579942688823658903653,
  6078760172096749728952966259066674612702293327578043551391,
  900835840673525139907225780830697552808521617408311822243,
  3982931206130284055459258488645012531547902991996748628589,
  5254220853508950788394145717234213427997785544471266886972,
  2381191072850601094514887350611667590931909391779254729342,
  5748169060171647553642985837010752597773866249858140618746,
  1807629617795247062079477414125202027850459211375101232748,
  2870771435580543812369363787215150249044017912599076646438,
  4020783547358904413198890506445106553577535322113686274131,
  3325502184471120312656463290056170758963020616716141161466,
  1212265459374100813012759717767575104271990288788890960672,
  1096646611520177269365029329271654003410795302791785476790,
  4400661860230424529139324957237894686321743956852259144814,
  2751819817332358202040658575891742422134182562446873872248,
  5777591797748098827572636666401136360384254798609836877638,
  2990132658558796879891818642502444127234895020272510893138,
  1316446608816700645516885140536041718501857958128978904708,
  2197135203035735257945725861168902135975564042769835303429,
  704640695288582174396710069028481049196186717221644376562,
  5276129920888721806044566509066060024455432287763892567019,
  3492420282830659189771747190168799713752425406707775891816,
  2942743495147087818000267199747335924665654880754767331517,
  5650363185059711709437730089493856472303676723027615494548,
  2674660572327876494924500056420996556321509650452573836195,
  3386761072875101655248912393412421270034313404665856543564,
  3291881103894484518631225717028720865769131575634780773753,
  4493608583341295076520358334336053249884003652216725405396,
  5388425956148523096622316446769987277268769029205469994676,
  4200664586492245408739063870057258438918934035430533734299,
  509340403274648060111991941091674936255804097993912670973,
  3882215497796241153577452871520134597294639484060212049953,
  628875026111401205531908009076793093497883337324614297945,
  5160689031093448289777283882093929694590659540085544915911,
  3082740932473195307314689857773092102195053609675816149076,
  1116865984623341290358177208481782968056120739338500706665,
  4604109717695732091931145652439592683643467385883157506956,
  1322394864400939242028931437642949299983120325521325993680,
  5881570954126123093869882694979448083467155177229518166497,
  216835068446599345935836189440432025870332687373406087413,
  982047753542306204524434343389937303623037432018044526479,
  2289685835629423471664546933375537745980282828025257789218,
  792340559873704298221831622535363039915626375036299776691,
  1890031957229118984377872620175624993129392565804572861387,
  4102613077031200501342271359837164195242968016622866126931,
  230752167720384918859519106676184609368751050567821089966,
  2943924572343783264894431431268706464118258419377350794907,
  1107204672029337089336945851401307091172922038368777443419,
  5877956855379877441973559829447235144271827009848548306387,
  5364486806162472594490363036188881240296227802718503058075,
  913953934025393293146634676347046853912740519690016856064,
  1300430359832615017003598885672745184872636321375914531120,
  5363653504532006428802358181704348544047471014969271506173,
  2750875877200431180373879805111874120848172058343806933098,
  3431136987463439906666956169745423398907035033377168324681,
  4589613105419655586724104443960139645821700239168177414217,
  6060537872055469531185573091769272328843137051489832893222,
  4176083663821288989752889933537692805596395452636023485204,
  3493039279723212950397170864418969733738736242513473988854,
  1965393927942915630699212428681312501994099000567320734089,
  1006576006932168735556806823565895532003171794435774914637,
  4268424819304445499612812008579477903580001887129579681123,
  5490701963987077413799040930759529812926993150062586006862,
  5881022747292559509845322253583164152045191136365622614700,
  2589145704159160135199829305772402530485375948443572809556,
  5545148423036385375683627581102440879638210690457123449669,
  4578908070258966317000765228519478272932206550363413200776,
  3720259324982379946035356947001799553512153834493999211248,
  1495096481811666339610077080093938328599887562699143788288,
  4192881073083049615581820633555430046271903894957911725109,
  1483475715985666599683937951182899851127846223495572862313,
  3882251975868101950300533315164867320249909665313646923557,
  3076502085174334803288651452952823818816121519149874776922,
  4587310117971609746517937709391157304889726885530400438776,
  5354609154935775760439039992157147745653541485961661734226,
  3432221556382996126964473967413404773219489419880751772809,
  2966839633566825964069440632881286515910303671249329889782,
  2072706808668994891796745591386209165996544641194111910367,
  1078915684982583831831659711728662248742759558098049182668,
  2468925407667338133002774977256316822488806976700766365893,
  3876865198318586874154904644213243259285382059242942627239,
  5965627372850729295168055047775388583928407947429213751423,
  19905937999105168202362195830514885466151867662363950312,
  5091419201395444622814632524266758859734179645671260907534,
  4308874597221987700797460847816252908451473816434276799233,
  1403929325543669522854812402963782979731422913036040101851,
  4185411108534529368224165662770329192816914080287546572603,
  5163355844805799274342679372730216707264984014506144701093,
  1189269296637246573725627302256227492207433414667107387928,
  4573382592336284569005143363399163359886547153950961365480,
  498392619349272890590918965017135438779013842729007621847,
  2947560013024481971602637415092508020457736148299445027889,
  3482118096279601931326372414313440812767901843225543854799,
  2079703775015057810331015218163628088230309646584208688705,
  2971533441358892390999055583513536994578020455564086723967,
  5383701773852815611599527962821951891871683606754267969878,
  2587588621966943147238690195497087811877830433078000983865,
  3613127606494069911359978304482765202464361057784767846269,
  3815059825749111959349520070380385103051736033236566695058,
  2024018905895883180979662722760395407044733599109050348358,
  519562268115649842360377258705723295282335894784016254632,
  2079888738466787490105818530061789101201512678425340471255,
  4406671256252989612546993309003611536776834618054002953849,
  5082455968309849285918182916084860774032136557833123532300,
  3497166030308540576850390453009596283192601248561005159579,
  3255571338750414793224888567045899019895828463126915889423]

def row6 : List Nat := [
  1, 1068547072797051882294505503071689647997167229376823762,
  496954368234135469455760273805177181489210611150377435764,
  800873248211506499773349301795584705439454826883578845234,
  3486067235211137621268559594855442688911447591873255804967,
  4083774010689814870845550988734097222342138236676282458546,
  207165692000785645888812639875631016916964080372843918909,
  1897527115411466696977181703245472496918134663068543577538,
  4706138522838818889514020848055636069837672656995691762546,
  3503781367143884844806188466962880151738926064875612048690,
  4788351446879274096304587061794762411296291359627438030877,
  20923934067282490253126139642082886427557189660558731898,
  822463768173272120042434879267805420518264026349749373581,
  4304424546667552860859249404121135137577146344956301148395,
  690915865353822221351884468845311569536795595694541186071,
  1203057266486938100741795030591644055660232560049684370893,
  2777028453722349277221187233190867830133493322992711498525,
  1287605875889421096897475684460944027586583312480000058581,
  6142500270102518240197567615549418506646199591933975541267,
  3201802237272527805316988474976703236656166578814685292785,
  4377120380087802779411746442202485191516849557888393966034,
  4995330274524320822220422030129939032459044391234652852591,
  28478568015864538413521503333653708183612190847043990275,
  199586760313507313527259443323430660574670397460528094383,
  2297948236148677847606562295056276222924498519373421482143,
  3232164846365725232001185663062955184808633021115134885032,
  4095855364958052764108678496805250477343566198872423881655,
  1593375202898397838584844051922613585623175105339714509193,
  6176545269216890682208257848777453695397727289817520372069,
  2979296170432879194322370707179991829617793604141087814444,
  3913205835069714009262342997634569323831624013103108690271,
  4576132497164263548593018547051120570395854517761587487905,
  4605067517246004891185641791333846662056904515345499251367,
  2264920209765210055519542421696267929587467443734612700111,
  4881150868155017706446369663348910842747522975874459367000,
  1386233303242760240132402671157175707549182420301209347664,
  635653213442252763637801817288429621844792434956016689636,
  1878214476082060172229303671713390134908341880369464605966,
  4791861469893133846703848431692819724355469932709110210250,
  4897863784752848305955665377138671852240061841599433627181,
  2267471793768044748902869105477095767249891707955578324806,
  2372628915776095046592093101813543153354632943806931807667,
  5185621869046193826428289622374604240828442534036070699466,
  4953948044871771701455610945668983523379620568059859570891,
  142920682076563242817006398900500337876780018783572265538,
  2882217264074743202276328915343793238862284942549162304895,
  2391397543816690941534442892657850064486363577821449478306,
  694361226091923328014552947716409047044373144371476124101,
  4983797037790017416423892956832891469480731292884373379930,
  694434561350630378444466831817095964176273864449073740296,
  3209371772417509389698527421584916646543831178554038438416,
  221867944317306065277778440168589586062365771154924514936,
  3628772842310385360593132328347414553622430070275471430524,
  5488394611157990757497297543867347552432139766678042730262,
  888779037617290550881603500435092900930753657232930826978,
  3219790012938212862563441855440819013609459393491727964606,
  303496660958684778674220410651022211524091289872707833527,
  6151894281181543062760526022118380243968267436520352521846,
  5087095607866273408329422623820064783994676375716582942013,
  1781927715264455007879733782605757702879987088542335970484,
  1400137380893321542097347602420025696978193949445842822638,
  3720731193514024969935712087230641267605162478514327827936,
  1103256395249225153023177701401401855832163516013822303668,
  1814298189907433596095249494604665960374878099694736839074,
  2653119221089088115053424320628565478520663955601128485783,
  5452123656798965608927483720561026641027177815413568871163,
  3505666446525019855463801296847751376433580394610909609798,
  229966655094449007135238582307940709428887986990577126431,
  4700022757304653395248422137016885643478473387725225354072,
  1676212598917591859406342036228263253466617721534835469827,
  4583778687539929714658268894513564430782611316547714944037,
  5151931320835318682212834576906919075896747651314576780389,
  4106784531869499338110748348330867725414501963597886359611,
  1120857115523347192422733683592865135592243505803459122878,
  210468994126145141174728536414281706418296058157279005724,
  18169856430585421616403653286107063321792877071902747308,
  5946084750283488499331052877482541481671278007889243474295,
  4082413505824929470716118599282394760159676536785885943415,
  4673309258639087065405162147453927184407352012920329991161,
  1976127878441110059034888632556025775349019404734375431235,
  5368221937566899728918869193108656443026684165575375530304,
  1107069576617297175100097633240441507207612074972810007543,
  1378644200640701546641859193247294242515697619424525826287,
  4075030258999254917706783680873950727355970191251878646947,
  2367850775807076456178066308255257320294851779832130807659,
  4493915641789834735139002117624546416802746476851962026513,
  3306395119773525837021763598609595782451608335129452030593,
  6143870651062420462492102361927242902269382438067853625368,
  1805105453161005299376804682708158135175906185537438022531,
  3307265257356698702314220428583906477849264776924452460597,
  5578925601293509157251833645849052290778410917820061658899,
  5064955827961268257615714962212543192407171643426120007175,
  2590282126014179146327825609828526658839966287983957029893,
  516564431196001788095529415849759008743683973688383431187,
  6172308321878901811608374913660826832166476472143004317393,
  4707506203898466250612916850218763017943132957380193286648,
  3678601723058790053429723693914981556589101701793395092395,
  237222168811613270530043889666473108931896820484439585878,
  4701373454522074654806620731689106645628543948918600770460,
  1802653312477096450109569121125124574420178639235910791075,
  3197449641192111104256881013864945755694187309977669455328,
  3212800833387111813056005392913188368477713520845393283290,
  915591599305333421029070511641098040703261557454182345399,
  4117815406325985645924387017480977110879403424077603146113,
  1977428737548525365878367469481105610328090527872516257708,
  3696448344629088170322037247926039105865199106929144060022,
  300582953334699928287175617387305767224437126002837607776,
  5248281723455944750848993322155945275246934357227882730280,
  426668756631091686880568354993260233780148518237564534413,
  5374488689415608709287737573974832520324640024983448484380,
  5163734404040879264051022761143549274406271856487426953347,
  5000360442237822335553524024278805153932518578424010248902,
  1513547912793303909951385930262931393731048556634325128446,
  4975781412215855415693933628230202199750724738893978964832,
  1905628660678976050395592678283803946565986088670273415646,
  5936894524368773658452115349223808980680716995951042146006,
  3394945122257960586183276928231895889853522076903744241465,
  2652890065958013599595752545056438583131294603674603809269,
  138297864093200101606800492263095746811914791961846935348,
  5269140949569218204440957979866293908425126448856702140466,
  5842124628125501979774074260283084887794845615486311010497,
  3402583440392659881609796782425966088761922116636587119731,
  215836681900383900362009534489560386126591218371436252812,
  4579560548516764871030234595895875549454835867505305723919,
  2471850133064072947458650662567551771506987350678897657346,
  205611245450259184694204620827532918085479623216012924408,
  500366053942736193096630555647418277954654849693570345383,
  2595431245404680938331062911731076587755249152259018978130,
  2107455574646211042956368845119007146170275258332657666504,
  6246818066838964008925402424754418635748240320737292533043,
  1786963374770997799872195431650187808997949342465408240881,
  5972031845854847437562192668513050715236278721704135282617,
  5849761336010517758763111379283874130794398173035010305268,
  4107651640094354378329781181398031722738992945971308290347,
  793496051009934736049886648221663376776866944788126905982,
  3047162326097575350081103797010196765778930975470758300177,
  2452916085529900763382010880643302767957570867789375968089,
  4602453080247673810179639716823069052078075155509714982332,
  2954350584614479824562153167600056084686000419826719322941,
  6076680005795976506625929928919025088660683831482883350794,
  3082536671917834900866200176946076841683078133890517769480,
  1912376086903456443711905058923361319502192936253522366078,
  1210090623473475729122133864923108844146444086159162585721,
  897039205607417408149095768305009004295893806527783284677,
  3227514759946282161749042207838548575399104020243143624688,
  4284618648313678668185685866925892100966947274380570500400,
  2850928164010386070990327070519222843994640923857366381558,
  5473209733249064623366101384779304491793716783571370246195,
  929081380843948146165802425923709384959373887243954967051,
  3613196954440388090558066431463014567720143988206798443083,
  2087942114783401838504733076133799541691347194631248311292,
  2565650855614666421303903527002757093334288234293437104518,
  1009299942038214247716931751723883108659831820572226858740,
  5563627111956055623519086894000322584217458420876550744110,
  3689365403459604385478364483451210690778061572437116374028,
  3820341986826875611602834108784942934024130211771723409002,
  920292682275493970087766336354604518476144627763219257311,
  5267406232818485733761756515895518343950440110066661916473,
  3975805556554864602538012772614359035362794526179288988301,
  5748428622607128677587361672139536872802492040555824801168,
  532406947271098221194762290774368476524595143406800991192,
  2081443228346984151269693727175671747481595304603892100782,
  1212211252334069450016979870331974443353429259355244352695,
  5188403749693012571899919517782526154313874614536117215340,
  5880567906687102036009943466104539553741505859242561255900,
  5450966420808969918451900717934069425755853598767837454236,
  3295978419503211758695897454522023702634333276916512581488,
  3603410449447500619658562348346997957802296503676726377412,
  1090012782034267857678679705240764638128525269884430534767,
  5955185501087242852149072654593182655397977461816003388081,
  1682983301057903815667272683112498779840329797193372297859,
  4991768795257575637818687225973322638575222600104953077898,
  3385786568854024325287396035062544437110526010089078430349,
  2381281400819901622536241502620738835764691161342161060925,
  2175500056787677350800022344599991620853943272925767683990,
  441237380045836350622001885252739562105978641186131882907,
  1991397770358565879201307973723525152661501105554959743821,
  4891409955939062465957018736961002803070492565958335386315,
  3906593702157889889955688355402086592017929230802514151921,
  4409753733370510120773881818539526480937371280137304271270,
  5760129600756873165171414441329982287557764227573350955092,
  1296943622804095091940026205659701818495917049962383201577,
  5390555475218131177747941238136218287667967654584764811066,
  5295111894481829185990582743368869601276979096955432350497,
  2266740014243467748651513245441230169231839229083732228171,
  451778338009735312397737476247861257778305719999943226341,
  4975207401134623783043118766411719022662649493686183860165,
  3583430868534695639208522918944545036076424108826315249365,
  2291864357721691363151631898997844547223428452261940496663,
  516961697727710221718296847307939938943222910879127048125,
  2852364251113842777616196947111102351739082847226857487326,
  650454496689487871277529702406421259721864759800684204317]

def rowN (k : Nat) : List Nat :=
  match k with
  | 0 => row0
  | 1 => row1
  | 2 => row2
  | 3 => row3
  | 4 => row4
  | 5 => row5
  | 6 => row6
  | _ => []

/-- Xor of the entries selected by the bits of `n`. -/
def linN : List Nat → Nat → Nat
  | [], _ => 0
  | e :: es, n =>
    match n with
    | 0 => 0
    | n + 1 => bif Nat.beq ((n + 1) % 2) 1 then Nat.xor e (linN es ((n + 1) / 2)) else linN es ((n + 1) / 2)

/-- `linN row` maps the first list to the second. -/
def chk : List Nat → List Nat → List Nat → Bool
  | row, a :: as, b :: bs => bif Nat.beq (linN row a) b then chk row as bs else false
  | _, [], [] => true
  | _, _, _ => false

/-- The numbers 0..3 multiplied (carry-less) by 135. -/
def clmul4 (h : Nat) : Nat := if h = 0 then 0 else if h = 1 then 135 else if h = 2 then 270 else 393

/-- Every entry of the list is the previous one multiplied by `x ^ 2`. -/
def chkSquares : Nat → List Nat → Bool
  | _, [] => true
  | e, a :: as => bif Nat.beq a e then chkSquares (Nat.xor ((4 * e) % 2 ^ 192) (clmul4 (4 * e / 2 ^ 192))) as else false

/-- The three words of the table entries. -/
def words (k : Nat) : List Nat :=
  (powTable0 k).zipWith (fun a bc => a + 2 ^ 64 * (bc.1 + 2 ^ 64 * bc.2)) ((powTable1 k).zip (powTable2 k))

theorem words_row0 : words 0 = row0 := by decide +kernel
theorem words_row1 : words 1 = row1 := by decide +kernel
theorem words_row2 : words 2 = row2 := by decide +kernel
theorem words_row3 : words 3 = row3 := by decide +kernel
theorem words_row4 : words 4 = row4 := by decide +kernel
theorem words_row5 : words 5 = row5 := by decide +kernel
theorem words_row6 : words 6 = row6 := by decide +kernel
theorem chk_row0 : chk row0 row0 row1 = true := by decide +kernel
theorem chk_row1 : chk row1 row1 row2 = true := by decide +kernel
theorem chk_row2 : chk row2 row2 row3 = true := by decide +kernel
theorem chk_row3 : chk row3 row3 row4 = true := by decide +kernel
theorem chk_row4 : chk row4 row4 row5 = true := by decide +kernel
theorem chk_row5 : chk row5 row5 row6 = true := by decide +kernel
theorem chk_squares : chkSquares 1 row0 = true := by decide +kernel
end Verif.Gf

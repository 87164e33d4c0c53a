import Verif.Model.Base

/-!
# Tables of `gf2_192/src/gf2_192.rs:407-438`

Copied mechanically from `POW_TABLE_0`, `POW_TABLE_1`, `POW_TABLE_2`; negative `i64` literals are written as the unsigned
number with the same 64 bits.  One definition per row, so that the kernel need not look at the other rows.
-/

namespace Verif.Gf

/-- `POW_TABLE_0[0]`, `gf2_192.rs:409`. -/
def powTable0_0 : List Nat := [
  1, 4, 16, 64, 256, 1024, 4096, 16384, 65536, 262144, 1048576, 4194304, 16777216, 67108864, 268435456,
  1073741824, 4294967296, 17179869184, 68719476736, 274877906944, 1099511627776, 4398046511104, 17592186044416,
  70368744177664, 281474976710656, 1125899906842624, 4503599627370496, 18014398509481984, 72057594037927936,
  288230376151711744, 1152921504606846976, 4611686018427387904, 0, 0, 0, 0, 0, 0, 0, 0, 0, 0, 0, 0, 0, 0, 0, 0,
  0, 0, 0, 0, 0, 0, 0, 0, 0, 0, 0, 0, 0, 0, 0, 0, 0, 0, 0, 0, 0, 0, 0, 0, 0, 0, 0, 0, 0, 0, 0, 0, 0, 0, 0, 0, 0,
  0, 0, 0, 0, 0, 0, 0, 0, 0, 0, 0, 135, 540, 2160, 8640, 34560, 138240, 552960, 2211840, 8847360, 35389440,
  141557760, 566231040, 2264924160, 9059696640, 36238786560, 144955146240, 579820584960, 2319282339840,
  9277129359360, 37108517437440, 148434069749760, 593736278999040, 2374945115996160, 9499780463984640,
  37999121855938560, 151996487423754240, 607985949695016960, 2431943798780067840, 9727775195120271360,
  2017612633061982208, 8070450532247928832, 13835058055282163712, 0, 0, 0, 0, 0, 0, 0, 0, 0, 0, 0, 0, 0, 0, 0, 0,
  0, 0, 0, 0, 0, 0, 0, 0, 0, 0, 0, 0, 0, 0, 0, 0, 0, 0, 0, 0, 0, 0, 0, 0, 0, 0, 0, 0, 0, 0, 0, 0, 0, 0, 0, 0, 0,
  0, 0, 0, 0, 0, 0, 0, 0, 270, 1080, 4199]

/-- `POW_TABLE_0[1]`, `gf2_192.rs:410`. -/
def powTable0_1 : List Nat := [
  1, 16, 256, 4096, 65536, 1048576, 16777216, 268435456, 4294967296, 68719476736, 1099511627776, 17592186044416,
  281474976710656, 4503599627370496, 72057594037927936, 1152921504606846976, 0, 0, 0, 0, 0, 0, 0, 0, 0, 0, 0, 0,
  0, 0, 0, 0, 0, 0, 0, 0, 0, 0, 0, 0, 0, 0, 0, 0, 0, 0, 0, 0, 135, 2160, 34560, 552960, 8847360, 141557760,
  2264924160, 36238786560, 579820584960, 9277129359360, 148434069749760, 2374945115996160, 37999121855938560,
  607985949695016960, 9727775195120271360, 8070450532247928832, 0, 0, 0, 0, 0, 0, 0, 0, 0, 0, 0, 0, 0, 0, 0, 0,
  0, 0, 0, 0, 0, 0, 0, 0, 0, 0, 0, 0, 0, 0, 0, 1080, 16405, 262480, 4199680, 67194880, 1075118080, 17201889280,
  275230228480, 4403683655680, 70458938490880, 1127343015854080, 18037488253665280, 288599812058644480,
  4617596992938311680, 94575592174780416, 1513209474796486656, 5764607523034234880, 0, 0, 0, 0, 0, 0, 0, 0, 0, 0,
  0, 0, 0, 0, 0, 0, 0, 0, 0, 0, 0, 0, 0, 0, 0, 0, 0, 0, 0, 540, 8640, 138375, 2214635, 35434160, 566946560,
  9071144960, 145138319360, 2322213109760, 37155409756160, 594486556098560, 9511784897576960, 152188558361231360,
  2435016933779701760, 2066782793056124928, 14621780615188447232, 12587560958500536320, 16933534598913064960,
  12682136550675316736, 0, 0, 0, 0, 0, 0, 0, 0, 0, 0, 0, 0, 0, 0, 0, 0, 0, 0, 0, 0, 0, 0, 0, 0, 0, 0, 0, 270,
  4199, 65620, 1048694, 16777290]

/-- `POW_TABLE_0[2]`, `gf2_192.rs:411`. -/
def powTable0_2 : List Nat := [
  1, 65536, 4294967296, 281474976710656, 0, 0, 0, 0, 0, 0, 0, 0, 135, 8847360, 579820584960, 37999121855938560,
  0, 0, 0, 0, 0, 0, 0, 0, 16405, 1075118080, 70458938490880, 4617596992938311680, 0, 0, 0, 0, 0, 0, 0, 0,
  2214635, 145138319360, 9511784897576960, 14621780615188447232, 0, 0, 0, 0, 0, 0, 0, 4199, 268435729,
  17592203935744, 1152922677132918784, 76842668642009088, 0, 0, 0, 0, 0, 0, 0, 552960, 36238823415,
  2374947531325440, 8070608823267622912, 10373760266671226880, 0, 0, 0, 0, 0, 0, 1080, 67194880, 4403688133701,
  288600105530228736, 5783840476780036096, 6072259672578981888, 0, 0, 0, 0, 0, 0, 138375, 9071137756,
  594486085783387, 2066751970480947200, 10662148263827734528, 10329850170304364544, 0, 0, 0, 0, 0, 270, 16777290,
  1099511627845, 72057594037993729, 4311810048, 282578783305728, 72339069014638592, 0, 0, 0, 0, 0, 34560,
  2264924160, 148434069749895, 9727775195129153415, 582094356480, 38148135746273280, 9765774316976209920, 0, 0,
  0, 0, 0, 4199680, 275230228480, 18037488253681685, 1513209475875820821, 70735243837440, 4635704940130467840,
  6130806467734798336, 0, 0, 0, 0, 8640, 566946560, 37155409756160, 2435016933781924651, 16933534744589640171,
  9547060033028096, 16933571892114096128, 2444047222778626048, 0, 0, 0, 0, 1048694, 68719546624,
  4503604207554663, 300166943871232, 1224996759836561425, 1157443864920915968, 1229500363472633856,
  1157706579210928128, 0, 0, 0, 2160, 141557895, 9277138794240, 607986568019867760, 40522537422618480,
  17800609988259379447, 8680969174647242752, 18408596479129157632, 8716435603798884352, 0, 0, 0, 262480,
  17201906733, 1127344162226488, 94650720833590632, 4923631783780892776, 4685244537110860101,
  6130877201840930816, 4635630379498209280, 1244400872037810176, 0, 0, 540, 35434160, 2322211272620,
  152188437960410523, 12579670370307547627, 17837990321867909931, 5021550739930207323, 2435017087666290688,
  16943619710405050368, 15301824158921392128, 0, 0, 65620, 4294967417, 281474976710691, 16, 118, 65641]

/-- `POW_TABLE_0[3]`, `gf2_192.rs:412`. -/
def powTable0_3 : List Nat := [
  1, 0, 0, 268435729, 0, 0, 72057594037993729, 0, 8640, 1224996759836561425, 0, 2322211272620, 4295032833, 0,
  14621780615188447232, 1152940269605290257, 67194880, 10329850170304502919, 72340168543043841,
  18037488253681685, 2444084377648024256, 1152940269335812193, 4923631783780892776, 8706684044243276764,
  575525617665, 0, 2214635, 6917686146403139857, 0, 594486068876182, 109923151000961281, 0, 16938075487731716172,
  18404092875493085201, 17201907249, 16943619710405050986, 37718226699878401, 4617597137004134400,
  14612714913562038646, 18367544013769765137, 5542457468742751288, 72653179618366162, 9728057245643608966,
  6157755589565773013, 18019219842468425885, 10810195873454248233, 2349380831670242920, 16943621826424035836, 1,
  16405, 36240966940, 268435729, 4403688133701, 9728369681197172956, 72057594037993729, 1513209475874772323,
  2019996756866529500, 1224996759976022166, 4684963044965832011, 5021552416478667632, 37999126150971393,
  4684939972385783829, 13457377139179214203, 11526700544810279629, 72339069031416121, 9765921662736143390,
  12055130151581740461, 1153203052884328721, 5891559298491384716, 10918321260291457489, 35172261,
  17837919347567642436, 575525617798, 9441498026213649, 3487211355411353591, 6917686182105090782,
  14029798188333079028, 6063073012436278090, 9693583435381516102, 12841246783993051248, 12836668490528606502,
  90149276037394458, 339026464814167628, 369965729453364929, 14586332504390516756, 11227082200011138414,
  11229602213711119466, 1806743557951716919, 9655866046395532516, 9760377787999626065, 9427972246435104475,
  14946710483749066959, 12207083003288339338, 11423970066916065315, 12960521784562264120, 6557835543537224962, 1,
  4403688117328, 268435729, 268435729, 1513213877407514960, 72057594037993729, 72057594179551622,
  6054338822752200080, 1224996759836570065, 1262995881831960726, 4685176399308498684, 2326506170314,
  10335761149110321153, 11434146964020925520, 15774719785282113843, 1760926221464557073, 10253312341617823191,
  10257811268250504387, 17744495890404952547, 2358520128326754357, 3596724480578929564, 2653562374675748729,
  7558329885135416404, 8706684602589025248, 611764439881, 14092420610200559291, 6917686146405354490,
  16645461104805743961, 9071577101557338822, 109381790017557217, 8696092877002101742, 13778416847206503452,
  1475308329743286364, 128146801688724317, 10056413443949335819, 16914874634847982203, 13829423982979461225,
  5541920254930687988, 3761689569789112577, 16119424247086893011, 12264585668661756995, 18404773341735229637,
  13496306635657541686, 14694469851819217727, 1476151931308439890, 5613176216134850767, 289726897646273736,
  16943621826692470938, 594453066058452, 4437244711257, 72057630278829085, 7782810071065752468,
  10521003216683236361, 10809216050845998230, 14607523882356727333, 6705067445074182019, 6637312287860931618,
  16292570990758798234, 10329675745959977159, 4645236792527042077, 3567261728918198996, 16876028178745327330,
  3851762367547029496, 17164262871128265249, 604372413954671920, 7336273916715742398, 8984291365106642911,
  14926397920693505037, 15445072000715790908, 5487223282412062341, 3220238017403266817, 10920542745358519124,
  11795006960499572767, 17569901081047122891, 2730222910065286284, 4666291884953713058, 27885208784216435,
  14982054987661451439, 9074463908856611112, 6089525621414736771, 18102369889637726862, 14308404347551736765,
  90460192285484837, 7003316425532605053, 2325362866034789830, 6377579351440235774, 12962453666514841506,
  3204252260295655770, 4952583157325034207, 9664188759013189005, 16130694392430542294, 17319143277912111457,
  7751601582170687883, 11983562288007103207, 7121056025054547704, 6485777949499231279]

/-- `POW_TABLE_0[4]`, `gf2_192.rs:413`. -/
def powTable0_4 : List Nat := [
  1, 15440571674027179982, 2600966637154804214, 8641, 8525113116679455864, 16301599910417551186,
  2019996756799457565, 16596267790932996749, 13556921983128574351, 909561413152654253, 18421742940890400112,
  7726439241120171362, 7303489125464870298, 4332131768403656981, 2962048663402138678, 15554464584431088569,
  13713092564684408824, 1063143929388429494, 17248848612345827226, 3525840681984842667, 13751466508367451933,
  5146529997701558317, 7435951619486932058, 15721957229279774477, 40504930336318985, 876946985023164340,
  5608484252067120944, 11630666452326903357, 14413089263993773715, 14365171677797115181, 9810379623252708790,
  7120123665156854152, 15707383232187720801, 4179210361336297309, 13411163452469250923, 5024856697532411216,
  12863017954562907233, 1447126495187071743, 15859756789304748518, 8837846401203718243, 6684981609574125625,
  1540466829568951558, 13598165080093418520, 531411902399629160, 10348751190958165219, 5836923291160128631,
  2657822116024759531, 5082038816076700909, 7237486007293790522, 5252165852497928096, 11502852493312842764,
  16087867915712496583, 2004344792661408502, 6922719691033397220, 12330973015865972826, 17563766842858166436,
  4445218069992821756, 5905786485590667688, 9493849045433637867, 6335857422495481096, 17109996474403221543,
  18151726547123743891, 6427842712075527612, 6136969228259728187, 8790718804228268581, 10797219982373441987,
  12452338824635631976, 4313678309655720149, 1583534994170157977, 5606445082714174951, 6853837681080604556,
  9961107047632320313, 7790525872849806729, 5940658092022763209, 8602473577714766584, 2936249914771413453,
  12925531894521754869, 4711968172455986094, 13523887648161145117, 130141881968551392, 3536227681426168034,
  1538274929948045556, 2319096648797621624, 18056606808938783435, 8029329512101034001, 11426155015641476846,
  3265911137432880136, 8114665243288440240, 1727024161912275448, 7211866768629281013, 15316020560319696823,
  11229887313781407900, 3533195878158403511, 3984449705890310687, 10067694507812642049, 10058642271488853391,
  17445238503154028849, 15824932961612782746, 603025228237669646, 13590957436068722447, 9584942476203339986,
  5171117103964917160, 12429844606244882398, 574486107801798403, 1346751909104125183, 6265319601178024276,
  3065092470199993307, 14902383073588960100, 12135088321750663836, 5850322626671860616, 16271044217376858437,
  2849507709866937883, 13426322211677039402, 13877885522118181159, 16015478885642955771, 9714205239734068691,
  49029378622487761, 948188484528056399, 685766231005340987, 12338514779417841868, 11827240337181255743,
  2499319692519687998, 10205639823543052968, 12162920610919171138, 16646821488848459562, 12206342884385792472,
  5497064944286443280, 6723566846653152186, 11245920264648918074, 9455344407116053514, 3696845228942259783,
  5525150667579715560, 949595271893899961, 4431634865357028469, 10726770210723874126, 12412268116620923146,
  14178010580827761638, 6756633516157056278, 16489189529077244036, 7121101677918762223, 15519749534892064852,
  5070148293018691908, 15282398045885288595, 10381216472687798398, 11053164794608648945, 1578925030408104064,
  12976245973138642174, 9387259327944604538, 8728828886428453065, 876414647339389056, 13755397589789336815,
  271068101201614328, 17117795397403468202, 17844816579282718023, 16866333873379635028, 14120692181509160506,
  5551955200782384943, 214408676534699021, 892732170117421280, 11666952041953552672, 8533716818059729780,
  873315600166044946, 8844237596764485904, 4304845159865160138, 5606488036825769410, 425090181770096226,
  17310834898245106626, 13721627300483102213, 5897643684611700155, 1650595387261410562, 11129270504821304356,
  10129367793067026094, 524782793988048123, 11733541578078416424, 13507187781202638214, 12836874378416364755,
  14216155047321606933, 17722678163797033044, 16336442749925893302, 1029673643630214818, 13148870074529013828,
  9518670723808721763, 7277641038077141425, 6527157727335254212, 14500740250151406285, 8063768130289328687,
  4522053259152859193, 675627983587702560, 17309578591515651764, 8414663288495567717, 10009923883833283620,
  7876837133135388570]

/-- `POW_TABLE_0[5]`, `gf2_192.rs:414`. -/
def powTable0_5 : List Nat := [
  1, 13276884071194769981, 15856934121203767082, 8777364680166470481, 9616087656280247572, 3176782973934494582,
  109797415759816827, 1076956885061792565, 7914398690249482831, 8011904680480159185, 8410793115243855507,
  6266439534501642392, 18109868516244436886, 4038138302048025623, 10345595280655981346, 1124933003446523927,
  8391412732637477197, 2199881538445059432, 719775327569887587, 13621657860856103866, 11132420888131727392,
  4891665885256984545, 7598126349271893834, 15207370770649982084, 17787540283834126680, 7692138112394859210,
  18253720719129196178, 1661409395237152970, 17579034668684890956, 13671891635293467565, 1013518333030173816,
  3485843496410831696, 188315317670329959, 10820395587780807182, 4785373727715537048, 15889383433564022833,
  815573462730278215, 2725495643400585416, 763815832452911292, 17212327793574706363, 3031628907175299520,
  6164952807644926203, 11540586086246164933, 8750285495619286011, 15502475675949279504, 9875656691482968684,
  7349937386463951048, 7786267339579184516, 337223540666190292, 1366638621193514276, 5979097440737272663,
  10217671883474820329, 10981976657701215246, 2196188713781264658, 11839787319448888185, 8497668204436713713,
  7806277383834821447, 591641631205476095, 6045490875774248095, 456224709346991991, 11227872943578342222,
  580163022797824109, 14753346279738808078, 16591071445722989163, 1785325366189117080, 12834188696504219511,
  18152402705726266494, 2445160339032774813, 7132278192002140706, 878326058396851309, 3921174184439993950,
  5853022697017928950, 15621338973953927101, 11415884474490080124, 9972937862066555592, 9948548607792464081,
  14264098254567430387, 726866375401350017, 14322883774178091295, 67135272333132065, 238539200704091067,
  9069168069279185101, 9891776220505917671, 16648608468456833726, 18087013500960004170, 4493519132539194015,
  4958647882027071589, 17535594311810584223, 13290084145519003555, 1295304005530223213, 11469400515607430460,
  6922621878872799870, 6666583055979266042, 7292171483456095852, 16477286219735608870, 11548351929661947987,
  5756338153240882170, 6504592230467093280, 169954543499997878, 8244762795686741102, 10744408799559698296,
  170612181012260678, 17278819446262135890, 6330133554527618692, 17776285474682642949, 12971314168102623730,
  14039421311521684459, 9866144703025310056, 3285212811372363965, 7894963086517678484, 8569304869073834915,
  11901936819884542796, 12450506714815946105, 15404275268822466260, 2374190430796422836, 3894653610967932827,
  3898642019578338045, 13084724318136350753, 4402246476084717913, 3291977739464152007, 3674469931224113236,
  18402465881576706409, 18300613539065146252, 5382065438553845456, 6785308159791913441, 4538149016807450869,
  8422045206362267535, 17695337718394128162, 8999771730341663411, 17456574886763553739, 1777800203227879507,
  13590513540383693998, 6591273902673649307, 4756065680746518619, 9941997176921304531, 4474109455375415963,
  7512977545114097664, 13452076558067931440, 13822031399654118653, 10865308979861461098, 15072160705693251657,
  11674581045203411017, 13849391146099899174, 7074576231879668500, 8699761606660221174, 16985917011406023049,
  8015141181709918285, 17277177753290798435, 13665631868904574286, 1888326456844245676, 8052564071464611668,
  8677658026519325509, 8196795344534159240, 12257616133789999856, 17689907453717001984, 3275904360037766197,
  8063439441889441129, 11115456142727139109, 5909316323417099098, 7555764543220595192, 5975647989155847506,
  3542169932787954825, 3572787110578921974, 13536710804346618335, 4127048709984103372, 10197197311752415429,
  2136513283148217767, 6914147571605817471, 17044776240872586472, 8407424200159619086, 3198875950909199105,
  2570623872214327259, 6598776223519113019, 9898020473249602213, 1542874467657402904, 5132064706814079464,
  9749451204970456791, 7457266453233910833, 17353325540844391119, 3247028061820159553, 17022201176157439359,
  5068257691790424406, 5880873780866162489, 15344111360707008381, 1263997674554416274, 5364397535996490566,
  11466636993748403880, 14974748930348214231, 6641708940048027257, 1135429108619021836, 5387343206428796059,
  11642496413691066639]

/-- `POW_TABLE_0[6]`, `gf2_192.rs:415`. -/
def powTable0_6 : List Nat := [
  1, 1073223059898794450, 16407930704452633204, 5304323081406240818, 3303538589997961255, 10204200340225991090,
  15084968035315463741, 10480342273013804482, 3661948208390050674, 6880986284844289330, 2763308461018415133,
  1781656665212037754, 6138182394991053453, 10934518856273887467, 15750304993203528727, 15863679026889643469,
  15314828436754529053, 15557386856537302229, 12644138618747434515, 16009848791535200497, 16680175423246201298,
  18069621956183576943, 1776581853777064707, 18138132924167478447, 17906429258929016991, 8467843478952328360,
  3468583091456007095, 505744836808219017, 13017829950559058277, 10669757036980695852, 12344475401760248159,
  3494341367960380577, 2418782979535889063, 4679473505413000143, 12005048788676507224, 6265164336385959504,
  11200532098757304804, 17915145542867746062, 7617543382550044362, 7304030873573479981, 18414462748806530886,
  5445701030230371763, 252311267739668938, 7731413305529340107, 4792829355971906114, 3012742833337443711,
  7376323673068462242, 2937445380659696069, 9159469984575429466, 4180661836353763848, 9102205873245014544,
  9289089731953700472, 12529559265570313084, 17533731912389779222, 3520965615244733154, 1105108204046932414,
  3640346287517683383, 2610854371735641718, 3369140582718399805, 18279240622968089780, 7612537899180910062,
  4647612969614095840, 3109561378106990004, 8745335350416839074, 18148452655578805143, 16253058736816954107,
  15241097594159857478, 11534043220179979295, 13160758591427076952, 10435323667761212931, 18426135401809185829,
  2461277845240147045, 9652561960164231227, 14303051747982923454, 13240684014458686492, 11104915804134877868,
  5997074990730119543, 11462868222216459895, 5190016632970933241, 17313078915624635459, 10734986297293089088,
  958657918611969015, 2998347888694802671, 18269966589652047011, 5157771292309956459, 9447282856318966289,
  4257577863211723393, 15061281360131164184, 5581805654425926531, 11465075305098090549, 6619449109488021267,
  8273870493873208839, 6305391702152098821, 10708717590857572883, 11022373994203199185, 1130290113791392248,
  5736936187682728875, 16557203751593358422, 6918453404219483036, 18188381319266365347, 1740351069027290592,
  2990762037699987674, 2598835903464008375, 12364815243287464321, 5388584501900900268, 15345108615312136310,
  5560630914118636896, 5540181403154305832, 13396239367216004749, 2482421493273885212, 8345872426056290435,
  18331814875963069126, 17035208907088991486, 1955447843789378400, 14031016345691433438, 174849678320512726,
  12868220130230828857, 5785969583518444021, 16214256921523318580, 3347165569852915762, 8597084251364200641,
  9809365852708197491, 1905787365039574668, 12682446740469720079, 11558888516812768770, 10980324788524750328,
  3561228892785125799, 12420896303039116114, 7880903838892214728, 4831723645980851507, 9746333148606500081,
  5167047152144011193, 12856793299013709044, 11470880699213701419, 8636325743490381438, 13053281333343586833,
  758109935525139289, 8449824526047483324, 2882040775719318333, 8722862970638278922, 652288902771973384,
  12556960895990156926, 15235307640051839609, 1362735929528070085, 8025013999877916656, 8057121196213509424,
  17849591877289735158, 14715138047029018675, 11632102419052646923, 15933205542293541451, 16996926653135746044,
  7983703381157839238, 4136435098211692276, 17115530455847938094, 18157560302687669260, 15345885027871614570,
  536889653442631647, 1933334157013614393, 15067905551521069709, 59059052034778512, 9375965457807963096,
  9885109165354430126, 8646082716902511799, 11256349175478804588, 2223190096772479452, 17821543705613803420,
  10751244109293938544, 15521023699485948868, 7859320007538329711, 9856719099824431793, 8447867896928955011,
  10105256220262490250, 1319006032904755853, 5631657808401138749, 2597687022492864406, 7575706244535104411,
  13175822691519544141, 3486972365953290955, 67197056587467249, 17903914745915894182, 10257906202127661140,
  14538038559866017065, 9879762961061070650, 11648119408410637089, 9174760941175519307, 12653871933119607781,
  16227044004421769157, 12005817348168668885, 687123600828336407, 6695459205124198333, 5752186679888935902,
  3823361293471306013]

/-- `POW_TABLE_1[0]`, `gf2_192.rs:420`. -/
def powTable1_0 : List Nat := [
  0, 0, 0, 0, 0, 0, 0, 0, 0, 0, 0, 0, 0, 0, 0, 0, 0, 0, 0, 0, 0, 0, 0, 0, 0, 0, 0, 0, 0, 0, 0, 0, 1, 4, 16, 64,
  256, 1024, 4096, 16384, 65536, 262144, 1048576, 4194304, 16777216, 67108864, 268435456, 1073741824, 4294967296,
  17179869184, 68719476736, 274877906944, 1099511627776, 4398046511104, 17592186044416, 70368744177664,
  281474976710656, 1125899906842624, 4503599627370496, 18014398509481984, 72057594037927936, 288230376151711744,
  1152921504606846976, 4611686018427387904, 0, 0, 0, 0, 0, 0, 0, 0, 0, 0, 0, 0, 0, 0, 0, 0, 0, 0, 0, 0, 0, 0, 0,
  0, 0, 0, 0, 0, 0, 0, 0, 0, 0, 0, 0, 0, 0, 0, 0, 0, 0, 0, 0, 0, 0, 0, 0, 0, 0, 0, 0, 0, 0, 0, 0, 0, 0, 0, 0, 0,
  0, 2, 8, 33, 135, 540, 2160, 8640, 34560, 138240, 552960, 2211840, 8847360, 35389440, 141557760, 566231040,
  2264924160, 9059696640, 36238786560, 144955146240, 579820584960, 2319282339840, 9277129359360, 37108517437440,
  148434069749760, 593736278999040, 2374945115996160, 9499780463984640, 37999121855938560, 151996487423754240,
  607985949695016960, 2431943798780067840, 9727775195120271360, 2017612633061982208, 8070450532247928832,
  13835058055282163712, 0, 0, 0, 0, 0, 0, 0, 0, 0, 0, 0, 0, 0, 0, 0, 0, 0, 0, 0, 0, 0, 0, 0, 0, 0, 0, 0, 0, 0, 0,
  0, 0]

/-- `POW_TABLE_1[1]`, `gf2_192.rs:421`. -/
def powTable1_1 : List Nat := [
  0, 0, 0, 0, 0, 0, 0, 0, 0, 0, 0, 0, 0, 0, 0, 0, 1, 16, 256, 4096, 65536, 1048576, 16777216, 268435456,
  4294967296, 68719476736, 1099511627776, 17592186044416, 281474976710656, 4503599627370496, 72057594037927936,
  1152921504606846976, 0, 0, 0, 0, 0, 0, 0, 0, 0, 0, 0, 0, 0, 0, 0, 0, 0, 0, 0, 0, 0, 0, 0, 0, 0, 0, 0, 0, 0, 0,
  0, 8, 135, 2160, 34560, 552960, 8847360, 141557760, 2264924160, 36238786560, 579820584960, 9277129359360,
  148434069749760, 2374945115996160, 37999121855938560, 607985949695016960, 9727775195120271360,
  8070450532247928832, 0, 0, 0, 0, 0, 0, 0, 0, 0, 0, 0, 0, 0, 0, 0, 0, 0, 0, 0, 0, 0, 0, 0, 0, 0, 0, 0, 0, 0, 4,
  64, 1025, 16405, 262480, 4199680, 67194880, 1075118080, 17201889280, 275230228480, 4403683655680,
  70458938490880, 1127343015854080, 18037488253665280, 288599812058644480, 4617596992938311680,
  94575592174780416, 1513209474796486656, 5764607523034234880, 0, 0, 0, 0, 0, 0, 0, 0, 0, 0, 0, 0, 0, 0, 0, 0, 0,
  0, 0, 0, 0, 0, 0, 0, 0, 0, 0, 2, 33, 540, 8650, 138414, 2214635, 35434160, 566946560, 9071144960, 145138319360,
  2322213109760, 37155409756160, 594486556098560, 9511784897576960, 152188558361231360, 2435016933779701760,
  2066782793056124928, 14621780615188447232, 12587560958500536320, 16933534598913064960, 12682136550675316736, 0,
  0, 0, 0, 0, 0, 0, 0, 0, 0, 0, 0, 0, 0, 0, 0]

/-- `POW_TABLE_1[2]`, `gf2_192.rs:422`. -/
def powTable1_2 : List Nat := [
  0, 0, 0, 0, 1, 65536, 4294967296, 281474976710656, 0, 0, 0, 0, 0, 0, 0, 0, 135, 8847360, 579820584960,
  37999121855938560, 0, 0, 0, 0, 0, 0, 0, 0, 16405, 1075118080, 70458938490880, 4617596992938311680, 0, 0, 0, 0,
  0, 0, 0, 33, 2214635, 145138319360, 9511784897576960, 14621780615188447232, 0, 0, 0, 0, 0, 0, 0, 4096,
  268435729, 17592203935744, 1152922677132918784, 76842668642009088, 0, 0, 0, 0, 0, 0, 8, 552960, 36238823415,
  2374947531325440, 8070608823267622912, 10373760266671226880, 0, 0, 0, 0, 0, 0, 1025, 67194948, 4403688133701,
  288600105530228736, 5783840476780036096, 6072259672578981888, 0, 0, 0, 0, 0, 2, 138414, 9071137783,
  594486085783387, 2066751970480947200, 10662148263827734528, 10329850170304364544, 0, 0, 0, 0, 0, 256, 16777216,
  1099511627777, 72057594037993729, 4311810048, 282578783305728, 72339069014638592, 0, 0, 0, 0, 0, 34560,
  2264924160, 148434069749895, 9727775195129153415, 582094356480, 38148135746273280, 9765774316976209920, 0, 0,
  0, 0, 64, 4199680, 275230228480, 18037488253681749, 1513209475875820821, 70735243837440, 4635704940130467840,
  6130806467734798336, 0, 0, 0, 0, 8650, 566946560, 37155409756193, 2435016933781924608, 16933534744589640171,
  9547060033028096, 16933571892114096128, 2444047222778626048, 0, 0, 0, 16, 1048577, 68719546624,
  4503604207554576, 300166943871248, 1224996759836561425, 1157443864920915968, 1229500363472633856,
  1157706579210928128, 0, 0, 0, 2160, 141557903, 9277138794248, 607986568019867768, 40522537422618488,
  17800609988259379447, 8680969174647242752, 18408596479129157632, 8716435603798884352, 0, 0, 4, 262480,
  17201906772, 1127344162226437, 94650720833590549, 4923631783780892757, 4685244537110860101,
  6130877201840930816, 4635630379498209280, 1244400872037810176, 0, 0, 540, 35434131, 2322211272589,
  152188437960410544, 12579670370307547594, 17837990321867909923, 5021550739930207323, 2435017087666290688,
  16943619710405050368, 15301824158921392128, 0, 1, 65536, 4294967296]

/-- `POW_TABLE_1[3]`, `gf2_192.rs:423`. -/
def powTable1_3 : List Nat := [
  0, 135, 0, 0, 36238823415, 0, 0, 9727775195129153415, 0, 1048577, 17800609988259379447, 0, 281474976710656,
  579829432455, 33, 76842668642009088, 8072983807037771767, 9071137783, 72339069031416064, 9765922753310918535,
  2435016933781924608, 1153203052884328721, 8072983770657683879, 17837990321867909439, 1, 70995809403015, 0,
  268435737, 2325224901419503607, 0, 72057596286140673, 14398802483172837255, 8650, 1828479723647826040,
  5198580908436257015, 2322211206545, 281479271743623, 4652851823974482055, 14621798352530571297,
  1229782974218235903, 10087540132714831793, 10661590371516452699, 9655866037409056257, 1551279595255904722,
  1157478821306368048, 17214903947078727574, 16202676590063598915, 12579670370307547594, 16404, 135, 2214635,
  4403419698516, 36238823415, 594486085783387, 1441151881837827092, 9727775195129153479, 16933534744462753966,
  5766090787059466581, 17800610005417213091, 4987494515535258582, 351930695303188, 4617597572767748231,
  4989366934530869954, 4995636651726742868, 2616027333969501107, 9765774319241168640, 6148982769688008083,
  15191630281138291586, 8108459549707964399, 6110225865917094366, 2616023978973555122, 4330401300,
  9440922232176661, 70995809419410, 1162434420959906814, 11795861980248822861, 2325229302423405341,
  1510550969824680745, 13750600687829734677, 15191471780679307954, 299538383934670116, 899585657599261095,
  12025445563313823605, 4987212465024951234, 10006939466549641394, 4722974330230397517, 2604241862179011578,
  2945765058557585494, 14274157736843336371, 10538445405211625011, 3292917456527349333, 16668327265897532029,
  15758898579009563570, 16878210297048369315, 11293435080389150321, 17695182950068807268, 135, 135,
  594486083601840, 36238823415, 36238823351, 16934128951401885360, 9727775195129153415, 9727775212331058067,
  12587598251704972721, 17800609988258330870, 13194834961500748963, 5012764771064815280, 282054806696071,
  1463670458724844711, 10262519139833103761, 8149678041610583920, 8167559115579133249, 10267022747874442327,
  9658522493873846648, 16377666877287049603, 13741396607782559665, 6955256496823371726, 10922635679410192585,
  7563110548872886158, 70995809403014, 75399497649272, 9499596907884201129, 2325224901151067886,
  3838472271485441641, 9503900540194959281, 14326744891524548109, 4329109129124827895, 12025407970472602626,
  5891272723926220804, 16642688533260035682, 8460564669008640934, 14693662633575215112, 14586605641903020586,
  10590090624365837423, 10851092082941478785, 14394460708834877299, 5532806268997719779, 5288704387223848300,
  9702504387169899289, 9591690347899319582, 6006015969448097578, 1347435800541178025, 2211897868760481646,
  36238839779, 72061997459758636, 590093403544079, 9727779598548333337, 360860506022940844, 18374686624278935038,
  16359460216771705451, 2955844742563665725, 1563985813813261386, 11126503085279654532, 11758722424614947648,
  123717882122878262, 18076534023616312135, 6069896046897945042, 10323100350239058742, 3483026182173742943,
  10610780804545588533, 629692079040326967, 16048976155435386413, 2307919561648830965, 18401829708310541248,
  599544380208996432, 17849449606275186715, 11482313385480417705, 2334920026170350992, 12841401773642208211,
  3551021258077608539, 609035323518161084, 11725721668412272672, 3504310508963389432, 11163591602517752003,
  9724545174656344887, 17195869278971819905, 9074608179003201540, 1810628635239662178, 11994967174335792893,
  13831049535316002321, 14084468969919352914, 14654521641406306360, 16887051407095342000, 18348312856131755077,
  9416823272242912558, 11337378838521009209, 17500066303620508823, 18264151826526798023, 15809291832146236842,
  6124864149863968072, 5021550739898464339]

/-- `POW_TABLE_1[4]`, `gf2_192.rs:424`. -/
def powTable1_4 : List Nat := [
  0, 17771043319244826420, 11046498889225802433, 2325224865180680192, 4308854149351096230, 4087632387066765743,
  11171460205118984025, 998815193966931967, 16302947652302087782, 6056625504733376525, 14401022248919686780,
  17588213843765132842, 94575875809256316, 10951669851782128864, 14818179442374777499, 11574141115935898950,
  9609074001152282981, 2150855273413160557, 5842706246122142201, 9572389958964654541, 10948123622438670902,
  8345255364170114647, 8675725534108615393, 17818025694261349320, 7213058728673621187, 8697600085574001635,
  569941992076422209, 2101729217045010600, 17577471510438970265, 6349834165615373008, 10168320876443856148,
  18157076444337396332, 13450555826395838614, 14253153180721250882, 10637997005762435146, 5740222723455656079,
  17442450894481622959, 11068716502622224746, 1850676172401126584, 4102071215454560899, 7259757191991660866,
  15182993436385238043, 11345648146173702607, 2960944838505603741, 7960409200978162151, 17065824878570131072,
  11180956296394004646, 8696134004788876257, 4459615944721376107, 357711267766598467, 11855280680323521849,
  6213350576813261001, 2844246054154448404, 15417660934292261288, 2245638225067189479, 8617601719125400457,
  2128220270181946136, 3470499785866555218, 132066871132521002, 5517882414738609434, 16443370060035592293,
  3739836398962945633, 4448468942318558050, 5616161409774106646, 16804029720176547487, 3432917397076393183,
  10815509495404751565, 1381553953950798900, 4023962110129311253, 8644710097507238632, 17249326825654505238,
  9232274072305547904, 1609372195130461718, 16468243822746772790, 13535695818126620668, 6141651141653126100,
  16236200249300990778, 12352750287144583035, 16115443885431080602, 301965068498387180, 13653167585225230949,
  13320919137565171733, 12902532521891015452, 4552272197317892247, 10609465835370367782, 9685106741243089978,
  147364084060044539, 12381918392375761511, 9247988364178896205, 16668619952833389552, 16585251922886892223,
  4745713929342438769, 6861768606120208380, 5182389685193931296, 9912403170945210001, 14856353491695863801,
  30073544289745672, 5662918870480130927, 8401074218837039520, 15284207028046294863, 14750559867709606046,
  14324229974110909320, 10656987401695654921, 18158777170307768215, 11939254024862685314, 13530711916571400546,
  13305396996786924511, 13291703578966639760, 7430428299516436592, 7568914190360801521, 8976947262451327251,
  17622932820462778927, 3192421721340291099, 16124839646698205129, 11445199004859409225, 10304998909100713902,
  9962048270362862043, 13428546811916012785, 13765764009694949241, 15003845223508939973, 13224059515188286160,
  7664587417491999280, 17262079809194773520, 11756316302713838958, 14341335985214876140, 14267092841182138728,
  4672902529451387521, 13517018877758402120, 1568605474300434685, 9132692739037808736, 1067330377231330106,
  6234823338025250317, 5513535159769997480, 12150151934815976281, 1857768573899923229, 10651691563555162436,
  11140845496440703420, 14428143160417243312, 5464682203804131280, 4913993492957390835, 7057555747515730451,
  13924272743232224819, 4668369156558985260, 4477286195984166923, 7381389311118714077, 11070464921330731431,
  2001470970870984953, 12179666544454102978, 2308580872094892292, 14713792609505639308, 6769597213437287237,
  7233920586946777352, 2580562194308495651, 13283554131874324311, 6315713421482690203, 4098234801449939167,
  18236931230976002840, 10552274308095033076, 15892684853901672991, 1903444257061664607, 9182030862387586589,
  15337110284973126344, 6389430618268296347, 2129494461042385878, 6329472897410366361, 18355244614894407982,
  1221682685580272771, 9196639794739742553, 3102002862952173801, 16222312685466026989, 346567882230063653,
  13008752365975262872, 15736855461888668268, 15526077317388296747, 4930390194078211174, 11693288808808757947,
  8186033625824413668, 2517429022687892375, 17855692876941699002, 14184086465597976118, 15286863435430510673,
  12528961358910193071, 15765461308995603174, 16127825220477741648, 11635573996980882156, 3266419467001559315,
  17930987931391373017, 14577432050119639991, 1976731212099439882, 9603811458907570048, 3225246888378129325,
  8664993276476894618]

/-- `POW_TABLE_1[5]`, `gf2_192.rs:425`. -/
def powTable1_5 : List Nat := [
  0, 6888918647020560317, 6616704076946383887, 72307319579008765, 5019028484594594082, 15257256491140666738,
  2134511505384836107, 9781893186231020843, 4653976163382426028, 10893791016859735589, 6722895949646321714,
  11490203598493342465, 12588681356709682547, 12182153230156917542, 5887677734908074113, 2474629020427595354,
  10479462848556664514, 185220160216387872, 12686120078895706276, 15911024828695435704, 5111362823887419820,
  8505227612259241925, 9012934128161153438, 14991899189022493312, 2688606500979393393, 257493182509576689,
  3669454563593192799, 12528083866004610706, 989805058886100772, 10496898459155112699, 9795811120451256811,
  3719293863967856435, 5524498832277079871, 10241846024394503540, 7429706311125713887, 15054393982173164612,
  8803967679232678927, 11737171025780876608, 3993787092655773756, 14577596701320436445, 13039113112497007843,
  14811047102517179079, 14323488587137971505, 7821261793194743720, 10187042318282357153, 8778804536940933206,
  16056388510577911625, 12424475279365403099, 10742453087132191103, 13035689415979385687, 6563199634835578546,
  12266758783363538486, 16667033668583238958, 3860946749005281310, 2894361089265489575, 3315776251307050326,
  6320628998837644363, 13726613622453671824, 11049885241248972235, 4947792566457792928, 17675146124652469339,
  12162869952772690708, 7751617974029105049, 15274962141022432624, 13460160249081161747, 7554891199116256466,
  440872917012743287, 8832529013462318719, 6930378999847853276, 12274267760136988365, 6597889588190964693,
  14523729651473188919, 4997044127822541429, 11338937135902076472, 12156778490333604900, 15402174025112928807,
  17863782640948654455, 12485355570853592944, 11251799585523581498, 15638542911614840956, 2825505208148432617,
  11117955402286108374, 17465466903795496881, 5488327868523545998, 8289151770336172410, 4907413581236102050,
  12759373267931238621, 59381471987291070, 12002291511743080476, 8634477550854188789, 6207648744164223412,
  18344780773520180223, 7848638498504197321, 3498348962566120926, 12866829678302117791, 15901604890425880697,
  5130648017855629422, 563110260262788563, 2135475898455702366, 7684314690515735551, 11444417370978108386,
  3880977581557303704, 9809401219501574565, 8496120004406519552, 8560768772188447329, 2594230810807943255,
  4337654442994597095, 13860855426111801977, 10553888435044715837, 1565051773613738620, 16753225220066683811,
  5567975317132003788, 2962765293309317965, 14533127089503308067, 12887935242778964510, 10396668942263661144,
  9989305854726713864, 16060531740888275840, 6035074888470767028, 10596965560278025801, 3298946049141257047,
  7780989528292148686, 7259205837724911376, 4482330118862142166, 11909243110977076869, 15424037317631629710,
  7148848233164372316, 5077131755656950340, 7912726786975152439, 4848423276587831069, 14616434783588980974,
  4508033649949774926, 6846300513888811901, 6242882741110337747, 4170945278743029343, 10319527271904064647,
  10594263889817943842, 3990619336327845960, 12463229046034352153, 13271568349214634516, 17164894940585772713,
  6285841989812053065, 12379215615468462168, 7576477052240298304, 18410579708878474632, 18385749899520101542,
  9917210722838936377, 13629595749668453863, 13805816454016402482, 1872208642623965689, 5240297214938900007,
  1572132602803588846, 17796047962238429210, 11763587950276095779, 4545617032206292763, 12951684135222206836,
  6556517553578965713, 15935347299299038503, 16269871687534184037, 10303140447440849203, 10227168046981684507,
  5228455090572155705, 10398211253730273266, 15504322619527260013, 10707291973395007835, 5339545143011211455,
  431828781909893989, 6504224558731934448, 1325434730767337764, 9044277964768096581, 16434544161094301162,
  2239476923138147060, 5446470907191488828, 9458135101353510029, 318526050097438911, 4497994325831131702,
  2421970446587647365, 8944762431294272394, 16871099420240635900, 10965935714016017239, 10060302035459700623,
  13620048847506687472, 16406219872500487362, 1185655104167734601, 9208155472300323928, 5181480307949496453,
  7213432351073135570, 3512466954668360697, 13807949987438344388, 13406002851215295841, 2246055029297786978,
  16039295054289423353]

/-- `POW_TABLE_1[6]`, `gf2_192.rs:426`. -/
def powTable1_6 : List Nat := [
  0, 4331831946986922092, 5039137575310318944, 6572365103720100214, 15073817405786067232, 17641784620751991578,
  5319341503317224386, 6670307960034794050, 9122331677505366914, 8132210050240438928, 1856212684185378577,
  16028731744661168203, 2221935190602818642, 17759803447093706499, 1911412200771311721, 10373313315808930510,
  3214975954359082910, 14056397553817978215, 14945294509892423383, 2931745286610574473, 6196837566508069630,
  10461558230841282356, 18203980673355032574, 13683771738749028963, 17318034216716615702, 15313533809811796176,
  12145865219182258430, 7341789762184517091, 17704197233028296026, 11277935524290331171, 13462693714904473262,
  5072732112695304142, 2078982868474422173, 12095116156480257634, 12557183209858422363, 12315128223766763808,
  6542639951406636963, 8480740463682186660, 183168288556720330, 18110084012193413501, 17036387135009639967,
  926150233093626212, 15564979575142922334, 17301256794342929435, 2351884447002867207, 12784617442689382846,
  15564541111638294794, 6804440515561204260, 10800931650501737005, 4621144061789925334, 16093310497063035559,
  17781911539517509955, 17892208972548867298, 16068977058036776765, 2162245627601598447, 7482066041309690120,
  8259346317988151315, 14599978346381951978, 1731326869372517225, 16466743409458438290, 800694689332165758,
  2515205999128895054, 16449311339636598197, 4672602758053323554, 6952202226827626829, 1161365306867490106,
  10062220111803633011, 17713627305924312057, 5682995397931390212, 15121502396577564684, 10852308427131381826,
  1216932035765251873, 7076597346109630370, 4335245905675328559, 9939119244883290319, 12308874544919499925,
  15455986804628049756, 8207981314338567695, 18234934385445111809, 14506738837900881520, 1182929724269347747,
  4877641380646887291, 10798735125679059671, 6628446266965226465, 15475891910155349446, 13776579736816077143,
  18293113194679705415, 15136930064190986270, 1753932513542224524, 13194952218288829429, 11686780975101772078,
  9574660180362955673, 15326588280385010901, 5978602003840494141, 7512687430188190283, 562835420304739569,
  4904579120205325277, 14763321681059543507, 7042500995660740987, 16474563240291165635, 6346437281268254654,
  16203558462798093392, 9026737040177775190, 4993647529943791743, 288019624394432352, 14093625425053212369,
  13025870674786419025, 1549704053713244983, 3614498467424513972, 9419358420680398532, 1629718615812967730,
  15687106650827889000, 8432531436503595927, 611355542547437884, 15165562306530576160, 11793354998597359447,
  11678914835321943939, 18428366796528217552, 3726999606378779346, 8982897182547291075, 11175925668490679832,
  7385860370779663565, 8974928614734018492, 291006976587948877, 5300536609199764342, 12695319190933698315,
  4349796007363489739, 11477206960686948588, 6155372982161835515, 2778638126408133418, 13099200858797002446,
  9419437373613977067, 30249368683249826, 7438665593684814940, 2922690888626912628, 10265765661556123039,
  11208748491497271989, 416623024707852752, 11548713183969187174, 7422011222211524550, 17274807889173945136,
  11680688713093575883, 1731128074959168128, 13838948856353831027, 15233714093918012249, 13190791969050494424,
  16132329689969881013, 4396632171704966086, 3006711910774356251, 5778933548260329613, 4157127632653091975,
  7318697691457423286, 569409338780015498, 4153168956437659929, 16690144954431326309, 15132288136776867229,
  342118048129659290, 10876759342017214255, 7663926015038805676, 11376466600147295794, 289945662752184113,
  7974238619106446240, 738352690694983924, 831937267866542901, 10784512668830827137, 11457326847719013230,
  4271423021483837384, 13596594343514464848, 3731768127773306728, 7364897548779496026, 15689976189065354932,
  16692793980331263594, 7143078809577818863, 4597090775987743317, 7848087705354908100, 1905884943523277834,
  12293069303847053913, 7016308115898147045, 16546972262019539739, 7221196628836046154, 14247204839856677912,
  9673275224770648935, 3961256666769655818, 15039072754424596779, 3336711503507566638, 1628300123613068774,
  11502276711143501449, 5759866442005474216, 15766433223416747059, 9542100581083889787, 6625111154478727695,
  9690130862650011084]

/-- `POW_TABLE_2[0]`, `gf2_192.rs:431`. -/
def powTable2_0 : List Nat := [
  0, 0, 0, 0, 0, 0, 0, 0, 0, 0, 0, 0, 0, 0, 0, 0, 0, 0, 0, 0, 0, 0, 0, 0, 0, 0, 0, 0, 0, 0, 0, 0, 0, 0, 0, 0, 0,
  0, 0, 0, 0, 0, 0, 0, 0, 0, 0, 0, 0, 0, 0, 0, 0, 0, 0, 0, 0, 0, 0, 0, 0, 0, 0, 0, 1, 4, 16, 64, 256, 1024, 4096,
  16384, 65536, 262144, 1048576, 4194304, 16777216, 67108864, 268435456, 1073741824, 4294967296, 17179869184,
  68719476736, 274877906944, 1099511627776, 4398046511104, 17592186044416, 70368744177664, 281474976710656,
  1125899906842624, 4503599627370496, 18014398509481984, 72057594037927936, 288230376151711744,
  1152921504606846976, 4611686018427387904, 0, 0, 0, 0, 0, 0, 0, 0, 0, 0, 0, 0, 0, 0, 0, 0, 0, 0, 0, 0, 0, 0, 0,
  0, 0, 0, 0, 0, 0, 0, 0, 0, 0, 0, 0, 0, 0, 0, 0, 0, 0, 0, 0, 0, 0, 0, 0, 0, 0, 0, 0, 0, 0, 0, 0, 0, 0, 0, 0, 0,
  0, 2, 8, 33, 135, 540, 2160, 8640, 34560, 138240, 552960, 2211840, 8847360, 35389440, 141557760, 566231040,
  2264924160, 9059696640, 36238786560, 144955146240, 579820584960, 2319282339840, 9277129359360, 37108517437440,
  148434069749760, 593736278999040, 2374945115996160, 9499780463984640, 37999121855938560, 151996487423754240,
  607985949695016960, 2431943798780067840, 9727775195120271360, 2017612633061982208, 8070450532247928832,
  13835058055282163712]

/-- `POW_TABLE_2[1]`, `gf2_192.rs:432`. -/
def powTable2_1 : List Nat := [
  0, 0, 0, 0, 0, 0, 0, 0, 0, 0, 0, 0, 0, 0, 0, 0, 0, 0, 0, 0, 0, 0, 0, 0, 0, 0, 0, 0, 0, 0, 0, 0, 1, 16, 256,
  4096, 65536, 1048576, 16777216, 268435456, 4294967296, 68719476736, 1099511627776, 17592186044416,
  281474976710656, 4503599627370496, 72057594037927936, 1152921504606846976, 0, 0, 0, 0, 0, 0, 0, 0, 0, 0, 0, 0,
  0, 0, 0, 0, 0, 0, 0, 0, 0, 0, 0, 0, 0, 0, 0, 0, 0, 0, 0, 8, 135, 2160, 34560, 552960, 8847360, 141557760,
  2264924160, 36238786560, 579820584960, 9277129359360, 148434069749760, 2374945115996160, 37999121855938560,
  607985949695016960, 9727775195120271360, 8070450532247928832, 0, 0, 0, 0, 0, 0, 0, 0, 0, 0, 0, 0, 0, 0, 0, 0,
  0, 0, 0, 0, 0, 0, 0, 0, 0, 0, 0, 0, 0, 4, 64, 1025, 16405, 262480, 4199680, 67194880, 1075118080, 17201889280,
  275230228480, 4403683655680, 70458938490880, 1127343015854080, 18037488253665280, 288599812058644480,
  4617596992938311680, 94575592174780416, 1513209474796486656, 5764607523034234880, 0, 0, 0, 0, 0, 0, 0, 0, 0, 0,
  0, 0, 0, 0, 0, 0, 0, 0, 0, 0, 0, 0, 0, 0, 0, 0, 0, 2, 33, 540, 8650, 138414, 2214635, 35434160, 566946560,
  9071144960, 145138319360, 2322213109760, 37155409756160, 594486556098560, 9511784897576960, 152188558361231360,
  2435016933779701760, 2066782793056124928, 14621780615188447232, 12587560958500536320, 16933534598913064960,
  12682136550675316736]

/-- `POW_TABLE_2[2]`, `gf2_192.rs:433`. -/
def powTable2_2 : List Nat := [
  0, 0, 0, 0, 0, 0, 0, 0, 1, 65536, 4294967296, 281474976710656, 0, 0, 0, 0, 0, 0, 0, 0, 135, 8847360,
  579820584960, 37999121855938560, 0, 0, 0, 0, 0, 0, 0, 0, 16405, 1075118080, 70458938490880,
  4617596992938311680, 0, 0, 0, 0, 0, 0, 0, 33, 2214635, 145138319360, 9511784897576960, 14621780615188447232, 0,
  0, 0, 0, 0, 0, 0, 4096, 268435729, 17592203935744, 1152922677132918784, 76842668642009088, 0, 0, 0, 0, 0, 0, 8,
  552960, 36238823415, 2374947531325440, 8070608823267622912, 10373760266671226880, 0, 0, 0, 0, 0, 0, 1025,
  67194948, 4403688133701, 288600105530228736, 5783840476780036096, 6072259672578981888, 0, 0, 0, 0, 0, 2,
  138414, 9071137783, 594486085783387, 2066751970480947200, 10662148263827734528, 10329850170304364544, 0, 0, 0,
  0, 0, 256, 16777216, 1099511627777, 72057594037993729, 4311810048, 282578783305728, 72339069014638592, 0, 0, 0,
  0, 0, 34560, 2264924160, 148434069749895, 9727775195129153415, 582094356480, 38148135746273280,
  9765774316976209920, 0, 0, 0, 0, 64, 4199680, 275230228480, 18037488253681749, 1513209475875820821,
  70735243837440, 4635704940130467840, 6130806467734798336, 0, 0, 0, 0, 8650, 566946560, 37155409756193,
  2435016933781924608, 16933534744589640171, 9547060033028096, 16933571892114096128, 2444047222778626048, 0, 0,
  0, 16, 1048577, 68719546624, 4503604207554576, 300166943871248, 1224996759836561425, 1157443864920915968,
  1229500363472633856, 1157706579210928128, 0, 0, 0, 2160, 141557903, 9277138794248, 607986568019867768,
  40522537422618488, 17800609988259379447, 8680969174647242752, 18408596479129157632, 8716435603798884352, 0, 0,
  4, 262480, 17201906772, 1127344162226437, 94650720833590549, 4923631783780892757, 4685244537110860101,
  6130877201840930816, 4635630379498209280, 1244400872037810176, 0, 0, 540, 35434131, 2322211272589,
  152188437960410544, 12579670370307547594, 17837990321867909923, 5021550739930207323, 2435017087666290688,
  16943619710405050368, 15301824158921392128]

/-- `POW_TABLE_2[3]`, `gf2_192.rs:434`. -/
def powTable2_3 : List Nat := [
  0, 0, 16405, 0, 0, 4403688133701, 0, 0, 1513209475875820821, 0, 141557903, 4685244537110860101, 0,
  37999121855938560, 70460013625365, 4096, 10373760266671226888, 6072259672646177861, 1099511627777,
  9765774319241168640, 6148844231222908181, 300166943871248, 8108459549707964415, 6072264093493673942, 0, 135,
  9441497757794325, 0, 36238822398, 14101860183810790469, 0, 9727775472456533895, 13714996875576562965, 1048577,
  18313954556570326293, 16894005005195219269, 281474985492480, 37999701685387285, 10006940008781791284,
  79200023969402880, 18446739636399796224, 5541920255199135408, 72340746325590273, 10538446496206066375,
  12336637760087147541, 8676465578921629935, 18120559326512876970, 14968885683715511129, 1, 2214508, 16405,
  268435729, 594453068185772, 4403688133701, 72057594037993793, 7782220301781673580, 1513209475875828959,
  1224996777003865156, 12878141755977608227, 4685246687521203912, 4617315522256633857, 46947281589357164,
  14621851075202592820, 4995636651659171088, 8116893894401741024, 15789205786681269145, 6130806742969226560,
  27400700751995177, 6195590254004767622, 1157782445580441636, 14664468870972138066, 15788523768787813662,
  575525634069, 1162363457633372907, 9441497759976190, 6917681753729944802, 12947929496169188178,
  14101267076516792240, 1551110792602277236, 5891520892378292651, 6144410812500239428, 634601418098493862,
  1774375360755843061, 132652009187043017, 4653133841193683532, 15851053870457592441, 72110664981553453,
  17216406243992264360, 12257834261427516078, 6456071231484419289, 16125785714506107737, 1835508870757419369,
  2040370669282281878, 6661217468141030217, 10023103684337986213, 9947338812784143245, 268435728, 16405, 16405,
  72057594306428944, 4403688133701, 4403688142223, 1152939165798699280, 1513209475875820821, 1513211798084813650,
  1224996764271055007, 4685244537241932234, 10083092315901454024, 1190939387166195984, 38069581936595025,
  5021584044531862713, 11454360367733477400, 15848753128414397532, 18083395934200889859, 10846375519545564769,
  10864442919030739473, 894948077087235353, 6955255921298015887, 6959836035952832632, 3211452494295328458,
  6917685570877522327, 9441497757794450, 10016896989796619, 7027313512938572782, 14101860148645781499,
  2927870116789082016, 8786239407365985943, 4131336578943587486, 13719795492496688921, 127865309502915844,
  6074982671291646492, 14671477005752992360, 18367544013769748741, 9702734909079245924, 4615764723498800113,
  9728061649122067095, 12288455641364993642, 13185105731530876303, 9387071311206306132, 5519878846588365914,
  14010279986005685672, 1518927025456563280, 1468085383922929905, 2639105496201891805, 270650237, 4403690315305,
  9728369648446016708, 72652047106048429, 1513803926786430456, 11099790844898387214, 9007217061455705778,
  3243811299122139894, 6753230224894884636, 12844083305151916249, 17563224633060974575, 18330566843104596100,
  16123690816068266147, 9964436611028859725, 12896869195888682057, 958020971772365464, 13455199804345191272,
  6363309982556444943, 7331190440433981494, 5015726139678737532, 16403355959323137838, 5482647037605624617,
  1206745860518513047, 2086309373276999127, 8079745281175912599, 15173278564817787042, 315336160138416834,
  3834475922849262099, 38021128702995733, 3474027448873074912, 14087968313231827853, 12828087034876349430,
  16901089733408961070, 15815516221378332280, 9669918554050873981, 16118920411344076334, 5194557473419685442,
  14354217774931614439, 17530431228415727763, 16083568594786997490, 13468550389415653894, 12126303244211894136,
  15776038907505558666, 8762236708630736962, 12847615596528684063, 5323899568776667617, 12882614509606550790,
  15064003491792152264]

/-- `POW_TABLE_2[4]`, `gf2_192.rs:435`. -/
def powTable2_4 : List Nat := [
  0, 2716622788963031847, 40846672993527025, 1513209509967159019, 4621053680045158388, 15542747900357316047,
  10373760266671235522, 10871288656340187811, 8071326617522633051, 11187821675168167052, 8704697640774031947,
  11765174002158347395, 16884102747640893761, 17563211147003947332, 956268130454475388, 1215539162648774541,
  18020329939488573253, 5270683299884762747, 2330181287926686005, 6134726476362434106, 16120784928184892269,
  4329716150192313480, 10053862994741644094, 16644578237892368634, 10346355343758005748, 1867951006267200589,
  7919618595933494384, 9466474187930768485, 4071040395359672573, 18133881112136193661, 15504870846202598656,
  10331449199307811106, 5303426865933611246, 2958139355704065308, 1463694019776869652, 9470669361747187691,
  5268644657139266566, 6964861625476310538, 16929135950036265103, 15530897388431992906, 5550751346972347727,
  2112780311210561748, 16618736923653486457, 6384500303152980510, 17540354475727603721, 4410709334475405688,
  11963257673463179914, 10299488556005112835, 12325805181056027819, 3199011783477797964, 11685018030256928606,
  11399726603128576704, 1462717182584096488, 11423475868034236501, 15457440367287265508, 3180460850976781138,
  18148328014877933115, 11179907649760630411, 6663350365655515731, 10087680840708217044, 9056022989288353575,
  7798619345308693609, 18402127226093981655, 3192155203687896874, 1239389723220221729, 13460495673602793798,
  4108171716624422170, 14273010939272199458, 10321391652293063447, 17261369999402305955, 15480070972164940806,
  2704683786991607858, 1515177657563554330, 5601341054180475457, 2983614494542029933, 3582348994995344418,
  11219362076234460402, 375800204207924206, 2993383011336056468, 10257742077630261579, 682068580983257903,
  948844863510518846, 13419499889172595015, 1827155836971693192, 16576286392552024026, 1442861833621761616,
  10945190484258183270, 7570278778816122784, 2996106664946480472, 9664752491969907864, 16654758751765395711,
  17579061937792633351, 15166240258122682076, 323928290362912952, 12647166777953955039, 7265376777009662712,
  12546601870535742699, 16929316128986115917, 8119832848073844820, 14910543494691738050, 14648864020913522550,
  2953127755774818207, 7848593138406357335, 14885276999697514312, 11109568588447665147, 5807093610353856481,
  4150266656318619307, 5586315349794142210, 3173004702088493577, 14405424511665729526, 3864667468337058586,
  3273021938862095623, 1830503478934844635, 3749676212788847170, 3555683139611306856, 2307286949526856026,
  11523268811124510905, 17744947657238613224, 16587973331058785199, 5567697607330176830, 10831350793468875015,
  8367577308384162142, 1289903960876064367, 2964316419676655924, 103719735714153803, 115707662404946645,
  7038009716978659739, 6993618381930301556, 14033670390220468066, 13437712050062495432, 8984906013653963103,
  4426963583202880421, 12268675706016111894, 3477129417051532148, 12356071586663641250, 12311502192806610098,
  17234403442094442959, 14631618707844442388, 9375066738457427811, 17286376748192508190, 2955609817225945308,
  17443110023511950068, 5820534109579904411, 16020476033407771543, 10300592539836098603, 606046764860835901,
  6365109532573370147, 12297233549348738435, 8739343454238347465, 15473857200366841171, 10368430582603716276,
  9992917312569333674, 2610148900125924178, 4094047797743140623, 1798485114169935380, 4998884408623716905,
  8950537777569088369, 1259580490436590913, 18131703915318399300, 4404501065226543846, 8146418735010981422,
  15239190326009688073, 8675392909711600921, 2405040524590938945, 3011427288135051459, 10941717088177178254,
  17729497741762078723, 17197580380223611622, 13149798315809231482, 4406943265523691209, 11183926809002090185,
  4641142375242104030, 974365924473300426, 5883429614278840526, 1752533021582360374, 4682777309199078800,
  3204063093503561410, 18083588341374643983, 16099908340540269089, 10309076645270411556, 13239770258203562901,
  11471834965793662116, 8764043288183918255, 14354705702001376407, 3554060350791641111, 8798581772638267674,
  683285472572572424, 7214985925390295205, 16289104939895845950, 16998494936503506385, 3845284593116750432,
  17955489798515432697]

/-- `POW_TABLE_2[5]`, `gf2_192.rs:436`. -/
def powTable2_5 : List Nat := [
  0, 9378857179592168585, 9681112519259637823, 18094783933339387515, 14636915182273684236, 709347176573105019,
  6367995667762707277, 16140163432709350476, 15152445801643941763, 4371465194278568200, 2607306921379681548,
  18029420954852533495, 10564821357471003993, 1742624878807396150, 6417633233153038438, 7245011226171800446,
  8165326897970180555, 15203621692776424451, 11732703781616239510, 5299517670423801760, 1162621650998540887,
  15801864367669687231, 5228558976169295831, 14055671807449482612, 5007015542307306646, 4682900706152011413,
  16322842932530225878, 16883624832441710168, 10544759957219247547, 3479726911851668567, 2328631765004444895,
  4163098372279135427, 17284523805048486203, 7829988552306176969, 3774955113097750561, 15522648399073308558,
  14642738554803896623, 4738269630527809961, 5850935874683467236, 8655960374699796185, 9387554493055368195,
  4147746414725146890, 24509238664879977, 11146620987590766081, 4751556328478914134, 1176138900156266839,
  16325318953204146540, 7247247000762229134, 9000592214487314811, 17556869465206786118, 7236795550799772071,
  4974622482278556577, 18026183239097921163, 14678097339468130572, 11512638321934712415, 2969065130293732380,
  1157896836976407312, 16887452203600045798, 15733681092475080294, 10915721503943963326, 885491871452046438,
  8154994685434777085, 12263226075028752483, 17440183109449927364, 15152159539724300384, 8399396859432285260,
  4941554285858435526, 12289898202123288528, 15162048279112426694, 1532126679216399071, 8710324980140137084,
  12617086201023241828, 9677628294646013544, 6935866645975431778, 3597238061932133376, 2900308539208720779,
  16398038892908458052, 7055281952541030950, 11444523316223211292, 964568490678066690, 9679426310569185586,
  11395387052294207825, 13504019652674141828, 14966176541886888550, 97030438992350687, 6148848201715609829,
  8190673576143502363, 17863870605758113783, 2647318604324937637, 11704782831299872117, 15440767328181073745,
  6997691635910859134, 16892350644508073353, 5312146010243409080, 8436439012567294277, 11816020864498974107,
  9772772578732446424, 3562527997978101964, 3222754741725930251, 12932382891449907516, 8086871624387515496,
  16978816299025186141, 8787210120862734018, 3868688879557973489, 6456800047903216186, 2070752891678043017,
  15505152290522837965, 10263300782911538638, 8647945886161088410, 16604925010329796474, 7860120982846312859,
  9952796271873778935, 9673969103016505643, 13205528761310586719, 15835160678191930030, 12344643727802187028,
  1496816916737236359, 11408805965835540585, 1848097601417926664, 15165902006002232273, 9059361377927179923,
  3282174138875773780, 13530262409293324998, 3886169231649272478, 17284383576339273017, 637220995047853939,
  2885978966316747573, 6728781912350490111, 2328479630147269651, 5554304721491051724, 12056496239149546115,
  678119673988273692, 8651416760092589714, 3253782092936323383, 17273762694690458828, 15764809839261705510,
  2685869215896638688, 3821621354052583845, 15762360985863845562, 8084097633656028849, 10083205364151688811,
  13487660694701852610, 17810320078864329760, 12272406888457915115, 10265119851287472378, 5775773648593308303,
  2958061024555050145, 12543773155005047555, 16135722851789121519, 17282772541249432600, 7608815371737216021,
  16295726614375967829, 13456201423809992121, 10932859550276810613, 4393693670759726766, 12321770037697039081,
  4359543309307998296, 11408913165254043725, 9041027053538546397, 13480892822863871306, 15735782031220768093,
  10086392625746728234, 8718758072633673592, 6091137861253238579, 3170648231776465081, 7255519673286422939,
  11393082848807565483, 17531403189742091364, 58498294164417086, 14962336272271169192, 12662644368590264981,
  4125777477825819372, 12299817784877968306, 15173739067136142261, 3494948349508696583, 13439963503600727964,
  1464644271341482461, 8662100360049866867, 10233025377681825755, 6111700097284965138, 8732551933992222890,
  15821277554189782995, 7604239518435423389, 10618027725584580462, 11211453183042854156, 5948056974595294574,
  1526856277675902747, 6112243656016507212, 12950042919140855464, 14935995697628117343, 10277247281288235362,
  9567264293500160731]

/-- `POW_TABLE_2[6]`, `gf2_192.rs:437`. -/
def powTable2_6 : List Nat := [
  0, 3140177619151565, 1460417631189212726, 2353554947493303907, 10244630853943407175, 12001133199001883343,
  608805251577783707, 5576331011745724676, 13830098119460441208, 10296688008985069802, 14071700188895783527,
  61489915732671441, 2417003783109232201, 12649566845371235624, 2030419241542275643, 3535467551177747619,
  8160953148558434627, 3783933582983994877, 18051185918574713379, 9409251105910044570, 12863200699155790201,
  14679956295487214367, 83690989555392614, 586532773118624438, 6753062925187026745, 9498478794573242051,
  12036637108233374280, 4682508874368457020, 18151235178906449846, 8755364544425811426, 11499878381823152370,
  13448044747577198526, 13533077129194739506, 6656002279105587104, 14344413177568819053, 4073773542208959172,
  1868016903708504679, 5519576265667760424, 14082015219455904418, 14393528025185103839, 6663500710558038858,
  6972529717731021777, 15239173031410782039, 14558344852534709254, 420006135991670627, 8470075279405824658,
  7027685758317034910, 2040544246752732537, 14646063158917540014, 2040759759708548109, 9431495970413236113,
  652011287933867814, 10664004941382983787, 16128942151249258550, 2611886844620986012, 9462112427607223062,
  891896526125902634, 18078792435962102530, 14949630372849187793, 5236614907167581294, 4114633954038032258,
  10934246247260009447, 3242179150310062402, 5331743182358224881, 7796816641120626796, 16022351396379340835,
  10302227759393509249, 675811259852555579, 13812125499869528238, 4925946102011935067, 13470514881556966832,
  15140165408665807896, 12068755043142372569, 3293903018441646805, 618512784046332063, 53396408973512940,
  17473972583671982101, 11997135034544535775, 13733621582939348396, 5807317894024892376, 15775786403925413044,
  3253385083202136062, 4051471174117632380, 11975437622208768216, 6958488026378472944, 13206431124989663281,
  9716621962200400760, 18055213106266812094, 5304728157073167586, 9719179066734045414, 16394988819945883839,
  14884567407332231903, 7612155015414030601, 1518046426766570808, 18138783909755106230, 13834117372858796491,
  10810438860951851673, 697133298319656099, 13816094842241403422, 5297521963269776703, 9396459975650191912,
  9441573074909218224, 2690681881609407239, 12101171869662946384, 5811140775354848418, 10862885368044723218,
  883333908996047580, 15423313793615805070, 1253866782730544252, 15794202732415819376, 15174851552741862597,
  14694738629814488596, 4447917552968482513, 14622507352465704798, 5600139313482945383, 17446964937058162388,
  9976847031414782189, 7796143214715526711, 406420894930862997, 15484613549762499284, 17168461242903211924,
  9999294030957588325, 634287000685320862, 13458118885075183543, 7264114668740343559, 604237143730786090,
  1470443674382315935, 7627286917302141493, 6193255306513896806, 18357748370459512533, 5251413380424095294,
  17550224244332928167, 17190903510347502093, 12071303245192044173, 2331875313404929916, 8954805250915502220,
  7208472503953793396, 13525393989389442096, 8682056056407108854, 17857757546419789237, 9058761110104874970,
  5619968217006612529, 3556136729690226244, 2636161296644079035, 9484813418781015133, 12591362541301386732,
  8378124878485911957, 16084317805749586499, 2730324786590578227, 10618231520882425829, 6135910401929572633,
  7539770217393522009, 2966065950377957666, 16350030600465154767, 10842070474714886229, 11226976059310465503,
  2704497122794833704, 15479515675410592250, 11683842429245260121, 16893113429949557692, 1564603397139288648,
  6116811891197961186, 3562368697804772802, 15247348243873275256, 17281435884843832976, 16018950585457320406,
  9686010031395492775, 10589471567548842496, 3203259669013418168, 17500717286567118687, 4945843407304527756,
  14669490048590640199, 9949932461944703923, 6997957085954944184, 6393220067418700989, 1296680119038768392,
  5852192073241482937, 14374561926905655440, 11480447069611313933, 12959101505236316279, 16927499514234856860,
  3811374754853013692, 15841418772282661613, 15560935297338226874, 6661350203815069651, 1327657210385814471,
  14620820485507461854, 10530756856311844854, 6735184013381996252, 1519213888176055875, 8382345159179417209,
  1911513965813618260]

/-- `POW_TABLE_0`, `gf2_192.rs:408-438`. -/
def powTable0 (k : Nat) : List Nat :=
  match k with
  | 0 => powTable0_0
  | 1 => powTable0_1
  | 2 => powTable0_2
  | 3 => powTable0_3
  | 4 => powTable0_4
  | 5 => powTable0_5
  | 6 => powTable0_6
  | _ => []

/-- `POW_TABLE_1`, `gf2_192.rs:408-438`. -/
def powTable1 (k : Nat) : List Nat :=
  match k with
  | 0 => powTable1_0
  | 1 => powTable1_1
  | 2 => powTable1_2
  | 3 => powTable1_3
  | 4 => powTable1_4
  | 5 => powTable1_5
  | 6 => powTable1_6
  | _ => []

/-- `POW_TABLE_2`, `gf2_192.rs:408-438`. -/
def powTable2 (k : Nat) : List Nat :=
  match k with
  | 0 => powTable2_0
  | 1 => powTable2_1
  | 2 => powTable2_2
  | 3 => powTable2_3
  | 4 => powTable2_4
  | 5 => powTable2_5
  | 6 => powTable2_6
  | _ => []

end Verif.Gf

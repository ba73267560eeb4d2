import Mathlib.Data.Int.Notation
/-!
# The coefficient tables of src/debye1/debye1_generated.c

Lines 8-846: one list of literals per function `debye1_g_kk`, constant term first.  The decimal
literal `m * 10^-e` is written `(m, e)`.
-/
namespace Ufunclab.Debye1

/-- `debye1_0_00` ... `debye1_0_49`: intervals of width 0.2 from 0, not scaled. -/
def table0 : List (List (Int × Nat)) := [
  [(1, 0), (-25000000000000455, 17), (2777777777825633, 17), (-19146896558308173, 27), (-27777740152439733, 20), (-4015930646647408, 24), (4747866616769995, 21), (-7322099385397592, 23)],
  [(10000000000044624, 16), (-2500000001264455, 16), (2777777933249547, 17), (-10836866661040806, 24), (-27773092204273146, 20), (-1287797366545217, 22), (4944128826550291, 21), (-21427787129026005, 23)],
  [(10000000002721443, 16), (-25000000446930665, 17), (27777809840502914, 18), (-13131873751626143, 23), (-277441598908018, 18), (-5518200837931206, 22), (5293225341573673, 21), (-33977670638965374, 23)],
  [(1000000003397381, 15), (-250000039731041, 15), (27777981386342514, 18), (-5979627573875481, 22), (-27667478885294773, 20), (-13131947315365196, 22), (5716252331245834, 21), (-44124375447235116, 23)],
  [(10000000187056133, 16), (-25000017171324984, 17), (2777847091930801, 17), (-1610652946384813, 21), (-27541278911613886, 20), (-22606385853908995, 22), (61130286291104024, 22), (-512747404336955, 21)],
  [(10000000555905153, 16), (-2500004296319022, 16), (2777924581809235, 17), (-29073705470006424, 22), (-27410749538574994, 20), (-3051005255704378, 21), (6379574861505638, 21), (-5513681302264779, 22)],
  [(1000000066564088, 15), (-25000050161816567, 17), (27779446004316925, 18), (-3213964688921964, 21), (-2738277430517075, 19), (-32032723692364377, 22), (64253953577148275, 22), (-5572533892707055, 22)],
  [(9999997829503866, 16), (-2499991110802123, 16), (27776521284286107, 18), (20700504273492286, 23), (-2762310781723513, 19), (-21891461715978395, 22), (61873990274084226, 22), (-5332895773234991, 22)],
  [(9999984027105614, 16), (-24999313433077866, 17), (27765419330178256, 18), (11674510606290065, 21), (-2833449128565599, 19), (46124246228126534, 23), (5638278622197054, 21), (-4844830600425694, 22)],
  [(9999941535180248, 16), (-2499767203838035, 16), (2773822522560933, 17), (3672404987588031, 20), (-29720018641255625, 20), (5063000309021171, 21), (478850278801314, 20), (-4171769357243956, 22)],
  [(9999838503276963, 16), (-2499408283816304, 16), (27684605885717393, 18), (8125373123264623, 20), (-3194029863398234, 19), (11709569640689635, 21), (36823974742123893, 22), (-3382361935208424, 22)],
  [(9999626558449428, 16), (-24987361853046133, 17), (27593216458440536, 18), (15032819769020752, 20), (-3507446887613374, 19), (20246701687481332, 21), (23898017706206535, 22), (-25431515137237236, 23)],
  [(9999242878230662, 16), (-24976198274459857, 17), (27453947229265016, 18), (24689542289804293, 20), (-39093779919203883, 20), (30288726315027736, 21), (9953119620529582, 22), (-1712861710757232, 22)],
  [(9998618681536636, 16), (-24959421575004834, 17), (27260625180038047, 18), (37070403814040107, 20), (-4385303642634895, 19), (4126984057013934, 20), (-4128388271015603, 22), (-9386796121960499, 23)],
  [(9997694761864988, 16), (-2493634955838299, 16), (2701362101768092, 17), (5176626212272705, 19), (-4910088853385915, 19), (5251755542254159, 20), (-175257527055856, 20), (-25454356307916208, 24)],
  [(9996442864542874, 16), (-2490715710440159, 16), (2672179662194816, 17), (679778715960909, 18), (-5450604258501769, 19), (6333357475778155, 20), (-29553394228945087, 22), (31883671393977146, 24)],
  [(9994889925668826, 16), (-24873192612205783, 17), (26403354953241878, 18), (8456888843557137, 19), (-5969378295981524, 19), (7306878953747088, 20), (-3970538153507256, 21), (7726637766777101, 23)],
  [(999314097599559, 15), (-24837174124249142, 17), (26085378484645663, 18), (10016764890108739, 19), (-6428612783601048, 19), (8118266054085103, 20), (-4767150440944926, 21), (11079276329830835, 23)],
  [(9991396214205968, 16), (-2480321770475945, 16), (2580209706893344, 17), (11329958935176042, 19), (-6793936590577637, 19), (872817517613787, 19), (-5332954962339458, 21), (13329249389779782, 23)],
  [(9989958438474273, 16), (-24776680710590523, 17), (25592148694107284, 18), (12252907673363411, 19), (-7037420595017556, 19), (9113645385639476, 20), (-56720447336651636, 22), (14607857491960227, 23)],
  [(998922849491122, 15), (-24763834401942572, 17), (25495243301351674, 18), (12659072111485935, 19), (-7139576505195825, 19), (9267826890781744, 20), (-5801340412493742, 21), (15072601625759855, 23)],
  [(9989688285448547, 16), (-24771406956528383, 17), (255486935708895, 16), (12449474424317127, 19), (-7090261892223534, 19), (9198209616445153, 20), (-5746741176871631, 21), (14889083212078823, 23)],
  [(9991872756765647, 16), (-24806054819070436, 17), (25784244242824144, 18), (1155971091656021, 18), (-6888578014644407, 19), (8923878945851538, 20), (-553941191115987, 20), (14217459763453783, 23)],
  [(9996333810112201, 16), (-2487382582763994, 16), (2622553627106121, 17), (9963139893946376, 19), (-6541957454280468, 19), (8472309616854979, 20), (-5212541998351394, 21), (1320331098943572, 22)],
  [(10003600006143478, 16), (-24979672707084924, 17), (2688641374101881, 17), (7670477297192613, 19), (-6064692556503889, 19), (7876127339538698, 20), (-47987566060149315, 22), (11972352114635006, 23)],
  [(1001413621857035, 15), (-25127063046048864, 17), (2777014837949133, 17), (47264119850360173, 20), (-5476161326110917, 19), (7170154258627644, 20), (-4328234964581398, 21), (10628227157406167, 23)],
  [(1002830707700589, 15), (-25317715243663547, 17), (28869540308324743, 18), (12040606838082826, 20), (-4798978434528651, 19), (6388935793683399, 20), (-38274993299982594, 22), (9252571602068758, 23)],
  [(10046347282487125, 16), (-2555147245177835, 16), (3016776730961408, 17), (-28018629665512834, 20), (-40572500814394023, 20), (5564840768566005, 20), (-33187824392640954, 22), (7906595965029986, 23)],
  [(10068340866706442, 16), (-25826310867246266, 17), (3163980275229645, 17), (-7182354079603058, 19), (-3275055475421922, 19), (4726743712224059, 20), (-2819854818828472, 21), (6633561301761789, 23)],
  [(10094210381427964, 16), (-2613846650765334, 16), (3325420245055159, 17), (-11821224262707293, 19), (-2475224157322164, 19), (3899240610844106, 20), (-23441887889716496, 22), (5461658373350389, 23)],
  [(10123715997690397, 16), (-264826565478139, 15), (34975066992582356, 18), (-16601513121092747, 19), (-16784331534267153, 20), (31023154641674274, 21), (-1901345866953584, 21), (4406939631374411, 23)],
  [(1015646366724361, 15), (-2685236734770042, 16), (3676401063461845, 17), (-21410883785412988, 19), (-9026136966916467, 20), (2351360473875675, 20), (-14974920332457489, 22), (347607338370563, 22)],
  [(10191920903924772, 16), (-27240180886636267, 17), (3858200284127457, 17), (-26145843848932276, 19), (-1626342953476561, 20), (16574523960178346, 21), (-11359660675021091, 22), (266878631809605, 22)],
  [(10229438390614147, 16), (-276381135797255, 15), (4039098724008413, 17), (-30714764526306995, 19), (5297859601333672, 20), (10277965318430129, 21), (-8178465468871167, 22), (19799331305571064, 24)],
  [(1026827548706252, 15), (-28037945466140585, 17), (4215522008260265, 17), (-35039768009840705, 19), (11659847725292672, 20), (4662638048133129, 21), (-5424811579993668, 22), (1401182603163794, 23)],
  [(10307627765180025, 16), (-28431522673328163, 17), (4384230296308448, 17), (-39057616835610747, 19), (17401345623747926, 20), (-26037814858722805, 23), (-30795678188942566, 23), (9223418654114905, 24)],
  [(10346654882892845, 16), (-28811021179971397, 17), (4542391079990798, 17), (-4271977388388524, 18), (22489359525656668, 20), (-4502008059824293, 21), (-11150017028384733, 23), (5323589112577534, 24)],
  [(10384507376887704, 16), (-29169164714541274, 17), (4687623542633538, 17), (-4599181333957059, 18), (26912648921494125, 20), (-8089939689578154, 21), (50192814612406944, 24), (22005162301421697, 25)],
  [(10420351265330141, 16), (-29499393809916696, 17), (481801779166667, 16), (-48852357772761965, 19), (3067803804154164, 19), (-11063946254928552, 21), (18069599903850153, 23), (-2538712552300231, 25)],
  [(10453389669139652, 16), (-29795986420537096, 17), (4932132986152138, 17), (-5129170022037516, 18), (3380679600154647, 19), (-13471860670300994, 21), (2836530850824181, 22), (-2140616482595759, 24)],
  [(10482880959090966, 16), (-3005413305265944, 16), (502897863165628, 16), (-5331024758245377, 18), (3633124583756177, 19), (-1536622492190443, 20), (3626309534935764, 22), (-35518153050890997, 25)],
  [(10508153199204757, 16), (-3026997110280445, 16), (51079832242033565, 18), (-54916896530538654, 19), (3829170464369405, 19), (-16801590428187587, 21), (4210173370698306, 22), (-4569704811160713, 24)],
  [(1052861487553935, 15), (-30440584140233024, 17), (5168954100091201, 17), (-5612742814138402, 18), (39733810224997504, 20), (-17832416007758028, 21), (46195440652770187, 23), (-5266471609897215, 24)],
  [(1054376207057392, 15), (-3056397232896197, 16), (5212031880993602, 17), (-5696298437148179, 18), (4070625377882701, 19), (-18511493698917163, 21), (4883005522915704, 22), (-570455116010072, 23)],
  [(10553182368241532, 16), (-3063900019308574, 16), (5237642367389489, 17), (-57448669281294764, 19), (41258912034467307, 20), (-18888825973702618, 21), (5026136191981553, 22), (-59372416290519775, 25)],
  [(10556555857570262, 16), (-3066532760932865, 16), (52464481828886946, 18), (-5761230104281861, 18), (4144135453892554, 19), (-19010877945251434, 21), (5071499020839117, 22), (-6009499921524107, 24)],
  [(10553653649702894, 16), (-3064332937178058, 16), (5239301945785066, 17), (-5748332726299482, 18), (41301690790930356, 20), (-18920132623300873, 21), (5038742379739513, 22), (-5958823633938217, 24)],
  [(10544334340345134, 16), (-30574008006478876, 17), (52172022665231285, 18), (-5709190581473059, 18), (408857161739226, 18), (-18654884314070963, 21), (49447747515914, 20), (-581615139014956, 23)],
  [(10528538843977904, 16), (-3045890378966261, 16), (5181253454047454, 17), (-5646814582589808, 18), (40236313764304744, 20), (-18249213553442336, 21), (4803984300636984, 22), (-5606736235917594, 24)],
  [(10506284003530537, 16), (-30300005196910845, 17), (51326294653102796, 18), (-5564149830720594, 18), (39393069944786466, 20), (-17733095572577793, 21), (4628481486152017, 22), (-535096354077775, 23)]]

/-- `debye1_1_00` ... `debye1_1_49`: intervals of width 0.2 from 10, divided by x. -/
def table1 : List (List (Int × Nat)) := [
  [(5483699179242139, 16), (6133918329985749, 16), (-15046475866907594, 17), (20916089830840316, 18), (-17746509620234503, 19), (9168659990102614, 20), (-26653681152137576, 22), (3357501903024199, 23)],
  [(603115439050068, 15), (5758186755412547, 16), (-13941275710691825, 17), (19109986436186166, 18), (-1597555896510493, 18), (8126744510856046, 20), (-2324805524970338, 21), (2880417160618759, 23)],
  [(6575631231505165, 16), (539168324091779, 15), (-128839455873541, 15), (17415332296332457, 18), (-14345837776701387, 19), (718635601260594, 19), (-20233388511870644, 22), (24662219904433938, 24)],
  [(7114110530739144, 16), (5036053831340583, 16), (-11877339245308542, 17), (15832411181647785, 18), (-1285228610434124, 18), (634079957347708, 19), (-1757387279998712, 21), (2107716470306037, 23)],
  [(7643871683237585, 16), (4692659578777524, 16), (-10923360054579251, 17), (14360024007540441, 18), (-1148875154875684, 18), (55831449665122115, 21), (-15234962173329515, 22), (1798267571276516, 23)],
  [(8162502111864228, 16), (4362591244351551, 16), (-10023070225559383, 17), (12995762206914148, 18), (-10248317320559767, 19), (4906422789104835, 20), (-13183875727535882, 22), (1531833276933947, 23)],
  [(8667899609176483, 16), (4046687138451243, 16), (-9176798686288053, 17), (11736254698896574, 18), (-9123577424957033, 19), (4303774743770672, 20), (-11389919016666922, 22), (13029613964801489, 24)],
  [(9158268607561575, 16), (3745553125544505, 16), (-838424519558176, 16), (10577387689734595, 18), (-8106863867688962, 19), (3768565473889821, 20), (-9824664814407214, 22), (11067708455877847, 24)],
  [(9632111400149318, 16), (3459583952411088, 16), (-7644578905190706, 17), (9514497547940363, 18), (-7190431054205669, 19), (3294462607872462, 20), (-8462026894197766, 22), (9389213587024654, 24)],
  [(1008821528421855, 15), (31889851885779147, 17), (-6956530126640283, 17), (8542537733616627, 18), (-6366602566047828, 19), (28754908818747258, 21), (-7278254298141181, 22), (7955761367027451, 24)],
  [(10525636529806335, 16), (2933795190986948, 16), (-6318474511830283, 17), (7656221277571839, 18), (-5627885323523611, 19), (2506065438851607, 20), (-6251868213135284, 22), (6733607709289178, 24)],
  [(10943681995250512, 16), (2693906618877942, 16), (-57285092275477, 15), (6850140641360664, 18), (-4967055844092518, 19), (21810086692762326, 21), (-5363559032186083, 22), (5693208692224583, 24)],
  [(11341889123609359, 16), (2469087127961576, 16), (-5184521000964175, 17), (6118866981881611, 18), (-4377222929455012, 19), (18955542837657004, 21), (-45960573785430183, 23), (4808800976912793, 24)],
  [(11720004963468973, 16), (22589989644304903, 17), (-4684246144718507, 17), (5457030925687548, 18), (-3851870697621424, 19), (16453416992876392, 21), (-39339897286719524, 23), (40579980511872805, 25)],
  [(1207796476783529, 15), (20632172590543557, 17), (-4225322845166253, 17), (4859386955836803, 18), (-33848854460624044, 20), (14264032818242254, 21), (-33637267029570316, 23), (342140982643313, 23)],
  [(12415870638094868, 16), (1881246889823816, 16), (-3805336124320844, 17), (4320863450456933, 18), (-2970569407622739, 19), (12351465185450421, 21), (-28732300188063447, 23), (28822900223166013, 25)],
  [(12733970598224944, 16), (17125378389533477, 17), (-34218559728433635, 18), (383660030558994, 17), (-2603644055357354, 19), (10683327882596956, 21), (-2451902443649471, 22), (24262135098808584, 25)],
  [(1303263840878069, 15), (15564990173364324, 17), (-30724692053677248, 18), (3401975940073581, 18), (-22792452342865698, 20), (923054055171958, 20), (-20904437766572324, 23), (204078416084017, 23)],
  [(13312354361460097, 16), (1412510567701314, 16), (-27548056168890434, 18), (3012625328786694, 18), (-1992912052177607, 19), (79670852189473, 19), (-17807148674209297, 23), (17153726219452665, 25)],
  [(13573687233639735, 16), (12799346877320628, 17), (-2466559025504081, 17), (26644505514906223, 19), (-17405711501148095, 20), (6869760371648363, 21), (-15156108948750078, 23), (14408826792846065, 25)],
  [(1381727752828377, 15), (1158125037296317, 16), (-220550377729905, 16), (2353625184466583, 18), (-15185176971913434, 20), (5917938556353749, 21), (-12889445356443003, 23), (12095444043925475, 25)],
  [(14043822077918524, 16), (10464348106296802, 17), (-19695072677209755, 18), (20765937061002614, 19), (-13233942111803016, 20), (5093331857327658, 21), (-10953392099570128, 23), (10147320083977945, 25)],
  [(14254060051628095, 16), (9442235657880138, 17), (-1756539003758572, 17), (18300669389552742, 19), (-11521680966790666, 20), (4379768314929206, 21), (-930132273756953, 22), (8508042149474606, 25)],
  [(14448760370832743, 16), (8508629107460594, 17), (-15646766955056627, 18), (16110144119964526, 19), (-100210861157738, 18), (37629813069210826, 22), (-7892878016245874, 23), (7129649532723826, 25)],
  [(14628710512448813, 16), (765741148970748, 16), (-13921098264579528, 18), (14166543988498386, 19), (-8707638190932085, 20), (32304131015470575, 22), (-669318455254913, 22), (5971422360197011, 25)],
  [(14794706656336545, 16), (6882669878258477, 17), (-1237141111010632, 17), (12444422719957876, 19), (-755937953257917, 19), (27710331607435474, 22), (-5672158392423051, 23), (4998831971707567, 25)],
  [(14947545117138292, 16), (61787241138532505, 18), (-10981862064889058, 18), (10920577087346283, 19), (-6556695178410944, 20), (23751712925465414, 22), (-4803886958748374, 23), (41826340478635856, 26)],
  [(1508801498811205, 15), (5540148156805277, 17), (-9737720067272273, 18), (9573911924056812, 19), (-5682103496229327, 20), (20343653955580667, 22), (-40660827244958637, 24), (34980871782370336, 26)],
  [(1521689191580661, 15), (4961784995401277, 17), (-862533805504429, 17), (8385301711730333, 19), (-4920058041528748, 20), (17412232814388226, 22), (-34396019952114295, 24), (2924281160797873, 25)],
  [(15334932918865287, 16), (4438755983906739, 17), (-7632115815967048, 18), (7337451660265409, 19), (-42567616338263955, 21), (14892978837653994, 22), (-29080223962967225, 24), (2443560906266948, 25)],
  [(15442872161380388, 16), (39664654199446335, 18), (-67464562319440235, 19), (6414760586837946, 19), (-3679993177521733, 20), (1272975046519703, 21), (-24572729811306405, 24), (20410333434099249, 26)],
  [(1554141759058635, 15), (35406011037744246, 18), (-59577167815574915, 19), (5603187379602569, 19), (-31789473858192895, 21), (10873730191348682, 22), (-20753112652941032, 24), (17041461538525626, 26)],
  [(15631248349855806, 16), (3157131553589728, 17), (-5256157881350615, 18), (4890122390253822, 19), (-27440872834348565, 21), (9282527560531456, 22), (-1751841919395326, 23), (14223284909222864, 26)],
  [(1571301288057362, 15), (28123004830863614, 18), (-4632889390262783, 18), (426426472919712, 18), (-2367009151074864, 20), (7919381179141976, 22), (-1478072295556506, 23), (11866850483418299, 26)],
  [(15787327630178611, 16), (25026190815503866, 18), (-407981637336852, 17), (371550612942772, 18), (-20403194195869334, 21), (6752450913265643, 22), (-1246500404065254, 23), (9897359396034605, 26)],
  [(15854776288192294, 16), (22248565735680976, 18), (-3589585019334459, 18), (32348217925299715, 20), (-17575229135271883, 21), (5754191787144988, 22), (-10507313854313791, 24), (825195830115328, 25)],
  [(15915909477151422, 16), (19760294758758568, 18), (-3155529429256989, 18), (28141684252451266, 20), (-1512921773551643, 20), (4900801542537271, 22), (-8853189312948185, 24), (6877866371349051, 26)],
  [(15971244830816458, 16), (1753389913322564, 17), (-2771619841010108, 18), (24463895111858443, 20), (-13015243467924964, 21), (4171734327165848, 22), (-7456284903440784, 24), (57307888422279505, 27)],
  [(16021267397666326, 16), (1554413304694157, 17), (-2432412721026257, 18), (21251277335036743, 20), (-11189633177401875, 21), (3549273522849677, 22), (-6277194498258187, 24), (477357475540026, 25)],
  [(16066430313367648, 16), (13767856823752813, 18), (-21330030426105874, 19), (18447443652739833, 20), (-9614223537145965, 21), (3018157278895288, 22), (-5282438081529721, 24), (3975082492258264, 26)],
  [(16107155691508575, 16), (12183908675020269, 18), (-18689789745190398, 19), (16002453702884895, 20), (-8255705543069058, 21), (25652508677992575, 23), (-44435914950775545, 25), (33092218676418784, 27)],
  [(161438356873227, 14), (10772976842994896, 18), (-16363791237352997, 19), (138721390364948, 18), (-7085040195463836, 21), (21792605165137955, 23), (-3736539979607767, 24), (275414604824363, 25)],
  [(16176833694328505, 16), (9517473635347294, 18), (-14316524103696261, 19), (12017488653860905, 20), (-60769388402075685, 22), (18504838792691134, 23), (-3140838678153698, 24), (22915704523512543, 27)],
  [(162064856387239, 14), (840141255232934, 17), (-12516205986905524, 19), (10404091380960412, 20), (-5209402013651527, 21), (15705928017833907, 23), (-2639165403173072, 24), (19061991466135345, 27)],
  [(1623310134096912, 15), (7410289447498458, 18), (-10934434649270915, 19), (9001631286350053, 20), (-44633110353398055, 22), (13324444783302403, 23), (-22168528642603637, 25), (15852421472475498, 27)],
  [(16256965918243167, 16), (65309684369208865, 19), (-9545865482120816, 19), (7783432318091934, 20), (-38220670059412966, 22), (11299175209232088, 23), (-18614892299667606, 25), (13180095165923348, 27)],
  [(16278341205358962, 16), (57515730774292464, 19), (-8327914045759332, 19), (6726048389096075, 20), (-32712722827848107, 22), (9577698434021743, 23), (-15625773745359634, 25), (10955702741755833, 27)],
  [(16297467175268736, 16), (5061383168955238, 18), (-7260482640735824, 19), (58088952410793186, 21), (-27984499134846293, 22), (8115156129629957, 23), (-1311244457800789, 24), (9104659616988793, 27)],
  [(16314563343489707, 16), (4450737396346285, 18), (-6325709768910974, 19), (50139205583889677, 21), (-2392796902948015, 21), (6873188388059504, 23), (-109999462251342, 23), (7564702553173903, 27)],
  [(16329830143641797, 16), (3910941909653605, 18), (-5507741247069401, 19), (4325308971865557, 20), (-204496756603913, 20), (5819014536835188, 23), (-922498585357916, 24), (62838734302510935, 28)]]

/-- `debye1_2_00` ... `debye1_2_09`: intervals of width 1 from 20, divided by x. -/
def table2 : List (List (Int × Nat)) := [
  [(16420950021144363, 16), (778607092565265, 18), (-892760387024545, 19), (5476458466302328, 21), (-18950350915872875, 23), (35063677011856636, 25), (-27096684837110138, 27)],
  [(16434819219276784, 16), (3812092023386173, 19), (-418247294787035, 19), (24542182751822515, 22), (-8121274972653009, 23), (14366488041250821, 25), (-10612078335233292, 27)],
  [(1644202176284202, 15), (18423031900021775, 20), (-193757550477154, 19), (10895530497668991, 22), (-3454336504723697, 23), (5853337966306438, 25), (-414079344318653, 26)],
  [(16445701286966945, 16), (8798389054116144, 20), (-8884777396939297, 21), (4796013749076357, 22), (-14593195291253129, 24), (23728075834230617, 26), (-16104369378817398, 28)],
  [(16447553225979215, 16), (4156421995077377, 20), (-4036229448816108, 21), (20947600112993085, 23), (-61270306254890725, 25), (9574972485229682, 26), (-6244978293763467, 28)],
  [(16448472744547107, 16), (1943967183951963, 20), (-181793615872945, 20), (9084342222430003, 23), (-2557977216322317, 24), (3847774361513831, 26), (-24153088603481286, 29)],
  [(16448923654254728, 16), (9008360149328038, 21), (-8123582859327808, 22), (39138753587060524, 24), (-10624142117799978, 25), (1540407739015122, 26), (-9319190416800944, 29)],
  [(16449142253914508, 16), (4138924772491181, 21), (-36036463781156934, 23), (16760793849504917, 24), (-439157835038243, 24), (6145439251346753, 27), (-35879120385984714, 30)],
  [(16449247117460775, 16), (18866001575891638, 22), (-15877904952686263, 23), (7137585764594504, 24), (-1807320519882695, 25), (24438907947132828, 28), (-13786228769244094, 30)],
  [(1644929693195443, 15), (8536125735234235, 22), (-6951958978841137, 23), (30237870984940592, 25), (-7407609421535307, 26), (969011108594995, 27), (-5287629351341301, 30)]]

/-- `debye1_3_00` ... `debye1_3_09`: intervals of width 1 from 30, divided by x. -/
def table3 : List (List (Int × Nat)) := [
  [(16449340582611929, 16), (8149557435467508, 25), (-2580957445696448, 26), (27274362944130036, 29)],
  [(16449340632584424, 16), (33027758213983026, 26), (-10139468184838064, 27), (10386044706743562, 29)],
  [(16449340653534499, 16), (13344732830424062, 26), (-39750354311916866, 28), (395044101125521, 28)],
  [(16449340662281147, 16), (5376579642242004, 26), (-1555301091233692, 27), (15009737611074147, 30)],
  [(16449340665918706, 16), (21604307869100213, 27), (-6074166467537658, 28), (56972072373063964, 31)],
  [(16449340667425978, 16), (8659227203150617, 27), (-23681230937446726, 29), (21604237384943992, 31)],
  [(1644934066804839, 15), (34624483637683647, 28), (-9217431007429498, 29), (818517800103136, 30)],
  [(16449340668304573, 16), (13813661795397542, 28), (-3582141227186338, 29), (30985018322139906, 32)],
  [(16449340668409695, 16), (549929738445464, 27), (-13900764939680966, 30), (11720068618954758, 32)],
  [(16449340668452705, 16), (21848721560268422, 29), (-5386802663781535, 30), (44297783573456305, 33)]]

end Ufunclab.Debye1

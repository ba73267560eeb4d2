import Mathlib.Data.Int.Notation
/-!
# Certificate data for debye1 (generated)

All numbers are scaled by `10^30`.  `expCert j`, `gCert j`: approximations of `exp(-c)` and of the
Taylor coefficients of `t/(exp t - 1)` in `10 (t - c)` at `c = (2 j + 1)/10`; `wCert j`: of the
integral from 0 to `j/5`.  None of it is trusted: `Proof/Debye1Check.lean` checks residuals.
-/
namespace Ufunclab.Debye1

def sCert : List Int := [1000000000000000000000000000000, -100000000000000000000000000000, 5000000000000000000000000000, -166666666666666666666666667, 4166666666666666666666667, -83333333333333333333333, 1388888888888888888889, -19841269841269841270, 248015873015873016, -2755731922398589, 27557319223986, -250521083854, 2087675699, -16059044, 114707]

def eCert : List Int := [1000000000000000000000000000000, 100000000000000000000000000000, 6666666666666666666666666667, 333333333333333333333333333, 13333333333333333333333333, 444444444444444444444444, 12698412698412698412698, 317460317460317460317, 7054673721340388007, 141093474426807760, 2565335898669232, 42755598311154, 657778435556, 9396834794]

def g0Cert : List Int := [1000000000000000000000000000000, -100000000000000000000000000000, 3333333333333333333333333333, 0, -2222222222222222222222222, 0, 2116402116402116402116, 0, -2116402116402116402, 0, 2137779915557693, 0, -2164404280806, 0]

/-- `(exp(-c), coefficients, integral to j/5)` for `j = 1, 2, ..., 199`. -/
def cells0 : List (Int × List Int × Int) := [
  (740818220681717866066873779318, [857488774053024780691720973508, -45014951929947345964177441653, 825873343769084796450249912, -1648921478199506041106031, -134471160280596740868906, 582865026117824250423, 31020607778926497857, -191749329678602303, -7442583941006116, 59555726266764, 1784450056639, -17743237229, -423698687], 190222133393754972907821599870),
  (606530659712633423603799534991, [770747041268399142065551722236, -41735496197958359829437494847, 812806439302912061409224206, -2696533232104871199396821, -126843035748501247603962, 935804986516752651054, 27548278788695386218, -300645394582011158, -6075927709088773, 90660009565056, 1295410405199, -26058125874, -260137057], 361774941049317594529807859878),
  (496585303791409514704800093398, [690503704544124308727705165823, -38520607803703146414799943206, 793664270548316059661346101, -3669616337351578417363211, -115922693085031238331569, 1238600525551727952325, 22723616455238975233, -383704972739276256, -4247026165366488, 110462500529926, 670526455632, -29956275480, -62546113], 515978531326016479156239082970),
  (406569659740599111883454239646, [616605975364507084466875660672, -35393592368751601012265365829, 768968704655635763366356675, -4544039964957005766239034, -102285011777666721948914, 1477377247544485182760, 16952118783725407937, -435266001304599032, -2177730140442925, 117259474860453, 12263239089, -29124003735, 127302061], 654132178549952657056107936059),
  (332871083698079553288846906431, [548856724870514293618784576080, -32375397902058077536475818871, 739371587409958535806158864, -5300759652362963151614221, -86617953969995907826173, 1643500353622171798966, 10692906932004708964, -453362392782812290, -102026327875688, 111393334522022, -580727995743, -24197174386, 273715103], 777504634112248276417557335955),
  (272531793034012603122333167563, [487019676669912793913169436213, -29484159112664633715571314171, 705621940590043464278823029, -5926505881699495441102793, -69667991410244162604790, 1733906287651044716220, 4406970923407992478, -439632047493376175, 1768916083892631, 94982194382414, -1032099637628, -16510940298, 355061184], 887325267061099149592687510951),
  (223130160148429828933280470764, [430825375183302366505172415815, -26734879432898961990809510429, 668530351844543498195373834, -6414030976062392215193908, -52185257620706423985935, 1750836030682275537260, -1489621747547510035, -398720797369998359, 3273889505445747, 71346750816631, -1299095825338, -7715223956, 366801880], 984776241071194007608614319523),
  (182683524052734650223900837759, [379977646394206414671776388921, -24139256719719121023282651730, 628933167418549139302326366, -6761934988795738982410623, -34873979755284034324919, 1701067893090839949660, -6661549837011255945, -337343326916410193, 4316967063220351, 44299011463776, -1375039638067, 620672397, 319509305], 1070985882710524657756065541243),
  (149568619222635052641012069104, [334160266126635781397113203041, -21705648577462960635104889631, 587658849860751570147701290, -6974130918254144335495426, -18352454744280303340396, 1594804725114642279809, -10875679864072071700, -263201779237746564, 4870070790078230, 17462978181021, -1283996301103, 7310013411, 233412028], 1147023339472044419667275355446),
  (122456428252981910218647376073, [293043567989803169644216781237, -19439164644237041881392551761, 545498411573675762847839157, -7059037067318829953344482, -3125136813103241864894, 1444394498770251596614, -14007514915589572855, -183954521866694679, 4964624984588673, -6241936933635, -1070389360775, 11700783640, 131756711], 1213894569219620144103547188733),
  (100258843722803733729940693798, [256290755350759732409194999714, -17341866662358723066977695667, 503181260880983505747874545, -7028597751673507887069222, 10432371349510367815636, 1263055434616396707555, -16034451392422388819, -106382242263779657, 4675928889662717, -24887868214988, -786981555150, 13675875534, 35074390], 1272539649252946779486116798343),
  (82084998623898795169528674467, [223563724584630033463364946131, -15413053033083894456938746603, 461357184216801230309033023, -6897233415811229917739921, 22076198280626957727622, 1063744612365871898474, -17019264123932023861, -35834000289298325, 4104485428596382, -37594273541681, -484191749387, 13540192437, -42382487], 1323831346157327622228002394985),
  (67205512739749765126551700856, [194528255554214421128094762825, -13649602838930750729654871584, 420584610522623858145017864, -6680810048111222706455293, 31686894538491011775392, 858262897023245903455, -17087930844534394861, 24029527054563434, 3358075605076791, -44400062910535, -202617287813, 11852010032, -93749576], 1368574849102429840073835591921),
  (55023220056407229029946530834, [168858475203068802252762219602, -12046354742542625029601418675, 381324817590150699805492558, -6395699211968124280181079, 39254555714329120255229, 656639821095042578212, -16405761249208618657, 71230674180942658, 2537252677092470, -46024264208718, 30630320039, 9252862055, -118687758], 1407508540454295195454296833176),
  (45049202393557806068335092178, [146240547439788942739303727405, -10596498301259546453143453313, 343941377660769016526985117, -6057977905853837512617919, 44859209779584729543824, 466798475445596410617, -15155055208615506161, 105274433904336468, 1725588463959299, -43588695434520, 202193756084, 6333421691, -121397288], 1441305658719128514872924025212),
  (36883167401240005445603704742, [126375584253545029759204699922, -9291958547835709906748170866, 308703911563458470915952549, -5682795282468394632594957, 48649127942211394722380, 294467859763745078873, -13516472934646737130, 126831582685889262, 984799396098123, -38361057302211, 310353098486, 3551880749, -108354556], 1470576699426199115977971429659),
  (30197383422318500739786292364, [108981807402299251682987763094, -8123758652869142205018105451, 275795119237022375816502476, -5283913591086851339032899, 50819283618182548147988, 143290488703580888187, -11655222819736075671, 137378410944467872, 354025787333754, -31554418488659, 361691937589, 1203579500, -86380106], 1495872398483257973798744789618),
  (24723526470339391202757382983, [93796016230338914769335318469, -7082349634664785702716643222, 245320059294455700941440291, -4873415135959644967548209, 51591615273944394575792, 15065535057653817370, -9712250568762784750, 138850481529936306, -147905422011304, -24196915096281, 367553449550, -570256988, -61336930], 1517687148337438638528568468048),
  (20241911445804388472027543744, [80574435221179941553066924287, -6157900044939332133352754535, 217316734483132457700925068, -4461556185701356350329392, 51198155417597143869560, -89930132742741499749, -7799946430379870953, 133348029423119146, -518489660122210, -17068415881985, 340972447880, -1750654525, -37493517], 1536462708317513166666775545578),
  (16572675401761247541983698083, [69093025430201479316655059761, -5340542073090806199942177073, 191767175307151286446048060, -4056742479936534999200163, 49867549728591741999404, -172592254416107397016, -6001497083638006916, 122911574359420327, -766919756580235, -10690673568517, 294425687378, -2400508984, -17421266], 1552592085191751380050364654216),
  (13568559012200931757230574526, [59147348034687855527390740302, -4620573425442009687583658084, 168608375057683172934456817, -3665598608710237939283325, 47815054399028292298273, -234648477900633827800, -4372861292674682673, 109371005500611448, -909635173573680, -5353581836808, 238463297593, -2626223958, -2232003], 1566423476750675986760573284776),
  (11108996538242306496143134287, [50552067161184975710051297378, -3988616590187030475425242416, 147742595191309359100777187, -3293104177973120826951852, 45235784540868820878732, -278352113086313755338, -2946381581722094461, 94260979199065135, -966541782712399, -1160872422524, 181104154279, -2547241761, 8029278], 1578264188828427953601523029394),
  (9095277101695817092054074291, [43140174216686537681497810819, -3435738707089069262692972339, 129046715259825993394928876, -2942772356682917548545287, 42300788709411810854037, -306224734835739495571, -1735189269703413512, 78789790183715073, -958126001962590, 1918084563036, 127793885956, -2275430753, 13973948], 1588384453576358213862573140776),
  (7446583070924340518236046420, [36762008396910883579209306984, -2953536285904632495332785084, 112380436864567602419530730, -2616850249183458714191316, 39155427401977633978664, -320853072573488261057, -737756761663282516, 63847015606449808, -903484869605489, 3999473135048, 81712336596, -1903672651, 16522625], 1597021093226028126715929032988),
  (6096746565515636107134564785, [31284138950833351316536476916, -2534189549966897820726698725, 97593261625153649932316510, -2316524835990860057295124, 35919513677644265293400, -324739098359048763155, 57846191562697615, 50035996633429440, -819166850165102, 5244313397342, 44248621058, -1501652045, 16654380], 1604380988500730605177129657571),
  (4991593906910216212286725942, [26588165029179722720092545540, -2170491323492296287960783790, 84530247873566319094537934, -2042122454090774973090315, 32688707756173589980135, -320198020459543578967, 670255087620201406, 37719476094869069, -718656325367334, 5827773339284, 15511329281, -1116484151, 15252503], 1610644323945121134001630410404),
  (4086771438464066993464702685, [22569479214587553300196588569, -1855855233775667080957687305, 73036611241412550007522932, -1793293605448371801430191, 29536723075856370521579, -309296639066770658283, 1121791005167610477, 27069548118054313, -612320549222822, 5918312895376, -5208343157, -776049076, 13029524], 1615967593608382760722701093533),
  (3345965457471272765732436021, [19136031608340841664507841041, -1584307653770480273729502804, 62961273581907279400998646, -1569178106469333417621665, 26517981581430141465164, -293823756906823959347, 1436133660047946762, 18115878596217454, -507653540339634, 5665252890093, -19061162966, -493406222, 10508255], 1620486359740217326151354138324),
  (2739444818768369232775520842, [16207122949725144950861889282, -1350467343863740978687690063, 54159486562599441269592862, -1368548157387754274158527, 23670438472578627881141, -275284594085460465293, 1636635073836563926, 10788570108890463, -409682068095020, 5192865706256, -27363116534, -271216085, 8036791], 1624317764540884572668838992316),
  (2242867719485802473223616521, [13712247846920842541866985505, -1149516225578880036812474025, 46494664705880927155994265, -1189928836823763596750014, 21018373151271981113886, -254912029949887913759, 1745184775310425711, 4953922918675877, -321433876838921, 4599063686304, -31410200766, -105573788, 5820082], 1627562800710131399089140729154),
  (1836304777028906825227936300, [11590002872923441067911721843, -977164180842676369485324091, 39839561296373698579688392, -1031696880821927316426428, 18575009148288320030110, -233688669634334124758, 1781522900932018149, 442673904682957, -244400979001562, 3957007208011, -32368601055, 10989227, 3956129], 1630308350764614074322142784326),
  (1503439192977572447382903332, [9787069017499506168415255286, -829610251018470502696346896, 34076912580298410555873796, -892159480049432379437823, 16344879566159255330705, -212374984842317105404, 1762898158961647415, -2928855135753090, -178957911577556, 3318312131980, -31221455540, 87352582, 2469712], 1632629008053003115269754259977),
  (1230911902673481184623476277, [8257273724423349624606611505, -703502131321987240535769010, 29099663632410905142573731, -769615322696232600557450, 14325896058777863781862, -191539963145913810880, 1703977329471963667, -5343798842896265, -124715258621364, 2716905443581, -28754544320, 132397301, 1340244], 1634588694304520583585261953822),
  (1007785429048510761447535575, [6960734387125546295263380340, -595895430539838191255828410, 24810875156821073611657942, -662400318226079460315605, 12511109696172196832812, -171591737287387727402, 1616927210687022652, -6974883825098472, -80802847088874, 2172903030010, -25566235213, 154182897, 522796], 1636242089600065272216224026602),
  (825104923265904270146225457, [5863082613517848619986074497, -504213798312560730537525851, 21123395781522258202637582, -568920441232738013605634, 10890172913384313246619, -152806521665935666419, 1511605511429269681, -7978550311242760, -46085863248640, 1696141575200, -22090565304, 159550516, -37275], 1637635891036324753517960373222),
  (675538775193844237836724318, [4934766685157421567542970477, -426210712859297197837804957, 17959370111030670539640621, -487674003698637114946893, 9450524965830991552724, -135354854230182008596, 1395812126223020952, -8492046980034200, -19321966683142, 1289184771565, -18625684087, 154011205, -394983], 1638809916221063862298909664662),
  (553084370147833583102000089, [4150428313138167632121706295, -359933467874407847259529416, 15249639559040439933726705, -417265451721249060727840, 8178330691460996548484, -119324643593420594348, 1275565409487708189, -8632634396300528, 730507226016, 949750595510, -15362669545, 141807713, -600386], 1639798067227496960540441719511),
  (452827182886797057997207265, [3488348927446078934525493575, -303689693404264195722015903, 12933081153900992212502833, -356412529558163445501887, 7059205489465300799662, -104740877758559148961, 1155379018453294771, -8498197374968506, 15242967632471, 672583855799, -12411849118, 126068276, -696062], 1640629169859931535829907697658),
  (370743540459088374430021423, [2929960233457154400538673978, -256016585795240578056125291, 10955919248529469493391655, -303948388354551859651399, 6078759580124793239300, -91582089770762987447, 1038523562375663110, -8168725374141004, 25276176222855, 450839664089, -9825253161, 108997116, -716429], 1641327702133232242429177927475),
  (303539138078866660865509532, [2459413546706966874208335142, -215652899958187537639625702, 9271036384677222129016593, -258819958448384034311409, 5222992852619863397844, -79793823414452262545, 927263859438996054, -7708260478085801, 31760970902315, 277060393128, -7614805541, 92067152, -688136], 1641914424817720297808873266054),
  (248516827107952020803474471, [2063202405511500985074657791, -181513667040964646207173437, 7837302378059040535145873, -220083664680375644058407, 4478568727962140041260, -69299422265323388251, 823067361163972133, -7167029577846563, 35493550530444, 143830215824, -5766438283, 76195611, -631027], 1642406925805100211062105790349),
  (203468369010644174368933430, [1729833102910585320729154796, -152667536404627237283923239, 6618934869792341452927559, -186899350213819334005089, 3832992037035533253402, -60008497654260010198, 726782593139887139, -6583570390838433, 37140224474360, 44184172963, -4250619914, 61893601, -559302], 1642820088952193981312601683884),
  (166585810987633411492130507, [1449538028060372532056430625, -128316597431720248852651084, 5584899967960609751014621, -158523088678142865805079, 3274712336990135794025, -51823431056221545372, 638788605092300420, -5986731929177310, 37247818371708, -28162498649, -3029905398, 49387299, -482692], 1643166496988441198723140256451),
  (136388926482011447847765082, [1214027025532634431357455996, -107778509700298153073454078, 4708358010261155649018128, -134299407065354019058899, 2793170623102771787100, -44644246050969413556, 559117710303298452, -5397482089960345, 36256999634133, -78711399089, -2064121179, 38712200, -407521], 1643456777051724549347150546334),
  (111665808490114735640085376, [1016272340132551136523860575, -90470755654318491181875360, 3966156748869054423483106, -113653311159616393003626, 2378804194544109421903, -38372153110057470243, 487554464328311857, -4830491716468702, 34516639302722, -112162763100, -1313743079, 29783803, -337601], 1643699896459107894165306028845),
  (91424231478173337862943249, [850323092882286948614756120, -75896824949303984644081816, 3338372238635269019890400, -96082398856862204818610, 2023021583577886235989, -32912033254793116066, 423714077259329301, -4295489140195721, 32297979976120, -132450772005, -741941335, 22448784, -274961], 1643903415432750427672568185043),
  (74851829887700591471189319, [711145614483716338417545607, -63634141591543034726845718, 2807896262909135365413128, -81149261584541391252109, 1718156989344836812736, -28174088287576745507, 367103419321777253, -3798394831673370, 29807862079883, -142809713216, -315677011, 16520708, -220414], 1644073702690409097590887096379),
  (61283495053222095513240931, [594486334216576496181518884, -53323551769956554431646930, 2360068139136903025729910, -68474307111531422124806, 1457411566500176877271, -24074848482598036310, 317167575054600517, -3342254835672351, 27200604803562, -145855142055, -6149174, 11803901, -173977], 1644216119075126803706236443704),
  (50174682056175302185833727, [496754276844036186440618863, -44660200290136211117855015, 1982348108479507799393790, -57729085409781585003075, 1234787181807424807747, -20537694878832037008, 273324604348149964, -2927996112180185, 24588373979464, -143669428365, 211181706, 8108565, -135186], 1644335173738151586660855153672)]

def cells1 : List (Int × List Int × Int) := [
  (41079555225300708423523804, [414920552527288812121772744, -37385635515477601395469188, 1664029146488535764745414, -48630160198031841786971, 1045016833236447842561, -17493023416647099608, 234990832550772001, -2555028260138876, 22050023561306, -137884948343, 356829618, 5259597, -103312], 1644434656799460256291782324725),
  (33633095185718993728828298, [346432532011230198754513104, -31280995759258995732556804, 1395983867128029424592980, -40933539973359209345877, 883494786189720610896, -14878152342518209679, 201598651694479657, -2221715489331859, 19638492146144, -129760968523, 447661971, 3101055, -77506], 1644517751887049534466509750724),
  (27536449349747157857411097, [289140680080037132892323467, -26161143458030761036753703, 1170443175252102525971080, -34429661652363522135559, 746208579582234382410, -12637052482853462837, 172608492189626343, -1925740935365104, 17386888603814, -120252204977, 497342468, 1497713, -56902], 1644587131494388474220373843810),
  (22544937913212194413671875, [241236274328197624066498619, -21869626690874473858552105, 980803409598433729040405, -28938905652668490005554, 629674352022107778708, -10719961868188193916, 147516331134235467, -1664383046008675, 15313424710128, -110068335107, 516786220, 334766, -40674], 1644645037689802773694666510456),
  (18458233995780564743158551, [201198464322342209200459726, -18274360345075537063260571, 821458875575985952664712, -24307611894866178875845, 530876400150335242327, -9082931380620192740, 125857845199141094, -1434721181119610, 13425357678705, -99724563165, 514595274, -483551, -28064], 1644693350356753575621905234081),
  (15112323819855027989687011, [167749329482578514966135046, -15263931239744007710300429, 687656868654784254815820, -20404560607515442055632, 447211476328859974672, -7687336169234508668, 107210094138869030, -1233785003445332, 11722098850941, -89583829308, 497456650, -1035917, -18408], 1644733644834781734705607145469),
  (12372924261788230517126758, [139815774088190401316762315, -12744442668664115163337155, 575372515466015685339274, -17117879016199982833116, 376438034672437970172, -6499378101474882278, 91191433947791982, -1058659837024570, 10197631589560, -79891509188, 470494439, -1386107, -11128], 1644767240562361016520085380642),
  (10130093598630710728941356, [116497256512365627337744495, -10636824043396643434451190, 481200996388969381374876, -14352334231130445704474, 316630420428576570682, -5489597090710461077, 77460203635301692, -906558009585067, 8842365063898, -70803554091, 437573647, -1585165, -5739], 1644795242090406479417789229612),
  (8293819160757365091352974, [97038489000540575195066788, -8874540587813091133516366, 402264950091357006178222, -12026973319702105679024, 266137849279215417330, -4632403399110421144, 65712602910113697, -774864306275657, 7644533359384, -62409026252, 401557300, -1673461, -1837], 1644818573634442808636872184547),
  (6790404807379473005167518, [80806365915751309943980033, -7401646371012283938524555, 336135090015803016373256, -10073073199388778483590, 223547925027184415779, -3905638643037228874, 55680075902819915, -661162046557948, 6591232581294, -54747930000, 364520489, -1682547, 911], 1644838008160553647819706335553),
  (5559513241650144278264691, [67270484215114511913144488, -6171131405833203456253006, 280762280409363477806724, -8432365260802408346593, 187654384043013162863, -3290169953881141661, 47126434677358561, -563244939200260, 5669173150834, -47825153684, 327926082, -1636780, 2774], 1644854191851686307142106905014),
  (4551744463083234763386289, [55986711733128925096410531, -5143520138993882455816965, 234419522251506067009531, -7055502267212727661346, 157428722983337155491, -2769519342284986917, 39844892227682078, -479118747828943, 4865210704578, -41621238164, 292767202, -1554720, 3968], 1644867664673522212625991712361),
  (3726653172078670992924851, [46583338250928646248489605, -4285684479144656258316621, 195652485788779184420259, -5900737881646289100445, 131995354933547834383, -2329528589072960701, 33655124839656677, -406995883106307, 4166707038548, -36100586416, 259681447, -1450306, 4662], 1644878877650135275964362284013),
  (3051125558036420218253527, [38749412816386339752204286, -3569839617863888108871788, 163237395762247349625079, -4932792006870782351392, 110609942269701588211, -1958058787540010662, 28400445438260812, -345285298324947, 3561762354959, -31217632372, 229041480, -1333832, 4992], 1644888207366565290143826486721),
  (2498050325866635968766159, [32224929703175750044702552, -2972695363673533334501506, 136145227949105626677384, -4121877890397261625376, 92640567564021284821, -1644722864492169350, 23945140553041624, -292579475360972, 3039351547959, -26921399358, 201026122, -1212746, 5062], 1644895968136046827439507641157),
  (2045230624523488851746920, [26792575978254604556574795, -2474739596786322638780423, 113511311944170659151885, -3442869581656858125694, 77551423277037965869, -1380648912104925287, 20172001908415082, -247639822271785, 2589390231567, -23158801001, 175675570, -1092298, 4951], 1644902422202042299446870289540),
  (1674493209434267179286876, [22270796977774061456381478, -2059633825676834444689938, 94609556101872377362720, -2874590791581502827720, 64888724176596883236, -1158271890743681076, 16980067800779715, -209381440053831, 2202750478219, -19876970702, 152933793, -976064, 4720], 1644907788287761379977363934919),
  (1370959086384084364502600, [18507973039858948467073717, -1713703744765206666548942, 78830617350777066634202, -2399208473778155331041, 54268571485376875373, -971151152984804020, 14282578073399672, -176857934946640, 1871241610205, -17024849234, 132680715, -866351, 4414], 1644912248757056709075291343365),
  (1122446365234343376681407, [15377532464165924936693366, -1425510209951911920970432, 65663432378042568958554, -2001716512225108157092, 45366523311747798432, -813811243730000470, 12005138603043664, -149246737880578, 1587567691650, -14554212910, 114756297, -764532, 4067], 1644915955609210321891449074732),
  (918981357897957428069219, [12773852613714028789452967, -1185488215023176750163080, 54679608683288568166516, -1669496763068380194903, 37908651007793096284, -681603514246025692, 10084085938858098, -125835230617456, 1345270445774, -12420285931, 98978297, -671290, 3702], 1644919035495080317584319044785),
  (752398299216421056616959, [10608824001012671946580668, -985643311775976503281728, 45520245421889525939026, -1391946364109259024878, 31663885083774840512, -570586221805366658, 8465039426560985, -106007857623417, 1138664031153, -10582048968, 85155106, -586822, 3338], 1644921593912426940129597679020),
  (616011626132053139482053, [8808971680117329114873503, -819296510094703065293271, 37884815946370737792335, -1160161705522878767197, 26437476788188894449, -477420950978322923, 7101626294347312, -89234314616210, 962766331801, -9002330525, 73094795, -510982, 2985], 1644923718713176968076880908485),
  (504347662567888075892222, [7313044795551425991057860, -680870056693575397386752, 31521797589545344008669, -966670762283367842778, 22065422210052470716, -399283372629655557, 5954364370538520, -75058841682458, 813230048110, -7647747272, 62611305, -443399, 2651], 1644925483034225089963951838125),
  (412924941587326886137842, [6069999147787748761606408, -565707654214842259714313, 26220780509759742530060, -805206637022957973135, 18409714675352198401, -333786541629644916, 4989687039039890, -63090604979612, 686275835067, -6488543428, 53528464, -383557, 2340], 1644926947745520159916677634146),
  (338074348390473811180935, [5037309494003184612869910, -469923673430410768412829, 21805827245015990750955, -670516166367725365224, 15354308282645542591, -278915116762859430, 4179095482709508, -52995121657505, 578628951814, -5498366564, 45682402, -330861, 2055], 1644928163494138282615165255805),
  (276791865854080627511063, [4179558331264366432048645, -390276754566459676379214, 18129888818529889285600, -558198318736172444935, 12801690705180073702, -232969061321183080, 3498424040489701, -44486664089025, 487460306272, -4654007344, 38922809, -284680, 1797], 1644929172410373191333380364075),
  (226618012776571164448866, [3467256381224289716001632, -324063910283491216205101, 15070112537386628582350, -464567871138036153687, 10669976970360112069, -194515547245139382, 2927205480778695, -37321568929775, 410332355176, -3935123071, 33113347, -244380, 1565], 1644930009531210866369339006844),
  (185539136261597824071711, [2875857145638817086681780, -269031850853659160507937, 12523901680845731106675, -386540509807805809099, 8890447928192743842, -162347937622751565, 2448124075506814, -31292371723331, 345150017120, -3323959071, 28131487, -209343, 1359], 1644930703987588163108766590639),
  (151906596756896278187087, [2384933931370468572070381, -223302767382520668863908, 10405608662080323066741, -321536066700623351456, 7405467667643269691, -135450861037512978, 2046545478383437, -26222687039018, 290116545488, -2805077502, 23867957, -178983, 1175], 1644931279994299757466433046414),
  (124370602360287006542339, [1977492823470537022198571, -185312245158420556655567, 8643761473519191674788, -267397092061243296947, 6166723367430326301, -112970516536018381, 1710113519174606, -21962756189433, 243694166833, -2365099870, 20225948, -152754, 1014], 1644931757675089552884716817865),
  (101826036931200008898479, [1639399361525860074983461, -153757348115967414308372, 7178738734949956600370, -222320382474138744029, 5133739108382551519, -94189460194117764, 1428405091668632, -18385588462102, 204569200603, -1992467051, 17120169, -130155, 872], 1644932153750151729693899971439),
  (83368107899627776099947, [1358900272052877255766950, -127553227049196143549805, 5960821841597666536918, -184799442995645382023, 4272622155755665772, -78505224041205252, 1192635315857915, -15383626800789, 171621324538, -1677218856, 14475846, -110731, 749], 1644932482108812007576367718083),
  (68256033763348697553834, [1126224633966880150796659, -105796867241627687825342, 4948563892097712127661, -153576169145279651865, 3555006262099312679, -65412206288387437, 995406083050211, -12865874467226, 143896625856, -1410793864, 12227708, -94074, 642], 1644932754286425479890335676450),
  (55883313925182635328123, [933251394703730671322770, -87736812980878666204946, 4107424554105709044973, -127600296754193459154, 2957161755694365982, -54486349332615021, 830491940554588, -10755425031890, 120584073533, -1185849384, 10318993, -79818, 549], 1644932979861398761433402343363),
  (45753387694458049373240, [773232287414337658348565, -72747893300450527028113, 3408628048929645039951, -105995391142749703359, 2459246667994292301, -45372189849203888, 692658039076106, -8987343824021, 100995055467, -996100786, 8700504, -67639, 468], 1644933166785624315987832644628),
  (37459705562952506903124, [640560989121713915656449, -60310130615075876179283, 2828208221842865300601, -88030337260116649478, 2044677007895841847, -37771924408396996, 577505552810679, -7506854542252, 84545641493, -836179088, 7329731, -57253, 399], 1644933321659422058443201269350),
  (30669412945635572345060, [530580860232098905078331, -49991146261845441603531, 2346210396980945157314, -73095454002678455150, 1699597593495941661, -31436185392141003, 481340593242946, -6267789976976, 70741255703, -701505434, 6170044, -48411, 339], 1644933449960248901157862164728),
  (25109991557439818035473, [439424863289151422940524, -41431488213515479744046, 1946024553770450975449, -60682493048063157436, 1412437676634808030, -26156266426138594, 401063177813295, -5231270659337, 59163466976, -588181010, 5189953, -40893, 288], 1644933556232902971700939880343),
  (20558322297604468785202, [363882312148408949042575, -34332399690896986121374, 1613828441525259100841, -50367898758255300443, 1173538006856334179, -21757574896162640, 334073289591842, -4364579698086, 49458633082, -492890929, 4362450, -34510, 245], 1644933644247667108749916034733),
  (16831730696737573008576, [301287984542800774840765, -28445625863395434216044, 1338122686148460239847, -41798804091881862631, 974838036491665508, -18094122133475091, 278191479795748, -3640206087031, 41328160223, -412820621, 3664418, -29097, 207], 1644933717131765052266380994590),
  (13780655548945737437067, [249429868873224954171533, -23564921657167990068770, 1109342836638145753420, -34681320668110118136, 809613717333518515, -15043890207709010, 231591827316506, -3035032370845, 34520165310, -345583355, 3076109, -24513, 176], 1644933777478609141373806109707),
  (11282646495496613101387, [206472433197143494583798, -19518978890390426921577, 919535733428121839485, -28770751414994182730, 672257825353963066, -12504938562669680, 192745384090190, -2529645764935, 28822352410, -289157605, 2580680, -20635, 148], 1644933827438571496294376524265),
  (9237449661970594897883, [170892820325069830955857, -16165537215638259893968, 762089626978241401739, -23863413560914894062, 558096010940918558, -10392134510484175, 160372507531214, -2107754661651, 24055937053, -241833067, 2163787, -17357, 125], 1644933868794387413772282573163),
  (7562984118265134118612, [141427804081174244165083, -13386482097532662507727, 631509194123489035642, -19789809754551315264, 463232840924993368, -8634409339337927, 133402716354521, -1755694949793, 20070472549, -202164247, 1813238, -14589, 106], 1644933903023779782341175420664),
  (6192047682664029869211, [117029701927003659148052, -11083765493065167364410, 523228042911351431315, -16408927248581442779, 384423003496765337, -7172456909218861, 110940908503657, -1462012757984, 16739450891, -168930651, 1518678, -12255, 89], 1644933931351459744643179414153),
  (5069619862322293608101, [96829739861245780378793, -9176012046411241604464, 433452507532334700112, -13603480567016033998, 318963612303637013, -5956804475928357, 92238953720529, -1217112135991, 13956567416, -141102714, 1271327, -10288, 75], 1644933954792297379661586801504),
  (4150653687698226154061, [80107616505074738632885, -7595696313264756161171, 359031550291317551169, -11275942927122964843, 264604192460303712, -4946196416318165, 76671822248000, -1012957841279, 11632553112, -117812675, 1063749, -8631, 63], 1644933974187154946926432849539),
  (3398267819495071225141, [66266222705344261029309, -6286795509949133849623, 297348438478661709475, -9345236780768829289, 219471476815318459, -4106240805409388, 63717538552929, -842824829255, 9692491505, -98329753, 889653, -7236, 53], 1644933990232624270986048838331),
  (2782266371015870984771, [54810647661510480162200, -5202838143525142518312, 246230576730040904172, -7743974920509258852, 182006600905008962, -3408276659548599, 52940357717368, -701087281025, 8073548525, -82038995, 743720, -6064, 45], 1644934003505700821966600943952),
  (2277927041205367729239, [45330748223246954987657, -4305282128011277305257, 203874472149304128708, -6416161293364066153, 150912672672004601, -2828426316930690, 43976654840451, -583041065956, 6723053797, -68423296, 621460, -5079, 38], 1644934014484253007827496978475)]

def cells2 : List (Int × List Int × Int) := [
  (1865008921902769733189, [37486679400158663170908, -3562167054469062681665, 168783308760895329019, -5315275513683699611, 125111019374742500, -2346803056640576, 36523096674215, -484754449753, 5596880529, -57048134, 519087, -4252, 32], 1644934023564000321717040396517),
  (1526940159126609718606, [30996885277600566225903, -2946994516347279926466, 139715025460061644725, -4402677517259150987, 103704688651835357, -1946848813557157, 30326731745831, -402942641471, 4658078791, -47548618, 433408, -3558, 26], 1644934031072593427817249141396),
  (1250152866386742628938, [25628133792967308814641, -2437798095705676895589, 115639140750297748761, -3646279233221014969, 85948011491643269, -1614780860767888, 25176692101439, -334862442402, 3875723569, -39618526, 361735, -2975, 22], 1644934037281288967422160806929),
  (1023538597759415425950, [21187248995305866444192, -2016371041818478690530, 95700859303272060168, -3019438890209635886, 71221228733472969, -1339129716246939, 20897248019195, -278223831265, 3223944611, -33001020, 301804, -2487, 19], 1644934042414628440705522279315),
  (838002526947947746801, [17514252827889096035523, -1667625031491588819264, 79191239076075860207, -2500040890226198514, 59009345490750767, -1110353382663011, 17341997855583, -231115807314, 2681110029, -27480809, 251715, -2078, 16], 1644934046658461146499865588904),
  (686098439969345045165, [14476677093285606022619, -1379057866277795548426, 65522401206306341980, -2069730306209296194, 48884514447213398, -920515430307132, 14389009706711, -191944227461, 2229139788, -22877522, 209868, -1736, 13], 1644934050166593488885454721203),
  (561729892441730397324, [11964846715729869521708, -1140311682969361071463, 54206934748736415164, -1713276180277546190, 40491363486170141, -763016453052446, 11936760727666, -159379725810, 1852928811, -19040125, 174922, -1449, 11], 1644934053066299023414738340366),
  (459905537865231677907, [9887969068650012807914, -942806353512079976115, 44840790028580461228, -1418042080724813783, 33534779077640179, -632370125281358, 9900744565754, -132314102904, 1539862527, -15842210, 145748, -1210, 9], 1644934055462883782206258938405),
  (376538807361135432828, [8170892122813296867360, -779435331838703793719, 37089072583769370192, -1173545953427519789, 27769737229090074, -524016514170125, 8210638118408, -109823825367, 1279410293, -13178032, 121404, -1009, 8], 1644934057443468323612242607659),
  (308283901313867551913, [6751417440855052694967, -644313354152749948792, 30674248220456108316, -971094291723742607, 22992841099077647, -434166499267046, 6807936313680, -91139491139, 1062784391, -10959169, 101096, -842, 6], 1644934059080120464037927196820),
  (252401510684521021743, [5578073387535828730238, -532567187819551533596, 25366351850678515236, -803478144095531075, 19035280682824367, -359672156055170, 5643978333188, -75620296885, 882654166, -9111718, 84162, -702, 5], 1644934060432449821998481524848),
  (206648878920758180510, [4608270000885201254821, -440162112287403314479, 20974861228648756732, -664720561712756402, 15756977075500232, -297918802698852, 4678301082161, -62732697426, 732906540, -7573938, 70045, -585, 4], 1644934061549756351201529291425),
  (169189792261513036130, [3806770326528109993662, -363758053488203845256, 17341953719113916104, -549866825651422570, 13041713192612717, -246735115241383, 3877266122277, -52032576382, 608445467, -6294264, 58280, -487, 4], 1644934062472809305873244512804),
  (138520886031375875459, [3144424113347800787152, -300590322773280529012, 14336911712575010679, -454810243012065939, 10793085729757526, -204318307929875, 3212915029050, -43150356307, 505024086, -5229653, 48479, -406, 3], 1644934063235320023206127697921),
  (113411309337497668298, [2597118984123239268512, -248370767506742213966, 11851481831402117126, -376147509669699902, 8931140628249169, -169171870461467, 2662015478035, -35778568460, 419104308, -4344184, 40317, -338, 3], 1644934063865161071805097508928),
  (92853326701449421797, [2144911847002643843996, -205205852049173488241, 9796025970813723204, -311058644698161683, 7389577262118264, -140053768248307, 2205266524564, -29661479792, 347739404, -3607892, 33520, -281, 2], 1644934064385375324740197532988),
  (76021874096073566299, [1771309666573172375236, -169528779260597776406, 8096329593809413913, -257207340859701289, 6113425716765891, -115933358317072, 1826636707459, -24586439730, 288475869, -2995792, 27863, -234, 2], 1644934064815011058184886377871),
  (62241446229077832321, [1462673986474368003832, -140043254033245511817, 6690955471369165908, -212658274729653191, 5057117511665304, -95955563153439, 1512812936238, -20376664141, 239271437, -2487051, 23155, -195, 1], 1644934065169812991394999515776),
  (50958986143795607815, [1207727971669500498197, -115676898558465266509, 5529049997780778942, -175808502272960668, 4182883449726620, -79411086887555, 1252741747480, -16885219748, 198426611, -2064311, 19239, -162, 1], 1644934065462794054715893405195),
  (41721689101600220720, [997148369569847989475, -95542668050810978368, 4568524957422464467, -145330550422562989, 3459423390549106, -65711660434356, 1037247551732, -13990010920, 164527496, -1713110, 15981, -135, 1], 1644934065704708419734113910349),
  (34158829937838577078, [823227801530030206057, -78906897161914530179, 3774550708670236223, -120125218649892676, 2860802009013104, -54369471051602, 858715032570, -11589603076, 136398107, -1421402, 13273, -112, 1], 1644934065904442800385153261965),
  (27966884559269290452, [679595294809249921146, -65162841026820464722, 3118307628723006216, -99282440209183239, 2365532320134319, -44980072711627, 710824984029, -9599744146, 113060571, -1179159, 11021, -93, 1], 1644934066069340111861688759309),
  (22897348456455528941, [560985037196005528926, -53808768875187078130, 2575951701597662632, -82048831985043828, 1955815181442009, -37208191272498, 588334648841, -7950468242, 93701947, -978034, 9149, -77, 1], 1644934066205467152640391547240),
  (18746763345242800712, [463045054636177773644, -44429829129926412785, 2127757639851640979, -67800794109499375, 1616908339059039, -30775936512579, 486895104228, -6583684765, 77646565, -811079, 7594, -64, 0], 1644934066317835968442451398709),
  (15348551671425344644, [382178936624356974804, -36683038495856194528, 1757409166490808264, -56022213608052543, 1336603041746273, -25453014869186, 402899481834, -5451172134, 64332967, -672514, 6302, -53, 0], 1644934066410586894569256972841),
  (12566331268602389591, [315414914845883587048, -30284858358108689308, 1451411261599689910, -46285986844321121, 1104789957607812, -21048604884426, 333356843686, -4512908659, 53294709, -557534, 5229, -44, 0], 1644934066487139895980862268373),
  (10288441862970225557, [260297579135824763094, -25000913727542674201, 1198603477087475367, -38238708927398376, 913099215503031, -17404614157960, 275787400148, -3735684254, 44144356, -462141, 4338, -37, 0], 1644934066550319683901936268425),
  (8423463754468647406, [214798325740759854761, -20637486198802959853, 989756991184833894, -31587989081527980, 754601961448979, -14390083918236, 228135476825, -3091946025, 36560173, -383011, 3598, -31, 0], 1644934066602459143159422960592),
  (6896548823221200166, [177241304758007197566, -17034475593596078833, 817241035575208038, -26091943049388220, 623562956174732, -11896546722999, 188697238731, -2558838554, 30275028, -317384, 2984, -25, 0], 1644934066645484822297584680757),
  (5646416611674962793, [146242190243207280664, -14059577363232618018, 674746785111035300, -21550490068930003, 515235515866139, -9834175600657, 156060681415, -2117406231, 25067177, -262964, 2474, -21, 0], 1644934066680987590932801403640),
  (4622894924668668941, [120657557534410046564, -11603466261027779368, 557058838433302928, -17798145460675349, 425691574347576, -8128590243887, 129055816691, -1751930419, 20752579, -217845, 2051, -17, 0], 1644934066710281032714330330477),
  (3784906243074359536, [99543034193232416849, -9575812795052049285, 459866108540783394, -14698052577745793, 351680871775533, -6718208582366, 106713328827, -1449378780, 17178518, -180442, 1700, -15, 0], 1644934066734449698508458637475),
  (3098819138721825442, [82118707176382845225, -7901988803790588812, 379605344498320983, -12137041626980572, 290514294270856, -5552050957491, 88230267164, -1198947882, 14218292, -149442, 1409, -12, 0], 1644934066754388977157958711454),
  (2537098527098183277, [67740530673693357910, -6520343214676060216, 313331668099934185, -10021539182254103, 239967235698636, -4587919836918, 72941582668, -991683353, 11766801, -123751, 1168, -10, 0], 1644934066770838037239294786829),
  (2077200587724134158, [55876695809895275969, -5379949522228289415, 258611473173889750, -8274182341247261, 198199556085840, -3790891072877, 60296517069, -820164518, 9736878, -102463, 967, -8, 0], 1644934066784407041752680522027),
  (1700668001481406879, [46088102840224506969, -4438743483881858838, 213433834187426329, -6831016472715707, 163689295147425, -3132063569585, 49839020605, -678242596, 8056240, -84827, 801, -7, 0], 1644934066795599629609243053994),
  (1392389193588498621, [38012224985018940161, -3661983579148143060, 176137232989964857, -5639176234100112, 135177784214153, -2587523251547, 41191513648, -560823425, 6664958, -70218, 664, -6, 0], 1644934066804831485648563074100),
  (1139991853044355345, [31349775958755510485, -3020978410574559405, 145348961263844085, -4654966733309503, 111624202279469, -2137484724545, 34041423392, -463687163, 5513353, -58118, 550, -5, 0], 1644934066812445678536054610201),
  (933346388345769078, [25853694957201933909, -2492034856887942415, 119935010902896513, -3842275965387181, 92167955850637, -1765580251346, 28130023095, -383338695, 4560249, -48097, 455, -4, 0], 1644934066818725328124497461041),
  (764159391412946028, [21320047020437486084, -2055588762904024803, 98958641188290670, -3171261474384281, 76097539395881, -1458270838653, 23243181490, -316883557, 3771521, -39800, 377, -3, 0], 1644934066823904066470853424575),
  (625640794003133605, [17580506311499053377, -1695486551750652743, 81646123617621089, -2617263988260325, 62824763065162, -1204358528483, 19203696595, -261925015, 3118894, -32930, 312, -3, 0], 1644934066828174676162252558390),
  (512231358430492093, [14496147443590351602, -1398391608516702251, 67358423633752970, -2159908894724617, 51863425041547, -994582554304, 15864943463, -216478729, 2578943, -27243, 258, -2, 0], 1644934066831696223012999479438),
  (419379565837954443, [11952317626386714170, -1153293806055359641, 55567792473625697, -1782363154817638, 42811664012935, -821284983112, 13105611433, -178901997, 2132262, -22536, 214, -2, 0], 1644934066834599945138283476365),
  (343358947764025515, [9854401800830915870, -951104285307015606, 45838419526562720, -1470720826260185, 35337358374257, -678133921842, 10825344603, -147835103, 1762780, -18640, 177, -2, 0], 1644934066836994114895900114858),
  (281118529878904045, [8124325513502610797, -784320698362591162, 37810442268756691, -1213494987313490, 29166047475078, -559894405348, 8941131020, -122152695, 1457187, -15416, 146, -1, 0], 1644934066838968052564505071920),
  (230160385671930253, [6697667223054711900, -646750683738427021, 31186732258576321, -1001197677674846, 24070940334952, -462238774562, 7384312374, -100923502, 1204460, -12749, 121, -1, 0], 1644934066840595439530254236799),
  (188439385889898202, [5521274006575057734, -533283462068616445, 25721976173991203, -825992641485370, 19864651929291, -381589756430, 6098107905, -83376951, 995476, -10542, 100, -1, 0], 1644934066841937053053397704787),
  (154281120319188783, [4551293049416771286, -439701192909826088, 21213654043902025, -681408281410639, 16392369033957, -314990620653, 5035564344, -68875500, 822680, -8716, 83, -1, 0], 1644934066843043023447884646697),
  (126314697824644161, [3751546525392405470, -362523182756821923, 17494585648722375, -562100405320266, 13526198892085, -259997753024, 4157858803, -56891739, 679819, -7205, 69, -1, 0], 1644934066843954696957209580664),
  (103417727674788631, [3092190057476499859, -298877232980202032, 14426773010639196, -463656145742374, 11160496444924, -214591784926, 3432894016, -46989404, 561718, -5956, 57, 0, 0], 1644934066844706173109164743341)]

def cells3 : List (Int × List Int × Int) := [
  (84671274060793342, [2548605349230095379, -246393407516951066, 11896314005545637, -382431921174857, 9208001054125, -177104081578, 2834135701, -38807667, 464096, -4923, 47, 0, 0], 1644934066845325573352045372226),
  (69322975975865524, [2100486172068870982, -203116319609314626, 9809201100587788, -315419540690373, 7596642784031, -146155941016, 2339650439, -32048122, 383408, -4069, 39, 0, 0], 1644934066845836087877892788796),
  (56756852326327225, [1731083995953078602, -167432714362684641, 8087851456503530, -260135573162458, 6266902444371, -120608311194, 1931309558, -26464009, 316724, -3363, 32, 0, 0], 1644934066846256839362979169216),
  (46468580447469695, [1426585419737385933, -138011683928998037, 6668241294213184, -214529946399236, 5169629574785, -99520209792, 1594130468, -21851297, 261616, -2779, 27, 0, 0], 1644934066846603595602998170258),
  (38045255864221647, [1175598406204493610, -113755315034031524, 5497539472380894, -176910439768687, 4264239094784, -82114343907, 1315731765, -18041302, 216080, -2296, 22, 0, 0], 1644934066846889357443195997047),
  (31148820984758694, [968728332626025570, -93757951164129608, 4532153453282974, -145880311611992, 3517221036198, -67748685642, 1085882509, -14894575, 178457, -1897, 18, 0, 0], 1644934066847124843797675548759),
  (25502497662342730, [798228176831347816, -77272567916902479, 3736115907533604, -120286780640742, 2900909109093, -55892974043, 896129432, -12295847, 147373, -1567, 15, 0, 0], 1644934066847318891748484176699),
  (20879679116459336, [657709892168482801, -63683021305203676, 3079752669678018, -99178475803199, 2392463232095, -46109291382, 739488635, -10149844, 121695, -1295, 12, 0, 0], 1644934066847478786574306253173),
  (17094835407045363, [541906282403347259, -52481144699631087, 2538583057946416, -81770296030379, 1973028919897, -38036008781, 610190653, -8377826, 100483, -1069, 10, 0, 0], 1644934066847610533965304255170),
  (13996067466554398, [446474552183091555, -43247848471654321, 2092412086250004, -67414391630578, 1627042842987, -31374517904, 503469649, -6914724, 82963, -883, 8, 0, 0], 1644934066847719084539594047430),
  (11459010857022324, [367834248510420821, -35637523765340258, 1724581133981941, -55576202656564, 1341659187843, -25878266185, 415389144, -5706769, 68493, -729, 7, 0, 0], 1644934066847808519009265849485),
  (9381844588498658, [303033580208509489, -29365173562001359, 1421349455157602, -45814674407172, 1106275841061, -21343696439, 342697934, -4709537, 56542, -602, 6, 0, 0], 1644934066847882200884721769743),
  (7681204685202095, [249639152269070002, -24195794758386977, 1171383714493357, -37765923035579, 912143056368, -17602760737, 282711006, -3886324, 46674, -497, 5, 0, 0], 1644934066847942902401654641749),
  (6288838496461634, [205645018834296717, -19935618033783634, 965336709206886, -31129750557487, 752040270202, -14516735529, 233211094, -3206809, 38525, -411, 4, 0, 0], 1644934066847992908360849889389),
  (5148865478193837, [169397674232578094, -16424880875438510, 795499716380965, -25658512966334, 620009217999, -11971112237, 192367335, -2645945, 31797, -339, 3, 0, 0], 1644934066848034101750485637363),
  (4215534510458863, [139534192296188953, -13531865778573066, 655515616376365, -21147931460803, 511133559393, -9871376645, 158668035, -2183045, 26243, -280, 3, 0, 0], 1644934066848068034343452444016),
  (3451387744374206, [114931211887661472, -11147982414328765, 540142181994571, -17429508109090, 421356920459, -8139522764, 130865119, -1801022, 21657, -231, 2, 0, 0], 1644934066848095984903402649896),
  (2825757287115611, [94662869118373243, -9183711183125789, 445056772720714, -14364266209505, 347332666541, -6711173557, 107928230, -1485765, 17871, -191, 2, 0, 0], 1644934066848119007172116998131),
  (2313534391695759, [77966109000147271, -7565257460845169, 366695201083781, -11837584304177, 286299880972, -5533203087, 89006809, -1225622, 14746, -157, 2, 0, 0], 1644934066848137969430288578217),
  (1894161754784880, [64212083487207544, -6231792173242278, 302118799888191, -9754933037142, 235980985284, -4561772893, 73398768, -1010971, 12167, -130, 1, 0, 0], 1644934066848153587109889885208),
  (1550808479946536, [52882569166176966, -5133176068623051, 248904761031421, -8038357287723, 194497230193, -3760710564, 60524609, -833867, 10039, -107, 1, 0, 0], 1644934066848166449677281989386),
  (1269694594666348, [43550524597055788, -4228083000238949, 205055677038616, -6623573468843, 160298942577, -3100170969, 49906051, -687751, 8282, -89, 1, 0, 0], 1644934066848177042792547578912),
  (1039538011670222, [35864061402622694, -3482452339095251, 168924926896412, -5457574561269, 132107955650, -2555530945, 41148380, -567208, 6832, -73, 1, 0, 0], 1644934066848185766574258843085),
  (851101739147949, [29533230348433845, -2868212860928592, 139155134350690, -4496654188498, 108870097466, -2106476804, 33925861, -467768, 5636, -60, 1, 0, 0], 1644934066848192950653486654764),
  (696823167838580, [24319128557566463, -2362230538972790, 114627411109447, -3704776509008, 89715982859, -1736251060, 27969708, -385741, 4649, -50, 0, 0, 0], 1644934066848198866580921071580),
  (570510556966666, [20024920549529976, -1945440999256332, 94419497177983, -3052231479772, 73928659674, -1431030647, 23058135, -318082, 3835, -41, 0, 0, 0], 1644934066848203738052049430721),
  (467094537944257, [16488437189432281, -1602134265148803, 77771240567719, -2514525595933, 60916912657, -1179413708, 19008153, -262277, 3163, -34, 0, 0, 0], 1644934066848207749333750287191),
  (382424662809714, [13576075529744836, -1319365086693513, 64056131020627, -2071466923553, 50193236994, -971996018, 15668788, -216252, 2608, -28, 0, 0, 0], 1644934066848211052208374764495),
  (313102832177790, [11177771108747108, -1086466827656932, 52757827221958, -1706410435369, 41355665750, -801021412, 12915492, -178295, 2151, -23, 0, 0, 0], 1644934066848213771695897625388),
  (256346917579771, [9202854341113782, -894650742353401, 43450802529771, -1405635598062, 34072777795, -660093313, 10645518, -146993, 1774, -19, 0, 0, 0], 1644934066848216010768962451966),
  (209879104879305, [7576635686142922, -736675658126362, 35784387381922, -1157833061918, 28071330278, -543936680, 8774113, -121180, 1463, -16, 0, 0, 0], 1644934066848217854237914058682),
  (171834477593166, [6237591536631939, -606575705903877, 29469612907228, -953681350642, 23126056776, -448201596, 7231368, -99896, 1206, -13, 0, 0, 0], 1644934066848219371951800216661),
  (140686171244615, [5135045250428436, -499435907918382, 24268364539696, -785497789449, 19051252356, -369301200, 5959623, -82346, 994, -11, 0, 0, 0], 1644934066848220621435673652439),
  (115184094930761, [4227256283958940, -411207218902818, 19984440470487, -646950666528, 15693832934, -304277984, 4911322, -67876, 820, -9, 0, 0, 0], 1644934066848221650063376927830),
  (94304760785268, [3479845672976387, -338554091219112, 16456180757029, -532821898437, 12927610958, -250693489, 4047246, -55947, 676, -7, 0, 0, 0], 1644934066848222496847557644643),
  (77210207816561, [2864498709994427, -278728850217787, 13550391471807, -438811347757, 10648574495, -206537306, 3335052, -46112, 557, -6, 0, 0, 0], 1644934066848223193914288177145),
  (63214371590961, [2357896060342837, -229468168875188, 11157336585805, -361375490928, 8770994058, -170152017, 2748069, -38004, 459, -5, 0, 0, 0], 1644934066848223767717815645763),
  (51755550058019, [1940833127175701, -188907757711768, 9186610135298, -297594412834, 7224212196, -140171281, 2264305, -31320, 379, -4, 0, 0, 0], 1644934066848224240041201071673),
  (42373860474967, [1597494539906249, -155512067943128, 7563734094782, -245062159747, 5949996242, -115468770, 1865627, -25811, 312, -3, 0, 0, 0], 1644934066848224628820556215691),
  (34692782697491, [1314856464234906, -128016368153742, 6227354494200, -201796352690, 4900355556, -95116046, 1537083, -21270, 257, -3, 0, 0, 0], 1644934066848224948823951189753),
  (28404048104288, [1082194232773355, -105379018466907, 5126930682824, -166163681410, 4035741835, -78347833, 1266347, -17527, 212, -2, 0, 0, 0], 1644934066848225212210597061159),
  (23255267694887, [890676752714155, -86742148501927, 4220831086622, -136818491605, 3323565341, -64533368, 1043257, -14442, 175, -2, 0, 0, 0], 1644934066848225428991400460544),
  (19039802832865, [733032409065284, -71399260623242, 3474764016998, -112652166761, 2736971657, -53152783, 859436, -11900, 144, -2, 0, 0, 0], 1644934066848225607408272714908),
  (15588472111807, [603273870726949, -58768539861514, 2860484632517, -92751409065, 2253833259, -43777626, 707976, -9805, 119, -1, 0, 0, 0], 1644934066848225754246514965856),
  (12762761511435, [496471422794831, -48370866128340, 2354729498860, -76363856377, 1855918236, -36054801, 583187, -8078, 98, -1, 0, 0, 0], 1644934066848225875092078260308),
  (10449265343612, [408566274935231, -39811700959162, 1938338721240, -62869746484, 1528205057, -29693329, 480376, -6655, 81, -1, 0, 0, 0], 1644934066848225974543419039259),
  (8555134883887, [336216800936765, -32766166605288, 1595532655845, -51758566048, 1258317756, -24453427, 395675, -5483, 66, -1, 0, 0, 0], 1644934066848226056385957749650),
  (7004352026169, [276671905033661, -26966755300749, 1313316004907, -42609808159, 1036060404, -20137512, 325897, -4517, 55, -1, 0, 0, 0], 1644934066848226123735737124743),
  (5734678409208, [227666732845571, -22193205443636, 1080986880136, -35077116270, 853033413, -16582778, 268415, -3721, 45, 0, 0, 0, 0], 1644934066848226179157713983531),
  (4695157572631, [187336787147984, -18264162957535, 889732360014, -28875219072, 702317320, -13655083, 221064, -3065, 37, 0, 0, 0, 0], 1644934066848226224763160473661)]

def wLast : Int := 1644934066848226262289861492935

end Ufunclab.Debye1

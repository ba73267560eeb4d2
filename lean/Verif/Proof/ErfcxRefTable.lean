import Verif.Proof.Debye1Poly
/-! # Reference polynomials for `erfcx`

Row `k - 2` is `10^30` times a Taylor polynomial, about `t = 0`, of
`erfcx (800 / (t + 2 k + 1) - 4)`. -/
namespace Ufunclab.Erfcx

def refs : List (List ℤ) :=
  [[3616525593563017509052192150, 741820923235554299998475566, 3794831995752817055039378, 18771627028261980977102, 89484715158270918768, 409345647467362615, 1787148777170546, 7392845047173, 28684087169, 102817576, 332075, 921, 2, 0],
   [5115498386003197926423227454, 757228407347915744954246509, 3909642572673562743755836, 19504168711184187818469, 93687503101428312559, 431425492233934336, 1893931448506070, 7866919876382, 30595808039, 109665106, 352851, 968, 2, 0],
   [6645751317267304982635458574, 773104060544473633415008561, 4028951058939935780346652, 20271233245614571949558, 98117631362501568626, 454827421766687307, 2007569952232438, 8372588477817, 32634586430, 116938553, 374669, 1016, 2, 0],
   [8208238997024120788702001893, 789466296118816132424386383, 4152970155262256954212545, 21074693352342795345636, 102788741129387931170, 479636417720021803, 2128521121331544, 8911946108053, 34808277353, 124658908, 397543, 1064, 2, 0],
   [9803953727535219316998670615, 806334401083427371890578414, 4281924132973689013619796, 21916534355208683961050, 107715351412061825685, 505943123307140446, 2257272016287426, 9487216738513, 37125115807, 132847381, 421482, 1112, 2, 0],
   [11433927298290302370390014148, 823728583831964507297803399, 4416049531176533984884647, 22798861435050359953072, 112912917508279554261, 533844217012746379, 2394341769778562, 10100759160656, 39593719559, 141525268, 446484, 1161, 2, 0],
   [13099232878814653980036657665, 841670024679068505765850860, 4555595898845740046632614, 23723907366625093317643, 118397893318804527978, 563442808955855518, 2540283517062187, 10755073115739, 42223089375, 150713801, 472544, 1208, 2, 0],
   [14800987015587535621174763893, 860180929463458179438523726, 4700826584881675355577086, 24694040770218761621196, 124187797743799650776, 594848860931910803, 2695686412095744, 11452805405373, 45022606314, 160433972, 499644, 1255, 2, 0],
   [16540351739394069380092287254, 879284586412413305447067683, 4852019579300163386813130, 25711774911554128907558, 130301285402315335444, 628179631160065469, 2861177728781286, 12196755932397, 48002025652, 170706334, 527758, 1300, 2, 0],
   [18318536789842392647597051008, 899005426478915796119374970, 5009468408955323788889405, 26779777085584490066286, 136758221927008827397, 663560144749694929, 3037425045962357, 12989883614408, 51171466960, 181550770, 556844, 1343, 2, 0],
   [20136801964214276776510103363, 919369087376735246839186955, 5173483091410414044125388, 27900878621816622334994, 143579764096272209865, 701123690878697058, 3225138513942643, 13835312104651, 54541399859, 192986246, 586852, 1384, 2, 0],
   [21996459598282740954670145945, 940402481553666166044135404, 5344391150804101956277336, 29078085550943712609334, 150788445075719373697, 741012347643661890, 3425073199325045, 14736335246826, 58122624920, 205030520, 617711, 1421, 1, 0],
   [23898877187226319501063015289, 962133868359000058531412528, 5522538699804885794370323, 30314589974782380465686, 158408265050369816581, 783377535497171961, 3638031503882691, 15696422181885, 61926249167, 217699829, 649339, 1454, 1, 0],
   [25845480155298518485711393583, 984592930678199405165905737, 5708291592005167885319217, 31613782183794497145131, 166464787537738882767, 828380600128903746, 3864865651964547, 16719222016003, 65963655627, 231008541, 681633, 1481, 1, 0],
   [27837754783474696599325710128, 1007810856325687327803546710, 5902036649379203832356015, 32979263568829513012817, 174985241680254858021, 876193425573350672, 4106480239603321, 17808567949795, 70246466336, 244968779, 714470, 1503, 1, 0],
   [29877251304899307550077561481, 1031820424505732856222609057, 6104182969716186819011820, 34414860376140531973610, 183998630822812969790, 926999078236345969, 4363834837029203, 18968480759510, 74786498237, 259590006, 747706, 1517, 0, 0],
   [31965587178596443476754682012, 1056656097671655230209844573, 6315163319241438639126972, 35924638357200149189363, 193535847687669090732, 980992482423566541, 4637946634697854, 20203171511612, 79595711356, 274878580, 781175, 1524, 0, 0],
   [34104450552588334841801108283, 1082354119135050903897500005, 6535435615955372258348231, 37512918367361367950062, 203629796464080393572, 1038381127825274643, 4929893121215118, 21517043382789, 84686148708, 290837282, 814685, 1521, 0, 0],
   [36295603928292425715979060328, 1108952616799524313543335595, 6765484509551813846982528, 39184292969964408339167, 214315522133909262372, 1099385809261142379, 5240814779686180, 22914692448435, 90069867362, 307464806, 848019, 1508, -1, 0],
   [38540888038840509795337924781, 1136491713417539332037675262, 7005823064124607272446154, 40943644105069871306295, 225630347356597904440, 1164241398815583369, 5571917787037791, 24400907293924, 95758860141, 324755228, 880932, 1482, -1, 0],
   [40842225954785960651090667128, 1165013643794564547377544263, 7256994550234275226693564, 42796161884588643570088, 237614017237256904422, 1233197650296133411, 5924476698765675, 25980667294968, 101764967480, 342697445, 913150, 1444, -2, 0],
   [43201627431540222423853371789, 1194562879391724194623090273, 7519574353284893602051027, 44747364578163281790394, 250308852299839939841, 1306520035723725648, 6299837099355377, 27659139406083, 108099779018, 361274595, 944372, 1392, -3, 0],
   [45621193513810471438048957899, 1225186260806749730120239771, 7794172005555163351089474, 46803119856716494865225, 263759909983234698842, 1384490613312981998, 6699418196326552, 29441673290020, 114774524574, 380463460, 974264, 1323, -3, 0],
   [48103121413299865518245269081, 1256933138643216084044557912, 8081433349636736945091762, 48969667363099686198489, 278015154971311083680, 1467408926121854903, 7124715333474668, 31333794616107, 121799954253, 400233854, 1002462, 1237, -4, 0],
   [50649709676983338502271336289, 1289855523309901934215925304, 8382042841456847671176697, 51253642681726014872548, 293125638658247123120, 1555592930242284960, 7577302396450320, 33341196352153, 129186207519, 420548011, 1028572, 1133, -5, 0],
   [53263363664388864183765123049, 1324008244325693697352111483, 8696726001500731620718384, 53662102781433468665596, 309145688037508841945, 1649379951066437796, 8058834081348818, 35469727873100, 136942671217, 441359971, 1052169, 1009, -6, 0],
   [55946601353500013797722706084, 1359449119740814944350085450, 9026252023301601816953003, 56202553008067042961689, 326133104286396814365, 1749127665796304155, 8571047994508987, 37725381710216, 145077826655, 462614981, 1072798, 863, -7, 0],
   [58702059496154081816255407895, 1396239136322360401549428828, 9371436548731240071712476, 58882975705365946195360, 344149371297792735597, 1855215109968103188, 9115766549271986, 40114277767718, 153599086011, 484248907, 1089978, 695, -7, 0],
   [61532500145144778048000412902, 1434442641191196860668457512, 9733144620101640264665262, 61711860544660100449916, 363259874386350655021, 1968043705337534902, 9694898623063642, 42642644839375, 162512618509, 506187687, 1103197, 503, -9, 0],
   [64440817576653297997555800489, 1474127545638308158504132617, 10112293819576395000843961, 64698236645586050061368, 383534129367593440961, 2088038306018444984, 10310440935876419, 45316799266261, 171823167010, 528346817, 1111922, 286, -10, 0],
   [67430045633130393285638878674, 1515365541891648771263620529, 10509857606888283290817331, 67851706571489462603395, 405046022174921530925, 2215648259287343920, 10964479109082111, 48143120588603, 181533855842, 550630892, 1115597, 44, -11, 0],
   [70503365513338850711118842024, 1558232333649565390456136149, 10926868866865183214943055, 71182482284351308911871, 427874059141161109943, 2351348476961439990, 11659188361548996, 51128024059731, 191645990925, 572933213, 1113649, -225, -12, 0],
   [73664114037944596354780150534, 1602807881243876104521621157, 11364423678778157304230011, 74701423144917176174092, 452101628027738153564, 2495640512730940318, 12396833798315520, 54277929908755, 202158853467, 595135465, 1105491, -521, -13, 0],
   [76915792420819562378277515649, 1649176662344782635336462913, 11823685320041248815943227, 78420076044181868953407, 477817269835657168003, 2649053640280470898, 13179770245636383, 57599229260799, 213069488733, 617107495, 1090527, -844, -14, 0],
   [80262075578094612818584775640, 1697427949170943728911523924, 12305888517309835948653283, 82350717752440839958580, 505114961378017126097, 2812145926473296906, 14010441585117262, 61098246649465, 224372491614, 638707181, 1068157, -1194, -15, 0],
   [83706822008980357446827474283, 1747656103221258610506796470, 12812343958540704377936108, 86506399571721200810064, 534094408533680592090, 2985505293299935878, 14891379538942760, 64781199085808, 236059790964, 659780426, 1037784, -1571, -16, 0],
   [87254084284461718233595504314, 1799960888600188723524931245, 13344443080089430367327797, 90900994376502358995253, 564861350035840464029, 3169750561714711284, 15825201857929486, 68654151681182, 248120434883, 680161274, 998821, -1975, -17, 0],
   [90908120182172748487720082219, 1854447805065762021557748996, 13903663143426055154246512, 95549246126183504148755, 597527871577569910890, 3365532469905358414, 16814609864351826, 72722969857950, 260540379328, 699672165, 950695, -2404, -18, 0],
   [94673404508075481126573902990, 1911228441988721913575377897, 14491572616544936806802761, 100466821930705990872628, 632212729939021292215, 3573534657968113147, 17862385302238873, 76993268221859, 273302282657, 718124339, 892860, -2857, -19, 0],
   [98554641648004456559847211762, 1970420854472553301651417399, 15109836875625372505966458, 105670366748047366605961, 669041686757849661274, 3794474610400472991, 18971386449170296, 81470356212642, 286385308837, 735318398, 824801, -3333, -20, 0],
   [102556778894700895320818361506, 2032149962947276318040287147, 15760224242962104538155972, 111177560788925600133365, 708147851475835768317, 4029104547283195141, 20144543445544945, 86159180694678, 299764942236, 751045030, 746042, -3830, -21, 0],
   [106685020598650933187047244657, 2096547977614863200775231581, 16444612377624905287735079, 117007179699943779923016, 749672032900806149733, 4278212254509690251, 21384852799891250, 91064265696916, 313412816999, 765085909, 656159, -4344, -22, 0],
   [110944843193864444748466818442, 2163754849190806563261201671, 17164995035719575331384187, 123179157591526152150548, 793763098724105592668, 4542621842942732915, 22695371032058216, 96189649560187, 327296564114, 777214758, 554783, -4874, -22, 0],
   [115342011152688047152996722020, 2233918747454630931537777948, 17923489217504141496394652, 129714652971307651726332, 840578342230462547177, 4823194425943547229, 24079207420087375, 101538819799817, 341379679283, 787198598, 441614, -5416, -23, 0],
   [119882593926840947401370508265, 2307196569191857244253109418, 18722342718958846447866815, 136636117637106312664852, 890283855329576390567, 5120828704335198867, 25539515821227701, 107114646041543, 355621414732, 794799162, 316425, -5966, -23, 0],
   [124572983935098129071701064574, 2383754477180945187257572525, 19563942105711519693090202, 143967368576200532611209, 943054906927706210054, 5436461447539235046, 27079485542915522, 112919311438321, 369976698014, 799774476, 179072, -6521, -23, 0],
   [129419915661424388164104184895, 2463768471950872937584931514, 20450821127475784044228979, 151733662909325326565557, 999076325543597044293, 5771067859369979207, 28702331245587747, 118954243023903, 384396080785, 801880606, 29506, -7076, -23, 0],
   [134430485930886966134255386598, 2547424998108068691602385688, 21385669591362815165837820, 159961775908573128148998, 1058542884956966632153, 6125661816792914777, 30411281865905978, 125220041505363, 398825720351, 800873553, -132230, -7626, -23, 0],
   [139612175434345613525999311828, 2634921587105161735004115689, 22371342712572464652749083, 168680082108221197107161, 1121659691560298420247, 6501295969859940876, 32209568556306558, 131716411040059, 413207396589, 796511285, -305982, -8167, -22, 0],
   [144972871576738006901282137603, 2726467538398228839158859068, 23410870961050843747525267, 177918639516401825569714, 1188642571966724920344, 6899061691032226190, 34100411644711302, 138442089582226, 427478566595, 788555893, -491489, -8694, -22, 0],
   [150520892727746181520285013810, 2822284641013607898018839837, 24507470422713286955760053, 187709276923483182728719, 1259718459309289262801, 7320088862197576352, 36087006626677702, 145394780419506, 441572459091, 776775851, -688374, -9201, -21, 0],
   [156265013957746123264094221552, 2922607937619645807308250763, 25664553693768336684362425, 198085684290045532523824, 1335125776550854571285, 7765545487889557884, 38172509211167460, 152571085549572, 455418210280, 760948356, -896141, -9682, -19, 0],
   [162214494346207375680042251325, 3027686533272630070591816230, 26885741326534447008684613, 209083506183435761254533, 1415114815010457791193, 8236637123525093326, 40360019450388747, 159966441570872, 468941042435, 740861734, -1114174, -10133, -18, 0],
   [168379105954121306591890586685, 3137784451079289901470522693, 28174873844911054516665029, 220740438217087446182555, 1499948106202089147542, 8734606107899853793, 42652564993732137, 167575058778668, 482062486073, 716317873, -1341732, -10547, -16, 0],
   [174769164556593699539167545274, 3253181537090287648255056067, 29536024347344240329516854, 233096326431137910281262, 1589900784976867247836, 9260730589719403691, 45053083515574882, 175389864167462, 494700646106, 687134668, -1577955, -10920, -15, 0],
   [181395562236437013642325190599, 3374174416809679544355529154, 30973511714709374003811906, 246193269536400943710381, 1685260941860542502480, 9816323338600358150, 47564404376568275, 183402449043129, 506770511841, 653148445, -1821860, -11245, -12, 0],
   [188269801944436645497844940556, 3501077505774010842959716804, 32491914440014138008091370, 260075723926516636251207, 1786329962386377709178, 10402730331750160041, 50189229587837282, 191603021942124, 518184310215, 614216339, -2072350, -11518, -10, 0],
   [195404034136939673514881860196, 3634224076721110758569114992, 34096085096200775123786570, 274790611345159997898231, 1893422851139900910345, 11021329108425472627, 52930114157194816, 199980367540860, 528851901093, 570218583, -2328214, -11733, -8, 0],
   [202811095606518869589264253749, 3773967385932336898823227158, 35791165457592274507110421, 290387429076619042198598, 2006868538157961586906, 11673526885275214191, 55789445905886799, 208521812215575, 538681212958, 521060698, -2588135, -11886, -5, 0],
   [210504550626693349789908314277, 3920681861392541484649477255, 37582602289679964708195728, 306918362508931225659936, 2127010165261075357731, 12360758426791103573, 58769424853419262, 217213196881678, 547578716741, 466675541, -2850698, -11972, -2, 0],
   [218498734537033324798331778120, 4074764355468933881045318049, 39476163820986572608127630, 324438399899183888961675, 2254205349846297634309, 13084483666310983491, 61872042276556622, 226038857701909, 555449935091, 407025190, -3114397, -11988, 1, 0],
   [226808799900432293264532296834, 4236635464862825992336518843, 41477956909656756353456625, 343005449150637379205803, 2388826423628846529263, 13846185074341478450, 65099059556505401, 234981615204807, 562199983820, 342102627, -3377649, -11931, 4, 0],
   [235450765369887039367356419936, 4406740920636490398728852471, 43594444916224558776300886, 362680456391124496690318, 2531260643795349633301, 14647364772378699314, 68451986935498725, 244022772299471, 567734141837, 271933216, -3638802, -11797, 7, 0],
   [244441567407774328391751466485, 4585553051160551030416475778, 45832466292682942348261121, 383527526121829714913469, 2681910374020781139227, 15489541391899403024, 71932062310369182, 253142121609800, 571958445425, 196575931, -3896148, -11585, 11, 0],
   [253799115006342646430401145146, 4773572320864974525689809458, 48199253896534041694686226, 405614042685175694162092, 2841193232805648906412, 16374246679759718155, 75540230196144320, 262317962482072, 574780302347, 116124323, -4147940, -11292, 14, 0],
   [263542347563936130327499726995, 4971328947708348428408382912, 50702455036930223374853376, 429010792780268045633834, 3009542206610438151527, 17303021852862614446, 79277120997132916, 271527127944517, 576109120907, 30707214, -4392401, -10918, 17, 0],
   [273691296077323433992125407593, 5179384602305233670131658874, 53350152258326458600849739, 453792088734301945795307, 3187405725301250827390, 18277413706626105538, 83143030726315207, 280745021817327, 575856948811, -59510909, -4627743, -10463, 21, 0],
   [284267147816403161727833052374, 5398334191669482483817267595, 56150884865255667181997355, 480035892218649624672092, 3375247697474398173623, 19298970483488266261, 87137901316042487, 289945666087231, 573939116463, -154329799, -4852181, -9927, 24, 0],
   [295292314653485199197082229634, 5628807730542046852056428788, 59113671189913164578273404, 507823938079162189983275, 3573547503298670956239, 20369237509408368958, 91261301664040487, 299101758573354, 570274879150, -253513669, -5063949, -9311, 27, 0],
   [306790505225288386123792757672, 5871472303274506625475207644, 62248031602197545417068193, 537241857931670461446382, 3782799942602245869156, 21489752608051124707, 95512409558460136, 308184740821561, 564788052472, -356791718, -5261314, -8618, 30, 0],
   [318786801111733194269898485920, 6127034119233875661634397710, 65564012259707501281951667, 568379303155895590491232, 4003515136036657137557, 22662041304058132618, 99889994624207046, 317164876073965, 557407635363, -463858988, -5442595, -7850, 34, 0],
   [331307737221526220292749876376, 6396240664679772432589825082, 69072209592942259881095946, 601330066904118498067584, 4236218377272787999968, 23887611828502000120, 104392402430000529, 326011337069795, 548068415059, -574377512, -5606176, -7010, 36, 0],
   [344381386580413365234453460844, 6679882954041364118943953378, 72783795518603426742688409, 636192204725142784705700, 4481449934323083875318, 25167949941269015698, 109017539891572618, 334692303344517, 536711548504, -687977779, -5750521, -6102, 39, 0],
   [358037449723801755819439945270, 6978797883488230968631162239, 76710543371454691288277542, 673068153389450685963058, 4739764798239673033058, 26504513586710739960, 113762862101140661, 343175067606935, 523285114815, -804260485, -5874189, -5131, 42, 0],
   [372307348901197241863164500915, 7293870689646099662927801878, 80864854542670587202797313, 712064847488123324061900, 5011732377609168633559, 27898727400428806354, 118625360706811636, 351426150690088, 507744633709, -922798562, -5975846, -4102, 44, 0],
   [387224327305554482221393885849, 7626037516254940964281095596, 85259785810004481570988889, 753293833366196762969170, 5297936137450841557578, 29351977086496504092, 123601553957954171, 359411424492030, 490053545037, -1043139464, -6054280, -3020, 46, 0],
   [402823553546169406660755429237, 7976288091502932656876472839, 89909077342438128572975016, 796871379940769262627013, 5598973181324682493097, 30865603685761970587, 128687478523870550, 367096242247943, 470183644945, -1164807700, -6108410, -1893, 48, 0],
   [419142231589137876491112561523, 8345668518695005399267821220, 94827181359250049244666286, 842918585945469865324770, 5915453775668570620843, 32440897757108521602, 133878683183392901, 374445575406314, 448115474578, -1287307569, -6137299, -727, 49, 0],
   [436219716394637868979715381862, 8735284182828907859424828429, 100029291420667893798933676, 891561483135942412459158, 6248000815608170851303, 34079093494656261697, 139170224472403640, 381424156319878, 423838657651, -1410126100, -6140158, 472, 51, 0],
   [454097635485343309805462666003, 9146302775554781628694902209, 105531372324461573594411169, 942931134985880902846517, 6597249231718018002240, 35781362804865231795, 144556664364838108, 387996625907307, 397352183728, -1532736142, -6116359, 1695, 51, 0],
   [472820016685123314667032775703, 9579957440886003232073380294, 111350190580000582688806118, 997163730399949792201854, 6963845337456142573219, 37548809368334779118, 150032070050573498, 394127685394756, 368664634529, -1654599599, -6065436, 2936, 52, 0],
   [492433422271798416497020375857, 10037550043909453345814261128, 117503345428452265211515775, 1054400671968703099189581, 7348446117246091547986, 39382462711778710650, 155590015860855955, 399782251207809, 337794351107, -1775170759, -5987094, 4187, 52, 0],
   [512987089792092583292265825498, 10520454564612382935719052468, 124009300374949890358159275, 1114788658291433773466573, 7751718455437769851767, 41283272316184639773, 161223587378685501, 404925612054432, 304769540329, -1893899706, -5881209, 5439, 52, 0],
   [534533079791013698433443910024, 11030120618800682147162859377, 130887415195722628763263584, 1178479759895781969726643, 8174338306640587069944, 43252101787533728436, 166925387757988625, 409523587218408, 269628319578, -2010235763, -5747828, 6685, 52, 0],
   [557126430711692994774465381000, 11568077107929690002408546924, 138157978380366454656661657, 1245631488287937058680378, 8616989808187310259688, 45289723116660217152, 172687546261585247, 413542685070528, 232418699233, -2123630962, -5587174, 7917, 51, 0],
   [580825321225193209655083259259, 12135935999503831473007379584, 145842239966658336899892828, 1316406857674399632704696, 9080364335753139635892, 47396811054866673672, 178501729014025439, 416950260801560, 193198502974, -2233543475, -5399639, 9127, 50, 0],
   [605691240252933755551739355343, 12735396239525504455174393497, 153962444722588595611574171, 1390974438905529349978306, 9565159503420169069242, 49573937631780225858, 184359151951455878, 419714672386510, 152035226533, -2339441016, -5185784, 10309, 49, 0],
   [631789164947157168939900509681, 13368247798286984793123357909, 162541865627620733915389705, 1469508405202481759233172, 10072078109740899063290, 51821566841638099523, 190250595936898172, 421805433803802, 109005836041, -2440804151, -4946332, 11453, 47, 0],
   [659187746897253191988936121061, 14036375850601945777110530941, 171604837602597048044570869, 1552188569242608517999209, 10601827031614184026734, 54140049523729922465, 196166423995799201, 423193364555384, 64196507614, -2537129506, -4682166, 12554, 45, 0],
   [687959506831744338206702643451, 14741765091365822726148952557, 181176791435204333402910962, 1639200411193923816676683, 11155116068041296712039, 56529618462103234437, 202096600613560349, 423850734563997, 17702310304, -2627932851, -4394315, 13605, 43, 0],
   [718181038087299670346306630937, 15486504187117065932266374129, 191284287845509239353267738, 1730735097306775701076723, 11732656736077103335202, 58990383728862533898, 208030713024075132, 423751403561500, -30373165006, -2712752021, -4083955, 14600, 40, 0],
   [749933219117262546575701010098, 16272790364044737130773742284, 201955051633779146307505460, 1826989488690342300656542, 12335161021530142834711, 61522328294467312860, 213957994406202977, 422870954126631, -79918227787, -2791149661, -3752391, 15532, 37, 0],
   [783301435312834927298302908737, 17102934132652383172896636377, 213218005850633301716834294, 1928166139922925777997130, 12963340087194241684579, 64125303927368348860, 219867348893672822, 421186817581378, -130813557767, -2862715785, -3401051, 16396, 35, 0],
   [818375810410238118325256863491, 17979364149044178010155223175, 225103305927531335543397123, 2034473287168155879374670, 13617902941611800382199, 66799027404122556842, 225747378293226729, 418678392011450, -182932718873, -2927070107, -3031476, 17189, 31, 0],
   [855251447756851262367942979083, 18904632212547515599818319590, 237642373703712615831742864, 2146124825494044432372740, 14299555071573777912277, 69543077049804414253, 231586410395954772, 415327151737704, -236142713240, -2983864156, -2645305, 17905, 28, 0],
   [894028681708499337318371909320, 19881418399127157603278934276, 250867931283960031089906237, 2263340275118246289835315, 15008997041752493709716, 72356889627096647635, 237372528757801997, 411116747630822, -290304571074, -3032783147, -2244264, 18540, 25, 0],
   [934813339428707963637781015530, 20912536329780324484389348647, 264814034659984866503861318, 2386344736330766307414671, 15746923065039586989748, 75239757590905503849, 243093603817200133, 406033097730575, -345273971967, -3073547601, -1830157, 19092, 21, 0],
   [977717013358850354660584667217, 22000938572830435794847670273, 279516107026823930269917054, 2515368832874583052551363, 16514019547321857845997, 78190826723718103858, 248737325210734598, 400064467702732, -400901893109, -3105914714, -1404845, 19558, 18, 0]]

end Ufunclab.Erfcx

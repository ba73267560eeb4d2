/-! # The coefficients in src/normal/erfcx_funcs.cxx

The decimal literal `m * 10^-e` is written `(m, e)`; the row `k` is `case k`, the constant
coefficient first. -/
namespace Ufunclab.Erfcx

/-- `erfcx_y100(float)`, lines 20-632. -/
def tableF : List (List (Int × Nat)) :=
  [[(70878031, 11), (71234091, 11), (35779893, 13), (17403772, 15)],
   [(21479143, 10), (72686402, 11), (3684403, 12), (1807229, 14)],
   [(36165256, 10), (74182092, 11), (37949215, 13), (18772039, 15)],
   [(51154984, 10), (75722841, 11), (39097363, 13), (19504597, 15)],
   [(66457513, 10), (77310406, 11), (40290492, 13), (20271688, 15)],
   [(8208239, 9), (7894663, 10), (41530729, 13), (21075178, 15)],
   [(98039537, 10), (8063344, 10), (42820319, 13), (2191704, 14)],
   [(11433927, 9), (82372858, 11), (44161624, 13), (22799382, 15)],
   [(13099233, 9), (84167002, 11), (45557143, 13), (2372447, 14)],
   [(14800987, 9), (86018093, 11), (47009508, 13), (24694636, 15)],
   [(16540352, 9), (87928459, 11), (48521499, 13), (2571241, 14)],
   [(18318537, 9), (89900543, 11), (50096052, 13), (26780443, 15)],
   [(20136802, 9), (91936909, 11), (51736267, 13), (2790158, 14)],
   [(2199646, 8), (94040248, 11), (53445419, 13), (29078821, 15)],
   [(23898877, 9), (96213387, 11), (55226971, 13), (30315371, 15)],
   [(2584548, 8), (98459293, 11), (57084581, 13), (31614608, 15)],
   [(27837755, 9), (10078109, 10), (59022116, 13), (32980143, 15)],
   [(29877251, 9), (10318204, 10), (6104367, 12), (34415786, 15)],
   [(31965587, 9), (10566561, 10), (63153569, 13), (35925621, 15)],
   [(34104451, 9), (10823541, 10), (65356393, 13), (3751396, 14)],
   [(36295604, 9), (11089526, 10), (67656988, 13), (39185394, 15)],
   [(38540888, 9), (11364917, 10), (70060487, 13), (40944806, 15)],
   [(40842226, 9), (11650136, 10), (72572322, 13), (42797396, 15)],
   [(43201627, 9), (11945629, 10), (75198247, 13), (44748672, 15)],
   [(45621193, 9), (12251863, 10), (77944358, 13), (46804501, 15)],
   [(48103121, 9), (12569331, 10), (80817114, 13), (48971131, 15)],
   [(5064971, 8), (12898555, 10), (8382336, 12), (51255197, 15)],
   [(53263364, 9), (13240082, 10), (86970352, 13), (53663752, 15)],
   [(55946601, 9), (13594491, 10), (90265782, 13), (56204303, 15)],
   [(58702059, 9), (13962391, 10), (93717807, 13), (5888483, 14)],
   [(615325, 7), (14344426, 10), (97335079, 13), (61713828, 15)],
   [(64440818, 9), (14741275, 10), (10112677, 12), (64700327, 15)],
   [(67430046, 9), (15153655, 10), (10510263, 12), (67853924, 15)],
   [(70503365, 9), (15582323, 10), (10927297, 12), (71184832, 15)],
   [(73664114, 9), (16028079, 10), (11364876, 12), (74703919, 15)],
   [(76915792, 9), (16491767, 10), (11824163, 12), (78422724, 15)],
   [(80262076, 9), (16974279, 10), (12306394, 12), (8235353, 14)],
   [(83706822, 9), (17476561, 10), (12812878, 12), (86509387, 15)],
   [(87254084, 9), (17999609, 10), (13345008, 12), (90904164, 15)],
   [(9090812, 8), (18544478, 10), (13904261, 12), (95552612, 15)],
   [(94673404, 9), (19112284, 10), (14492205, 12), (1004704, 13)],
   [(98554642, 9), (19704209, 10), (15110506, 12), (10567416, 14)],
   [(10255678, 8), (203215, 8), (15760932, 12), (11118159, 14)],
   [(10668502, 8), (2096548, 9), (16445362, 12), (11701146, 14)],
   [(11094484, 8), (21637548, 10), (17165789, 12), (1231837, 13)],
   [(11534201, 8), (22339187, 10), (1792433, 11), (12971948, 14)],
   [(11988259, 8), (23071966, 10), (18723233, 12), (13664124, 14)],
   [(12457298, 8), (23837545, 10), (19564885, 12), (1439728, 13)],
   [(12941992, 8), (24637685, 10), (2045182, 11), (15173943, 14)],
   [(13443049, 8), (2547425, 9), (21386728, 12), (1599679, 13)],
   [(13961218, 8), (26349216, 10), (22372464, 12), (16868658, 14)],
   [(14497287, 8), (27264675, 10), (2341206, 11), (17792554, 14)],
   [(15052089, 8), (28222846, 10), (2450873, 11), (1877166, 13)],
   [(15626501, 8), (29226079, 10), (25665889, 12), (19809345, 14)],
   [(16221449, 8), (30276865, 10), (26887156, 12), (20909174, 14)],
   [(16837911, 8), (31377844, 10), (28176374, 12), (22074917, 14)],
   [(17476916, 8), (32531815, 10), (29537614, 12), (23310559, 14)],
   [(18139556, 8), (33741744, 10), (30975197, 12), (24620309, 14)],
   [(1882698, 7), (35010775, 10), (32493701, 12), (26008613, 14)],
   [(19540403, 8), (36342241, 10), (34097979, 12), (27480163, 14)],
   [(2028111, 7), (37739674, 10), (35793172, 12), (2903991, 13)],
   [(21050455, 8), (39206819, 10), (37584729, 12), (30693072, 14)],
   [(21849873, 8), (40747644, 10), (39478418, 12), (32445148, 14)],
   [(2268088, 7), (42366355, 10), (41480346, 12), (3430193, 13)],
   [(23545077, 8), (44067409, 10), (43596976, 12), (3626951, 13)],
   [(24444157, 8), (4585553, 9), (45835148, 12), (38354302, 14)],
   [(25379911, 8), (47735723, 10), (48202095, 12), (40563042, 14)],
   [(26354235, 8), (49713289, 10), (50705465, 12), (4290281, 13)],
   [(2736913, 7), (51793846, 10), (5335334, 11), (45381037, 14)],
   [(28426715, 8), (53983342, 10), (5615426, 11), (48005519, 14)],
   [(29529231, 8), (56288077, 10), (59117245, 12), (50784431, 14)],
   [(3067905, 7), (58714723, 10), (62251814, 12), (53726335, 14)],
   [(3187868, 7), (61270341, 10), (65568016, 12), (56840197, 14)],
   [(33130774, 8), (63962407, 10), (69076446, 12), (60135395, 14)],
   [(34438139, 8), (6679883, 9), (72788277, 12), (63621737, 14)],
   [(35803745, 8), (69787979, 10), (76715283, 12), (67309466, 14)],
   [(37230735, 8), (72938707, 10), (80869866, 12), (71209275, 14)],
   [(38722433, 8), (76260375, 10), (85265084, 12), (75332319, 14)],
   [(40282355, 8), (79762881, 10), (89914676, 12), (79690225, 14)],
   [(41914223, 8), (83456685, 10), (94833097, 12), (84295103, 14)],
   [(43621972, 8), (87352842, 10), (10003554, 11), (89159556, 14)],
   [(45409763, 8), (91463028, 10), (10553797, 11), (94296692, 14)],
   [(47282002, 8), (95799574, 10), (11135715, 11), (99720128, 14)],
   [(49243342, 8), (1003755, 8), (11751069, 11), (10544401, 13)],
   [(51298709, 8), (10520455, 9), (12401705, 11), (11148299, 13)],
   [(53453308, 8), (11030121, 9), (13089559, 11), (1178523, 12)],
   [(55712643, 8), (11568077, 9), (1381666, 10), (12456768, 13)],
   [(58082532, 8), (12135936, 9), (14585132, 11), (13164543, 13)],
   [(60569124, 8), (12735396, 9), (15397201, 11), (1391024, 12)],
   [(63178916, 8), (13368248, 9), (16255194, 11), (14695602, 13)],
   [(65918775, 8), (14036376, 9), (17161544, 11), (15522427, 13)],
   [(68795951, 8), (14741765, 9), (18118795, 11), (16392569, 13)],
   [(71818104, 8), (15486504, 9), (19129602, 11), (17307941, 13)],
   [(74993322, 8), (1627279, 8), (20196739, 11), (1827051, 12)],
   [(78330143, 8), (17102934, 9), (21323097, 11), (19282303, 13)],
   [(81837581, 8), (17979364, 9), (22511692, 11), (20345401, 13)],
   [(85525145, 8), (18904632, 9), (23765667, 11), (21461944, 13)],
   [(89402868, 8), (19881418, 9), (25088294, 11), (22634126, 13)],
   [(93481334, 8), (20912536, 9), (26482978, 11), (238642, 11)],
   [(97771701, 8), (22000939, 9), (27953262, 11), (2515447, 12)]]

/-- `erfcx_y100(double)`, lines 662-1574. -/
def tableD : List (List (Int × Nat)) :=
  [[(70878032454106437567, 23), (71234091047026296381, 23), (35779077297600978755, 25), (17403143962938395818, 27), (81710658954105280839, 30), (36884993216906251631, 32), (15925083867231026462, 34)],
   [(21479143208285144232, 22), (72686402367379996033, 23), (36843175430938957732, 25), (18071841272149208857, 27), (85496449306125340161, 30), (38852037517947636079, 32), (16868406345089237863, 34)],
   [(36165255935630175091, 22), (74182092323555510861, 23), (37948319957528201925, 25), (18771627021793095456, 27), (89484715133171668355, 30), (40935858517100643818, 32), (17871989752180293814, 34)],
   [(51154983860031979264, 22), (75722840734791660542, 23), (39096425726735660902, 25), (19504168704300476958, 27), (93687503074656565151, 30), (43143925958366247112, 32), (18939849918746071976, 34)],
   [(66457513172673049826, 22), (77310406054447454919, 23), (40289510589399393498, 25), (20271233238288390816, 27), (98117631333945742086, 30), (45484207405228643058, 32), (20076270636223428193, 34)],
   [(82082389970241207887, 22), (78946629611881710719, 23), (41529701552622607614, 25), (21074693344544665264, 27), (1027887410989303278, 28), (47965201389838914238, 32), (21285820365596140688, 34)],
   [(9803953727535219317, 21), (80633440108342840958, 23), (42819241329736930743, 25), (21916534346907180389, 27), (10771535137957671063, 29), (50595972622706759931, 32), (22573369861901172942, 34)],
   [(1143392729829030237, 20), (8237285838319656121, 22), (44160495311765383155, 25), (22798861426211994424, 27), (11291291747363444918, 29), (53386189365088734892, 32), (23944110597521668351, 34)],
   [(1309923287881465398, 20), (84167002467906968213, 23), (45555958988457446649, 25), (2372390735721419004, 26), (11839789328185865674, 29), (56346163066350352296, 32), (25403574084837760098, 34)],
   [(14800987015587535621, 21), (86018092946345943212, 23), (470082658488168028, 23), (24694040760197328774, 27), (12418779770440417246, 29), (59486890369232837221, 32), (26957652027460507142, 34)],
   [(1654035173939406938, 20), (8792845864124146395, 22), (48520195793001686371, 25), (25711774900881724771, 27), (13030128536031282497, 29), (62820097585634878692, 32), (28612617334694663418, 34)],
   [(18318536789842392648, 21), (89900542647891721692, 23), (50094684089553293859, 25), (26779777074218083789, 27), (13675822188223297357, 29), (66358287744314004633, 32), (30375145972723435926, 34)],
   [(20136801964214276777, 21), (91936908737673676011, 23), (51734830914104200097, 25), (27900878609710449867, 27), (14357976404854764762, 29), (70114790309701918224, 32), (32252339626786609903, 34)],
   [(21996459598282740955, 21), (94040248155366777787, 23), (53443911508041083135, 25), (29078085538049127715, 27), (15078844502486124109, 29), (74103813667886976597, 32), (34251749152425927205, 34)],
   [(23898877187226319501, 21), (96213386835900177537, 23), (55225386998048925677, 25), (30314589961047701511, 27), (15840826499618339826, 29), (78340500471220891901, 32), (36381398762627591314, 34)],
   [(25845480155298518486, 21), (98459293067820123388, 23), (57082915920051751002, 25), (31613782169164849417, 27), (16646478748001972, 26), (82840985927276572485, 32), (38649810898444607183, 34)],
   [(27837754783474696599, 21), (10078108563256892757, 22), (59020366493792115157, 25), (32979263553246667742, 27), (17498524161878821625, 29), (87622459110313467201, 32), (41066031724650835975, 34)],
   [(2987725130489930755, 20), (10318204245057349309, 22), (61041829697161949989, 25), (34414860359542742202, 27), (18399863075737374657, 29), (92703227364553438363, 32), (4363965715017604898, 33)],
   [(31965587178596443477, 21), (105665609767165744, 20), (6315163319241447345, 24), (3592463833952198328, 26), (19353584761802176652, 29), (9810278385750042391, 31), (46380859288752990285, 34)],
   [(34104450552588334842, 21), (10823541191350532574, 22), (65354356159553815211, 25), (37512918348533541442, 27), (20362979638997882165, 29), (10384187832874119791, 31), (49300413237807841795, 34)],
   [(36295603928292425716, 21), (11089526167995268199, 22), (67654845095518236985, 25), (39184292949913615253, 27), (21431552205509690839, 29), (10994259106455218795, 31), (52409724038175278216, 34)],
   [(38540888038840509795, 21), (11364917134175420009, 22), (70058230641246177462, 25), (40943644083718615671, 27), (22563034727280765252, 29), (11642841011137446228, 31), (55720853669690086573, 34)],
   [(40842225954785960651, 21), (11650136437945673891, 22), (72569945502342863574, 25), (42796161861855072407, 27), (23761401714821127734, 29), (12332431172135586634, 31), (59246547894438727926, 34)],
   [(43201627431540222424, 21), (11945628793917272199, 22), (75195743532849054256, 25), (44747364553961021126, 27), (25030885220525129838, 29), (13065684400079720115, 31), (63000262760298507463, 34)],
   [(45621193513810471438, 21), (12251862608067529504, 22), (77941720055551759047, 25), (46803119830954489763, 27), (26375990988280561463, 29), (13845421370735058379, 31), (66996190538702169275, 34)],
   [(48103121413299865518, 21), (12569331386432195113, 22), (80814333496367502672, 25), (48969667335682046819, 27), (27801515486473465962, 29), (14674637611379507175, 31), (71249284856170994991, 34)],
   [(50649709676983338502, 21), (1289855523309905581, 21), (83820428414568618011, 25), (51253642652551870102, 27), (29312563854520774078, 29), (15556512782558472093, 31), (75775284745577487406, 34)],
   [(53263363664388864184, 21), (13240082443256975769, 22), (8696726001500746599, 24), (53662102750396829216, 27), (30914568791768250262, 29), (16494420240556938087, 31), (80590737333297732014, 34)],
   [(55946601353500013798, 21), (13594491197408190707, 22), (90262520233016176851, 25), (56202552975056676179, 27), (32613310415945218056, 29), (1749193686226272077, 30), (85713018830576859843, 34)],
   [(58702059496154081816, 21), (13962391363223647891, 22), (93714365487312568718, 25), (58882975670265264618, 27), (34414937116339199416, 29), (18552853110134838082, 31), (91160353500528923299, 34)],
   [(61532500145144778048, 21), (14344426411912015248, 22), (97331446201016580397, 25), (61711860507347066474, 27), (3632598742441505288, 28), (19681183310732952168, 31), (96951830225678012165, 34)],
   [(64440817576653297998, 21), (14741275456383131151, 22), (10112293819576413794, 24), (64698236605933099463, 27), (3835341292172465831, 28), (20881176115729187192, 31), (10310741628857463593, 33)],
   [(67430045633130393286, 21), (1515365541891654037, 21), (10509857606888303146, 24), (67851706529363449159, 27), (40504602201607785038, 29), (22157325109528803944, 31), (10964796795750228801, 33)],
   [(70503365513338850711, 21), (15582323336495709827, 22), (10926868866865204176, 24), (7118248223961347322, 26), (42787405897346928966, 29), (23514379522568356324, 31), (11659523744464015233, 33)],
   [(73664114037944596355, 21), (16028078812438820413, 22), (11364423678778179416, 24), (74701423097423141296, 27), (4521016278508475884, 28), (24957355004101399567, 31), (12397187578724378681, 33)],
   [(76915792420819562378, 21), (16491766623447889354, 22), (11823685320041272121, 24), (78420075993781665903, 27), (477817269649219807, 27), (2649154440281596367, 30), (13180143119631745166, 33)],
   [(80262075578094612819, 21), (16974279491709504117, 22), (1230588851730986049, 23), (82350717698978965981, 27), (50511496118168967952, 29), (28122528498021024634, 31), (14010834239311545515, 33)],
   [(83706822008980357447, 21), (17476561032212656961, 22), (12812343958540730197, 24), (86506399515036713491, 27), (53409440832712681214, 29), (29856186618415984961, 31), (14891792645838344408, 33)],
   [(87254084284461718234, 21), (17999608886001962327, 22), (13344443080089457506, 24), (90900994316429009173, 27), (56486134981873365856, 29), (31698707079680014155, 31), (15825636070879108155, 33)],
   [(90908120182172748488, 21), (18544478050657699758, 22), (13903663143426083651, 24), (95549246062549910684, 27), (5975278713495957283, 28), (33656597366331344922, 31), (16815065812093214369, 33)],
   [(94673404508075481127, 21), (19112284419887303349, 22), (14491572616544966699, 24), (10046682186333586011, 26), (63221272969988053024, 29), (35736693977583854313, 31), (17862863583182865931, 33)],
   [(9855464164800445656, 20), (19704208544725622126, 22), (1510983687562540383, 23), (1056703666767597594, 25), (66904168650726134496, 29), (37946171851323448276, 31), (18971887625263197704, 33)],
   [(10255677889470089532, 20), (20321499629472857418, 22), (15760224242962137325, 24), (11117756071353524914, 26), (70814785121354039249, 29), (40292553274923096485, 31), (20145068035819978679, 33)],
   [(10668502059865093319, 20), (20965479776148731611, 22), (16444612377624939567, 24), (11700717962026145959, 26), (74967203262656901369, 29), (42783716186482764026, 31), (2138540127374897588, 32)],
   [(11094484319386444475, 20), (21637548491908170842, 22), (1716499503571961113, 23), (12317915750735910369, 26), (79376309843772032127, 29), (45427901765296067132, 31), (22695943802251553758, 33)],
   [(11534201115268804715, 20), (22339187474546420375, 22), (17923489217504178835, 24), (12971465288246006511, 26), (84057834193175470298, 29), (482337212060018057, 29), (24079804835490061905, 33)],
   [(1198825939268409474, 19), (23071965691918689601, 22), (18722342718958885344, 24), (13663611754337986728, 26), (89028385501840719981, 29), (51210161567043795372, 31), (25540138159397838453, 33)],
   [(12457298393509812907, 20), (2383754477180957538, 21), (19563942105711560159, 24), (14396736847739499793, 26), (94305490660397634231, 29), (54366590580837441172, 31), (27080133002530729588, 33)],
   [(12941991566142438816, 20), (24637684719508859484, 22), (20450821127475826088, 24), (15173366280523922376, 26), (99907632520725043126, 29), (57712760310493683218, 31), (28703003938794290357, 33)],
   [(13443048593088696613, 20), (25474249981080823877, 22), (21385669591362858787, 24), (1599617757990044531, 25), (10585428846079943233, 28), (61258809536174407286, 31), (30411979810623080924, 33)],
   [(13961217543434561353, 20), (26349215871051761416, 22), (22371342712572509847, 24), (16868008199296820492, 26), (1121659691198742387, 27), (65015264753216093842, 31), (32210291668578860416, 33)],
   [(1449728715767380069, 19), (27264675383982439814, 22), (23410870961050890503, 24), (17791863939526387597, 26), (11886425715926818692, 28), (68993039664139384013, 31), (34101159731129572981, 33)],
   [(15052089272774618152, 20), (28222846410136238007, 22), (24507470422713335253, 24), (1877092767962616454, 25), (12597184589229143452, 28), (73203433047624824544, 31), (36087779376971310321, 33)],
   [(15626501395774612326, 20), (29226079376196624949, 22), (25664553693768386496, 24), (19808568415654475071, 26), (13351257761523649159, 28), (77658124889538209324, 31), (38173306191072963326, 33)],
   [(16221449434620737568, 20), (30276865332726475671, 22), (26885741326534498299, 24), (20908350604346407149, 26), (14151148146001359721, 28), (82369170664184514217, 31), (40360840094769921995, 33)],
   [(16837910595412130659, 20), (31377844510793082301, 22), (28174873844911107242, 24), (22074043807045825126, 26), (14999481057802863904, 28), (87348993658196354145, 31), (42653408600140944041, 33)],
   [(17476916455659369954, 20), (32531815370903068317, 22), (29536024347344294437, 24), (23309632627767080213, 26), (15899007845440064286, 28), (92610375234847788663, 31), (45053949238252061492, 33)],
   [(18139556223643701364, 20), (33741744168096996041, 22), (30973511714709429431, 24), (24619326937592287212, 26), (16852609414171209001, 28), (98166442943149196154, 31), (47565291220975298305, 33)],
   [(1882698019444366455, 19), (35010775057740317997, 22), (32491914440014194684, 24), (26007572375886311873, 26), (17863299619329693824, 28), (1040306563838212879, 29), (50190136405847483576, 33)],
   [(19540403413693967351, 20), (36342240767211326315, 22), (34096085096200832967, 24), (27479061117017636554, 26), (1893422850677158811, 27), (11021679075315992329, 30), (52931039642926134774, 33)],
   [(20281109560651886959, 20), (3773967385932359706, 21), (35791165457592333425, 24), (29038742889416171565, 26), (2006868537686619205, 27), (11673891799586381241, 30), (55790388592347953542, 33)],
   [(21050455062669334979, 20), (39206818613925652424, 22), (37582602289680024599, 24), (30691836231886901486, 26), (21270101647819480347, 28), (12361138550906466362, 30), (58770383109936675257, 33)],
   [(2184987345370333248, 19), (40747643554689586041, 22), (3947616382098663336, 23), (32443839970139930976, 26), (22542053493602833739, 28), (13084879235202297106, 30), (61873014307126900834, 33)],
   [(22680879990043229326, 20), (42366354648628516935, 22), (41477956909656817843, 24), (3430054489450279795, 25), (2388826423136926353, 27), (13846596292916404077, 30), (65100043399083416699, 33)],
   [(23545076536988703937, 20), (44067409206365170888, 22), (43594444916224620872, 24), (3626804561776041843, 25), (25312606432985874359, 28), (14647791812825047385, 30), (68452980462285204351, 33)],
   [(24444156740777432839, 20), (45855530511605787179, 22), (45832466292683004905, 24), (38352752590033007902, 26), (26819103735203230425, 28), (15489984391042202509, 30), (7193306322912335896, 32)],
   [(25379911500634264643, 20), (47735723208650032167, 22), (4819925389653410456, 23), (4056140424556473119, 25), (28411932323027220435, 28), (16374705736448054346, 30), (75541236052597137949, 33)],
   [(26354234756393613033, 20), (49713289477083781267, 22), (50702455036930286386, 24), (42901079254268176504, 26), (30095422061063489212, 28), (17303497025403661832, 30), (7927812917848266754, 32)],
   [(27369129607732343399, 20), (51793846023052643766, 22), (53350152258326521584, 24), (45379208848865013634, 26), (31874057247973825819, 28), (18277905010284079807, 30), (83144038465849120191, 33)],
   [(28426714781640316173, 20), (53983341916695141966, 22), (56150884865255729956, 24), (4800358919649473863, 25), (33752476969722083523, 28), (19299477888066296938, 30), (87138905698877821238, 33)],
   [(2952923146534851992, 19), (56288077305420795663, 22), (59113671189913226951, 24), (50782393781744851171, 26), (35735475027996876426, 28), (2036976093693128866, 29), (91262299633997837285, 33)],
   [(30679050522528838612, 20), (58714723032745403331, 22), (6224803160219760719, 23), (53724185766200932056, 26), (37827999421080638104, 28), (21490291930567058295, 30), (95513397926037828731, 33)],
   [(31878680111173319427, 20), (61270341192339103515, 22), (65564012259707562247, 24), (56837930287837698349, 26), (40035151355489331998, 28), (22662596341576549167, 30), (99890970075659884491, 33)],
   [(33130773722152622029, 20), (639624066467980809, 20), (69072209592942319825, 24), (60133006661885939484, 26), (42362183767932361114, 28), (23888182347085403508, 30), (10439336153746081125, 32)],
   [(34438138658041336523, 20), (66798829540414007258, 22), (72783795518603485444, 24), (63619220443228799751, 26), (44814499338534694482, 28), (25168535651294901419, 30), (10901847912420231933, 32)],
   [(35803744972380175582, 20), (69787978834882685033, 22), (76710543371454748521, 24), (67306815308917364538, 26), (4739764797781806917, 27), (26505114141319718715, 30), (11376377783723756322, 32)],
   [(37230734890119724186, 20), (72938706896461381, 19), (80864854542670642736, 24), (71206484718062675432, 26), (50117323771649005753, 28), (27899342394173881076, 30), (11862624924684866036, 32)],
   [(38722432730555448222, 20), (76260375162549802747, 22), (85259785810004535169, 24), (75329383305171324976, 26), (52979361370220533185, 28), (29352606054207489367, 30), (12360241153841241079, 32)],
   [(40282355354616940666, 20), (79762880915029728078, 22), (89909077342438179998, 24), (79687137961956170687, 26), (55989731809132804932, 28), (3086624610163788225, 29), (12868830133188453822, 32)],
   [(41914223158913787649, 20), (8345668518695046354, 21), (94827181359250098256, 24), (84291858561783181724, 26), (59154537752764783179, 28), (32441553034049493565, 30), (13387946737204151286, 32)],
   [(43621971639463786898, 20), (87352841828289495774, 22), (10002929142066794016, 23), (8915614828021982807, 25), (62480008152373207696, 28), (34079760983845170029, 30), (13917096617661434015, 32)],
   [(45409763548534330981, 20), (91463027755548240655, 22), (10553137232446161705, 23), (94293113464638603453, 26), (65972492313703435375, 28), (35782041795607712736, 30), (14455735971778000592, 32)],
   [(47282001668512331467, 20), (95799574408860463395, 22), (11135019058000062301, 23), (99716373005509042011, 26), (69638453371335696484, 28), (375494990881647897, 28), (15003271520041106397, 32)],
   [(4924334222717984165, 19), (10037550043909497072, 21), (11750334542845230216, 23), (10544006716188961534, 25), (73484461169505300128, 28), (39383162326835148361, 30), (15559060698786680879, 32)],
   [(51298708979209258329, 20), (10520454564612427224, 21), (12400930037494992369, 23), (11147886579371265558, 25), (77517184551711048769, 28), (41283980931862840896, 30), (16122412071250877128, 32)],
   [(53453307979101369843, 20), (11030120618800726938, 21), (13088741519572265825, 23), (11784797595374516892, 25), (81743383064046704691, 28), (43252818449413984381, 30), (16692585959497054977, 32)],
   [(55712643071169299477, 20), (11568077107929735233, 21), (13815797838036648008, 23), (12456314879260902288, 25), (86169898079839518591, 28), (4529044681171366663, 29), (17268795298207537031, 32)],
   [(58082532122519320966, 20), (12135935999503877077, 21), (14584223996665835803, 23), (13164068573095713303, 25), (90803643355840986272, 28), (4739754071293721978, 29), (17850206709959136018, 32)],
   [(60569124025293375555, 20), (12735396239525550361, 21), (15396244472258861224, 23), (1390974438538282338, 24), (9565159503287145631, 27), (49574672127339400054, 30), (18435941800174980738, 32)],
   [(63178916494715716894, 20), (13368247798287030928, 21), (16254186562762074584, 23), (14695084048334054752, 25), (10072078109645526, 24), (51822304995808023309, 30), (19025078668628464361, 32)],
   [(65918774689725319199, 20), (14036375850601992063, 21), (17160483760259705507, 23), (15521885688723179315, 25), (10601827031558018741, 27), (54140790106567949284, 30), (19616653632944328731, 32)],
   [(68795950683174433821, 20), (14741765091365869084, 21), (18117679143520433534, 23), (16392004108230581605, 25), (11155116068025813452, 27), (56530360195140147411, 30), (20209663158298173139, 32)],
   [(71818103808729967035, 20), (1548650418711711228, 20), (19128428784550923603, 23), (17307350969359970801, 25), (11732656736103685661, 27), (58991125287884659948, 30), (20803065986210258625, 32)],
   [(74993321911726254658, 20), (16272790364044783382, 21), (20195505163377913757, 23), (18269894883203341844, 25), (12335161021600076626, 27), (61523068312531432593, 30), (21395785454109133501, 32)],
   [(7833014353128349273, 19), (1710293413265242924, 20), (21321800585063328741, 23), (1928166139554391383, 24), (12963340087308708377, 27), (64126040998036964759, 30), (21986711996251192376, 32)],
   [(81837581041023811833, 20), (17979364149044223803, 21), (22510330592753131553, 23), (20344732868018164483, 25), (13617902941771870842, 27), (6679976008490564781, 29), (22574705815432352148, 32)],
   [(85525144775685126237, 20), (18904632212547561026, 21), (23764237370371259, 20), (21461248251306374173, 25), (14299555071780406558, 27), (69543803865792788894, 30), (23158599714041209613, 32)],
   [(89402868170849933732, 20), (19881418399127202569, 21), (25086793128395999934, 23), (22633402747585234479, 25), (15008997042006513421, 27), (72357609074770825958, 30), (23737202071987810346, 32)],
   [(93481333942870796364, 20), (20912536329780368894, 21), (26481403465998482874, 23), (23863447359754917171, 25), (15746923065341704336, 27), (7524046814210318788, 29), (24309299958373443951, 32)],
   [(97771701335885035466, 20), (22000938572830479551, 21), (27951610702682388642, 23), (25153688325245310595, 25), (16514019547672649007, 27), (78191526829742439344, 30), (24873662362934299458, 32)]]

/-- `erfcx_y100(long double)`, lines 1604-2616. -/
def tableL : List (List (Int × Nat)) :=
  [[(708780324541064375474097, 27), (712340910470262249382369, 27), (357790772976010142159312, 29), (174031439686537852598797, 31), (817106589446506101312954, 34), (368838501380098479155278, 36), (159251468888330684276554, 38), (653188372877207932362626, 41)],
   [(214791432082851442299134, 26), (726864023673799200329826, 27), (368431754309389955509999, 29), (180718412782292124557231, 31), (854964492960402729204165, 34), (388508215163174614833225, 36), (168684735787805720331046, 38), (694858415847651217111466, 41)],
   [(361652559356301750882809, 26), (741820923235554299997672, 27), (379483199575282422622462, 29), (187716270282620066819438, 31), (894847151224150626336043, 34), (409345647338838562059059, 36), (178720614625808888123123, 38), (739305068487380700423797, 41)],
   [(511549838600319792618419, 26), (75722840734791574495339, 26), (390964257267357039288152, 29), (19504168711184215235185, 30), (936875030631827585735263, 34), (431425492096850850159199, 36), (189399264109250627852108, 38), (786713920921287905943096, 41)],
   [(66457513172673049823805, 25), (773104060544473633414095, 27), (402895105893994393917767, 29), (2027123324561460118469, 29), (981176313217074925801143, 34), (45482742162051182958231, 35), (200763522243564042674974, 38), (837282235772155215134517, 41)],
   [(820823899702412078843006, 26), (789466296118816132423412, 27), (415297015526226565647755, 29), (210746933523428265108675, 31), (102788741085876689999004, 33), (479636417564195808841845, 36), (212859073897950326609766, 38), (891219542877604161318686, 41)],
   [(980395372753521931670862, 26), (806334401083427371889541, 27), (42819241329736982951062, 28), (21916534355208717173447, 30), (107715351365654482576902, 33), (505943123141078707869623, 36), (225734626767812664475463, 38), (948748243633895946783867, 41)],
   [(114339272982903023700807, 25), (823728583831964507296698, 27), (441604953117654388353429, 29), (227988614350503953349551, 31), (112912917458786400208534, 33), (533844216835837193454814, 36), (239442095844552387206573, 38), (101010422143770046259551, 40)],
   [(130992328788146539797068, 25), (841670024679068505764673, 27), (455559589884575060263754, 29), (237239073666251309966917, 31), (118397893266024603034155, 33), (563442808767460540956292, 36), (254036796454043585539731, 38), (107553745466677954215784, 40)],
   [(14800987015587535620823, 24), (86018092946345817943727, 26), (470082658488168661147459, 29), (246940407702188017303166, 31), (124187797687520268666279, 33), (594848860731365495010181, 36), (269577645868240810309127, 38), (114531262767804928987997, 40)],
   [(165403517393940693797173, 25), (879284586412413305445734, 27), (48520195793001753875793, 28), (257117749115541715847885, 31), (130301285342311615929601, 33), (628179630946679617706408, 36), (286127373428392325447359, 38), (121970973486432318600821, 40)],
   [(183185367898423926471973, 25), (899005426478915796117957, 27), (500946840895533658203022, 29), (267797770855845354546386, 31), (136758221863043240791547, 33), (663560144522753444381654, 36), (303752739042760475795222, 38), (129902467196432490942349, 40)],
   [(20136801964214276776084, 24), (919369087376735246837679, 27), (51734830914104276797642, 28), (279008786218166705822384, 31), (143579764028094139618306, 33), (701123690637461135843211, 36), (322524759835621009239828, 38), (138356980809496371068816, 40)],
   [(219964595982827409542161, 25), (940402481553666166042534, 27), (53443911508041164872376, 28), (290780855509437638676674, 31), (150788445003064702690346, 33), (741012347387370539008384, 36), (342518944627359666021272, 38), (147367453117745875716734, 40)],
   [(238988771872263195005792, 25), (962133868359000058529712, 27), (552253869980490127625221, 29), (303145899747824348913635, 31), (158408264972960544106376, 33), (783377535225043892704088, 36), (363815535816671314935171, 38), (156968575855474107181991, 40)],
   [(25845480155298518485196, 24), (984592930678199405164101, 27), (570829159200518437656862, 29), (316137821837945548979938, 31), (166464787455282779556557, 33), (82838059984013973987826, 35), (386499758115029467550472, 38), (167196840371566526939566, 40)],
   [(278377547834746965987769, 25), (100781085632568732780163, 26), (590203664937922139432425, 29), (329792635688295742557581, 31), (174985241592445167538001, 33), (876193425267136303029607, 36), (410662073450079039592785, 38), (178090578914940752413987, 40)],
   [(298772513048993075494933, 25), (103182042450573285622058, 26), (610418296971620551600439, 29), (344148603761405968718556, 31), (183998630729328164654564, 33), (926999077911855053469758, 36), (4363984412081870011975, 36), (189689999436921206065064, 40)],
   [(319655871785964434761328, 25), (10566560976716552302077, 25), (63151633192414585384393, 28), (359246383572002179097514, 31), (193535847588172693891388, 33), (980992482079964898437424, 36), (463810582826879868412052, 38), (202037212729571240674416, 40)],
   [(341044505525883348411395, 25), (108235411913505090389523, 26), (653543561595539343028638, 29), (375129183673614406601314, 31), (20362979635822087465155, 32), (103838112746172461856433, 35), (493006249575291363105829, 38), (21517625061535352533715, 39)],
   [(362956039282924257152754, 25), (110895261679952431354093, 26), (676548450955183636486675, 29), (391842929699644852061102, 31), (214315522021320020130091, 33), (109938580887680797921018, 35), (52409949217529532173868, 37), (229153073821925249590062, 40)],
   [(385408880388405097945898, 25), (113649171341753933203514, 26), (700582306412463121259477, 29), (409436441050699524958309, 31), (225630347236897347169745, 33), (116424139840963600080963, 35), (557210930718063225986065, 38), (244015568084548245295419, 40)],
   [(408422259547859606502956, 25), (116501364379456454737487, 26), (725699455023430066838487, 29), (4279616188458872924516, 29), (237614017110048640488661, 33), (123319764986775835528775, 35), (592468023121179247685832, 38), (259813526938292184126782, 40)],
   [(432016274315402224230088, 25), (119456287939172419462027, 26), (751957435328492062746059, 29), (447473645781633721097313, 31), (25030885216471309123964, 32), (130652003527212926670069, 35), (630005330151042649363432, 38), (276598619591032800734622, 40)],
   [(456211935138104714371523, 25), (122518626080674973011727, 26), (779417200555519204520014, 29), (468031198567165899817417, 31), (263759909839764351041247, 33), (138449061283739969698887, 35), (669964774805491519817069, 38), (294424342205772697612667, 40)],
   [(481031214132998655172937, 25), (125693313864321608404143, 26), (808143334963676739557372, 29), (489696673630997862575644, 31), (278015154819058885336484, 33), (1467408925621559797942, 33), (712495893613993034540921, 38), (313345950872185822967327, 40)],
   [(506497096769833385012621, 25), (128985552330990193421264, 26), (838204284145687996823482, 29), (512536426817261200101075, 31), (293125638496762049449685, 33), (155559292971659739701748, 35), (757756077169391335876298, 38), (333420374512915180435453, 40)],
   [(532633636643888641826952, 25), (132400824432569369734866, 26), (869672600150076585690405, 29), (536621027814335790060843, 31), (30914568786632813556266, 32), (164937995051473556482091, 35), (805910796958469537115896, 38), (354706105958152105047672, 40)],
   [(559466013535000137965893, 25), (135944911974081494434647, 26), (902625202330163808693768, 29), (562025530080671586158587, 31), (326133104105047117265892, 33), (174912766521803348749409, 35), (857133815311247277037678, 38), (377263069425507675248375, 40)],
   [(587020594961540818150554, 25), (139623913632236040154565, 26), (937143654873127847202045, 29), (588829757053660672579279, 31), (344149371105791425656274, 33), (18552151093627904921621, 34), (911607375044142128102921, 38), (401152462674422121746235, 40)],
   [(615325001451447780467308, 25), (14344426411911968606645, 25), (973314462010168089336286, 29), (617118605446602269970824, 31), (36325987418320739971872, 32), (196804370470479916845162, 35), (969522365133442249084982, 38), (426436572161273206500535, 40)],
   [(644408175766532979962134, 25), (14741275456383081585, 22), (10112293819576437957183, 27), (64698236645586182148211, 30), (383534129152811980401816, 33), (208803830535801082333581, 35), (103107845852681941884403, 37), (453178559606798703893488, 40)],
   [(674300456331303932842206, 25), (151536554189164877125932, 26), (105098576068883286748304, 28), (678517065714896002611412, 31), (405046021948001701062801, 33), (221564825859905520333632, 35), (109648421798616512376098, 37), (481442218505094024422295, 40)],
   [(705033655133388507096216, 25), (155823233364956539045166, 26), (109268688668652311269889, 28), (711824822843514521450633, 31), (427874058901601115609718, 33), (235134847624527398095407, 35), (116595716565933437662517, 37), (511291699255366210226789, 40)],
   [(736641140379445963532008, 25), (160280788124387610451697, 26), (113644236787782078444875, 28), (747014231449173249577027, 31), (452101627775037099411769, 33), (249564051198702215665908, 35), (123972381190625138036847, 37), (542791201782541060706708, 40)],
   [(769157924208195623766129, 25), (164917666234478263533164, 26), (118236853200413020838521, 28), (784200760441820232298668, 31), (477817269569317853441483, 33), (26490536395090884260276, 34), (131801963876127529575943, 37), (576004634734687892373636, 40)],
   [(802620755780946128168318, 25), (169742794917094372890653, 26), (123058885173098920423019, 28), (823507177524409996347878, 31), (505114961097549108271032, 33), (281214592567491561671753, 35), (140108903330378720957138, 37), (610995240605423147095335, 40)],
   [(837068220089803574449832, 25), (174765610322125861050164, 26), (128123439585407633933946, 28), (865063995717213657543969, 31), (53409440823860351841765, 32), (298550529247521388295712, 35), (148918516613785424676728, 37), (647825186423375377787935, 40)],
   [(87254084284461718231657, 24), (179996088860018872351962, 26), (133444430800894923979281, 28), (909009943765025290346007, 31), (564861349725687673130627, 33), (316975056086451413335651, 35), (158256981015459519688561, 37), (686555119983000785762088, 40)],
   [(909081201821727484856846, 25), (185444780506576202155228, 26), (139036631434261202898093, 28), (95549246126183679065612, 30), (597527871251892297718927, 33), (336553246903077361735504, 35), (168151309477248336604638, 37), (727243691956681676474948, 40)],
   [(946734045080754811244387, 25), (191122844198872191356977, 26), (144915726165450051328129, 28), (100466821930706170402306, 30), (632212729597391430015834, 33), (357353465707046415390286, 35), (178629319092594892848419, 37), (769947044626784489606737, 40)],
   [(985546416480044565576098, 25), (197042085447255330164567, 26), (151098368756254441026996, 28), (105670366748047550433919, 30), (669041686399866169484317, 33), (379447460948133249522227, 35), (189719592220561077404967, 37), (814718268402709774455216, 40)],
   [(102556778894700895318476, 24), (203214996294727631803442, 26), (157602242429621794797587, 28), (111177560788925787892738, 30), (708147851101127911988738, 33), (402910454634439746899872, 35), (201451429774809644758848, 37), (861606827742072043060567, 40)],
   [(106685020598650933184599, 24), (209654797761486320076925, 26), (164446123776249836412623, 28), (117007179699943971192356, 30), (749672032509038652191211, 33), (427821225355334263719364, 35), (213854796273296137749311, 37), (910657958567875597304055, 40)],
   [(11094484319386444474591, 23), (216375484919080656325513, 26), (171649950357196571557983, 28), (123179157591526346451839, 30), (793763098314983639328353, 33), (454262184197122543374959, 35), (226960256267120247378195, 37), (96191203976298872565707, 39)],
   [(11534201115268804715033, 23), (223391874745463093153163, 26), (179234892175042268415318, 28), (129714652971307848523316, 30), (840578341803736954507734, 33), (482319442495956116686527, 35), (240798901806603066267523, 37), (101540394182119352117276, 39)],
   [(119882593926840947398592, 24), (23071965691918572442469, 25), (187223427189589353533762, 28), (136636117637106511361705, 30), (890283854885048910265106, 33), (512082870334171334059437, 35), (255402270649272579011573, 37), (107116235623459259024591, 39)],
   [(124572983935098129068811, 24), (238375447718094518725132, 26), (195639421057116121873528, 28), (143967368576200732551619, 30), (943054906465234934691269, 33), (543646144653953162256383, 35), (270802254968039239025869, 37), (112920910969340647235922, 39)],
   [(129419915661424388161101, 24), (246376847195087293757867, 26), (204508211274758801432637, 28), (151733662909325527032228, 30), (999076325063101876990569, 33), (577106785836764436733919, 35), (287031000378303841677793, 37), (118955846765658625324786, 39)],
   [(13443048593088696613114, 23), (254742499810806869159613, 26), (213856695913629148722028, 28), (159961775908573328363633, 30), (105854288445843477929794, 32), (612566181579183999362778, 35), (304120795169829740888923, 37), (125221643231497890121175, 39)],
   [(139612175434345613522771, 24), (263492158710516173499789, 26), (223713427125725679544476, 28), (168680082108221396230962, 30), (112165969104378986303563, 32), (650129596886432014568097, 35), (32210394970258213986737, 36), (131718004040168901349135, 39)],
   [(144972871576738006897942, 24), (27264675383982288391527, 25), (23410870961050950616925, 27), (177918639516402022704408, 30), (118864257143237781801483, 32), (689906169004655088553159, 35), (341012666004928262362792, 37), (138443666670103825190374, 39)],
   [(150520892727746181516835, 24), (282228464101360789801277, 26), (24507470422713397348536, 27), (187709276923483376918154, 30), (125971845875732523783976, 32), (732008886122662724005709, 35), (360878897697027884825533, 37), (145396333945905360158952, 39)],
   [(156265013957746123260536, 24), (292260793761964580730231, 26), (256645536937684505384739, 28), (198085684290045722756147, 30), (133512577598158382481004, 32), (776554548693839422459906, 35), (381734200451235688751847, 37), (152572607419657345445835, 39)],
   [(162214494346207375676379, 24), (302768653327263007058603, 26), (268857413265345642433968, 28), (209083506183435946464978, 30), (141511481442428399509277, 32), (8236637122599038959207, 33), (403609573294095806342456, 37), (159967923266473790462626, 39)],
   [(168379105954121306588124, 24), (313778445107928990146493, 26), (281748738449111750316262, 28), (220740438217087625256832, 30), (14999481055995140588952, 31), (873460610700448018481974, 35), (426535291150144681405965, 37), (167576491385407697449274, 39)],
   [(174769164556593699535303, 24), (325318153709028764824969, 26), (295360243473443640039017, 28), (233096326431138082059554, 30), (158990078435849499064277, 32), (92607305888605099266541, 34), (450540729125276730910197, 37), (175391238406767310432905, 39)],
   [(181395562236437013638366, 24), (337417441680967954435043, 26), (309735117147095006955432, 28), (246193269536401106991958, 30), (168526094122708346189954, 32), (981632333778394789329598, 35), (475654179125818018045516, 37), (183403755309097171131822, 39)],
   [(188269801944436645493797, 24), (350107750577401084295492, 26), (324919144400142675531489, 28), (260075723926516789799623, 30), (178632996173865198422791, 32), (104027303309824155320062, 34), (501902659507587151902093, 37), (191604250343129074068172, 39)],
   [(19540403413693967351075, 23), (363422407672111075856466, 26), (340960850962009073356159, 28), (274790611345160140447102, 30), (189342285047884127248357, 32), (110213291077127257962745, 34), (529311718545943884908876, 37), (199981507945761308463965, 39)],
   [(202811095606518869585056, 24), (377396738593233689881916, 26), (357911654575924091761398, 28), (290387429076619172457923, 30), (200686853748461589402747, 32), (116735268846239150600918, 34), (557905232611953270222169, 37), (208522854304285707760284, 39)],
   [(21050455062669334978563, 23), (392068186139254148464583, 26), (375826022896801016014718, 28), (306918362508931342322929, 30), (212701016457660837588105, 32), (12360758426207786082926, 33), (587705200030133180677406, 37), (21721413019983814374234, 38)],
   [(218498734537033324793992, 24), (407476435546893388104214, 26), (394761638209867114690785, 28), (324438399899183990712072, 30), (225420534915199222283519, 32), (130844836658022289764991, 34), (618731531678622150269837, 37), (226039671719320919154685, 39)],
   [(22680879990043229326014, 23), (423663546486282599233385, 26), (414779569096568969017901, 28), (343005449150637464725588, 30), (238882642292610414918619, 32), (138461850739138770094389, 34), (651001839471845203089943, 37), (234982299377251142152901, 39)],
   [(235450765369887039362921, 24), (440674092063649039872673, 26), (435944449162247007080454, 28), (362680456391124564667817, 30), (253126064308569014328693, 32), (146473647720388093356733, 34), (684531223937757180255253, 37), (244023316133462380807155, 39)],
   [(244441567407774328387283, 24), (458555305116055103041494, 26), (458324662926830853359548, 28), (38352752612182976405175, 29), (268191037330584184874745, 32), (154895413916537091752077, 34), (719332062165456591932421, 37), (253142514729804192787702, 39)],
   [(253799115006342646425911, 24), (47735723208649745256889, 25), (481992538965341853877203, 28), (405614042685175723187616, 30), (284119323208718286130062, 32), (163742466796145881560288, 34), (755413797453422259700231, 37), (262318194699665931544544, 39)],
   [(263542347563936130322999, 24), (497132894770834842840814, 26), (507024550369303673999717, 28), (429010792780268053305264, 30), (300954220589031163324413, 32), (173030218528242549942391, 34), (792782732032956852415561, 37), (271527189328920548642803, 39)],
   [(273691296077323433987627, 24), (517938460230523367013212, 26), (533501522583266025628092, 28), (453792088734301930912431, 30), (318740572458144005373663, 32), (182774137067005177143557, 34), (831441824274866040870347, 37), (280744902766737076540095, 39)],
   [(284267147816403161723349, 24), (539833419166948248381847, 26), (561508848652558106643883, 28), (480035892218649586084757, 30), (337524769675698519538036, 32), (192989704836812008454476, 34), (871390491809319942111368, 37), (289945357400333519239272, 39)],
   [(295292314653485199192627, 24), (562880773054204685205841, 26), (591136711899133071445008, 28), (507823938079162126600274, 30), (357354750258583875110507, 32), (203692375097252819949955, 34), (912624421998730169861833, 37), (299101251520410538699372, 39)],
   [(30679050522528838611938, 23), (5871472303274506625478, 24), (622480316021976866114918, 28), (537241857931670372244212, 30), (378279994189627264143244, 32), (214897526084971337434549, 34), (95513539120096565898591, 36), (308184027214426534541937, 39)],
   [(318786801111733194265544, 24), (612703411923387566163802, 26), (655640122597076406311818, 28), (568379303155895474522621, 30), (400351513533990983909478, 32), (226620413046379740149295, 34), (998911094245107430233159, 37), (317163948334402500693257, 39)],
   [(331307737221526220288468, 24), (639624066467977243259431, 26), (690722095929423968954404, 28), (601330066904118354469756, 30), (423621837658771509493388, 32), (238876118292199877822581, 34), (104393498551413780805779, 36), (326010188295494497729494, 39)],
   [(34438138658041336523026, 23), (667988295404136411894933, 26), (727837955186035609177452, 28), (636192204725142612708252, 30), (448144993365220737824589, 32), (251679499421290016501635, 34), (109018613298855818795654, 36), (334690927372179488937623, 39)],
   [(358037449723801755815352, 24), (697879788348823096863745, 26), (767105433714548221066651, 28), (673068153389450484895412, 30), (473976479758557985634125, 32), (265045135877160771089979, 34), (113763908655216406952511, 36), (343173459071856167879759, 39)],
   [(372307348901197241859198, 24), (729387068964609966293501, 26), (808648545426707141360145, 28), (712064847488123093360241, 30), (501173237697450128694526, 32), (278987274015823137850014, 34), (118626376179645621968149, 36), (351424305081684636665507, 39)],
   [(387224327305554482217565, 24), (762603751625494096428925, 26), (852597858100046040813953, 28), (753293833366196502182818, 30), (529793613683828824827597, 32), (293519770878004352168591, 34), (123602534048395124812515, 36), (359409338204795920775956, 39)],
   [(402823553546169406657082, 24), (797628809150293265688557, 26), (899090773424382461158798, 28), (796871379940768971424157, 30), (559897318073696668069739, 32), (308656036872179844701913, 34), (128688418874362467706596, 36), (367093912627337583027989, 39)],
   [(419142231589137876487612, 24), (834566851869500539927788, 26), (948271813592501612705143, 28), (842918585945469543497519, 30), (591545377510844008639816, 32), (324408977587176576991471, 34), (133879579397464644908058, 36), (37444300078917632984614, 38)],
   [(436219716394637868976404, 24), (873528418282890785943585, 26), (100029291420667999755576, 27), (891561483135942059927865, 30), (624800081507838634444758, 32), (340790934964189182608606, 34), (139171072132833670217542, 36), (381421336068975403593786, 39)],
   [(454097635485343309802358, 24), (914630277555478162870688, 26), (105531372324461672929447, 27), (942931134985880519663317, 30), (659724923122134153423621, 32), (357813628067811481568344, 34), (144557459052385744108897, 36), (387993560439685942969045, 39)],
   [(472820016685123314664153, 24), (957995744088600323208631, 26), (111350190580000674851979, 27), (997163730399949378553401, 30), (696384533699532542713715, 32), (37548809370403022008017, 33), (150032807363162774492542, 36), (394124376203634043169138, 39)],
   [(492433422271798416494381, 24), (100375500439094533458281, 25), (117503345428452349657157, 27), (105440067196870265539895, 29), (734844611682386207991031, 32), (393824627139976646782436, 34), (155590691433093829485244, 36), (399778700877803884893463, 39)],
   [(512987089792092583289885, 24), (105204545646123829357338, 25), (12400930037494996654765, 26), (111478865829143329999432, 29), (775171845505682115892176, 32), (4128327231855200216665, 32), (161224196901593004045723, 36), (40492182426997830426926, 38)],
   [(534533079791013698431338, 24), (110301206188006821471786, 25), (130887415195722696167515, 27), (117847975989578146717099, 29), (817433830630356460293156, 32), (43252101790046508096367, 33), (166925926998821422400839, 36), (40951956676526616985467, 38)],
   [(55712643071169299477265, 23), (115680771079296900024251, 25), (138157978380366512758587, 27), (124563148828793652777654, 29), (861698980789679945663738, 32), (452897231193147380376929, 34), (172688011083619150229353, 36), (413538437830377556195762, 39)],
   [(580825321225193209653574, 24), (121359359995038314730248, 25), (145842239966658385196861, 27), (131640685767439907432332, 29), (908036433551165365621584, 32), (473968110576585824793141, 34), (178502115396182541377911, 36), (41694579373971075786831, 38)],
   [(605691240252933755550552, 24), (127353962395255044551927, 25), (153962444722588633617828, 27), (139097443890552876512313, 29), (956515950323013670394828, 32), (495739376347045039317589, 34), (184359456007648194873348, 36), (419709993532827254902745, 39)],
   [(631789164947157168939049, 24), (133682477982869847931424, 25), (162541865627620761164414, 27), (146950840520248114903778, 29), (100720781096046528973468, 31), (518215668446890789334095, 34), (190250813934967993429232, 36), (421800552227000947590963, 39)],
   [(659187746897253191988435, 24), (140363758506019457771304, 25), (171604837602597064091393, 27), (155218856924260788372301, 29), (106018270315339489269567, 31), (541400495269013060996991, 34), (196166552375938619616531, 36), (423188290330896277552637, 39)],
   [(687959506831744338206564, 24), (147417650913658227261695, 25), (181176791435204337826326, 27), (163920041119392315970017, 29), (111551160680191787112432, 31), (565296184653881198856136, 34), (202096636006096728838239, 36), (423845478735710968038878, 39)],
   [(718181038087299670346544, 24), (154865041871170659322876, 25), (191284287845509231757966, 27), (17307350973067750228959, 28), (117326567361150789802417, 31), (589903837322534410744092, 34), (208030652266514373314101, 36), (423745978097607068566171, 39)],
   [(749933219117262546576325, 24), (162727903640447371307955, 25), (201955051633779126326102, 27), (182698948869034160287677, 29), (12335161021630049062214, 30), (615223282979562149883552, 34), (213957834559428450038182, 36), (422865371870022042560011, 39)],
   [(783301435312834927299325, 24), (17102934132652383172919, 24), (213218005850633269011771, 27), (192816613992292506232625, 29), (12963340087357766284052, 30), (641253039309467066970057, 34), (219867087257204509283918, 36), (421181092194898847842324, 39)],
   [(818375810410238118326686, 24), (179793641490441780101781, 25), (225103305927531289808725, 27), (20344732871681551476156, 28), (13617902941840473101523, 30), (667990274077813558004254, 34), (225747012419452523306374, 36), (418672537918505396714011, 39)],
   [(855251447756851262369788, 24), (189046322125475155998416, 25), (237642373703712556794763, 27), (214612482549404368641551, 29), (142995550718689622556794, 31), (695430770535342041620057, 34), (231585938103253795506934, 36), (415321184058630090762704, 39)],
   [(89402868170849933732064, 23), (198814183991271576033026, 25), (250867931283959958512659, 27), (226334027511824553164866, 29), (150089970421153794730805, 31), (723568896308875848500058, 34), (237371948142488201771319, 36), (411110682115514385487511, 39)],
   [(934813339428707963640478, 24), (209125363297803244844134, 25), (264814034659984780184468, 27), (238634473633076553903716, 29), (157469230654711835724972, 31), (752397575947473953975764, 34), (243092913264223337761696, 36), (406026950687873170298642, 39)],
   [(977717013358850354663717, 24), (220009385728304357948719, 25), (279516107026823830043752, 27), (251536883287458227608231, 29), (165140195478229883732336, 31), (781908267276004532450788, 34), (248736523403085113128447, 36), (400058255927088125612804, 39)]]

end Ufunclab.Erfcx

import Verif.Rnd

/-!
# Powers of the generator `rand_xorshift` as matrices over two elements

Generated data: `xs i` is the matrix of `2^i` steps of the generator, `xsA`, `xsB`, … are products of
these, `inv p` inverts the difference used to exclude the period `(2^32 - 1) / p`.  Every entry is checked by
the kernel in `Verif/Props/Rnd.lean`.
-/

namespace PC

def xs0 : List ℕ :=
  [270369, 540738, 1081476, 2162952, 4325937, 8651874, 17303748, 34607496, 69214992, 138429984, 276859968,
   553719936, 1107439872, 2214879744, 134792192, 269584384, 539168768, 1078337569, 2156675138, 17301636,
   34603272, 69206544, 138413088, 276826176, 553652352, 1107304704, 2214609408, 134251520, 268503040,
   537006080, 1074012160, 2148024320]

def xs1 : List ℕ :=
  [67634689, 134253570, 268507140, 537014280, 1082410067, 2164820134, 33657164, 67314328, 134628625,
   269257250, 538514500, 1077029000, 2154058033, 13148770, 26297540, 52595080, 105190193, 201982464,
   402949120, 570982664, 1141965328, 2283930625, 272893954, 545787908, 1091575816, 2183151632, 71335968,
   143753280, 287506560, 575013153, 1150026306, 2299036804]

def xs2 : List ℕ :=
  [307599695, 1670953222, 3341906444, 2397225082, 319134170, 873118396, 1025996745, 2051993490, 1906135427,
   4047186446, 4033305909, 3763248681, 1159566999, 2318118190, 340253309, 672108696, 3582921717, 853477706,
   579705100, 2840083624, 1376804146, 564138112, 1364273160, 2963527960, 1632088624, 3256860674, 2519632140,
   1802410401, 3596424992, 690619525, 1078263810, 3585606292]

def xs3 : List ℕ :=
  [435756210, 1401905590, 1697498707, 3547356631, 3352315571, 269536975, 4150475801, 3526844150, 1237866846,
   2272314079, 488875096, 1881247329, 143629668, 3466619717, 4252056148, 2758445570, 3172328787, 2744195457,
   2966341661, 287003857, 1919864327, 3862758952, 3306563744, 704483438, 2913576773, 918014814, 1063325072,
   3361898166, 1263308096, 3329840018, 2240676853, 2178132162]

def xs4 : List ℕ :=
  [3385103793, 2319215614, 2454672506, 2577523135, 369380136, 1395957656, 3066830330, 2550469481, 79939214,
   3022887315, 2104869307, 3808539356, 1421860418, 215361280, 1534239292, 3923653138, 2423021697, 3231327342,
   2735191073, 2293528455, 2203147867, 441612868, 2332191588, 1770953885, 1277702289, 2783203772, 1312514326,
   2935797620, 3320995912, 2381216182, 2019212487, 3226200547]

def xs5 : List ℕ :=
  [3412600852, 2541978743, 3267611380, 726103525, 1327682841, 3929756744, 484167457, 3387071820, 2657277780,
   4038817380, 213931672, 2061930371, 2296467662, 600462889, 939035703, 765699354, 3107936457, 258572009,
   27918708, 3121557168, 4005364440, 1989652064, 874358065, 4210679491, 366433236, 3384422562, 556276592,
   1160105741, 2044627538, 1590473236, 242903050, 2364317968]

def xs6 : List ℕ :=
  [932611783, 1112633538, 293301608, 2092790739, 1626439503, 1089671212, 304349903, 3710350611, 1962927266,
   2676322310, 1141665338, 3004361202, 3701626548, 2958364533, 1445077629, 2047030602, 2654796853, 1018803288,
   3384549630, 3812526678, 1346575954, 475416564, 413633881, 3775956818, 1402776769, 446708853, 2728349981,
   3570340208, 2391483936, 1417713861, 1727404288, 874413637]

def xs7 : List ℕ :=
  [2144056621, 487143145, 2212672375, 3633086063, 897363196, 2152094435, 155619899, 2446392000, 607790101,
   1519826227, 2129220609, 1025148785, 3600508955, 4192082447, 923478855, 2698711050, 30775937, 550263549,
   587192091, 1645339894, 3605157420, 1108659412, 203899345, 3762720645, 4283289808, 847287177, 2276775528,
   2503419660, 3546957393, 1471151888, 3517018178, 1483442760]

def xs8 : List ℕ :=
  [1424859452, 3922555886, 3077650115, 3736641067, 1211620788, 2859566781, 1204616573, 155227985, 1213393187,
   2472456456, 1482978665, 2652730614, 3871728631, 3043971450, 3753551402, 1699866935, 422772876, 1949668710,
   2993884290, 3222912591, 2146079826, 3977772465, 2455852207, 537683947, 1945931418, 1752727032, 1894111692,
   3323811086, 3406204307, 1000453137, 174803162, 2354738828]

def xs9 : List ℕ :=
  [2521350846, 3802180557, 1695520370, 4261773995, 260854674, 2021146481, 1590253937, 2087332172, 2605883282,
   387826585, 834402785, 2876062192, 3459482177, 4230770990, 1620508176, 4155987782, 3784676791, 2469881118,
   1609269104, 3490216109, 2166409130, 9108845, 1604482071, 655588518, 4123432144, 1192982995, 2748465240,
   592625376, 2328074338, 2337494883, 207954636, 1151794917]

def xs10 : List ℕ :=
  [1460585410, 2689242779, 4175177587, 1591941054, 687970697, 3142909193, 704574833, 2561809752, 2885974985,
   1952427887, 2849498141, 945006758, 1417387580, 2394097064, 3399540462, 429640382, 2802796427, 2418948945,
   55013434, 3804022835, 2206770367, 3949319368, 2097944013, 574368727, 2386221622, 93397496, 3629684952,
   1719895086, 2080694516, 939604186, 860769110, 3315317504]

def xs11 : List ℕ :=
  [1997206952, 2054732979, 1522564929, 1578201517, 1063219072, 2901127500, 1983244756, 839150883, 147319353,
   2590721254, 3516060900, 1059628961, 3409903922, 2079836495, 845705297, 1932609914, 4069168629, 1310606538,
   3193258556, 3994454002, 3956511853, 3504721982, 3078944639, 1307093886, 1696685526, 261386107, 1131902967,
   3472287837, 1285178774, 32954428, 2981546635, 4156924947]

def xs12 : List ℕ :=
  [2636821258, 3734891631, 967519728, 20122474, 492130025, 3127096689, 3946837501, 4074137816, 320433845,
   1682326995, 1845734150, 917943464, 3571084428, 2451758096, 2001705394, 2612818917, 1920946760, 1167049327,
   391289124, 1140457767, 2389985911, 197403762, 1046179363, 2749566774, 4035296711, 2083633922, 349795967,
   3393235512, 4242155223, 1981484266, 3697279565, 2132234218]

def xs13 : List ℕ :=
  [3587563677, 4199715749, 192433200, 2380168098, 1944845204, 817173822, 3104630724, 3267527965, 3881839471,
   2675612952, 2422343777, 1818649476, 693887339, 3430867902, 1920697494, 4129392662, 3757888778, 1514231824,
   2014768547, 2647613825, 1655481748, 2729165264, 3422948839, 1272880714, 442891794, 1036482722, 3332282564,
   3593903298, 72466539, 3769036421, 2657147096, 2396771245]

def xs14 : List ℕ :=
  [552723936, 1626133020, 2910524297, 1442683780, 2942707583, 2838979761, 2471259248, 1365131241, 2266412974,
   1277454467, 2389505538, 758207405, 512358028, 2128356395, 1969433287, 1791237812, 745084033, 647485907,
   1659516540, 696865408, 3097618264, 3382855721, 1453634213, 1201451234, 2908700684, 1733607855, 3198296303,
   2936080747, 410129245, 201998250, 2379534293, 716007707]

def xs15 : List ℕ :=
  [1132257473, 147708899, 1868748051, 4009830904, 812676862, 3485674144, 3639388481, 2904266047, 2366907605,
   15912272, 1432990985, 1834670081, 949731876, 1103532042, 789896438, 836589710, 1711632420, 3300202392,
   4270332792, 985139983, 2121353521, 2313661710, 2480077534, 1283159288, 3089523104, 2715506118, 1307123757,
   1423616685, 2275791218, 3690928178, 3390316430, 913645104]

def xs16 : List ℕ :=
  [437906867, 506273532, 1246454606, 2241393224, 958817800, 3472911366, 3064280302, 1337743425, 1789918472,
   2952294299, 3262575055, 2871278968, 471368716, 2032964697, 2822943001, 3102833472, 2478598240, 9866905,
   2120828680, 56646574, 1601371120, 2641177728, 173376804, 1225692501, 204540805, 2983620998, 753404461,
   3824765745, 3148149924, 3672362573, 560093186, 3007903540]

def xs17 : List ℕ :=
  [4058630290, 2900708607, 2586859009, 1875882150, 1415960080, 210108524, 908217858, 374271150, 1611462281,
   321182435, 3097455767, 2003013249, 2649951855, 957632999, 2438764059, 917377988, 1090283456, 4290993898,
   335407126, 2712990436, 874993714, 3984823492, 2143163332, 1624548633, 4012869467, 15441407, 3602033246,
   3468171000, 1528659704, 2211158531, 1076884580, 2820061508]

def xs18 : List ℕ :=
  [4064208034, 484659257, 2986436319, 2556618512, 3378758592, 1538983818, 4256103269, 2914545201, 1366002732,
   1695015409, 90069132, 2170294594, 860924689, 1508825901, 2209634535, 2597679159, 2000400656, 1489206838,
   194508050, 3365196176, 3236923179, 3936548220, 3477753282, 3862830727, 3511957981, 951318265, 1936594807,
   3373566751, 50304720, 3559199575, 3150245335, 340326198]

def xs19 : List ℕ :=
  [1599722383, 483088297, 1792175151, 441854237, 3234271202, 2866585875, 2783039869, 4095604617, 3320077166,
   3365937267, 2151461821, 2328669409, 2110681261, 3851069681, 1552024574, 1428796089, 1389728517, 1117134387,
   3492280342, 1415536476, 105006619, 3165573937, 3106206625, 2731048832, 2209633468, 1196498515, 186201685,
   1586241574, 2279082112, 658376213, 2429362706, 144212708]

def xs20 : List ℕ :=
  [2174976903, 977753923, 3676576303, 4134183755, 2743266808, 1505697046, 54155704, 1321223874, 2720768835,
   2975694650, 1207856825, 2432419462, 2396143765, 3709212614, 4164074705, 4216897135, 3744502593, 2008057514,
   3468361721, 67833790, 988280701, 1761626179, 2231125215, 271253941, 1267467795, 732458284, 450152998,
   439273500, 4031000656, 688944496, 3005735619, 2720153571]

def xs21 : List ℕ :=
  [4264267730, 2426572069, 1552969846, 484893029, 1718809704, 2317462726, 1189073395, 1972252116, 3908537605,
   3270850390, 867050897, 1673000737, 520612363, 1595524916, 3865729422, 178294792, 907920375, 2246490177,
   1593011034, 3520658494, 586380211, 461549207, 1919529628, 2040458881, 4252145837, 180458498, 995636214,
   144587626, 1902886965, 4117873452, 2371293777, 2252086507]

def xs22 : List ℕ :=
  [2062402979, 2323232854, 1415399285, 3165448222, 3357801480, 1396660763, 61570607, 1383111439, 973035312,
   4008696089, 1928288587, 3808470772, 954792381, 3101353137, 622971477, 1761768472, 93660688, 445350422,
   409546342, 3219453731, 99554510, 2492381399, 1449354310, 127617482, 3101251738, 2300502581, 2203699067,
   271579205, 1574272234, 952190135, 4134414861, 2248047255]

def xs23 : List ℕ :=
  [2613931769, 2116078447, 4021246364, 4199957137, 159187182, 666048756, 2472632813, 2553809771, 2529306317,
   2357872319, 4012126613, 2849290815, 1110943537, 875171312, 917406912, 3751925367, 3371258488, 4067414623,
   2081198093, 1426141099, 1060185362, 3605938135, 1318387101, 2294349068, 1290596525, 979055349, 1620526459,
   1942110258, 3375548386, 457006854, 1140931551, 1434962563]

def xs24 : List ℕ :=
  [848984213, 2008802344, 3990305690, 3313116833, 1051334665, 2001177029, 2349987696, 1264335982, 548130185,
   2057212210, 3225646717, 2797975075, 2062810950, 918405191, 911461676, 1425172061, 987015018, 1065470503,
   3220446566, 2702903587, 2891105889, 1801700596, 4137905936, 3133719612, 3226345579, 785265831, 1124311429,
   2999116824, 2075210516, 2110449737, 3688269987, 3734938631]

def xs25 : List ℕ :=
  [3604352453, 2415654495, 1679593226, 2884430333, 3180560122, 4138757226, 3367786651, 1292025274, 2417969171,
   1185512968, 3920967817, 2547344167, 3415173090, 1949483231, 1333049371, 1157634399, 1947487017, 4167912408,
   2934884674, 3742277880, 643113115, 2740906707, 3103229657, 1782275089, 2671089976, 3609245645, 3874940368,
   3930982677, 63210176, 3086690929, 3388648448, 2633549301]

def xs26 : List ℕ :=
  [469874098, 633490616, 109265352, 656230377, 1507309137, 1625689401, 820179706, 2498662258, 2028949689,
   4190072947, 3122158083, 969777677, 2555081229, 1121044227, 1014979131, 2676893490, 2517986765, 2297960905,
   1115521601, 3483749547, 3021426109, 3120781732, 416456031, 80586112, 3991561154, 39711776, 3987343705,
   3867053798, 2988490505, 1922272470, 529498198, 348438312]

def xs27 : List ℕ :=
  [538948959, 3546027677, 844504094, 664133359, 556013577, 4170323959, 4049682088, 1500038652, 1050445965,
   2406823263, 375616613, 3582650066, 2881849314, 2192937491, 222165003, 637577413, 896247037, 1768808137,
   1510723102, 1333560612, 2254392147, 958700340, 4181269324, 1631483736, 9924366, 381720792, 1971206871,
   2273722938, 279222736, 2979512837, 339828435, 25300198]

def xs28 : List ℕ :=
  [1878244886, 107105173, 1952733941, 549495992, 2884301473, 27241531, 2727541910, 1798010134, 673394836,
   4215639198, 3331708946, 1565443246, 3572426420, 1991309393, 1847195267, 425127451, 4043881683, 2703310461,
   113498546, 1742736957, 510912912, 1196114956, 3716806097, 305621583, 3665500464, 501916556, 3245643002,
   2680466608, 4249557383, 4148919500, 964854824, 2059186696]

def xs29 : List ℕ :=
  [2470267299, 3692713381, 173045256, 1880662590, 2961563330, 4029467289, 3245694204, 486786390, 1763104121,
   732108063, 927491166, 3558935689, 3202567169, 1254581044, 4017351224, 1597408504, 3753125510, 280970171,
   1392066633, 2976220115, 3738880998, 688849904, 2288450992, 3463904561, 2228598865, 3032216116, 1433683557,
   3804778031, 4041786301, 1864009592, 37075571, 4211943131]

def xs30 : List ℕ :=
  [3842568, 3135273899, 2003541055, 718393752, 3787746022, 2906496856, 3682459833, 1160472815, 2779722685,
   4036621082, 2260064345, 3075504666, 1489712480, 576456868, 2499390307, 1143291756, 2017303770, 714020182,
   1414642529, 4065942832, 4010179797, 4227504694, 1767815184, 3661689121, 637575631, 1400750347, 1436205218,
   924254191, 4271880945, 1324531443, 1414052375, 2376389150]

def xs31 : List ℕ :=
  [1880865743, 1699997801, 1881088284, 2906286186, 1507680056, 625368360, 389422017, 2839400231, 507479767,
   1479248300, 1183236468, 1126460877, 2717502277, 368200958, 1134751042, 3824855646, 3679599966, 2290134436,
   2877750695, 574706284, 695848743, 2391508402, 1767210834, 2292577066, 4076185469, 2571496403, 3069688842,
   465649315, 845292588, 2137983343, 826573238, 3268645493]

def xsA : List ℕ :=
  [3529265892, 61522085, 3799301055, 3789966240, 1225032603, 2459526534, 388457138, 1379359099, 886589039,
   3814755678, 2511135464, 3186511005, 2679720512, 2673864906, 844901129, 1690247436, 3367796792, 4194107739,
   2273699276, 178678564, 26445110, 660287294, 3839513564, 4012599399, 2239109509, 2201436373, 2551849883,
   2575221182, 2201788860, 3329082584, 640125779, 409607555]

def xsB : List ℕ :=
  [3287490977, 2909408707, 182423313, 3088145070, 2778583517, 3266780928, 2480412726, 2960756562, 3966765577,
   3445442232, 2798813301, 1557893719, 4101737111, 3336861582, 2681160021, 1981663592, 2829629930, 1936509194,
   2559398701, 3622582858, 1346128452, 118971329, 4051820288, 3387695974, 692398865, 4089275357, 240746386,
   330480709, 4218935393, 1703527318, 2117236132, 1208336344]

def xsC : List ℕ :=
  [2634090476, 3803411956, 2891228506, 1050087578, 1209277511, 2719899585, 2244455196, 2617184235, 1449300350,
   911541555, 2929215803, 3762139845, 141807725, 2901333324, 1131370094, 2279230204, 1560637606, 369938079,
   2442556979, 698369332, 2540781000, 2045973658, 4015859567, 2940965715, 534219986, 1447062528, 1893298564,
   3732374978, 3013848873, 2879493664, 2399426002, 2251366953]

def xsD : List ℕ :=
  [3430571360, 1700592628, 2341368184, 3639472422, 3290634345, 181661550, 3878608359, 630158531, 280996314,
   4273729191, 1316134402, 228206424, 3572524070, 4024918595, 2785932121, 958281963, 1479772932, 327350761,
   1415258022, 2585595663, 1720982520, 797481466, 2907744535, 41206280, 1887348325, 4131392425, 3210697909,
   1606510741, 876893669, 3019466044, 411539043, 706366906]

def xsE : List ℕ :=
  [3217796887, 211117553, 2604076111, 4225726140, 3689443536, 348879782, 2491037841, 3911865241, 2323849599,
   215973729, 3215348941, 1576439246, 2866272327, 2656988280, 3651310562, 31076471, 2674695482, 2669048074,
   3125990058, 3825493990, 1587780785, 1512550849, 2291201283, 2241849848, 3790854378, 2759795769, 2734129278,
   1943455507, 547961871, 1698313481, 4015965659, 2055153087]

def xsF : List ℕ :=
  [672242040, 1595596019, 3486806072, 3042425593, 1578103550, 1251580821, 3616115182, 1628311527, 3869071824,
   3181920881, 3222611029, 2199233652, 1707594961, 3853619199, 3118220505, 3201805, 4187492463, 1772562992,
   4225074453, 2774301013, 3579047459, 2840409883, 1121230916, 3175187624, 1864976164, 1022728802, 2962149080,
   3305976302, 3734053680, 3583107216, 1196647987, 4145052738]

def xsG : List ℕ :=
  [3608027046, 2057370212, 2610076923, 4043652343, 3846820934, 2796628506, 2783296768, 3558535551, 4067101805,
   1470373218, 2888287548, 3530646253, 2018605066, 1633539020, 680466512, 2911662345, 64376613, 2041488413,
   2604828875, 799999462, 733649872, 2237497157, 2635225059, 3005642506, 1296074733, 1208023802, 1270628254,
   3181471313, 26516526, 186065355, 1738251950, 1898681397]

def xsH : List ℕ :=
  [2764738082, 803078494, 3964378718, 2860920944, 3214049779, 3992130230, 2004935868, 1852005216, 3643802781,
   139624005, 442896095, 463904557, 227594724, 1672141468, 562636068, 591990097, 4212780337, 1592258461,
   2118870541, 1754571490, 3471043121, 1965496680, 3122716218, 2862065250, 2405919642, 2051158367, 2510813459,
   3500922298, 1402158428, 3422792078, 1904790869, 2253161475]

def xsI : List ℕ :=
  [299503799, 2457315419, 2412464952, 558275099, 2844356442, 91543234, 634308110, 2492619756, 1775226163,
   2209299207, 1961584561, 2022605212, 1613022552, 720740399, 3678042003, 2762153120, 1602588152, 558762802,
   336368939, 3831537283, 2362522074, 2780379881, 401168657, 3088953753, 4271480940, 318228285, 1374701135,
   3285279126, 782348613, 2452873022, 4192206516, 2003688040]

def xsJ : List ℕ :=
  [3335786257, 3906425407, 341432259, 3494094572, 1287699228, 2747661528, 2150333198, 1082698387, 2611265886,
   3557500517, 3637289613, 2868896625, 410369362, 1269330915, 4088754115, 154103209, 1548993245, 1491119919,
   2404261344, 3419380581, 2808848906, 551830956, 2331709170, 188466835, 3017353089, 1526152647, 441219537,
   2121271239, 792014187, 2569338613, 2655281178, 105270877]

def xsInv65537 : List ℕ :=
  [3908455207, 1269210685, 4230444939, 3445514380, 977471560, 478053426, 1403726630, 3920167479, 4259196828,
   1141860469, 2042332397, 67291395, 4145823888, 1547246068, 1344483642, 1489834806, 942278809, 464277749,
   3144945871, 3697391500, 89564266, 538550978, 2741397392, 2505068165, 1903679604, 3749508893, 3257480797,
   1539128405, 3463255237, 2862100123, 216681703, 2931494590]

def xsInv257 : List ℕ :=
  [3131369381, 539281936, 2338768093, 2808948640, 4140594694, 267135013, 2909932981, 3761283052, 4279047950,
   4001396503, 4220324335, 3917003109, 2753609505, 3196128043, 2300815984, 649863395, 2216584151, 526453558,
   3885171078, 2445356822, 1639879313, 2898507925, 3422031783, 1230340248, 3401736640, 4155450808, 359687001,
   3020222700, 3703983891, 3614192656, 3325989673, 1218513770]

def xsInv17 : List ℕ :=
  [3608027046, 2057370212, 2610076923, 4043652343, 3846820934, 2796628506, 2783296768, 3558535551, 4067101805,
   1470373218, 2888287548, 3530646253, 2018605066, 1633539020, 680466512, 2911662345, 64376613, 2041488413,
   2604828875, 799999462, 733649872, 2237497157, 2635225059, 3005642506, 1296074733, 1208023802, 1270628254,
   3181471313, 26516526, 186065355, 1738251950, 1898681397]

def xsInv5 : List ℕ :=
  [3335786256, 3906425405, 341432263, 3494094564, 1287699212, 2747661560, 2150333262, 1082698259, 2611265630,
   3557500005, 3637290637, 2868898673, 410365266, 1269322723, 4088737731, 154135977, 1548927709, 1491250991,
   2403999200, 3418856293, 2809897482, 549733804, 2327514866, 196855443, 3000575873, 1492598215, 508328401,
   1987053511, 1060449643, 3106209525, 3729023002, 2252754525]

def xsInv3 : List ℕ :=
  [3335786257, 3906425407, 341432259, 3494094572, 1287699228, 2747661528, 2150333198, 1082698387, 2611265886,
   3557500517, 3637289613, 2868896625, 410369362, 1269330915, 4088754115, 154103209, 1548993245, 1491119919,
   2404261344, 3419380581, 2808848906, 551830956, 2331709170, 188466835, 3017353089, 1526152647, 441219537,
   2121271239, 792014187, 2569338613, 2655281178, 105270877]

end PC

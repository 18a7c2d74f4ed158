/-!
# The tables of the pruner: fplll/factorial.const and fplll/ballvol.const

Generated by tools/gen_tables.py.  An entry `(m, k)` of `preFactorial` is the decimal number with the 47 digits `m` whose first digit stands for `10^k`, that is `m / 10^46 * 10^k`.  An entry `(m, k)` of `preBallVol` is `m / 10^56 * 10^(-k)` (all numbers have 56 digits after the point).  The strings are the decimal numbers that `strtod`, `mpfr_set_str`, ... round to the floating-point type.
-/

namespace Fplll
namespace PrunerTables

/-- entries 0 to 127 of `pre_factorial` of factorial.const:1-2050 -/
def preFactorial0 : List (Nat × Nat) := [
  (10000000000000000000000000000000000000000000000, 0),
  (10000000000000000000000000000000000000000000000, 0),
  (20000000000000000000000000000000000000000000000, 0),
  (60000000000000000000000000000000000000000000000, 0),
  (24000000000000000000000000000000000000000000000, 1),
  (12000000000000000000000000000000000000000000000, 2),
  (72000000000000000000000000000000000000000000000, 2),
  (50400000000000000000000000000000000000000000000, 3),
  (40320000000000000000000000000000000000000000000, 4),
  (36288000000000000000000000000000000000000000000, 5),
  (36288000000000000000000000000000000000000000000, 6),
  (39916800000000000000000000000000000000000000000, 7),
  (47900160000000000000000000000000000000000000000, 8),
  (62270208000000000000000000000000000000000000000, 9),
  (87178291200000000000000000000000000000000000000, 10),
  (13076743680000000000000000000000000000000000000, 12),
  (20922789888000000000000000000000000000000000000, 13),
  (35568742809600000000000000000000000000000000000, 14),
  (64023737057280000000000000000000000000000000000, 15),
  (12164510040883200000000000000000000000000000000, 17),
  (24329020081766400000000000000000000000000000000, 18),
  (51090942171709440000000000000000000000000000000, 19),
  (11240007277776076800000000000000000000000000000, 21),
  (25852016738884976640000000000000000000000000000, 22),
  (62044840173323943936000000000000000000000000000, 23),
  (15511210043330985984000000000000000000000000000, 25),
  (40329146112660563558400000000000000000000000000, 26),
  (10888869450418352160768000000000000000000000000, 28),
  (30488834461171386050150400000000000000000000000, 29),
  (88417619937397019545436160000000000000000000000, 30),
  (26525285981219105863630848000000000000000000000, 32),
  (82228386541779228177255628800000000000000000000, 33),
  (26313083693369353016721801216000000000000000000, 35),
  (86833176188118864955181944012800000000000000000, 36),
  (29523279903960414084761860964352000000000000000, 38),
  (10333147966386144929666651337523200000000000000, 40),
  (37199332678990121746799944815083520000000000000, 41),
  (13763753091226345046315979581580902400000000000, 43),
  (52302261746660111176000722410007429120000000000, 44),
  (20397882081197443358640281739902897356800000000, 46),
  (81591528324789773434561126959611589427200000000, 47),
  (33452526613163807108170062053440751665152000000, 49),
  (14050061177528798985431426062445115699363840000, 51),
  (60415263063373835637355132068513997507264512000, 52),
  (26582715747884487680436258110146158903196385280, 54),
  (11962222086548019456196316149565771506438373376, 56),
  (55026221598120889498503054288002548929616517529, 57),
  (25862324151116818064296435515361197996919763238, 59),
  (12413915592536072670862289047373375038521486354, 61),
  (60828186403426756087225216332129537688755283137, 62),
  (30414093201713378043612608166064768844377641568, 64),
  (15511187532873822802242430164693032110632597200, 66),
  (80658175170943878571660636856403766975289505440, 67),
  (42748832840600255642980137533893996496903437883, 69),
  (23084369733924138047209274268302758108327856457, 71),
  (12696403353658275925965100847566516959580321051, 73),
  (71099858780486345185404564746372494973649797888, 74),
  (40526919504877216755680601905432322134980384796, 76),
  (23505613312828785718294749105150746838288623181, 78),
  (13868311854568983573793901972038940634590287677, 80),
  (83209871127413901442763411832233643807541726063, 81),
  (50758021387722479880085681217662522722600452898, 83),
  (31469973260387937525653122354950764088012280797, 85),
  (19826083154044400641161467083618981375447736902, 87),
  (12688693218588416410343338933516148080286551617, 89),
  (82476505920824706667231703067854962521862585513, 90),
  (54434493907744306400372924024784275264429306438, 92),
  (36471110918188685288249859096605464427167635314, 94),
  (24800355424368305996009904185691715810473992013, 96),
  (17112245242814131137246833888127283909227054489, 98),
  (11978571669969891796072783721689098736458938142, 100),
  (85047858856786231752116764423992601028858460812, 101),
  (61234458376886086861524070385274672740778091784, 103),
  (44701154615126843408912571381250511100768007002, 105),
  (33078854415193864122595302822125378214568325182, 107),
  (24809140811395398091946477116594033660926243886, 109),
  (18854947016660502549879322608611465582303945353, 111),
  (14518309202828586963407078408630828498374037922, 113),
  (11324281178206297831457521158732046228731749579, 115),
  (89461821307829752868514417153983165206980821677, 116),
  (71569457046263802294811533723186532165584657342, 118),
  (57971260207473679858797342315781091054123572447, 120),
  (47536433370128417484213820698940494664381329406, 122),
  (39455239697206586511897471180120610571436503407, 124),
  (33142401345653532669993875791301312880006662862, 126),
  (28171041143805502769494794422606115948005663433, 128),
  (24227095383672732381765523203441259715284870552, 130),
  (21077572983795277172136005186993895952297837380, 132),
  (18548264225739843911479684564554628438022096894, 134),
  (16507955160908461081216919262453619309839666236, 136),
  (14857159644817614973095227336208257378855699612, 138),
  (13520015276784029625516656875949514214758686647, 140),
  (12438414054641307255475324325873553077577991715, 142),
  (11567725070816415747592051623062404362147532295, 144),
  (10873661566567430802736528525678660100418680358, 146),
  (10329978488239059262599702099394727095397746340, 148),
  (99167793487094968920957140154189380115818364865, 149),
  (96192759682482119853328425949563698712343813919, 151),
  (94268904488832477456261857430572424738096937640, 153),
  (93326215443944152681699238856266700490715968264, 155),
  (93326215443944152681699238856266700490715968264, 157),
  (94259477598383594208516231244829367495623127947, 159),
  (96144667150351266092686555869725954845535590505, 161),
  (99029007164861804075467152545817733490901658221, 163),
  (10299016745145627623848583864765044283053772454, 166),
  (10813967582402909005041013058003296497206461077, 168),
  (11462805637347083545343473841483494287038848742, 170),
  (12265202031961379393517517010387338887131568154, 172),
  (13246418194518289744998918371218325998102093606, 174),
  (14438595832024935822048821024627975337931282031, 176),
  (15882455415227429404253703127090772871724410234, 178),
  (17629525510902446638721610471070757887614095360, 180),
  (19745068572210740235368203727599248834127786803, 182),
  (22311927486598136465966070212187151182564399087, 184),
  (25435597334721875571201320041893352348123414960, 186),
  (29250936934930156906881518048177355200341927204, 188),
  (33931086844518982011982560935885732032396635556, 190),
  (39699371608087208954019596294986306477904063601, 192),
  (46845258497542906565743123628083841643926795049, 194),
  (55745857612076058813234317117419771556272886109, 196),
  (66895029134491270575881180540903725867527463331, 198),
  (80942985252734437396816228454493508299708230630, 200),
  (98750442008336013624115798714482080125644041369, 202),
  (12146304367025329675766243241881295855454217088, 205),
  (15061417415111408797950141619932806860763229189, 207),
  (18826771768889260997437677024916008575954036487, 209),
  (23721732428800468856771473051394170805702085973, 211),
  (30126600184576595448099770775270596923241649186, 213)]

/-- entries 128 to 255 of `pre_factorial` of factorial.const:1-2050 -/
def preFactorial1 : List (Nat × Nat) := [
  (38562048236258042173567706592346364061749310959, 215),
  (49745042224772874403902341504126809639656611137, 217),
  (64668554892204736725073043955364852531553594478, 219),
  (84715806908788205109845687581527956816335208766, 221),
  (11182486511960043074499630760761690299756247557, 224),
  (14872707060906857289084508911813048098675809251, 226),
  (19929427461615188767373241941829484452225584396, 228),
  (26904727073180504835953876621469804010504538935, 230),
  (36590428819525486576897272205198933454286172951, 232),
  (50128887482749916610349262921122538832372056943, 234),
  (69177864726194884922281982831149103588673438582, 236),
  (96157231969410890041971956135297253988256079629, 238),
  (13462012475717524605876073858941615558355851148, 241),
  (18981437590761709694285264141107677937281750118, 243),
  (26953641378881627765885075080372902670940085168, 245),
  (38543707171800727705215657364933250819444321791, 247),
  (55502938327393047895510546605503881179999823379, 249),
  (80479260574719919448490292577980627710999743900, 251),
  (11749972043909108239479582716385171645805962609, 254),
  (17272458904546389112034986593086202319334765035, 256),
  (25563239178728655885811780157767579432615452253, 258),
  (38089226376305697269859552435073693354597023857, 260),
  (57133839564458545904789328652610540031895535786, 262),
  (86272097742332404316231886265441915448162259036, 264),
  (13113358856834525456067246712347171148120663373, 267),
  (20063439050956823947782887469891171856624614961, 269),
  (30897696138473508879585646703632404659201907040, 271),
  (47891429014633938763357752390630227221762955913, 273),
  (74710629262828944470838093729383154465950211224, 275),
  (11729568794264144281921580715513155251154183162, 278),
  (18532718694937347965436097530510785296823609396, 280),
  (29467022724950383265043395073512148621949538940, 282),
  (47147236359920613224069432117619437795119262304, 284),
  (75907050539472187290751785709367294850142012310, 286),
  (12296942187394494341101789284917501765723005994, 289),
  (20044015765453025775995916534415527878128499770, 291),
  (32872185855342962272633303116441465720130739623, 293),
  (54239106661315887749844950142128418438215720379, 295),
  (90036917057784373664742617235933174607438095829, 297),
  (15036165148649990402012017078400840159442162003, 300),
  (25260757449731983875380188691713411467862832166, 302),
  (42690680090047052749392518888995665380688186360, 304),
  (72574156153079989673967282111292631147169916812, 306),
  (12410180702176678234248405241031039926166055775, 309),
  (21345510807743886562907257014573388673005615933, 311),
  (36927733697396923753829554635211962404299715564, 313),
  (64254256633470647331663425065268814583481505081, 315),
  (11244494910857363283041099386422042552109263389, 318),
  (19790311043108959378152334920102794891712303565, 320),
  (35028850546302858099329632808581946958330777310, 322),
  (62351353972419087416806746399275865585828783612, 324),
  (11160892361063016647608407605470379939863352266, 327),
  (20089606249913429965695133689846683891754034079, 329),
  (36362187312343308237908191978622497844074801684, 331),
  (66179180908464820992992909401092946076216139065, 333),
  (12110790106249062241717702420400009131947553449, 336),
  (22283853795498274524760572453536016802783498346, 338),
  (41225129521671807870807059039041631085149471940, 340),
  (76678740910309562639701129812617433818378017809, 342),
  (14338924550227888213624111274959460124036689330, 345),
  (26957178154428429841613329196923785033188975941, 347),
  (50949066711869732400649192182185953712727164528, 349),
  (96803226752552491561233465146153312054181612604, 351),
  (18489416309737525888195591842915282602348688007, 354),
  (35499679314696049705335536338397342596509480974, 356),
  (68514381077363375931297585133106871211263298280, 358),
  (13291789929008494930671731515822733014985079866, 361),
  (25918990361566565114809876455854329379220905739, 363),
  (50801221108670467625027357853474485583272975249, 365),
  (10007840558408082122130389497134473659904776124, 368),
  (19815524305648002601818171204326257846611456725, 370),
  (39432893368239525177618160696609253114756798884, 372),
  (78865786736479050355236321393218506229513597768, 374),
  (15852023134032289121402500600036919752132233151, 377),
  (32021086730745224025233051212074577899307110966, 379),
  (65002806063412804771223093960511393135593435261, 381),
  (13260572436936212173329511167944324199661060793, 384),
  (27184173495719234955325497894285864609305174626, 386),
  (55999397401181624007970525662228881095168659729, 388),
  (11591875262044596169649898812081378386699912564, 391),
  (24111100545052760032871789529129267044335818133, 393),
  (50392200139160268468702040115880168122661859898, 395),
  (10582362029223656378427428424334835305758990578, 398),
  (22328783881661914958481873975346502495151470121, 400),
  (47337021829123259711981572827734585289721116656, 402),
  (10082785649603254318652075012307466666710597847, 405),
  (21577161290150964241915440526337978666760679394, 407),
  (46390896773824573120118197131626654133535460698, 409),
  (10020433703146107793945530580431357292843659510, 412),
  (21744341135827053912861801359536045325470741138, 414),
  (47402663676102977530038726963788578809526215681, 416),
  (10381183345066552079078481205069698759286241234, 419),
  (22838603359146414573972658651153337270429730715, 421),
  (50473313423713576208479575619048875367649704881, 423),
  (11205075580064413918282465787428850331618234483, 426),
  (24987318543543643037769898705966336239508662898, 428),
  (55971593537537760404604573101364593176499404892, 430),
  (12593608545945996091036028947807033464712366100, 433),
  (28461555313837951165741425422043895630249947387, 435),
  (64607730562412149146233035708039643080667380570, 437),
  (14730562568229970005341132141433038622392162770, 440),
  (33732988281246631312231192603881658445278052743, 442),
  (77585873046867252018131742988927814424139521309, 444),
  (17922336673826335216188432630442325131976229422, 447),
  (41579821083277097701557163702626194306184852260, 449),
  (96880983124035637644628191427119032733410705766, 451),
  (22670150051024339208842996793945853659618105149, 454),
  (53274852619907197140781042465772756100102547101, 456),
  (12572865218298098525224326021922370439624201115, 459),
  (29797690567366493504781652671956017941909356644, 461),
  (70918503550332254541380333359255322701744268814, 463),
  (16949522348529408835389899672862022125716880246, 466),
  (40678853636470581204935759214868853101720512591, 468),
  (98036037263894100703895179707833935975146435346, 470),
  (23724721017862372370342633489295812505985437353, 473),
  (57651072073405564859932599378988824389544612769, 475),
  (14066861585910957825823554248473273151048885515, 478),
  (34463810885481846673267707908759519220069769513, 480),
  (84780974778285342816238561455548417281371633003, 482),
  (20940900770236479675610924679520459068498793351, 485),
  (51933433910186469595515093205210738489877007512, 487),
  (12931425043636430929283258208097473883979374870, 490),
  (32328562609091077323208145520243684709948437176, 492),
  (81144692148818604081252445255811648621970577313, 494),
  (20448462421502288228475616204464535452736585483, 497),
  (51734609926400789218043308997295274695423561272, 499),
  (13140590921305800461383000485312999772637584563, 502),
  (33508506849329791176526651237548149420225840635, 504)]

/-- entries 256 to 383 of `pre_factorial` of factorial.const:1-2050 -/
def preFactorial2 : List (Nat × Nat) := [
  (85781777534284265411908227168123262515778152027, 506),
  (22045916826311056210860414382207678466554985071, 509),
  (56878465411882525024019869106095810443711861483, 511),
  (14731522541677573981221146098478814904921372124, 514),
  (38301958608361692351174979856044918752795567523, 516),
  (99968111967824017036566697424277237944796431235, 518),
  (26191645335569892463580474725160636341536664983, 521),
  (68884027232548817179216648527172473578241428906, 523),
  (18185383189392887735313195211173533024655737231, 526),
  (48191265451891152498579967309609862515337703663, 528),
  (12818876610203046564622271304356223429079829174, 531),
  (34226400549242134327541464382631116555643143895, 533),
  (91726753471968919997811124545451392369123625640, 535),
  (24674496683959639479411192502726424547294255297, 538),
  (66621141046691026594410219757361346277694489302, 540),
  (18054329223653268207085169554244924841255206601, 543),
  (49107775488336889523271661187546195568214161954, 545),
  (13406422708315970839853163504200111390122466213, 548),
  (36733598220785760101197668001508305208935557425, 550),
  (10101739510716084027829358700414783932457278292, 553),
  (27880801049576391916809030013144803653582088085, 555),
  (77229818907326605609561013136411106120422383998, 557),
  (21469889656236796359457961651922287501477422751, 560),
  (59900992140900661842887713008863182129122009476, 562),
  (16772277799452185316008559642481690996154162653, 565),
  (47130100616460640737984052595373551699193197056, 567),
  (13290688373841900688111502831895341579172481569, 570),
  (37612648097972578947355553014263816669058122842, 572),
  (10681992059824212421048977056050923934012506887, 575),
  (30443677370499005399989584609745133211935644628, 577),
  (87068917279627155443970211983871080986135943638, 579),
  (24988779259252993612419450839371000243021015824, 582),
  (71967684266648621603768018417388480699900525573, 584),
  (20798660753061451643488957322625270922271251890, 587),
  (60316116183878209766117976235613285674586630483, 589),
  (17551989809508559041940331084563466131304709470, 592),
  (51251810243764992402465766766925321103409751654, 594),
  (15016780401423142773922469662709119083299057234, 597),
  (44149334380184039755332060808364810104899228270, 599),
  (13024053642154291727822957938467618980945272339, 602),
  (38551198780776703514355955497864152183598006125, 604),
  (11449706037890680943763718782865653198528607819, 607),
  (34120123992914229212415881972939646531615251301, 609),
  (10201917073881354534512348709908954312952960139, 612),
  (30605751221644063603537046129726862938858880417, 614),
  (92123311177148631446646508850477857445965230056, 616),
  (27821239975498886696887245672844312948681499476, 619),
  (84298357125761626691568354388718268234504943415, 621),
  (25626700566231534514236779734170353543289502798, 624),
  (78161436727006180268422178189219578307032983534, 626),
  (23917399638463891162137186525901190961952092961, 629),
  (73426416890084145867761162634516656253192925392, 631),
  (22615336402145916927270438091431130125983421020, 634),
  (69881389482630883305265653702522192089288770954, 636),
  (21663230739615573824632352647781879547679518995, 639),
  (67372647600204434594606616734601645393283304076, 641),
  (21020266051263783593517264421195713362704390872, 644),
  (65793432740455642647709037638342582825264743429, 646),
  (20659137880503071791380637818439571007133129436, 649),
  (65076284323584676142849009128084648672469357725, 651),
  (20564105846252757661140286884474748980500317041, 654),
  (65188215532621241785814709423784954268186005021, 656),
  (20729852539373554887889077596763615457283149596, 659),
  (66128229600601640092366157533675933308733247213, 661),
  (21161033472192524829557170410776298658794639108, 664),
  (67926917445738004702878517018591918694730791537, 666),
  (21872467417527637514326882479986597819703314875, 669),
  (70648069758614269171275830410356710957641707046, 671),
  (22889974601791023211493369052955574350275913083, 674),
  (74392417455820825437353449422105616638396717520, 676),
  (24251928090597589092577224511606431024117329911, 679),
  (79303804856254116332727524152953029448863668811, 681),
  (26011647992851350157134627922168593659227283370, 684),
  (85578321896480942016972925863934673138857762287, 686),
  (28240846225838710865601065535098442135823061554, 689),
  (93477201007526132965139526921175843469574333746, 691),
  (31034430734498676144426322937830380031898678803, 694),
  (10334465434588059156093965538297516550622260041, 697),
  (34517114551524117581353844897913705279078348539, 699),
  (11563233374760579389753538040801091268491246760, 702),
  (38852464139195546749571887817091666662130589115, 704),
  (13093280414908899254605726194359891665138008532, 707),
  (44255287802392079480567354536936433828166468838, 709),
  (15002542565010914943912333188021451067748432936, 712),
  (51008644721037110809301932839272933630344671982, 714),
  (17393947849873654785971959098192070367947533146, 717),
  (59487301646567899368024100115816880658380563359, 719),
  (20404144464772789483232266339725190065824533232, 722),
  (70190256958818395822318996208654653826436394319, 724),
  (24215638650792346558700053691985855570120556040, 727),
  (83786109731741519093102185774271060272617123899, 729),
  (29073780076914307125306458463672057914598141993, 732),
  (10117675466766178879606647545357876154280153413, 735),
  (35310687379013964289827199933298987778437735413, 737),
  (12358740582654887501439519976654645722453207394, 740),
  (43379179445118655130052715118057806485810757955, 742),
  (15269471164681766605778555721556347883005386800, 745),
  (53901233211326636118398301697093908027009015405, 747),
  (19081036556809629185912998800771243441561191453, 750),
  (67737679776674183609991145742737914217542229659, 752),
  (24114614000496009365156847884414697461445033758, 755),
  (86089171981770753433609946947360469937358770518, 757),
  (30819923569473929729232361007155048237574439845, 760),
  (11064352561441140772794417601568662317289223904, 763),
  (39831669221188106782059903365647184342241206056, 765),
  (14379232588848906548323625114998633547549075386, 768),
  (52052821971633041704931522916295053442127652898, 770),
  (18895174375702794138890142818615104399492338002, 773),
  (68778434727558170665560119859758980014152110328, 775),
  (25104128675558732292929443748812027705165520269, 778),
  (91881110952544960192121764120652021400905804187, 780),
  (33720367719584000390508687432279291854132430136, 783),
  (12409095320806912143707196975078779402320734290, 786),
  (45789561733777505810279556838040695994563509531, 788),
  (16942137841497677149803436030075057517988498526, 791),
  (62855331391956382225770747671578463391737329533, 793),
  (23382183277807774187986718133827188381726286586, 796),
  (87215543626222997721190458639175412663839048968, 798),
  (32618613316207401147725231531051604336275804314, 801),
  (12231979993577775430396961824144351626103426617, 804),
  (45992244775852435618292576458782762114148884082, 806),
  (17339076280496368228096301324961101317034129299, 809),
  (65541708340276271902204019008352962978389008751, 811),
  (24840307460964707050935323204165772968809434316, 814),
  (94393168351665886793554228175829937281475850403, 816),
  (35963797141984702868344160934991206104242299003, 819),
  (13738170508238156495707469477166640731820558219, 822),
  (52617193046552139378559608097548234002872737980, 824)]

/-- entries 384 to 511 of `pre_factorial` of factorial.const:1-2050 -/
def preFactorial3 : List (Nat × Nat) := [
  (20205002129876021521366889509458521857103131384, 827),
  (77789258200022682857262524611415309149847055830, 829),
  (30026653665208755582903334500006309331840963550, 832),
  (11620314968435788410583590451502441711422452894, 835),
  (45086822077530859033064330951829473840319117228, 837),
  (17538773788159504163862024740261665323884136601, 840),
  (68401217773822066239061896487020494763148132747, 842),
  (26744876149564427899473201526425013452390919904, 845),
  (10483991450629255736593494998358605273337240602, 848),
  (41202086400972975044812435343549318724215355567, 850),
  (16233622041983352167656099525358431577340850093, 853),
  (64122807065834241062241593125165804730496357870, 855),
  (25392631598070359460647670877565658673276557716, 858),
  (10080874744433932705877125338393566493290793413, 861),
  (40121881482847052169390958846806394643297357785, 863),
  (16008630711655973815586992579875751462675645756, 866),
  (64034522846623895262347970319503005850702583026, 868),
  (25677843661496182000201536098120705346131735793, 871),
  (10322493151921465164081017511444523549144957788, 874),
  (41599647402243504611246500571121429903054179889, 876),
  (16806257550506375862943586230733057680833888675, 879),
  (68065343079550822244921524234468883607377249135, 881),
  (27634529290297633831438138839194366744595163148, 884),
  (11247253421151136969395322507552107265050231401, 887),
  (45888793958296638835132915830812597641404944118, 889),
  (18768516728943325283569362574802352435334622144, 892),
  (76950918588667633662634386556689644984871950792, 894),
  (31626827539942397435342732874799444088782371775, 897),
  (13030252946456267743361205944417370964578337171, 900),
  (53814944668864385780081780550443742083708532518, 902),
  (22279387092909855712953857147883709222655332462, 905),
  (92459456435575901208758507163717393274019629720, 907),
  (38463133877199574902843538980106435601992165963, 910),
  (16039126826792222734485755754704383646030733206, 913),
  (67043550135991491030150459054664323640408464804, 915),
  (28091247506980434741633042343904351605331146753, 918),
  (11798323952931782591485877784439827674239081636, 921),
  (49670943841842804710155545472491674508546533688, 923),
  (20961138301257663587685640189391486642606637216, 926),
  (88665615014319916975910258001125988498226075426, 928),
  (37594220766071644797785949392477419123247855980, 931),
  (15977543825580449039059028491802903127380338791, 934),
  (68064336696972712906391461375080367322640243253, 936),
  (29063471769607348411029154007159316846767383869, 939),
  (12439165917391945119920477915064187610416440296, 942),
  (53364021785611444564458850255625364848686528869, 944),
  (22946529367812921162717305609918906884935207414, 947),
  (98899541575273690211311587178750488674070743954, 949),
  (42724601960518234171286605661220211107198561388, 952),
  (18499752648904395396167100251308351409416977081, 955),
  (80288926496245076019365215090678245116869680532, 957),
  (34925683025866608068423868564445036625838311031, 960),
  (15227597799277841117832806694098035968865503609, 963),
  (66544602382844165684929365253208417183942250774, 965),
  (29146535843685744569999061980905286726566705839, 968),
  (12795329235378041866229588209617420872962783863, 971),
  (56299448635663384211410188122316651841036248999, 973),
  (24828056848327552437231892961941643461896985808, 976),
  (10974001126960778177256496689178206410158467727, 979),
  (48614824992436247325246280333059454397002012032, 981),
  (21584982296641693812409348467878397752268893342, 984),
  (96053171220055537465221600682058869997596575373, 986),
  (42839714364144769709488833904198256018928072616, 989),
  (19149352320772712060141508755176620440460848459, 992),
  (85789098397061750029433959223191259573264601099, 994),
  (38519305180280725763215847691212875548395805893, 997),
  (17333687331126326593447131461045793996778112652, 1000),
  (78174929863379732936446562889316530925469288060, 1002),
  (35335068298247639287273846425971071978312118203, 1005),
  (16006785939106180597135052430964895606175389546, 1008),
  (72670808163542059910993138036580626052036268539, 1010),
  (33065217714411637259501877806644184853676502185, 1013),
  (15077739277771706590332856279829748293276484996, 1016),
  (68905268499416699117821153198821949700273536434, 1018),
  (31558612972732848195962088165060452962725279687, 1021),
  (14485403354484377321946598467762747909890903376, 1024),
  (66632855430628135680954352951708640385498155531, 1026),
  (30717746353519570548919956710737683217714649699, 1029),
  (14191598815326041593601020000360809646584168161, 1032),
  (65707102514959572578372722601670548663684698587, 1034),
  (30488095566941241676364943287175134579949700144, 1037),
  (14176964438627677379509698628536437579676610567, 1040),
  (66064654284004976588515195608979799121293005242, 1042),
  (30852193550630324066836596349393566189643833448, 1045),
  (14438826581694991663279527091516188976753314053, 1048),
  (67718096668149510900780982059210926300973042912, 1050),
  (31827505434030270123367061567829135361457330168, 1053),
  (14990755059428257228105885998447522755246402509, 1056),
  (70756363880501374116659781912672307404763019845, 1058),
  (33467760115477149957180076844694001402452908386, 1061),
  (15863718294736169079703356424384956664762678575, 1064),
  (75352661899996803128590943015828544157622723232, 1066),
  (35867867064398478289209288875534387019028416258, 1069),
  (17108972589718074143952830793629902608076554555, 1072),
  (81780888978852394408094531193550934466605930775, 1074),
  (39173045820870296921477280441710897609504240841, 1077),
  (18803061994017742522309094612021230852562035603, 1080),
  (90442728191225341532306745083822120400823391254, 1082),
  (43593394988170614618571851130402262033196874584, 1085),
  (21055609779286406860770204095984292562034090424, 1088),
  (10190915133174620920612778782456397600024499765, 1091),
  (49425938395896911464971977094913528360118823862, 1093),
  (24021006060405898971976380868127974783017748396, 1096),
  (11698229951417672799352497482778323719329643469, 1099),
  (57087362162918243260840187715958219750328660130, 1101),
  (27915720097667020954550851793103569457910714803, 1104),
  (13678702847856840267729917378620749034376250253, 1107),
  (67162430982977085714553894329027877758787388746, 1109),
  (33043916043624726171560516009881715857323395263, 1112),
  (16290650609506990002579334392871685917660433864, 1115),
  (80475814010964530612741911900786128433242543291, 1117),
  (39835527935427442653307246390889133574455058929, 1120),
  (19758421855972011556040394209881010252929709229, 1123),
  (98199356624180897433520759223108620957060654868, 1125),
  (48903279598842086921893338093108093236616206124, 1128),
  (24402736519822201374024775708460938525071486856, 1131),
  (12201368259911100687012387854230469262535743428, 1134),
  (61128854982154614441932063149694651005304074574, 1136),
  (30686685201041616449849895701146714804662645436, 1139),
  (15435402656123933074274497537676797546745310654, 1142),
  (77794429386864622694343467589891059635596365698, 1144),
  (39286186840366634460643451132894985115976164677, 1147),
  (19878810541225517037085586273244862468683939326, 1150),
  (10078556944401337137802392240535145271622757238, 1153),
  (51199069277558792660036152581918537979843606772, 1155),
  (26060326262277425463958401664196535831740395847, 1158),
  (13290766393761486986618784848740233274187601882, 1161),
  (67915816272121198501621990577062592031098645618, 1163)]

/-- entries 512 to 639 of `pre_factorial` of factorial.const:1-2050 -/
def preFactorial4 : List (Nat × Nat) := [
  (34772897931326053632830459175456047119922506556, 1166),
  (17838496638770265513642025557008952172520245863, 1169),
  (91689872723279164740120011363026014166754063738, 1171),
  (47220284452488769841161805851958397295878342825, 1174),
  (24365666777484205238039491819610533004673224897, 1177),
  (12597049723959334108066417270738645563416057272, 1180),
  (65252717570109350679784041462426184018495176669, 1182),
  (33866160418886753002807917518999189505598996691, 1185),
  (17610403417821111561460117109879578542911478279, 1188),
  (91750201806847991235207210142472604208568801836, 1190),
  (47893605343174651424778163694370699396872914558, 1193),
  (25048355594480342695158979612155875784564534314, 1196),
  (13125338331507699572263305316769678911111815980, 1199),
  (68908026240415422754382352913040814283337033898, 1201),
  (36245621802458512368805117632259468313035279830, 1204),
  (19101442689895636018360296992200739800969592470, 1207),
  (10085561740264895817694236811881990614911944824, 1210),
  (53352621606001298875602512734855730352884188121, 1212),
  (28276889451180688404069331749473537087028619704, 1215),
  (15015028298576945542560815158970448193212197063, 1218),
  (79879950548429350286423536645722784387888888375, 1220),
  (42576013642312843702663745032170244078744777504, 1223),
  (22735591284995058537222439847178910338049711187, 1226),
  (12163541337472356317414005318240717030856595485, 1229),
  (65196581568851829861339068505770243285391351800, 1231),
  (35010564302473432635539079787598620644255155917, 1234),
  (18835683594730706757920024925728057906609273883, 1237),
  (10152433457559850942518893434967423211662398623, 1240),
  (54823140670823195089602024548824085342976952564, 1242),
  (29659319102915348543474695280913830170550531337, 1245),
  (16075350953780118910563284842255295952438387984, 1248),
  (87289155679026045684358636693446257021740446758, 1250),
  (47485300689390168852291098361234763819826803036, 1253),
  (25879488875717642024498648606872946281805607654, 1256),
  (14130200926141832545376262139352628669865861779, 1259),
  (77292199065995824023208153902258878824166263934, 1261),
  (42356125088165711564718068338437865595643112636, 1264),
  (23253512673402975649030219517802388212008068837, 1267),
  (12789431970371636606966620734791313516604437860, 1270),
  (70469770156747717704386080248700137476490452611, 1272),
  (38899313126524740172821116297282475887022729841, 1275),
  (21511320158968181315570077312397209165523569602, 1278),
  (11917271368068372448825822831068053877700057559, 1281),
  (66140856092779467090983316712427699021235319456, 1283),
  (36774315987585383702586724092109800655806837617, 1286),
  (20483294005085058722340805319305158965284408553, 1289),
  (11429678054837462767066169368172278702628699972, 1292),
  (63891900326541416867899886768083037947694432846, 1294),
  (35779464182863193446023936590126501250708882394, 1297),
  (20072279406586251523219428427060967201647683023, 1300),
  (11280621026501473356049318776008263567325997858, 1303),
  (63509896379203294994557664708926523884045367946, 1305),
  (35819581557870658376930522895834559470601587521, 1308),
  (20238063580196921982965745436146526100889896949, 1311),
  (11454743986391457842358611916858933773103681673, 1314),
  (64948398402839565966173329568590154493497875088, 1316),
  (36890690292812873468786451194959207752306793050, 1319),
  (20990802776610525003739490729931789211062565245, 1322),
  (11964757582667999252131509716061119850305662190, 1325),
  (68318765797034275729670920478708994345245331105, 1327),
  (39078334035903605717371766513821544765480329392, 1330),
  (22391885402572766076054022212419745150620228741, 1333),
  (12852942221076767727655008749928933716456011297, 1336),
  (73904417771191414434016300312091368869622064962, 1338),
  (42568944636206254713993388979764628468902309418, 1341),
  (24562281055091008969974185441324190626556632534, 1344),
  (14196998449842603184645079185085382182149733604, 1347),
  (82200621024588672439095008481644362834646957571, 1349),
  (47676360194261430014675104919353730444095235391, 1352),
  (27699965272865890838526235958144517388019331762, 1355),
  (16121379788807948468022269327640109119827251085, 1358),
  (93987644168750339568569830180141836168592873830, 1360),
  (54888784194550198308044780825202832322458238316, 1363),
  (32109938753811866010206196782743656908638069415, 1366),
  (18816424109733753481980831314687782948461908677, 1369),
  (11045240952413713293922747981721728590747140393, 1372),
  (64946016800192634168265758132523764113593185514, 1374),
  (38253203895313461525108531540056497062906386268, 1377),
  (22569390298234942299814033608633333267114767898, 1380),
  (13338509666256850899190093862702299960864827827, 1383),
  (78963977224240557323205355667197615768319780740, 1385),
  (46825638493974650492660775910648186150613629979, 1388),
  (27814429265420942392640500890925022573464496207, 1391),
  (16549585412925460723621098030100388431211375243, 1394),
  (98635529061035745912781744259398315050019796451, 1396),
  (58885410849438340309930701322860794084861818481, 1399),
  (35213475687964127505338559391070754862747367452, 1402),
  (21092871937090512375697797075251382162785673103, 1405),
  (12655723162254307425418678245150829297671403862, 1408),
  (76060896205148387626766256253356484079005137212, 1410),
  (45788659515499329351313286264520603415561092601, 1413),
  (27610561687846095598841911617505923859583338838, 1416),
  (16676779259459041741700514616973578011188336658, 1419),
  (10089451451972720253728811343269014696768943678, 1422),
  (61142075798954684737596596740210229062419798691, 1424),
  (37113240009965493635721134221307609040888817805, 1427),
  (22564849926059020130518449606555026296860401225, 1430),
  (13741993604969943259485735810392011014787984346, 1433),
  (83826160990316653882862988443391267190206704514, 1435),
  (51217784365083475522429285938912064253216296458, 1438),
  (31345284031431087019726722994614183322968373432, 1441),
  (19214659111267256343092481195698494376979612914, 1444),
  (11797800694318095394658783454158875547465482329, 1447),
  (72556474270056286677151518243077084616912716324, 1449),
  (44694788150354672593125335237735484124018233256, 1452),
  (27576684288768832989958331841682793704519249919, 1455),
  (17042390890459138787794249078159966509392896449, 1458),
  (10549239961194206909644640179381019269314202902, 1461),
  (65405287759404082839796769112162319469748057995, 1463),
  (40616683698589935443513793618652800390713544015, 1466),
  (25263577260522939845865579630802041843023824377, 1469),
  (15739208633305791523974256109989672068203842587, 1472),
  (98212661871828139109599358126335553705591977744, 1474),
  (61382913669892586943499598828959721065994986090, 1477),
  (38425703957352759426630748866928785387312861292, 1480),
  (24092916381260180160497479539564348437845164030, 1483),
  (15130351487431393140792417150846410818966763011, 1486),
  (95169910855943462855584303878823924051300939339, 1488),
  (59957043839244381599018111443659072152319591783, 1491),
  (37832894662563204788980428320948874528113662415, 1494),
  (23910389426739945426635630698839688701767834646, 1497),
  (15135276507126385455060354232365522948219039331, 1500),
  (95957653055181283785082645833197415491708709360, 1502),
  (60933109690040115203527480104080358837235030444, 1505),
  (38753457762865513269443477346195108220481479362, 1508),
  (24685952594945331952635495069526283936446702353, 1511),
  (15749637755575121785781445854357769151452996101, 1514),
  (10064018525812502821114343900934614487778464509, 1517)]

/-- entries 640 to 767 of `pre_factorial` of factorial.const:1-2050 -/
def preFactorial5 : List (Nat × Nat) := [
  (64409718565200018055131800965981532721782172857, 1519),
  (41286629600293211573339484419194162474662372801, 1522),
  (26506016203388241830083948997122652308733243338, 1525),
  (17043368418778639496743979205149865434515475466, 1528),
  (10975929261693443835903122608116513339827966200, 1531),
  (70794743737922712741575140822351511041890381994, 1533),
  (45733404454698072431057540971239076133061186768, 1536),
  (29589512682189652862894229008391682258090587839, 1539),
  (19174004218058895055155460397437810103242700919, 1542),
  (12443928737520222890795893797937138757004512896, 1545),
  (80885536793881448790173309686591401920529333829, 1547),
  (52656484452816823162402824605971002650264596323, 1550),
  (34332027863236568701886641643093093727972516802, 1553),
  (22418814194693479362331976992939790204366053472, 1556),
  (14661904483329535502965112953382622793655398970, 1559),
  (96035474365808457544421489844656179298442863258, 1561),
  (62999271183970348149140497338094453619778518297, 1564),
  (41390521167868518733985306751128056028194486521, 1567),
  (27234962928457485326962331842242260866551972131, 1570),
  (17947840569853482830468176684037649911057749634, 1573),
  (11845574776103298668108996611464848941298114758, 1576),
  (78299249270042804196200467601782651501980538555, 1578),
  (51834103016768336377884709552380115294311116523, 1581),
  (34366010300117407018537562433228016440128270255, 1584),
  (22819030839277958260308941455663402916245171449, 1587),
  (15174655508119842243105446068016162939303039013, 1590),
  (10106320568407814933908227081298764517575823983, 1593),
  (67409158191280125609167874632262759332230745968, 1595),
  (45029317671775123906924140254351523233930138306, 1598),
  (30124613522417557893732249830161169043499262527, 1601),
  (20183491060019763788800607386207983259144505893, 1604),
  (13543122501273261502285207556145556766885963454, 1607),
  (91009783208556317295356594777298141473473674413, 1609),
  (61249584099358401539774988285121649211647782880, 1612),
  (41282219682967562637808342104171991568650605661, 1615),
  (27865498286003104780520630920316094308839158821, 1618),
  (18837076841338098831631946502133679752775271363, 1621),
  (12752701021585892909014827781944501192628858712, 1624),
  (86463312926352353923120532361583718086023662073, 1626),
  (58708589476993248313798841473515344580410066547, 1629),
  (39921840844355408853383212201990434314678845252, 1632),
  (27186773615006033429153967509555485768296293616, 1635),
  (18541379605434114798683005841516841293978072246, 1638),
  (12663762270511500407500492989756002603787023344, 1641),
  (86620133930298662787303372049931057809903239676, 1643),
  (59334791742254584009302809854202774599783719178, 1646),
  (40703667135186644630381727559983103375451631356, 1649),
  (27963419321873224861072246833708392018935270741, 1652),
  (19238832493448778704417705821591373709027466270, 1655),
  (13255555587986208527343799311076456485519924260, 1658),
  (91463333557104838838672215246427549750087477396, 1660),
  (63201163487959443637522500735281436877310446880, 1663),
  (43735205133667934997165570508814754319098829241, 1666),
  (30308497157631878953035740362608624743135488664, 1669),
  (21034097027396523993406803811650385571736029133, 1672),
  (14618697434040584175417728649097017972356540247, 1675),
  (10174613414092246586090739139771524508760152012, 1678),
  (70917055496222958705052451804207525826058259525, 1680),
  (49500104736363625176126611359336853026588665148, 1683),
  (34600573210718173998112501340176460265585476938, 1686),
  (24220401247502721798678750938123522185909833857, 1689),
  (16978501274499407980873804407624589052322793533, 1692),
  (11918907894698584402573410694152461514730601060, 1695),
  (83789922499731048350091077179891804448556125457, 1697),
  (58988105439810658038464118334643830331783512322, 1700),
  (41586614335066513917117203425923900383907376187, 1703),
  (29360149720556958825484745618702273671038607588, 1706),
  (20757625852433769889617715152422507485424295564, 1709),
  (14696399103523109081849342327915135299680401259, 1712),
  (10419746964397884339031183710491830927473404493, 1715),
  (73980203447224978807121404344491999585061171902, 1717),
  (52599924650976959931863318488933811704978493222, 1720),
  (37451146351495595471486682764120873933944687174, 1723),
  (26702667348616359571170004810818183114902561955, 1726),
  (19065704486912080733815383434924182744040429236, 1729),
  (13631978708142137724677999155970790661988906903, 1732),
  (97604967550297706108694473956750861139840573431, 1734),
  (69982761733563455279933937826990367437265691150, 1737),
  (50247622924698560890992567359779083819956766245, 1740),
  (36128040882858265280623655931681161266548914930, 1743),
  (26012189435657951002049032270810436111915218750, 1746),
  (18754788583109382672477352267254324436690872718, 1749),
  (13540957357004974289528648336957622243290810103, 1752),
  (97901121691145964113292127476203608818992557044, 1754),
  (70880412104389678018023500292771412784950611300, 1757),
  (51388298775682516563067037712259274269089193192, 1760),
  (37307904911145507024786669379100233119358754258, 1763),
  (27122846870402783607019908638605869477773814345, 1766),
  (19745432521653226465910493488905072979819336843, 1769),
  (14394420308285202093648749753411798202288296558, 1772),
  (10507926825048197528363587319990612687670456488, 1775),
  (76812945091102323932337823309131378746871036927, 1777),
  (56227075806686901118471286662284169242709599031, 1780),
  (41214446566301498519839453123454296054906136089, 1783),
  (30251403779665299913562158592615453304301103889, 1786),
  (22234781778053995436468186565572358178661311359, 1789),
  (16364799388647740641240585312261255619494725160, 1792),
  (12060857149433384852594311375136545391567612443, 1795),
  (89009125762818380212146017948507704989768979830, 1797),
  (65777743938722782976775907263947193987439276094, 1800),
  (48675530514654859402814171375320923550705064309, 1803),
  (36068568111359250817485300989112804351072452653, 1806),
  (26762877538628564106574093333921700828495759869, 1809),
  (19884818011201023131184551347103823715572349582, 1812),
  (14794304600333561209601306202245244844385828089, 1815),
  (11021756927248503101152973120672707409067441926, 1818),
  (82222306677273833134601179480218397271643116773, 1820),
  (61420063087923553351547081071723142761917408229, 1823),
  (45942207189766817906957216641648910785914221355, 1826),
  (34410713185135346612310955264595034178649751795, 1829),
  (25808034888851509959233216448446275633987313846, 1832),
  (19381834201527483979384145552783153001124472698, 1835),
  (14575139319548667952496877455692931056845603469, 1838),
  (10975079907620146968230148724136777085804739412, 1841),
  (82752102503455908140455321379991299226967735170, 1843),
  (62477837390109210646043767641893430916360640053, 1846),
  (47233245066922563248409088337271433772768643880, 1849),
  (35755566515660380379045679871314475365985863417, 1852),
  (27102719418870568327316625342456372327417284470, 1855),
  (20570964038922761360433318634924386596509718913, 1858),
  (15633932669581298633929322162542533813347386373, 1861),
  (11897422761551368260420214165694868231957361030, 1864),
  (90658361443021426144402031942594895927515091053, 1866),
  (69172329781025348148178750372199905592694014473, 1869),
  (52847659952703365985208565284360727872818227057, 1872),
  (40428459863818074978684552442535956822705943699, 1875),
  (30968200255684645433672367170982542926192752873, 1878),
  (23752609596110123047626705620143610424389841454, 1881)]

/-- entries 768 to 895 of `pre_factorial` of factorial.const:1-2050 -/
def preFactorial6 : List (Nat × Nat) := [
  (18242004169812574500577309916270292805931398236, 1884),
  (14028101206585869790943951325611855167761245244, 1887),
  (10801637929071119739026842520721128479176158837, 1890),
  (83280628433138333187896955834759900574448184640, 1892),
  (64292645150382793221056449904434643243473998542, 1895),
  (49698214701245899159876635776127979227205400873, 1898),
  (38466418178764325949744516090723055921856980275, 1901),
  (29811474088542352611051999970310368339439159713, 1904),
  (23133703892708865626176351976960845831404787937, 1907),
  (17974887924634788591539025486098577211001520227, 1910),
  (13984462805365865524217361828184693070159182737, 1913),
  (10893896525380009243365324864155875901654003352, 1916),
  (84972392897964072098249533940415832032901226147, 1918),
  (66363438853309940308732886007464764817695857621, 1921),
  (51896209183288373321429116857837446087438160659, 1924),
  (40634731790514796310678998499686720286464079796, 1927),
  (31857629723763600307572334823754388704587838560, 1930),
  (25008239333154426241444282836647195133101453270, 1933),
  (19656476115859379025775206309604695374617742270, 1936),
  (15469646703181331293285087365658895259824163166, 1939),
  (12190081602106889059108648844139209464741440575, 1942),
  (96179743840623354676367239380258362676809966139, 1944),
  (75981997634092450194330119110404106514679873250, 1947),
  (60101760128567128103715124216329648253111779740, 1950),
  (47600594021825165458142378379333081416464529554, 1953),
  (37747271059307356208306906054811133563256371936, 1956),
  (29971333221090040829395683407520040049225559317, 1959),
  (23827209910766582459369568308978431839134319657, 1962),
  (18966459088970199637658176373946831743950918447, 1965),
  (15116267893909249111213566570035624899928882002, 1968),
  (12062781779339580790748426122888428670143247838, 1971),
  (96381626416923250518079924721878545074444550227, 1973),
  (77105301133538600414463939777502836059555640181, 1976),
  (61761346207964418931985615761779771683704067785, 1979),
  (49532599658787463983452463840947376890330662363, 1982),
  (39774677526006333578712328464280743642935521878, 1985),
  (31978840730909092197284712085281717888920159590, 1988),
  (25742966788381819218814193228651782900580728470, 1991),
  (20748831231435746290364239742293337017868067146, 1994),
  (16744306803768647256323941472030722973419530187, 1997),
  (13529399897445066983109744709400824162522980391, 2000),
  (10945284517033059189335783469905266747481091136, 2003),
  (88656804587967779433619846106232660654596838207, 2005),
  (71900668520841869120665695192154687790878035786, 2008),
  (58383342838923597725980544496029606486192965058, 2011),
  (47465657728044884951222182675272070073274880592, 2014),
  (38637045390628536350294856697671465039645752802, 2017),
  (31489191993362257125490308208602244007311288533, 2020),
  (25695180666583601814400091498219431109966011443, 2023),
  (20992962604598802682364874754045275216842231349, 2026),
  (17172243410561820594174467548809035127376945243, 2029),
  (14064067353250131066628888922474599769321718154, 2032),
  (11532535229665107474635688916429171810843808886, 2035),
  (94682114235550532366759006003883500567027670961, 2037),
  (77828697901622537605475902935192237466096745530, 2040),
  (64053018373035348449306668115663211434597621571, 2043),
  (52779687139381127122228694527306486222108440174, 2046),
  (43543241889989429875838672985027851133239463144, 2049),
  (35966717801131269077442743885633005036055796557, 2052),
  (29744475621535559527045149193418495164818143752, 2055),
  (24628425814631443288393383532150513996469423027, 2058),
  (20416965000329466486078114948152776103073151689, 2061),
  (16946080950273457183444835406966804165550715902, 2064),
  (14082193269677242919442658223189414261572644914, 2067),
  (11716384800371466108976291641693592665628440569, 2070),
  (97597485387094312687772509375307626904684909941, 2072),
  (81396302812836656781602272819006560838507214890, 2075),
  (67965912848718608412637897803870478300153524433, 2078),
  (56819503141528756632965282564035719858928346426, 2081),
  (47557924129459569301791941506097897521923025959, 2084),
  (39853540420487119074901646982110038123371495753, 2087),
  (33437120412788692903842481817990321985508684937, 2090),
  (28087181146742502039227684727111870467827295347, 2093),
  (23621319344410444214990482855501083063442755387, 2096),
  (19889150887993594029021986564331911939418800036, 2099),
  (16766554198578599766465534673731801764930048430, 2102),
  (14150971743600338202896911264629640689600960875, 2105),
  (11957571123342285781447890018612046382712811939, 2108),
  (10116105170347573771104914955745791239775038900, 2111),
  (85683410792843949841258629675166851800894579490, 2113),
  (72659532352331669465387317964541490327158603407, 2116),
  (61687942967129587376113832951895725287757654293, 2119),
  (52434751522060149269696758009111366494594006149, 2122),
  (44621973545273187028511941065753772886899499233, 2125),
  (38017921460572755348292173788022214499638373346, 2128),
  (32429287005868560312093224241182948968191532464, 2131),
  (27694611103011750506527613501970238418835568724, 2134),
  (23678892493075046683081109544184553848104411259, 2137),
  (20269131974072239960717429769821978093977376038, 2140),
  (17370646101779909646334837312737435226538611264, 2143),
  (14904014355327162476555290414328719424370128465, 2146),
  (12802548331226032567360994465908369985533940351, 2149),
  (11010191564854388007930455240681198187559188702, 2152),
  (94797749373396280748281219622265116394884614727, 2154),
  (81715659959867594005018411314392530332390537895, 2157),
  (70520614545365733626330888964320753676853034203, 2160),
  (60929810967195993853149888065173131176801021551, 2163),
  (52704286486624534682974653176374758467932883642, 2166),
  (45641912097416847035456049650740540833229877234, 2169),
  (39571537788460406379740395047192048902410303562, 2172),
  (34348094800383632737614662900962698447292143491, 2175),
  (29848494381533376848987142060936584950696872694, 2178),
  (25968190111934037858618813593014828907106279244, 2181),
  (22618293587494546974856986639515915978089569221, 2184),
  (19723152008295244962075292349657878732894104361, 2187),
  (17218311703241748851891730221251328133816553107, 2190),
  (15048804428633288496553372213373660788955667415, 2193),
  (13167703875054127434484200686701953190336208988, 2196),
  (11534908594547415632608159801550910994734519074, 2199),
  (10116114837418083509797356145960148942382173228, 2202),
  (88819488272530773216020786961530107714115480943, 2204),
  (78072330191554549656882271739184964680707507748, 2207),
  (68703650568568003698056399130482768919022606819, 2210),
  (60527916150908411257987687633955319417658916607, 2213),
  (53385622045101218729545140493148591726375164447, 2216),
  (47139504265824376138188359055450206494389270207, 2219),
  (41671321770988748506158509405017982541040114863, 2222),
  (36879119767325042427950280823440914548820501654, 2225),
  (32674900113849987591163948809568650290254964465, 2228),
  (28982636400984938993362422594087392807456153480, 2231),
  (25736581124074625826105831263549604813021064291, 2234),
  (22879820619302342359408083993295598678775726154, 2237),
  (20363040351179084699873194754033082824110396277, 2240),
  (18143468952900564467587016525843476796282363083, 2243),
  (16183974305987303505087618741052381302283867870, 2246),
  (14452289055246662030043243535759776502939494008, 2249),
  (12920346415390515854858659720969240193627907643, 2252),
  (11563710041774511690098500450267469973296977340, 2255)]

/-- entries 896 to 1023 of `pre_factorial` of factorial.const:1-2050 -/
def preFactorial7 : List (Nat × Nat) := [
  (10361084197429962474328256403439653096074091697, 2258),
  (92938925250946763394724459938853688271784602525, 2260),
  (83459154875350193528462565025090612068062573068, 2263),
  (75029780232939823982087845957556460249188253188, 2266),
  (67526802209645841583879061361800814224269427869, 2269),
  (60841648790890903267075034286982533616066754510, 2272),
  (54879167209383594746901680926858245321692212568, 2275),
  (49555887990073386056452217876952995525488067949, 2278),
  (44798522743026340995032804960765507955041213426, 2281),
  (40542663082438838600504688489492784699312298150, 2284),
  (36731652752689587772057247771480462937576942124, 2287),
  (33315609046689456109255923728732779884382286506, 2290),
  (30250573014394026147204378745689364135019116148, 2293),
  (27497770870084169767808780279831631998732376578, 2296),
  (25022971491776594488705990054646785118846462686, 2299),
  (22795927029008477579211156939783221243269127507, 2302),
  (20789885450455731552240575129082297773861444286, 2305),
  (18981165416266082907195645092852137867535498633, 2308),
  (17348785190467199777176819614866854010927445751, 2311),
  (15874138449277487796116789947603171419998612862, 2314),
  (14540710819538178821242979592004505020718729382, 2317),
  (13333831821516509979079812285868131103999074843, 2320),
  (12240457612152156160795267678426944353471150706, 2323),
  (11248980545567831511770850996474361860839987499, 2326),
  (10349062101922404990829182916756412911972788499, 2329),
  (95314861958705349965536774663326562919269382076, 2331),
  (87880302725926332668224906239587091011566370274, 2334),
  (81113519416030005052771588459138885003675759763, 2337),
  (74948891940411724668760947736244329743396402021, 2340),
  (69327725044880845318603876656026005012641671870, 2343),
  (64197473391559662765027189783480080641706188151, 2346),
  (59511057833975807383180204929286034754861636416, 2349),
  (55226261669929549251591230174377440252511598594, 2352),
  (51305197091364551254728252831996641994583275094, 2355),
  (47713833294969032666897275133756877054962445837, 2358),
  (44421578797616169412881363149527652538170037074, 2361),
  (41400911439378269892805430455359772165574474553, 2364),
  (38627050372939925809987466614850667430480984758, 2367),
  (36077665048325890706528293818270523380069239764, 2370),
  (33732616820184707810603954720082939360364739179, 2373),
  (31573729343692886510725301617997631241301395872, 2376),
  (29584584395040234660549607616063780473099407932, 2379),
  (27750340162547740111595531943867826083767244640, 2382),
  (26057569412632327964788204495291888692657442717, 2385),
  (24494115247874388286900912225574375371097996154, 2388),
  (23048962448249799377973758404265487224203214381, 2391),
  (21712122626251311014051280416818088965199427947, 2394),
  (20474531636554986286250357433059457894183060554, 2397),
  (19327957864907907054220337416808128252108809163, 2400),
  (18264920182337972166238218858883681198242824659, 2403),
  (17278614492491721669261355040503962413537712127, 2406),
  (16362847924389660420790503223357252405620213384, 2409),
  (15511979832321398078909397055742675280527962288, 2412),
  (14720868860873006776885017805899798841221036212, 2415),
  (13984825417829356438040766915604808899159984401, 2418),
  (13299568972355717972576769336740173263101145165, 2421),
  (12661189661682643509893084408576644946472290197, 2424),
  (12066113747583559264928109441373542633988092558, 2427),
  (11511072515194715538741416407070359672824640300, 2430),
  (10993074252010953339498052668752193487547531487, 2433),
  (10509378984922471392560138351327096974095440101, 2436),
  (10057475688570805122680052402220031804209336177, 2439),
  (96350617096508313075274902013267904684325440580, 2441),
  (92400241795551472239188631030723920592268097517, 2444),
  (88704232123729413349621085789494963768577373616, 2447),
  (85244767070903966228985863443704660181602856045, 2450),
  (82005465922209615512284400632843883094701947515, 2453),
  (78971263683087859738329877809428659420197975457, 2456),
  (76128298190496696787750002208289227681070848341, 2459),
  (73463807753829312400178752130999104712233368649, 2462),
  (70966038290199115778572674558545135152017434115, 2465),
  (68624159026622544957879776298113145692000858789, 2468),
  (66428185937770623519227623456573525029856831308, 2471),
  (64368912173699734190131567129419745753931269537, 2474),
  (62437844808488742164427620115537153381313331451, 2477),
  (60627147309042568641659219132186575933255244839, 2480),
  (58929587184389376719692760996485351807124097983, 2483),
  (57338488330410863548261056449580247308331747338, 2486),
  (55847687633820181096006268981891160878315121907, 2489),
  (54451495442974676568606112257343881856357243859, 2492),
  (53144659552343284330959565563167628691804670007, 2495),
  (51922332382639388791347495555214773231893162596, 2498),
  (50780041070221322237937850653000048220791513019, 2501),
  (49713660207746674470941155789287047208154891246, 2504),
  (48719387003591740981522332673501306263991793421, 2507),
  (47793718650523497902873408352704781444975949346, 2510),
  (46933431714814074940621687002356095378966382258, 2513),
  (46135563375662235666631118323316041757523953759, 2516),
  (45397394361651639895965020430142985089403570499, 2519),
  (44716433446226865297525545123690840313062516942, 2522),
  (44090403377979689183360187491959168548679641704, 2525),
  (43517228134065953223976505054563699357546806362, 2528),
  (42995021396457161785288786993908934965256244686, 2531),
  (42522076161096133005650610336975936680638425994, 2534),
  (42096855399485171675594104233606177313832041734, 2537),
  (41717983700889805130513757295503721718007553359, 2540),
  (41384239831282686689469647237139691944263492932, 2543),
  (41094550152463707882643359706479714100653648481, 2546),
  (40847982851548925635347499548240835816049726591, 2549),
  (40643742937291181007170762050499631636969477958, 2552),
  (40481167965542016283142079002297633110421600046, 2555),
  (40359724461645390234292652765290740211090335246, 2558),
  (40279005012722099453824067459760158730668154575, 2561),
  (40238726007709377354370243392300398571937486421, 2564),
  (40238726007709377354370243392300398571937486421, 2567),
  (40278964733717086731724613635692698970509423907, 2570),
  (40359522663184520905188062862964084368450442755, 2573),
  (40480601231174074467903627051552976621555794083, 2576),
  (40642523636098770765775241559759188528042017259, 2579),
  (40845736254279264619604117767557984470682227346, 2582),
  (41090810671804940207321742474163332377506320710, 2585),
  (41378446346507574788772994671482475704148864955, 2588),
  (41709473917279635387083178628854335509782055874, 2591),
  (42084859182535152105566927236514024529370094377, 2594),
  (42505707774360503626622596508879164774663795321, 2597),
  (42973270559878469166515445070476835587185097070, 2600),
  (43488949806597010796513630411322557614231318234, 2603),
  (44054306154082771936868307606669750863216325371, 2606),
  (44671066440239930743984463913163127375301353927, 2609),
  (45341132436843529705144230871860574285930874236, 2612),
  (46066590555833026180426538565810343474505768223, 2615),
  (46849722595282187625493789721429119313572366283, 2618),
  (47693017601997267002752677936414843461216668876, 2621),
  (48599184936435215075804978817206725486979785585, 2624),
  (49571168635163919377321078393550859996719381297, 2627),
  (50612163176502361684244821039815428056650488304, 2630),
  (51725630766385413641298207102691367473896799047, 2633),
  (52915320274012278155048065866053268925796425425, 2636)]

/-- entries 1024 to 1151 of `pre_factorial` of factorial.const:1-2050 -/
def preFactorial8 : List (Nat × Nat) := [
  (54185287960588572830769219446838547380015539635, 2639),
  (55539920159603287151538449933009511064515928126, 2642),
  (56983958083752972617478449631267758352193342257, 2645),
  (58522524952014302878150367771311987827702562498, 2648),
  (60161155650670703358738578068908723486878234248, 2651),
  (61905829164540153756141996832907076467997703041, 2654),
  (63763004039476358368826256737894288762037634132, 2657),
  (65739657164700125478259870696769011713660800791, 2660),
  (67843326193970529493564186559065620088497946416, 2663),
  (70082155958371556966851804715514785551418378648, 2666),
  (72464949260956189903724766075842288260166603522, 2669),
  (75001222485089656550355132888496768349272434645, 2672),
  (77701266494552884186167917672482652009846242292, 2675),
  (80576213354851340901056130626364510134210553257, 2678),
  (83638109462335691855296263590166361519310554281, 2681),
  (86899995731366783837652817870182849618563665898, 2684),
  (90375995560621455191158930584990163603306212534, 2687),
  (94081411378606934853996446738974760311041767248, 2690),
  (98032830656508426117864297502011700244105521472, 2693),
  (10224824237473828844093246229459820335460205889, 2697),
  (10674716503922677313233349063556052430220454948, 2700),
  (11155078746599197792328849771416074789580375421, 2703),
  (11668212368942760890775976860901214229901072690, 2706),
  (12216618350283070652642447773363571298706423107, 2709),
  (12803016031096658043969285266485022721044331416, 2712),
  (13430363816620394288123780244542788834375503655, 2715),
  (14101882007451414002529969256769928276094278838, 2718),
  (14821077989831436116658997688865194618175087059, 2721),
  (15591774045302670794725265568686184738320191586, 2724),
  (16418138069703712346845704643826552529451161740, 2727),
  (17304717525467712813575372694593186366041524474, 2730),
  (18256476989368437018322018192795811616173808320, 2733),
  (19278839700773069491348051211592377066679541586, 2736),
  (20377733563717134452354890130653142559480275457, 2739),
  (21559642110412728250591473758231024827930131433, 2742),
  (22831660994927079217376370709966655292778009188, 2745),
  (24201560654622703970418952952564654610344689739, 2748),
  (25677855854554688912614509082671098541575715813, 2751),
  (27269882917537079625196608645796706651153410193, 2754),
  (28987885541341915641583994990481899170176075036, 2757),
  (30843110215987798242645370669872740717067343838, 2760),
  (32847912380027005128417319763414468863676721187, 2763),
  (35015874597108787466892862867799823808679384786, 2766),
  (37361938195115076227174684679942412003860903567, 2769),
  (39902549992382901410622563238178496020123445009, 2772),
  (42655825941857321607955520101612812245511962715, 2775),
  (45641733757787334120512406508725709102697800105, 2778),
  (48882296854590234843068787370845234448989343912, 2781),
  (52401822228120731751769740061546091329316576674, 2784),
  (56227155250773545169648931086038955996356686771, 2787),
  (60387964739330787512202951986405838740087081592, 2790),
  (64917062094780596575618173385386276645593612712, 2793),
  (69850758813983921915365154562675633670658727278, 2796),
  (75229267242660683902848271464001657463299449278, 2799),
  (81097150087588217247270436638193786745436806322, 2802),
  (87503824944507686409804801132611095898326314022, 2805),
  (94504130940068301322589185223219983570192419144, 2808),
  (10215896554621383372971890922630080223937800509, 2812),
  (11053600072100336809555585978285746802300700151, 2815),
  (11971048878084664764748699614483463786891658263, 2818),
  (12976616983843776604987590382100074744990557557, 2821),
  (14079629427470497616411535564578581098314754950, 2824),
  (15290477558232960411422927623132339072769823876, 2827),
  (16620749105799227967216722326344852572100798553, 2830),
  (18083375027109560028331793891063199598445668826, 2833),
  (19692795404522310870853323547367824362707333351, 2836),
  (21465146990929318849230122666630928555350993353, 2839),
  (23418475367103886864510063829294343053887933748, 2842),
  (25572975100877444456044989701589422614845623653, 2845),
  (27951261785259046790457173743837238918026266652, 2848),
  (30578680393073397188760148075757939376320735718, 2851),
  (33483655030415369921692362142954943617071205611, 2854),
  (36698085913335245434174828908678618204310041350, 2857),
  (40257800246928764241289787312820444170128115361, 2860),
  (44203064671127783136936186469476847698800670666, 2863),
  (48579168073569433667492868929955055620981937062, 2866),
  (53437084880926377034242155822950561183080130768, 2869),
  (58834230453899941114700613561068567862571223976, 2872),
  (64835321960197735108400076144297561784553488822, 2875),
  (71513360122098101824565283987160210648362498170, 2878),
  (78950749574796304414320073521824872555792197980, 2881),
  (87240578280149916377823681241616484174150378768, 2884),
  (96488079577845807513872991453227831496610318917, 2887),
  (10681230409267530891785740153872320946674762304, 2891),
  (11834803293468424228098600090490531608915636633, 2894),
  (13124796852456482468961347500353999554287441026, 2897),
  (14568524506226695540547095725392939505259059538, 2900),
  (16185630726417858745547823350911555790342815147, 2903),
  (17998421367776658925049179566213650038861210444, 2906),
  (20032242982335421383579736857195792493252527224, 2909),
  (22315918682321659421307826858916112837483315328, 2912),
  (24882249330788650254758226947691465813793896590, 2915),
  (27768590253160133684310181273623675848193988595, 2918),
  (31017515312779869325374472482637645922432685261, 2921),
  (34677582119687893905768660235588888141279742121, 2924),
  (38804214391930753280555130803623965830092031434, 2927),
  (43460720118962443674221746500058841729703075206, 2930),
  (48719467253356899358802577826565961578997147306, 2933),
  (54663242258266441080576492321407008891634799277, 2936),
  (61386821056033213333487400876940070985305879589, 2939),
  (68998786866981331786839838585680639787483808658, 2942),
  (77623635225353998260194818408890719760919284740, 2945),
  (87404213263748602040979365528410950450795114617, 2948),
  (98504548348244674500183744950519141158046094174, 2951),
  (11111313053681999283620726430418559122627599422, 2955),
  (12544672437606977191207800139942553249446559748, 2958),
  (14175479854495884226064814158135085171874612515, 2961),
  (16032467715434845059679304812850781329390186755, 2964),
  (18148753453872244607556973048147084464869691406, 2967),
  (20562537663237253140362050463550646698697360364, 2970),
  (23317917710111045061170565225666433356322806652, 2973),
  (26465836600976036144428591531131401859426385550, 2976),
  (30065190378708777060070879979365272512308373985, 2979),
  (34184121460591879517300590536538314846494621221, 2982),
  (38901530222153558890688072030580602295310878950, 2985),
  (44308842923032903576493714042831306014359091124, 2988),
  (50512080932257510077202834008827688856369363882, 2991),
  (57634284343705818998088433604072392985117444189, 2994),
  (65818352720512045295816991175850672789004121264, 2997),
  (75230377159545267773118820913997318997831710605, 3000),
  (86063551470519786332447931125612932933519476932, 3003),
  (98542766433745155350652881138826808208879801087, 3006),
  (11293001033307194803184820178509552220737625204, 3010),
  (12953072185203352439252988744750456397186056109, 3013),
  (14870126868613448600262431078973523943969592413, 3016),
  (17085775772036852441701533309740579011621061683, 3019),
  (19648642137842380307956763306201665863364220936, 3022),
  (22615587100656579734458234565438117408732218297, 3025)]

/-- entries 1152 to 1279 of `pre_factorial` of factorial.const:1-2050 -/
def preFactorial9 : List (Nat × Nat) := [
  (26053156339956379854095886219384711254859515478, 3028),
  (30039289259969705971772556810950572076853021347, 3031),
  (34665339806005040691425530559836960176688386634, 3034),
  (40038467475935821998596487796611689004075086562, 3037),
  (46284468402181810230377539892883112488710800066, 3040),
  (53551129941324354436546813656065761149438395677, 3043),
  (62012208472053602437521210213724151411049662194, 3046),
  (71872149619110125225087082637706291485406558482, 3049),
  (83371693558167745261101015859739298123071607840, 3052),
  (96794536221032752248138279413157325120886136702, 3055),
  (11247525108884005811233668067808881179046969084, 3059),
  (13080871701632098758464755962861728811231625045, 3062),
  (15226134660699762954852975940771052336273611553, 3065),
  (17738446879715223842403716970998275971758757459, 3068),
  (20683029061747951000242733988183989783070711197, 3071),
  (24137094915059858817283270564210716076843519967, 3074),
  (28192126860789915098586860018998116377753231322, 3077),
  (32956596300263410750248039362208798045593527415, 3080),
  (38559217671308190577790206053784293713344427076, 3083),
  (45152843893101891166592331288981407938326324106, 3086),
  (52919133042715416447246212270686210103718451852, 3089),
  (62074143059105183492619806993514924451661744023, 3092),
  (72875043951389485420335653410386521306250887483, 3095),
  (85628176642882645368894392757204162534844792792, 3098),
  (10069873573202999095381980588247209514097747632, 3102),
  (11852241195659929935264591152366965598093048963, 3105),
  (13961940128487397463741688377488285474553611678, 3108),
  (16461127411486641609751450597058688574498708169, 3111),
  (19424130345554237099506711704529252517908475639, 3114),
  (22939897938099554014517426523049047223649909730, 3117),
  (27114959362833672845159598150243973818354193301, 3120),
  (32076996926232234975823804611738621027113010675, 3123),
  (37979164360658966211375384660298527296101804640, 3126),
  (45005309767380874960479830822453754845880638498, 3129),
  (53376297384113717703129079355430153247214437259, 3132),
  (63357664994942982913614217194895591904443537027, 3135),
  (75268906013992263701373690027535963182478921988, 3138),
  (89494729250636801540933317442740260223967438243, 3141),
  (10649872780825779383371064775686090966652125151, 3145),
  (12683998481963503245594938147842134341282681054, 3148),
  (15119326190500495868749166272227824134808955817, 3151),
  (18037356145267091571417755362767794192827084290, 3154),
  (21536603237448907336272799903144746266235538642, 3157),
  (25736240868751444266845995884257971788151468677, 3160),
  (30780544079026727343147811077572534258629156538, 3163),
  (36844311262594992629747929859854323507579100376, 3166),
  (44139484892588801170438019972105479562079762251, 3169),
  (52923242386213972603355185946554469994933634939, 3172),
  (63507890863456767124026223135865363993920361927, 3175),
  (76272976927011577315955493986174302156698354674, 3178),
  (91680118266267915933778503771381511192351422318, 3181),
  (11029118227432030286833554003697195796439876104, 3185),
  (13279058345828164465347599020451423738913610830, 3188),
  (16001265306722938180743856819643965605390901050, 3191),
  (19297525959907863445977091324490622520101426666, 3194),
  (23292113833608791179294349228660181381762421987, 3197),
  (28136873510999419744587573868221499109169005760, 3200),
  (34017480074798298471206376806679792422985327964, 3203),
  (41161150890505941150159715936082548831812246836, 3206),
  (49846153728402694732843415998595966635324630919, 3209),
  (60413538318824066016206220190298311562013452674, 3212),
  (73281621980733592077658145090831851924722318093, 3215),
  (88963889084610580782276988140269868236612894165, 3218),
  (10809112523780185565046654059042788990748466641, 3222),
  (13143880828916705647096731335796031412750135435, 3225),
  (15996102968791630772516722035663770229316914825, 3228),
  (19483253415988206280925367439438472139308002257, 3231),
  (23750085914089623456448022908675497537816454751, 3234),
  (28975104815189340616866587948584106996136074796, 3237),
  (35378602979346184893194103885221194642282147326, 3240),
  (43232652840761037939483194947740299852868784033, 3243),
  (52873534424250749399987947421086386720058522872, 3246),
  (64717206135282917265585247643409737345351631996, 3249),
  (79278577515721573650341928363176928248055749195, 3252),
  (97195536034274649295319204173254914032116348513, 3255),
  (11925892271405499468535666352058377951740675962, 3259),
  (14644995709285953347361798280327688124737550082, 3262),
  (17998699726712436663907650086522728705302449050, 3265),
  (22138400663856297096606409606422956307522012332, 3268),
  (27252371217207101725922490225506659214559597181, 3271),
  (33574921339599149326336507957824204152337423727, 3274),
  (41397878011725751119372914311997243719832043455, 3277),
  (51084981466469576881306176261004598750272741624, 3280),
  (63089952111089927448413127682340679456586835906, 3283),
  (77979180809307150326238625815373079808341329180, 3286),
  (96460246661112944953557180133616499722918224196, 3289),
  (11941778536645782585250378900541722665697276155, 3293),
  (14795863606904124623125219457771194382798925156, 3296),
  (18346870872561114532675272127636281034670667194, 3299),
  (22768466752848343135050012710396624764026297988, 3302),
  (28278435707037642173732115786312607956920662101, 3305),
  (35150095583847789221949019922386571690452382991, 3308),
  (43726718906306649792104580783448895182922764441, 3311),
  (54439765038351778991170203075393874502738841729, 3314),
  (67831947237786316622998073031940767630412596795, 3317),
  (84586438205519536828878597070830137235124508203, 3320),
  (10556387488048838196244048914439601126943538623, 3324),
  (13184927972572998907108817094135061807552479741, 3327),
  (16481159965716248633886021367668827259440599676, 3330),
  (20617931117111027040991412730953702901560190195, 3333),
  (25813649758623005855321248739154036032753358124, 3336),
  (32344503147554626336717524670160007149039957730, 3339),
  (40560006947033501426243775936380648964896106993, 3342),
  (50902808718527044289935938800157714450944614276, 3345),
  (63933927750469967628159539132998089350386435531, 3348),
  (80364947182340749308596540690178598313435749463, 3351),
  (10109910355538466263021444818824467667830217282, 3355),
  (12728377137622929025143999026900004793798243558, 3358),
  (16037755193404890571681438773894006040185786883, 3361),
  (20223609298883567010890294293880341616674277260, 3364),
  (25522194935191061567743551398876991120242937902, 3367),
  (32234532203146310760060105416781639784866830571, 3370),
  (40744448704776936800715973246811992688071673842, 3373),
  (51541727611542825052905706157217170750410667410, 3376),
  (65251827156213216516978623995036938170019904941, 3379),
  (82674065006922145327011916601711800661415219560, 3382),
  (10483071442877728027465111025097056323867449840, 3386),
  (13303017661011836866853225890848164474987793847, 3389),
  (16894832429485032820903596881377168883234498186, 3392),
  (21473332017875476715368471636230381650591047194, 3395),
  (27314078326737606381948695921285045459551812031, 3398),
  (34770821709936972924220689907795862870009456716, 3401),
  (44298026858459703505457158942531929296392047856, 3404),
  (56479984244536121969457877651728209852899861016, 3407),
  (72068459896028091633028251883605195772300222657, 3410),
  (92031423287227873015377077655363835001227384333, 3413),
  (11761615896107722171365190524355498113156859717, 3417),
  (15043106731121776657176078680650682086727623579, 3420)]

/-- entries 1280 to 1407 of `pre_factorial` of factorial.const:1-2050 -/
def preFactorial10 : List (Nat × Nat) := [
  (19255176615835874121185380711232873071011358181, 3423),
  (24665881244885754749238472691089310403965549830, 3426),
  (31621659755943537588523721989976495937883834882, 3429),
  (40570589466875558726075935313139844288304960153, 3432),
  (52092636875468217404281500942071560066183568837, 3435),
  (66939038384976659364501728710561954685045885956, 3438),
  (86083603363079983942749223121782673724969009339, 3441),
  (11078959752828393933431825015773430108403511502, 3445),
  (14269700161642971386260190620316177979623722814, 3448),
  (18393643508357790116889385709587553415734978708, 3451),
  (23727800125781549250787307565367943906298122533, 3454),
  (30632589962383980082766414066890015583030876190, 3457),
  (39577306231400102266934206974421900133275892038, 3460),
  (51173456957200332231145929617927516872325728405, 3463),
  (66218453302617229907102832925598206832789492556, 3466),
  (85752897026889312729698168638649677848462392861, 3469),
  (11113575454684854929768882655568998249160726114, 3473),
  (14414307364726256843910240804272990729161461770, 3476),
  (18709770959414681383395492563946341966451577378, 3479),
  (24303992476279671117030744840566298214420599014, 3482),
  (31595190219163572452139968292736187678746778719, 3485),
  (41105342475131807760234098748849780170049559113, 3488),
  (53519155902621613703824796571002413781404525966, 3491),
  (69735460141115962656083709932016145157170097333, 3494),
  (90935040024015215303533157751349053284949806923, 3497),
  (11867022723133985597111077086551051453685949803, 3501),
  (15498331676412985189827066675035673198513850443, 3504),
  (20256319501071771643103976144271624870457602529, 3507),
  (26495265907401877309180000796707285330558544108, 3510),
  (34682303072789057397716621042889836497701134238, 3513),
  (45433817025353665191008773566185685811988485851, 3516),
  (59563734120238655065412502145269434099516904951, 3519),
  (78147619165753115445821202814593497538566179296, 3522),
  (10260782396463384058036323929556126226813739341, 3526),
  (13482668068952886652259729643436749862033253494, 3529),
  (17729708510673045947721544481119326068573728345, 3532),
  (23332296400045728467201552537153033106243026503, 3535),
  (30728634358860224391304444691430544600922065904, 3538),
  (40500340084977775747739258103305457784015282862, 3541),
  (53419948572085686211268081438259898817116158095, 3544),
  (70514332115153105798873867498503066438593328685, 3547),
  (93149432724117252760312378965522550765381787194, 3550),
  (12314355006128300814913296499242081211183472267, 3554),
  (16291891673107741978130291268497273442395733809, 3557),
  (21570464575194650379044505639490390037731951563, 3560),
  (28580865562132911752233969972324766799994835821, 3563),
  (37898227735388240983462244183302640776793152299, 3566),
  (50290948204860195785054398031242604310804513101, 3569),
  (66786379216054340002552240585490178524748393398, 3572),
  (88759097978136217863391927738116447259390614827, 3575),
  (11804960031092116975831126389169487485498951771, 3579),
  (15712401801383607694831229223984587843199104808, 3582),
  (20928919199442965449515197326347471007141207604, 3585),
  (27898249292857472944203758036021178852519229737, 3588),
  (37216264556671868907567813220052252589260652469, 3591),
  (49683713183156944991603030648769757206662971047, 3594),
  (66377440812697678508781648946756395628101729318, 3597),
  (88746638366576796166241064641813300954772012099, 3600),
  (11874300213447975327043054449074619667748495218, 3604),
  (15899687985806838962910649907310915735115235098, 3607),
  (21305581900981164210300270875796627085054415031, 3610),
  (28570785329215741206012663244443276921057970557, 3613),
  (38341993911807524698468994074042877628059796487, 3616),
  (51493297823557505670043859041439584654484306683, 3619),
  (69206992274861287620538946551694801775626908181, 3622),
  (93083404609688431849624883112029508388218191504, 3625),
  (12529026260464062926959509266879171829054168576, 3629),
  (16876598372845092762614458982486244453735965072, 3632),
  (22749654606595185044004290708391457523636080917, 3635),
  (30689284064296904624361788165620076199385073158, 3638),
  (41430533486800821242888414023587102869169848763, 3641),
  (55972650740667909499142247345866175976248465679, 3644),
  (75675023801383013642840318411611069919887925598, 3647),
  (10238830720327121745876295081090977760160836333, 3651),
  (13863376795322922843916503539797183887257772395, 3654),
  (18784875557662560453506862296425184167234281596, 3657),
  (25472291256190431974955305273952549730769685844, 3660),
  (34565899234650416190014349256753609984654463690, 3663),
  (46940491160655265186039486290671402359160761691, 3666),
  (63792127487330505387827661869022435806099475139, 3669),
  (86757293382769487327445620141870512696295286189, 3672),
  (11807667629394927225265348901308576777965788450, 3676),
  (16082043311235890880811405203582281571589403869, 3679),
  (21919825033214519270545945292482649782076357473, 3682),
  (29898641345304604285024669378946334302752151594, 3685),
  (40811645436340784849058673702261746323256686926, 3688),
  (55748707666041512103814148277289545477568634341, 3691),
  (76208483379478747045913940695054808667836323144, 3694),
  (10425320526312692595881027087083497825760009006, 3698),
  (14272263800522076163761126082217308523465452329, 3701),
  (19553001406715244344352742732637712677147669691, 3704),
  (26807164928606599996107610286446304080369455146, 3707),
  (36779430282048255194659641313004329198266892461, 3710),
  (50498157777252254382267687522754943989220443349, 3713),
  (69384468785944597521235802656265293041188889162, 3716),
  (95403644580673821591699228652364777931634722598, 3719),
  (13127541494300717851017813862565393443392937829, 3723),
  (18076624637652088480851529688752546771552075391, 3726),
  (24909588750684577926613407911101009451198759889, 3729),
  (34350322887194032960799889509408292033203089887, 3732),
  (47403445584327765485903847522983443005820264044, 3735),
  (65464158351956644136033213429240134791037784645, 3738),
  (90471466842404082195997900959209866281214218379, 3741),
  (12512203864304484567706509702658724506691926401, 3745),
  (17316890148197406641705809428479674717261626140, 3748),
  (23983892855253408198762546058444349483407352204, 3751),
  (33241675497381223763484888837003868384002590155, 3754),
  (46106203914867757359953540816924365448611592545, 3757),
  (63995411033836447215615514653891019242672890452, 3760),
  (88889625925998825182489949854254625728072644838, 3763),
  (12355658003713836700366103029741392976202097632, 3767),
  (17186720283165946850209249314370277629897117806, 3770),
  (23923914634166998015491275045603426460816787987, 3773),
  (33326013085394628235579346138525573059917785666, 3776),
  (46456462241040111760397608517104648845525393218, 3779),
  (64806764826250955905754663881360985139507923540, 3782),
  (90470243697446334444433510778379935254753061262, 3785),
  (12638693044533252921887361455739676955089002658, 3789),
  (17668892876257487584798531315124068383214425716, 3792),
  (24718781133884225131133145309858571668116981577, 3795),
  (34606293587437915183586403433802000335363774208, 3798),
  (48483417316000519172204551210756602469844647665, 3801),
  (67973751077032727879430780797480756662722196026, 3804),
  (95367172761076917214841385458865501597799241025, 3807),
  (13389551055655199176963730518424716424331013440, 3811),
  (18812319233195554843634041378386726576185073883, 3814),
  (26450120841872950110149462178011737566116213879, 3817),
  (37215320024515240804980293284462514755525512928, 3820)]

/-- entries 1408 to 1535 of `pre_factorial` of factorial.const:1-2050 -/
def preFactorial11 : List (Nat × Nat) := [
  (52399170594517459053412252944523220775779922203, 3823),
  (73830431367675099806257864398833218073073910385, 3826),
  (10410090822842189072682358880235483748303421364, 3830),
  (14688638151030328781554808380012267568856127545, 3833),
  (20740357069254824239555389432577321807224852093, 3836),
  (29306124538857066650491765268231755713608716008, 3839),
  (41438860097943892243795356089279702579042724435, 3842),
  (58635987038590607524970428866330779149345455076, 3845),
  (83028557646644300255358127274724383275473164388, 3848),
  (11765146618529497346184246634828445110134547393, 3852),
  (16682977905074827236889261728186735166170788204, 3855),
  (23673145647301179849145862392296977200796348462, 3858),
  (33615866819167675385787124597061707625130814816, 3861),
  (47768146750037266723203504052424686535310887853, 3864),
  (67926304678552993280395382762547904253212082528, 3867),
  (96659131557580909438002629671105667752320793437, 3870),
  (13764260333799521503971574465165447087930480985, 3874),
  (19614070975664318143159493612860762100300935404, 3877),
  (27969665211297317672145437891939446755029133886, 3880),
  (39912712256521272318151539871797590519426574056, 3883),
  (56995353102312376870320398936926959261741147752, 3886),
  (81446359583204386547687850080868624785028100137, 3889),
  (11646829420398227276319362561564213344259018319, 3893),
  (16666612900589863232413007825598389295634655215, 3896),
  (23866589673644684148815427206256893471348826268, 3899),
  (34200823002332832385252507186566128344442868042, 3902),
  (49043980185345281640452095305535828045931072773, 3905),
  (70378111565970479154048756763443913245911089430, 3908),
  (10106296820873360806521401471230545942112832442, 3912),
  (14522748531595019478971253914158294518816140219, 3915),
  (20883712388433638010760663128559627518057609635, 3918),
  (30051662126956005097484594241997303998484900265, 3921),
  (43274393462816647340377815708476117757818256382, 3924),
  (62358400979918788817484432435914085689016107446, 3927),
  (89920814213042893474812551572588111563561226938, 3930),
  (12975573490942089528415451191924464498621885047, 3934),
  (18736728120920377279031911521138926736010002008, 3937),
  (27074572134729945168201112148045749133534452901, 3940),
  (39149831306819500713218808166074153247090818896, 3943),
  (56649805900967817532027615416309299748540414942, 3946),
  (82028918944601399786375987122815866035886520836, 3949),
  (11885990355072742829045880534096018988599956869, 3953),
  (17234686014855477102116526774439227533469937460, 3956),
  (25007529407555297275171080349711319151064879255, 3959),
  (36310932699770291643548408667780835407346204678, 3962),
  (52759785212766233758075837794285553846874035397, 3965),
  (76712727699362103884242268152891195293354847468, 3968),
  (11161701880257186115157250016245668915183130306, 3972),
  (16251437937654462983668956023653693940506637726, 3975),
  (23678345075162552567205668926463432071318171167, 3978),
  (34523027119587001642985865294783683959981893562, 3981),
  (50369096567477435397116377465089394897613582707, 3984),
  (73538880988517055679789911099030516550515830752, 3987),
  (10744030512422341834817306011568358468030362872, 3991),
  (15707772609161463762502901388912940080260390520, 3994),
  (22980471327203221484541744731979631337420951331, 3997),
  (33643410023025516253369114287618180277984272748, 4000),
  (49287595683732381311185752431360634107246959576, 4003),
  (72255615272351671002198313064374689601224042739, 4006),
  (10599898760453990136022492526543766964499567069, 4010),
  (15560651380346457519681019028966249903885364458, 4013),
  (22858596877728946096411416953551421108807600389, 4016),
  (33602137410261550761724782921720589029947172572, 4019),
  (49428744130494741170497155677850986463052290854, 4022),
  (72759111360088259002971813157796652073612972138, 4025),
  (10717417103341000551137748078143446850443190795, 4029),
  (15797472810324634812377040667183440657553263233, 4032),
  (23301272395228836348256134984095574969891063268, 4035),
  (34392678055357762450026055236525068655559209385, 4038),
  (50797985487763415138688483584347526404260952261, 4041),
  (75079422550914327574981578737665644025497687442, 4044),
  (11104246595280229048339775495300748751371107972, 4048),
  (16434284961014738991542867733045108152029239799, 4051),
  (24339176027262828446474987112639805173155304143, 4054),
  (36070658872403511757675930900932191266616160740, 4057),
  (53492787107774407936633405526082439648391766378, 4060),
  (79383296067937221377963973800706340438213381305, 4063),
  (11788419466088677374627650109404891555074687123, 4067),
  (17517591326607774578696688062575668850840985066, 4070),
  (26048658302665760798521975149050019581200544793, 4073),
  (38760403554366652068200699021786429136826410652, 4076),
  (57714240892451944929550840843439992984734525461, 4079),
  (85994218929753397945030752856725589547254442937, 4082),
  (12821738042426231633604085250937785401495637441, 4086),
  (19130033159299937597337295194399175819031491063, 4089),
  (28561139506834806832824581725237969497814016157, 4092),
  (42670342423211201408239925097505526429734140139, 4095),
  (63792161922700746105318688020770762012452539508, 4098),
  (95433074236360316173556757279073059970628999104, 4101),
  (14286331213183139331181446564677237077603161165, 4105),
  (21400924157348342718109806953886501142249535426, 4108),
  (32079985311865165734446600623875865212232053604, 4111),
  (48119977967797748601669900935813797818348080406, 4114),
  (72228086929664420651106521304656510525340468690, 4117),
  (10848658656835595981796199499959407880906138397, 4121),
  (16305533961223900760639687848438990045001926011, 4124),
  (24523523077680746744002090524052241027682896720, 4127),
  (36907902231909523849723146238698622746662759564, 4130),
  (55583300761255742917683058235480125856474115904, 4133),
  (83764034247212404576948368760868549665706492668, 4136),
  (12631616364479630610203814009138977289588539094, 4140),
  (19061109093999762590797555339790716729989105493, 4143),
  (28782274731939641512104308563083982262283549295, 4146),
  (43490017119960798324789610238819897198310442984, 4149),
  (65756905885380727067081890681095684563845389792, 4152),
  (99490198604581040052494900600497770745098074756, 4155),
  (15062816068733569463947727950915362490807848518, 4159),
  (22820166344131357737880807845636774173573890505, 4162),
  (34595372177703138330627304693985349647138018005, 4165),
  (52481179593575660847561621220775775414708373314, 4168),
  (79666430623047853166598541013137627079527310691, 4171),
  (12101330811640968896006318379895605553380198494, 4175),
  (18394022833694272721929603937441320441137901710, 4178),
  (27977308730048988810054927588848248390970748502, 4181),
  (42581463887134560968903599790227034051057479220, 4184),
  (64851569500105936355640182480515772859760540852, 4187),
  (98833791918161447005995638100306037838275064259, 4190),
  (15072153267519620668414334810296670770336947299, 4194),
  (23000105886234941140000274920512719595534181579, 4197),
  (35121161688280755120780419803622922822380695271, 4200),
  (53665135059692993824552481459935826072597702374, 4203),
  (82053991506270587557740744152241878065001886931, 4206),
  (12554260700459399896334333855293007343945288700, 4210),
  (19220573132403341241287865132453594243580237000, 4213),
  (29445918038841918781653009382918906381164923084, 4216),
  (45140592353544661492274063384014683482325827088, 4219),
  (69245668670337510729148413231078524461887818754, 4222),
  (10629210140896807896924281430970553504899780178, 4226)]

/-- entries 1536 to 1663 of `pre_factorial` of factorial.const:1-2050 -/
def preFactorial12 : List (Nat × Nat) := [
  (16326466776417496929675696277970770183526062354, 4229),
  (25093779435353692780911545179241073772079557838, 4232),
  (38594232771573979497041956485672771461458359956, 4235),
  (59396524235452354445947571031450395279184415972, 4238),
  (91470647322596625846759259388433608729944000598, 4241),
  (14095626752412140042985601871757619105284370492, 4245),
  (21735456452219519946283798086250248660348499298, 4248),
  (33537809305774719277115900447084133682917734418, 4251),
  (51782377568116166563866950290297902406424981941, 4254),
  (80003773342739477341174438198510259217926597100, 4257),
  (12368583358787523196945568145489686075091451911, 4261),
  (19134198456044298385674793921072544358166476107, 4264),
  (29619739209956573901024580989820298666441705014, 4267),
  (45880976036222732972687075953231642634318201066, 4270),
  (71115512856145236107664967727509046083193211653, 4273),
  (11030016043988126120298836494536653047503267127, 4277),
  (17118584900269571738703794239520885529725070581, 4280),
  (26585162350118644910206992453975935227663034613, 4283),
  (41313342292084374190461666273478603343788355789, 4286),
  (64242247264191201866167891055259228199590893252, 4289),
  (99960936743081510103757238481983359078563429901, 4292),
  (15563917850897791123155002031644809008532326035, 4296),
  (24248584011698758569875493165302612435293363963, 4299),
  (37803542474238364610435893844706772786622354419, 4302),
  (58973526259811848792279994397742565547130872893, 4305),
  (92057674491566295964749071254876144819071292587, 4308),
  (14379408755582655429693804930011653820738935902, 4312),
  (22475015884975690436611417105608214921814956815, 4315),
  (35150924844101979842860256353171248137718592458, 4318),
  (55011197381019598454076301192713003335529597197, 4321),
  (86147535098676691179083487667788563223439349211, 4324),
  (13499318749962637507762382517542467857112946021, 4328),
  (21166931799941415612171415787506589599953099361, 4331),
  (33210915994108081095496951370597839082326412898, 4334),
  (52141138110749687319930213651838607359252468250, 4337),
  (81913727971987758779610365647038452161385627621, 4340),
  (12876838037196475680154749479714444679769820662, 4344),
  (20255266232510056244883420931590821481277927901, 4347),
  (31881789049970828529446504546323953011531458517, 4350),
  (50213817753704054933878244660460225993162047164, 4353),
  (79136976779837590575792113584885316165223386331, 4356),
  (12479901238180388033802416312336414359255728024, 4360),
  (19693284153848652317340212940866861858905538822, 4363),
  (31095695678927022009080196233628774875211845800, 4366),
  (49131199172704694774346710049133464302834716365, 4369),
  (77676425892046122438242148587680007062781686573, 4372),
  (12288410576121696569729907906570977117332062815, 4376),
  (19452553942000645669882444216101856776736655437, 4379),
  (30812845444129022741093791638305341134350862213, 4382),
  (48838360028944501044633659746713965697946116607, 4385),
  (77457639005905978656788984358288349596942540940, 4388),
  (12292527310237278812832411817660361081034781247, 4392),
  (19520533368656798754777869966444653396683232620, 4395),
  (31018127522795653221342035376680554247329656634, 4398),
  (49318822761245088621933836248922081253254154048, 4401),
  (78466247013140935997496733472035031273927359090, 4404),
  (12491826524492037010801479968747976978809235567, 4408),
  (19899479653515814958206757590215527327243112258, 4411),
  (31719770567704209043381571598803550559625520940, 4414),
  (50593034055488213424193606700091663142602705899, 4417),
  (80746482352559188625012996293346294375593918615, 4420),
  (12895213231703702423414575508047403211782348802, 4424),
  (20606550744262516472616491661859750332428193387, 4427),
  (32949874640075763839713770167313740781552681225, 4430),
  (52719799424121222143542032267701985250484289961, 4433),
  (84404398878018076651810793660590878386025348228, 4436),
  (13521584700258495879620089144426658717441260786, 4440),
  (21675100274514368895031002898515933924058341040, 4443),
  (34766860840321047707629728649219558014189579028, 4446),
  (55800811648715281570745714481997390612774274340, 4449),
  (89616103507836742202617617458087809324115484591, 4452),
  (14401307833709364471960651125514710958385358373, 4456),
  (23157302996604658070912727009827655221083656265, 4459),
  (37260100521536894836098577758812697250723602930, 4462),
  (59988761839674400686118710191688442573665000718, 4465),
  (96641895323715459505337242118810080986174316157, 4468),
  (15578673526182932072260363429552185054971299764, 4472),
  (25128400397733069432555966211867674493668706520, 4475),
  (40557238241941174064145329465954426632781292323, 4478),
  (65499939760734996113594707087516399011941787102, 4481),
  (10584790265334775371956904665342650080329792795, 4485),
  (17115605859046331776454314843859065179893274950, 4488),
  (27693050279936964814303081417363967461067318870, 4491),
  (44835048403217946034356688814712263319467989251, 4494),
  (72632778413213072575657835879833866577538142586, 4497),
  (11773773380781839064514135196121069772218932913, 4501),
  (19097060423628142962641927288108375170539109185, 4504),
  (30994529067548476028367847988599892901784974207, 4507),
  (50335115205698725070069385133486226072498798113, 4510),
  (81794562209260428238862750841915117367810546934, 4513),
  (13299795815225745631639083286895398084005994931, 4517),
  (21638767791372288142676788507778812682677753753, 4520),
  (35227913964354085096277811690663907047399383110, 4523),
  (57386271847932804621836555244091504580213595087, 4526),
  (93539623112130471533593585047869152465748159993, 4529),
  (15256312529588479907129113721307458767163524894, 4533),
  (24898302048288399208434713593173772708010872628, 4536),
  (40658927244854955907373887297652770832181755002, 4539),
  (66436687118092997952648931844364627539784987673, 4542),
  (10862398343808205165258100356553616602754845484, 4546),
  (17770883690470223650362252183321716762106927212, 4549),
  (29090936601299756115643006824097650339569039847, 4552),
  (47650954152929000517423245177871951256214087270, 4555),
  (78099913856650631848056698846532128108934889035, 4558),
  (12808385872490703623081298610831269009865321801, 4562),
  (21018561216757244645476411020374112445188993076, 4565),
  (34512477517915395707872266895454292635000326632, 4568),
  (56704000561934995148034134509231402799305536656, 4571),
  (93221376923821132023368117133176426202058302263, 4574),
  (15334916503968576217844055268407522110238590722, 4578),
  (25241272565532276454571314971798781393452720329, 4581),
  (41572375915431659320678955758552592955016630381, 4584),
  (68511275508631374560478919090094673189867406869, 4587),
  (11297509331373313665022973757956611609009135392, 4591),
  (18640890396765967547287906700628409154865073398, 4594),
  (30776110045060612420572333962737503514682236180, 4597),
  (50842133794440131718785495706442355806255054169, 4600),
  (84042047162209537731152424402749214147739604542, 4603),
  (13900554600629457540732610996214720020036130591, 4607),
  (23005417864041752229912471198735361633159796128, 4610),
  (38096971982853141692735052305105758864512622389, 4613),
  (63126682575587655784861981669560242438497415298, 4616),
  (10466403971032433329130116560813088196302871456, 4620),
  (17363764187942806893026863374388913317666463746, 4623),
  (28823848551985059442424593201485596107326329818, 4626),
  (47876412444847183733867249307667575134269033829, 4629),
  (79570597483336019365687368349343509873155134224, 4632),
  (13232590361478780020513809356495825691905698821, 4636)]

/-- entries 1664 to 1791 of `pre_factorial` of factorial.const:1-2050 -/
def preFactorial13 : List (Nat × Nat) := [
  (22019030361500689954134978769209053951331082838, 4639),
  (36661685551898648773634739650733074828966252926, 4642),
  (61078368129463148856875476258121302665057777376, 4645),
  (10181763967181506914441141892228821154265131488, 4649),
  (16983182297258753533287824676237673685314239322, 4652),
  (28344931254124859647057379384640677380789465430, 4655),
  (47336035194388515610585823572349931225918407268, 4658),
  (79098514809823209585288911189396735078509658545, 4661),
  (13225271676202440642660305950867134105126814908, 4665),
  (22125879514286683195170691855800715357877161342, 4668),
  (37038722306915907668715738166610397509086368087, 4671),
  (62039859864084145345098861429072415827719666545, 4674),
  (10397880513220502759838569175512536892725816113, 4678),
  (17437245620670783128249280507334524369101193621, 4681),
  (29259698151485574089202292691307331891351802897, 4684),
  (49127033196344278895770649428705010245579677064, 4687),
  (82533415769858388544894691040224417212573857468, 4690),
  (13873867190913195114396797563861724533433665440, 4694),
  (23335844615115994182415413502415420665235425270, 4697),
  (39274226487240218209005140924565152979591220730, 4700),
  (66137797404512527463964657316967717617631615710, 4703),
  (11144218862660360877678044757909060418570927247, 4707),
  (18789153002445368439765183461834675865710583338, 4710),
  (31697301115125336557883864500115098185453754092, 4713),
  (53505044282331568109707963276194285737045936908, 4716),
  (90370019792858018537296749973492148609870587437, 4719),
  (15272533344993005132803150745520173115068129276, 4723),
  (25825853886383171679570127910674612737580206607, 4726),
  (43697344775760326481832656424861444751985709579, 4729),
  (73979604705362232733742687327290425965111806318, 4732),
  (12532145037088362225096011233242998158489939990, 4736),
  (21241985837864773971537739040346881878640448283, 4739),
  (36026407981018656655728005412428311666174200289, 4742),
  (61136814343788660344770425184890844897497617890, 4745),
  (10381031075575314526542018196394465463595095517, 4749),
  (17637371797402459380594888915674196822648067284, 4752),
  (29983532055584180947011311156646134598501714384, 4755),
  (51001988026548691790866240277455074952051416167, 4758),
  (86805383621185873428054340952228537568391510316, 4761),
  (14782956830687954244797654264164519947897074206, 4765),
  (25190158439492274033135202866136341991216614448, 4768),
  (42949220139334327226495520886762463095024327634, 4771),
  (73271369557704362248401358632816762040111502945, 4774),
  (12507422783500134635802111918621821280247033552, 4778),
  (21362678114218229957950007157006070746661933308, 4781),
  (36508816897198954998136562231323374906045244023, 4784),
  (62430076894210213046813521415562971089337367280, 4787),
  (10681786156599367452309793514202824353385623541, 4791),
  (18287217900098117078354366496315235292996187503, 4794),
  (31326004262868074555221029808187998056902469193, 4797),
  (53692771306555879787648845091234228669530832197, 4800),
  (92083102790743333835817769331466702168245377217, 4803),
  (15801460438891556086226329217279686092070906730, 4807),
  (27131107573576801800050607266069221020085746856, 4810),
  (46611242811404945492486943283106921712507313099, 4813),
  (80124726392805101301585055503660798423800071217, 4816),
  (13781452939562477423872629546629657328893612249, 4820),
  (23717880508987023646484795449749640263025906681, 4823),
  (40842190236475654719246817764468880532930611305, 4826),
  (70371093777447553081262267008179881158239443278, 4829),
  (12131976567231958151209614832210211511680480021, 4833),
  (20927659578475127810836585585562614857648828036, 4836),
  (36121140432448070601503946720681073244301877191, 4839),
  (62381209526837817928797315986616213492909341909, 4842),
  (10779473006237574938096176202487281691574734281, 4846),
  (18637708827784767067968288654100510044732715573, 4849),
  (32243236272067647027585139371593882377387597942, 4852),
  (55813041986949097004749876252229010395257932037, 4855),
  (96668188721395836012226785668860646004586738289, 4858),
  (16752597105417898380918901956413549952594881745, 4862),
  (29049003380794635792513375992421095617799524946, 4865),
  (50400020865678693100010707346850600896882175782, 4868),
  (87494436222818211221618587954132643156987457159, 4871),
  (15197783571903523289195148727632840116368721308, 4875),
  (26413747847968323476621168488625876122248837634, 4878),
  (45933507507616914525844212001720398576590728645, 4881),
  (79924303063253431274968928882993493523267867843, 4884),
  (13914821163312422384972090518529167222400935791, 4888),
  (24239618466490239794621381683277809301422430148, 4891),
  (42249654987092487962025068273953221612379295749, 4894),
  (73683398297489299005771719069774418491989491787, 4897),
  (12857753002911882676507164977675636026852166316, 4901),
  (22449636743084147153181510051021660502883882389, 4904),
  (39219515390168005076608098059134840898538142534, 4907),
  (68555712902013672873910955407367701890644673149, 4910),
  (11990394186562191385647026100748611060673753333, 4914),
  (20983189826483834924882295676310069356179068334, 4917),
  (36741565386173194953468899729218931442669548653, 4920),
  (64371222556575437558477512325591567887557049240, 4923),
  (11284275314167674204001107910676201850688750731, 4927),
  (19792618901050100553817943275326058046108068783, 4930),
  (34736046171342926471950490448197231870919660715, 4933),
  (60996497076878178884745061227034339165334924216, 4936),
  (10717084536407496030049707257589933391349346184, 4940),
  (18840634615004378020827385358843102901992150592, 4943),
  (33140676287792700938635370846205018004604192892, 4946),
  (58327590266515153651998252689320831688103379491, 4949),
  (10271488645933318558116892298589398460275005128, 4953),
  (18098362994134507299401964230114520087004559036, 4956),
  (31907413958659136368845662937691898913389037581, 4959),
  (56284678223074716554643749422088509683218262293, 4962),
  (99342457063726874718946217729986219590880232947, 4965),
  (17543877917454166075365902051115566379749449138, 4969),
  (31000032280141511455171548924321205793017276627, 4972),
  (54808057071290192252743298498199891842054545077, 4975),
  (96955452959112350095102895043315608668594490242, 4978),
  (17161115173762885966833212422666862734341224772, 4982),
  (30392334972734071047261619200543013902518309072, 4985),
  (53855217571684773895747589223362220635262443677, 4988),
  (95485300754597104117160475693021217186320312639, 4991),
  (16939092353865526270384268387941963928853223462, 4995),
  (30066888928111309129932076388596985973714471645, 4998),
  (53398794736325685014759367666148247089316901642, 5001),
  (94889658246450742271227396342745435077716134218, 5004),
  (16871381236218941975824231069740138356817928664, 5008),
  (30014187219233497774991307073067706136779095093, 5011),
  (53425253250235626039484526590060516923466789266, 5014),
  (95150376038669649976321941856897780640694351683, 5017),
  (16955797010090931625780570038899184510171733469, 5021),
  (30232186068992131088766756379357245981636200776, 5024),
  (53934219947081961862359893380773326831238982185, 5027),
  (96272582605541301924312409684680388393761583201, 5030),
  (17194283253349676523682196369683917367125818759, 5034),
  (30726184173735871947820084912625160335053838123, 5037),
  (54938417302639739042702311823773786679076262565, 5040),
  (98284828554422493147394435852731304368867433729, 5043),
  (17592984311241626273383604017638903482027270637, 5047),
  (31509034901433752655630034795591276136310841711, 5050)]

/-- entries 1792 to 1919 of `pre_factorial` of factorial.const:1-2050 -/
def preFactorial14 : List (Nat × Nat) := [
  (56464190543369284758889022353699566836269028347, 5053),
  (10124029364426112757268801708018332333743036782, 5057),
  (18162508679780446286540230264184888206735007988, 5060),
  (32601703080205901084339713324211874331089339338, 5063),
  (58552658732049798347474125130284526298636453452, 5066),
  (10521912774149348763041100285912129375864970685, 5070),
  (18918399167920529075947898314070008617805217292, 5073),
  (34034200103089031807630269067011945503431585909, 5076),
  (61261560185560257253734484320621501906176854636, 5079),
  (11033206989419402331397580626143932493302451520, 5083),
  (19881838994933763001178440288311366352931017639, 5086),
  (35846955707865574691124727839825393534334624803, 5089),
  (64667908096989496742789009023045009935939663145, 5092),
  (11672557411506604162073416128659624293437109197, 5096),
  (21080638685180927116704589528359281473947419211, 5099),
  (38092714104121935299885193277745221623422986514, 5102),
  (68871627100252459022192429446163360695148759617, 5105),
  (12458877342435669837114610486810951949752410614, 5109),
  (22550567989808562405177444981127823029051863212, 5112),
  (40839078629543306515776352860822487505612924278, 5115),
  (74000410476732471406586751383810347360170618792, 5118),
  (13416274419431597066014178025884815976398933187, 5122),
  (24337121796848917077749718938955056181187664801, 5125),
  (44171876061280784496115739874203426968855611614, 5128),
  (80216126927285904644946183611553423375441790692, 5131),
  (14575270262687848873986721562219257027317773368, 5135),
  (26497841337566509252907859800114609275663711984, 5138),
  (48199573393033480331039396976408474272432292099, 5141),
  (87723223575320934202491702497063423175826771621, 5144),
  (15974399013065942118273739024715249360318055112, 5148),
  (29105355001806146539494752503031184334499496414, 5151),
  (53059062168292605141498933813025849041792581963, 5154),
  (96779729394965711778094055274959148652229669501, 5157),
  (17662300614581242399502165087680044629031914684, 5161),
  (32251360922225348621490953450103761492612276213, 5164),
  (58923236404905711931463971953339572247002628641, 5167),
  (10771167614816764141071614073070473806752080515, 5171),
  (19700465567499861614019982139645896592549555263, 5174),
  (36051851988524746753656567315551990764365686131, 5177),
  (66010940990988811305945174754775695089553571306, 5180),
  (12093204389549150231249156015074907340406214263, 5184),
  (22166843646043592373879702975632305154964590744, 5187),
  (40653991246843948413695375257309647654205059425, 5190),
  (74600073937958645339131013597163203445466284046, 5193),
  (13696573575009207284264454096439164152587609750, 5197),
  (25160605657291913781193802175158744548303439112, 5200),
  (46245193198102537529834208397941772479781721088, 5203),
  (85044910291310566517365109243814919590318585082, 5206),
  (15648263493601144239195180100861945204618619655, 5210),
  (28808453091719706544358326565686841121702878785, 5213),
  (53065170594947699454708037533995161346176702722, 5216),
  (97799109406488610095026913175153082361003663117, 5219),
  (18034155774556499701522962789498228387369075478, 5223),
  (33273017404056741949309866346624231374695944258, 5226),
  (61421990127888745638426013275868331117688713100, 5229),
  (11344641576621051319417284652052880757437105309, 5233),
  (20964897633595702838283142036993723639743770612, 5236),
  (38764095724518454547985529626401395009886231862, 5239),
  (71713577090359140913773229808842580768289528945, 5242),
  (13274183119425476983139424837616761700210391807, 5246),
  (24583787137175983372774214799266242668789645628, 5249),
  (45553757565187097189750620023040347665267213348, 5252),
  (84456666525856878189797649522716804571405413548, 5255),
  (15666711640546450904207463986463967247995704213, 5259),
  (29077416804854212878209053158877123212280027019, 5262),
  (53996763006614273314834211716034817805204010175, 5265),
  (10032598566628931981896196536839269148206905090, 5269),
  (18650600735363184554345029361984201346516636563, 5272),
  (34690117367775523271081754613290614504520944008, 5275),
  (64558308421430248807483145335333833592913476799, 5278),
  (12020757028070312327953361661439159815000489380, 5282),
  (22394670343294991866977112775261154735345911714, 5285),
  (41743665519901864840045338213086792426684779436, 5288),
  (77851936194616977926684555767406867875767113649, 5291),
  (14527171293915528081119338106198121545618143406, 5295),
  (27122228805740290927449804244271892925669073740, 5298),
  (50664323409122863452476234328299895985149829747, 5301),
  (94691620451650631792678081959592505596245031798, 5304),
  (17707333024458668145230801326443798546497820946, 5308),
  (33130420088762168099726829281776347080497422990, 5311),
  (62020146406162778682688624415485321734691175838, 5314),
  (11616373421874288447267579353020400760907657234, 5318),
  (21769083792592416550179443707560231025940949657, 5321),
  (40817032111110781031586456951675433173639280607, 5324),
  (76572752240443825215256193241343112633747290420, 5327),
  (14372705595531305992903587471400102241354366411, 5331),
  (26991941108407792654672937271289392009263500121, 5334),
  (50717857342698242398130449132752767585406116728, 5337),
  (95349571804272695708485244369575203060563499449, 5340),
  (17935254456383694062766074465917095695691994246, 5344),
  (33754148886914112226125752144855974099292333171, 5347),
  (63559062354059273321794791288763799228967463362, 5350),
  (11974527347504767093826138678803099774737470097, 5354),
  (22571984050046485971862271409543843075380131133, 5357),
  (42570761918387672542932243878399688040166927318, 5360),
  (80331027739997538088513144198540211331794991849, 5363),
  (15166498037311535191111281624684391899442894461, 5367),
  (28649514792481489976009210989028816298047627637, 5370),
  (54147582957790016054657408769264462803310016234, 5373),
  (10239307937318092035935715998267909916105924069, 5377),
  (19372770617405830131990374668722885561272408340, 5380),
  (36672654778749236439857779247892422367488668988, 5383),
  (69458008150951053817090633895508247964023539063, 5386),
  (13162292544605224698338675123198812989182460652, 5390),
  (24955706664571506028050128033584949427489945397, 5393),
  (47340975542692146935211092879710649063948426418, 5396),
  (89853171580029694883030654285690811923374113342, 5399),
  (17063117283047639058287521248852685184248744123, 5403),
  (32419922837790514210746290372820101850072613835, 5406),
  (61630273314639767514628697998731013616988038900, 5409),
  (11722077984444483781282378359358638789951124998, 5413),
  (22307114404397852635780366017859489617276990872, 5416),
  (42472745825973511418525816898004468231295390621, 5419),
  (80910580798479539252291681190698511980617719134, 5422),
  (15421556700190200181486794434947136383505737267, 5426),
  (29408908627262711746095316987444189083345440968, 5429),
  (56112197660817254011549864812043512771023101367, 5432),
  (10711818533450013790804869192619106587988310051, 5436),
  (20459573398889526340437300157902493583057672197, 5439),
  (39098244765277884836575680601751665237223211569, 5442),
  (74755843991211315807532701310549183933570780520, 5445),
  (14300792955518724713981005760708058886492090313, 5449),
  (27371717716862839102559645025995224708745860860, 5452),
  (52416839427792336881401720224780855317248323547, 5455),
  (10043066434365011746476569595068011878784778791, 5459),
  (19252558354677727517995583913745378771630420943, 5462),
  (36926406924271881379515529946563636483987147370, 5465),
  (70861774887677740367290301967455618412771335803, 5468)]

/-- entries 1920 to 2047 of `pre_factorial` of factorial.const:1-2050 -/
def preFactorial15 : List (Nat × Nat) := [
  (13605460778434126150519737977751478735252096474, 5472),
  (26136090155371956335148416655260590650419277326, 5475),
  (50233565278624900076155256811410855230105851022, 5478),
  (96599146030795682846446558848343074607493551515, 5481),
  (18585675696325089379656317922421207554481759311, 5485),
  (35777425715425797055838412000660824542377386674, 5488),
  (68907321927910085129544781513272748068618846735, 5491),
  (13278440935508273404463279397607658552822851766, 5495),
  (25600834123659951123805202678587565689842458204, 5498),
  (49384009024540045717820235966995414215706101877, 5501),
  (95311137417362288235393055416301149436312776623, 5504),
  (18404580635292657858254399000887751956151997165, 5508),
  (35557649787385414982147498869715136779285658524, 5511),
  (68732937039016007160491115315159359394359177927, 5514),
  (13292950023345695784838981701951820106869065011, 5518),
  (25721858295173921343663429593276771906791640796, 5521),
  (49797517659456711721332399692583830411548616582, 5524),
  (96457791706367650604220858204534879507169670320, 5527),
  (18693520032694050687098002320038859648489482108, 5531),
  (36246735343393764282283026498555348858421105807, 5534),
  (70318666566183902707629071407197376785336945266, 5537),
  (13648853180496295515550802760137010834033901076, 5541),
  (26506072876523805891199658960186075039693835890, 5544),
  (51501299599085754846600937359641543802125123134, 5547),
  (10011852642062270742179222222714316115133123937, 5551),
  (19473053388811116593538587223179344843933926058, 5554),
  (37894561894626432891026090736307005066295420109, 5557),
  (73780712008837664838827798663589738864077182952, 5560),
  (14372482699321577110603655179667281130722235239, 5564),
  (28011968780977753788566523945171530923777636481, 5567),
  (54623339122906619887704721693084485301366391138, 5570),
  (10657013462879081540091191202320783082296582911, 5574),
  (20802490279539967166258005226930168576642929842, 5577),
  (40627263515941555875701884208194619230183641982, 5580),
  (79385672910149800181121481742812285975778836433, 5583),
  (15519899053934285935409249680719801908264762522, 5587),
  (30356922549495463289660492375487932532565875494, 5590),
  (59408497429362621657865583578829883966231418342, 5593),
  (11632183796669201320610081264734891280588111711, 5597),
  (22787448057674965387075149197615652018672110842, 5600),
  (44663398193042932158667292427326677956597337251, 5603),
  (87584923856557189963146560449987615472887378350, 5606),
  (17184162060656520670769355160287570155780503632, 5610),
  (33732510125068750076720244179644500215797128630, 5613),
  (66250649885635025150678559568821798423825560630, 5616),
  (13018252702527282442108336955273483390281722663, 5620),
  (25593884813168637281184990454067668345293866757, 5623),
  (50343171427502709532090876223151103635193035911, 5626),
  (99075361369325332359154844407161371954059894673, 5629),
  (19507938653620157941517588863770074137754393261, 5633),
  (38430639147631711144789650061627046051376154724, 5636),
  (75746789759982102666380400271466907767262400961, 5639),
  (14937266940668470645810214933533274211704145469, 5643),
  (29471227673938892584183554063861150019692279011, 5646),
  (58176203428355373961178335722061910138872558769, 5649),
  (11489800177100186357332721305107227252427330356, 5653),
  (22703845149949968242089457298891881050796404785, 5656),
  (44885501861451087214610857079909248837424492260, 5659),
  (88783522681950250510500275304060494200425645691, 5662),
  (17570259138757954576028004482673571802264235282, 5666),
  (34789113094740750060535448875693672168483185858, 5669),
  (68917233040681425869920724222749164565765191186, 5672),
  (13659395588663058607418287540948884416934660893, 5676),
  (27086581452318845218510464193701637798781432551, 5679),
  (53739777601400588913524760960304049392782362181, 5682),
  (10667345853878016899334665050620353804467298893, 5686),
  (21185348865801741562078644790532022655672055601, 5689),
  (42095288196348060483850267198787129016820374480, 5692),
  (83685432934339944241894331191188812485438904466, 5695),
  (16645032610640214909712782473927454803353798098, 5699),
  (33123614895174027670328437123115635058674058215, 5702),
  (65949117256291489091623918312123229401820049907, 5705),
  (13137064157453264627051484527774947296842553941, 5709),
  (26182168865804356401713608663855469962607210005, 5712),
  (52207244718413886665016935675727807105438776751, 5715),
  (10415345321323570389670878667307697517535035961, 5719),
  (20789029261361846497783073819946164244999931779, 5722),
  (41515691434939607456072798418432489997264863764, 5725),
  (82948351487009335697233451240028115014535197801, 5728),
  (16581375462253166205876966902881620191405586040, 5732),
  (33162750924506332411753933805763240382811172081, 5735),
  (66358664599937171155919621545332244006005155334, 5738),
  (13285004652907421665415108233375515250002232097, 5742),
  (26609864319773565595826461791451157045754470892, 5745),
  (53326168096826225454036229430068118719691959667, 5748),
  (10691896703413658203534264000728657803298237913, 5752),
  (21447944787047798356289733585461687553416265254, 5755),
  (43046025187604931301073495306021606919706444365, 5758),
  (86436418576710702052555578574491386694770540285, 5761),
  (17365076492061180042358415735615319586979401543, 5765),
  (34903803749042971885140415628586792369828597102, 5768),
  (70191549339325416461017375829088039455725308772, 5771),
  (14122539727072273791956696016812513538491932125, 5775),
  (28428672470596487143208829081843589752984259367, 5778),
  (57255346355781325106422581770832989762510298366, 5781),
  (11536952290689937008944150226822847437145825120, 5785),
  (23258495818030913010031406857274860433285983443, 5788),
  (46912386064968351541233347631123393493937828605, 5791),
  (94669195079106133410208895519607008070766538126, 5794),
  (19113710486471528335521176005408654929487764047, 5798),
  (38609695182672487237752775530925482957565283376, 5801),
  (78030193964181096707498359348000401057239437703, 5804),
  (15777705219557417754256168260165681093773814303, 5808),
  (31918297659164656116860228390315172852704426336, 5811),
  (64602634462149263980525102261997909853873758904, 5814),
  (13082033478585225956056333208054576745409436178, 5818),
  (26504199827613667786970131079518572486199517697, 5821),
  (53724013050572904604188455698184146429526422371, 5824),
  (10895229846656185053729418815591744895907958457, 5828),
  (22106421358865399474016990776835650393797247709, 5831),
  (44876035358496760932254491276976370299408412849, 5834),
  (91143227813106921453408871783539008078098486498, 5837),
  (18520303891623326439332682746415126441469612456, 5841),
  (37651777811670222651163344023461952055507722123, 5844),
  (76583716068937232872466241743721610480902706800, 5847),
  (15584786220028726889546880194847347732863700833, 5851),
  (31730624743978487947117448076709199984110494897, 5854),
  (64635282603484179948278241732256640367633078106, 5857),
  (13172670594590075873459105665033903306923621318, 5861),
  (26859075342369164705983116451004128842817263867, 5864),
  (54792513698433096000205557560048422839347218289, 5867),
  (11183152045850194893641954298005883101510767252, 5871),
  (22835996477626097972816870676528013293284986730, 5874),
  (46653940803790118158464866792146731158181227890, 5877),
  (95360655002947001515902187723147918487322429808, 5880),
  (19501253948102661810001997389383749330657436895, 5884),
  (39899565577818046063264086658679151130525115888, 5887),
  (81674410737793540291501585390316222364184912224, 5890)]

/-- `pre_factorial` of factorial.const:1-2050 -/
def preFactorial : List (Nat × Nat) := preFactorial0 ++ (preFactorial1 ++ (preFactorial2 ++ (preFactorial3 ++ (preFactorial4 ++ (preFactorial5 ++ (preFactorial6 ++ (preFactorial7 ++ (preFactorial8 ++ (preFactorial9 ++ (preFactorial10 ++ (preFactorial11 ++ (preFactorial12 ++ (preFactorial13 ++ (preFactorial14 ++ (preFactorial15)))))))))))))))

/-- entries 0 to 127 of `pre_ball_vol` of ballvol.const:1-2050 -/
def preBallVol0 : List (Nat × Nat) := [
  (100000000000000000000000000000000000000000000000000000000, 0),
  (200000000000000000000000000000000000000000000000000000000, 0),
  (314159265358979323846264338327950288419716939937510582097, 0),
  (418879020478639098461685784437267051226289253250014109463, 0),
  (493480220054467930941724549993807556765684970362039531320, 0),
  (526378901391432459671172853326728060550063968386175500075, 0),
  (516771278004997002924605251118356586703754809431418461569, 0),
  (472476597033140116959639086736783164986290111480154022006, 0),
  (405871212641676821818501386202937963540531606969522590381, 0),
  (329850890273870686938210650374451170369447909156183438531, 0),
  (255016403987734544385617758369529672066917255523395825461, 0),
  (188410387938990024134828704596247030444821983878757088941, 0),
  (133526276885458949587530478285058319287113545566812029991, 0),
  (91062875478328314603816989519746732567435411695248430710, 0),
  (59926452932079207688773938354604004601536358636813536959, 0),
  (38144328082330448281774366977538151180713741255071988715, 0),
  (23533063035889320454187935277546542154506893530855859851, 0),
  (14098110691713903791632711973575485046279663370704050744, 0),
  (8214588661112822879880236552369834480783746079775312311, 0),
  (4662160103008854577980308581663248587608682440270669359, 0),
  (2580689139001406001259829425289884965718644104814668599, 0),
  (1394915040902100118239359659665807060748020277374919168, 0),
  (737043094571435077725908995729078150121163823602099744, 0),
  (381065638685212494181313381380666820672303164707655101, 0),
  (192957430940392304790334556368595764016847181500030335, 0),
  (95772240882317287085664512386418734706005801529710946, 0),
  (46630280576761256442062891447027174382819981361599267, 0),
  (22287212472127410876149755331532225348544350829318964, 0),
  (10463810492484570711801672835223932761029733149091321, 0),
  (4828782273891744035080372832307872986142559005042791, 0),
  (2191535344783021582738465205709418885924870876595578, 0),
  (978713994673736768588044664432891683819954092164034358803, 6),
  (430306958703294700729782371496692330089609015560084108780, 6),
  (186346708826214027921181564695895601233004182055674013236, 6),
  (795205400147551278478320686245758903276824593842811128562, 7),
  (334528829410897298741822222497534824830635012647835357525, 7),
  (138789524622137721144680875039930934377703784997799014943, 7),
  (568082871833117899201202777180523549702523987788765200013, 8),
  (229484289972698731102038723855715878560747855810879887065, 8),
  (915223065015956549183029023983166007872557958556370868499, 9),
  (360473079746250093385942876362119701504149780226516508001, 9),
  (140256490607320136493273393370519933754417324759688133996, 9),
  (539266466260812848935231228565622592722519011781399910157, 10),
  (204943609539647804017172811013792751968167347143716595416, 10),
  (770070713060135337978723602565237678942858952591507132680, 11),
  (286155261391081159324687271787601161646386052824107899381, 11),
  (105184717169320644551330616082432117155045168306895246733, 11),
  (382546071052037263055374448562827012660461513487892103491, 12),
  (137686472803774137041564823120508683967739347201900717259, 12),
  (490532214888456870368952747842769975438251887334958839828, 13),
  (173021924583611076115452730581917680393318424411101366889, 13),
  (604334275546159177273643773266212734445106484826806417219, 14),
  (209063233531476846984206655788704287977342361191757790230, 14),
  (716442309572952265350848506464306618953108555653889329027, 15),
  (243256117999338884545626097423960871149839706933212496614, 15),
  (818461780536469539738407033836513614815765608562668592737, 16),
  (272932726159819611484441138200822426282090890349722202714, 16),
  (902201234027155904807360264416616345226041262569768977825, 17),
  (295670154285491059203128461232499629781273347489258022504, 17),
  (960796192840460603589911823509084063244065691928135938482, 18),
  (309625061529686477967508532388030396322049075188253235609, 18),
  (989649265909715846377693799263762646005402814833328594122, 19),
  (313779296344822822040309737111141857790099495978205994362, 19),
  (987007893146823844374891591170238562085387757936789941130, 20),
  (308052103826709387394470647488814792031852714580740628463, 20),
  (954085152660061975834040220335506827165101528973974139114, 21),
  (293264917062081952889631874846106728802418996734099180119, 21),
  (894730419849536442316832164920524731001446090701385898825, 22),
  (270976149705251962718671603921784779651129571963765919729, 22),
  (814747395345685508554323741224269307783218549703343915408, 23),
  (243227623203447880706173497195941855721632427621503164506, 23),
  (721015332887161829226131716544918204474644872608652680240, 24),
  (212256142835016164963241172046081687735309860232014554524, 24),
  (620585335047645712022903044712435727674797623054430714072, 25),
  (180222253786430435905677855385443422430350434155636168346, 25),
  (519900354536331788890208405544215670968230016619095351143, 26),
  (148996028554959251379105303145336347383797303867769437732, 26),
  (424237697249368541124074110103725310226659849378142921010, 27),
  (120021750954439754114481857089625823497452436840403302393, 27),
  (337413172925181529879331421423907252692163379630553391910, 28),
  (942648627673629216096396512795901097687968366316718740920, 29),
  (261732035873129091585112663759974418715817222310483664059, 29),
  (722297074052676539995752428609274889528467713372008583345, 30),
  (198133841230872910672623524663265976023939178415367832465, 30),
  (540276947988878924636603886211702914721218601646637362723, 31),
  (146460192950220426544573906710208701963655140343625639883, 31),
  (394727928071110894457202211132747306088015331616124721037, 32),
  (105774314072587613395157167748051317019897654791115474598, 32),
  (281835081589755070587207895965161430042108663386933348083, 33),
  (746741141638069056593407519207189121312390540953516604339, 34),
  (196758004854723225624327486251072538019971669088345358559, 34),
  (515594831802947914180329338842533523356001517393758236436, 35),
  (134376848388387686705774845382699714125937754697844464944, 35),
  (348341706628173388497690265304205473655702131562088785909, 36),
  (898207063211719582246635834129509337334983177883489968282, 37),
  (230388999259368527022798500098655072502709196680727593001, 37),
  (587875148164250265771650145216429188632589831377342422093, 38),
  (149234719080646696885279637708279282003354654368139492180, 38),
  (376911070755269359112043457037303453822092833899245940651, 39),
  (947140802271305466022525146470792148996895909978385814082, 40),
  (236820210188283396131117432457541701103907108278836304506, 40),
  (589213977491223011054812982803519408327696175019261523329, 41),
  (145880908342961141699560530906885410746896225437347484680, 41),
  (359431126811426796785697423564425656915971127885249891862, 42),
  (881343057594716731517881539401318968616336638850092998751, 43),
  (215083083326148531336316095198330614171438963585907213855, 43),
  (522419033024892096507189846995800606886709435409577600757, 44),
  (126299707381097117212405726071534759468056712912533702455, 44),
  (303931073378978627745745988541856986632705148950033612771, 45),
  (728040794236688601737899380118598959217267424510834050731, 46),
  (173605023150010842474122301030927597185671651409503446268, 46),
  (412109479403181836402594466533637996554354798776074814456, 47),
  (973921902418500086435839345222454331351684798529711929911, 48),
  (229146922649159339207751393420857809417732654062600460092, 48),
  (536783490141781641344526941036205524061801011473187178239, 49),
  (125197615441270883873809243553609235588102104198609845703, 49),
  (290750873999605242376249772935383489897503954378868752733, 50),
  (672341724644883194563560855543312850344553947436627464840, 51),
  (154817086403723975239251136103090169718481923474113240235, 51),
  (354995600478362467431246526883424741798480147993683404706, 52),
  (810620368826859172018314209435424776528774589092806444287, 53),
  (184339102565210052561831402602863952433551064160960219192, 53),
  (417481802550280232192225374464237850564673215300877371075, 54),
  (941655886810080180174351173616115895179053312381206895254, 55),
  (211541574822481449172835637044928213990578677633417903013, 55),
  (473327874593940764060125992310055557003032515442426092475, 56),
  (105488485300178300068922584682483679744490929656350281460, 56),
  (234173759616314211448802918962749257338797553680071581458, 57)]

/-- entries 128 to 255 of `pre_ball_vol` of ballvol.const:1-2050 -/
def preBallVol1 : List (Nat × Nat) := [
  (517815391339617253831668276524298649385898270009224224413, 58),
  (114058691918467430337073840725318794159282198631925139635, 58),
  (250271542976656216777476775175925673267795103469451502590, 59),
  (547062516960486716714727218929450675245085500118353521237, 60),
  (119128975881522028024566829493657662206872012363559011227, 60),
  (258443245765023569030786400046173302058506492418891465022, 61),
  (558589127550843680864985475776364606246820859822148955195, 62),
  (120284948483748072254445478626492962774087214629052096148, 62),
  (258067573454244482686051429949000447039199052614993926203, 63),
  (551658847436452091973753377631223504284809615693993416453, 64),
  (117499013462840407008994178477183836767159486825234636457, 64),
  (249365090991966969019760902755587256455851368135300638151, 65),
  (527334339284153764053428847816023407437416554797067708375, 66),
  (111121069208810461910190553748813551053340870831523014368, 66),
  (233333758631088024252324924111819183394003783381641972226, 67),
  (488247740818799895491869702598546959708252965861606282653, 68),
  (101811058604155576046261107301622835286654572327272199033, 68),
  (211569036646642092715036555481942758217467616647646222638, 69),
  (438149142143856256084070647778625765295694869038845550389, 70),
  (904304396266885092348773308747460536111633430386213157872, 71),
  (186011638667001200631953640807987592186721988777794244846, 71),
  (381336382271275094194414021009030156334921546004340530015, 72),
  (779163730024600122944904280949130963778793689227889128064, 73),
  (158675970475489656782312308383759441689619860453287619730, 73),
  (322080927656434836201374958312127510251113663791765579583, 74),
  (651627794963436910872870327457485815446229810170025130853, 75),
  (131408711193096278305589488463836811205614798840722090961, 75),
  (264148270133167673585933170675537531136964763602086532703, 76),
  (529272617566582181517002171485120387694189973407009030316, 77),
  (105712899988383663519849161264493644204067313861937456268, 77),
  (210475818619419586192243174230496051001874728610408294909, 78),
  (417744490557457429296362995845702233618642314286737270416, 79),
  (826536606916332987234343517496849724745166118583855966978, 80),
  (163028946908437144120935517279460882315735751879876506037, 80),
  (320573003976714370431859914037230744517223761860105762538, 81),
  (628430112797578608887011853856051399358251292229236963122, 82),
  (122818267589324077976509239920801763569756504783034024387, 82),
  (239305627352664007908330316003936785952920152901367590409, 83),
  (464873454440055335410698187649382169869545138389069673540, 84),
  (900360240543504105582043899978093765037585589662471727468, 85),
  (173862265394974677477287679148778946567871867734777070270, 85),
  (334741433997137468286987370301487285413331099983078334263, 86),
  (642593430236860445220523809206506264493817248956307456177, 87),
  (122996635075733301497803616110329302003450019150340184462, 87),
  (234740325543858847061084092022491921699222668371987917545, 88),
  (446711358578252511322842120817681441941495798802020564315, 89),
  (847653427850417747122344947744692956657557778524340315637, 90),
  (160386871129663309026806262532174058684639978680211804518, 90),
  (302611566105122527005253328682219839049459476119145559568, 91),
  (569344876918873620488969378530195425158894374098057431267, 92),
  (106818232917657866525156230577911196276787921197275577007, 92),
  (199849126557242279544553524378101689711033303876082142643, 93),
  (372865973115063754402719803119718511099010968405433415027, 94),
  (693750881567479771175986884873458750858009651463628200902, 95),
  (128724505704603697170795528603943767152489348736361455301, 95),
  (238194827645228104041376965277127407158742619261273539993, 96),
  (439565175498435224345031897520321242725370623603509359752, 97),
  (808984995300903352375610531665611430045755118279415762435, 98),
  (148487604959117449695847445286521230552628557527372826507, 98),
  (271818322791624746131817569031137723897375379195900039609, 99),
  (496263371158198649711671239290135048103664494465719879552, 100),
  (903642799992875514553930953651039727308081275529415184064, 101),
  (164111301165926500995209441115398762543309682111604894082, 101),
  (297264668264599851548426475935490687825924313278149188119, 102),
  (537052977202017463799497023231409728218727050333443032962, 103),
  (967755956468263051798682911486091355940201803404035975455, 104),
  (173938318326431420175275812346298076606145765615958455558, 104),
  (311825128544457328288105689153520960559908906762704468883, 105),
  (557595247991918213662749596610549561543601260941606321119, 106),
  (994545718822294496264149692789287022457125814956995760986, 107),
  (176943144926059512170132580362555516006313866202788236252, 107),
  (314015831548874426368758516169078837782628820620781964361, 108),
  (555883284202782662144158085983166963766857557968079877137, 109),
  (981601820402819823400429624897990223787096143837412311403, 110),
  (172906816030181106529215586933031628257224085625167911682, 110),
  (303821977116045948198399245499653108014610394532742293059, 111),
  (532551748035312609323822581047523078403892417272253897205, 112),
  (931204772006728026409663926804685732245545551843607345616, 113),
  (162433073716906863896375633317688566618970115614364996648, 113),
  (282653726640009189612705871244197723355709177643393343377, 114),
  (490671683739465321233711946482519024493100453904943254105, 115),
  (849744374279455026543833911226280291650545923360503799594, 116),
  (146808624472422729591498243336345577293454016445276252047, 116),
  (253037979494368868872580180775428568769898154352874032397, 117),
  (435106505779420738166691372300914448577528489821395893826, 118),
  (746424654890811251363423524833557743505330378877134100634, 119),
  (127750224493995617265432123494153029012413590138555486603, 119),
  (218136019745420405485533033547428259269549580460483025709, 120),
  (371610339597021752253634159980394364583043654572362759404, 121),
  (631607849876065277217174284602888827829392539650459319221, 122),
  (107105349805138695706269120067444900018440964149580874405, 122),
  (181210464029250381248467091237516584558300662157335792227, 123),
  (305892163734535199268240650386855395230437931302089600529, 124),
  (515194083753747041855894219527123731193792237835596488665, 125),
  (865755472413605364198497726704063442994052067465825205759, 126),
  (145159636654143170852814131050592603763380591938373585481, 126),
  (242843842137477099392764796045148533856540414471787192779, 127),
  (405362176098150986451228756225142664610845388002812897871, 128),
  (675147283565148254427463894645366888251636963984422513850, 129),
  (112201130790583543304940582210994780265327951110084038430, 129),
  (186055942643804798752477253442984081185175986641755182834, 130),
  (307851745166956165517604847465222183028478719675729746068, 131),
  (508271289188261816238291798822823175960204749895164979088, 132),
  (837354788754378030919095092078926184513392576070408986683, 133),
  (137653564495211778051946662887652629290362355624176979071, 133),
  (225804948738110492370959934479825673358127334226907144845, 134),
  (369616604238124886492837255852359189485785107033007295683, 135),
  (603733760084993851839967359542024359765436055407076744162, 136),
  (984054922473982355852140115478349977404264035760322915853, 137),
  (160057851933093622786529037717265572199588558871491832372, 137),
  (259789892031356007760315165058190752365316454617164774998, 138),
  (420783742077296913590214699199092143400625515051101124791, 139),
  (680128346902161334456875866208505919849364190657078516951, 140),
  (109703826793365837988945473752191050262736434498277570484, 140),
  (176585637861652930449592301548469940228865245663150478840, 141),
  (283658219197304725138653119053467205405401961667919015387, 142),
  (454721428389865977013750013287681737483351359736022411555, 143),
  (727460063314788393154858578016826940110455336296333458699, 144),
  (116142235679630910316218045753835959512432674029200709906, 144),
  (185051270501190693828311566358541456158472397360042049584, 145),
  (294251285792437770084607743050829500387322550937195150699, 146),
  (466952379071484577986763010682910545549490102883521185236, 147),
  (739534142203898560181460442144364342026339971097701299634, 148),
  (116890371606952371941547964686495085297939093812573380519, 148),
  (184390081605285490579959114086011478998874151865116056156, 149),
  (290294017957140336938859044314957404578107114468078784633, 150),
  (456124823437785327987301323191833044070616215684015299486, 151),
  (715282787604090666960265596062387806881563385953020644247, 152)]

/-- entries 256 to 383 of `pre_ball_vol` of ballvol.const:1-2050 -/
def preBallVol2 : List (Nat × Nat) := [
  (111949874565006869199583902022827075704255010860770174138, 152),
  (174873708231613981617575407384364863807836295740478698567, 153),
  (272636359305212736617927820818543551441740331337745001867, 154),
  (424233171495323117900962921791051294414735957304202110856, 155),
  (658855679611325845567840282961950372636292648397588727580, 156),
  (102127801914084749972277585444232558129457767773000624383, 156),
  (158004287239912350914687734249583879038904358967422048509, 157),
  (243987796365446596775839247456412024687804622463267482773, 158),
  (376049324264091022924053365160011030217830304269830629200, 159),
  (578498315945093950232883612781914079287643217850013299240, 160),
  (888266010898852885805163588091155196429729778946807907809, 161),
  (136135285354844516902832749524505954908279904287779973996, 161),
  (208251490617413988011767018235029567986205135654391539457, 162),
  (317978893951769295968582525208126719513541789955375518591, 163),
  (484623224461327066417122023261540169037690001607661445269, 164),
  (737239968439473327079309845184981280904229495930447423725, 165),
  (111947703068139889373185897510496723890902664697987474561, 165),
  (169678217493202961762039540792978441225691263874633072096, 166),
  (256711008427094768731420594825090527626665159713933636057, 167),
  (387679884764260049091889656777766618254794382924916316637, 168),
  (584406824761006107674342196378379729378003527472804383728, 169),
  (879373485862770384065297618891272847948043464376685775206, 170),
  (132084042257331975720381631636855490977225287194074802380, 170),
  (198038228168324540562775208953507846654686375072323908337, 171),
  (296395897722912818098081271210516951545913786775693863026, 172),
  (442815261739179809168978717046785350338260640468756018219, 173),
  (660393741021599032256380662214416111276404275889439142033, 174),
  (983141465142931970313102116579755133535460060862723406249, 175),
  (146104797554234929382122860323879012005121154923898511757, 175),
  (216745965216318656940913234550630602637336983170280156682, 176),
  (320980250804621290130973513988591029159435925924364396829, 177),
  (474513959594993416795152969025490147536105322705888730614, 178),
  (700270276302227475782956169828047213546390710160303454508, 179),
  (103164676089234276727493595367632827269040167796234307754, 179),
  (151721652107473966863026989320409966607256808278314573408, 180),
  (222750095197188319291052837184923708292196670852634903892, 181),
  (326470977843388072073301822160490602415855179270557345894, 182),
  (477672397718712566659659772650694874946326436668286589433, 183),
  (697713486804805528666419882722199047774331919762356783808, 184),
  (101739125118354529519423401037314061889757670899943635568, 184),
  (148103484084898391273910449066267959144208513815393937076, 185),
  (215234268050151780114075799157560903106893060759254387415, 186),
  (312269005081993052203804807657361155144413541414275706963, 187),
  (452293241008115842088754319245385504666734364374758809332, 188),
  (654014674872922122119556646093124376944897622899676078025, 189),
  (944133636690640889187960295881986051795628200950469994090, 190),
  (136069383968257568250818641444229020361335324386061117702, 190),
  (195781075711837114617793338341548444147058766571220711135, 191),
  (281233274377083397535969359048105232609002298014221050789, 192),
  (403320910929976773173614977583332520259468593477356947612, 193),
  (577464306358201200604962617775172322945652066257648928923, 194),
  (825452775776389820364801726463472666457142892765072510600, 195),
  (117802443023717572822072547384358869426763357477272519206, 195),
  (167847014644945572578976444316194305689667053121295874734, 196),
  (238765993276284719931990329010974662333412782521242147390, 197),
  (339104146710957844844192823175331225556286535685500572791, 198),
  (480836852822978233130559729364085815229064480043032604556, 199),
  (680720189207016366019167584737107506251817848116857057280, 200),
  (962161480512041434000342290996791780778592000901006161089, 201),
  (135780669559556614375611763023535701149503390910303507242, 201),
  (191311356882513188772295455622483582791694372222917821903, 202),
  (269127794314073392101030318536918432538739201359515527880, 203),
  (378001480082011674687462557182715508176001876803954231565, 204),
  (530087712535371721941185335823671489022164252373975150883, 205),
  (742204170544822769837250309784583813260041971131114162111, 206),
  (103758234483448096755132610549194288056304280932259607149, 206),
  (144826283829026162872914700189110377598025230644541160447, 207),
  (201836598887088356660010477013459093936525852874217581975, 208),
  (280855055138258558259482404775183233342686059655009114709, 209),
  (390208231562600996395590116143917181445726333078335993053, 210),
  (541308084629392268926969433191334235821421458535358815971, 211),
  (749770834035065551324130206897224317310415474001642651326, 212),
  (103693262317101270009484589317168510821735871061066358094, 212),
  (143189941889389303873778742371044447507959854651134023336, 213),
  (197431509771008903701530647654556244366798356634711106742, 214),
  (271809347134534643654905360073738625426179055687599618380, 215),
  (373644205231170514330557559646555009914710944961991957464, 216),
  (512861410291226398901572223235851982540364139828395106117, 217),
  (702896940245893580986349376172036585738400152575856343678, 218),
  (961911426197383664004183549538206948748645210804257933673, 219),
  (131441420458764473222600262103495738954306538514841086673, 219),
  (179343256376604219693112076881020378411808665162801570377, 220),
  (244340473899799774895882168393872607393159150111668832061, 221),
  (332403219294165579735381909445831368585162079860540908742, 222),
  (451540139869564464925186564990901699193736635686691772829, 223),
  (612478306020027919205322951690125808236267836818217770978, 224),
  (829564436383117791057536660025404828167397717118891413670, 225),
  (112195763654556323348454016240401598696803406661193854912, 225),
  (151520554594218618666731559269409426981415080192612632438, 226),
  (204332398180319349677568470386677948464919478034706148154, 227),
  (275153676983264975298839583422662126403381440626039505337, 228),
  (369987989056873605179478913313763895488232566323084205176, 229),
  (496793546102784039410301646173012491052637306176186694859, 230),
  (666104039161911135495477504424375169880736255063362175569, 231),
  (891841688449902054548781503148500988525005603341723413254, 232),
  (119238037376498459209221119304417976757589572376149816660, 232),
  (159193369124961900611756635796759805790566836367514730577, 233),
  (212236454532845746475764305181690933059993154445528800620, 234),
  (282554078498976564172204021084279470865838211156381075699, 235),
  (375639710639060490224968138178726943907796447748628852389, 236),
  (498690908569785689337819394247672605747890311482160108727, 237),
  (661124344728441530726229682069029184436450674141460299202, 238),
  (875242287583719544896919409967300663199926798690678434852, 239),
  (115709380752548070271502924138880110732299893429422581833, 239),
  (152758596710229912660784436681779492139216134204152535342, 240),
  (201391545996470492514589298751988026054456356568270128543, 241),
  (265141041545604558570545563213222820921981601955976026529, 242),
  (348589642643307237094976292466665988552784143911958970454, 243),
  (457673158398251340214876104047362820551005106565379877651, 244),
  (600069402983948125977226482008892838963083068738509348657, 245),
  (785695427414854750117808316776619029156583342866456610531, 246),
  (102734257659857470626235472874077380337068601119628370426, 246),
  (134148640365521756337638882368795082440458099307791802007, 247),
  (174931809829923671150573244114246202898327728410870861382, 248),
  (227805612465612078518121114209627675118867206081701941770, 249),
  (296261179860299182462075965547901687384913493804258632646, 250),
  (384770128262629210180993381982474821793814320015335554739, 251),
  (499051981872900975177122692520737690075184700740328336383, 252),
  (646412303888063316138772384635351432404287979840563627362, 253),
  (836169621339377262913601435963637570721710894958410655729, 254),
  (108019369419403864599607600002579049755707106541773648663, 254),
  (139358320400782324543154015936498375669102295124522928348, 255),
  (179551776409206957869045954873488221567566189037696972761, 256),
  (231032757566074069304974304842949230766499896652526685948, 257),
  (296883443003243012672622070502860354610058472346827181620, 258),
  (381003051920299221237884353459512074815607677809170128733, 259),
  (488317719115933168105087797064493568787354341961574704228, 260),
  (625042500735301618203019836394282912943775100404544292582, 261)]

/-- entries 384 to 511 of `pre_ball_vol` of ballvol.const:1-2050 -/
def preBallVol3 : List (Nat × Nat) := [
  (799007999475176971413560123683953812481556852575143724540, 262),
  (102006697583969688424471734024405253561816336452233609081, 262),
  (130059982451331261390448404138699522936115255892526519335, 263),
  (165614207621061955680593554591410232112886062972178584194, 264),
  (210616229585113257266917785151735478668410066192296943422, 265),
  (267502507965256034895740386095609615610306760405080919711, 266),
  (339318153636601577088432473547044342654581645583812813747, 267),
  (429863894547567012256816895956188470399892751524899619446, 268),
  (543877254435918519985575820538518401283533121312351975183, 269),
  (687255599569533894755496533947252258747424752590717776280, 270),
  (867330348726126095895050824500363833264025368195671988293, 271),
  (109320361658030195044052870891993961100571136532311254086, 271),
  (137616093524922789252908124321304141407877582000013679364, 272),
  (173017654948436760370151400480332098245206392327220950400, 273),
  (217253119815891129936605900968523997322288741246619189694, 274),
  (272456638459820883828190432800022090647153046218627958985, 275),
  (341260402591533353779518282999800593203482901831010536720, 276),
  (426906620352690078537891736137906109123716628525911594823, 277),
  (533383668528684787184930514973254823393168802564006047564, 278),
  (665591415518043701071756311154334849991985364466153830707, 279),
  (829541690393311647711715039438004234713455821081499274919, 280),
  (103260103767107041810927395514395886156996389751208124368, 280),
  (128378427605225942502822412531527421315246136791839115627, 281),
  (159410900935461040109368051455197281002222014589939923139, 282),
  (197702316198032810753870366377699799902540002442054598244, 283),
  (244891987912457067131688108231756068806110469188537121845, 284),
  (302975680080695736897220401687521123870009747806647216190, 285),
  (374379985473856724040526382624719051643753472801737628259, 286),
  (462051539202856884317933962963385545426810976979526643612, 287),
  (569563879910761158289873851156501184435277174048787269912, 288),
  (701245275912826829964634899605663478785624614321436104089, 289),
  (862331422109757337718146347025643346042699426485027361164, 290),
  (105914759960205978832472753805949092304079242231105053450, 290),
  (129932568856578064933447426706699177723775905808030453918, 291),
  (159206235309908844375451349028343129856608497194436632418, 292),
  (194842579370823680230819545333841804500826777494776859592, 293),
  (238171971073951221284054816103993279766768064026597899364, 294),
  (290791456512050295605271619480775503153088731212628171512, 295),
  (354615788917974357628957607145378800226564804214939077337, 296),
  (431937732153632647514662213221567703825616579129795576117, 297),
  (525499225147008045342191028204092902585790983165456232447, 298),
  (638575249949217951319577583643959606780605408642290973751, 299),
  (775072537647403384970883495603607856962113625321310054169, 300),
  (939645580330083889288495455283801826548411787897761079833, 301),
  (113783279919265463587587819370355828469210794950292936812, 301),
  (137621615484527248078899431980704849228540651936519932611, 302),
  (166260798277076940795297652678875892637430542403344861239, 303),
  (200626940223364332260816155072061009849103561574704208407, 304),
  (241816528910759013964557671718774532520387113905711893794, 305),
  (291126153126060036013866111657211100919689989231965730692, 306),
  (350087110941301550518272245538484291504943471349386507645, 307),
  (420505647783304564888031053689367262528107177771576576773, 308),
  (504509676995260493702666689770888562290266745476196069838, 309),
  (604602953715810867236405951098610844381145016683361813176, 310),
  (723727805896470264414715662186650528020985502319104287997, 311),
  (865337675504456129614386847074115951780848486725627935641, 312),
  (103348089009227764896517301823767131762234484057366466021, 312),
  (123289727176384025195323476456086000997420667320059622140, 313),
  (146912939906757465840809061352692460007411797714766379791, 314),
  (174865056957299293959697711715020700210971706480754323458, 315),
  (207901176904661269521647936101968744121463674669521330833, 316),
  (246901023958027966230415168140455252173119247575427471650, 317),
  (292888255621684230578321556872594102901629248728966895841, 318),
  (347052547217153554173580497864215107390227974606315086136, 319),
  (410774817939202071009643126344838413904561672905877115091, 320),
  (485656005677966346148985490990582705000553009905553579422, 321),
  (573549844585547572052241718227285660056973781663279905576, 322),
  (676600150602954317255231643470827101828001525259964013054, 323),
  (797283176202444204689896736842990070510346457528220073533, 324),
  (938455656755845031855229809661580642406195891498172963825, 325),
  (110340923752790104870503507879432944025218452116330616258, 325),
  (129593204263030653531189347099904673078699181517359319659, 326),
  (152037822566700400204996062513098446315111893144171523052, 327),
  (178174642655535481957293938954321170550462686268856608422, 328),
  (208576815040757405884977430793269132274613414271342578014, 329),
  (243900718266935459434240177952323410692643599431230424426, 330),
  (284897126017913285693346154532369770778945693963045472682, 331),
  (332423733064068688361739325870926614379520021683390538051, 332),
  (387459185336243256843338174504124465632134624206956966769, 333),
  (451118772212947144583276564219318408746980641116525311916, 334),
  (524671952680270671556630878712313341708778973271423057339, 335),
  (609561901368018108599963887218327527039481232611823586331, 336),
  (707427275572939901251288955961039135686196165878438881790, 337),
  (820126420233829476231217333803603104461446481188415165311, 338),
  (949764244397004351802805114769617611529952727949830570313, 339),
  (109872201996652206478520919864553858664401250417080180950, 339),
  (126969037142122970906878917057304288345741356799252543576, 340),
  (146570574363658761911587066425560814060013938010702016650, 341),
  (169019065389433526196660979283196644222400608193194977703, 342),
  (194699805350235454688283365995811370242341647100237813797, 343),
  (224046014406775211674800189155978625686470513321873520421, 344),
  (257544201323647336839741935725747176577246711911235870537, 345),
  (295740047448066379336845423043145906435426412231722292452, 346),
  (339244851510700703196938563145150215982952991981500513277, 347),
  (388742577587925613685537856091904844856050049076007236160, 348),
  (444997550427631565615745531239934441098808259644634949880, 349),
  (508862844119911380512041683237709415335329044111273607024, 350),
  (581289411762536748899779567608070978798736678061916423034, 351),
  (663336005299552576263282718383176101845110085758621162254, 352),
  (756179936067377969206428513154036671004618876507972879807, 353),
  (861128727731683689475391516273930906730701468375690316162, 354),
  (979632714202587280159434861819731611886816036974651997946, 355),
  (111329863573538384166169096225067859142658132378949192758, 355),
  (126390428671666435480641739783891276445891787752035014722, 356),
  (143341426855648407247774525948640699723033396969653113287, 357),
  (162399690060929261026432104213931642194381577433629163087, 358),
  (183804234108074992698697712941070880636158418466239597963, 359),
  (207818196839378707910274283342108168188715626942059852839, 360),
  (234730907143344268094717391163829349129344902306595355354, 361),
  (264860089441326465387795099189403670671183913570864841566, 362),
  (298554207875302944286386036947773476551308132260068612028, 363),
  (336194954027477490152671189654079369424357761662651919844, 364),
  (378199881515875694773710828291239950474247966774192757168, 365),
  (425025190240113301359024997426177679702866185534886367682, 366),
  (477168662393094505408753728061366432404752483760854249177, 367),
  (535172751602783261249300745749311915332520535182432537993, 368),
  (599627825718965578725008174205392890883947693285700225666, 369),
  (671175562809077500278224425604150480200466472437580926838, 370),
  (750512498871204439077880884515747908747301441614458827315, 371),
  (838393724608347008090587848587554760722730111226936063647, 372),
  (935636727333767403287299735856690597229213635090993989398, 373),
  (104312537269123453981601462042622096714669616453291238226, 373),
  (116181401937571548158776317112812019054525382860501466935, 374),
  (129273175842993986566782743524011511572880210974900160975, 375),
  (143698676697180214824936106072362175667645161651462011826, 376),
  (159577076437945553928556205616211407340547274567386417310, 377),
  (177036355702916147687453826808810698947275685846992105628, 378),
  (196213765565082834963876381729071175705169012506158504220, 379)]

/-- entries 512 to 639 of `pre_ball_vol` of ballvol.const:1-2050 -/
def preBallVol4 : List (Nat × Nat) := [
  (217256294724449556955318461692279052159292236556657233335, 380),
  (240321140129611766036064587352389414876682392077217468069, 381),
  (265576178775280031611619119736247731813322233619229022517, 382),
  (293200438187771485603624811330564412908179387170646069855, 383),
  (323384562871654775142277799250279081257170161410399437626, 384),
  (356331273748553643935270722106409258568410134478884208400, 385),
  (392255817375265348318241907461898487181408468455688780857, 386),
  (431386401484681954941465381758808462603851564917994044726, 387),
  (473964613151535842706786019890145956691656387995549851257, 388),
  (520245815647913207081067689165471431038195355521056593389, 389),
  (570499519823139196636452450136504109648727494054505277442, 390),
  (625009725621535002124348722873267800726782768764531620648, 391),
  (684075229142320121712699851699210342828721073534810021880, 392),
  (748009890451347326248063484063233690197157898718611742193, 393),
  (817142857177287958362968614729285284912308619058670771695, 394),
  (891818738768295555895065481770803395731785373302510018137, 395),
  (972397726152099053212000775905907117727066197110941092535, 396),
  (105925565143598950842809518439064100394859730214537067924, 396),
  (115278398220635998116227729963292079471969532271289108454, 397),
  (125338974494341821487121455002426840404881810418837740476, 398),
  (136149537205845392661878950544253786891369204973411167360, 399),
  (147753846709156749015828450260730662947767661158226528784, 400),
  (160197148267990303634563570560097356493666356149366369806, 401),
  (173526130602287585151176890778755694134102819266091296640, 402),
  (187788874673415376060836699153997222682261908679758892711, 403),
  (203034792218253140048366486248297536319159180403137112198, 404),
  (219314553568734620219645272335329737539267631231842759985, 405),
  (236680004325044224450137901008227880323955782250956841464, 406),
  (255184070487726612659287299304582988949755654154155950367, 407),
  (274880651696546922611037512100362824037907738777007437256, 408),
  (295824502272096639239863288405926110001761758596858717331, 409),
  (318071099809888231049511359972951295796372712722579196002, 410),
  (341676501135983786747649078703975056496605727832439264642, 411),
  (366697185497970916489746796946541156241543453791516193006, 412),
  (393189884935190955489051296356292559730959193476078240100, 413),
  (421211401847341534998848271634992545812022407067123230858, 414),
  (450818413860661322074136484305456569295772481443809694188, 415),
  (482067266175543326304938982614083157381590627389454733979, 416),
  (515013751668238773606852937677793996591823531707162805361, 417),
  (549712879111870176507181397900592721280338448667257991983, 418),
  (586218629977774294587762917394935848880036675583846225075, 419),
  (624583704376689132296849107864450543778998974242181131152, 420),
  (664859256799873307361335445684567307141498054302200161311, 421),
  (707094622422236312859116376759426188844587115201026187219, 422),
  (751337034832248837383829418827380466497840623050775053165, 423),
  (797631336156030984404287339273938455156778060677683802625, 424),
  (846019680644778329011993612757592780795706817238984691038, 425),
  (896541232894739810767662802952784323959483724153489197124, 426),
  (949231861966435210174396795913192290022939383436892764883, 427),
  (100412383276379695865189993837219972108536964460704899918, 427),
  (106124549612352794405889841025282811969667096024879786504, 428),
  (112062097914926133457471942292026158967652224673970553174, 429),
  (118226987740316694590717037086892509941459556812105844826, 430),
  (124620695063855584971983526639905212668825241440559961936, 431),
  (131244182381989214696991556807544361490548501194920040746, 432),
  (138097869523055560819110264671940630953184784050518807464, 433),
  (145181605351287425272451943823867942339880506206546695805, 434),
  (152494640551856996017893142333743722573674660325489160923, 435),
  (160035601687009539828969402499096109861732036839668574089, 436),
  (167802466714371317721800291953072383399695419061163666336, 437),
  (175792542158297724355209854089240217094706853306092460803, 438),
  (184002442123600258825209590460690231210149401416895670716, 439),
  (192428069338112246187480703747341204759633823395802838422, 440),
  (201064598406289978177144405496471338163680222650679522260, 441),
  (209906461450375270728456927428753860164269982432248449492, 442),
  (218947336308555509553928529874604869691098449501945988855, 443),
  (228180137451047780721957468502706125005381222375192999817, 444),
  (237597009765116334504830961745604966467615688466749420084, 445),
  (247189325348731364582124547137528446442559407138540999236, 446),
  (256947683439928344925671466181080379743688453886382672987, 447),
  (266861913594979969262093178322053664654356882644294923012, 448),
  (276921082213308631765505582120203045403640935023334915785, 449),
  (287113502490720288136122984797341426842106958517909791920, 450),
  (297426747865116430172021185168626228543852729818038972018, 451),
  (307847669000437426732710299936310680108425661655093100110, 452),
  (318362414335316353269774584325179940140040802443800829000, 453),
  (328956454202896784783215093029756421711525408094587816238, 454),
  (339614608507619603809401859187968818181606354178097697349, 455),
  (350321077923650102654164564265129782113187270867203292458, 456),
  (361059478558142619840040425869237434836884300812766922782, 457),
  (371812880000877250165990822465010145606760619704060588192, 458),
  (382563846660108710607785269099602083738092617221989883996, 459),
  (393294482262902129721939193026242644442765457005224399898, 460),
  (403986477376957876795668235363214150225363361091895073385, 461),
  (414621159790112272334168726841966699025004809685797433487, 462),
  (425179547563507561145400976174309794872701981298352511169, 463),
  (435642404555015549624718089209753373512738251916014598488, 464),
  (445990298191034199429015896827945971533976706531866901580, 465),
  (456203659247409843198642300784807417629825829574535054867, 466),
  (466262843384117901394656638938366896225159004435102051260, 467),
  (476148194163602693109227498548995946649594068154098043700, 468),
  (485840107269463724139817892054565737933315973408100440263, 469),
  (495319095630602876194322377997278211771841683253293020394, 470),
  (504565855146123747850963865712579853836141176199388875817, 471),
  (513561330698297772705317758243559849977897411743974551616, 472),
  (522286782134864625173547928236228421776018554378902701433, 473),
  (530723849897885079841784144518499768670322002608420276494, 474),
  (538854619974365705824752678224009194497875986294867977968, 475),
  (546661687843963247616361625877660360252925154562537224309, 476),
  (554128221101272393168392952722058284826722403150633910711, 477),
  (561238020434507096840041562675312686647919424238611683839, 478),
  (567975578648788906158699451143991940973742242236015650899, 479),
  (574326137430725000889076629867615694074197896267780317588, 480),
  (580275741561446195393508834086869625625163928544778135705, 481),
  (585811290297716763566737043712604729196900086571683745029, 482),
  (590920585655043379033999046000918558403884141691885889846, 483),
  (595592377342804111692190693530107390533865395940984622983, 484),
  (599816404119180109162273190524514679054246279462195401330, 485),
  (603583431352978521531308008326828404214686618788327393437, 486),
  (606885284600149058549566603918498595947422433541134377577, 487),
  (609714879024770610794092396260650600103970798023465886537, 488),
  (612066244517360886813428632121692976184651970809585234758, 489),
  (613934546387374637474333802279161149791836774641796490512, 490),
  (615316101531531208150462206469211313374063268883015772261, 491),
  (616208390004970702033804854542381056077067600363085206888, 492),
  (616610061947996736065772331658646932417979839902580506053, 493),
  (616520939847136984999533990277338856113520537690129344359, 494),
  (615942016135254009347272060321447638172007528919519415061, 495),
  (614875446161282659317962753385724476772768725615871969024, 496),
  (613324536585673498084248632859668666810160900584490591643, 497),
  (611293729282605074750708672007653369919164524277756326402, 498),
  (608788580854317924581279448820680725133716431736511020817, 499),
  (605815737886353303401525625781682029157280707801517930953, 500),
  (602382908094891667348630110716076069241734190881010316114, 501),
  (598498827538631230467968883142092096101439854949211682616, 502),
  (594173224087587835206658517995521225176378629919885812984, 503),
  (589416777359707996559443636701795539552381506081522442416, 504),
  (584241075353154279067236767573244177979153775571184564638, 505)]

/-- entries 640 to 767 of `pre_ball_vol` of ballvol.const:1-2050 -/
def preBallVol5 : List (Nat × Nat) := [
  (578658568017446690668654515279576858006697777167729438870, 506),
  (572682518020240343016716644473145716939240523685668946015, 507),
  (566326948978317822435817559018912432539597882728903021209, 508),
  (559606591431319267132073264568465476917367316130219631024, 509),
  (552536826844784140537240150145163490089037972632353157231, 510),
  (545133629935211642649545699399976693442068829863624174016, 511),
  (537413509614052480420238760745870036871965175846634553523, 512),
  (529393448849829332779678174605548857119956906218710490198, 513),
  (521090843747967590207868947624071363329638980967967119935, 514),
  (512523442146436921042396799764141414815894133613133399245, 515),
  (503709282022006714260461821703972627614572473324728668427, 516),
  (494666629996866249464302048773815202549344857142657004178, 517),
  (485413920228627486664045853109682627264239624684585755424, 518),
  (475969693958399833386208398352940949683300416135186628713, 519),
  (466352539981797565866700726417561012682416645676130283922, 520),
  (456581036296516369896895975687154994415732140687256606288, 521),
  (446673693167608402890626324327555137105002845902781541479, 522),
  (436648897837914936127936340340642496674887265931934906989, 523),
  (426524861096407288793814130201132634322968363718480297225, 524),
  (416319565901570171686026357394333146987693506765426932792, 525),
  (406050718240569740085204513061342525024461726327605569273, 526),
  (395735700387916683068447195307553110968161101835488951280, 527),
  (385391526709798474343500320324929522617220922576921860668, 528),
  (375034802142350088027461521806869873904212254190560294542, 529),
  (364681683453993212868187943659859098751382767967436121899, 530),
  (354347843383731935997807441866664374682666239779791417994, 531),
  (344048437729076135781052117154883855055826817432751419987, 532),
  (333798075439196063551341200495963469693824669528803157566, 533),
  (323610791751111088300487623346622730810286540144795165032, 534),
  (313500024389294454225798443398055157218602200782651780936, 535),
  (303478592832139419838804198283917144292786975388843164953, 536),
  (293558680632378081636987437696903946280975275979437636353, 537),
  (283751820762862287413042611746798437212913409287934401818, 538),
  (274068883944187607761659757779978101892734114171126424873, 539),
  (264520069896538849458453746721230923960058833080469878159, 540),
  (255114901444922496361766176683892864525949309665866347413, 541),
  (245862221394681972855146672348196215192241236130020436961, 542),
  (236770192082910677290346466674080620982057638619114426946, 543),
  (227846297501120995564974367481889791865863010295248113725, 544),
  (219097347875321475402241067180154078626213114284109560248, 545),
  (210529486581516524884081793988854033309222778868627697658, 546),
  (202148199267582156087742428177703824532335115068470695446, 547),
  (193958325046487761834813283507478909066881273222061266911, 548),
  (185964069620919977667516799655191469411161369745682243162, 549),
  (178169020195505013067433118242269532324607892159347341165, 550),
  (170576162029997970160761964103965639169309845678844770677, 551),
  (163187896484982523642023291790061353822589801658876012727, 552),
  (156006060410766770209654760982184074875064510262491116118, 553),
  (149031946730230447399117336358968037468548128684670279432, 554),
  (142266326067329569514268673971958904468426246795985232768, 555),
  (135709469274747066968807175275357191544655050427236753783, 556),
  (129361170716738835337514307396196618522660843963248567885, 557),
  (123220772166507269189625223781969873242087844690191915803, 558),
  (117287187181380032618890618059949683391412310475569012756, 559),
  (111558925823619858161144593437530215536325083122163318799, 560),
  (106034119599779706139363303179147670929945018556102666209, 561),
  (100710546497084143794505895608633830217078091447009827524, 562),
  (955856560012996935472631472512915234405994525859306546653, 564),
  (906565939868919287774994687964547103994512529512573042778, 565),
  (859202273768939196860704324501844468147025409913471499046, 566),
  (813731684767692308308324561345095951310700585915073986242, 567),
  (770117988935847558345779951457866022417134612634384623041, 568),
  (728322929589580516565482451478267058428042905240865839298, 569),
  (688306405814567385581764673311967937335674460221979588661, 570),
  (650026694613529089625938338396813637841184194028433508995, 571),
  (613440666078252437746679761328310099550516022303653435142, 572),
  (578503991058107368746149414088987879939533095034771759189, 573),
  (545171340866949742165567905281045175619891374320126238727, 574),
  (513396578638566539007850298353245353521381857689465611853, 575),
  (483132942007138598351066959104184935010870831380635361452, 576),
  (454333216853254989332276542945288653114878627973026787048, 577),
  (426949901917538744474487939615465135859628677808294218899, 578),
  (400935364142697840710928385016951292440587704185588183849, 579),
  (376241984660595370770588720684739917829708351592847119303, 580),
  (352822295393570909470122649313807660897279722744790295844, 581),
  (330629106288607019299937681912620084141178699827511425814, 582),
  (309615623248919082912810896538956411090824437798459251157, 583),
  (289735556870082767298432493618135703627697253003269700209, 584),
  (270943222126860552140666918527113547360499512975643875315, 585),
  (253193629192433871941821329431681066359338926692144979540, 586),
  (236442565603803506938429731818850530025510885525000908465, 587),
  (220646670015724955839191120013622626117965991388251656414, 588),
  (205763497810756740368778020170100432506568700310388103808, 589),
  (191751578854897048353450878739937116881138082509813776719, 590),
  (178570467706964883879554913997042352184801115819845769136, 591),
  (166180786605458897890135638439012596476694710843459917712, 592),
  (154544261569227077291373981838161228478102052006854047786, 593),
  (143623751958042032354176174995103006344292794000350836299, 594),
  (133383273846248131160432945255466525058117183939342132099, 595),
  (123788017567184507790550670551356087132587706472206857696, 596),
  (114804359788254447536198573596550672458985567358648225782, 597),
  (106399870476473630460748451457820417706869791482921670257, 598),
  (985433151122567331211585936524465597333385262604915186781, 600),
  (912046525052646905822781777270975928330475071885015237043, 601),
  (843550285605040337798681856905398205349078702737552220409, 602),
  (779667663357141450659982362071115737974278537548032941873, 603),
  (720133527225643108627734131192391707609439709178595922696, 604),
  (664694220744726082108866508008180113662938637440904925506, 605),
  (613107370931107248892387174989150812454156357378266033502, 606),
  (565141672740250014909641385179426078780680142103042471185, 607),
  (520576651994302401108686709250817050989910173848899699708, 608),
  (479202409532582067902547173893743751825174760253753265477, 609),
  (440819349200989436827781491778205267133609582285165625997, 610),
  (405237892158839119687621208571015238690531502730779341771, 611),
  (372278179841414544787906556112811195338186463094543625204, 612),
  (341769767775146807029196136396438503911728201669864128503, 613),
  (313551312300688416174443144088006052256629504187265437437, 614),
  (287470252118203711674447323027655096928494782336478164171, 615),
  (263382486429754464973762470158351628932415260205765828070, 616),
  (241152051316463145290318284043649426562783184283965790869, 617),
  (220650795853848009968337633087165743600316072916788655630, 618),
  (201758059337925284819489170507956923461773380183479281555, 619),
  (184360350867869712061489599469752896150236956102530911669, 620),
  (168351032408647983600183992136155369358011520166377462121, 621),
  (153630006339452559563944640328135140487050453211076835637, 622),
  (140103408381262436965411508292718685791810813789230440085, 623),
  (127683306689676593685744847595856997992829501359538669471, 624),
  (116287407797480776164927724085112723523041930631378987662, 625),
  (105838769995340498316444712505989770237617862639364154580, 626),
  (962655246486340039909819998037146177492896542103635619440, 628),
  (875006058637740906986200794570762158316182714081496051673, 629),
  (794814888384009852717122203274543746168437063861282410173, 630),
  (721499371565062120447189404330956539341059181821864560984, 631),
  (654517592217823549927667839740842084475336651367783932859, 632),
  (593365739601688931934453228568107013231294319563238621918, 633),
  (537575858655371108613872405976029467301546000290709966573, 634),
  (486713694105624072091163712576383120602667564761960742300, 635),
  (440376627978862826702866787679910740652939266416327198435, 636)]

/-- entries 768 to 895 of `pre_ball_vol` of ballvol.const:1-2050 -/
def preBallVol6 : List (Nat × Nat) := [
  (398191709844733967893805903976315820715195915776899989158, 637),
  (359813778744093849993095123385486411810488571729847947788, 638),
  (324923675420409034377408154843924922499387631775805022100, 639),
  (293226543181019076547276754726338912477783483403144183260, 640),
  (264450215460661009179864697568387268195013237481364548053, 641),
  (238343687941790378380260967944930784420186958048489282969, 642),
  (214675672902183613941011770033376289884219199323085124852, 643),
  (193233233307723055474538356147950020242027266227245716987, 644),
  (173820494044831311740772413061716988379567453229348437356, 645),
  (156257427590462109057578027376113587818620597268073701535, 646),
  (140378711345653072926231601898037106818885570783067935500, 647),
  (126032653809251560704131587922827398907506237658323927641, 648),
  (113080186739463039017355835016019532366381230919408977659, 649),
  (101393920440350927933183864038368216542613666622571978238, 650),
  (908572593164345365946306391589250369904592963844314114326, 652),
  (813635748592782755130424235503454289218040604578420818900, 653),
  (728154332637279437579671829156143115326283066689749338846, 654),
  (651238749166144778454612309578558933741451264169483161968, 655),
  (582077430557978548843515273188265506120088657480154506949, 656),
  (519930589609495939824748247225879913782865450215238988597, 657),
  (464124411081565591975429902487940081792331470327758890680, 658),
  (414045657970545533538234578961720491703466330719935895049, 659),
  (369136668406464730873156981918627064968332879048004172506, 660),
  (328890719931989397737427785270372563764426823996704828169, 661),
  (292847738797060890734720207128732646576627697313869161942, 662),
  (260590332805093587494273955963495203494812034149535464655, 663),
  (231740127160007347246199902019819628776767561837212391460, 664),
  (205954383682264480942540352881591531323195461403592304926, 665),
  (182922884680362712968373595040663277617615831571152478237, 666),
  (162365063676490761018691054460309455769110662874683835103, 667),
  (144027366086536449368709295559597994103185137788672331702, 668),
  (127680823841227123994405357990816683033495561373510984243, 669),
  (113118828803337659556216659908035862782538619742970632780, 670),
  (100155090682619639907125971896052907090696182963303510816, 671),
  (886217659728795744416576958479997018630358575136336245452, 673),
  (783677452324128046844220456795553437299099823395966012095, 674),
  (692570867981473598684332170280818742299179159129090300932, 675),
  (611675857641104623382222140819671797964996985109947514307, 676),
  (539894677652829779859018754260317816461924497613789269416, 677),
  (476241977879437541657864439748167493345828792401077694661, 678),
  (419833948768900879065917849055249144718686207650027059549, 679),
  (369878442283588083824498493152489760246149544562992334758, 680),
  (325665987451845091560419402205655702522610751145241521093, 681),
  (286561626880235923781343514588096315005976653748488067704, 682),
  (251997505838123726191301526957524120070604084574163055801, 683),
  (221466150506196457317332051209848065133567879807228464485, 684),
  (194514376674201604560283151005252627629651138010722606336, 685),
  (170737774588730861202371351759428423550564992632243437884, 686),
  (149775719798350392076866830278738341581994928062487114680, 687),
  (131306863730288116315869028027788913459138904695229384763, 688),
  (115045061370322968237480874280024155898400313022748199489, 689),
  (100735696815870383439072821548525249330177617039073958182, 690),
  (881523706421447679431118563001609294954299341050447364298, 692),
  (770939159734438789930102889494693937892782617113263786012, 693),
  (673817128968093837692603266807042481762055615312925119722, 694),
  (588572734042867809769153194740820509526571799372617029846, 695),
  (513800714133283946246444076437585053845063374132026242470, 696),
  (448255946029656416267376586652755455617654332183679792661, 697),
  (390835968263998618741831486891003146572437416734766403180, 698),
  (340565317285299018991261648715028006022931477382737225980, 699),
  (296581499192471409775746995608959013100357469260802071311, 700),
  (258122436393479475117203675664513070847575369859645961344, 701),
  (224515243145473584756836796431446673859383272971369498857, 702),
  (195166197328629074323677814768128223954308442457715365759, 703),
  (169551788097294710677078830161762938451251025549190751246, 704),
  (147210730313727978395761970827097997149114775533717712878, 705),
  (127736846975893143987507632535961274934803545990321195404, 706),
  (110772730271424214451940834597324906917431010114776625472, 707),
  (960041004909544253380727833840132532295913579759203323151, 709),
  (831547898778470765325318816207264577421052291649439099020, 710),
  (719822856364865596501621860498539963750945265626605715543, 711),
  (622737728226572767360827031823311310641172841399317172425, 712),
  (538426237486162547351624288274393848350648138347396767857, 713),
  (465252859003519197801253803273913936700193640205650206079, 714),
  (401785252300836485084049310406908294167947318462960114382, 715),
  (346769860950677058925874709463783861858375548113281596607, 716),
  (299110331030575704363846917105826384922850328562434151911, 717),
  (257848437313373056328642939980053350021660715463443893643, 718),
  (222147238434625957916292683404039200535237234692679866157, 719),
  (191276211665478422027344982929793153843805371277161003001, 720),
  (164598144406009686170944181177754799291272552506420139743, 721),
  (141557583362721630315709994940186139757280841983037254557, 722),
  (121670663825983988648384993773361142931509161974237899873, 723),
  (104516160740834550741354121907190908405414351040849273849, 724),
  (897276205711513389852648801674283098523900783503137658218, 726),
  (769864484794409816207767435806424161663957756390945183764, 727),
  (660158392530261016916691499662131551552727186065835221346, 728),
  (565754528582411453037116242707436836023433252875606483860, 729),
  (484567466396896039052921097845591304203008498469552726684, 730),
  (414788861313806422747254495762137961936762589907093256882, 731),
  (354851653286971467028746256243318733341379155997217527942, 732),
  (303398751919518009536551559052322293959376530416866791931, 733),
  (259255662111753945861415579675992934055619113305759266257, 734),
  (221406571460782801045609983783780108372367993093745107928, 735),
  (188973476448223642182981701979690485148817530735395536067, 736),
  (161197974126929043845287324797892099480554035692089818372, 737),
  (137425390123394261074281964430134488825704620096496183430, 738),
  (117090952899587941916903678185600632344165679985144629673, 739),
  (997077588980061754968122343946717463072967650743576874940, 741),
  (848563039056918056191142209057375197368059970415205834466, 742),
  (721753831474374514538528685255452401204832814106523038505, 743),
  (613541866423254903797057714529277146564769255049175552868, 744),
  (521254375783949577536270275050778018768170174459555900916, 745),
  (442594401888649331445521100357673727021540714682722547491, 746),
  (375589201287703994143770604322842693749114329753014119489, 747),
  (318545549024822279353483192391813354230771591535714521121, 748),
  (270011047032748050022859799395100628420193018629535616347, 749),
  (228740652948596342492531897650516173625713880588915117001, 750),
  (193667744690906258950234341692224193973928755356604647531, 751),
  (163879123119872918291407560089928884989337667856291510098, 752),
  (138593431425570566140496062128751745434277116968590949202, 753),
  (117142536807765642124970058339893402921099160187590520334, 754),
  (989554786369030171977660338126491141284342930834320288745, 756),
  (835446386057090784997082279896286440465914927971074365040, 757),
  (704938332694231849684613093139291458201893225106955668620, 758),
  (594480686048719972433830053566509682484241865196125994289, 759),
  (501047304802270664390038050303912038548905222874772237034, 760),
  (422060148246707108357209391891539527818563910103268461693, 761),
  (355324273559318160155187957202037274754393301657555009615, 762),
  (298972054364120429474257647882069642683602703862834061271, 763),
  (251415344021640528297286552479942385326568641079441900220, 764),
  (211304479104379982946406420939029065574865964208403029445, 765),
  (177493168040030657675397075894320247868108129621371802223, 766),
  (149008439781130892834417493605698826849458491930464759136, 767),
  (125024940084515469603387746069049104202280792486894905402, 768),
  (104842960747878591537898166349501112939260700469396312822, 769),
  (878696718758429222979624386385334015894962754386068851636, 771),
  (736031006181314944940674790331216888156448313154942746129, 772)]

/-- entries 896 to 1023 of `pre_ball_vol` of ballvol.const:1-2050 -/
def preBallVol7 : List (Nat × Nat) := [
  (616184633121637926811678409603967135908369243621410917575, 773),
  (515565128613940407502635244936356513150117034752058246394, 774),
  (431136106162552270925934795171636619678158831268779998350, 775),
  (360332729811041620563677446921872578525370647088204709456, 776),
  (300989783070574088520259552153539541128285051613684483044, 777),
  (251280500959450441971010367299154350199623075909967227547, 778),
  (209664587871419307292412739791181085757414137257625980811, 779),
  (174844069945641749687069469076526376393366979580113377883, 780),
  (145725824994420920518542708221685935885685462144192805462, 781),
  (121389800146954271917390381602952020939567559195698811736, 782),
  (101062070914080493629503456461403711602181276607131674407, 783),
  (840920186025148278561506217165160296648871848365296455331, 785),
  (699330087093052861513696509684047877897345075244525918487, 786),
  (581260435351368128706007932460618338733187716168075601961, 787),
  (482859398691394539317149341915243120504458534047509278038, 788),
  (400896490345173010142094904130623417394998439605548494790, 789),
  (332663934132822391999868040219953002771212527348650815850, 790),
  (275893421449797809858770486923458549497658288345224920765, 791),
  (228685901878764484002755409357395837277208394075218490967, 792),
  (189452403497363384108244699448737650508983478688296606425, 793),
  (156864181074646899196554417817926321681092817195036861826, 794),
  (129810747880533491598455808116606424764989691572196756614, 795),
  (107364566203810408810443017813295917304797434639793536827, 796),
  (887513584109860370633000134248313669278783960159211994604, 798),
  (733251592264664730698470585958001122059699940024313457754, 799),
  (605473649468118218499073260387651815836830665222048925303, 800),
  (499691500106657089084643191567400719613818094821414140946, 801),
  (412167187239705702599292316722531048619808447198867614152, 802),
  (339789425497042704662087260148670504562456282700370808243, 803),
  (279970034050384476825575021772827677767900569396899561202, 804),
  (230557227410152427614022481587352808570045128269118922976, 805),
  (189763064120382338139276817778569540373060565171557338098, 806),
  (156102778418915124570588206469022619058927514489445205980, 807),
  (128344079260125303159842473300686274731430926826938608646, 808),
  (105464804706627758021128619063708940044043791277563436000, 809),
  (866175760548562402600847013207211239597741135430796998186, 811),
  (711003123773871274070368471993416247240843110318270454039, 812),
  (583316485757109432071731795995426676832210061589450516422, 813),
  (478304537543338000624168352430736566309037047922665492216, 814),
  (391987761790877059571527089891130284040153677826847469037, 815),
  (321076500283079938894371586417751893423364322671840233071, 816),
  (262852907735181477959555482974631064359821495601582390922, 817),
  (215072830390116227108412850980346239563066642854616980294, 818),
  (175884294763697948556310122556297927888475240339163966357, 819),
  (143759834880926120008719728046050179469603514645661761461, 820),
  (117440341830277410010430478414577108146631959104143687787, 821),
  (958885013042885789873601891111174176103233458188568921645, 823),
  (782502046933348046182134043522114111880881413637602640002, 824),
  (638225871316288785707810836704593432330361553906253468818, 825),
  (520275699907890332051251580898491176042696293807770717488, 826),
  (423899726989048116685037249634864230921688328758046131196, 827),
  (345194153468197705141295762774706568026809934776091210004, 828),
  (280953643073314887680485405406573242001183203095746014674, 829),
  (228547822254549537891619418508184205375808640431260062755, 830),
  (185819347595455779052341297699755166709316230248401391404, 831),
  (150999823215318335288317990614290828755688061121542079150, 832),
  (122640482626204219841295418690227142379092555445050978721, 833),
  (995550756152364310470975188455377657594683797361186551605, 835),
  (807728384174402200724824007627790687280558611267843426299, 836),
  (654997893571524894425144075367081848085985062651943422213, 837),
  (530868945150262795808484769913521880625940831913253494075, 838),
  (430038990712871863567062231816759564231084290849751606622, 839),
  (348178283528815969664007483084733459361641502842364199825, 840),
  (281753354323405123693525004914938959736024358291560566433, 841),
  (227882153682006741977154500734684706364476635352106011020, 842),
  (184215248296918115677887223995022779563710574601121927297, 843),
  (148838440725906992162130524451344755789810305048136400638, 844),
  (120192994959255996391172150374996557093901736809080929978, 845),
  (970103219826284853322283642358930464343749082326089625664, 847),
  (782585347102494690873046026307176261008174984883571915050, 848),
  (630987401372683385330610995635397931154160558710947498542, 849),
  (508493149382464468471408427357550109350293899634432618618, 850),
  (409567228235565359738540951373951208808368646963028894769, 851),
  (329716892157004681629242366611603207187561886820641023036, 852),
  (265297607294017787497963905609932902018724641969431025815, 853),
  (213354514143131621811359386812468536874257934434664661697, 854),
  (171493212775686466464454323015603302547597119182643328537, 855),
  (137774506524621159985949157348835001840950376530782376320, 856),
  (110628709937701822877535087420281790822179119553713688976, 857),
  (887859235999402814771167918888789058668039317448663185382, 859),
  (712193324623770900733346570565858663911457293821956730487, 860),
  (570991208441672542348347423381625242196483607896894704861, 861),
  (457550371487470236858978404654225631836689427508451436924, 862),
  (366460017508624472325620412537451575005096828948091839207, 863),
  (293354466471901488373819786216085039596734633293131955432, 864),
  (234713169997855585502071260854293964982379334909830075264, 865),
  (187698622559242164483279200740572699685577519222293231579, 866),
  (150025060135510757642154340443543012682088309902037137667, 867),
  (119852157260373703179406562436733213062063195495498997561, 868),
  (956990105129111769906459673017052824437917715270142896123, 870),
  (763745754089408977505387871131331148822631023650617007152, 871),
  (609214404018589958669658477169227298921700335646326488417, 872),
  (485704058756616200508027325070435628562084450536380004387, 873),
  (387038118528996243850431976305327240034307934852977799142, 874),
  (308259455112834493011173374505284310539442022545467976028, 875),
  (245391747695239199289771673824794769188448973218854498262, 876),
  (195247104754450296686816658969246939061815328826654041630, 877),
  (155271079921636162161436564240025178105478798708310244074, 878),
  (123417881273894938297496111526739920398331975701111896098, 879),
  (980499465320132293169968695922653711867172307893143155474, 881),
  (778571705083706125963916945679734826291279015480587494777, 882),
  (617919742647632469442902077646365233625357738413257469154, 883),
  (490171372541853756043293620137869059166214191972760741567, 884),
  (388639063865845409403847547077602049145169944666174476645, 885),
  (307983756595502691239840869285131867784383199133958795298, 886),
  (243945180407383498079406916450004121983071914617250150636, 887),
  (193125650128826004957517678939289000954715520195144805617, 888),
  (152816826848748307573186216421762428525238532266908461450, 889),
  (120860980809655873169235623117417368072165933838135310936, 890),
  (955399443926231157247391784432694737345184102296921827859, 892),
  (754862762260977876505504555431440208678954620379942626866, 893),
  (596122318626101570932821106629022286513851807788020440718, 894),
  (470530021505473555272617664777007800449583063298018921861, 895),
  (371213775388835413696066867854117483271937829532149486204, 896),
  (292715576010899632813436742913454113109193574863232151305, 897),
  (230702763535686830591949513690591189752645098837417026693, 898),
  (181737767428289921322335401852074360049470667271523841435, 899),
  (143094591724891802630704522128361074373075475761771139383, 900),
  (112612630183930182955167409142491583824574044396138970646, 901),
  (885802794347489471969381490542183866969714942411116704581, 903),
  (696423251352872577332433006587508094369019019850611726459, 904),
  (547262841937341858967811808491761221618517319720333212178, 905),
  (429838540322063364272856597111340216019875563050411507433, 906),
  (337443949717963767285404184866530477638436615017933687005, 907),
  (264779921667755761512289067416029699940805192256751142472, 908),
  (207661397342268080965291045827776718677781482358477721543, 909),
  (162784864330626695664528026020892685897172898282916790053, 910),
  (127543992243335370001787205231431258576347114820432403297, 911)]

/-- entries 1024 to 1151 of `pre_ball_vol` of ballvol.const:1-2050 -/
def preBallVol8 : List (Nat × Nat) := [
  (998835417767007816975801877042319993751971499085565811479, 913),
  (781836622519367747988882569182792383714397860646614131783, 914),
  (611683043002363313711644975177457232259407495470432433264, 915),
  (478327592914177608730559331458176372755090997095718701439, 916),
  (373863609770753729735075141540385781223447230453268417932, 917),
  (292072002314571353779577767959504028465301229193497917329, 918),
  (228063528135992458399628447832362570910961781581551240601, 919),
  (177996364071914345681389914627245287242634425925306526328, 920),
  (138853237314690507559345745791189309604789788430826249864, 921),
  (108265647576770633889352739884803467071802643038538731098, 922),
  (843753017940022916874535449470553470180025451951417687888, 924),
  (657249397223814925200970384116514016845099258393497997410, 925),
  (511723606680423362011224951284641683334924894013584270484, 926),
  (398227556006684053251565517347748525015244140375868557873, 927),
  (309754744396086874028102982095603173125082214076772296648, 928),
  (240821706334478644945067347696649874649521829484038127925, 929),
  (187139082578717442158261780572221865560689775389565669182, 930),
  (145353257146081976102964650940196236959615759613110380542, 931),
  (112843525341426559693738480134746523476913970268531175926, 932),
  (875629386050775171839072616046778769908950085380021587750, 934),
  (679134847160535143148613172070537048112841925459241734417, 935),
  (526482458657312202123710218483542146441860041168581314711, 936),
  (407947427655136569430904550630897923009059652211543769454, 937),
  (315949078197078138147921669812207116630816085496993626205, 938),
  (244581038506150896701332452319408981744791703930662075381, 939),
  (189243718393214069569413043435640087911193632134178634546, 940),
  (146356951195863999076831845131373423840074225114325002368, 941),
  (113135428247790095441549976829706605076557886913299257510, 942),
  (874132932849289436700192742342277260417000399537517077453, 944),
  (675072042248798742519400459959468858036875965881089864989, 945),
  (521094800778031829965818763450939797986606472205285021258, 946),
  (402047652809987612050824003889615408163766452915320240728, 947),
  (310050681429564710401076295888433759615831321851120665203, 948),
  (238991476340752483293659419489611750743130425040024896530, 949),
  (184130991119022651544798924419325109199920515590371075558, 950),
  (141796764181810553881557374394781223119825065778896122035, 951),
  (109144258301458306450404528125645179665141545591302511827, 952),
  (839712860803733016140386581700567145512124205765988341979, 954),
  (645737853222915669102888357903875273243774651058845659204, 955),
  (496337865404680392480213260326016963871134908357693108087, 956),
  (381324303727435349049336781894336629530113087585983452155, 957),
  (292824674488973429077494175558676990406916545832293948218, 958),
  (224759030248659268875385309282653167446681671559038860178, 959),
  (172434085504101493415312708852916260674920506335530603091, 960),
  (132228711284111250659801878972303719817939203774580355547, 961),
  (101350356641376896312569252501819895793973061389071992365, 962),
  (776464949465064860847612778035567388099744000612253876174, 964),
  (594587368558833180807417201794865686968483992844005210360, 965),
  (455100108397279444795720335717025575458728878578181555861, 966),
  (348173589744961254189841195921739012653545908207861067925, 967),
  (266245653107786159350928413509869095614780103012912758179, 968),
  (203501319389164064925640012682012066076583894731998491727, 969),
  (155471261682832249309480800052781751196396324166378144670, 970),
  (118722051994211323375294605391720881446993854438960424647, 971),
  (906173234781302615172393166102266341048600121686455008229, 973),
  (691337027551658490394492899876610902153692059009512722962, 974),
  (527190218012710963767613044720599151308473682939115715546, 975),
  (401831512841978685612810423801272796658972193739302302235, 976),
  (306139910527381561987509451240860486583967357529313670266, 977),
  (233128518693487146441221775072944128253544587476072566579, 978),
  (177447766399162088509267902740909974314232333651003891210, 979),
  (135003657450641475065052185281294360674144042939494468542, 980),
  (102664567093098595841505747574693238803540677600529739226, 981),
  (780361542694918514321188320027772456300056029860787739602, 983),
  (592886488536130483826277132344522996970047226551316713640, 984),
  (450243909949376269322839458113846662299293028531040173150, 985),
  (341762905834450769752740707581454741239572201104683398611, 986),
  (259300267611458277430670419518462095436418131945337612530, 987),
  (196644658285533117868847800738217120034217970419584201932, 988),
  (149060533541084122152062573332920641139071648830286875613, 989),
  (112939198142140056512168139768108785211525586467043545662, 990),
  (855319592900173235821077277012465204646411232861443848131, 992),
  (647461597054140924557042288155722881576273126588198727122, 993),
  (489893482137939273053760388289524239275292430162969755829, 994),
  (370502840944773049894679087957708121453125188997912696939, 995),
  (280081121842779365990487871591885898744165512058986002697, 996),
  (211630727862953938676718838298645869081971738071784281057, 997),
  (159836656637686363157060456361099944462043416298124258514, 998),
  (120663800349930464059653434523981323121142043200147138170, 999),
  (910501661409446492757740016925926963761105088918888330971, 1001),
  (686732805676751935732396945530065571115278563049496666380, 1002),
  (517724041731261257909977992022804261123725424572191893654, 1003),
  (390132863886652972806339079978768789274502041132051667317, 1004),
  (293853305526602693310961933248220913410238148764616458734, 1005),
  (221234393341201395189786706747093685530623242129161974131, 1006),
  (166486453719648694329164623794296364175223405669722319471, 1007),
  (125230332403984319753082684047927696512580703307558453126, 1008),
  (941552871157273527533787488046094206679679861703179845814, 1010),
  (707594770300296708931270782423532401818164101454480824397, 1011),
  (531532000538017545134804734701437637911320187998322659026, 1012),
  (399097761596762900465565895665935478733438561414102305921, 1013),
  (299525924311770752811559340309192690074467836802528497185, 1014),
  (224695805716222408236727397379879588715304982963680092490, 1015),
  (168484949575210643394168271764875849272608132262484824917, 1016),
  (126279551436587439633776963760251428774310081489601442445, 1017),
  (946043038116047385624129906389460270242362541631075041873, 1019),
  (708426626949638430962409958209337167116468829303441635148, 1020),
  (530255460932228941168978749802216634585623244764251401570, 1021),
  (396717983392581306638101434671714239848559487471951842219, 1022),
  (296677944895914525023357766359617297612182130985412624877, 1023),
  (221766245938272425590903790231021194933792341166663969500, 1024),
  (165696222607488456431994400185187249908546378171302814670, 1025),
  (123747639263563761300623314272305370867926651692210966487, 1026),
  (923780010064356254200109818188706513862588923391349139732, 1028),
  (689299068101935751795120853079937765399211003441192901503, 1029),
  (514108147591016274425611225762123476259713912626744865125, 1030),
  (383273785570855211073045325196517091802264218428418765631, 1031),
  (285608908863411827732390476192016808720955477596061303598, 1032),
  (212736768385679934495320652689074541205224528016914063910, 1033),
  (158387793448383297759878764983077183874310328764695400246, 1034),
  (117871652329609428604283612881601991112197198339319910524, 1035),
  (876810446371345467138714928499737662246782040944225876745, 1037),
  (651944924340125385234451709076589842903913981852073434619, 1038),
  (484534961637819929986116358156659949835436003093400448251, 1039),
  (359955252170842089908118407998303666954673406303060969241, 1040),
  (267289109023492077814591753560114053690969974659117610096, 1041),
  (198391715059820874448769936264678688509831108885597580224, 1042),
  (147189044924235587253774881250280318516795121546947673736, 1043),
  (109153407104205395231800488295520656802766992014886780630, 1044),
  (809112899777561795327538097740141051851549261104196732750, 1046),
  (599502695581936392532178760526272846967777861113095979322, 1047),
  (444000548797541098322478916481663846729412590787548374247, 1048),
  (328689923952441460137307395250050062601049439311191968296, 1049),
  (243220377034383891980809603427643834040589158413160208942, 1050),
  (179897186480483955971760924976863215640097392752384591494, 1051),
  (133002497771028737556078586287247534198971934915206528029, 1052),
  (982893355562715596817221385348220398422806460394403459708, 1054),
  (726046342148665042644721476000536009185522272726376494685, 1055)]

/-- entries 1152 to 1279 of `pre_ball_vol` of ballvol.const:1-2050 -/
def preBallVol9 : List (Nat × Nat) := [
  (536085164079522197036500232539038313446803907823811698435, 1056),
  (395653400634863409391223980444545367634349119978654361203, 1057),
  (291882359301682122525914461611120165917338114858952399714, 1058),
  (215234946632433960704968698429493129554705559763692373268, 1059),
  (158646276071733738514102877996911969134568149978990881290, 1060),
  (116885138657950862344528575453142437187008007669809946121, 1061),
  (860797885019580163769456217996291853524061559630595982197, 1063),
  (633659176741402542940143704819721150486243104538117495417, 1064),
  (466254536517783547570715993844443761442414156847896034471, 1065),
  (342928340143074351033274212172555556908714046638847035952, 1066),
  (252113911639790493964399267394175778596156278310818845760, 1067),
  (185269330026005875551587266684874158397831599814909077516, 1068),
  (136089211799888673317064319610630566779718297622235927706, 1069),
  (999211615699919237273031997794517013988732471131363868847, 1071),
  (733339396266476259447841042997148742817815413548530622338, 1072),
  (537980440662288600384484443032477765922459894094826377157, 1073),
  (394495489708687682242552058336034327697816255140408574651, 1074),
  (289155757084627125314169452650313320416696692788027324721, 1075),
  (211853697836430958160511696295110138444496548056657187369, 1076),
  (155151084918917060038012765031137395894914923570440435550, 1077),
  (113576454054396479936185812372958356068299911841988476510, 1078),
  (831068215818850805382952236115378953151956324588535582230, 1080),
  (607855116998416811527136933553155930041390596782825702323, 1081),
  (444404732161443146125172194975014165775566834374060334139, 1082),
  (324767545919930358111551758604026409761084140081476854330, 1083),
  (237236812536776466255508510931529625765307167461882390765, 1084),
  (173223656432332604748826983043892780274098387599720295750, 1085),
  (126429419410788109692998878104657711273960945201268628743, 1086),
  (922369773687760074638700870546668739807279895886563962671, 1088),
  (672632913155892855313334236546720559192239309922765640650, 1089),
  (490306278326691577393406729694763856484206119646742021587, 1090),
  (357250823082545119535813839904048794615764257972266409079, 1091),
  (260193007094609243423813019485853751444860857832680177042, 1092),
  (189423892200005178052998934450750787764757107923604936244, 1093),
  (137844930793231256547352896862408530760931363616927156312, 1094),
  (100268358576229352107177422919854132221346791691989779556, 1095),
  (729044818038061929019058625948132651938218904389108409163, 1097),
  (529860956586357061300027809032819093660562935226675003874, 1098),
  (384934763779173602484093981478172096145179279122723591467, 1099),
  (279531030837239246571758122079651623774441077831254535043, 1100),
  (202904064765096346460024100503901893800872743632786901862, 1101),
  (147220894036655954360668419391935567641141130548581556183, 1102),
  (106774190829067721663483145546182040964191138029558366122, 1103),
  (774072099013355224722048865358557414055480538401631718845, 1105),
  (560938149668217105369150029114539803753838649044880379507, 1106),
  (406319000770123277016978345954932337605070976523693418320, 1107),
  (294196856446731681754041619358377402975512724469495293414, 1108),
  (212925569279960772025677936001694597396896197091913877030, 1109),
  (154041113820377208995013097758018820649300551439861226304, 1110),
  (111394738419874991270808947392427575047760682239513025327, 1111),
  (805215360281008666961550063380925959184643151642431557877, 1113),
  (581806969024831197464953675500668848940930036258669839232, 1114),
  (420209079803401232318227535340788581897975248933185227836, 1115),
  (303369377542863747874254063213238276232350887102287673296, 1116),
  (218926328040148004953689079535006483483139943225222458984, 1117),
  (157922619355885526186114807242337396777475546438855597651, 1118),
  (113870421166940087648121046431761211925261884953049312515, 1119),
  (820725460387274200945820418211495099175993471482804004724, 1121),
  (591296658841710198862260923098871217974322167122750413602, 1122),
  (425827428070480840884952843206856259376840348056464359102, 1123),
  (306536838202855944226277384387690327770015043617765189035, 1124),
  (220573177200867059147458713907395897697820847242780965433, 1125),
  (158651380387600545718354620832151437442258854170989351452, 1126),
  (114066020258963559958299032002525023028475607063948035065, 1127),
  (819766465637443549593659730837444072415836699848651755399, 1129),
  (588905458126186433601966855214120032795486455388490847426, 1130),
  (422885436142177723424805524154272121328430439012816242642, 1131),
  (303544062495186038393565467027930234321882795439479719673, 1132),
  (217792422867931339379117608102213951570256390523589008039, 1133),
  (156201768513624494958320062036555347431724485511865957766, 1134),
  (111982827445076069312240287008051593185366209935130024424, 1135),
  (802489498675611104933992805843849099106638105548113190204, 1137),
  (574843836649778520961581119067777175743512194367056733746, 1138),
  (411607365489347911477876847463710376949916163038157728569, 1139),
  (294604432982106907595118006889502808746580338452673967891, 1140),
  (210774682246908620949768811638569416400611517753781858728, 1141),
  (150737316347161831263084731239208201298018154577031559164, 1142),
  (107757232434436312118225295986447734752514464425635411762, 1143),
  (770008529525340254412509320926120505659077726400042971096, 1145),
  (550007034585203752123979598838447970097964247202912770293, 1146),
  (392703431746475380659106898842677824813577782637546567007, 1147),
  (280275435405609641571122445416988158953710550297660277543, 1148),
  (199953681720296246886414243935275332184526187099541800765, 1149),
  (142592914793837065855093697334063522308227336921698414945, 1150),
  (101646119344775796065724157903279484212192450240942542992, 1151),
  (724282705853312647966894836246242938580163162911997333708, 1153),
  (515881586105749610271116283182689863172748040230172808990, 1154),
  (367296404815319475901934402894655933404995235419353229525, 1155),
  (261401580811624730325468923997097717438943920149922193712, 1156),
  (185962238043150753168902656842645474996457179980272366176, 1157),
  (132241108842924140848589694024143822820719252912745129180, 1158),
  (940012229897793682597058600503897999241306708186000627826, 1160),
  (667922340905946501235732644020819024479780552654958852399, 1161),
  (474399279635577258059862464615646046029655997467379211480, 1162),
  (336812186092876239611187959472127733325729698343032557202, 1163),
  (239032765320195592429087604140053954232794150684427701033, 1164),
  (169571584850784987177912763698240135589276590103487644705, 1165),
  (120247170455913462682959685055922572217849648950060522374, 1166),
  (852359752359687025889947741539520693915823504827591820188, 1168),
  (603945047672673641643067162334078488855182018772729474820, 1169),
  (427758328471055621820242358249790427942147849294032413439, 1170),
  (302849054260240856659689764878914912527223866633011722762, 1171),
  (214328934965951839632078297310723097071257297244876851623, 1172),
  (151622050041528183230279481625189544346300779401007139714, 1173),
  (107218822856808735858246723058617521004655267068011843413, 1174),
  (757891358047237780819445833694470162032511221879944361930, 1176),
  (535513300816368413919483733304483663737751289909614370745, 1177),
  (378234459517139608837478395618222992946046282108632679141, 1178),
  (267042008213384767498256934226941703048444037625573066936, 1179),
  (188462902355836930924012268856249037861277130456945586643, 1180),
  (132953599239783647014956765450702302973608200079727483238, 1181),
  (937567172629149389338817817227058132660980250991560434671, 1183),
  (660895649746876304798465180405777884386448390294814544734, 1184),
  (465684449293073390388533885000289977653849988117040498140, 1185),
  (328003936498300109700589243605888351360543890650587563264, 1186),
  (230937781340193835277770049504175051819056898920506073601, 1187),
  (162532296096465721697207074383236686979070462655118095316, 1188),
  (114343961748570368549179722598607815338134411897008210877, 1189),
  (804110657303523999716208197190643054321555020388203624593, 1191),
  (565259087665870965516826471362358944686772614834141528004, 1192),
  (397199392084592895781601258009723305422280386602756051994, 1193),
  (278996668843043068656492013495283715923828858841298402159, 1194),
  (195893044298789468077933828766767526033769506423125167064, 1195),
  (137489236896208386429966735432719281784837136908809674491, 1196),
  (964602114198145646860037693584847386766124168276793658091, 1198),
  (676484223305865329127863265383382801283199903606536489652, 1199),
  (474238953928337582967177436268794906714129002446038221110, 1200),
  (332328047882267976642372862983692744213850337063976027130, 1201)]

/-- entries 1280 to 1407 of `pre_ball_vol` of ballvol.const:1-2050 -/
def preBallVol10 : List (Nat × Nat) := [
  (232791502141777151186873926730166474113443167549286427391, 1202),
  (163003802312064031223935275565134009867794573079744005357, 1203),
  (114092991099335369183578079169307745399076981389733786774, 1204),
  (798272093298181315987582886190069954229870261359970083592, 1206),
  (558307948074388884293672984765626498614348732682736794430, 1207),
  (390326185816546683836443516633736683615700301850622925599, 1208),
  (272780116347012732366422598176052590735802768327493309188, 1209),
  (190558799979019054073286305413028719683623416053998450960, 1210),
  (133068945584028612842908357964415560243562986676030720777, 1211),
  (928872189435179373438055436078574420493231000417372813685, 1213),
  (648137088167014338920737743226357097028534368263280901154, 1214),
  (452074058319663249582493991435558968046541599154003079631, 1215),
  (315198562647766618621797654876583324949097783600774948043, 1216),
  (219680207346570427409709596254503102964622280364917069228, 1217),
  (153048761798498580671358447466207731814741265452203917169, 1218),
  (106586212438466128249342431413145928863777381198313131201, 1219),
  (742001335967866253598613710628218374473325102339625751710, 1221),
  (516346124858359646117255441905440870355662384912681534527, 1222),
  (359178111869100252276754291899170898114820168473494689747, 1223),
  (249753532342506664052578601695791178974922008677446386789, 1224),
  (173598664242802811085734161989021662822448908715916676827, 1225),
  (120618579925491123758476816358125053807684415164669163327, 1226),
  (837751594866651978204671517541739666449805997084643329237, 1228),
  (581633836654422447719670160040498848463969198970621695066, 1229),
  (403661695700338434907877185648594461671925897414430339818, 1230),
  (280039323879353159514828555838570893913773979445502179355, 1231),
  (194202238552493392874506951620100498247150761763815210444, 1232),
  (134624251356637895034707757784802485934909359649623896330, 1233),
  (932881232335177010822879941970297258749228208063856374854, 1235),
  (646194895427103692903993044895292005376297222813292605991, 1236),
  (447440126133738194469564395425471434353365722066154082672, 1237),
  (309699639399086748855581000287428225607985612232511106745, 1238),
  (214279666643756458564271314223939954106561433174716818336, 1239),
  (148202606543119423973533840879183067389727451478311549465, 1240),
  (102462622000258014775240559085036544099086043817371137977, 1241),
  (708125049366878487176452209796057334026994622405352845278, 1243),
  (489203374686259126099038073253483850987615462568260497765, 1244),
  (337834541065132137123752081766029952959967601256792426541, 1245),
  (233213615785384930687405352013053700564973215505204532280, 1246),
  (160930782765594911979001252310651038071430088561985919541, 1247),
  (111009421525526960110926018348093211925484529177640938055, 1248),
  (765448849164039188770719764544820977264233424745852335884, 1250),
  (527604210505065289045861519031018145018324479948861466465, 1251),
  (363526603360923244576286534455711034645396487161912366295, 1252),
  (250380288780325668775242990551602012359357404270121118207, 1253),
  (172385284000472015867373231011020460000200227733872076934, 1254),
  (118641459402105890397975115866660057488166252766942152200, 1255),
  (816223574684058792004491423869593680076582523568516399599, 1257),
  (561330026007270434576813453878352218418674317728415460628, 1258),
  (385890441823060804003586410572346847528799349346627407604, 1259),
  (265183501645685470035455966071411517220937875602169156105, 1260),
  (182165375976235510323748064214745004225549779484128272652, 1261),
  (125089870964459807512719619670869788534411370960918324561, 1262),
  (858648772551183929277691715682624442190573643712682835534, 1264),
  (589177540720303021725273006173518102376031304871710480857, 1265),
  (404123546945422133173843348966535237099481510924474226804, 1266),
  (277089196644761262089326425588266361530499661087558774087, 1267),
  (189916464656153792229541428737381247333872850244081281256, 1268),
  (130119788425751803669799894208880584654764166713287705016, 1269),
  (891172770962686141349282956795407906538485510891120537369, 1271),
  (610124434932835931066029736785747715593337169384282219915, 1272),
  (417554337111951408415158399137276037343638651771934178452, 1273),
  (285657592035860085817538171098454465111468568664246862036, 1274),
  (195351546976241624406469715778592397425827312418572394980, 1275),
  (133544611991370278934315170214016590871149910504975566244, 1276),
  (912587338063884125379859482688578169227797435513006873680, 1278),
  (623391934559566533266318936568897340158042375580734835092, 1279),
  (425683396736535034065835003381041422820868271502512699221, 1280),
  (290570255477665186897555885270770058419881026743310471518, 1281),
  (198268915039680923472105441430146848071386106144063487617, 1282),
  (135237537771902567219307144616047899039942416522383496139, 1283),
  (922102393669697199307105576954594695583438629055959899850, 1285),
  (628492980996717870373104197985436346691268598415892884757, 1286),
  (428214354147861668445600230015111121996521743651157048033, 1287),
  (291649768379917044208426194450526364717563026445584625228, 1288),
  (198564585852785272905989109161772711129397621643670097733, 1289),
  (135139346572789404162881866730024783704728330722685656457, 1290),
  (919394317138113490172679667302878433456653322552607174974, 1292),
  (625261823864506914128495254362156632413784804415326730582, 1293),
  (425071733991655905627037040493062280956720296933917908570, 1294),
  (288870287121013262482042506005138049601774666109807466213, 1295),
  (196238388942962673180283754780873638997204344418160364500, 1296),
  (133261787350917698893668328661125525389403296376900709353, 1297),
  (904623743294949442467764245037230819587108920218643150571, 1299),
  (613862539803355244541103409977256839914664552208675317107, 1300),
  (416404293948470644338652241971773972340306541187934061924, 1301),
  (282358132556397200046979947953608926075279791843573822816, 1302),
  (191393221769094392666877092192739796189192636315720558575, 1303),
  (129686291655045390237436447851110554673311674969690275940, 1304),
  (878421533172635550844048542178778570301023038880356576252, 1306),
  (594775914065392563928304196503416567541866669543169913308, 1307),
  (402573688602514180592776060315535022322910232034802222364, 1308),
  (272382455125363185556005837854368861854790722047867422691, 1309),
  (184227609998864330167415738206653466831382257607522057228, 1310),
  (124558183404453057934238318769816798965290541848364939650, 1311),
  (841844518052127587946447414606700371859822820931531532319, 1313),
  (568766095825464867233608592211845137173774465811039985988, 1314),
  (384129637382339013201911130586820423027032938971539528299, 1315),
  (259336921372457009404264189512151353336072040988286574370, 1316),
  (175022312810220081022712780141704490236941372174644244711, 1317),
  (118076951737435475364055307093877638341984960500962053541, 1318),
  (796305303604463673467893833815083191973122195812127864238, 1320),
  (536830223063102550243557117687348629395971645868485117071, 1321),
  (361773953986749526882137582170419798499685473386446203703, 1322),
  (243714145231215746097649260634572258414700358169400575530, 1323),
  (164122223264246094572914045298395899451154856870932059967, 1324),
  (110483487479697450097166243585976121636431241160061229167, 1325),
  (743482582404872942836220089256362946177727290905920034637, 1327),
  (500135608946970331074047953554161205376772728820768378768, 1328),
  (336316690994257294259164456726555714244489263916206101796, 1329),
  (226075158973591317867989421860620662941350944512743779262, 1330),
  (151915175515052090750078113002453715499345868685572374689, 1331),
  (102045410717037227785295193660357177632440843777221628916, 1332),
  (685219812443491288659552189660522582916812204707597356874, 1334),
  (459949946400570028686976706232280707424244523371744119291, 1335),
  (308628176181598311449772503052311612359196316673688743240, 1336),
  (207016529030236384749758839353653723450201076734486918494, 1337),
  (138809450391256357989803178502490073806199305366536027809, 1338),
  (930417177071600558304953587821956908654527791170005624438, 1340),
  (623420657037895389529352741281690782738385666469612875301, 1341),
  (417570252608842018415410046684929437761411322373929071329, 1342),
  (279590828871716514856085218034275570266321909054148406994, 1343),
  (187137751491237129737999415198755062068198548282676297870, 1344),
  (125211759657087051029985330040849648323470357452447070503, 1345),
  (837479466231029830707038312777679467682854096164354874607, 1347),
  (559949244529189363870459116217928041454098627146543212309, 1348),
  (374255951442916734467628795508308054148550493343408637546, 1349),
  (250054361477762050872318293764494671643816270348217940789, 1350)]

/-- entries 1408 to 1535 of `pre_ball_vol` of ballvol.const:1-2050 -/
def preBallVol11 : List (Nat × Nat) := [
  (167011327786267839703080989044634847178460903892220577726, 1351),
  (111507302344446253165417336202044731506538062378798247867, 1352),
  (744229163744136101243106246089906981819438429556131754119, 1354),
  (496542199669636112345594840084449257064036618921975050318, 1355),
  (331170661955503296903740181661358566523855254323483450140, 1356),
  (220797356925611474834383938103646532433261067681124065379, 1357),
  (147157470818087409854119012704207680136911606691459267128, 1358),
  (980431596395115851671156925551076163300946238590404551363, 1360),
  (652978572377059022015920628104775628042241099802124732950, 1361),
  (434737713561356269728005513859414067246452408249557744397, 1362),
  (289336062895813782251277955956351745261823689418541349868, 1363),
  (192497365350638574440618151278354890394955242925811651813, 1364),
  (128024795720011681171283057551440945876081844730344044493, 1365),
  (851158773850748147539365702181236424856876968870706427071, 1367),
  (565684610001860339680879526945697801525415708213857164759, 1368),
  (375824898238651663884519574385783000562413490784007537154, 1369),
  (249599805481833106398175579218439936797847147202813515334, 1370),
  (165710700258621711117599985875565755820276462409654573341, 1371),
  (109977687971832859695294795055942490692615125536529427084, 1372),
  (729636325933715792721493244639096548248057850891083865219, 1374),
  (483900695505743248893920660476083343412451590153305487716, 1375),
  (320814572616600345832938429909288180700248479359599068273, 1376),
  (212618023785711114451209697429152152642529738409591754559, 1377),
  (140862152969512354721952778002210414098171176516297517485, 1378),
  (932903940706661950201765936593530948541148534372123460629, 1380),
  (617629455600644371198779700185623786447987258986096441909, 1381),
  (408759297995678835044974020810614476668303244072040570147, 1382),
  (270430684370125119918120497309639061717770715302925233979, 1383),
  (178851700232555114769007997640029808640008538141953477027, 1384),
  (118243987657960361661772632932206122647995636673739894363, 1385),
  (781473139822863787845056894767892330444659409874186131663, 1387),
  (516295264708006189814278042055554007196541620924564412457, 1388),
  (340981982645174746002983111136887715824904218087192063431, 1389),
  (225119973725172781731314644645559702752735068335666200893, 1390),
  (148575102868871477912042071378636931043521654738716258289, 1391),
  (980229044534068039623930077594708512057454159227770558702, 1393),
  (646485390137388432805644374371150986006379902212663517170, 1394),
  (426225656075234660774469520652102690329596535591499419142, 1395),
  (280911998936203440245824663933237427870151883799631131661, 1396),
  (185076349674837185287145575370871584440929230993950119308, 1397),
  (121893794497679632757625046709921340483806661928067889554, 1398),
  (802532091775961656186146382523790845366039324883817016433, 1400),
  (528193999051164545688799155931895460741804157631456397416, 1401),
  (347516047387100049960420845432769998099202181795099922407, 1402),
  (228563414199635365987181126238264634159339250300433463831, 1403),
  (150275824015949893866175670557858944110174981790637635271, 1404),
  (987693456573556392461039601835661625390328523625022010362, 1406),
  (648942164591973616900503943682282321287019864093432883644, 1407),
  (426226718017883824038141023921204958639781828778442466677, 1408),
  (279850643361263247557188426681078702409531366878573794248, 1409),
  (183680483688432397879950651012886776794362803697377187381, 1410),
  (120517714227021502475459501247793853313262069241347489369, 1411),
  (790478435840272698060015107849869100716095791883568562888, 1413),
  (518299200058925200843251586604847752838600144327445633582, 1414),
  (339721100801224545328447348734418226264725493954547017716, 1415),
  (222595346447926991352161253531079381239815223945688706983, 1416),
  (145801272479038887052290164082217956950151677143590016871, 1417),
  (954681099145504864656083621248655963465205662640457527324, 1419),
  (624895233975705687219861163183500867886500123345171888379, 1420),
  (408891496604846232848454658105023377893534701705721916988, 1421),
  (267461345547868113243410700514917519057330649485751233105, 1422),
  (174890472681976965183640793445016447987485681115511047368, 1423),
  (114320353509173281296969292205004623650705094501962994626, 1424),
  (747021922719979955942254753229052751176504006170936356447, 1426),
  (487972802636150706718519792068301319088230202382876209006, 1427),
  (318647465646654621167557192154803909252065328908810097944, 1428),
  (208007024682951581000831365987562703903598354093897194933, 1429),
  (135737021987869311536291564921644143611259342030572184289, 1430),
  (885465231218199834603906797126564332235374804830959222001, 1432),
  (577427801079548357513990787114803048376178581316989302970, 1433),
  (376423689499903145675738045233942344146546991527596061450, 1434),
  (245306685307642677660749246025205763489512362212449639361, 1435),
  (159806742914873123450093482363621952799707413045538862962, 1436),
  (104072070282100405838269841137664763391715530248793595584, 1437),
  (677527246336677659230642113911685284964373223596609153953, 1439),
  (440933312801250540465298267903230203751360040761061600574, 1440),
  (286861808584666939006982365208421335848473978713383178859, 1441),
  (186563347638978994429787410941912714407193204232396575337, 1442),
  (121292456318313746852319857739583226604449590514342463264, 1443),
  (788306714689623545802788741161237891727641637173534771505, 1445),
  (512165980786929256818839942061838544034935293096834492978, 1446),
  (332644537762851105035391567195337671286850418004251937950, 1447),
  (215975420491117871690139155781538879572982086949122573182, 1448),
  (140178891494640588477019245635114974602138714604533965445, 1449),
  (909526534009198927799631934820274489293247091551075684571, 1451),
  (589932988222268752865006952948984655311782338488866574137, 1452),
  (382511630185848271211752360485290224851334312205575097121, 1453),
  (247937008951084084627656841366723564958042109570497826921, 1454),
  (160654508997930043653546669965724032099524695606637023422, 1455),
  (104063738927689053853771310085107136233444281321239134302, 1456),
  (673846495639482457256964669002337404205635161595501349912, 1458),
  (436191964937043521606700546083189479403688231693498161513, 1459),
  (282260160046429964177437413184238502732520966230340368523, 1460),
  (182589936389222199415384394712749231444395216093969160430, 1461),
  (118075425459779447166665581883922524444079158587269637964, 1462),
  (763304328382978203541663239945449470434877439738257528348, 1464),
  (493277778183420672585074510347948984916325760158923711866, 1465),
  (318669936279236601498362462421003391933415634460087634092, 1466),
  (205800510507321377112622275665624412583114214520482230140, 1467),
  (132864118212976408418680752263880201415611815540734167808, 1468),
  (857481925616485266069276972109940273602066483378523943373, 1470),
  (553220593377829731619310316726418241142855835689400625135, 1471),
  (356802505708977437006426629804662045687061588417683098397, 1472),
  (230045499929897564962636993487684429925767130145573412962, 1473),
  (148270916761607642536487277860138090084933963172948809614, 1474),
  (955332785949976848019329391262841672795416275019405269675, 1476),
  (615332658968679400829501084152000611982008162888222577454, 1477),
  (396206793673124450018824945352658796857856770994830830166, 1478),
  (255029625452490343591473543431956935378012144405903118184, 1479),
  (164102880989565556186575951808816022281615646645013797356, 1480),
  (105559841603333361354408192510685717809184825873671449774, 1481),
  (678794477089847650556275619608342678255357553746541713281, 1483),
  (436350030125176722594258636577677525070084054231492899604, 1484),
  (280407066735409676892871096092723013879594200932817871743, 1485),
  (180135880293684646438836006757759408987303816193448180629, 1486),
  (115682833994829406152256801077096143500952908455179015963, 1487),
  (742668711520433191276746908641972918432923286643037900404, 1489),
  (476627333015873646757547244658325714669938429316604798038, 1490),
  (305788016797325079628425522716843063360287861812123309006, 1491),
  (196119047531468835534914551610863345350971196004340415815, 1492),
  (125741019257365021586814809323955448420095193161534130401, 1493),
  (805920417205873078067687339967582337019611251904546909494, 1495),
  (516375244906968197270220560313205512353643354099975630835, 1496),
  (330747702426125677768119990560939469224396262977560610476, 1497),
  (211780767088167308747310827695310394134285900419909893798, 1498),
  (135560933089839460281663999389018384294070320378937911654, 1499),
  (867443157830244439192134718260699285310530873696282463690, 1501),
  (554888900988686852255941446254125459052161404600106958498, 1502)]

/-- entries 1536 to 1663 of `pre_ball_vol` of ballvol.const:1-2050 -/
def preBallVol12 : List (Nat × Nat) := [
  (354837636985185867265504875747122544862571734194007327601, 1503),
  (226836030566632761622128408797380013235366520268790875629, 1504),
  (144961679267857194991764360670862009450867503719389195160, 1505),
  (926090197787658567809076635692614131831539770517649203441, 1507),
  (591442268363558442996997191024638894787066355402721290377, 1508),
  (377598723157849026289836541321077009013593223679563540639, 1509),
  (240994900818863578246085684011971577593059438979185565569, 1510),
  (153760385570652577322875079704423060852698804272719147435, 1511),
  (980709598400443865588257135314069941089349668044451617638, 1513),
  (625310676662648783282897923085147352025346890436918467293, 1514),
  (398575688181090671423413241153778502594832280353897533722, 1515),
  (253971742471188104216557445677368037635478496310024176321, 1516),
  (161778094817727471934810632162156680972607780358416365870, 1517),
  (103018174353374232260531658125202321962697644108473097866, 1518),
  (655794676375645969601972706513404737196891801039669086734, 1520),
  (417332224029391278532027930925685576013228386809552525486, 1521),
  (265494811541884705177419097636256463380210044030179052044, 1522),
  (168845827317067021329505171203838630713936709200066992679, 1523),
  (107345759267206130791862068131288275112166894030656783809, 1524),
  (682244129503007823809138204443762216869367112195382882073, 1526),
  (433466129444567155945639796621994617428485939865042049232, 1527),
  (275315754040001656421581644801761245727603644330277400067, 1528),
  (174810527322600069336701655138511919040968459980062474969, 1529),
  (110959583105786227337640581954372127437914951135804165750, 1530),
  (704081369752356673990296413208472049544616188898316139920, 1532),
  (446623717015405695645029948898289718764487781528946241946, 1533),
  (283218547854474082925849896660426656563893100207806498080, 1534),
  (179540599909733239882983942678801242240690875846431476492, 1535),
  (113779707071609344837664985738110591682083950987357653229, 1536),
  (720822274373830340527228472692372598539858146535525283991, 1538),
  (456512761000979009621005362530297777863801680398155639502, 1539),
  (289027436083817699658937918446011560035350841995197360624, 1540),
  (182930757172279173742711339402162107540419868493204540991, 1541),
  (115743335868300217332353025079296020247853253690948353821, 1542),
  (732094169233185517429394163428489954303304382276738854537, 1544),
  (462913321025879026431391136888809145323328918103292324785, 1545),
  (292613443231412017337639584832143899084618755757456462307, 1546),
  (184905923532581706171519601019583110493848698201977050647, 1547),
  (116807146581628716999364230045483775161896077632439026869, 1548),
  (737649639333580644675375239927128111893043742608422986658, 1550),
  (465685880187348867204287254543761277545890361749976406591, 1551),
  (293899136062591951696704608642560275207516806481268822538, 1552),
  (185423997474914049193774970235188616505757780600467894001, 1553),
  (116948874825918422650668429555106670707599498439926014866, 1554),
  (737375529451192846472231121778296587682192783272983391000, 1556),
  (464776376974949558753737457012720346884950239424005874674, 1557),
  (292861383850916772445188819503508660456469893711226749887, 1558),
  (184477328043787980210148236500086410193074527674930318411, 1559),
  (116168077276032909549288072537326807007585640686347728180, 1560),
  (731296679540995156653365589460873107317942123104667946451, 1562),
  (460217879132454461700967228097719168720120187716222746414, 1563),
  (289531981857668510819692358004046797368302938566570781874, 1564),
  (182092834777480395978434286056333276767183891633999327448, 1565),
  (114486034887771515483818520000880423059312482489807360616, 1566),
  (719574228941223175574381279114376046890780372460755148296, 1568),
  (452128832359582353063288419937400085903526694262513463782, 1569),
  (283996119516870189952174480613973624439129349031762695601, 1570),
  (178330774415190847805620918156587481592011702974108505827, 1571),
  (111944808371669797910808602283570063299012496814578131514, 1572),
  (702498621707513760525224285789830216740983882629519812028, 1574),
  (440708004496184237490223329179861037199458084020549015540, 1575),
  (276388792625332558807121353319997910685450453714988358058, 1576),
  (173282231452244051091602812589867935576485892643027067989, 1577),
  (108605503495471868606306159409120811234950821582998153214, 1578),
  (680477731660020149660735456384133675380398022200208072177, 1580),
  (426226423386377305188273665423464835330910699219296640968, 1581),
  (266889368628535076287590995204519286285303802467513450938, 1582),
  (167065477289643890808836002435812702742849723566546962926, 1583),
  (104545845362172571926753654352537059949266990494756682937, 1584),
  (654020780213853818364286211344282765320770300359685442398, 1586),
  (409016761834540359635334772319391133613095884097066607572, 1587),
  (255714608390156559872237909350762626711129818475933793752, 1588),
  (159821399772945039304756561862959446793775934943676692786, 1589),
  (998571951689380674977022139264187838682829588610292973318, 1591),
  (623718925979033024348245310982887328393988278963816019661, 1592),
  (389460745811071415500041688543467434432527658373497739469, 1593),
  (243110520565836995853651764776082027963394549280553028321, 1594),
  (151708247724942814571510164093673539992106673551115113478, 1595),
  (946411679578716047333690105515689382047035645703621778365, 1597),
  (590223549896793572545120306627054178651329279646431033196, 1598),
  (367975245029216791942366533381425358131772570343034944631, 1599),
  (229343471655096531190589973195439219443570162468566943814, 1600),
  (142895961246809833788656957892613937162421047412911567407, 1601),
  (890060241754700730403789554687221087726024565604820531086, 1603),
  (554223335902011808969857053902988809372644836727777901543, 1604),
  (344997744200977563881755362793004142857810034340924827805, 1605),
  (214690993898617583611856889487371538244963773454096173400, 1606),
  (133560367059376686004111153698331543580191433206865712609, 1607),
  (830630109881512468093413896354713941855107225862361787070, 1609),
  (516421252879377246680877122760010404939239994548781919586, 1610),
  (320971888198553787547572518285321923599290064162105061795, 1611),
  (199432724548677125572793584490672630762334300949977556470, 1612),
  (123877509333344107319517353439620596559563957338821220052, 1613),
  (769228216485599596114965429897349996314155362647669288307, 1615),
  (477512482535748334819924654633534355092755207594682153136, 1616),
  (296333747865743564975159760719508846939421041025856424858, 1617),
  (183841875873986692648082699097470415505077892703696307143, 1618),
  (114018361948040423138701698216106873494117740615737291696, 1619),
  (706923239495573124577419389093804036174754281118301230339, 1621),
  (438164218067652379225806782531911816925323241048235846353, 1622),
  (271499371130952383980840024636463924116059610946528884206, 1623),
  (168177579541509207658685032630501160638151147971188873931, 1624),
  (104144130622618901556402616649134826888709641128180297094, 1625),
  (644716837566953550441698286193678439880514486263199986815, 1627),
  (398998092290872391238189849394880828880719271762997795232, 1628),
  (246854074411454637560013625356318608089822881359535539152, 1629),
  (152678377044743851433262983762585319006548100776125515074, 1630),
  (944023063517631226264329678804610389495829332141815795282, 1632),
  (583519790371994903126645374127025955121158617749943590133, 1633),
  (360575795886482798323512239505220842188015859306581809730, 1634),
  (222743801537899799694612090444314403823743432311976773733, 1635),
  (137557045709686356720238074678485157126948027861900204553, 1636),
  (849235789495302062897188392662983511728727087508295776339, 1638),
  (524133661917605875887334012293886117591964843367422201452, 1639),
  (323388232417450795796165437220032335784831029821179169105, 1640),
  (199468741584429679089878548536297695219375284185612983667, 1641),
  (122996863828093467547268150321994089564772996504464677457, 1642),
  (758196652368354717598377615272574132764379339104379327500, 1644),
  (467238263382010412674379151243077251477898333461473997430, 1645),
  (287848342363359213232244094613630325675899367963029793594, 1646),
  (177279262767750822864862930687350047160530735904490850953, 1647),
  (109149334667076519821227249758910894257799762907723568432, 1648),
  (671820542273800411275053646087125864605737976456773652392, 1650),
  (413384867913563996658847897984576613801947564450023089806, 1651),
  (254287527727479819246202512348679967042000832531449906461, 1652),
  (156374095622208271032744863497960763660950164357468428033, 1653),
  (961333127566981288602511861938927702436564182365744907314, 1655),
  (590816247767260796369204169726273659472209097630356715861, 1656)]

/-- entries 1664 to 1791 of `pre_ball_vol` of ballvol.const:1-2050 -/
def preBallVol13 : List (Nat × Nat) := [
  (362994842694342302910009046814811025834768201989952472364, 1657),
  (222955433466319951941792328926561501161357122674839061118, 1658),
  (136900591968730901237349207069356049476130344039700770398, 1659),
  (840354111404581513022904773445237480060399556757130030377, 1661),
  (515690520384962648136709381483548473043321148705234026029, 1662),
  (316363127957173393010555612322104447029672071034274472838, 1663),
  (194022700642789960374615960035276788708475171787984736070, 1664),
  (118956801754272132124126390397746827939584949742788368345, 1665),
  (729115180584976786940710189575370988707171665214112582296, 1667),
  (446758893587278851150760992807327037915975117886698032900, 1668),
  (273665817795287756224369173888064473138973688901936757862, 1669),
  (167586203942650677934130149926094079015657339887859894241, 1670),
  (102595050444429465621640057632996665531816661124977929771, 1671),
  (627892173105822555859665420367642335648231828859479083732, 1673),
  (384161927021327605513133251140950871577801138811553229430, 1674),
  (234970987287168897104447497896300976779992361772386192038, 1675),
  (143676224728464415097392880232513466722112401718232600415, 1676),
  (878266659688412263950397602882134322679602342177620626732, 1678),
  (536708884782948861253982526571038791398536524055881564938, 1679),
  (327885452878189301855384772993152148169992643588886004745, 1680),
  (200251863367040726063899883946021877379455645159301465444, 1681),
  (122264988721790129109779678871133995999059325575943056159, 1682),
  (746274949966265933994732165850090096791029060304316382750, 1684),
  (455372602678855713417935315984858515718568410800322722110, 1685),
  (277783400518022698531538466424929255332568796355861204706, 1686),
  (169401447391587555922082180465952364141251193102472006770, 1687),
  (103276010693090091736876363534485452920494369754692662561, 1688),
  (629438607490111541038892437534637225900493626620727185099, 1690),
  (383512005301977261075469249738968419748341631536536751010, 1691),
  (233601855307350717330573185436803336702737301162754301122, 1692),
  (142247756602146587646294297730891515314351723347767483271, 1693),
  (865937312682618130044380777702479134833579837028746522715, 1695),
  (526986447088364066991797907410446236819230467991322368963, 1696),
  (320615474365704279328785526982718011299313884531767292822, 1697),
  (195003150849728013887491263274296707194200775777140028662, 1698),
  (118568948663272894412873188208326451042386508801688467022, 1699),
  (720729960160432676855652912345309570578195250056203792636, 1701),
  (437972178794125173703409510089165739480402423940786137533, 1702),
  (266068149008469994849696341492985268469061158705814214247, 1703),
  (161588981723586503224487031133518288514986656120675082426, 1704),
  (981077162299581884796033500051385878095847796768027280615, 1706),
  (595480067898973283484626679903813233328098686741646527530, 1707),
  (361329988943152134933355454959887114161302452360291643679, 1708),
  (219186386253141854871081387119365130852609739255006780454, 1709),
  (132921737562703508911047654109299258546845131183437494075, 1710),
  (805844752275910237571616034525393753344136112558424493158, 1712),
  (488404624829683991194685185514231338629703309441032355504, 1713),
  (295924716970647155743472730147006900002831153099640648959, 1714),
  (179248642680398872477496654110220720343327651579993500733, 1715),
  (108543481243505419533251585631342800887135840217614369025, 1716),
  (657090103863107307282722339571437497982232019946410996396, 1718),
  (397666942588522613746894602766789995673085365903778130434, 1719),
  (240595506182155260446292616796159081021085243354844733093, 1720),
  (145522136914573875290672535742932456541670760467165841713, 1721),
  (879922089299856401250415219876911381766801153769639326709, 1723),
  (531903753653884057751909001490392024258412031384413942816, 1724),
  (321436833892536149158872332582470747835250329249297008972, 1725),
  (194192321312710900425936708619913911563051944201635367877, 1726),
  (117284970493606762945073532356936052509394892083890553546, 1727),
  (708152257712781425841833197333076019023627297790847139557, 1729),
  (427449653920197995951015728967958597630815725987597633610, 1730),
  (257939238313449289857463339166592710984182326115909899460, 1731),
  (155605178741042130712672593941776533360193748214129177271, 1732),
  (938436613964191336185004100811025848360684488249807193883, 1734),
  (565796396288639617710226369488369667059664399645019459281, 1735),
  (341027827910883085770609583132521057621141652901045702821, 1736),
  (205491537804389546733034190418757072022260460847855935370, 1737),
  (123786310668343679725979975550982260666771785196475888620, 1738),
  (745462708477066363423579661297378079946372645106605882073, 1740),
  (448801112764745935317425302884935166068621547133575551835, 1741),
  (270119973296043987463756424414657551958576807606083276113, 1742),
  (162530291502553338274120352401948426214818601567227917306, 1743),
  (977657746192077095397094263843743159487790698850725049223, 1745),
  (587914760817765302517177411327898638719269695761925827338, 1746),
  (353441011871367555574661181158521317210494048573686333456, 1747),
  (212419631227382621850372301488859299683026796727779705566, 1748),
  (127628469697980599155523243138429585774698208647267810677, 1749),
  (766612237727970453118489759154718674821329437957643531425, 1751),
  (460340600220532018032988693083121039989019178762114417348, 1752),
  (276349211038235697355456328382699227479389689706061035716, 1753),
  (165848927500222401491239153161387588762316252668915775619, 1754),
  (995044872461956063059106748906884352033399916988199776589, 1756),
  (596826772325824660294164366856117777287653330077167722405, 1757),
  (357873573133219682594193416332532022880822764434066457415, 1758),
  (214529359657267605240002570742028221395462801791605773824, 1759),
  (128564092426443974697695746121725756717314148782245293724, 1760),
  (770244411746965111376541026098170379628148253143551221827, 1762),
  (461331819854203959164593772011810028531615099802828722785, 1763),
  (276232212946673223168934277906123345220837605047122550430, 1764),
  (165352727452501663127515752061814490733280329398886107244, 1765),
  (989520058013819806317986582096776160344540488892293340460, 1767),
  (591989645374147637566411716442903286286536460181552614082, 1768),
  (354062522190884090607537946224040438536735751578147351127, 1769),
  (211700662596317489402107705976416328008133493191241089806, 1770),
  (126543824644636473743849895712983436834047789404546102336, 1771),
  (756199256819423023238699740246465432283516951867050179102, 1773),
  (451760397569028379447858232563335147080248938562039385168, 1774),
  (269809202711409508927690975355751248027042822735161081633, 1775),
  (161095022268520300239874705470830035637893200394368531634, 1776),
  (961577548620627834323037904286825489013316572693734161759, 1778),
  (573803785134543677209644843340931422320499555977189387754, 1779),
  (342309910776594518412519787323034353271083466291041280635, 1780),
  (204151501243567228256630700578294402878466616294904633732, 1781),
  (121720237798158113666059035421678141434784827313539713658, 1782),
  (725521330911898577893731777072499373413612417616908253517, 1784),
  (432329457162121198488466577805102672320901901431381582250, 1785),
  (257547173244690388466028447882674090636438594225918461186, 1786),
  (153382613952680200755433700895131732442393048433114117720, 1787),
  (913214793925888348791733993298030390812590047569290070429, 1789),
  (543559721581657571301581782738978585035008579957477011388, 1790),
  (323444068517146310460423691506038410422612006970460117701, 1791),
  (192410504575577331160830601118151640910846712878010575107, 1792),
  (114428998817641956993331639147429645021297744481962123272, 1793),
  (680332501573594869348423629184541053093343666956565190292, 1795),
  (404374917933789773522483338623223935619097845115204365149, 1796),
  (240284158397073871801909445098815056352679699047427464309, 1797),
  (142739468705254998353483495192921729448885162300262480651, 1798),
  (847697862767269516320520548745962419877808220661876506280, 1800),
  (503287616455375195087475117035631108370221676513022897002, 1801),
  (298723654305487675722129028015106098740007733806338142183, 1802),
  (177256129876561014398275114849166935085712967056725283017, 1803),
  (105150480427968301524808488902750074758668652095388299089, 1804),
  (623590767552029503490593676710549280724269195416697057184, 1806),
  (369714579556734811600158108903468615271864385585652312665, 1807),
  (219135142526608087435705134919407309971751244160719818580, 1808),
  (129848251208549719393629639099427034690298731055970790491, 1809),
  (769199278106082960748753039683599371967207399784999657812, 1811),
  (455533570159979664792004328012297008972148360922418985729, 1812)]

/-- entries 1792 to 1919 of `pre_ball_vol` of ballvol.const:1-2050 -/
def preBallVol14 : List (Nat × Nat) := [
  (269699866210339566668982596176026413158193707324366594431, 1813),
  (159632004180493337324380116746867707329402112751352176685, 1814),
  (944578727269289735549183085630175441529433314904892904967, 1816),
  (558772960012538196280355036103582664373583215672130572163, 1817),
  (330454520080890593793842192785641033009271559151946089956, 1818),
  (195374182103507323201712559348106649458665364712134764021, 1819),
  (115478697734334449023656185976020023800398641381010956977, 1820),
  (682363641131176279796569673582569459132723190948206141096, 1822),
  (403096698275890451119670145490442017008410561253582269036, 1823),
  (238057590455800718663930381510213121307084863698125497111, 1824),
  (140551123861247382392913187528803509254021135438785434248, 1825),
  (829595094073467793901568534069148152494682563314910497246, 1827),
  (489528135450425576998610679661579538542227031023310104754, 1828),
  (288781147146298043290814157666012786820487459894359477064, 1829),
  (170309855377249858554596583030285200709279656537454489196, 1830),
  (100413141158831545869736576615449047347966688550629717779, 1831),
  (591863042574234845271529267628738598578744808861286761047, 1833),
  (348764164276904458017988644805934687061102910663796968338, 1834),
  (205457744362709305813020937290241393792390697382816647503, 1835),
  (121002201692734052876957803445447932168036786284672583134, 1836),
  (712433267453661490873983446167029775847461793166639286051, 1838),
  (419348734590274400881005752222610856686407549353160955928, 1839),
  (246766826814266293459619680947747387236378069368072979641, 1840),
  (145170567920769374245835135865810905968964728282850952200, 1841),
  (853789482675510780892312250321535124454020053813784027788, 1843),
  (501999768516617690282415826162294838276414245810000914877, 1844),
  (295077972110628681653037999057411642235467583791421561510, 1845),
  (173400636050091579261350228722835964512404649415244558647, 1846),
  (101869757079002743105755750404936028818624767016289722186, 1847),
  (598302212347902436103339643129762265429686081396676263754, 1849),
  (351298880858805545814397899254407883416913191812051061837, 1850),
  (206211940201721423217014513621703236358900827460302376702, 1851),
  (121012936767581089659669362760672572576701590030510464796, 1852),
  (709954976898877555235632505916709708576826817798833071538, 1854),
  (416400167730951732451892967407237379754954044712974943071, 1855),
  (244158657887796945425585651751776663797674223129673581470, 1856),
  (143124694518283987613885617051494205132813821609926056538, 1857),
  (838761121848711326013338688285245116027067993361667952757, 1859),
  (491409277427239701354362089040956758100403154252325073289, 1860),
  (287825863300561978992146792505697766874450235879095571300, 1861),
  (168537966798175202728076130128888405175489870541651924939, 1862),
  (986613876331899172942949542864809053001285609257190844714, 1864),
  (577402004737303930140801251599173950805973083433304015505, 1865),
  (337824403903437953622705114948232346759948279582987992585, 1866),
  (197599335103565688477908878963951219283333118159295444395, 1867),
  (115547813337658328334498188163569312076242550715878727471, 1868),
  (675491424935353332746335565436120175300373884241479728432, 1870),
  (394784297465962078896808872730434436091855628376544269441, 1871),
  (230665097623892098389273885440179651413460134639062528667, 1872),
  (134736713598226408901191788382203109195785632041127050283, 1873),
  (786814089180012908243640695488024707207941416973769266080, 1875),
  (459346575810114034386836200889257557682179241134414533135, 1876),
  (268096460120268218731984778002388729224911926800352316274, 1877),
  (156431417671184962389772059842712725485818594625701643752, 1878),
  (912513401481325689916039295980356678218792518047122034277, 1880),
  (532153538220282880425966198304191164341415291121259752071, 1881),
  (310253830995234452201365649529064241689751534468583896451, 1882),
  (180833926041606917403373459133323457454238620541323352137, 1883),
  (105372016886780307543395780898069531952025998137719895081, 1884),
  (613837421471758282973970159397712947497917532591548987076, 1886),
  (357490231258583855384888949586083324717310561025365121160, 1887),
  (208141082978324601131387642496156767578180731583517464708, 1888),
  (121153040372393020978893321324848682543478540074528946198, 1889),
  (705007544145475071213402426421356447453100578095742877353, 1891),
  (410143859476268903843313776389157737392978041185623270960, 1892),
  (238540282327712044105636146336884844022262556295045515035, 1893),
  (138698055526976414562173733779734718948288543817231190858, 1894),
  (806236039317886327788846713407630723322155434140174487567, 1896),
  (468529884205094970570466846569393585858114489088459309536, 1897),
  (272204752088168015418074350104139258392588334489265480583, 1898),
  (158102045349731778993907640553056321116636421424854354848, 1899),
  (918042350437380104912522495380785885082042445985135367870, 1901),
  (532931571017422413886551490182803723990378121716874605146, 1902),
  (309288482983204272929959166380574398862663934217562921286, 1903),
  (179448436052990506710918019510866467626736474435514418312, 1904),
  (104087672841988893651079669910524700309090590230930541236, 1905),
  (603590886940313456957727073979349965495914608103629476821, 1907),
  (349920886388068639755320493928716166457394710276281517345, 1908),
  (202806063763148259872780088102409340746803009288263284631, 1909),
  (117510303154931600032448561384614691547381944722908060566, 1910),
  (680698760707018964201697863483585292890124208129669391552, 1912),
  (394201286826099965435076401836392270705704228909932033328, 1913),
  (228226064668606978651293989318827534959937365795883047373, 1914),
  (132098119117708649985887661979614727767327985652161980117, 1915),
  (764385211215996539080933295720771389210039833012946666038, 1917),
  (442193373013556648331881343769596071727111277136423833009, 1918),
  (255738760816704702066679626266940892663392775085641731475, 1919),
  (147864976277326311580109458959572646712696301220678107538, 1920),
  (854709587467996557048661985368816405730425571324851917941, 1922),
  (493919748214861663112670836136218802181986620091826391656, 1923),
  (285350622841893814217979968409911935993664003563619377985, 1924),
  (164810903075382877757453477791278066096206407162159737871, 1925),
  (951651189402723413266035776613621469544234097871245483817, 1927),
  (549356734570952053245194547671989248351684668022460671876, 1928),
  (317041398240464980932377453249239531926877558578587379547, 1929),
  (182920517385074824085239280239268307359610565644147759660, 1930),
  (105510055889415337330075269682416313561271083133230716879, 1931),
  (608429596196712677110916579089968451143142099656356533007, 1933),
  (350761498901625102407485581088601748728589826421041702867, 1934),
  (202161602288545420526810615825030481208664377866730632907, 1935),
  (116485174218973546707075022509346404264386356896466346266, 1936),
  (671008351386831299831359494699290584893464522786557221178, 1938),
  (386429744011039573043075879711141023337018916075865796940, 1939),
  (222483895220503193783700023676071267532600940425270197138, 1940),
  (128059582796800245118454149569867637462784406881941119077, 1941),
  (736904344508986974825293906376085897211755732433768954791, 1943),
  (423931553778926784011206008704045665102763270503722583119, 1944),
  (243818143771230707990414551017990309059966483257312760019, 1945),
  (140191605787029761564662753583178836470484945189585209974, 1946),
  (805867742539293421989962429618476090475577439655674111220, 1948),
  (463117685421124124927756920466826743874079343725700823771, 1949),
  (266075478689063071358878002848890015896746478445007673212, 1950),
  (152828478809507609385288216511486121070921461748151736957, 1951),
  (877586109343777569224342702136257289905584616078359265048, 1953),
  (503803595264693069925282549740647249142083392907469521154, 1954),
  (289147149869623557021614260748393135911705641904117461763, 1955),
  (165906255108562399662218984258213019572131606530596230156, 1956),
  (951684192600142806211292294379614229305961232055883743868, 1958),
  (545769499721103392306351134047342969469107803318047528921, 1959),
  (312904664365268708392626153560902769341053587325390730573, 1960),
  (179349942560376059311470268042283570037488278236327102325, 1961),
  (102772503381485430003463887321634281418193684250551514672, 1962),
  (588761193280489885361317140486612063699121719783880818952, 1964),
  (337200356777343927644602791273677278108748079858733815764, 1965),
  (193073887215944401143836808045111952035170625895735569892, 1966),
  (110521248162708495605312066582822210474721897885482683079, 1967),
  (632491663897429852235271660446922933745360425373754494550, 1969),
  (361868411978675813702082850230615785991860973898347884433, 1970)]

/-- entries 1920 to 2047 of `pre_ball_vol` of ballvol.const:1-2050 -/
def preBallVol15 : List (Nat × Nat) := [
  (206982412995515653762072501211297432465580396635660315827, 1971),
  (118359515318939372367881044728499082527739038251008990903, 1972),
  (676643525586889206525344724868226788561997175570472660428, 1974),
  (386726348214694254629425278275646018786922259025713940097, 1975),
  (220970720278884451204334150868383655546606366405492391303, 1976),
  (126227184883209529589349623023637252612613598195722478355, 1977),
  (720872265302791837651276568291066106269461574501612438012, 1979),
  (411576955591501464838378676600470307761374173602037125624, 1980),
  (234926038677581249525358368787824250979774325236796675954, 1981),
  (134059838265745316401233332533271227729323610340094420590, 1982),
  (764810276939316972508058496472318962789880562772945268876, 1984),
  (436210671193269118315698777220109848913118128958014741804, 1985),
  (248729021472311952144417231534750273420259925932056633767, 1986),
  (141789574758225257068538904388626876946796187900817694149, 1987),
  (808071630395029128081476731304321382660996896632898686818, 1989),
  (460408358052776487237677405221419056147781148200921624420, 1990),
  (262255361324726258295685508887370072895526395142171812711, 1991),
  (149345948922038382557382643343891238826615599499162313148, 1992),
  (850257498970378533702587072558745707729927215746925200591, 1994),
  (483944441440817208140569577654532400598891425871879626193, 1995),
  (275377599219069318551943057907618427803734558311783461503, 1996),
  (156657012053177458502190606559260936308475427324453685284, 1997),
  (890962144871083990426347784257702156232725898518685506012, 1999),
  (506590342974359233558846408112758905354346161343079167381, 2000),
  (287967091456131949098814402984306964844075599573798865482, 2001),
  (163650437004399043135005806933545970102390570211654635858, 2002),
  (929779341206787509278505206685245506052771527836179404269, 2004),
  (528118141396794333651582592624905550356821289677494632086, 2005),
  (299896093202751679834449238289449063486283057233794451225, 2006),
  (170254702230853231940187795934798393282877446011144119795, 2007),
  (966309090508763697193497056679697180041825500142578421426, 2009),
  (548304379054399072861944518479877548323020175698367261018, 2010),
  (311039911868787564658121146302600326078599948787044339107, 2011),
  (176400308158567683565677356156696815375976093665772420028, 2012),
  (100016448526120752309103710958441066178867982173256606660, 2013),
  (566933925526273046248399705351130346749349353557811034819, 2015),
  (321279079680779815052010263369305778067495666388632590439, 2016),
  (182020996985606781450831005698400406945557394955136388626, 2017),
  (103097854594200988879807868249909427256984175519792752148, 2018),
  (583803804930140035358088250277354901760188655034394055450, 2020),
  (330501492442867898581432261691888454499887922194674224378, 2021),
  (187054945915991499243109729110512151164634610977318546177, 2022),
  (105841086713453247500264284617910511502992887031709632069, 2023),
  (598726891398181346464448111261550864374297188344192836422, 2025),
  (338604460760636452037631303020179332452807458844561190597, 2026),
  (191445903666481474590001269249705401678985272450098056082, 2027),
  (108215390274501413102270825066017384580167576731190120491, 2028),
  (611535378259763561206319813206165387592953046391429481720, 2030),
  (345496621028176827359460358935284081837508602847376645626, 2031),
  (195144240909205541958475743484846691052124766859752858375, 2032),
  (110193872737280933787963358333486949927633576130134223394, 2033),
  (622083930624776179093663337647576334528370379342649849008, 2035),
  (351099656249543997815118111286006153124627083437048375469, 2036),
  (198107887112727768884827375615819739375579626179935935884, 2037),
  (111754012234191404399064086532295465298465297142615914537, 2038),
  (630252438249662413997836122915660591306658897603655156440, 2040),
  (355349781218744526561385861693717005175137760287885519447, 2041),
  (200303128974425315746089214927719204481680650862210972356, 2042),
  (112878085149802637894965452198295588714428556916850554427, 2043),
  (635948295580700786212375881286223015235405174782691364213, 2045),
  (358198952583740508083643396355371518300807850403598523679, 2046),
  (201705249213455826683640953497307429130650604913463619541, 2047),
  (113553501307834295430106191643484893276543004740107834929, 2048),
  (639108148380727429145624244990535114394962733132435569279, 2050),
  (359615771671462904374770853401656233321339313818085221907, 2051),
  (202298988796198368036353051732041183628529235632713186855, 2052),
  (113773037905145250828013726833838726666029568607252328659, 2053),
  (639699060926804915041192380896508642817472723657914174957, 2055),
  (359586056397784103998932382628708869946145580819391117738, 2056),
  (202078820544589228018424461121006207859145530190933742402, 2057),
  (113534966141970212192170221662773935944757909493843497602, 2058),
  (637719073901528578241415036757432856990279252817315521410, 2060),
  (358113067828493502939148767576269178507360815628891001534, 2061),
  (201049027358066093798148066537189266198126426299220479516, 2062),
  (112843067506970764182770624608709254790535223115537504805, 2063),
  (633197140209998794486164631519397944369813692674310093670, 2065),
  (355217386661759977219822361287269537490751579037799313815, 2066),
  (199223583771437003686162380844821631737757342578122978098, 2067),
  (111706539776171186518590360109447734368769005170984094941, 2068),
  (626192443419887188277610013576032314333195881665677542641, 2070),
  (350936444718755425889140214072060834434167822000212915115, 2071),
  (196625845075598186295574032186556313909987961378313141563, 2072),
  (110139795864671592357887120387774606211064457211701080422, 2073),
  (616793120714312616653910854940619871318211932383996386390, 2075),
  (345323726104123516662662914240996985774613465050175434366, 2076),
  (193288053548210178608748763378529213883176780767965155181, 2077),
  (108162161619039716020825798784745783372270410728136219555, 2078),
  (605114428553789402566420115535713785388081482974467325418, 2080),
  (338447661691999072058412340051587582050798895655514073434, 2081),
  (189250676289275321141775617211101261525051458320658113250, 2082),
  (105797481352858505084672542987179560224644144436019044808, 2083),
  (591296404094766206706230671209386477017480841736209379039, 2085),
  (330390248694277752754337919428046759029057361248126763313, 2086),
  (184561593561667089101176512152242327273494143772986740892, 2087),
  (103073642315357275663183190852162766638368818440072232493, 2088),
  (575501088305864624828500535445650914624208920638426570143, 2090),
  (321245434004631412296494780081564475723661160222072621310, 2091),
  (179275160253310379056471023223077906046817208743543186516, 2092),
  (100022031265432586492231001076605679847972114759690528700, 2093),
  (557909387244113702936269176845273832981303250069469008849, 2095),
  (311117305564962004285575453629896462329273086595289453266, 2096),
  (173451165990587898160576207519092863942293707262896001557, 2097),
  (966769378405079653885904136200555156134746935302769120720, 2099),
  (538717655791018025622035369289160866524848249371294286775, 2100),
  (300118140011162958603141106258854755055086511824750724476, 2101),
  (167153721460955769235628661987211464134562315714702473810, 2102),
  (930749204213329258096683189855511292568551348806273785914, 2104),
  (518134093105015496487571965734545985147237233860596149668, 2105),
  (288366357227923217875344017715346991380426091334298762631, 2106),
  (160450099603068174070657000187339716968357021974767903176, 2107),
  (892541506807579857555104789871947497705808705134123594510, 2109),
  (496375041044558912629294342411957847573815703853017445653, 2110),
  (275984433150655247142546627959120796043557713432887588619, 2111),
  (153409560489022958041471515043937090196446960748873992846, 2112),
  (852537529686570225321657425787105248499313131381932016854, 2114),
  (473661275894598067443111364071245688639765052895318696803, 2115),
  (263096821235060833318650074268119547411445292102877630788, 2116),
  (146102187986297251734069686101248065811583982511998284020, 2117),
  (811131541486647915787421366746697485633623533092989908437, 2119),
  (450214380040359385307269251526192951331997199860371263290, 2120),
  (249827930571511538089032521984603837925753996662120401768, 2121),
  (138597764710953090207483396826508234203148973443134553707, 2122),
  (768714585058767447008253134756223377399165745776309138611, 2124),
  (426253274028288713965768557033843698923198907358221311048, 2125),
  (236300204807040122243832922483585979127017215734118142303, 2126),
  (130964709462676658860843614016144141136262069043433317279, 2127),
  (725668609446295986080134378249879533874306721901281408444, 2129),
  (401990981072268362784684817027527561717889487740566813738, 2130)]

/-- `pre_ball_vol` of ballvol.const:1-2050 -/
def preBallVol : List (Nat × Nat) := preBallVol0 ++ (preBallVol1 ++ (preBallVol2 ++ (preBallVol3 ++ (preBallVol4 ++ (preBallVol5 ++ (preBallVol6 ++ (preBallVol7 ++ (preBallVol8 ++ (preBallVol9 ++ (preBallVol10 ++ (preBallVol11 ++ (preBallVol12 ++ (preBallVol13 ++ (preBallVol14 ++ (preBallVol15)))))))))))))))

end PrunerTables
end Fplll

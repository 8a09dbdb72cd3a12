import Verif.Lemmas.Proofs.SoundFound
import Verif.Props.Extract
/-!
# Challenges for the examples beside C66 and C68
-/
namespace Halo
namespace Proofs
open Circuit Util

/-- numbers below `2^127` and the square roots of the scalars that they stand for as challenges -/
def poolList : List (ℕ × ℕ) :=
  [(12, 12345633927388332288408435851563522923562800519858532648854158327652633596991),
    (20, 9798722874272246737002148877067590251726564113398824747585663789254071087426),
    (28, 36193082578340896548169939771026088250863452014516359045969674940669577108408),
    (36, 34264216086743815668101779229308613087375192878756392092041530058668617500428),
    (40, 24044753627884535583567647033804630073176727576797695271262239348369783443434),
    (48, 19398078509685853425556968394304363233252672699449371060902351239320688755560),
    (60, 27891415495984421952478488493756634776031584164132330138273690232037739083651),
    (72, 36442880621933750518431268374562979223912817821558566556031494720926889375670),
    (76, 4628539915304622043582160480996304712793630911776838573545282541051714198367),
    (80, 34692624628524499422965770374423905398092939605272366193735936718270275340710),
    (84, 29741057160294201926117830146384988750948091258722339783000989529711562795017),
    (96, 2934196263567620454797411248112299631122629561435312317519697343865309339534),
    (100, 14703379837254653312865244157380872308578311779345658308486730270696093779396),
    (124, 25632936047672383500069635085351684067418385697323666782335959979600002064037),
    (136, 32965896659284171407847068596300132614252810056839840182846368694495891000233),
    (140, 719994917893754234541822746432524032740305453732244382865249157095983614424),
    (144, 29242059027344117209141240261892500078845473422985766708161480997658586128889),
    (152, 22107822584245477773892727422148275886890447440993717418399248915016335677305),
    (160, 40528778498560808149844893326709728204617635729336485190301963571661839930600),
    (176, 32044779864319692995861480667466378675445647353564680996226378037440817811879),
    (180, 40947458512216373772701320825012460244735857536691934932848783520363189509244),
    (184, 34497675277703260968907144127733600182174235112212840906110670852802375650922),
    (192, 11964938752409428230507885908109291067202211698289708204392460240858989070421),
    (200, 18996037055267436849512837116529952349633787544286569378781801905199357691027),
    (204, 26086481698197270738651377250433435969458730954642772810454830904075503654597),
    (212, 30961148107445553929951733896336648486893083056187126904787845193156371193716),
    (216, 17563491756339162502903476263134865483082401184634484894947061930224462047345),
    (224, 19539590992220779866467127608339759456362336154373518245912768019007722074500),
    (236, 12390948580807686275600090141914131668195842997327189835738050927188824697317),
    (240, 12312650745391207500121700322604964937521108384781634825545758172100502297355),
    (244, 11846469343572451184548355801135401666051446655012579982100851589997533203131),
    (252, 7091904320436064293910739129773622995191868777815740935379153230862451465078),
    (256, 34281251053995936263811992782282737124098501071656167015923552321358136869865),
    (260, 20264353284872987406409034141846540515261504556257978927370486922649070205073),
    (272, 11013211389117253369598077983271030949009574515409453392807529988577291084552),
    (280, 8037953390894520570495385543462170469432654260117786921073078578659918719863),
    (288, 27351738157862832211933909893477094229441850276619132013284013907117515273047),
    (296, 35280956532893117902516404124042551503495107264519306045886308258436798851080),
    (304, 28308486576107173935754200933467841391401119054069771091417095919619383999820),
    (312, 17266070867506849268887744777547827533539093688302993277661568096111079927119),
    (320, 34887012996197304603550627678706307697433530120677580094954563587055847141396),
    (332, 16540842153786385722206542825435201670610828587588277757571002303285833087416),
    (348, 11596865032063586228492133104732275703201264950691282706558743616064021413662),
    (360, 30360075798171166328928079921099589822766728267727905468639279535561521217124),
    (368, 32759858183600316117522628006235221598941368826772814174644453104491879742481),
    (380, 33077251787131722847283501363138018247927960697636459923555991328953817053649),
    (384, 4555418843219763610985154245836078709316237410457538399451582161883870278405),
    (388, 27045986252961388484106631744893621420491079552480018267033023530093558781778),
    (408, 33811030366408651409923272920669262862538052680642563142222604357708504070113),
    (420, 19392355921525897518833026055981521100870325180413735033958351210330589994944),
    (428, 41727101864895018557582397437616694417735831404921625958259480423790325486998),
    (436, 34981748796809569843915582374344278696181546860516180834458202019404699803028),
    (440, 19497630056584934831396240465582911133007196346792968579924130320525466108992),
    (452, 23347189513705045363048574161313687891252616518954276942416111432693563048727),
    (460, 10547403099896652818175688830532541215204932467244718583017963356229228320135),
    (476, 5093861123134201786913130461297272419739873084876643608397424225075266004228),
    (508, 18068992958414698172842022155382021742102624148895812900127281428835749428638),
    (520, 9240948937756201995001251418759788068788023860441530459830345050800044636774),
    (524, 35605075040113832991986304349276727397327001490232307343871062980941336492952),
    (528, 23875437321049397862285592033463169925043134994630801611050309812035381807366),
    (544, 5951394965131047364257951735427589470282630148537267451182166831064528929907),
    (548, 38755243107134460625440891506130033487524573757867795361448217486158475656853),
    (552, 7766377536205896006572424015661823319088604458476226609451031180665063481540),
    (568, 14777419380387288523397293635123305505288718905973579002576366119464249322665),
    (576, 18592180314281881633151982467666016004108506716052489958897271518337328073899),
    (588, 41343314472081042657342095982584648383768722135995629760842076005487163256658),
    (592, 32213902837322916131540393081932312977300039282453872085028417291763907416226),
    (600, 37735640042765446537964884273761211566035429989128757459480363355491705639190),
    (604, 6067467878654758622777141693463172203344615217043380952124037563567598798991),
    (624, 18268725677349434579724268062618501758939625990735858028738929069132274571093),
    (628, 26048585279370974687101176196878677962518163845568768104715082092159225527121),
    (632, 34877138295730844907742802707390631559645264377647364850882523748929054784374),
    (636, 19354983904847729029274505793574333343501975626510852850224929279224512816109),
    (644, 20258483071814015819426615454811491183083959083974475533646443296768476404657),
    (648, 29216005602526717410534773946433921549703609137923017618996243374501883116785),
    (652, 35328023454264930444943138473524064150484383178247094407936011157315329581865),
    (664, 27657883399642227144294230443406656432240441157022771142288943904213824210387),
    (680, 1641453845414864719759154218964180715163032400635344333703136688957331865055),
    (696, 9234098584864541197508598819424189032333352340742348412811360573286154773316),
    (724, 18196514768908940498349022169486890877556658399981048408558338363310734991403),
    (736, 8651813000594061637250950744237264647976019194820226298863070288868694589175),
    (740, 20076519015463876494072445032808194170819431338058435547817955628252376797248),
    (748, 32943470544179613202869902608051124957696270220664084448865617435547367539024),
    (756, 13273007018481019793421121702429410791813077474379203727614843695400444316869),
    (760, 32490321440840697516537326520411827841052820819795275944265535453879463014155),
    (768, 28432103504179624961432131705178534957573842967153050744364205643565585323130),
    (772, 21192712657238905056090850363770776028078202210073713949065278734626780622339),
    (780, 25712582098102476829861459780141821507288829592702665242056671965820354526744),
    (792, 16357871135932892146110073557645164726024538613669603655967504106439057296074),
    (804, 20320540712969108831623452293544686787259936796383899195933906868779920008186),
    (808, 27927770350717014981624171791921933207029930222788476714671413978464765813395),
    (816, 18489853539673037352233968505717451175656393573955636412072590842337346644641),
    (820, 17695078732349764448981343171970023737335262166752922048641909867400770661348),
    (824, 13426252576393938424589082452573420663397941480213930195861862080566556037398),
    (828, 25920274119554463405583224052785687812926407795716416437876453463295790732929),
    (840, 24307828689332970090194583367167360087022204833451859905748116728362184173004),
    (848, 13076054555963944775140011630144489625481126543519761814155288923651671443160),
    (856, 34848287061792457483591380969247263304151447830340508222255526352660214165995),
    (888, 25698804814786025127991090172469148151084007761560984622105327062795893477973),
    (896, 358977870256628716253475699049195498669514749015077792212764301704511413719),
    (912, 12123556183955211061716680568634261587766256384938689899770445975259392248614),
    (916, 26365542139219616715846300558548846298212563221308689388638337537782270779028),
    (928, 23687149130738697320191014923656322339145543528194850857404149108291283402843),
    (936, 32798988817241467081512844966717077674370880101755790634496814801868908612007),
    (948, 8510413386811154363467197650438299395199630411695074065731112349032634316552),
    (956, 37019392739192932000547846946277429803298711474469469796037987953391703734183),
    (972, 1478012348202559143365019165282650515957820839508392110146078087678363945142),
    (988, 462682211842671207718216617950477335722387366849945971796881871501961854206),
    (1004, 30556184138045688828237516968016852540214150994697069846300070768200801484982),
    (1008, 11272815891189402392808456033104606462384755757922513463254927850741048915407),
    (1016, 36486847669049689189671148726191503319406607986857028511154508503679675428048),
    (1024, 18840518186863807721791959804800686002086793246325112313792892993701045330080),
    (1036, 17685161287461067298249396000776187643913643249924339302551435298390091914200),
    (1040, 28144830538576335099548923608132024023928352607769906867530736626418045395086),
    (1048, 26755693743291193918970887042431840183912599636465870141071594901090543319118),
    (1052, 31528041828071069781729120029804929586249586267287859352430167655194275139205),
    (1056, 30808283393116831660558951924257035849756186561907887644803194004078912574438),
    (1064, 22686590898670026249181413495735262799216846724538660504514237900568423614746),
    (1068, 32143507664414212341004887480921773924097763707487049492727869352117173996094),
    (1080, 9542538471208125744331134398751615731960728989357943679686900910673224612588),
    (1084, 39070805222357005115221667000730914421858822510833182497259847399699916336380),
    (1088, 25846283011697623921791069355946962329549919786505680266316536091395918352516),
    (1104, 20170815146831256036171054924514309668767910372506777069149053180107910535231),
    (1116, 23170591560930115636742384958800072466631285107424453598037900544143873534518),
    (1120, 38018877892135629914385516963744135026076828921176302692178737082198242968483),
    (1124, 15945484311259937332889451499874137868872900921932107265750425252511875428982),
    (1136, 23045800359443450157222918846400772248151534221833330810559413783025528070976),
    (1140, 1723685313540407496938439940606462671616344266174452584284648229013181557913),
    (1144, 15251292678912596352719761370567451642610444654065025147753446780902856521875),
    (1148, 2405061707342610512149391351120232920797860593385890477742857078320663772857),
    (1152, 25401114240855327609346285071426536204465780480756436498885685117038022769188),
    (1168, 1142402966037770709814893798765501322162248440369159321662235765336881236876),
    (1180, 14531541593507407324225843320049727415977482632894088076062010572260275521843),
    (1184, 6745321241902811089471457015465675042728838559437556012654117084098774236488),
    (1188, 31287430277832047795120294465936936341851107770753116317326859222625036115013),
    (1208, 34877868452685701388227135265562654738848464229642049665983281943023877641627),
    (1220, 2997075642257799338551978587448102329233321471525777556530341530543529193708),
    (1228, 31618542754180910917334401532527179303579338622089745529229325914572405782364),
    (1244, 41260473354162403313925084087736584130833991054384353517999190062882292197246),
    (1248, 14926322388611137765181490928782374401751386794415853119258258791324269038539),
    (1256, 38591482302850584117140141472708399880412454558034928971945022023059464487866),
    (1260, 8291714594242573265036346873194912239529885283184033928997606166751291917114),
    (1272, 3855279448271195082682937181192316553514446770824667638484060428807773502714),
    (1276, 23793231278961616523107495592197443764647197833331775415832295824309687790495),
    (1284, 40980674032140787868619460377377999337648541212979687382452483377949061369697),
    (1288, 15570785826478430040280902723911693532884960600879816888188056209795732896621),
    (1296, 13412146292886403277939534599836505926308866329653670105376459069947520686130),
    (1304, 20000834884247218977603094827431159458869451608297702043868411023422731886913),
    (1332, 4311630711675152609919631419759277555390423961651370898175826477212295467191),
    (1336, 3200357064250804472844052261223117228616093667311158163040687934858588427342),
    (1352, 12585990542681178761006068817875150673411327256285696533706207594717510639548),
    (1356, 13744430765917626830204465017577290905756255938405148118903249602692773255104),
    (1376, 17858629828873169265857046718840378524676921698409024886818499954316266985404),
    (1396, 237002925021981564786542261385362734991087017044435473654211895668006571441),
    (1400, 11080682641693846516647778737563457824912336684066048081111686289057231209004),
    (1404, 7285888800021188416811965495364598656701412617563394260337815480708826495603),
    (1408, 10060944031435143250647049150770009661628194954034689561772916595325735189502),
    (1416, 6037978207614711384263892944499565450025501068483465182205573097107369683251),
    (1420, 36218782304643694967552187703548089852135442610370116265580448434218175719765),
    (1428, 24657367968885611992817883875727064979263747378496861244061123037285511252252),
    (1432, 29156953900427666032886095801246770351497352462207297585868621954070004513108),
    (1440, 25682384977854956874693733715050436491161703182617888021244152099053887124731),
    (1448, 11566220444815761232294313903042875297704039625311636739116461038062720715473),
    (1452, 16726491369278322082415432323703908548775406392657917700277100584635329761312),
    (1464, 25425755765903936776455647363713840840972265359112111502412763395797753308059),
    (1468, 38583089625571312884150154577187038438986358090873830396264472092599389884390),
    (1476, 22727642905357336457819342410083512488613212961931726949346997210325062752515),
    (1484, 25527849433608742215283276649773431182803466835230454123071401930706512826927),
    (1488, 27464958457047662630962493519922082236805586519661721701321360011979222955802),
    (1500, 37586645384209307265823809516643039082126772700574462924306314526804267985073),
    (1504, 30383644016262938181435953189941368236426820052965230663638235659715047989623),
    (1508, 40896807172110533851078919996534218598518485798299468982605427516624526613317),
    (1532, 7689125669161901226915314985785610171564950013861038197843549093963428878403),
    (1540, 1070550370134022834088360843285320276881813878054868578732252587831019736242),
    (1544, 39768107372633310019497001341417229260537480723927860156237069814601985396988),
    (1568, 33362439866864825178236267226882643346611326019787961658724669203346297224452),
    (1572, 28085775278638719221050936237521632164423387767155441001088691161319765962835),
    (1596, 2604380991470891646794443085733968486171739657789127560594814759997490918529),
    (1608, 22265244486323130996587227994028654378250533285376867668994753768132172999452),
    (1612, 29434468538769937772489100748305518425828454150771921347046291177273108958252),
    (1616, 2094942546435928203199567104395695120549195845426457390200590973780556646296),
    (1620, 25396405811672596832461682804873256022451526014534260995484861914931927190532),
    (1624, 26721552954836731176298884218778413094412657322298526547916500852103772715690),
    (1628, 14043086074885705618709506560328976083565275762209857297752989856413057180373),
    (1640, 36964427655234549811519379594472286304708919523277736418203297633638409915910),
    (1648, 11044336753209626378410580279172971576568440637444902596611669660560122609705),
    (1656, 37623247651902865198497127734984968414335987217093684650260322861352266753273),
    (1664, 11024522648264914366314663073090022218382227053782186680592901570783806436317),
    (1668, 10209288727838981729953380834575339439221285564385205114967381677080294237470),
    (1672, 33795269852220176001732902443444324662170133602872970085935092549263720500879),
    (1684, 6331880486441024066644856378885727368984994575485410088934084692004606359610),
    (1688, 17197426065398471549999068222842635237651106247887432587914443680727304318298),
    (1696, 20744240241601790078348226457881211166546563188159846168593958833152749157459),
    (1700, 20296919316615343809714948695157657855044747823388373261900462697719670314231),
    (1704, 30261591681339014040668801590852271161864204373438151232733255457533712946877),
    (1712, 33201731706597258178897369838848441042951184688944485345104419044796193699021),
    (1716, 3130361513582336433121047323506844776939659542952738281860283224402778306778),
    (1732, 13259451471606731619590394240486897233537017386780918803748425710335381442652),
    (1740, 1303910472891896835514845151687686812299547527499533671097911310792243720289),
    (1744, 387346960845716130485941368262880365403940195469139789275262492746497012199),
    (1752, 37014818158173860231651358243583384760971387597626587919062890569352886952732),
    (1756, 38014900244166534424773753302652941581563057170355401556812257841208346410767),
    (1760, 39341217940447875188037010744276914552057132097024841193805867282004857250465),
    (1768, 27946744603855505938623682481560115430617167095334588504595992946497853174092),
    (1772, 41457011943032617973073145680458127349452771365271527055083874471758122185986),
    (1788, 32546729587165921969675674734508690129791305606147313758054749505374203471452),
    (1792, 26564664568292808565941082554245209873159144845736321151887368012153725741799),
    (1796, 21492318845636064795664250825229904805442536937649114971708369461824904960043),
    (1800, 9814052402988760984272265997585002976410429296410591936567136723125946342188),
    (1804, 27570067084254878250058454934110444462022921587407582028665128095211782541050),
    (1812, 15435511662317671756382160318443081981729203300979701321137548937115908901178),
    (1816, 29445962865119269912619282401192653053544806185252713224963680296824661912314),
    (1824, 1087352208298869142347209629391683698834229380039478408502866883579824006261),
    (1828, 40262844289479802277598235205929031370857863364753510548894763797817813537172),
    (1836, 6651098338812029741406904680792501055777037122754093470567268317957564249706),
    (1840, 39558780802500423407611947136666551724867593256043253161596014064090310361929),
    (1852, 34210064950510674099430588870559767642939023346799005210106061982244707568850),
    (1868, 9502422107844834947942701006474022126294880758840556391354972177492132938939),
    (1872, 16483919980434013499712082271052584374098468783062294566386548350513435034292),
    (1884, 39631599292419689864730560675605846005848256133187015314952715130383613687003),
    (1888, 35882737097924489265863071701318921430649492795143012401004774811508041504061),
    (1896, 19231988893246749544190346011939298014354013214973401423503598513187748865913),
    (1904, 38247381919946022153084443469386201103555813250082901107476308784705427941329),
    (1920, 689690523000814718016878575344580259741187858423845782808272665765469306941),
    (1932, 34014977575896658509903456624308391587330840242782290269325728520131966561389),
    (1936, 12171608682270794017259114472732181929561509089355850681423909102399864352333),
    (1944, 23118877806647851244390670540926940794788633786164615191361364921877681755633),
    (1952, 7640380416663864544490490027312933443705473806919450604450634062168251121126),
    (1960, 22269316096621436309041717296552403400031663781176207793327267496248175303020),
    (1968, 14040899571831900158408384887727933295665580198495800484024574396448593781600),
    (1972, 10103416802324777196166893456997529827287718293090911290169581210227058942369),
    (1976, 19094607921076532847249950727375260667112663541218793741649930300923429359156),
    (1980, 26486189998743657434723250620688721911997616802032838647234222722184200385188),
    (1988, 18356323903603216981690236146742017088283029027940340229553799856319045301248),
    (1996, 9534863749631301996900413703099024239628516953834615448096707910694489720078),
    (2012, 26297551121988319901248754789996652139215161511421617655031116563574225803578),
    (2016, 16824905732109488469059444290694497906331362674525811890162308413400049008707),
    (2024, 27346075778013930936105304164398852070628505687715737141677537484480074534443),
    (2032, 6226546503785996909748693664512186674171357743580110922454306819412650997720),
    (2036, 38877451061412518794292181057049536368763484925505383427214448661767272079891)]

theorem poolList_length : poolList.length = 240 := by decide +kernel

theorem poolList_roots : (poolList.all fun p => decide (p.1 < 2 ^ 127) &&
    (p.2 * p.2 % P == expandN P fpConsts.betaRaw.toNat (fixedBits p.1) % P)) = true := by decide +kernel

theorem poolList_distinct : (poolList.map fun p => p.2 * p.2 % P).Nodup := by decide +kernel

/-- the challenges -/
theorem exists_pool : Nonempty (Pool Fq Fp 240) := by
  have hm : modulus Fp = P := fp_m
  have hb : LawfulField.val (FieldApi.beta : Fp) = fpConsts.betaRaw.toNat := Elem.beta_val
  have hF := (LawfulField.modulus_bound (F := Fq)).1
  have hS := (LawfulField.modulus_bound (F := Fp)).1
  have hpow : (2 : ℕ) ^ 128 ≤ 2 ^ 254 := Nat.pow_le_pow_right (by norm_num) (by norm_num)
  have hpow' : (2 : ℕ) ^ 127 ≤ 2 ^ 128 := Nat.pow_le_pow_right (by norm_num) (by norm_num)
  let e : Fin 240 → ℕ × ℕ := fun i => poolList[i.1]'(by rw [poolList_length]; exact i.2)
  have he : ∀ i, (e i).1 < 2 ^ 127 ∧ (e i).2 * (e i).2 % P =
      expandN P fpConsts.betaRaw.toNat (fixedBits (e i).1) % P := fun i => by
    have := List.all_eq_true.1 poolList_roots (e i) (List.getElem_mem _)
    simpa using this
  have hN : ∀ i, ((expandN P fpConsts.betaRaw.toNat (fixedBits (e i).1) : ℕ) : Fp) =
      expandChallenge (fixedBits (e i).1) := by
    intro i
    rw [← expandN_cast, hm, hb]
  have hexp : ∀ i, (expandChallenge (fixedBits (e i).1) : Fp) = (((e i).2 * (e i).2 : ℕ) : Fp) := by
    intro i
    rw [← hN, LawfulField.cast_eq_iff, hm]
    exact (he i).2.symm
  have hlow : ∀ i, FieldApi.lower128 (((e i).1 : ℕ) : Fq) = BitVec.ofNat 128 (e i).1 := by
    intro i
    apply BitVec.eq_of_toNat_eq
    rw [LawfulField.lower128_val, LawfulField.val_of_lt (((he i).1.trans_le (hpow'.trans hpow)).trans hF),
      BitVec.toNat_ofNat]
  have hpk : ∀ i, (getChallengeScalar (FieldApi.fromU128 (fixedBits (e i).1) : Fp) : Fp) =
      expandChallenge (fixedBits (e i).1) := by
    intro i
    have e3 : FieldApi.lower128 (FieldApi.fromU128 (fixedBits (e i).1) : Fp) = fixedBits (e i).1 := by
      apply BitVec.eq_of_toNat_eq
      have := (fixedBits (e i).1).isLt
      rw [LawfulField.lower128_val, LawfulField.fromU128_eq, LawfulField.val_of_lt ((this.trans_le hpow).trans hS)]
      exact Nat.mod_eq_of_lt this
    rw [getChallengeScalar, e3]
  have hsq : ∀ i, IsSquare (expandChallenge (fixedBits (e i).1) : Fp) := fun i =>
    ⟨((e i).2 : Fp), by rw [hexp, Nat.cast_mul]⟩
  choose u hu huu using fun i => LawfulField.sqrt_some _ (hsq i)
  refine ⟨⟨fun i => ((e i).1 : ℕ), fun i => FieldApi.fromU128 (fixedBits (e i).1), u, fun i => ?_, fun i => ?_,
    fun i h0 => ?_, fun i j h => ?_⟩⟩
  · rw [hlow, fixedBits]
  · rw [hpk, hu]
  · have := huu i
    rw [h0, mul_zero] at this
    have h : HaloCurve ec0 Fq Fp := inferInstance
    exact Circuit.CurvePoint.expandChallenge_ne_zero _ this.symm
  · rw [hpk, hpk, hexp, hexp, LawfulField.cast_eq_iff, hm] at h
    have := (List.nodup_iff_injective_get.1 poolList_distinct) (a₁ := ⟨i.1, by simp [poolList_length]⟩)
      (a₂ := ⟨j.1, by simp [poolList_length]⟩) (by simpa using h)
    exact Fin.ext (congrArg Fin.val this)

end Proofs
end Halo

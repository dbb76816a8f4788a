import Verif.Data.Elements

/-!
# The shipped tables `ries/nonresonant/nist_xrmac/01.txt` to `92.txt`

Generated by `tools/gen_xrmac.py`; do not edit.  A line is encoded as a natural number with the decimal
digits `label eeeeee s xx mmmm s xx nnnn s xx`: the index of the label, and for each of the three
numbers the digits of the mantissa, the sign of the exponent (1 for minus) and its two digits.
`tools/check_data.sh` checks that `xrmacText Z` is the text of the file.
-/

namespace Ries

/-- the labels that occur -/
def xrmacLabels : List String := ["   ", "K  ", "L1 ", "L2 ", "L3 ", "M1 ", "M2 ", "M3 ", "M4 ", "M5 ", "N1 ", "N2 ", "N3 "]

/-- the number encoded by `n + 1` digits of the mantissa, a sign and two digits -/
def sciOf (n v : ℕ) : Sci :=
  ⟨Fin.ofNat 10 (v / 10 ^ (n + 3)), dg n (v / 1000), v / 100 % 10 == 1, Fin.ofNat 10 (v / 10),
    Fin.ofNat 10 v⟩

/-- the line encoded by a number -/
def xrmacLine (labelled : Bool) (v : ℕ) : Line :=
  ⟨if labelled then ((xrmacLabels[v / 10 ^ 23]?).getD "   ").toList else [],
    sciOf 5 (v / 10 ^ 14), sciOf 3 (v / 10 ^ 7), sciOf 3 v⟩

def xrmacTable1 : Bool × List ℕ := (false, [
  10000010372170006820000, 15000010321480001752000, 20000010310590006643101,
  30000010356121011693101, 40000010345461016549102, 50000010341931013278102,
  60000010340421011996102, 80000010339141011160102, 10000010238541019849103,
  15000010237641011102102, 20000010236951011355102, 30000010235701011863102,
  40000010234581012315102, 50000010233551012709102, 60000010232601013053102,
  80000010230911013620102, 10000010129441014063102, 15000010126511014813102,
  20000010124291015254102, 30000010121121015695102, 40000010118931015860102,
  50000010117291015900102, 60000010115991015875102, 80000010114051015739102,
  10000000012631015556102, 12500000011291015311102, 15000000010271015075102,
  20000000087691024650102, 30000000069211023992102, 40000000058061023523102,
  50000000050491023174102, 60000000044981022905102, 80000000037461022515102,
  10000000132541022247102, 15000000125391021837102, 20000000121531021606102])

def xrmacTable2 : Bool × List ℕ := (false, [
  10000010360840016045001, 15000010316760011638001, 20000010368630006503000,
  30000010320070001681000, 40000010393291016379101, 50000010357661013061101,
  60000010341951011671101, 80000010329331016446102, 10000010224761013260102,
  15000010220921011246102, 20000010219601019410103, 30000010218381011003102,
  40000010217631011190102, 50000010217031011375102, 60000010216511011544102,
  80000010215621011826102, 10000010114861012047102, 15000010113361012424102,
  20000010112241012647102, 30000010110641012868102, 40000010195351022951102,
  50000010187071022971102, 60000010180541022959102, 80000010170761022890102,
  10000000063621022797102, 12500000056881022674102, 15000000051731022555102,
  20000000044221022343102, 30000000035031022019102, 40000000029491021790102,
  50000000025771021622102, 60000000023071021493102, 80000000019401021308102,
  10000000117031021183102, 15000000113631029948103, 20000000111831028914103])

def xrmacTable3 : Bool × List ℕ := (false, [
  10000010323390022335002, 15000010366680016629001, 20000010327070012672001,
  30000010375490007249000, 40000010331140002840000, 50000010316190001364000,
  60000010398751017477101, 80000010350541012888101, 10000010233951011387101,
  15000010221761013910102, 20000010218561011885102, 30000010216441011138102,
  40000010215511011131102, 50000010214881011237102, 60000010214381011361102,
  80000010213561011588102, 10000010112891011776102, 15000010111581012098102,
  20000010110601012290102, 30000010192101022481102, 40000010182491022552102,
  50000010175321022569102, 60000010169681022559102, 80000010161211022499102,
  10000000055031022419102, 12500000049211022312102, 15000000044761022210102,
  20000000038301022028102, 30000000030431021753102, 40000000025721021561102,
  50000000022571021422102, 60000000020301021316102, 80000000017251021167102,
  10000000115291021066102, 15000000112521029182103, 20000000111091028385103])

def xrmacTable4 : Bool × List ℕ := (false, [
  10000010360410026035002, 15000010317970021791002, 20000010374690017422001,
  30000010321270012090001, 40000010386850008367000, 50000010343690004081000,
  60000010325270002260000, 80000010311240008839101, 10000010264661014255101,
  15000010230701011143101, 20000010222511014780102, 30000010217921011898102,
  40000010216401011438102, 50000010215541011401102, 60000010214931011468102,
  80000010214011011658102, 10000010113281011836102, 15000010111901012157102,
  20000010110891012353102, 30000010194631022548102, 40000010184711022620102,
  50000010177391022639102, 60000010171551022627102, 80000010162861022565102,
  10000000056521022483102, 12500000050541022373102, 15000000045971022268102,
  20000000039381022083102, 30000000031381021806102, 40000000026641021617102,
  50000000023471021479102, 60000000021211021377102, 80000000018191021233102,
  10000000116271021138102, 15000000113611021001102, 20000000112271029294103])

def xrmacTable5 : Bool × List ℕ := (false, [
  10000010312290031228003, 15000010337660023759002, 20000010315970021591002,
  30000010346670014617001, 40000010319270011886001, 50000010396830009332000,
  60000010355380005223000, 80000010323460002072000, 10000010212550001006000,
  15000010248271012698101, 20000010230141011084101, 30000010220631013506102,
  40000010217931012084102, 50000010216651011737102, 60000010215831011680102,
  80000010214721011785102, 10000010113911011940102, 15000010112431012255102,
  20000010111361012453102, 30000010198621022654102, 40000010188341022731102,
  50000010180651022749102, 60000010174601022737102, 80000010165491022671102,
  10000000058901022586102, 12500000052661022472102, 15000000047911022362102,
  20000000041081022171102, 30000000032841021889102, 40000000027981021698102,
  50000000024761021562102, 60000000022481021461102, 80000000019451021322102,
  10000000117551021232102, 15000000114951021104102, 20000000113681021039102])

def xrmacTable6 : Bool × List ℕ := (false, [
  10000010322110032209003, 15000010370020026990002, 20000010330260023016002,
  30000010390330018963001, 40000010337780013723001, 50000010319120011866001,
  60000010310950011054001, 80000010345760004242000, 10000010223730002078000,
  15000010280711015627101, 20000010244201012238101, 30000010225621016614102,
  40000010220761013343102, 50000010218711012397102, 60000010217531012098102,
  80000010216101012037102, 10000010115141012147102, 15000010113471012449102,
  20000010112291012655102, 30000010110661012870102, 40000010195461022950102,
  50000010187151022969102, 60000010180581022956102, 80000010170761022885102,
  10000000063611022792102, 12500000056901022669102, 15000000051791022551102,
  20000000044421022345102, 30000000035621022048102, 40000000030471021849102,
  50000000027081021710102, 60000000024691021607102, 80000000021541021468102,
  10000000119591021380102, 15000000116981021258102, 20000000115751021198102])

def xrmacTable7 : Bool × List ℕ := (false, [
  10000010333110033306003, 15000010310830031080003, 20000010347690024755002,
  30000010314560021447002, 40000010361660016094001, 50000010331440013086001,
  60000010318090011759001, 80000010375620007170000, 10000010238790003545000,
  15000010212360009715101, 20000010261781013867101, 30000010230661011099101,
  40000010222881015051102, 50000010219801013217102, 60000010218171012548102,
  80000010216391012211102, 10000010115291012231102, 15000010113531012472102,
  20000010112331012665102, 30000010110681012873102, 40000010195571022952102,
  50000010187191022969102, 60000010180631022956102, 80000010170811022886102,
  10000000063641022792102, 12500000056931022669102, 15000000051801022550102,
  20000000044501022347102, 30000000035791022057102, 40000000030731021867102,
  50000000027421021734102, 60000000025111021639102, 80000000022091021512102,
  10000000120241021434102, 15000000117821021332102, 20000000116731021285102])

def xrmacTable8 : Bool × List ℕ := (false, [
  10000010345900034576003, 15000010315490031545003, 20000010369490026926002,
  30000010321710022158002, 40000010393150019221001, 50000010347900014715001,
  60000010327700012708001, 80000010311630011116001, 10000010259520005565000,
  15000010218360001545000, 20000010286511016179101, 30000010237791011729101,
  40000010225851017530102, 50000010221321014414102, 60000010219071013207102,
  80000010216781012468102, 10000010115511012355102, 15000010113611012506102,
  20000010112371012679102, 30000010110701012877102, 40000010195661022953102,
  50000010187291022971102, 60000010180701022957102, 80000010170871022887102,
  10000000063721022794102, 12500000056971022669102, 15000000051851022551102,
  20000000044591022350102, 30000000035971022066102, 40000000031001021882102,
  50000000027771021757102, 60000000025521021668102, 80000000022631021553102,
  10000000120891021483102, 15000000118661021396102, 20000000117701021360102])

def xrmacTable9 : Bool × List ℕ := (false, [
  10000010356490035615003, 15000010319790031969003, 20000010390470029005002,
  30000010328880022870002, 40000010312560021244002, 50000010365140016424001,
  60000010337890013716001, 80000010316020011548001, 10000010282050007776000,
  15000010224920002186000, 20000010211330008796101, 30000010244871012451101,
  40000010228281011036101, 50000010222141015747102, 60000010219201013903102,
  80000010216391012676102, 10000010114961012394102, 15000010112981012417102,
  20000010111761012554102, 30000010110151012729102, 40000010190731022800102,
  50000010182741022815102, 60000010176491022801102, 80000010167171022734102,
  10000000060371022645102, 12500000053991022527102, 15000000049151022416102,
  20000000042281022226102, 30000000034221021964102, 40000000029601021797102,
  50000000026631021685102, 60000000024571021607102, 80000000021951021508102,
  10000000120391021451102, 15000000118461021382102, 20000000117691021357102])

def xrmacTable10 : Bool × List ℕ := (false, [
  10000010374090037326003, 15000010326660032645003, 20000010312430031234003,
  30000010340510024021002, 40000010317850021767002, 50000010393390019214001,
  60000010354670015369001, 80000010323280012260001, 10000010211970011143001,
  15000010236130003253000, 20000010216060001317000, 30000010259231013676101,
  40000010234731011528101, 50000010225791018182102, 60000010221611015287102,
  80000010217811013273102, 10000010116001012733102, 15000010113701012590102,
  20000010112361012697102, 30000010110641012862102, 40000010195021022931102,
  50000010186641022946102, 60000010180061022930102, 80000010170291022860102,
  10000000063161022766102, 12500000056461022641102, 15000000051451022526102,
  20000000044301022330102, 30000000035941022061102, 40000000031221021894102,
  50000000028181021784102, 60000000026101021709102, 80000000023481021616102,
  10000000121971021564102, 15000000120131021508102, 20000000119461021491102])

def xrmacTable11 : Bool × List ℕ := (true, [
  10000010365420026522002, 10354210359600025941002, 10721010354290025410002,
  110721010364350036320003, 15000010331940033151003, 20000010315210031504003,
  30000010350700025023002, 40000010322610022238002, 50000010311940021178002,
  60000010370300016915001, 80000010330180012941001, 10000010215570011499001,
  15000010246940004313000, 20000010220570001759000, 30000010271971014928101,
  40000010239691012031101, 50000010228041011063101, 60000010222681016625102,
  80000010217961013761102, 10000010115851012931102, 15000010113351012579102,
  20000010111991012635102, 30000010110291012771102, 40000010191851022833102,
  50000010183721022845102, 60000010177361022830102, 80000010167881022760102,
  10000000061001022669102, 12500000054541022549102, 15000000049681022437102,
  20000000042821022249102, 30000000034871021997102, 40000000030371021842102,
  50000000027531021743102, 60000000025591021675102, 80000000023191021595102,
  10000000121811021552102, 15000000120231021508102, 20000000119701021496102])

def xrmacTable12 : Bool × List ℕ := (true, [
  10000010392250029203002, 11423710364740026452002, 13050010345300024509002,
  113050010354440035310003, 15000010340040033918003, 20000010319320031899003,
  30000010365850026499002, 40000010329740022937002, 50000010315830021561002,
  60000010393810019227001, 80000010340610013965001, 10000010221050012036001,
  15000010263580005925000, 20000010227630002432000, 30000010293061016855101,
  40000010248811012815101, 50000010232921011451101, 60000010225701018820102,
  80000010219511014671102, 10000010116861013410102, 15000010113941012766102,
  20000010112451012761102, 30000010110651012871102, 40000010194921022928102,
  50000010186471022938102, 60000010179881022921102, 80000010170081022848102,
  10000000062961022753102, 12500000056291022629102, 15000000051291022514102,
  20000000044261022322102, 30000000036131022067102, 40000000031591021915102,
  50000000028731021819102, 60000000026811021756102, 80000000024451021683102,
  10000000123131021646102, 15000000121681021614102, 20000000121271021609102])

def xrmacTable13 : Bool × List ℕ := (true, [
  10000010311850031183003, 15000010340220024001002, 15596010336210023600002,
  115596010339570033829003, 20000010322630032204003, 30000010378800027732002,
  40000010336050023545002, 50000010319340021902002, 60000010311530021133002,
  80000010350330014918001, 10000010226230012543001, 15000010279550007487000,
  20000010234410003094000, 30000010211280008778101, 40000010256851013601101,
  50000010236811011840101, 60000010227781011099101, 80000010220181015511102,
  10000010117041013794102, 15000010113781012827102, 20000010112231012745102,
  30000010110421012816102, 40000010192761022862102, 50000010184451022868102,
  60000010178021022851102, 80000010168411022778102, 10000000061461022686102,
  12500000054961022565102, 15000000050061022451102, 20000000043241022266102,
  30000000035411022024102, 40000000031061021882102, 50000000028361021795102,
  60000000026551021739102, 80000000024371021678102, 10000000123181021650102,
  15000000121951021631102, 20000000121681021633102])

def xrmacTable14 : Bool × List ℕ := (true, [
  10000010315700031567003, 15000010353550025331002, 18389010330920023070002,
  118389010331920033059003, 20000010327770032669003, 30000010397840029516002,
  40000010345290024427002, 50000010324500022400002, 60000010314700021439002,
  80000010364680016313001, 10000010233890013289001, 15000010210340019794000,
  20000010244640004076000, 30000010214360001164000, 40000010270121014782101,
  50000010243851012430101, 60000010232071011434101, 80000010222281016896102,
  10000010118351014513102, 15000010114481013086102, 20000010112751012905102,
  30000010110821012932102, 40000010196141022968102, 50000010187481022971102,
  60000010180771022951102, 80000010170821022875102, 10000000063611022778102,
  12500000056881022652102, 15000000051831022535102, 20000000044801022345102,
  30000000036781022101102, 40000000032401021963102, 50000000029671021878102,
  60000000027881021827102, 80000000025741021773102, 10000000124621021753102,
  15000000123521021746102, 20000000123381021757102])

def xrmacTable15 : Bool × List ℕ := (true, [
  10000010319130031910003, 15000010365470026522002, 20000010330180022996002,
  21455010324940022473002, 121455010324730032343003, 30000010311180031074003,
  40000010352420025079002, 50000010328600022782002, 60000010317260021682002,
  80000010376600017457001, 10000010240350013912001, 15000010212390011179001,
  20000010253520004939000, 30000010217000001422000, 40000010280961015850101,
  50000010249161012965101, 60000010234941011735101, 80000010223241018083102,
  10000010118651015068102, 15000010114321013188102, 20000010112501012899102,
  30000010110551012870102, 40000010193591022892102, 50000010185111022891102,
  60000010178541022869102, 80000010168841022793102, 10000000061821022698102,
  12500000055261022575102, 15000000050391022462102, 20000000043581022279102,
  30000000035901022049102, 40000000031721021921102, 50000000029151021846102,
  60000000027471021801102, 80000000025521021760102, 10000000124521021747102,
  15000000123641021754102, 20000000123631021771102])

def xrmacTable16 : Bool × List ℕ := (true, [
  10000010324290032426003, 15000010383420028314002, 20000010338530023828002,
  24720010321680022145002, 124720010320700031935003, 30000010313390031265003,
  40000010363380026066002, 50000010334870023360002, 60000010321160022046002,
  80000010394650019171001, 10000010250120014847001, 15000010215500011477001,
  20000010267080006235000, 30000010221130001809000, 40000010298721017466101,
  50000010258491013779101, 60000010240531012199101, 80000010225851011000101,
  10000010120201016052102, 15000010115061013516102, 20000010113021013080102,
  30000010110911012983102, 40000010196651022991102, 50000010187811022984102,
  60000010181021022959102, 80000010170981022878102, 10000000063731022780102,
  12500000056971022652102, 15000000051931022535102, 20000000044981022349102,
  30000000037151022118102, 40000000032931021993102, 50000000030361021923102,
  60000000028721021884102, 80000000026821021850102, 10000000125891021845102,
  15000000125171021864102, 20000000125291021889102])

def xrmacTable17 : Bool × List ℕ := (true, [
  10000010328320032829003, 15000010397710029742002, 20000010345200024494002,
  28224010317740021752002, 128224010316370031506003, 30000010314730031361003,
  40000010370370026626002, 50000010339010023711002, 60000010323840022282002,
  80000010310750021034002, 10000010257250015510001, 15000010217840011700001,
  20000010277390007227000, 30000010224250002114000, 40000010211170008756101,
  50000010264831014433101, 60000010243951012570101, 80000010226961011148101,
  10000010120501016745102, 15000010114801013639102, 20000010112661013067102,
  30000010110541012898102, 40000010193111022887102, 50000010184531022874102,
  60000010177951022847102, 80000010168261022767102, 10000000061281022671102,
  12500000054781022549102, 15000000049941022436102, 20000000043281022258102,
  30000000035851022043102, 40000000031881021931102, 50000000029501021871102,
  60000000027981021839102, 80000000026281021819102, 10000000125491021824102,
  15000000124961021861102, 20000000125201021899102])

def xrmacTable18 : Bool × List ℕ := (true, [
  10000010331840033180003, 15000010311050031102003, 20000010351200025093002,
  30000010317030021682002, 32029010314240021403002, 132029010312750031153003,
  40000010375720026979002, 50000010342250023953002, 60000010325930022449002,
  80000010311800021125002, 10000010263160016038001, 15000010219830011886001,
  20000010286290008074000, 30000010226970002382000, 40000010212280009907101,
  50000010270121015020101, 60000010246641012904101, 80000010227601011280101,
  10000010120431017344102, 15000010114271013703102, 20000010112051012998102,
  30000010199531022757102, 40000010187761022727102, 50000010179581022708102,
  60000010173351022679102, 80000010164191022601102, 10000000057621022510102,
  12500000051501022394102, 15000000046951022288102, 20000000040741022123102,
  30000000033841021927102, 40000000030191021827102, 50000000028021021777102,
  60000000026671021753102, 80000000025171021742102, 10000000124511021754102,
  15000000124181021800102, 20000000124531021842102])

def xrmacTable19 : Bool × List ℕ := (true, [
  10000010348670034861003, 15000010317140031710003, 20000010379990027966002,
  30000010326760022650002, 40000010312180021197002, 40381010311870021166002,
  140381010310230038887002, 50000010360260025373002, 60000010337310023387002,
  80000010317260021600002, 10000010293410018744001, 15000010229790012804001,
  20000010213060011220001, 30000010240800003665000, 40000010218300001538000,
  50000010210190007822101, 60000010265781014520101, 80000010236561011958101,
  10000010125711011085101, 15000010116741014876102, 20000010113761013639102,
  30000010111161013146102, 40000010197831023060102, 50000010188511023019102,
  60000010181481022979102, 80000010171221022884102, 10000000063881022780102,
  12500000057091022650102, 15000000052071022532102, 20000000045241022352102,
  30000000037801022147102, 40000000033951022052102, 50000000031701022007102,
  60000000030351021992102, 80000000028921021997102, 10000000128391022022102,
  15000000128381022088102, 20000000129031022140102])

def xrmacTable20 : Bool × List ℕ := (true, [
  10000010348670034861003, 15000010317140031710003, 20000010379990027966002,
  30000010326760022650002, 40000010312180021197002, 40381010311870021166002,
  140381010310230038887002, 50000010360260025373002, 60000010337310023387002,
  80000010317260021600002, 10000010293410018744001, 15000010229790012804001,
  20000010213060011220001, 30000010240800003665000, 40000010218300001538000,
  50000010210190007822101, 60000010265781014520101, 80000010236561011958101,
  10000010125711011085101, 15000010116741014876102, 20000010113761013639102,
  30000010111161013146102, 40000010197831023060102, 50000010188511023019102,
  60000010181481022979102, 80000010171221022884102, 10000000063881022780102,
  12500000057091022650102, 15000000052071022532102, 20000000045241022352102,
  30000000037801022147102, 40000000033951022052102, 50000000031701022007102,
  60000000030351021992102, 80000000028921021997102, 10000000128391022022102,
  15000000128381022088102, 20000000129031022140102])

def xrmacTable21 : Bool × List ℕ := (true, [
  10000010352380035231003, 15000010318580031853003, 20000010387060028672002,
  30000010329220022896002, 40000010313320021311002, 44928010396870019490001,
  144928010381480026911002, 50000010363050025436002, 60000010339330023474002,
  80000010318280021661002, 10000010299520019175001, 15000010232020012988001,
  20000010214090011311001, 30000010244090003975000, 40000010219690001677000,
  50000010210870008552101, 60000010269321014944101, 80000010237531012132101,
  10000010125771011167101, 15000010116191014998102, 20000010113101013586102,
  30000010110521012997102, 40000010191931022887102, 50000010183051022837102,
  60000010176391022795102, 80000010166751022703102, 10000000059851022603102,
  12500000053471022480102, 15000000048781022370102, 20000000042431022202102,
  30000000035541022016102, 40000000032021021933102, 50000000029991021897102,
  60000000028781021887102, 80000000027561021900102, 10000000127151021929102,
  15000000127321022000102, 20000000128041022052102])

def xrmacTable22 : Bool × List ℕ := (true, [
  10000010358690035860003, 15000010320960032091003, 20000010398600029824002,
  30000010333230023295002, 40000010315170021494002, 49664010383800018188001,
  149664010368780025684002, 50000010368380025657002, 60000010343230023691002,
  80000010320230021793002, 10000010211070021001002, 15000010235870013311001,
  20000010215850011465001, 30000010249720004488000, 40000010222140001904000,
  50000010212130009737101, 60000010276611015634101, 80000010240521012422101,
  10000010127211011312101, 15000010116491015393102, 20000010113141013726102,
  30000010110431013007102, 40000010190811022864102, 50000010181911022804102,
  60000010175291022756102, 80000010165721022661102, 10000000058911022561102,
  12500000052631022439102, 15000000048011022330102, 20000000041801022166102,
  30000000035121021989102, 40000000031731021913102, 50000000029821021884102,
  60000000028681021879102, 80000000027591021899102, 10000000127271021933102,
  15000000127621022013102, 20000000128441022067102])

def xrmacTable23 : Bool × List ℕ := (true, [
  10000010364950036483003, 15000010323420032336003, 20000010311060031102003,
  30000010337430023713002, 40000010317120021688002, 50000010392910019089001,
  54651010372770017090001, 154651010358700024717002, 60000010346870023841002,
  80000010322170021908002, 10000010212180021077002, 15000010239830013627001,
  20000010217680011620001, 30000010255640005015000, 40000010224720002140000,
  50000010213470001098000, 60000010284381016364101, 80000010243711012731101,
  10000010128771011469101, 15000010116821015821102, 20000010113181013879102,
  30000010110341013019102, 40000010189651022843102, 50000010180741022770102,
  60000010174141022717102, 80000010164661022618102, 10000000057941022518102,
  12500000051751022396102, 15000000047221022289102, 20000000041151022130102,
  30000000034661021961102, 40000000031411021892102, 50000000029601021869102,
  60000000028551021869102, 80000000027591021896102, 10000000127381021937102,
  15000000127861022022102, 20000000128771022079102])

def xrmacTable24 : Bool × List ℕ := (true, [
  10000010374050037388003, 15000010326940032687003, 20000010312770031272003,
  30000010343390024305002, 40000010319880021961002, 50000010310800021057002,
  59892010365740016383001, 159892010359770024027002, 60000010351600024027002,
  80000010325130022087002, 10000010213860021193002, 15000010245710014093001,
  20000010220380011846001, 30000010264340005780000, 40000010228560002482000,
  50000010215500001278000, 60000010296391017420101, 80000010249051013182101,
  10000010131661011701101, 15000010117881016536102, 20000010113781014211102,
  30000010110671013160102, 40000010192131022938102, 50000010182811022849102,
  60000010175981022788102, 80000010166201022680102, 10000000059301022576102,
  12500000052951022450102, 15000000048321022340102, 20000000042131022178102,
  30000000035591022011102, 40000000032351021947102, 50000000030571021929102,
  60000000029561021933102, 80000000028691021970102, 10000000128551022016102,
  15000000129201022112102, 20000000130261022174102])

def xrmacTable25 : Bool × List ℕ := (true, [
  10000010380930038069003, 15000010329840032975003, 20000010314210031415003,
  30000010348510024815002, 40000010322290022201002, 50000010312120021188002,
  60000010373500017150001, 65390010358030015619001, 165390010345200023415002,
  80000010327340022177002, 10000010215140021262002, 15000010250270014414001,
  20000010222530012015001, 30000010271410006382000, 40000010231690002757000,
  50000010217140001425000, 60000010210600008294101, 80000010253061013558101,
  10000010133671011894101, 15000010118381017085102, 20000010113911014421102,
  30000010110621013196102, 40000010191331022932102, 50000010181921022827102,
  60000010175091022760102, 80000010165371022647102, 10000000058521022541102,
  12500000052241022416102, 15000000047691022307102, 20000000041621022149102,
  30000000035241021989102, 40000000032131021933102, 50000000030451021920102,
  60000000029521021930102, 80000000028751021973102, 10000000128711022025102,
  15000000129511022127102, 20000000130681022193102])

def xrmacTable26 : Bool × List ℕ := (true, [
  10000010390850039052003, 15000010333990033388003, 20000010316260031620003,
  30000010355760025535002, 40000010325670022536002, 50000010313980021372002,
  60000010384840018265001, 71120010353190015133001, 171120010340760022978002,
  80000010330560022316002, 10000010217060021369002, 15000010257080014896001,
  20000010225680012260001, 30000010281760007251000, 40000010236290003155000,
  50000010219580001638000, 60000010212050009555101, 80000010259521014104101,
  10000010137171012177101, 15000010119641017961102, 20000010114601014825102,
  30000010110991013361102, 40000010194001023039102, 50000010184141022914102,
  60000010177041022836102, 80000010166991022714102, 10000000059951022603102,
  12500000053501022472102, 15000000048831022360102, 20000000042651022199102,
  30000000036211022042102, 40000000033121021990102, 50000000031461021983102,
  60000000030571021997102, 80000000029911022050102, 10000000129941022108102,
  15000000130921022221102, 20000000132241022292102])

def xrmacTable27 : Bool × List ℕ := (true, [
  10000010397960039750003, 15000010336970033682003, 20000010317790031771003,
  30000010361290026084002, 40000010328300022796002, 50000010315430021515002,
  60000010393700019138001, 77089010347100014530001, 177089010335550022507002,
  80000010332480022322002, 10000010218410021413002, 15000010262010015178001,
  20000010228030012421001, 30000010289620007873000, 40000010239810003450000,
  50000010221440001799000, 60000010213140001052000, 80000010264141014528101,
  10000010139491012397101, 15000010120231018597102, 20000010114761015071102,
  30000010110941013406102, 40000010193111023034102, 50000010183151022890102,
  60000010176041022805102, 80000010166041022677102, 10000000059061022564102,
  12500000052701022434102, 15000000048101022323102, 20000000042041022165102,
  30000000035801022016102, 40000000032831021971102, 50000000031271021969102,
  60000000030451021988102, 80000000029911022048102, 10000000130021022110102,
  15000000131151022230102, 20000000132561022303102])

def xrmacTable28 : Bool × List ℕ := (true, [
  10000010398550039797003, 10040410397530039697003, 10081010396540039598003,
  210081010310990041093004, 15000010342340034214003, 20000010320490032039003,
  30000010370940027042002, 40000010332820023244002, 50000010317930021761002,
  60000010310900021064002, 80000010349520014758001, 83328010344280014242001,
  183328010332940022240002, 10000010220900021524002, 15000010270810015734001,
  20000010232200012722001, 30000010210340018982000, 40000010246000003967000,
  50000010224740002078000, 60000010215120001219000, 80000010273061015259101,
  10000010144401012781101, 15000010122081019812102, 20000010115821015649102,
  30000010111541013659102, 40000010197651023209102, 50000010186981023036102,
  60000010179441022937102, 80000010168911022795102, 10000000061601022674102,
  12500000054941022536102, 15000000050151022420102, 20000000043871022257102,
  30000000037451022107102, 40000000034441022066102, 50000000032891022070102,
  60000000032101022094102, 80000000031641022163102, 10000000131851022234102,
  15000000133201022368102, 20000000134761022446102])

def xrmacTable29 : Bool × List ℕ := (true, [
  10000010310570041049004, 10469510393070039241003, 10961010382420038186003,
  210961010393470039282003, 15000010344180034393003, 20000010321540032142003,
  30000010374880027430002, 40000010334730023432002, 50000010318990021866002,
  60000010311560021128002, 80000010352550015054001, 89789010338290013652001,
  189789010327840021824002, 10000010221590021484002, 15000010274050015788001,
  20000010233790012788001, 30000010210920019349000, 40000010248620004163000,
  50000010226130002192000, 60000010215930001290000, 80000010276301015581101,
  10000010145841012949101, 15000010122171011027101, 20000010115591015781102,
  30000010111191013617102, 40000010194131023121102, 50000010183621022933102,
  60000010176251022826102, 80000010166051022681102, 10000000059011022562102,
  12500000052611022428102, 15000000048031022316102, 20000000042051022160102,
  30000000035991022023102, 40000000033181021989102, 50000000031771021998102,
  60000000031081022027102, 80000000030741022100102, 10000000131031022174102,
  15000000132471022309102, 20000000134081022387102])

def xrmacTable30 : Bool × List ℕ := (true, [
  10000010315530031548003, 10098010315180031513003, 10197010314840031478003,
  410197010338040033777003, 10311910350970035057003, 10428010365180036464003,
  310428010382740038202003, 11156510384520038382003, 11936010373710037312003,
  211936010383960038328003, 15000010348250034791003, 20000010323750032359003,
  30000010383110028244002, 40000010338650023820002, 50000010321180022082002,
  60000010312900021261002, 80000010358750015660001, 96586010335050013332001,
  196586010325360021599002, 10000010223310021497002, 15000010281170016099001,
  20000010237190012986001, 30000010212070011018001, 40000010253840004570000,
  50000010228920002419000, 60000010217600001429000, 80000010283641016203101,
  10000010149731013278101, 15000010123411011128101, 20000010116171016225102,
  30000010111411013764102, 40000010195391023195102, 50000010184501022979102,
  60000010176951022861102, 80000010166561022704102, 10000000059411022580102,
  12500000052961022443102, 15000000048341022329102, 20000000042351022174102,
  30000000036341022041102, 40000000033601022014102, 50000000032251022028102,
  60000000031601022061102, 80000000031381022143102, 10000000131751022223102,
  15000000133351022367102, 20000000135091022451102])

def xrmacTable31 : Bool × List ℕ := (true, [
  10000010316970031692003, 10561310314920031487003, 11154010313120031307003,
  411154010339900033955003, 11287710348870034842003, 11423010356640035611003,
  311423010374050037332003, 12175210371380037070003, 12977010363580036299003,
  212977010372060037139003, 15000010350870035044003, 20000010325150032496003,
  30000010388570028782002, 40000010341300024082002, 50000010322660022229002,
  60000010313820021352002, 80000010363020016082001, 10000010234210013250001,
  10367110230990012936001, 110367110222140021344002, 15000010285370016135001,
  20000010239280013059001, 30000010212810011061001, 40000010257260004810000,
  50000010230760002560000, 60000010218680001518000, 80000010288231016613101,
  10000010151971013497101, 15000010123871011193101, 20000010116191016463102,
  30000010111231013782102, 40000010193251023156102, 50000010182361022920102,
  60000010174871022793102, 80000010164661022631102, 10000000057671022506102,
  12500000051391022371102, 15000000046921022260102, 20000000041131022110102,
  30000000035381021986102, 40000000032801021966102, 50000000031561021985102,
  60000000030991022021102, 80000000030861022108102, 10000000131301022191102,
  15000000133001022339102, 20000000134791022425102])

def xrmacTable32 : Bool × List ℕ := (true, [
  10000010318930031887003, 11030410315020031496003, 12167010311900031185003,
  412167010343890034343003, 12321510347340034684003, 12478010349740034922003,
  312478010366980036622003, 13284410363480036279003, 14143010355540035495003,
  214143010362870036221003, 15000010354750035420003, 20000010327110032688003,
  30000010396130029527002, 40000010344970024445002, 50000010324720022433002,
  60000010315090021477002, 80000010368900016660001, 10000010237420013564001,
  11103110228110012653001, 111103110219810021157002, 15000010291520016256001,
  20000010242220013178001, 30000010213850011126001, 40000010262070005152000,
  50000010233350002759000, 60000010220230001642000, 80000010295011017184101,
  10000010155501013803101, 15000010124911011288101, 20000010116611016865102,
  30000010111311013891102, 40000010193271023193102, 50000010182121022930102,
  60000010174521022790102, 80000010164261022618102, 10000000057271022489102,
  12500000051011022353102, 15000000046571022242102, 20000000040861022094102,
  30000000035241021977102, 40000000032751021962102, 50000000031581021987102,
  60000000031071022027102, 80000000031031022120102, 10000000131561022208102,
  15000000133401022364102, 20000000135281022452102])

def xrmacTable33 : Bool × List ℕ := (true, [
  10000010321210032116003, 11502610315230031517003, 13231010310920031087003,
  413231010345130034459003, 13407310344690034416003, 13586010344520034398003,
  313586010360930036015003, 15000010352270035164003, 15265010349970034938003,
  215265010356530035585003, 20000010329310032902003, 30000010310490031039003,
  40000010349200024862002, 50000010327090022667002, 60000010316560021622002,
  80000010375730017330001, 10000010241150013928001, 11866710225770012425001,
  111866710217920021008002, 15000010298560016371001, 20000010245640013310001,
  30000010215060011198001, 40000010267600005537000, 50000010236350002983000,
  60000010222030001783000, 80000010210300007837101, 10000010159711014155101,
  15000010126221011399101, 20000010117191017350102, 30000010111501014043102,
  40000010194141023261102, 50000010182591022966102, 60000010174831022813102,
  80000010164401022628102, 10000000057351022494102, 12500000051061022355102,
  15000000046611022243102, 20000000040931022096102, 30000000035391021984102,
  40000000032961021974102, 50000000031871022005102, 60000000031411022049102,
  80000000031461022148102, 10000000132071022241102, 15000000134051022404102,
  20000000136031022495102])

def xrmacTable34 : Bool × List ℕ := (true, [
  10000010323170032312003, 11982510315120031506003, 14358010398140029760002,
  414358010343470034287003, 14558610340570034002003, 14762010339070033855003,
  314762010351860035112003, 15000010353360035260003, 16539010343420034284003,
  216539010349150034849003, 20000010330980033062003, 30000010311160031104003,
  40000010352520025187002, 50000010328960022851002, 60000010317730021737002,
  80000010381160017865001, 10000010244140014221001, 12657810223180012173001,
  112657810215890028599001, 15000010210330026270001, 20000010248180013352001,
  30000010215960011240001, 40000010271840005796000, 50000010238640003143000,
  60000010223410001886000, 80000010210900008332101, 10000010162781014426101,
  15000010127031011483101, 20000010117421017695102, 30000010111441014113102,
  40000010192991023261102, 50000010181291022941102, 60000010173501022775102,
  80000010163141022581102, 10000000056191022446102, 12500000049991022306102,
  15000000045641022195102, 20000000040101022052102, 30000000034761021947102,
  40000000032471021944102, 50000000031451021978102, 60000000031051022025102,
  80000000031191022130102, 10000000131861022226102, 15000000133951022394102,
  20000000135991022487102])

def xrmacTable35 : Bool × List ℕ := (true, [
  10000010326240032618003, 15000010310020039964002, 15499010392550029200002,
  415499010342890034223003, 15727810338380033780003, 15960010335870033534003,
  315960010350970035014003, 16864410345950034523003, 17820010339690033910003,
  217820010344950034427003, 20000010334070033360003, 30000010312310031216003,
  40000010358150025740002, 50000010332130023163002, 60000010319680021930002,
  80000010390260018756001, 10000010249120014706001, 13473710221760012033001,
  113473710214710027668001, 15000010211190026336001, 20000010252660013502001,
  30000010217530011328001, 40000010279000006267000, 50000010242640003431000,
  60000010225820002068000, 80000010211980009185101, 10000010168611014890101,
  15000010128991011634101, 20000010118381018378102, 30000010111861014360102,
  40000010195631023398102, 50000010183281023036102, 60000010175151022851102,
  80000010164431022640102, 10000000057281022496102, 12500000050941022350102,
  15000000046501022237102, 20000000040891022092102, 30000000035521021991102,
  40000000033271021995102, 50000000032291022036102, 60000000031941022090102,
  80000000032181022207102, 10000000132931022314102, 15000000135211022507102,
  20000000137381022618102])

def xrmacTable36 : Bool × List ℕ := (true, [
  10000010328540032848003, 15000010310930031087003, 16749010383610028305002,
  416749010339090033842003, 17008510334090033352003, 17272010331660033114003,
  317272010345660034484003, 18215210340140033945003, 19210010334820033425003,
  219210010339480033882003, 20000010335990033541003, 30000010313050031288003,
  40000010361860026101002, 50000010334250023371002, 60000010321010022060002,
  80000010396510019371001, 10000010252570015044001, 14325610219710011836001,
  114325610213130026604001, 15000010211680026112001, 20000010255480013509001,
  30000010218540011365001, 40000010283890006538000, 50000010245230003596000,
  60000010227390002178000, 80000010212670009729101, 10000010172211015192101,
  15000010129981011731101, 20000010118721018787102, 30000010111861014459102,
  40000010194801023414102, 50000010182261023023102, 60000010174101022825102,
  80000010163401022603102, 10000000056311022456102, 12500000050051022310102,
  15000000045691022197102, 20000000040201022055102, 30000000035011021961102,
  40000000032861021969102, 50000000031961022014102, 60000000031681022071102,
  80000000031991022192102, 10000000132801022302102, 15000000135181022497102,
  20000000137411022610102])

def xrmacTable37 : Bool × List ℕ := (true, [
  10000010331740033168003, 15000010312190031213003, 18044010377820027726002,
  418044010330960033040003, 18339110329690032915003, 18639010328610032810003,
  318639010339570033880003, 20000010334100033347003, 20651010331530033096003,
  220651010336060033540003, 30000010314180031397003, 40000010367480026648002,
  50000010337440023682002, 60000010323000022255002, 80000010310580021028002,
  10000010257660015541001, 15000010219090011775001, 15199710218420011709001,
  115199710212080025864001, 20000010259800013581001, 30000010220090011436001,
  40000010291120006963000, 50000010249180003858000, 60000010229790002349000,
  80000010213750001056000, 10000010177991015649101, 15000010131871011881101,
  20000010119601019465102, 30000010112191014690102, 40000010196701023531102,
  50000010183601023098102, 60000010175101022878102, 80000010164121022638102,
  10000000056891022484102, 12500000050531022332102, 15000000046131022217102,
  20000000040611022074102, 30000000035451021983102, 40000000033351021996102,
  50000000032501022045102, 60000000032271022105102, 80000000032671022231102,
  10000000133571022343102, 15000000136101022538102, 20000000138451022645102])

def xrmacTable38 : Bool × List ℕ := (true, [
  10000010334940033487003, 15000010313470031341003, 19396010372070027152002,
  419396010328640032807003, 20000010325890032539003, 20068010325710032521003,
  320068010335770033501003, 21089510332010033134003, 22163010328420032786003,
  222163010332410033176003, 30000010315250031500003, 40000010372970027181002,
  50000010340580023988002, 60000010324960022446002, 80000010311500021118002,
  10000010262740016037001, 15000010220790011938001, 16104610217140011585001,
  116104610211080025200001, 20000010263860013602001, 30000010221570011493001,
  40000010298180007346000, 50000010253060004103000, 60000010232140002511000,
  80000010214810001135000, 10000010183651016093101, 15000010133691012028101,
  20000010120421011013101, 30000010112471014906102, 40000010198111023634102,
  50000010184431023156102, 60000010175701022917102, 80000010164471022660102,
  10000000057141022498102, 12500000050721022342102, 15000000046301022225102,
  20000000040791022082102, 30000000035691021995102, 40000000033651022013102,
  50000000032861022066102, 60000000032681022130102, 80000000033171022260102,
  10000000134141022377102, 15000000136831022578102, 20000000139271022684102])

def xrmacTable39 : Bool × List ℕ := (true, [
  10000010338640033857003, 15000010314930031487003, 20000010374220027365002,
  20800010367380026682002, 420800010326270032569003, 21174110324660032412003,
  21555010323420032292003, 321555010332640033187003, 22614010329160032849003,
  23725010325970032540003, 223725010329620032897003, 30000010316540031623003,
  40000010379360027798002, 50000010344240024344002, 60000010327250022670002,
  80000010312580021224002, 10000010268710016619001, 15000010222790012130001,
  17038410216120011486001, 117038410210290024672001, 20000010268550013620001,
  30000010223300011558001, 40000010210650017790000, 50000010257640004388000,
  60000010234930002699000, 80000010216070001228000, 10000010190471016616101,
  15000010135951012203101, 20000010121491011093101, 30000010112891015186102,
  40000010110061013779102, 50000010186131023249102, 60000010177031022986102,
  80000010165461022708102, 10000000057951022537102, 12500000051411022375102,
  15000000046921022254102, 20000000041371022109102, 30000000036281022026102,
  40000000034281022048102, 50000000033551022107102, 60000000033411022174102,
  80000000033991022311102, 10000000135041022432102, 15000000137901022638102,
  20000000140481022746102])

def xrmacTable40 : Bool × List ℕ := (true, [
  10000010342100034203003, 15000010316310031625003, 20000010381150028057002,
  22223010362580026201002, 422223010323920032335003, 22641110322390032186003,
  23067010321200032071003, 323067010329530032878003, 24165410326410032575003,
  25316010323590032303003, 225316010326910032627003, 30000010317720031734003,
  40000010385070028344002, 50000010347550024664002, 60000010329350022873002,
  80000010313560021320002, 10000010274170017150001, 15000010224630012308001,
  17997610215010011380001, 117997610294700014164001, 20000010272370013555001,
  30000010224850011600001, 40000010211390018129000, 50000010261730004621000,
  60000010237440002859000, 80000010217210001310000, 10000010196581017080101,
  15000010137901012361101, 20000010122371011164101, 30000010113181015420102,
  40000010110181013885102, 50000010186931023311102, 60000010177561023025102,
  80000010165711022726102, 10000000058101022547102, 12500000051501022380102,
  15000000047001022257102, 20000000041461022112102, 30000000036441022033102,
  40000000034511022061102, 50000000033841022123102, 60000000033741022193102,
  80000000034411022335102, 10000000135541022460102, 15000000138551022670102,
  20000000141221022778102])

def xrmacTable41 : Bool × List ℕ := (true, [
  10000010346000034592003, 15000010317860031780003, 20000010388930028832002,
  23705010358440025786002, 423705010321810032125003, 24171410320450031992003,
  24647010319350031886003, 324647010326940032619003, 25785710324120032347003,
  26977010321610032104003, 226977010324700032405003, 30000010319060031859003,
  40000010391640028970002, 50000010351340025027002, 60000010331720023103002,
  80000010314690021429002, 10000010280380017754001, 15000010226720012508001,
  18985610214090011291001, 118985610287840013746001, 20000010277120013493001,
  30000010226660011648001, 40000010212230018511000, 50000010266440004884000,
  60000010240320003040000, 80000010218520001403000, 10000010110370007608101,
  15000010140231012542101, 20000010123441011247101, 30000010113571015705102,
  40000010110401014026102, 50000010188311023396102, 60000010178581023085102,
  80000010166421022764102, 10000000058661022575102, 12500000051961022402102,
  15000000047411022276102, 20000000041851022130102, 30000000036861022054102,
  40000000034981022086102, 50000000034361022153102, 60000000034321022227102,
  80000000035081022375102, 10000000136281022503102, 15000000139441022718102,
  20000000142241022828102])

def xrmacTable42 : Bool × List ℕ := (true, [
  10000010349420034935003, 15000010319250031918003, 20000010395930029531002,
  25202010354150025358002, 425202010319790031924003, 25721210318540031802003,
  26251010317500031703003, 326251010324330032360003, 27426710321830032119003,
  28655010319610031906003, 228655010322430032179003, 30000010320110031956003,
  40000010397030029475002, 50000010354500025328002, 60000010333730023295002,
  80000010315650021522002, 10000010285760018275001, 15000010228540012684001,
  19999510213080011193001, 119999510280550013293001, 20000010280540013336001,
  30000010228100011664001, 40000010212940018757000, 50000010270370005074000,
  60000010242740003178000, 80000010219620001477000, 10000010110960008042101,
  15000010142081012693101, 20000010124231011316101, 30000010113791015919102,
  40000010110471014117102, 50000010188481023437102, 60000010178511023104102,
  80000010166191022764102, 10000000058371022567102, 12500000051671022390102,
  15000000047131022263102, 20000000041631022118102, 30000000036751022046102,
  40000000034961022084102, 50000000034391022153102, 60000000034401022231102,
  80000000035231022382102, 10000000136501022513102, 15000000139781022731102,
  20000000142641022840102])

def xrmacTable43 : Bool × List ℕ := (true, [
  10000010353560035348003, 15000010320920032085003, 20000010310440031037003,
  26769010350720025014002, 426769010318120031758003, 27344310316990031648003,
  27932010316020031555003, 327932010322230032151003, 30000010318620031805003,
  30425010318000031745003, 230425010320590031995003, 40000010310360031009003,
  50000010358360025694002, 60000010336190023530002, 80000010316830021635002,
  10000010292310018908001, 15000010230760012898001, 20000010214100011290001,
  21044010212290011117001, 121044010274810013014001, 30000010229930011693001,
  40000010213810019075000, 50000010275210005312000, 60000010245710003348000,
  80000010220990001568000, 10000010111690008572101, 15000010144491012880101,
  20000010125341011403101, 30000010114181016214102, 40000010110661014257102,
  50000010189681023521102, 60000010179351023159102, 80000010166741022797102,
  10000000058761022589102, 12500000051971022406102, 15000000047401022276102,
  20000000041891022129102, 30000000037051022061102, 40000000035321022103102,
  50000000034821022178102, 60000000034871022258102, 80000000035781022415102,
  10000000137121022549102, 15000000140551022774102, 20000000143531022884102])

def xrmacTable44 : Bool × List ℕ := (true, [
  10000010357180035709003, 15000010322400032233003, 20000010311200031113003,
  28379010347040024646002, 428379010316440031591003, 29016810315420031492003,
  29669010314520031407003, 329669010323170032233003, 30000010319630031894003,
  32240010316380031584003, 232240010318740031811003, 40000010310950031063003,
  50000010361650026000002, 60000010338320023731002, 80000010317850021733002,
  10000010298000019456001, 15000010232700013085001, 20000010214990011376001,
  22117210211430011035001, 122117210268760012700001, 30000010231390011689001,
  40000010214520019251000, 50000010279260005477000, 60000010248220003476000,
  80000010222150001641000, 10000010112320009012101, 15000010146471013037101,
  20000010126181011475101, 30000010114401016445102, 40000010110741014355102,
  50000010189921023567102, 60000010179331023182102, 80000010166471022796102,
  10000000058461022581102, 12500000051661022393102, 15000000047101022262102,
  20000000041641022115102, 30000000036921022052102, 40000000035271022098102,
  50000000034821022176102, 60000000034911022259102, 80000000035911022419102,
  10000000137301022556102, 15000000140841022783102, 20000000143871022893102])

def xrmacTable45 : Bool × List ℕ := (true, [
  10000010361690036160003, 15000010324260032419003, 20000010312140031207003,
  30000010344410024382002, 30038010344270024368002, 430038010315130031461003,
  30741310314220031372003, 31461010313370031292003, 331461010318470031777003,
  32763110316710031608003, 34119010315120031458003, 234119010317310031669003,
  40000010311700031132003, 50000010365890026396002, 60000010341010023985002,
  80000010319150021857002, 10000010210530021015002, 15000010235180013322001,
  20000010216130011484001, 23219910210790019736000, 123219910264140012458001,
  30000010233300011699001, 40000010215440019520000, 50000010284480005706000,
  60000010251470003649000, 80000010223650001737000, 10000010113140009581101,
  15000010149161013241101, 20000010127421011571101, 30000010114851016776102,
  40000010110971014517102, 50000010191341023663102, 60000010180351023247102,
  80000010167111022834102, 10000000058941022608102, 12500000052041022413102,
  15000000047441022278102, 20000000041971022131102, 30000000037281022071102,
  40000000035681022122102, 50000000035291022204102, 60000000035421022290102,
  80000000036501022456102, 10000000137971022597102, 15000000141661022831102,
  20000000144811022943102])

def xrmacTable46 : Bool × List ℕ := (true, [
  10000010365380036529003, 15000010325790032571003, 20000010312920031285003,
  30000010347300024668002, 31733010341060024047002, 431733010313550031305003,
  32508510312870031238003, 33303010312150031171003, 333303010316640031597003,
  34645910315180031456003, 36043010313790031326003, 236043010315820031520003,
  40000010312270031182003, 50000010369120026688002, 60000010343080024175002,
  80000010320170021953002, 10000010211100021070002, 15000010237150013511001,
  20000010217040011571001, 24350310210030019016000, 124350310258980012208001,
  30000010234650011669001, 40000010216140019611000, 50000010288500005833000,
  60000010253990003759000, 80000010224810001804000, 10000010113770001000000,
  15000010151151013397101, 20000010128271011644101, 30000010115061017007102,
  40000010111031014611102, 50000010191341023704102, 60000010180101023262102,
  80000010166691022828102, 10000000058491022594102, 12500000051591022395102,
  15000000047021022259102, 20000000041621022112102, 30000000037041022056102,
  40000000035521022111102, 50000000035181022196102, 60000000035371022284102,
  80000000036511022453102, 10000000138021022595102, 15000000141811022832102,
  20000000145011022944102])

def xrmacTable47 : Bool × List ℕ := (true, [
  10000010370390037029003, 15000010327900032782003, 20000010314010031393003,
  30000010351360025073002, 33511010338870023827002, 433511010312740031223003,
  34363210312000031151003, 35237010311260031082003, 335237010315470031479003,
  36620310314090031348003, 38058010312820031229003, 238058010314680031406003,
  40000010313050031252003, 50000010373850027122002, 60000010346100024457002,
  80000010321640022092002, 10000010211930021149002, 15000010239980013780001,
  20000010218360011695001, 25514010295270008534000, 125514010255390012031001,
  30000010236680011660001, 40000010217200019869000, 50000010294440006066000,
  60000010257660003938000, 80000010226510001907000, 10000010114700001062000,
  15000010154261013622101, 20000010129721011751101, 30000010115601017392102,
  40000010111311014803102, 50000010193211023822102, 60000010181531023347102,
  80000010167661022881102, 10000000059211022632102, 12500000052171022425102,
  15000000047541022284102, 20000000042091022135102, 30000000037541022082102,
  40000000036061022142102, 50000000035771022232102, 60000000036011022324102,
  80000000037231022499102, 10000000138821022647102, 15000000142761022889102,
  20000000146091023005102])

def xrmacTable48 : Bool × List ℕ := (true, [
  10000010373500037340003, 15000010329310032922003, 20000010314730031466003,
  30000010354140025350002, 35375010335750023517002, 435375010311520031103003,
  36310110310830031036003, 37270010310130039715002, 337270010313890031324003,
  40000010311700031118003, 40180010311570031106003, 240180010313240031264003,
  50000010376850027383002, 60000010347930024619002, 80000010322540022174002,
  10000010212440021197002, 15000010241780013952001, 20000010219200011776001,
  26711210288090007863000, 126711210250650011821001, 30000010237650011594001,
  40000010217780019812000, 50000010297790006115000, 60000010259750004001000,
  80000010227510001957000, 10000010115240001096000, 15000010155931013753101,
  20000010130381011813101, 30000010115711017580102, 40000010111291014868102,
  50000010192501023838102, 60000010180641023339102, 80000010166701022854102,
  10000000058261022597102, 12500000051291022387102, 15000000046731022247102,
  20000000041391022099102, 30000000036981022051102, 40000000035591022114102,
  50000000035361022206102, 60000000035631022300102, 80000000036911022477102,
  10000000138531022625102, 15000000142531022869102, 20000000145871022985102])

def xrmacTable49 : Bool × List ℕ := (true, [
  10000010378090037797003, 15000010331310033122003, 20000010315780031570003,
  30000010358080025743002, 37301010333560023298002, 437301010310460039989002,
  38326410399300029465002, 39380010393130028905002, 339380010312610031199003,
  40000010312310031170003, 42375010310660031016003, 242375010312230031164003,
  50000010381340027780002, 60000010350720024871002, 80000010323910022301002,
  10000010213210021269002, 15000010244450014206001, 20000010220440011893001,
  27939910283160007395000, 127939910247330011670001, 30000010239490011553001,
  40000010218730019911000, 50000010210300016262000, 60000010263060004135000,
  80000010229070002043000, 10000010116090001150000, 15000010158761013960101,
  20000010131671011913101, 30000010116141017923102, 40000010111491015031102,
  50000010193711023932102, 60000010181381023398102, 80000010167071022883102,
  10000000058491022615102, 12500000051441022398102, 15000000046841022254102,
  20000000041511022105102, 30000000037151022060102, 40000000035821022127102,
  50000000035641022223102, 60000000035961022321102, 80000000037301022502102,
  10000000138981022653102, 15000000143111022903102, 20000000146541023020102])

def xrmacTable50 : Bool × List ℕ := (true, [
  10000010381570038144003, 15000010332960033287003, 20000010316650031657003,
  30000010361430026077002, 39288010331140023058002, 439288010392850028845002,
  40000010393930028945002, 41561010384690028074002, 341561010311450031084003,
  43076410310600031002003, 44647010397120029221002, 244647010311170031059003,
  50000010384710028064002, 60000010352940025065002, 80000010325000022400002,
  10000010213840021327002, 15000010246640014413001, 20000010221460011990001,
  29200110277600006876000, 129200110243600011514001, 30000010241210011490001,
  40000010219420019835000, 50000010210700016314000, 60000010265640004211000,
  80000010230290002101000, 10000010116760001189000, 15000010160911014119101,
  20000010132601011990101, 30000010116391018179102, 40000010111561015138102,
  50000010193741023980102, 60000010181131023417102, 80000010166621022878102,
  10000000058001022601102, 12500000050951022379102, 15000000046381022233102,
  20000000041121022085102, 30000000036861022044102, 40000000035611022115102,
  50000000035481022213102, 60000000035831022312102, 80000000037241022496102,
  10000000138951022649102, 15000000143151022901102, 20000000146621023018102])

def xrmacTable51 : Bool × List ℕ := (true, [
  10000010385820038568003, 15000010334910033481003, 20000010317670031759003,
  30000010365360026469002, 40000010331690023113002, 41322010329180022863002,
  441322010386910028252002, 42544910383080027865002, 43804010377760027392002,
  343804010310500039906002, 45365710397430029178002, 46983010389390028457002,
  246983010310290039725002, 50000010388460028377002, 60000010355690025305002,
  80000010326310022518002, 10000010214590021396002, 15000010249230014657001,
  20000010222680012105001, 30000010276310006755000, 30491210273070006452000,
  130491210240730011391001, 40000010220270019789000, 50000010211200016400000,
  60000010268790004311000, 80000010231760002173000, 10000010117580001237000,
  15000010163611014312101, 20000010133811012084101, 30000010116771018504102,
  40000010111721015288102, 50000010194531024061102, 60000010181531023465102,
  80000010166701022896102, 10000000057971022608102, 12500000050861022378102,
  15000000046281022230102, 20000000041051022081102, 30000000036861022043102,
  40000000035671022118102, 50000000035591022219102, 60000000035981022321102,
  80000000037451022509102, 10000000139211022664102, 15000000143511022920102,
  20000000147041023038102])

def xrmacTable52 : Bool × List ℕ := (true, [
  10000010384340038419003, 10030010383800038365003, 10060010383260038311003,
  510060010386840038668003, 15000010336080033598003, 20000010318320031824003,
  30000010367920026726002, 40000010332970023240002, 43414010326780022625002,
  443414010378820027460002, 44746510375040027078002, 46120010369950026629002,
  346120010394450028880002, 47728010387820028237002, 49392010380620027600002,
  249392010392920028744002, 50000010390140028487002, 60000010357210025423002,
  80000010327020022578002, 10000010215010021433002, 15000010250780014802001,
  20000010223410012175001, 30000010278780006997000, 31813810267380005929000,
  131813810237190011251001, 40000010220640019480000, 50000010211450016330000,
  60000010270410004306000, 80000010232550002195000, 10000010118010001256000,
  15000010164921014409101, 20000010134291012132101, 30000010116791018646102,
  40000010111631015326102, 50000010193281024055102, 60000010180221023440102,
  80000010165381022854102, 10000000056691022559102, 12500000049671022327102,
  15000000045181022179102, 20000000040091022033102, 30000000036061021998102,
  40000000034941022075102, 50000000034921022177102, 60000000035341022279102,
  80000000036831022466102, 10000000138601022620102, 15000000142901022873102,
  20000000146421022989102])

def xrmacTable53 : Bool × List ℕ := (true, [
  10000010390960039078003, 10354210384650038448003, 10721010378630037847003,
  510721010381980038181003, 15000010339190033908003, 20000010319970031988003,
  30000010374200027351002, 40000010336070023548002, 45571010325920022537002,
  445571010375500027121002, 47022910371230026724002, 48521010366360026270002,
  348521010389430028375002, 50000010384300027903002, 51881010376650027198002,
  251881010388370028283002, 60000010361730025822002, 80000010329220022777002,
  10000010216260021548002, 15000010255120015208001, 20000010225430012363001,
  30000010285610007622000, 33169410265530005744000, 133169410235820011188001,
  40000010222100019616000, 50000010212320016573000, 60000010275790004518000,
  80000010235100002331000, 10000010119420001342000, 15000010169781014742101,
  20000010136631012295101, 30000010117711019257102, 40000010112171015650102,
  50000010197011024267102, 60000010183131023598102, 80000010167491022962102,
  10000000058411022646102, 12500000051111022399102, 15000000046471022243102,
  20000000041241022092102, 30000000037161022059102, 40000000036071022142102,
  50000000036081022250102, 60000000036551022357102, 80000000038151022553102,
  10000000140021022714102, 15000000144551022980102, 20000000148231023101102])

def xrmacTable54 : Bool × List ℕ := (true, [
  10000010394130039393003, 10719110381510038132003, 11490010370350037019003,
  511490010373380037321003, 15000010340850034073003, 20000010320880032078003,
  30000010377800027709002, 40000010337870023728002, 47822010324080022355002,
  447822010369410026524002, 50000010363920026015002, 51037010360440025693002,
  351037010381810027630002, 52753610375790027079002, 54528010369910026539002,
  254528010380640027527002, 60000010363760025979002, 80000010330320022871002,
  10000010216900021605002, 15000010257430015420001, 20000010226520012465001,
  30000010289300007969000, 34561410261290005352000, 134561410233160011086001,
  40000010222700019323000, 50000010212720016540000, 60000010278250004541000,
  80000010236330002374000, 10000010120110001376000, 15000010172021014894101,
  20000010137601012373101, 30000010117971019522102, 40000010112231015761102,
  50000010196991024317102, 60000010182811023617102, 80000010166961022956102,
  10000000057851022630102, 12500000050541022378102, 15000000045941022221102,
  20000000040781022070102, 30000000036811022042102, 40000000035771022128102,
  50000000035831022240102, 60000000036341022350102, 80000000037971022553102,
  10000000139871022720102, 15000000144451023002102, 20000000148151023139102])

def xrmacTable55 : Bool × List ℕ := (true, [
  10000010393650039343003, 10319910387750038754003, 10650010382140038194003,
  610650010386850038663003, 11385110375760037557003, 12171010365840036567003,
  512171010368880036870003, 15000010343350034322003, 20000010322260032216003,
  30000010383190028246002, 40000010340550023994002, 50000010323030022251002,
  50119010322900022237002, 450119010366740026248002, 51827410361840025763002,
  53594010356450025299002, 353594010376920027142002, 55340110371460026610002,
  57143010365560026108002, 257143010375470027015002, 60000010367110026253002,
  80000010332140023029002, 10000010217930021697002, 15000010261040015753001,
  20000010228220012623001, 30000010295070008502000, 35984610258630005102000,
  135984610231430011017001, 40000010223810019185000, 50000010213400016618000,
  60000010282480004653000, 80000010238360002464000, 10000010121240001438000,
  15000010175891015154101, 20000010139411012502101, 30000010118631011000101,
  40000010112571016003102, 50000010199121024463102, 60000010184311023717102,
  80000010167891023014102, 10000000058541022671102, 12500000051081022408102,
  15000000046411022246102, 20000000041211022091102, 30000000037251022064102,
  40000000036251022153102, 50000000036351022268102, 60000000036891022380102,
  80000000038601022583102, 10000000140571022750102, 15000000145291023026102,
  20000000149101023152102])

def xrmacTable56 : Bool × List ℕ := (true, [
  10000010385430038521003, 10306310379900037969003, 10622010374650037445003,
  710622010385470038524003, 10988210379570037935003, 11367010374040037384003,
  611367010378370037815003, 12122410368610036841003, 12928010359850035968003,
  512928010362550036237003, 15000010344990034485003, 20000010323190032308003,
  30000010386960028622002, 40000010342460024184002, 50000010324140022361002,
  52470010321350022084002, 452470010360980025689002, 54320410356340025263002,
  56236010351690024835002, 356236010370160026486002, 58033310365070026025002,
  59888010360130025577002, 259888010369300026412002, 60000010368980026383002,
  80000010333340023127002, 10000010218600021754002, 15000010263470015972001,
  20000010229380012730001, 30000010299040008875000, 37440610254980004768000,
  137440610229190019346000, 40000010224570018842000, 50000010213790016534000,
  60000010285110004660000, 80000010239630002501000, 10000010121960001470000,
  15000010178281015309101, 20000010140461012583101, 30000010118911011028101,
  40000010112651016125102, 50000010199231024521102, 60000010184101023743102,
  80000010167441023011102, 10000000058031022657102, 12500000050581022388102,
  15000000045921022224102, 20000000040781022069102, 30000000036921022044102,
  40000000035981022135102, 50000000036121022250102, 60000000036691022363102,
  80000000038441022566102, 10000000140421022731102, 15000000145181023003102,
  20000000149021023126102])

def xrmacTable57 : Bool × List ℕ := (true, [
  10000010390870039061003, 10599110379880037965003, 11234010370000036979003,
  711234010380250038001003, 11632010374470037425003, 12044010369110036890003,
  612044010373210037298003, 12804510364400036419003, 13613010356520035634003,
  513613010359050035886003, 15000010347720034755003, 20000010324640032453003,
  30000010392670029190002, 40000010345310024468002, 50000010325780022524002,
  54827010320390021988002, 454827010357640025356002, 56829910353020024935002,
  58906010348460024517002, 358906010365450026023002, 60000010363190025819002,
  62663010356540025221002, 262663010365180026003002, 80000010335290023290002,
  10000010219670021847002, 15000010267310016321001, 20000010231190012897001,
  30000010210520019444000, 38924610252710004554000, 138924610227720018785000,
  40000010225790018608000, 50000010214470016560000, 60000010289620004756000,
  80000010241770002587000, 10000010123150001532000, 15000010182391015576101,
  20000010142391012718101, 30000010119611011079101, 40000010113011016382102,
  50000010110151014677102, 60000010185701023849102, 80000010168431023073102,
  10000000058761022700102, 12500000051101022418102, 15000000046401022249102,
  20000000041221022090102, 30000000037371022068102, 40000000036461022161102,
  50000000036641022280102, 60000000037261022395102, 80000000039071022602102,
  10000000141131022769102, 15000000146031023043102, 20000000149961023163102])

def xrmacTable58 : Bool × List ℕ := (true, [
  10000010397110039679003, 10887610379910037964003, 11854010365630036541003,
  711854010375450037519003, 12283210369840036960003, 12728010364650036442003,
  612728010368530036829003, 13522210360310036010003, 14366010352930035273003,
  514366010355320035512003, 15000010350330035015003, 20000010326070032595003,
  30000010398570029776002, 40000010348110024745002, 50000010327400022684002,
  57234010319430021892002, 457234010354540025046002, 60000010349080024550002,
  61642010345540024228002, 361642010361880025665002, 63535910357560025278002,
  65488010353320024899002, 265488010361490025633002, 80000010337320023458002,
  10000010220820021945002, 15000010271430016690001, 20000010233120013073001,
  30000010211190011005001, 40000010252150004496000, 40443010250660004359000,
  140443010226350018272000, 50000010215200016569000, 60000010294470004847000,
  80000010244090002677000, 10000010124450001597000, 15000010186871015862101,
  20000010144521012865101, 30000010120391011134101, 40000010113421016664102,
  50000010110411014851102, 60000010187571023970102, 80000010169621023145102,
  10000000059611022750102, 12500000051811022456102, 15000000047011022281102,
  20000000041771022118102, 30000000037921022096102, 40000000037051022194102,
  50000000037271022316102, 60000000037921022434102, 80000000039811022645102,
  10000000141941022816102, 15000000146991023094102, 20000000151031023216102])

def xrmacTable59 : Bool × List ℕ := (true, [
  10000010310580041054004, 11145410381220038091003, 12422010362780036254003,
  712422010372240037196003, 12889210366610036635003, 13374010361420036118003,
  613374010365130036487003, 15000010350900035069003, 15110010350060034986003,
  515110010352350035214003, 20000010327680032755003, 30000010310470031038003,
  40000010351310025061002, 50000010329240022865002, 59643010318680021816002,
  459643010352140024802002, 60000010351450024739002, 64404010343100023984002,
  364404010358570025333002, 66346710354550024976002, 68348010350600024625002,
  268348010358360025317002, 80000010339500023634002, 10000010222090022052002,
  15000010275970017094001, 20000010235260013267001, 30000010211920011072001,
  40000010255570004803000, 41990610248920004192000, 141990610225180017833000,
  50000010215990016567000, 60000010299770004942000, 80000010246640002773000,
  10000010125880001667000, 15000010191801016172101, 20000010146871013025101,
  30000010121261011195101, 40000010113891016980102, 50000010110711015047102,
  60000010189761024107102, 80000010171051023229102, 10000000060701022811102,
  12500000052681022503102, 15000000047791022320102, 20000000042441022152102,
  30000000038581022131102, 40000000037741022233102, 50000000038001022359102,
  60000000038701022481102, 80000000040671022697102, 10000000142881022872102,
  15000000148091023155102, 20000000152261023277102])

def xrmacTable60 : Bool × List ℕ := (true, [
  10000010366270036598003, 10025010368060036776003, 10050010369490036918003,
  810050010385540038516003, 11418810375790037547003, 12974010359330035908003,
  712974010368330036803003, 13490710362640036236003, 14028010357440035719003,
  614028010360930036066003, 15000010352730035250003, 15753010347380034717003,
  515753010349510034929003, 20000010328780032864003, 30000010310930031084003,
  40000010353660025294002, 50000010330610023000002, 60000010319270021874002,
  62079010317670021715002, 462079010348920024484002, 64596010344870024079002,
  67215010340130023694002, 367215010354560024939002, 69208010351350024614002,
  71260010347230024293002, 271260010354480024936002, 80000010340940023739002,
  10000010223000022125002, 15000010279250017376001, 20000010236840013407001,
  30000010212470011121001, 40000010258090005033000, 43568910246420003962000,
  143568910223660017296000, 50000010216500016418000, 60000010210330014928000,
  80000010248390002815000, 10000010126870001706000, 15000010195221016376101,
  20000010148441013133101, 30000010121781011236101, 40000010114121017177102,
  50000010110831015157102, 60000010190401024174102, 80000010171271023258102,
  10000000060721022823102, 12500000052621022505102, 15000000047691022318102,
  20000000042361022148102, 30000000038561022129102, 40000000037761022233102,
  50000000038061022360102, 60000000038791022483102, 80000000040811022701102,
  10000000143041022876102, 15000000148321023159102, 20000000152571023283102])

def xrmacTable61 : Bool × List ℕ := (true, [
  10000010320560032046003, 10133610320070031997003, 10269010319590031949003,
  910269010327290032715003, 10391310338940033874003, 10515010358300035801003,
  810515010372420037205003, 11944810372320037196003, 13569010356870035660003,
  713569010365550036524003, 14129910359850035956003, 14714010354660035439003,
  614714010357990035770003, 15000010355530035526003, 16530010344970034474003,
  516530010346990034676003, 20000010330480033031003, 30000010311620031152003,
  40000010357090025633002, 50000010332600023196002, 60000010320530021998002,
  64593010317020021649002, 464593010346780024267002, 67303610342260023864002,
  70128010338050023487002, 370128010351740024657002, 72173710348840024359002,
  74279010344940024062002, 274279010351840024669002, 80000010343140023908002,
  10000010224400022240002, 15000010284110017799001, 20000010239160013614001,
  30000010213270011193001, 40000010261810005366000, 45184010244910003816000,
  145184010222650016930000, 50000010217350016363000, 60000010210870014989000,
  80000010251070002904000, 10000010128400001776000, 15000010110050006699101,
  20000010150981013302101, 30000010122731011301101, 40000010114621017517102,
  50000010111151015369102, 60000010192761024323102, 80000010172801023349102,
  10000000061881022889102, 12500000053501022553102, 15000000048491022360102,
  20000000043081022184102, 30000000039251022166102, 40000000038491022273102,
  50000000038821022405102, 60000000039591022532102, 80000000041691022754102,
  10000000144011022933102, 15000000149461023222102, 20000000153801023344102])

def xrmacTable62 : Bool × List ℕ := (true, [
  10000010321070032097003, 10393310319630031953003, 10802010318270031817003,
  910802010326350032620003, 10930210338370033816003, 11060010356130035582003,
  811060010368520036814003, 12531210366410036605003, 14198010352620035234003,
  714198010360720036039003, 15000010353580035329003, 15407010350460035018003,
  615407010353550035325003, 16292110347400034714003, 17228010341890034165003,
  517228010343760034352003, 20000010331200033102003, 30000010311930031183003,
  40000010358730025795002, 50000010333560023291002, 60000010321150022059002,
  67162010315870021536002, 467162010343340023933002, 70076710338980023547002,
  73118010334960023189002, 373118010347560024255002, 75213010345010023988002,
  77368010341410023721002, 277368010347770024276002, 80000010344010023951002,
  10000010224990022278002, 15000010286330017972001, 20000010240250013706001,
  30000010213650011227001, 40000010263620005532000, 46834210242080003562000,
  146834210221000016378000, 50000010217740016094000, 60000010211070014872000,
  80000010252120002893000, 10000010129010001786000, 15000010110270006806101,
  20000010151921013366101, 30000010122961011326101, 40000010114661017620102,
  50000010111121015411102, 60000010192181024334102, 80000010172011023333102,
  10000000061061022862102, 12500000052711022522102, 15000000047731022325102,
  20000000042401022150102, 30000000038681022133102, 40000000037971022241102,
  50000000038331022372102, 60000000039121022498102, 80000000041241022719102,
  10000000143551022896102, 15000000148991023180102, 20000000153351023302102])

def xrmacTable63 : Bool × List ℕ := (true, [
  10000010322160032206003, 10634410319780031968003, 11309010317630031753003,
  911309010324430032428003, 11456510336170033595003, 11606010354160035382003,
  811606010365400036498003, 13108710362910036253003, 14806010350310035001003,
  714806010358100035774003, 15000010356240035590003, 16139010347710034742003,
  616139010350640035034003, 17044110344920034465003, 18000010339800033955003,
  518000010341580034132003, 20000010332780033258003, 30000010312560031245003,
  40000010361930026111002, 50000010335420023474002, 60000010322340022175002,
  69769010315220021471002, 469769010341270023725002, 72899710336960023346002,
  76171010333020022998002, 376171010344920023993002, 80000010339890023560002,
  80520010339210023502002, 280520010345240024024002, 10000010226290022378002,
  15000010290870018352001, 20000010242420013895001, 30000010214410011295001,
  40000010267160005848000, 48519010240510003414000, 148519010220010016036000,
  50000010218500015927000, 60000010211550014863000, 80000010254550002953000,
  10000010130400001841000, 15000010110760007088101, 20000010154251013518101,
  30000010123801011385101, 40000010115091017927102, 50000010111391015598102,
  60000010194041024462102, 80000010173121023406102, 10000000061861022912102,
  12500000053311022557102, 15000000048221022353102, 20000000042851022173102,
  30000000039131022158102, 40000000038451022269102, 50000000038851022404102,
  60000000039671022532102, 80000000041851022758102, 10000000144221022938102,
  15000000149801023228102, 20000000154231023351102])

def xrmacTable64 : Bool × List ℕ := (true, [
  10000010322910032281003, 10886710319600031949003, 11852010316680031658003,
  911852010319310031919003, 12010910325270032510003, 12172010339610033934003,
  812172010347640034731003, 15000010350410035008003, 15440010347010034670003,
  715440010354320035395003, 16145410349000034867003, 16883010344210034391003,
  616883010346940034662003, 17819510341640034136003, 18808010336910033666003,
  518808010338540033829003, 20000010333600033337003, 30000010312920031280003,
  40000010363800026296002, 50000010336530023584002, 60000010323050022246002,
  72428010314290021379002, 472428010338440023452002, 75787610334270023088002,
  79303010330490022755002, 379303010341490023665002, 80000010340680023595002,
  83756010336310023223002, 283756010341900023702002, 10000010226930022416002,
  15000010293350018538001, 20000010243630013994001, 30000010214840011333001,
  40000010269200006033000, 50000010238590003242000, 50239110238120003199000,
  150239110218640015585000, 60000010211750014722000, 80000010255730002937000,
  10000010131090001849000, 15000010111000007197101, 20000010155341013584101,
  30000010124101011409101, 40000010115171018039102, 50000010111391015650102,
  60000010193711024483102, 80000010172521023399102, 10000000061201022893102,
  12500000052621022530102, 15000000047591022325102, 20000000042281022144102,
  30000000038651022129102, 40000000038021022241102, 50000000038441022374102,
  60000000039281022502102, 80000000041471022725102, 10000000143841022902102,
  15000000149431023188102, 20000000153851023306102])

def xrmacTable65 : Bool × List ℕ := (true, [
  10000010323960032386003, 11140910319560031946003, 12412010315910031581003,
  912412010323370032321003, 12579910335150033488003, 12750010350230034984003,
  812750010359280035881003, 15000010353140035274003, 16113010344640034431003,
  716113010351640035125003, 16876910346350034601003, 17677010341660034135003,
  617677010344240034391003, 18649310339290033899003, 19675010334820033456003,
  519675010336380033611003, 20000010335070033481003, 30000010313540031342003,
  40000010366970026607002, 50000010338380023765002, 60000010324230022362002,
  75140010313680021318002, 475140010336580023266002, 80000010331330022810002,
  82516010328810022590002, 382516010339250023443002, 84767310336840023239002,
  87080010334410023033002, 287080010339700023483002, 10000010228150022502002,
  15000010298020018914001, 20000010245880014184001, 30000010215630011402001,
  40000010272880006357000, 50000010240640003422000, 51995710236720003068000,
  151995710217770015291000, 60000010212230014673000, 80000010258260002986000,
  10000010132530001899000, 15000010111510007474101, 20000010157751013736101,
  30000010124981011470101, 40000010115621018354102, 50000010111671015842102,
  60000010195621024614102, 80000010173651023474102, 10000000061961022942102,
  12500000053211022565102, 15000000048081022352102, 20000000042721022166102,
  30000000039081022151102, 40000000038481022266102, 50000000038941022402102,
  60000000039811022532102, 80000000042061022758102, 10000000144491022937102,
  15000000150171023224102, 20000000154701023343102])

def xrmacTable66 : Bool × List ℕ := (true, [
  10000010324940032483003, 11379410319530031943003, 12949010315210031511003,
  912949010321730032156003, 13135610332930033265003, 13325010347450034704003,
  813325010355510035502003, 15000010355500035503003, 16756010342290034194003,
  716756010348960034855003, 17567410343820034345003, 18418010339240033892003,
  618418010341680034133003, 20000010334670033438003, 20468010332860033259003,
  520468010334330033404003, 30000010314050031391003, 40000010369530026858002,
  50000010339880023913002, 60000010325200022456002, 77901010312990021249002,
  477901010334370023051002, 80000010332690022906002, 85806010326950022410002,
  385806010336720023198002, 88101310334520023013002, 90458010332280022826002,
  290458010337250023245002, 10000010229020022554002, 15000010210160029187001,
  20000010247650014328001, 30000010216250011456001, 40000010275820006616000,
  50000010242270003566000, 53788510235000002911000, 153788510216760014961000,
  60000010212590014554000, 80000010260120002993000, 10000010133600001925000,
  15000010111890007660101, 20000010159531013846101, 30000010125581011514101,
  40000010115901018578102, 50000010111811015971102, 60000010196441024694102,
  80000010173931023509102, 10000000062041022958102, 12500000053181022570102,
  15000000048011022352102, 20000000042651022163102, 30000000039051022149102,
  40000000038481022264102, 50000000038961022401102, 60000000039861022532102,
  80000000042141022758102, 10000000144601022938102, 15000000150331023223102,
  20000000154921023342102])

def xrmacTable67 : Bool × List ℕ := (true, [
  10000010326160032605003, 11625010319610031951003, 13514010314620031452003,
  913514010321080032091003, 13713010331930033164003, 13915010345280034485003,
  813915010352390035187003, 15000010358470035790003, 17412010340380034001003,
  717412010346770034633003, 18297510341610034122003, 19228010337030033669003,
  619228010339340033898003, 20000010335900033558003, 21283010331270033099003,
  521283010332660033236003, 30000010314650031450003, 40000010372640027164002,
  50000010341700024091002, 60000010326360022570002, 80000010312710021220002,
  80711010312420021192002, 480711010332830022897002, 84838910328890022560002,
  89178010325400022260002, 389178010334630022994002, 91529010332590022825002,
  93942010330510022652002, 293942010335200023044002, 10000010230120022623002,
  15000010210600029521001, 20000010249800014504001, 30000010217010011521001,
  40000010279400006928000, 50000010244250003740000, 55617710233610002783000,
  155617710215920014697000, 60000010213090014466000, 80000010262440003015000,
  10000010134920001961000, 15000010112360007901101, 20000010161781013984101,
  30000010126391011570101, 40000010116291018869102, 50000010112051016145102,
  60000010198001024811102, 80000010174771023571102, 10000000062571022997102,
  12500000053511022593102, 15000000048281022369102, 20000000042891022175102,
  30000000039301022161102, 40000000038771022279102, 50000000039271022417102,
  60000000040201022549102, 80000000042531022777102, 10000000145041022958102,
  15000000150881023245102, 20000000155511023363102])

def xrmacTable68 : Bool × List ℕ := (true, [
  10000010327480032737003, 11871410319780031967003, 14093010314080031397003,
  914093010320690032051003, 14311310331700033138003, 14533010343390034293003,
  814533010349520034898003, 15000010360690036003003, 18118010338410033802003,
  718118010344520034406003, 20000010335230033488003, 20058010334990033464003,
  620058010337170033680003, 21037610333370033304003, 22065010329950032965003,
  522065010331270033096003, 30000010315260031510003, 40000010375870027480002,
  50000010343590024276002, 60000010327570022688002, 80000010313300021278002,
  83579010311900021140002, 483579010331260022741002, 87994410327990022412002,
  92643010323970022121002, 392643010332710022806002, 95046810330800022650002,
  97513010328860022491002, 297513010333300022858002, 10000010231290022694002,
  15000010211060029860001, 20000010252040014683001, 30000010217800011588001,
  40000010283150007253000, 50000010246340003922000, 57485510232320002664000,
  157485510215140014442000, 60000010213620014349000, 80000010264780003028000,
  10000010136280001995000, 15000010112850008141101, 20000010164151014125101,
  30000010127241011629101, 40000010116721019173102, 50000010112301016329102,
  60000010199681024934102, 80000010175691023638102, 10000000063171023040102,
  12500000053921022620102, 15000000048601022388102, 20000000043171022190102,
  30000000039581022176102, 40000000039071022295102, 50000000039611022435102,
  60000000040561022569102, 80000000042941022799102, 10000000145491022981102,
  15000000151411023268102, 20000000156131023387102])

def xrmacTable69 : Bool × List ℕ := (true, [
  10000010328990032888003, 12114910319950031984003, 14677010313620031352003,
  914677010319190031901003, 15000010339370033892003, 15146010341450034098003,
  815146010348300034773003, 16894610344460034395003, 18845010336680033627003,
  718845010342540034206003, 20000010336860033646003, 20898010333260033290003,
  620898010335340033495003, 21956210331600033125003, 23068010328210032791003,
  523068010329450032914003, 30000010315940031576003, 40000010379460027831002,
  50000010345690024482002, 60000010328920022820002, 80000010313970021342002,
  86480010311460021096002, 486480010329910022606002, 91195910326090022284002,
  96169010322740022001002, 396169010331010022640002, 10000010228300022420002,
  10115710227450022351002, 210115710231670022697002, 15000010211570021023002,
  20000010254530014882001, 30000010218680011663001, 40000010287350007615000,
  50000010248670004124000, 59389610231220002562000, 159389610212000014721000,
  60000010214090014203000, 80000010267410003044000, 10000010137800002033000,
  15000010113400008410101, 20000010166821014283101, 30000010128221011695101,
  40000010117221019522102, 50000010112611016544102, 60000010110181015081102,
  80000010176931023721102, 10000000064041023095102, 12500000054551022658102,
  15000000049121022417102, 20000000043621022214102, 30000000040021022199102,
  40000000039541022321102, 50000000040101022463102, 60000000041081022598102,
  80000000043521022832102, 10000000146121023016102, 15000000152161023305102,
  20000000156981023424102])

def xrmacTable70 : Bool × List ℕ := (true, [
  10000010330170033006003, 15000010313500031340003, 15278010313000031289003,
  915278010319650031944003, 15518610329490032914003, 15763010339080033859003,
  815763010345400034482003, 17531310342000034146003, 19498010334950033453003,
  719498010340540034004003, 20000010337970033751003, 21730010331280033091003,
  621730010333230033284003, 22827810329700032935003, 23981010326520032621003,
  523981010327690032737003, 30000010316400031620003, 40000010381930028072002,
  50000010347170024626002, 60000010329880022913002, 80000010314440021389002,
  89436010310880021039002, 489436010328240022444002, 94467510325110022134002,
  99782010321280021862002, 399782010329060022455002, 10000010228930022444002,
  10486410225770022189002, 210486410229730022512002, 15000010211930021047002,
  20000010256280015012001, 30000010219320011716001, 40000010290400007875000,
  50000010250380004273000, 60000010231470002584000, 61332310229750002432000,
  161332310213650013964000, 80000010269090003008000, 10000010138810002038000,
  15000010113780008554101, 20000010168601014381101, 30000010128821011737101,
  40000010117491019741102, 50000010112741016671102, 60000010110251015159102,
  80000010177101023754102, 10000000063971023107102, 12500000054391022658102,
  15000000048951022413102, 20000000043471022208102, 30000000039891022191102,
  40000000039441022314102, 50000000040021022457102, 60000000041011022593102,
  80000000043471022826102, 10000000146091023010102, 15000000152181023302102,
  20000000157001023419102])

def xrmacTable71 : Bool × List ℕ := (true, [
  10000010331870033175003, 15000010314240031413003, 15885010312640031253003,
  915885010315970031581003, 16137510323020032273003, 16394010334420033396003,
  816394010339350033881003, 20000010334520033406003, 20236010333520033307003,
  720236010338900033838003, 21401910333970033352003, 22635010329690032931003,
  622635010331550033115003, 23746210328260032790003, 24912010325310032499003,
  524912010326400032607003, 30000010317100031688003, 40000010385600028430002,
  50000010349340024839002, 60000010331290023051002, 80000010315130021456002,
  92441010310490029994001, 492441010327030022324002, 10000010222110021916002,
  10348610220190021756002, 310348610227570022310002, 10606310226760022190002,
  10870410224500022065002, 210870410228260022369002, 15000010212470021084002,
  20000010258810015206001, 30000010220230011791001, 40000010294720008242000,
  50000010252790004480000, 60000010232970002712000, 63313810228740002339000,
  163313810213050013770000, 80000010271610003000000, 10000010140330002067000,
  15000010114330008805101, 20000010171301014534101, 30000010129811011803101,
  40000010117991011009101, 50000010113051016886102, 60000010110461015306102,
  80000010178291023836102, 10000000064781023161102, 12500000054961022695102,
  15000000049411022441102, 20000000043851022228102, 30000000040281022212102,
  40000000039851022337102, 50000000040451022481102, 60000000041471022618102,
  80000000043981022853102, 10000000146641023038102, 15000000152821023329102,
  20000000157731023446102])

def xrmacTable72 : Bool × List ℕ := (true, [
  10000010333350033324003, 15000010314890031478003, 16617010312030031192003,
  916617010315050031489003, 16888310321890032160003, 17164010332730033225003,
  817164010336820033628003, 20000010335980033546003, 21076010331520033108003,
  721076010336590033607003, 22327810331820033137003, 23654010327690032731003,
  623654010329430032903003, 24803610326370032601003, 26009010323630032331003,
  526009010324650032432003, 30000010317680031745003, 40000010388590028720002,
  50000010351130025013002, 60000010332440023164002, 80000010315710021512002,
  95607010399970019510001, 495607010325570022184002, 10000010223010021975002,
  10739410218940021639002, 310739410225890022151002, 11001810225220022042002,
  11270710223060021928002, 211270710226590022212002, 15000010212900021111002,
  20000010260870015353001, 30000010220980011851001, 40000010298280008542000,
  50000010254780004651000, 60000010234200002820000, 65350810227510002228000,
  165350810212370013557000, 80000010273520002958000, 10000010141540002075000,
  15000010114770008973101, 20000010173391014645101, 30000010130541011853101,
  40000010118341011035101, 50000010113241017044102, 60000010110581015409102,
  80000010178801023886102, 10000000065021023188102, 12500000055051022708102,
  15000000049441022447102, 20000000043871022230102, 30000000040301022212102,
  40000000039891022338102, 50000000040521022483102, 60000000041551022620102,
  80000000044091022855102, 10000000146771023040102, 15000000153011023330102,
  20000000157961023445102])

def xrmacTable73 : Bool × List ℕ := (true, [
  10000010335100033498003, 15000010315660031555003, 17351010311540031144003,
  917351010314170031401003, 17639110320530032024003, 17932010330820033034003,
  817932010334210033367003, 20000010337710033711003, 21940010329850032939003,
  721940010334640033411003, 23273010330030032957003, 24687010326040032566003,
  624687010327680032727003, 25855810324860032449003, 27080010322330032201003,
  527080010323290032296003, 30000010318380031812003, 40000010392220029073002,
  50000010353280025223002, 60000010333820023299002, 80000010316390021579002,
  98811010395990019117001, 498811010324430022073002, 10000010223790022021002,
  11136110217910021540002, 311136110224490022018002, 11405510223930021917002,
  11681510221820021811002, 211681510225180022077002, 15000010213400021143002,
  20000010263340015532001, 30000010221870011923001, 40000010210250018899000,
  50000010257170004854000, 60000010235690002947000, 67416410226520002139000,
  167416410211800013379000, 80000010275870002924000, 10000010143020002092000,
  15000010115310009188101, 20000010175981014784101, 30000010131491011915101,
  40000010118811011069101, 50000010113521017248102, 60000010110761015545102,
  80000010179811023960102, 10000000065671023235102, 12500000055451022736102,
  15000000049771022468102, 20000000044131022245102, 30000000040571022227102,
  40000000040181022354102, 50000000040821022499102, 60000000041881022638102,
  80000000044461022874102, 10000000147171023058102, 15000000153501023349102,
  20000000158521023464102])

def xrmacTable74 : Bool × List ℕ := (true, [
  10000010336830033671003, 15000010316430031632003, 18092010311080031097003,
  918092010313270031311003, 18401410319110031883003, 18716010329010032853003,
  818716010331700033116003, 20000010339220033853003, 22810010328280032781003,
  722810010332790033226003, 24235010328330032786003, 25749010324450032407003,
  625749010325990032558003, 26944710323390032301003, 28196010321040032071003,
  528196010321940032160003, 30000010319020031873003, 40000010395640029405002,
  50000010355340025423002, 60000010335140023428002, 80000010317050021643002,
  10000010296910019204001, 10206810292010018724001, 410206810223340021966002,
  10854810219830021684002, 11544010216890021444002, 311544010223120021889002,
  11818610222680021797002, 12099810220650021699002, 212099810223820021948002,
  15000010213890021172002, 20000010265730015697001, 30000010222730011991001,
  40000010210670019240000, 50000010259490005050000, 60000010237130003070000,
  69525010225520002049000, 169525010211230013212000, 80000010278100002879000,
  10000010144380002100000, 15000010115810009378101, 20000010178441014913101,
  30000010132381011973101, 40000010119251011100101, 50000010113781017440102,
  60000010110931015673102, 80000010180661024028102, 10000000066181023276102,
  12500000055771022761102, 15000000050001022484102, 20000000044331022256102,
  30000000040751022236102, 40000000040381022363102, 50000000041031022510102,
  60000000042101022649102, 80000000044721022886102, 10000000147471023072102,
  15000000153841023360102, 20000000158931023475102])

def xrmacTable75 : Bool × List ℕ := (true, [
  10000010338720033860003, 15000010317290031717003, 18224010311470031135003,
  918224010311520031141003, 18845910312510031235003, 19489010326890032642003,
  819489010338020033730003, 20000010337730033702003, 23673010326960032648003,
  723673010331240033069003, 25195510326860032639003, 26816010323090032270003,
  626816010324540032412003, 28038610322100032174003, 29317010319920031959003,
  529317010320780032043003, 30000010319720031939003, 40000010399430029771002,
  50000010357590025642002, 60000010336600023569002, 80000010317780021714002,
  10000010210110029610001, 10535310288580018386001, 410535310222340021869002,
  11224510219640021594002, 11958710216000021360002, 311958710221910021776002,
  12239410220790021690002, 12526710219610021600002, 212526710222620021834002,
  15000010214400021201002, 20000010268350015876001, 30000010223670012064001,
  40000010211120019614000, 50000010262060005265000, 60000010238720003205000,
  71676410224640001970000, 171676410210730013058000, 80000010280690002832000,
  10000010145870002107000, 15000010116370009580101, 20000010181191015054101,
  30000010133391012038101, 40000010119761011135101, 50000010114091017658102,
  60000010111141015822102, 80000010181791024109102, 10000000066881023327102,
  12500000056271022794102, 15000000050381022508102, 20000000044631022273102,
  30000000041051022251102, 40000000040681022380102, 50000000041371022527102,
  60000000042461022667102, 80000000045111022906102, 10000000147901023092102,
  15000000154371023382102, 20000000159531023496102])

def xrmacTable76 : Bool × List ℕ := (true, [
  10000010340320034019003, 15000010318010031790003, 19601010310230031012003,
  919601010320030031969003, 20000010322180032179003, 20308010326220032573003,
  820308010328640032810003, 22338510328520032797003, 24572010325460032498003,
  724572010329480032893003, 26193510325240032478003, 27922010321610032123003,
  627922010322960032255003, 30000010319380031904003, 30485010318690031836003,
  530485010319490031915003, 40000010310230031004003, 50000010359360025813002,
  60000010337760023682002, 80000010318360021770002, 10000010210450029940001,
  10870910284580017994001, 410870910221210021762002, 11603310218600021495002,
  12385010215030021271002, 312385010220600021654002, 12673110219560021576002,
  12968010218460021494002, 212968010221290021711002, 15000010214780021218002,
  20000010270390015999001, 30000010224430012120001, 40000010211490019907000,
  50000010264140005437000, 60000010240020003314000, 73870810223600001879000,
  173870810210160012888000, 80000010282900002756000, 10000010146960002092000,
  15000010116800009696101, 20000010183271015150101, 30000010134141012085101,
  40000010120111011161101, 50000010114281017813102, 60000010111251015923102,
  80000010182241024157102, 10000000067051023351102, 12500000056251022802102,
  15000000050341022511102, 20000000044581022272102, 30000000041001022248102,
  40000000040651022376102, 50000000041341022523102, 60000000042441022663102,
  80000000045111022901102, 10000000147911023086102, 15000000154421023375102,
  20000000159561023486102])

def xrmacTable77 : Bool × List ℕ := (true, [
  10000010342430034230003, 15000010318980031886003, 20000010310320031021003,
  20404010398820029771002, 920404010310660031053003, 20779010314920031466003,
  21161010324780032429003, 821161010326080032556003, 23232610326210032566003,
  25507010324240032376003, 725507010328000032744003, 27238210323930032345003,
  29087010320410032002003, 629087010321660032125003, 30000010320110031973003,
  31737010317670031734003, 531737010318430031809003, 40000010310630031043003,
  50000010361780026047002, 60000010339350023837002, 80000010319140021846002,
  10000010210900021038002, 11215410281550017695001, 411215410220380021681002,
  11992810217020021418002, 12824110214260021199002, 312824110219590021559002,
  13117910219330021486002, 13418510217560021409002, 213418510220250021613002,
  15000010215300021244002, 20000010273170016179001, 30000010225460012198001,
  40000010211990011030001, 50000010266930005667000, 60000010241760003460000,
  76111010222840001810000, 176111010297280002758000, 80000010285850002694000,
  10000010148550002093000, 15000010117400009903101, 20000010186281015290101,
  30000010135251012155101, 40000010120681011199101, 50000010114631018054102,
  60000010111491016088102, 80000010183571024250102, 10000000067941023412102,
  12500000056881022843102, 15000000050831022541102, 20000000045011022295102,
  30000000041391022269102, 40000000041041022398102, 50000000041741022546102,
  60000000042861022687102, 80000000045581022927102, 10000000148441023115102,
  15000000155021023405102, 20000000160241023516102])

def xrmacTable78 : Bool × List ℕ := (true, [
  10000010344330034421003, 15000010319860031974003, 20000010310810031069003,
  21216010395060029393002, 921216010310340031021003, 21613810314310031405003,
  22019010323410032292003, 822019010324870032434003, 24134810325120032457003,
  26454010323070032258003, 726454010326630032606003, 30000010319650031925003,
  30265010319230031884003, 630265010320410032000003, 31583810318440031806003,
  32960010316710031637003, 532960010317420031707003, 40000010311000031078003,
  50000010364020026262002, 60000010340830023979002, 80000010319870021917002,
  10000010211320021078002, 11563710278440017388001, 411563710219460021594002,
  12388710216180021339002, 13272610213490021127002, 313272610218530021463002,
  13572910218480021395002, 13879910216660021325002, 213879910219210021517002,
  15000010215780021265002, 20000010275740016333001, 30000010226410012268001,
  40000010212450011067001, 50000010269540005879000, 60000010243390003595000,
  78394810222030001738000, 178394810293010002627000, 80000010287310002592000,
  10000010149930002081000, 15000010117950001006000, 20000010188961015413101,
  30000010136251012216101, 40000010121181011233101, 50000010114921018265102,
  60000010111681016230102, 80000010184561024325102, 10000000068571023459102,
  12500000057271022871102, 15000000051121022560102, 20000000045221022307102,
  30000000041601022279102, 40000000041241022408102, 50000000041961022557102,
  60000000043101022699102, 80000000045841022939102, 10000000148721023127102,
  15000000155371023418102, 20000000160641023529102])

def xrmacTable79 : Bool × List ℕ := (true, [
  10000010346520034639003, 15000010320890032076003, 20000010311370031125003,
  22057010391870029074002, 922057010399710029836002, 22479910313860031360003,
  22911010322580032208003, 822911010323890032336003, 25068910323800032325003,
  27430010322030032154003, 727430010325410032484003, 30000010320490032005003,
  31478010318220031783003, 631478010319330031892003, 32834310317480031710003,
  34249010315850031552003, 534249010316520031618003, 40000010311440031120003,
  50000010366610026512002, 60000010342530024143002, 80000010320720021999002,
  10000010211810021126002, 11918710275820017129001, 411918710218700021521002,
  12794010215460021272002, 13733610212830021066002, 313733610217640021379002,
  14039810217660021317002, 14352810215880021252002, 214352810218300021432002,
  15000010216370021294002, 20000010278830016522001, 30000010227520012349001,
  40000010212980011109001, 50000010272560006124000, 60000010245280003751000,
  80000010221850001720000, 80724910221370001678000, 180724910289040002512000,
  10000010151580002074000, 15000010118600001026000, 20000010192141015563101,
  30000010137441012289101, 40000010121801011274101, 50000010115301018523102,
  60000010111941016409102, 80000010186031024427102, 10000000069531023525102,
  12500000057941022915102, 15000000051671022593102, 20000000045701022333102,
  30000000042011022302102, 40000000041661022432102, 50000000042391022582102,
  60000000043551022725102, 80000000046331022968102, 10000000149261023159102,
  15000000155981023450102, 20000000161361023565102])

def xrmacTable80 : Bool × List ℕ := (true, [
  10000010348300034817003, 15000010321740032161003, 20000010311840031172003,
  22949010387730028660002, 922949010399250029778002, 23394710314070031378003,
  23849010321510032101003, 823849010323160032261003, 26057710322570032202003,
  28471010320800032030003, 728471010324000032343003, 30000010321170032069003,
  32785010317040031666003, 632785010318080031767003, 34171210316380031600003,
  35616010314860031454003, 535616010315490031515003, 40000010311790031153003,
  50000010368690026710002, 60000010343870024272002, 80000010321400022065002,
  10000010212210021164002, 12283910272660016821001, 412283910217800021437002,
  13211310214640021197002, 14208710212090029988001, 314208710216630021289002,
  14520610216740021233002, 14839310215010021173002, 214839310217280021340002,
  15000010216810021307002, 20000010281230016647001, 30000010228410012410001,
  40000010213420011141001, 50000010275040006321000, 60000010246830003878000,
  80000010222590001782000, 83102310220550001607000, 183102310284640002384000,
  10000010152790002043000, 15000010119090001036000, 20000010194561015661101,
  30000010138341012342101, 40000010122241011304101, 50000010115551018711102,
  60000010112101016536102, 80000010186791024493102, 10000000069931023563102,
  12500000058141022936102, 15000000051791022605102, 20000000045751022339102,
  30000000042071022307102, 40000000041721022436102, 50000000042461022586102,
  60000000043621022730102, 80000000046431022975102, 10000000149371023165102,
  15000000156131023460102, 20000000161541023576102])

def xrmacTable81 : Bool × List ℕ := (true, [
  10000010350080034995003, 15000010322590032247003, 20000010312310031219003,
  23893010383520028240002, 923893010311360031115003, 24367310315820031546003,
  24851010320490031999003, 824851010323640032303003, 27106210322070032150003,
  29566010319580031910003, 729566010322670032210003, 30000010321880032135003,
  34157010315910031553003, 634157010316870031647003, 35569810315300031495003,
  37041010313920031360003, 537041010314520031419003, 40000010312120031185003,
  50000010370680026900002, 60000010345180024398002, 80000010322080022131002,
  10000010212600021202002, 12657510269570016521001, 412657510216930021357002,
  13639610214730021126002, 14697910211390029356001, 314697910215720021207002,
  15000010214970021154002, 15346710214160021097002, 215346710216320021254002,
  20000010283610016761001, 30000010229290012467001, 40000010213850011173001,
  50000010277510006513000, 60000010248380004003000, 80000010223320001844000,
  85530410219760001539000, 185530410280460002264000, 10000010153980002007000,
  15000010119570001044000, 20000010196961015753101, 30000010139231012393101,
  40000010122671011334101, 50000010115801018897102, 60000010112261016661102,
  80000010187511024557102, 10000000070311023600102, 12500000058321022955102,
  15000000051871022616102, 20000000045811022345102, 30000000042101022309102,
  40000000041751022437102, 50000000042481022587102, 60000000043661022731102,
  80000000046471022975102, 10000000149431023167102, 15000000156221023463102,
  20000000161621023578102])

def xrmacTable82 : Bool × List ℕ := (true, [
  10000010352100035197003, 15000010323560032344003, 20000010312850031274003,
  24840010380060027895002, 924840010313970031366003, 25342910317260031682003,
  25856010319440031895003, 825856010324580032390003, 30000010319650031913003,
  30664010318570031808003, 730664010321460032090003, 33013010317960031748003,
  35542010314960031459003, 635542010315850031546003, 36994810314420031405003,
  38507010313110031279003, 538507010313680031335003, 40000010312510031221003,
  50000010373040027124002, 60000010346720024546002, 80000010322870022207002,
  10000010213060021247002, 13035210267010016270001, 413035210216210021291002,
  15000010211160029100001, 15200010210780028807001, 315200010214850021131002,
  15526910214160021083002, 15860810213440021032002, 215860810215480021180002,
  20000010286360016899001, 30000010230320012536001, 40000010214360011211001,
  50000010280410006740000, 60000010250210004149000, 80000010224190001916000,
  88004510219100001482000, 188004510276830002160000, 10000010155490001976000,
  15000010120140001056000, 20000010199851015870101, 30000010140311012455101,
  40000010123231011370101, 50000010116141019128102, 60000010112481016819102,
  80000010188701024644102, 10000000071021023654102, 12500000058761022988102,
  15000000052221022640102, 20000000046061022360102, 30000000042341022322102,
  40000000041971022449102, 50000000042721022600102, 60000000043911022744102,
  80000000046751022989102, 10000000149721023181102, 15000000156581023478102,
  20000000162061023595102])

def xrmacTable83 : Bool × List ℕ := (true, [
  10000010354410035427003, 15000010324680032455003, 20000010313480031336003,
  25796010377240027612002, 925796010317770031731003, 26330510318500031799003,
  26876010318520031802003, 826876010325760032500003, 30000010320530031996003,
  31769010317740031725003, 731769010320480031992003, 34267710317070031659003,
  36963010314150031378003, 636963010314980031460003, 38447210313660031329003,
  39991010312430031211003, 539991010312970031264003, 40000010312960031263003,
  50000010375800027386002, 60000010348550024721002, 80000010323780022295002,
  10000010213600021298002, 13418610264910016064001, 413418610215600021234002,
  15000010211600029358001, 15711110210270028346001, 315711110214160021069002,
  16045710213510021024002, 16387510212820029769001, 216387510214780021116002,
  20000010289520017060001, 30000010231520012617001, 40000010214950011255001,
  50000010283790007004000, 60000010252330004320000, 80000010225220001999000,
  90525910218560001434000, 190525910273800002073000, 10000010157390001951000,
  15000010120820001071000, 20000010110330006014101, 30000010141631012532101,
  40000010123911011414101, 50000010116561019411102, 60000010112771017017102,
  80000010190361024758102, 10000000072141023730102, 12500000059551023039102,
  15000000052851022678102, 20000000046591022389102, 30000000042791022347102,
  40000000042421022475102, 50000000043171022626102, 60000000044371022772102,
  80000000047251023020102, 10000000150251023213102, 15000000157211023514102,
  20000000162761023632102])

def xrmacTable84 : Bool × List ℕ := (true, [
  10000010357240035710003, 15000010326040032591003, 20000010314230031411003,
  26830010374820027369002, 926830010322060032142003, 27399010319410031884003,
  27980010317750031726003, 827980010327110032625003, 30000010321550032090003,
  33019010316930031645003, 733019010319560031900003, 35673310316220031576003,
  38541010313390031303003, 638541010314190031381003, 40000010312990031264003,
  41494010311900031158003, 541494010312420031209003, 50000010379310027721002,
  60000010350850024942002, 80000010324940022406002, 10000010214270021363002,
  13813810263370015910001, 413813810215130021189002, 15000010212190029728001,
  16244310298490017965001, 316244310213610021019002, 16588210212970029755001,
  16939310212320029308001, 216939310214200021063002, 20000010293520017278001,
  30000010233030012721001, 40000010215690011311001, 50000010288020007334000,
  60000010254990004532000, 80000010226490002103000, 93105010218200001400000,
  193105010271400002005000, 10000010159910001936000, 15000010121700001095000,
  20000010110780006207101, 30000010143351012630101, 40000010124831011471101,
  50000010117141019781102, 60000010113181017281102, 80000010192861024916102,
  10000000073911023839102, 12500000060871023117102, 15000000053941022740102,
  20000000047491022438102, 30000000043621022392102, 40000000043231022521102,
  50000000043991022674102, 60000000045221022822102, 80000000048161023074102,
  10000000151241023271102, 15000000158351023577102, 20000000163981023694102])

def xrmacTable85 : Bool × List ℕ := (true, [
  10000010358680035854003, 10207810356510035637003, 10420010354350035420003,
  1010420010355510035537003, 15000010327310032717003, 20000010314950031482003,
  27867010372250027112002, 927867010324310032355003, 28470510319280031869003,
  29087010316860031638003, 829087010327630032671003, 30000010322500032178003,
  34260010316140031566003, 734260010318660031811003, 40000010312750031240003,
  40080010312690031233003, 640080010313450031308003, 41596310312340031196003,
  43170010311260031095003, 543170010311750031142003, 50000010382510028025002,
  60000010352990025146002, 80000010326010022509002, 10000010214900021423002,
  14213510261620015738001, 414213510214610021140002, 15000010212790021008002,
  16784710294170017576001, 316784710213020029670001, 17135210213380029264001,
  17493010211810028847001, 217493010213600021010002, 20000010297040017446001,
  30000010234420012812001, 40000010216380011361001, 50000010291960007637000,
  60000010257480004729000, 80000010227690002200000, 95729910217770001361000,
  195729910268950001935000, 10000010161740001897000, 15000010122490001112000,
  20000010111180006369101, 30000010144911012718101, 40000010125651011522101,
  50000010117651011012101, 60000010113541017517102, 80000010194951025055102,
  10000000075381023934102, 12500000061891023181102, 15000000054791022791102,
  20000000048211022478102, 30000000044241022427102, 40000000043831022556102,
  50000000044611022710102, 60000000045851022859102, 80000000048831023113102,
  10000000151951023311102, 15000000159181023619102, 20000000164931023739102])

def xrmacTable86 : Bool × List ℕ := (true, [
  10000010358260035812003, 10473810353540035340003, 10970010349090034895003,
  1010970010350130035000003, 15000010327190032706003, 20000010314900031478003,
  28924010366340026526002, 928924010323190032243003, 30000010315540031507003,
  30215010315240031479003, 830215010324700032384003, 32695710318670031804003,
  35380010314790031433003, 735380010317100031657003, 40000010312660031229003,
  41590010311480031115003, 641590010312170031182003, 43174810311120031080003,
  44820010310170039877002, 544820010310610031031003, 50000010381630027931002,
  60000010352400025085002, 80000010325770022485002, 10000010214770021411002,
  14619410256970015296001, 414619410213440021042002, 15000010212590029807001,
  17337110285570016851001, 317337110211850028724001, 17689510212250028366001,
  18049010210770028002001, 218049010212410029130001, 20000010295630017231001,
  30000010234080012760001, 40000010216240011342001, 50000010291250007552000,
  60000010257060004686000, 80000010227490002185000, 98404010216490001258000,
  198404010263710001779000, 10000010160860001766000, 15000010122150001073000,
  20000010111010006204101, 30000010144201012668101, 40000010125181011496101,
  50000010117281019941102, 60000010113221017377102, 80000010192301024942102,
  10000000073031023832102, 12500000059841023089102, 15000000052901022704102,
  20000000046491022396102, 30000000042641022344102, 40000000042241022469102,
  50000000042981022620102, 60000000044181022766102, 80000000047051023016102,
  10000000150071023216102, 15000000157041023534102, 20000000162601023670102])

def xrmacTable87 : Bool × List ℕ := (true, [
  10000010362380036224003, 10737810353560035342003, 11530010346730034659003,
  1011530010347720034758003, 15000010328460032833003, 20000010315620031549003,
  29999010364140026306002, 929999010319950031929003, 30000010319940031928003,
  31362010314490031405003, 831362010322550032175003, 33893810317610031700003,
  36630010314150031370003, 736630010316410031588003, 40000010313220031281003,
  43270010310860031053003, 643270010311530031118003, 44865610310590031023003,
  46520010396660029377002, 546520010310080039780002, 50000010384890028238002,
  60000010354510025285002, 80000010326840022588002, 10000010215390021471002,
  15000010255730015174001, 15031210255440015146001, 415031210213040021003002,
  16406010210310028086001, 17906510281840016521001, 317906510211370028299001,
  18269110211790027947001, 18639010210310027602001, 218639010211870028666001,
  20000010299330017395001, 30000010235500012849001, 40000010216940011391001,
  50000010295250007851000, 60000010259590004881000, 80000010228710002283000,
  10000010116550001261000, 10113710116100001224000, 110113710160890001710000,
  15000010122950001087000, 20000010111410006351101, 30000010145771012750101,
  40000010126011011542101, 50000010117801011025101, 60000010113581017597102,
  80000010194441025067102, 10000000074501023920102, 12500000060871023151102,
  15000000053761022752102, 20000000047211022432102, 30000000043241022372102,
  40000000042831022495102, 50000000043581022644102, 60000000044791022788102,
  80000000047691023033102, 10000000150771023227102, 15000000157861023525102,
  20000000163501023641102])

def xrmacTable88 : Bool × List ℕ := (true, [
  10000010362010036187003, 10284010358950035881003, 10576010356020035588003,
  1110576010356830035669003, 11304910350190035005003, 12084010344240034411003,
  1012084010345160034502003, 15000010329500032937003, 20000010316200031608003,
  30000010366640026555002, 31049010361690026061002, 931049010317150031657003,
  31758410315060031457003, 32484010313740031331003, 832484010320390031965003,
  35096010316470031587003, 37918010313420031297003, 737918010315580031506003,
  40000010313670031322003, 44895010310240039917002, 644895010310860031052003,
  46527810399950029643002, 48220010391290028846002, 548220010395220029228002,
  50000010387410028472002, 60000010356130025438002, 80000010327690022669002,
  10000010215890021519002, 15000010257600015353001, 15444410253550014962001,
  415444410212530029581001, 16896110298390017677001, 18484310277660016160001,
  318484310210810027835001, 18856810211260027500001, 19236710297990017175001,
  219236710211280028172001, 20000010210230027496001, 30000010236640012913001,
  40000010217500011429001, 50000010298500008088000, 60000010261660005039000,
  80000010229710002363000, 10000010117120001308000, 10392210115600001181000,
  110392210158260001638000, 15000010123550001091000, 20000010111720006440101,
  30000010146961012811101, 40000010126621011580101, 50000010118171011050101,
  60000010113831017772102, 80000010195791025165102, 10000000075351023983102,
  12500000061411023191102, 15000000054151022779102, 20000000047511022452102,
  30000000043481022387102, 40000000043041022509102, 50000000043791022658102,
  60000000045001022802102, 80000000047931023050102, 10000000151021023245102,
  15000000158151023549102, 20000000163831023668102])

def xrmacTable89 : Bool × List ℕ := (true, [
  10000010364690036455003, 10392310360340036020003, 10800010356220035608003,
  1110800010357020035688003, 11706910349050034891003, 12690010342030034190003,
  1012690010342890034275003, 15000010330820033069003, 20000010316960031683003,
  30000010369810026870002, 32190010359590025851002, 932190010315370031485003,
  32937310314040031358003, 33702010313070031264003, 833702010318920031822003,
  36296210315640031508003, 39090010312960031252003, 739090010315040031453003,
  40000010314260031377003, 46560010397450029428002, 646560010310340031000003,
  50000010386870028408002, 50020010386780028399002, 550020010390510028761002,
  60000010358290025641002, 80000010328780022773002, 10000010216530021580002,
  15000010260020015583001, 15871010252130014823001, 415871010212140029224001,
  17403110210420027350001, 19083210274260015865001, 319083210210360027448001,
  19457910210790027133001, 19840010294030016831001, 219840010210820027774001,
  20000010210620027645001, 30000010238110013000001, 40000010218230011479001,
  50000010210270018396000, 60000010264330005242000, 80000010231000002465000,
  10000010117860001367000, 10675610115250001150000, 110675610156220001582000,
  15000010124340001100000, 20000010112130006581101, 30000010148591012896101,
  40000010127491011632101, 50000010118721011085101, 60000010114211018018102,
  80000010198041025311102, 10000000076861024080102, 12500000062511023258102,
  15000000055041022831102, 20000000048221022490102, 30000000044091022419102,
  40000000043631022539102, 50000000044381022688102, 60000000045601022832102,
  80000000048561023079102, 10000000151711023275102, 15000000158951023575102,
  20000000164731023692102])

def xrmacTable90 : Bool × List ℕ := (true, [
  10000010366140036600003, 10808810357470035733003, 11683010349760034962003,
  1111683010350480035034003, 12463010344630034449003, 13295010339370033924003,
  1013295010340170034003003, 15000010331610033148003, 20000010317420031729003,
  30000010371800027070002, 33320010356710025565002, 933320010313940031346003,
  34104810313040031260003, 34908010312260031185003, 834908010317490031683003,
  40000010312530031208003, 40461010312170031174003, 740461010314150031364003,
  44208910311370031098003, 48304010391030028797002, 648304010396550029330002,
  50000010388780028581002, 51823010381290027859002, 551823010384770028196002,
  60000010359450025749002, 80000010329390022830002, 10000010216890021615002,
  15000010261410015718001, 16300310249910014611001, 416300310211560028732001,
  17916610299240016924001, 19693210269840015492001, 319693210295270016836001,
  20000010293680016714001, 20472110288510016383001, 220472110210180027259001,
  30000010238920013032001, 40000010218650011503001, 50000010210520018558000,
  60000010265920005355000, 80000010231780002526000, 10000010118300001403000,
  10965110114650001100000, 110965110153360001502000, 15000010124720001090000,
  20000010112340006603101, 30000010149391012931101, 40000010127891011656101,
  50000010118951011101101, 60000010114351018128102, 80000010198611025366102,
  10000000077091024109102, 12500000062511023269102, 15000000054981022834102,
  20000000048121022487102, 30000000043961022411102, 40000000043471022528102,
  50000000044211022674102, 60000000045421022817102, 80000000048361023060102,
  10000000151491023253102, 15000000158711023550102, 20000000164471023664102])

def xrmacTable91 : Bool × List ℕ := (true, [
  10000010365300036515003, 10033410364900036476003, 10067010364510036437003,
  1210067010368680036853003, 11101810357550035740003, 12243010347940034780003,
  1112243010348630034848003, 13031610343110034296003, 13871010338150033801003,
  1013871010338910033877003, 15000010333270033313003, 20000010318340031821003,
  30000010375580027444002, 34418010355480025440002, 934418010313630031314003,
  35254810312660031222003, 36112010311850031144003, 836112010316950031628003,
  40000010313150031265003, 41738010311820031139003, 741738010313740031324003,
  50000010387590028454002, 50009010387550028450002, 650009010392880028964002,
  51806710385140028219002, 53669010378100027541002, 553669010381440027864002,
  60000010362170026004002, 80000010330740022958002, 10000010217690021690002,
  15000010264420016000001, 16733110249030014522001, 416733110211300028483001,
  20000010270250015486001, 20313710267470015284001, 320313710294520016704001,
  20705410289950016418001, 21104610285760016153001, 221104610298610016990001,
  30000010240770013146001, 40000010219570011567001, 50000010211050018950000,
  60000010269290005612000, 80000010233420002655000, 10000010119240001477000,
  11260110114450001081000, 111260110151980001466000, 15000010125750001106000,
  20000010112880006792101, 30000010151521013042101, 40000010129041011723101,
  50000010119691011146101, 60000010114871018453102, 80000010110181015563102,
  10000000079371024247102, 12500000064201023367102, 15000000056371022911102,
  20000000049271022547102, 30000000044961022463102, 40000000044451022580102,
  50000000045191022727102, 60000000046411022870102, 80000000049431023117102,
  10000000152611023311102, 15000000160001023609102, 20000000165921023724102])

def xrmacTable92 : Bool × List ℕ := (true, [
  10000010366260036612003, 10222010363750036360003, 10449010361270036112003,
  1210449010365190036504003, 11531410354460035431003, 12726010345260034511003,
  1112726010345890034575003, 13540910340650034051003, 14408010335980033584003,
  1014408010336680033654003, 15000010333820033368003, 20000010318650031852003,
  30000010376920027578002, 35517010352570025151002, 935517010312660031220003,
  36385910311880031142003, 37276010311120031072003, 837276010315820031517003,
  40000010313290031277003, 43034010311100031068003, 743034010312920031242003,
  50000010388910028569002, 51822010381180027825002, 651822010386110028301002,
  53619810379150027632002, 55480010372820027022002, 555480010375920027322002,
  60000010362840026062002, 80000010331080022989002, 10000010217910021711002,
  15000010265280016084001, 17166310246630014293001, 417166310210700027980001,
  20000010271060015496001, 20947610263000014914001, 320947610288380016222001,
  21348710295150015959001, 21757410280230015715001, 221757410292220016487001,
  30000010241280013149001, 40000010219830011576001, 50000010211210019034000,
  60000010270350005678000, 80000010233950002695000, 10000010119540001502000,
  11560610113780001027000, 111560610148930001382000, 15000010125910001083000,
  20000010112980006746101, 30000010151921013050101, 40000010129221011732101,
  50000010119761011152101, 60000010114901018494102, 80000010110161015574102,
  10000000078961024241102, 12500000063701023351102, 15000000055871022891102,
  20000000048781022523102, 30000000044471022434102, 40000000043921022546102,
  50000000044631022689102, 60000000045831022829102, 80000000048791023068102,
  10000000151951023259102, 15000000159271023552102, 20000000165121023662102])

/-- all tables; the list begins with Z = 1 -/
def xrmacTables : List (Bool × List ℕ) := [
  xrmacTable1, xrmacTable2, xrmacTable3, xrmacTable4, xrmacTable5, xrmacTable6, xrmacTable7, xrmacTable8, xrmacTable9, xrmacTable10, xrmacTable11, xrmacTable12, xrmacTable13, xrmacTable14, xrmacTable15, xrmacTable16, xrmacTable17, xrmacTable18, xrmacTable19, xrmacTable20, xrmacTable21, xrmacTable22, xrmacTable23, xrmacTable24, xrmacTable25, xrmacTable26, xrmacTable27, xrmacTable28, xrmacTable29, xrmacTable30, xrmacTable31, xrmacTable32, xrmacTable33, xrmacTable34, xrmacTable35, xrmacTable36, xrmacTable37, xrmacTable38, xrmacTable39, xrmacTable40, xrmacTable41, xrmacTable42, xrmacTable43, xrmacTable44, xrmacTable45, xrmacTable46, xrmacTable47, xrmacTable48, xrmacTable49, xrmacTable50, xrmacTable51, xrmacTable52, xrmacTable53, xrmacTable54, xrmacTable55, xrmacTable56, xrmacTable57, xrmacTable58, xrmacTable59, xrmacTable60, xrmacTable61, xrmacTable62, xrmacTable63, xrmacTable64, xrmacTable65, xrmacTable66, xrmacTable67, xrmacTable68, xrmacTable69, xrmacTable70, xrmacTable71, xrmacTable72, xrmacTable73, xrmacTable74, xrmacTable75, xrmacTable76, xrmacTable77, xrmacTable78, xrmacTable79, xrmacTable80, xrmacTable81, xrmacTable82, xrmacTable83, xrmacTable84, xrmacTable85, xrmacTable86, xrmacTable87, xrmacTable88, xrmacTable89, xrmacTable90, xrmacTable91, xrmacTable92]

/-- the lines of the table of an element -/
def xrmacLines (Z : ℕ) : List Line :=
  let t := (xrmacTables[Z - 1]?).getD (false, [])
  t.2.map (xrmacLine t.1)

/-- The text of the file.  The last line of `82.txt` has no newline. -/
def xrmacText (Z : ℕ) : Str :=
  if Z = 82 then (xrmacLines Z).dropLast.flatMap Line.render ++
    (xrmacLines Z).getLast?.toList.flatMap fun l => l.body ++ [' ']
  else (xrmacLines Z).flatMap Line.render

end Ries

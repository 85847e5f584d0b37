import Verif.Model.Quadrature

/-!
Transcription of the tables of `anifem++/fem/quadrature_formulas.cpp:109-523`, made by `tools/gen_quadrature.py`.
Named constants of the source are replaced by their literals.
-/
namespace Verif.Quad.TriTab

/-- quadrature_formulas.cpp:121-121 `fs1`. -/
def fs1 : List (Tri Lit) := [
  .centre]

/-- quadrature_formulas.cpp:121-121 `ws1`. -/
def ws1 : List (Nat × Lit) := [
  (1, (dec 1 0))]

/-- quadrature_formulas.cpp:122-122 `fs2`. -/
def fs2 : List (Tri Lit) := [
  .twist3 (quo 1 6)]

/-- quadrature_formulas.cpp:122-122 `ws2`. -/
def ws2 : List (Nat × Lit) := [
  (3, (quo 1 3))]

/-- quadrature_formulas.cpp:125-125 `fs3`. -/
def fs3 : List (Tri Lit) := [
  .twist6 (dec 231933368553030572496784561174692893014668102038146320573728921306747036497087437859906057491084898528110694741070390863831588713 129) (dec 659027622374092215178380771255396337462080954725337086645036394796940936959971498016744593427722593166567042604307658222775147173 129)]

/-- quadrature_formulas.cpp:125-125 `ws3`. -/
def ws3 : List (Nat × Lit) := [
  (6, (quo 1 6))]

/-- quadrature_formulas.cpp:126-129 `fs4`. -/
def fs4 : List (Tri Lit) := [
  .twist3 (dec 44594849091596488631832925388305198839905746639737 50),
  .twist3 (dec 91576213509770743459571463402201507854325295899829 51)]

/-- quadrature_formulas.cpp:130-133 `ws4`. -/
def ws4 : List (Nat × Lit) := [
  (3, (dec 22338158967801146569500700843312280437027268579657 50)),
  (3, (dec 10995174365532186763832632490021052896306064753677 50))]

/-- quadrature_formulas.cpp:139-139 `fs5`. -/
def fs5 : List (Tri Lit) := [
  .centre,
  .twist3 (dec 470142064105115089770441209513447600515853414537694801266074941243499194854141858739013684612317786567442962231473792714913787640 129),
  .twist3 (dec 101286507323456338800987361915123828055575156890876627305353630185072233717286712689557743959110784861128466339954778713657640931 129)]

/-- quadrature_formulas.cpp:140-140 `ws5`. -/
def ws5 : List (Nat × Lit) := [
  (1, (dec 225 3)),
  (3, (dec 132394152788506180737649387833151999675694101421076325688822978138427902576614149194599406147382227931596918505717458039177657950 129)),
  (3, (dec 125939180544827152595683945500181333657639231912257007644510355194905430756719184138733927185951105401736414827615875294155675383 129))]

/-- quadrature_formulas.cpp:142-146 `fs6`. -/
def fs6 : List (Tri Lit) := [
  .twist3 (dec 63089014491502228340331602870819157341002914560725 51),
  .twist3 (dec 24928674517091042129163855310701907608796452260893 50),
  .twist6 (dec 63650249912139864723014259441204969980299353151353 50) (dec 53145049844816947353249671631398146993767808762746 51)]

/-- quadrature_formulas.cpp:147-151 `ws6`. -/
def ws6 : List (Nat × Lit) := [
  (3, (dec 50844906370206816920936809106868984046789553400553 51)),
  (3, (dec 11678627572637936602528961138557944132608668016998 50)),
  (6, (dec 82851075618373575193553456420442453980228549881401 51))]

/-- quadrature_formulas.cpp:153-157 `fs7`. -/
def fs7 : List (Tri Lit) := [
  .twist3 (dec 64930513159164863078379776030396537791778870700733 51),
  .twist6 (dec 19838447668150671917987659863332940814729521273176 50) (dec 28457558424917033519741605734978046120586531740354 50),
  .twist6 (dec 31355918438493150795585190219862865495411500481766 50) (dec 64257734382269602053234940183007540887224964600670 50)]

/-- quadrature_formulas.cpp:158-162 `ws7`. -/
def ws7 : List (Nat × Lit) := [
  (3, (dec 53077801790232411671954974999695438693852464969835 51)),
  (6, (dec 70853083692133567318412583246403652340463010542298 51)),
  (6, (dec 69274682079416893512276595920415294979277423639452 51))]

/-- quadrature_formulas.cpp:164-170 `fs8`. -/
def fs8 : List (Tri Lit) := [
  .centre,
  .twist3 (dec 50547228317030975458423550596598946845520053339220 51),
  .twist3 (dec 17056930775176020662229350149146450101861740124645 50),
  .twist3 (dec 45929258829272315602881551449416932206061253935832 50),
  .twist6 (dec 72849239295540428124100037917606196301940857295911 50) (dec 26311282963463811342178578628464358779220373536304 50)]

/-- quadrature_formulas.cpp:171-177 `ws8`. -/
def ws8 : List (Nat × Lit) := [
  (1, (dec 14431560767778716825109111048906462479881018077022 50)),
  (3, (dec 32458497623198080310925928341780596796496034129911 51)),
  (3, (dec 10321737053471825028179155029212903001672596251940 50)),
  (3, (dec 95091634267284624793896104388584316600584674020277 51)),
  (6, (dec 27230314174434994264844690073908924159961634536836 51))]

/-- quadrature_formulas.cpp:179-186 `fs9`. -/
def fs9 : List (Tri Lit) := [
  .centre,
  .twist3 (dec 44729513394452709865106589966276364999070562710972 51),
  .twist3 (dec 18820353561903273024096128046733556811241726550707 50),
  .twist3 (dec 43708959149293663726993036443535497267927541877922 50),
  .twist3 (dec 48968251919873762778370692483619279936894191270790 50),
  .twist6 (dec 36838412054736283634817598783385102311159446297161 51) (dec 22196298916076569567510252769319107025300930360938 50)]

/-- quadrature_formulas.cpp:187-194 `ws9`. -/
def ws9 : List (Nat × Lit) := [
  (1, (dec 97135796282798833819241982507288629737609329446064 51)),
  (3, (dec 25577675658698031261678798558999823977467283501140 51)),
  (3, (dec 79647738927210253032891774264045273250320394996616 51)),
  (3, (dec 77827541004774279316739356299403956121400280392146 51)),
  (3, (dec 31334700227139070536854831287209315492854352540164 51)),
  (6, (dec 43283539377289377289377289377289377289377289377289 51))]

/-- quadrature_formulas.cpp:196-203 `fs10`. -/
def fs10 : List (Tri Lit) := [
  .centre,
  .twist3 (dec 32055373216943512930984589336489738964267711277229 51),
  .twist3 (dec 14216110105656438509216210319095832171974320578306 50),
  .twist6 (dec 36914678182781098691142083711526939010153424313602 50) (dec 29619889488729767633836269426042800525808696463428 51),
  .twist6 (dec 32181299528883542122509756098604871373400970760057 50) (dec 14813288578382055049780676506825716937482285475610 50),
  .twist6 (dec 80793060092287906507994990288174410906843115848053 50) (dec 28367665339938439250435755578130205593324003075980 51)]

/-- quadrature_formulas.cpp:204-211 `ws10`. -/
def ws10 : List (Nat × Lit) := [
  (1, (dec 81743329146285966428118684984177612196107630795188 51)),
  (3, (dec 13352968813149566275572978399068653496804646722262 51)),
  (3, (dec 45957963604744728013787909632547816399817167380159 51)),
  (6, (dec 34184648162959428628691584041342290258736448990928 51)),
  (6, (dec 63904906396424045432898733762653321864439645659596 51)),
  (6, (dec 25297757707288384389042790682833217562495059832402 51))]

/-- quadrature_formulas.cpp:213-222 `fs11`. -/
def fs11 : List (Tri Lit) := [
  .centre,
  .twist3 (dec 27514551623502151764373977597613807527895526246762 51),
  .twist3 (dec 20895191453595782307562172741493234331017013820913 50),
  .twist3 (dec 49529960031756850937336350953071212498097489772476 50),
  .twist3 (dec 43870885427561953679644607657117764394170768287619 50),
  .twist3 (dec 99100091264282843177029242526843546599223402237948 51),
  .twist6 (dec 67050445911747407116306219942608241274445299439182 50) (dec 45502342901553881518881183659988144401910047208665 51),
  .twist6 (dec 14588473505583368532384740907976880468795281320527 50) (dec 84966450453487300409632569416823368524870577095735 50)]

/-- quadrature_formulas.cpp:223-232 `ws11`. -/
def ws11 : List (Nat × Lit) := [
  (1, (dec 86784235987055060918942776419239761438896938604406 51)),
  (3, (dec 97471459068263653431171853080096933108232570115913 52)),
  (3, (dec 71250798212710548631360318699024128606323978074691 51)),
  (3, (dec 17631043005339394014458334547683588791359889770321 51)),
  (3, (dec 68260283603193564640873249685714521041764335043820 51)),
  (3, (dec 38338846535282197357408242003586025314050977696672 51)),
  (6, (dec 40591381794585234854423897659319067170835396351417 51)),
  (6, (dec 89971869092295533321436411487986607238538950826344 52))]

/-- quadrature_formulas.cpp:234-243 `fs12`. -/
def fs12 : List (Tri Lit) := [
  .twist3 (dec 24646363436335594766731197214334578201882175145219 51),
  .twist3 (dec 27146250701492608487799594802254509853491134224651 50),
  .twist3 (dec 48820375094554155177800812386881475692429522661932 50),
  .twist3 (dec 44011164865859311101345370307290819105293288004332 50),
  .twist3 (dec 10925782765935429058374731200430874530921284508271 50),
  .twist6 (dec 21382490256170589594154514820559212468640533099215 51) (dec 85133779251024004161800361043205844859670031411679 50),
  .twist6 (dec 29165567973834096053391381193394061718520361260272 50) (dec 23034156355267139481641501928929132113912913160089 51),
  .twist6 (dec 25545422863851734653135572748306966272846538582814 50) (dec 62824975168355606683789613836722919837369167487824 50)]

/-- quadrature_formulas.cpp:244-253 `ws12`. -/
def ws12 : List (Nat × Lit) := [
  (3, (dec 79316425099736384593147879058597344841566827922315 52)),
  (3, (dec 62541213195902760469323781445519839129857464597370 51)),
  (3, (dec 24266838081452033150717972575608083898813255352167 51)),
  (3, (dec 49918334928060942119051722060994300958143700722280 51)),
  (3, (dec 28486052068877544999694473907515446250484081304278 51)),
  (6, (dec 15083677576511438585850590462766912807053391766082 51)),
  (6, (dec 21783585038607557932631436339291821863755937750534 51)),
  (6, (dec 43227363659414210549133270916859229635129744765887 51))]

/-- quadrature_formulas.cpp:255-265 `fs13`. -/
def fs13 : List (Tri Lit) := [
  .centre,
  .twist3 (dec 22584007286790201741832426760869861551300452797046 50),
  .twist3 (dec 48742864529736623418520717890010949604023598224069 50),
  .twist3 (dec 12445782206399926096848024520893637389458021371897 50),
  .twist3 (dec 42915961254311072644475174230905171818351472080540 50),
  .twist6 (dec 64420476446827072428234740454533747393496142441232 50) (dec 28452076401981823279239219389286825516094572085529 50),
  .twist6 (dec 16350780507591448266634181754125760152100430266514 51) (dec 32854248680859809430533039348599842443378366381009 51),
  .twist6 (dec 84874177435433546753646177743638242788684309594056 50) (dec 12452541585132823866305560524933311393697192108772 50),
  .twist6 (dec 28621475354434201538316224142355443864587469405707 50) (dec 70884992296611492934531483792499823952304276009732 50)]

/-- quadrature_formulas.cpp:266-276 `ws13`. -/
def ws13 : List (Nat × Lit) := [
  (1, (dec 66665311839643211054455351314129356825496869885466 51)),
  (3, (dec 57036879531335906530555418593719426475567339685442 51)),
  (3, (dec 27047702881060108743914103577274134413798248477352 51)),
  (3, (dec 32545777101062093628468549930837675952065856157647 51)),
  (3, (dec 56371383179075311763956833513758059785341387416423 51)),
  (6, (dec 38462103807067631477251300871569311389083211679125 51)),
  (6, (dec 39409653414347608264734757604600316508548552726831 52)),
  (6, (dec 17513402050919329935021150054457870522785344174918 51)),
  (6, (dec 91384388143710322520640619533632453196406946905980 52))]

/-- quadrature_formulas.cpp:278-289 `fs14`. -/
def fs14 : List (Tri Lit) := [
  .twist3 (dec 27347752830883865975494428326269855619539614998766 50),
  .twist3 (dec 48896391036217863867737602045239023579296797282555 50),
  .twist3 (dec 19390961248701048178250095054529511074192030138550 51),
  .twist3 (dec 61799883090872601267478828436935788383450817595771 51),
  .twist3 (dec 41764471934045392250944082218564343910952642644189 50),
  .twist3 (dec 17720553241254343695661069046505907608331093023993 50),
  .twist6 (dec 33686145979634500174405519708892538906087897184544 50) (dec 92916249356971824758248589548720351299587787354202 51),
  .twist6 (dec 12683309328720250872464010954926926730621807204984 52) (dec 11897449769695684539818196192990548132277553685172 50),
  .twist6 (dec 77060855477499648258903327416742795632663433530210 50) (dec 17226668782135557837528960161365733335682908683800 50),
  .twist6 (dec 29837288213625775297083151805961272858927320364845 50) (dec 68698016780808783735862715402031305975764345499934 50)]

/-- quadrature_formulas.cpp:290-301 `ws14`. -/
def ws14 : List (Nat × Lit) := [
  (3, (dec 51774104507291586314784910166396402415543670221702 51)),
  (3, (dec 21883581369428890640844945963325971533059940952580 51)),
  (3, (dec 49234036024000816818260235090421547654946232999896 52)),
  (3, (dec 14433699669776667601709921480653316614220325924626 51)),
  (3, (dec 32788353544125350641310978738625343236193554558207 51)),
  (3, (dec 42162588736993017538230437324186129845584069169011 51)),
  (6, (dec 38571510787060683228489027810410859234436305500223 51)),
  (6, (dec 50102288385006717698600930824891164626520036706591 52)),
  (6, (dec 24665753212563673962875245183636228317834531597812 51)),
  (6, (dec 14436308113533840496088691999015803446695733834915 51))]

/-- quadrature_formulas.cpp:303-315 `fs15`. -/
def fs15 : List (Tri Lit) := [
  .centre,
  .twist3 (dec 46202517282379605234039338523663582586780327999987 50),
  .twist3 (dec 61178825640249825925840432005293701997979156300530 51),
  .twist3 (dec 39867181441299434868888764723356392860280577733384 50),
  .twist3 (dec 22224152506223596600394518523101186989852940404085 50),
  .twist6 (dec 16435264319688978480099467891341566467780167295133 51) (dec 42634500609774015842955907087925091327043100800187 50),
  .twist6 (dec 45919144120448331302347377095961270382575601464130 52) (dec 37266765909107377614755343631523646841145775731169 51),
  .twist6 (dec 89909485084042278098886060014690449760022899813620 51) (dec 18014785050088762155582700505324058713492577453647 50),
  .twist6 (dec 69953322186207649500399148790352303634432128421048 50) (dec 19029833402814783175010966499473027618876311481083 51),
  .twist6 (dec 84322597666444527419786476947384123916359381922490 50) (dec 14091833496887339504229140569534353885863048966847 50),
  .twist6 (dec 96688248521796405749269898574841100681384359723484 51) (dec 32821431734152902110976818088335813664575649733091 50)]

/-- quadrature_formulas.cpp:316-328 `ws15`. -/
def ws15 : List (Nat × Lit) := [
  (1, (dec 33281189260943703660506545809433504625949781584949 51)),
  (3, (dec 19138954734444880724737355868930827017089171949063 51)),
  (3, (dec 14794169383088127072043383490344833587593088464090 51)),
  (3, (dec 45557411872264432627389905005800924898522883408697 51)),
  (3, (dec 46595004732121249216586474303438137001351032633298 51)),
  (6, (dec 11243313064969597651396307741002260190652592595177 51)),
  (6, (dec 28659716404286698698342094390935748724779390177567 52)),
  (6, (dec 27755987885840367745512834453999073920659811455190 51)),
  (6, (dec 14520563200294853063873817667154551616268769006629 51)),
  (6, (dec 10255719183792685556625108163296224555327248176657 51)),
  (6, (dec 31435476453557197348961405566291369488010587923525 51))]

/-- quadrature_formulas.cpp:330-343 `fs16`. -/
def fs16 : List (Tri Lit) := [
  .centre,
  .twist3 (dec 24247548463607194569063988490418598830591977772067 50),
  .twist3 (dec 62883330624728897089456751328161974441618897347205 52),
  .twist3 (dec 49221060853955518700037881442255866164275344321710 50),
  .twist3 (dec 18107805173735438345656997386628856355086825107722 50),
  .twist6 (dec 22798026477804197852285215169982136548967339187458 50) (dec 69269317440268757655369421791930031764898458190154 50),
  .twist6 (dec 48388307019161461726987797787655654991703192600438 50) (dec 18824972727342861546291972336985545735076850085204 50),
  .twist6 (dec 54059093480184733943109328504749656102554762939725 50) (dec 37921154152835610291403668563426777251742065842231 50),
  .twist6 (dec 11195313165290273974749322223577494388371872270213 50) (dec 71993541146850657994305198831759406683972434048056 51),
  .twist6 (dec 66394920687014741301003391690875206887039555975456 50) (dec 15572712194018957112187109080984710578748328215719 51),
  .twist6 (dec 16117026002306335495277318858468193149741565813048 51) (dec 61156439009604092273828472730805795333740508728805 51),
  .twist6 (dec 81414205017533430717866520054688441116415869193236 50) (dec 15089339252307962065712312820402249565207271650100 51)]

/-- quadrature_formulas.cpp:344-357 `ws16`. -/
def ws16 : List (Nat × Lit) := [
  (1, (dec 46570109410173098934307807360159169321878434710576 51)),
  (3, (dec 48542540860219922437321973402715734510461132508135 52)),
  (3, (dec 10215475970553808401372998713893596173204595114592 52)),
  (3, (dec 13958840531642914352148093848022701726123143723347 51)),
  (3, (dec 30540763235821106340136558615850798204807115746383 51)),
  (6, (dec 24251891203250289815201763364018313549196490449195 51)),
  (6, (dec 38468542834323010740124114816657099331699661637358 51)),
  (6, (dec 28196970472922083962091082890253231608993474788838 51)),
  (6, (dec 12776080127097548917389151694888171228125827678129 51)),
  (6, (dec 13052056841732553631795290934994852362022814829664 51)),
  (6, (dec 67977528809401143351681627217211892369726261197984 52)),
  (6, (dec 10173984679434851887768724179673397963027615929254 51))]

/-- quadrature_formulas.cpp:359-373 `fs17`. -/
def fs17 : List (Tri Lit) := [
  .twist3 (dec 15752030526747410060529884617090935624053391588307 51),
  .twist3 (dec 28664906339088861024295481098108155187291173011262 50),
  .twist3 (dec 41787859532562311940426141011491889737085793344383 50),
  .twist3 (dec 46547829013751073897715134966406579474599357595017 50),
  .twist3 (dec 15577541143889879801825692104071438762191359986331 50),
  .twist3 (dec 49334173048712205484459759348688710411377100939443 50),
  .twist6 (dec 33292795973187067093602071907298146641589719305386 50) (dec 13496404156673165332917121791033282883532345875691 51),
  .twist6 (dec 67822709160732716833373490542736625082760804131715 51) (dec 84910764178321373821450216457800363807872095964121 50),
  .twist6 (dec 79700848388801261259303077336595890017038080581989 50) (dec 19052921389430059049043472916919346456655449351377 50),
  .twist6 (dec 90500233964644941186318352657405096588410630020017 50) (dec 14312879374372443965397283033222732656000757125719 51),
  .twist6 (dec 61429575871151135889412784125523163526971101357902 50) (dec 31651733963129779052155185541595137595367710724860 50),
  .twist6 (dec 18312394619398628315644635774635903093222305930088 50) (dec 65309911512413223147198362706312119612340644217228 51),
  .twist6 (dec 16203153810438918371128382930618603611220031298935 50) (dec 27671624167335656912655517502511390877890523730088 50)]

/-- quadrature_formulas.cpp:374-388 `ws17`. -/
def ws17 : List (Nat × Lit) := [
  (3, (dec 32247009916631764993870538301375867739605109030137 52)),
  (3, (dec 36707837845495858729035059682482527483188124372730 51)),
  (3, (dec 32511502378764697772383027755303431727066319143916 51)),
  (3, (dec 23209503705577635161743525877208006971757697771250 51)),
  (3, (dec 23017255764081298283315569080841764737831866732072 51)),
  (3, (dec 11129215614997045791820984176648882968516765390651 51)),
  (6, (dec 10615807094146771192916339294739547595933101034149 51)),
  (6, (dec 73476433008677358906983024421655100280309169647793 52)),
  (6, (dec 82092032896439937945085642363078859520845043299666 52)),
  (6, (dec 64677967531688557930402291835250827426418102467087 52)),
  (6, (dec 21835859686951378099234968173156166980143385110950 51)),
  (6, (dec 17844519275495899740120176880218856998022130850468 51)),
  (6, (dec 29445829116102176037305476255242516038650175972829 51))]

/-- quadrature_formulas.cpp:390-406 `fs18`. -/
def fs18 : List (Tri Lit) := [
  .centre,
  .twist3 (dec 46180950640644923136871293779183706787863091697193 50),
  .twist3 (dec 91947742121643196735884394501681534558550929602087 51),
  .twist3 (dec 24226470251427196220493923329713947560863861516646 50),
  .twist3 (dec 38830256088685594710220820299130895589910935806167 51),
  .twist3 (dec 48758030157486956231318553270010322767173065224477 50),
  .twist3 (dec 39995562806757623168036612176980638826302159974677 50),
  .twist6 (dec 10819579379103329302978954322588342576725204275848 50) (dec 13462016741444989214360105096288250282308614547667 51),
  .twist6 (dec 23577218495819174065406344526940344668178967980840 50) (dec 75892947985519849404514945383436125971205146037991 50),
  .twist6 (dec 54591877538619459980869402107592716639270427899584 50) (dec 33349352944988075701452092571342908067648815991554 50),
  .twist6 (dec 12269675737192755341949911705742148109133654661171 50) (dec 67095398519423451316115569776700109379955026688272 50),
  .twist6 (dec 77037237621467521322930995750584212274241702691998 50) (dec 45804915859860781128592092505957739544538005165881 51),
  .twist6 (dec 97236072896279566678179863005817276777168285847498 50) (dec 27090910995162014225783360167140238900314869612983 51),
  .twist6 (dec 60041895463425691476586296812040094731513621238043 50) (dec 39568343433226970269721534053678839066406121498457 50),
  .twist6 (dec 63998809200471459491104629333818977616260298650578 50) (dec 31975162452537734194457010425926447991033251812133 50)]

/-- quadrature_formulas.cpp:407-423 `ws18`. -/
def ws18 : List (Nat × Lit) := [
  (1, (dec 36355735301426666167994201488075660208032412988170 51)),
  (3, (dec 18949171506778866026092362251791380409343663294130 51)),
  (3, (dec 16559159952003249168058055989630909691411866951699 51)),
  (3, (dec 36475089408943637034144647958647345215626638957900 51)),
  (3, (dec 71293260197189706777641548054694955316725291131156 52)),
  (3, (dec 12046647633999710118426790653401934688995764481555 51)),
  (3, (dec 33304470033390135285415510256624938718656023109743 51)),
  (6, (dec 68401101196071814902277580383247876131766276708084 52)),
  (6, (dec 50106608745797217038706356969410264778911451900953 52)),
  (6, (dec 25482175311824439471956383930257575709134749166517 51)),
  (6, (dec 23781910900152829951591697111587977283819457472934 51)),
  (6, (dec 13759616234942205237919523209184886694908916988431 51)),
  (6, (dec 12229481269610897792180240974978711837248181608624 52)),
  (6, (dec 45305345022570653992045544795647792020405882575642 52)),
  (6, (dec 17747489102020405116394962230845483672778385307354 51))]

/-- quadrature_formulas.cpp:425-442 `fs19`. -/
def fs19 : List (Tri Lit) := [
  .centre,
  .twist3 (dec 43139062740458141246237482938360586885719772126702 50),
  .twist3 (dec 49436843495341563957248229274609517090931104092491 50),
  .twist3 (dec 37925095097481522040242112364110649429061104363139 50),
  .twist3 (dec 24808581987616872741212083998037119824140429344235 50),
  .twist3 (dec 12089445684798375919241214888243348421380566035372 51),
  .twist3 (dec 46342097704198789475682150596073302423644616169825 51),
  .twist6 (dec 11236666147208792741855697930234441257836327563782 51) (dec 64612028148120056168437197652152441740602231080330 50),
  .twist6 (dec 77971670931741189514683860327793986198185591463883 50) (dec 11723580753349142825815944113331401346389274897930 51),
  .twist6 (dec 14002294202634891010734214604549167938802242621690 50) (dec 56295803451853250058285451038957884640283722237155 50),
  .twist6 (dec 39497977875180499639565609878785328418615569268699 50) (dec 58155716354699948845273024904597627695980051103828 51),
  .twist6 (dec 59048066225936700807122093363649068717020166782260 51) (dec 68879025305029053649006727774559375307070304663375 50),
  .twist6 (dec 11045339344718306079922344714413343377253847651116 50) (dec 87561028481878493069582628316905093111053258030311 50),
  .twist6 (dec 67699892364853338337453707428817765637930308709449 50) (dec 13814250785378896545692196266777191222826588997119 50),
  .twist6 (dec 80172709136270883275238012242918057945655196358419 50) (dec 13241884904211616700691773377373401460660658671852 50),
  .twist6 (dec 52919728608902758395657163622564982880115974996091 51) (dec 94361018207055265158923332217157178260647783574393 50)]

/-- quadrature_formulas.cpp:443-460 `ws19`. -/
def ws19 : List (Nat × Lit) := [
  (1, (dec 10318373507569304786047602110437638774010815187029 51)),
  (3, (dec 25315718173122825905076913213847975834560298549926 51)),
  (3, (dec 88975811320356829771546854129229858644620436758037 52)),
  (3, (dec 29300326798677866828153377031897236898288387179816 51)),
  (3, (dec 28978174714424872131410315630576738241374487970879 51)),
  (3, (dec 17674176840457820104831900133827506658304122857454 52)),
  (3, (dec 77715588034506895801517888201582688352994585535269 52)),
  (6, (dec 83839356492800424845414004812369980113313762745424 52)),
  (6, (dec 71212496720911426005813794268236252055936826439306 52)),
  (6, (dec 24675796848054456800095766253803294330755815077017 51)),
  (6, (dec 19352558277351178969402325878562221923207064575289 51)),
  (6, (dec 17401575966804936379348113658671562780297970543618 51)),
  (6, (dec 53643692820685537466958875062170080505082308822752 52)),
  (6, (dec 15574010542183210384201210215328188861959641213281 51)),
  (6, (dec 14629192869518211721712948723653448961866357324000 51)),
  (6, (dec 14288599885078563995312324425710672422371814936927 52))]

/-- quadrature_formulas.cpp:462-481 `fs20`. -/
def fs20 : List (Tri Lit) := [
  .centre,
  .twist3 (dec 33214661470459201997270966412028495714319548984424 51),
  .twist3 (dec 17107305294503095871108985931362417325021156952317 50),
  .twist3 (dec 49102873288315227291088585143029683195631578004900 50),
  .twist3 (dec 46651186450882760730598900310181532909292228925261 50),
  .twist3 (dec 98828346121804714279180468979663239193319386756394 52),
  .twist3 (dec 24394447497064978049142692368993439117853548566535 50),
  .twist3 (dec 11281929816630953042391134016841882201010397354405 50),
  .twist3 (dec 37588647216014283326859999843171010639849918672793 50),
  .twist6 (dec 93189282698930057365174312067051300192905295204035 50) (dec 47458687513117441771774053350506102919870009685840 52),
  .twist6 (dec 71793410438754855076170066785422651158513071249424 50) (dec 27060538308713947868491457711835119716183651880459 50),
  .twist6 (dec 35739825433495248077088490656239154900234206532451 50) (dec 14296506031885728783611457113842267822769200481538 50),
  .twist6 (dec 74709514153752255494970291694949008750280263392035 50) (dec 55113038273260938892192478159946590464132145938577 51),
  .twist6 (dec 24888402535203336364541225529217400405363375720555 50) (dec 63163592607508606552921398349560145878138874284216 50),
  .twist6 (dec 86390648591940093206705807844950436948376040452547 50) (dec 40294623544508120790531773202677466802829948044498 51),
  .twist6 (dec 83507697260391901946045904729844659849693405048763 50) (dec 92819436195844609855050725955963856783960381789409 52),
  .twist6 (dec 59076292557410846561094197579847417002261125636398 50) (dec 40100320928594990974242832371954280964413612328031 50),
  .twist6 (dec 33776436305525653474084577075959031679440719549206 50) (dec 52393822824160577222492362051207826921661047090629 51)]

/-- quadrature_formulas.cpp:482-501 `ws20`. -/
def ws20 : List (Nat × Lit) := [
  (1, (dec 39993788997573682796794479935468419718656940071821 52)),
  (3, (dec 38049196326368879835986816521081634037841404134166 52)),
  (3, (dec 15494646021846831767875197181160982112984087061659 51)),
  (3, (dec 70342069381511844242263137035317146731285897819538 52)),
  (3, (dec 18327756024287446990958052720470711858329941547565 51)),
  (3, (dec 13286347276867598957767559281348630941272361626515 52)),
  (3, (dec 30244990858376944077228173323378881757555114007977 51)),
  (3, (dec 15501463166082703758507346295954162901754621485087 51)),
  (3, (dec 30968127829858795969301832261010423234148765253067 51)),
  (6, (dec 22085910844951371902473394317536457493336096635281 52)),
  (6, (dec 72402681593866194893124262910675098361590455247937 52)),
  (6, (dec 25827266552948192717528440683193188243925846282653 51)),
  (6, (dec 14660964863620186443827918195827508365501907711550 51)),
  (6, (dec 18579346881071932796373707907091191441294492822372 51)),
  (6, (dec 85430097944927317992693924222115328068126309938065 52)),
  (6, (dec 50342527465695241596152760315375201456686532180896 52)),
  (6, (dec 56124329032372247119615634919048025045735941272662 52)),
  (6, (dec 16941597931421778544847851013613675726846356131389 51))]

/-- quadrature_formulas.cpp:121 `s1`. -/
def s1 : List Int := [1, 0, 0]

/-- quadrature_formulas.cpp:122 `s2`. -/
def s2 : List Int := [0, 1, 0]

/-- quadrature_formulas.cpp:125 `s3`. -/
def s3 : List Int := [0, 0, 1]

/-- quadrature_formulas.cpp:134 `s4`. -/
def s4 : List Int := [0, 2, 0]

/-- quadrature_formulas.cpp:141 `s5`. -/
def s5 : List Int := [1, 2, 0]

/-- quadrature_formulas.cpp:152 `s6`. -/
def s6 : List Int := [0, 2, 1]

/-- quadrature_formulas.cpp:163 `s7`. -/
def s7 : List Int := [0, 1, 2]

/-- quadrature_formulas.cpp:178 `s8`. -/
def s8 : List Int := [1, 3, 1]

/-- quadrature_formulas.cpp:195 `s9`. -/
def s9 : List Int := [1, 4, 1]

/-- quadrature_formulas.cpp:212 `s10`. -/
def s10 : List Int := [1, 2, 3]

/-- quadrature_formulas.cpp:233 `s11`. -/
def s11 : List Int := [1, 5, 2]

/-- quadrature_formulas.cpp:254 `s12`. -/
def s12 : List Int := [0, 5, 3]

/-- quadrature_formulas.cpp:277 `s13`. -/
def s13 : List Int := [1, 4, 4]

/-- quadrature_formulas.cpp:302 `s14`. -/
def s14 : List Int := [0, 6, 4]

/-- quadrature_formulas.cpp:329 `s15`. -/
def s15 : List Int := [1, 4, 6]

/-- quadrature_formulas.cpp:358 `s16`. -/
def s16 : List Int := [1, 4, 7]

/-- quadrature_formulas.cpp:389 `s17`. -/
def s17 : List Int := [0, 6, 7]

/-- quadrature_formulas.cpp:424 `s18`. -/
def s18 : List Int := [1, 6, 8]

/-- quadrature_formulas.cpp:461 `s19`. -/
def s19 : List Int := [1, 6, 9]

/-- quadrature_formulas.cpp:502 `s20`. -/
def s20 : List Int := [1, 8, 9]

end Verif.Quad.TriTab

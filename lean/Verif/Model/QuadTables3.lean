import Verif.Model.Quadrature

/-!
Transcription of the tables of `anifem++/fem/quadrature_formulas.cpp:526-1502`, made by `tools/gen_quadrature.py`.
Named constants of the source are replaced by their literals.
-/
namespace Verif.Quad.TetTab

/-- quadrature_formulas.cpp:536-536 `fs1`. -/
def fs1 : List (Tet Lit) := [
  .centre]

/-- quadrature_formulas.cpp:536-536 `ws1`. -/
def ws1 : List (Nat × Lit) := [
  (1, (dec 1 0))]

/-- quadrature_formulas.cpp:540-540 `fs2`. -/
def fs2 : List (Tet Lit) := [
  .twist4 (dec 585410196624968454461376050309691435316092753941728858640634586811578138845670734912162161256817341245426226422616067525637990159 129) (dec 138196601125010515179541316563436188227969082019423713786455137729473953718109755029279279581060886251524591192461310824787336614 129)]

/-- quadrature_formulas.cpp:540-540 `ws2`. -/
def ws2 : List (Nat × Lit) := [
  (4, (dec 25 2))]

/-- quadrature_formulas.cpp:548-548 `fs3`. -/
def fs3 : List (Tet Lit) := [
  .twist4 (dec 139565600039530210833508820416076175849110541413361382851150011039366295056240688864248440266420762056495821295196730480049310293 130) (dec 328681146665348992972216372652797460805029648619554620571628332965354456831458643704525051991119307931450139290160108983998356324 129),
  .twist4 (dec 664237817472125354604427838193757862944058334430851334903867738952746433987373268692379520804514950797613337303499887719145825935 129) (dec 111920727509291548465190720602080712351980555189716221698710753682417855337542243769206826398495016400795554232166704093618058022 129)]

/-- quadrature_formulas.cpp:548-548 `ws3`. -/
def ws3 : List (Nat × Lit) := [
  (4, (dec 127491311557506424199593991072623982841649462140643971121523129602544043685301517778977929155504683130260802596728689850227883404 129)),
  (4, (dec 122508688442493575800406008927376017158350537859356028878476870397455956314698482221022070844495316869739197403271310149772116596 129))]

/-- quadrature_formulas.cpp:561-561 `fs5`. -/
def fs5 : List (Tet Lit) := [
  .twist4 (dec 673422422100981706079627987096265010221477596807548626917447501871628805595918498502503361808671067467310891298676069633442787456 130) (dec 310885919263300609797345733763457832992617413439748379102751749937612373146802716716583221273044297751089636956710797678885240418 129),
  .twist4 (dec 721794249067326320793028258788908184264389938718362710914759994298554151356289738613160421480907087084956890932605374695938493042 129) (dec 927352503108912264023239137370306052452033537605457630284133352338152828812367537956131928396976376383477030224648751013538356527 130),
  .twist6 (dec 455037041256496494918805262793394390656324216190560243014598434027260134259375401930922556892696487202000348095642352390581410384 130) (dec 454496295874350350508119473720660560934367578380943975698540156597273986574062459806907744310730351279799965190435764760941858962 129)]

/-- quadrature_formulas.cpp:561-561 `ws5`. -/
def ws5 : List (Nat × Lit) := [
  (4, (dec 112687925718015850799185652333286333810467794083662916750111313781862951692183009150921222361642304234507552256999157434610247953 129)),
  (4, (dec 734930431163619495437102054863275035230912887406519102249671926559740538531642341133208339477935675144012155234075085290509921657 130)),
  (6, (dec 42546020777081466438069428120257441777627278117123448683280995708108662969768504490505295793709418834060821479728889357559173254 129))]

/-- quadrature_formulas.cpp:579-579 `fs6`. -/
def fs6 : List (Tet Lit) := [
  .twist4 (dec 877978124396165940653261653130769822164211829418772125602172176652340585690910938841412637709946101929663592078926005070360844262 129) (dec 406739585346113531155794489564100592785960568604092914659426077825531381030296870528624540966846326901121359736913316432130519127 130),
  .twist4 (dec 329863295731734689680165877125236242692601901774661739041345671102948560976954601200678465274467909879282908416608706903795586669 130) (dec 322337890142275510343994470762492125243579936607511275365288477629901714634101513293310717824184403004023903052779709769873480444 129),
  .twist4 (dec 356191386222543912133482341841145025807264577698092809735243479478906090654467438121463126121219162576285667820250036521356558925 129) (dec 214602871259152029288839219386284991397578474100635730088252173507031303115177520626178957959593612474571444059916654492881147025 129),
  .twist12 (dec 603005664791649141367431139060939686286718196634293810355908103784210077136483741617867867364898522914125681345897815292021105644 129) (dec 63661001875017525299235527605726980379948470032372856310758562882456589530182925048798799301768143752540985320768851374645561023 129) (dec 26967233145831580803409780572760635295338486330096047702257477045087674380315040828453453403156518958079234801256448195868777231 128)]

/-- quadrature_formulas.cpp:580-580 `ws6`. -/
def ws6 : List (Nat × Lit) := [
  (4, (dec 100772110553206429480132374459368632673626722029910453787382779465252375178570585079599505707125890052721095317220499887690685841 130)),
  (4, (dec 553571815436547220951532778537260164118198741926452704003441102470271562589845344071229094780837480066169373108209482645307346425 130)),
  (4, (dec 399227502581674920996906275574799774636745964615065413637747546635904633660155499420599970940608058452538103003141446038430539162 130)),
  (12, (dec 482142857142857142857142857142857142857142857142857142857142857142857142857142857142857142857142857142857142857142857142857142857 130))]

/-- quadrature_formulas.cpp:582-594 `fs7`. -/
def fs7 : List (Tet Lit) := [
  .centre,
  .twist4 (dec 528965506653916017297100012200655347219030782393487882235426445662732013010980575273865427657114208552781978783504090263283643267 130) (dec 315701149778202799423429999593311488426032307253550403925485785144575599566300647490871152411429526381573934040549863657890545224 129),
  .twist6 (dec 504898225983963687630538229865624659758152763630960389837148130773066862417197196074402285548101609960487269777747348708409337679 130) (dec 449510177401603631236946177013437534024184723636903961016285186922693313758280280392559771445189839003951273022225265129159066232 129),
  .twist12 (dec 810830241098548561118105379848232393796455424109775326702201263057517151771250825027673399937153743216207630169755409212731050725 129) (dec 212654725414832459888361014998199410743503771208815232403342118937670326784183211605050988795259108166844761869770345211750274197 130) (dec 146638813818484946904222417152127724054843821648461626817130313154948782871912532651316402303794435150423417456290521744918894435 129),
  .twist12 (dec 575171637587000023483241577022307519667090806001065063865205014709922509852854911276809330202984459987004985995624970902769438819 129) (dec 188833831026001047736431103854585755005097443326285163003388390568324303518983942376290273632898070261599317850803033801804652337 129) (dec 471607003609978810438962152685209703227143073463646101280182041534288831091772039706101225312193994897963783027689614936212565071 130)]

/-- quadrature_formulas.cpp:595-601 `ws7`. -/
def ws7 : List (Nat × Lit) := [
  (1, (dec 954852894641308488605784361172263818392894715178598811013931177404781818699179860389135774455664404838872104895080045545616937664 130)),
  (4, (dec 423295812099670290762861707985467374876227704291710551002089182138959562882559433416297020091573465481045667446437980592431097859 130)),
  (6, (dec 31896927832857579934274824082942457097468598586640899670334046260529599482801578687177757342684986129814750794839838900331599028 129)),
  (12, (dec 811077082990334156610343349109654015709897632604257631798586607586538923237533743166943881777708070740312608542222917200354385321 131)),
  (12, (dec 372071307283346213696155611914811203116850116110916320549947115775313104409787266076223170540307740046640420614842516452028122236 130))]

/-- quadrature_formulas.cpp:603-620 `fs8`. -/
def fs8 : List (Tet Lit) := [
  .twist4 (dec 439561725187837086120698867841978082543257287388975306287880843722684624309012232162069732759948919672263548591384820551003157161 129) (dec 18681275827072097129310037738600730581891423753700823123737305209243845856366258927931008908001702677591215046953839314966561428 128),
  .twist4 (dec 656612779716308524232160789529313144149468802100051666736684699365989507070456833561862507646545188024869425933999090037106145422 129) (dec 114462406761230491922613070156895618616843732633316111087771766878003497643181055479379164117818270658376858022000303320964618193 129),
  .twist4 (dec 585802231827951391841735051157584768622486780830228295621152968246270340882165776991649541279543269835947481636941637644798190678 130) (dec 313806592272401620271942164961413841045917107305659056812628234391790988637261140766945015290681891005468417278768612078506726977 129),
  .twist4 (dec 866267861653461255645887488657542187295305705746771473690480173415293160867512465702469533587965263687249214647658073319938170308 129) (dec 445773794488462481180375037808192709015647647510761754365066088615689463774958447658434888040115787709169284507806422266872765641 130),
  .twist6 (dec 434516509456157605348841915533527692151679939223272977539581322934231085247277735851271242229109049416816769132476754691876399826 129) (dec 654834905438423946511580844664723078483200607767270224604186770657689147527222641487287577708909505831832308675232453081236001744 130),
  .twist12 (dec 507332075042159031040669808694536736614114411553796384333237299587351520175691679840284065898003147499656968702782941473312363663 131) (dec 203893174662110274586449492644381013822163840241898819512036480205954974343293687135642946666661112520233131114048073040465079929 129) (dec 587140329925357860516694316624292604989531175400664397132594666592216536111655708930311266007697743484537168084876024504336716505 129),
  .twist12 (dec 714676926393304887192059595861911072662790347278355023479297168358015873474546137820314791376164075583899611402062940213033300846 129) (dec 212477796695716737760909209401364857995546535846951866198896564164611160768268240712370180753696859884816477337743630916293244012 130) (dec 242827514267551765255758562257815955738100345552254603280923518809061894371800214037211172473096552439137093130388333603708050352 129)]

/-- quadrature_formulas.cpp:621-629 `ws8`. -/
def ws8 : List (Nat × Lit) := [
  (4, (dec 478129880343066548522028264276886475551908038206935608403187268161204782486156313004653531335875510000222346477871692086302080072 130)),
  (4, (dec 297278540867942228149794219008480147814703998787015566684765065792437515199275842656870458395684930250886237066992601642027905048 130)),
  (4, (dec 435273242189752642260999122662423582130620722246092135523117935794220241112939904392329329366999543865728755309207498787519517695 130)),
  (4, (dec 863273602081497461810887190753319049105842752628571028408126923168494936858150620907512649472332751233929758001469396244412546177 131)),
  (6, (dec 368905412698663626759439707451299172211314284256658276263979878301267342722793591132711400905340699377322587099668775776880559706 130)),
  (12, (dec 144970267108595053065996676030419662231185126083325071285140227184532852142408715467852065019476055083205968446812774726922723798 130)),
  (12, (dec 715740186724360785163133619028900481938853869540456527655755129765961323347987815842573731792558421480559664519465933378734105383 131))]

/-- quadrature_formulas.cpp:631-652 `fs9`. -/
def fs9 : List (Tet Lit) := [
  .centre,
  .twist4 (dec 496280184289771631798762521793832568537038194292897343361619546200372699820760837107372149898465334753768926704884508892231807001 129) (dec 167906605236742789400412492735389143820987268569034218879460151266542433393079720964209283367178221748743691098371830369256064333 129),
  .twist4 (dec 725691188457771224296397619453837267624077152197233850569274440704285116397691881833869122890255691794617817206501167172797859274 129) (dec 914362705140762585678674601820542441253076159342553831435751864319049612007693727220436257032481027351273942644996109424007135753 130),
  .twist4 (dec 344330055470402016500343326615722686691923447148193151821158558738134042337778284664589241731743027586262086656629907366395470422 130) (dec 321855664817653266116655222446142577110269218428393561605961381375395531922074057177847025275608565747124597111445669754453484319 129),
  .twist4 (dec 874486912298903193043707015069157357962426456230513786256404883825033875520552149222451039313979933998118320850029398873691697134 129) (dec 41837695900365602318764328310280880679191181256495404581198372058322041493149283592516320228673355333960559716656867042102767622 129),
  .twist6 (dec 393270561425153639228303439019845157533457967506546158182953876464750070777149792555472324614078757529382850955034937210661933352 129) (dec 106729438574846360771696560980154842466542032493453841817046123535249929222850207444527675385921242470617149044965062789338066648 129),
  .twist12 (dec 718393093981424399027247293454417315626088147183367550273933819654011869373548292790909791280681869150521614727574607174828996713 129) (dec 339571681830888857948565533025282132278210666414207825589689634035601829527712786455119231654899144894773940791136777899965195998 130) (dec 213692569652397829383039599940526257918269719533790884608128253538867764720909149918066362388338301870523597114198037245177964087 129),
  .twist12 (dec 786836344766879308574980785826469481773801526238830147582347788795557522509026728065973274558149553063480389444249884390853297618 130) (dec 460658181054777632724569389480023737437644979098136693038049109879352110991285115092984903446983372346064337129771747134838992573 129) (dec 341375680369336314245730557694732988917984359916566700136174002576652709700743286565021830000152328679603151729123668509172669618 137),
  .twist12 (dec 597210722761849931348883589921161099610162405319806178405259396652993196936909668382742397854265476130708198732413218447312964881 129) (dec 184387943500015203783943300351668978481956320230477968098311624533490438400575078730396690164070675784517048992632344435305103414 129) (dec 340133902381196610832298093755009434259249542192378853981173542800259262619401741564642218175931723002577032823220926820768282904 130)]

/-- quadrature_formulas.cpp:653-663 `ws9`. -/
def ws9 : List (Nat × Lit) := [
  (1, (dec 568666242535517283262739146394586202125234085226614885426806788879668467602918842444874066529556811013534643695312160148302313896 130)),
  (4, (dec 256942766895231756404853516732894096752267245746232026411674288874635728567774077907731452182838752517842534941421437311468760925 130)),
  (4, (dec 22989233530283698375223895892341864492289228245337490899697879878601131099956671710864747072922815667311568436582866359358130751 130)),
  (4, (dec 304560386675910078841052050682721826996470415465348236313252624083811730636763840225374113791955008481866270156996017101299885391 130)),
  (4, (dec 712372234023888078017243388768603469955274456586232863957006076665067937966465859641881478505922080794570844598347360445624268183 131)),
  (6, (dec 368436554809438820432799201172407881036093411272683807321589457562022889595463140781308916930298517369254964506822906524141992121 130)),
  (12, (dec 103220567822098462981525986444007758012441796358925291177329853947905993113866076994329963388037902316528413354480568458113948801 130)),
  (12, (dec 76348871539808545648302480308201999652944243216155237421076794140115644593842414337196059674437125441727684776281145661799261561 130)),
  (12, (dec 203580226187475693740925736400431406560612969314512647281789590556476083827269642804693859295476384390496046642939133666760866125 130))]

/-- quadrature_formulas.cpp:665-690 `fs10`. -/
def fs10 : List (Tet Lit) := [
  .centre,
  .twist4 (dec 782344727747686596160991679841307383851223902830218495645396791872222239003125143352475815717047088164268836173742014632359155408 129) (dec 72551757417437801279669440052897538716258699056593834784867736042592586998958285549174728094317637278577054608752661789213614864 129),
  .twist4 (dec 763121563992313186615377665509078379453208098001872617867828870207574719802707303083777878729215504005422247140158070587287377049 130) (dec 307895947866922893779487411149697387351559730066604246071072370993080842673243089897207404042359483199819258428661397647090420765 129),
  .twist6 (dec 476280860392779071450005445670259632589634582938161296800616511270519122121333493245686961502742932250453837860857988407439130281 129) (dec 237191396072209285499945543297403674103654170618387031993834887294808778786665067543130384972570677495461621391420115925608697187 130),
  .twist6 (dec 965797730691072592938714233251676205164652513416157031670131965460455686407066672536968782551126996591833272164980624928151640882 130) (dec 403420226930892740706128576674832379483534748658384296832986803453954431359293332746303121744887300340816672783501937507184835912 129),
  .twist12 (dec 738541810184862102813760158811461478514295491370375618932717127525477204281467513145066402520645056310826032585395959805213871694 130) (dec 201738606847679876375460361960982384570524817904440893262709590627205876767528188395049509103871953250298083638582808683566270398 129) (dec 522668605286154036967703260196889083007520815054080651581309105993040526036796871895394341540191587868321229464294786652346072035 129),
  .twist12 (dec 687504855883039547860943875321705828067152881656383673498184143515672001826745251130797523710165434819621462198175494989946167841 129) (dec 15483970074386180613667828735106277701587108795499668684505672624767709736628270543996275011738371867306902984884711762947369247 128) (dec 28157426292368398656995499761686179011049424336229528117024039889738034406893379892769760550671278342404781041302697511064472202 130),
  .twist12 (dec 174143716493932110174207001101991366154678154419822853169033212336688423524538049484440006332060785935479516936523936872204938255 129) (dec 412599150499363910905612310303035261632432950957781975142804070727682492118592425030424765248850868170842569615607964778629743011 129) (dec 657982507340068014568378291938110580455943664613196545358646207946592238277100454710463170237477722835343832260133570535575723943 132),
  .twist12 (dec 265757506562719879638491028852931499582514387129303720570308751439052524283679319005885311889884460552604803825820691015996183363 129) (dec 388907275578065122503777130223325434999294510917855108556887810386695768600028432351376149902446011361917537621309572034810735088 130) (dec 656461038321667095860753545102403413417626710687125257718313686483608321996314994523839458129626337175011688649917394577041669619 129),
  .twist12 (dec 932413490352584072973462760783113604498731413924472694572598082034381506041008680476181132893645771746272283144472223184759182921 130) (dec 560484795102133776336068745984629772884132135892860250488209480762111143580596299108306142086398247346721294533168774543808280993 131) (dec 895548955062698917175932349001996044092444215889695525532976002181319626524287205970215763868907457878438345794889402190647916088 129)]

/-- quadrature_formulas.cpp:691-702 `ws10`. -/
def ws10 : List (Nat × Lit) := [
  (1, (dec 516508922560974677935406044840731585048223064923202741474135023545853623694966445931266273638112759888156198941211862577126247354 130)),
  (4, (dec 134679726716602614906472219377364511836973325627503731332813998979094726752389397923285860002269875366297847380441821922462093994 130)),
  (4, (dec 264669192496895348193637699260761398374142947751694805111917936220362863574036521068797310055590546705046417933996214597905657618 130)),
  (6, (dec 510704782814352545837575447829868697612641663428942239774115960370393669647166579238376289682977741770868808337975322672659457297 131)),
  (6, (dec 236499961582455959482079444104049827595461924070734904438085658337930107173718485909102990169337139703185224359417815316973054895 130)),
  (12, (dec 253173666509682187163419514245779890423052139204552809891009685922081712433748456566538557379939495374270067918757080179957575624 130)),
  (12, (dec 541626340744792636913620545158172570542321914263259823355199804062642889121873971129309612459959791921063269055242732774594991985 131)),
  (12, (dec 815365901205422651256852573521093683992040055867860049512564261934511846717719663829937717993066287794777500418676908640865848899 131)),
  (12, (dec 111259717596127776533941038086251229280098585151630107972379366989269686927161958427853534263274250908339374526718785147746682222 130)),
  (12, (dec 132567884826423562580198314070876373406593535538907900376640162728080579025234727682462862535366514578759896606108293504137199367 131))]

/-- quadrature_formulas.cpp:708-738 `fs11`. -/
def fs11 : List (Tet Lit) := [
  .twist4 (dec 102060722801972527275270006509938504933988255678673279369328755587765155325697570814679652930600032073045217837618762596075082174 129) (dec 299313092399342490908243331163353831688670581440442240210223748137411614891434143061773449023133322642318260720793745801308305942 129),
  .twist4 (dec 902101468104454613900355592890563384804268673426192831140792774368272120505813153381317378113651379455136371784998506358781427511 129) (dec 326328439651817953665481357031455383985771088579357229530690752105759598313956155395608739621162068482878760716671645470728574962 130),
  .twist6 (dec 325795584515310834157367113942018809129285654249371319919735287357444053916906088677240823796592608837448037585682754898112118127 129) (dec 174204415484689165842632886057981190870714345750628680080264712642555946083093911322759176203407391162551962414317245101887881873 129),
  .twist6 (dec 98784624141625061148216439177733515488298857759913771049945702999456875600665288692659870513881557850602808535399941501404349285 129) (dec 401215375858374938851783560822266484511701142240086228950054297000543124399334711307340129486118442149397191464600058498595650715 129),
  .twist6 (dec 570190512270035113070753541546662659070607222641137949999927621900176785089798821799484376322607286272367709932051621689581084688 131) (dec 494298094877299648869292464584533373409293927773588620500000723780998232149102011782005156236773927137276322900679483783104189153 129),
  .twist12 (dec 727330346346383446005538531898909179557792982685216728942719305769232994061185342336219811433342042575297277695360831918913278104 129) (dec 123120654974722356763782092214326739821361309214197637046306611927205238910041911508558297571643276114946423523105681289776501507 129) (dec 264283437041718404668972836724373407994843988863879969646674703763565281187308346466635934233714051948098752584278055015337188811 130),
  .twist12 (dec 170228073489264195767892943660134597647253552356372693153509613482997498425955102170226221799400042760475369039264623289056856774 129) (dec 130038704855902367272099110040749027005407484142968490396539795690983472551735517724022580609523931111067484938550146213247487577 130) (dec 803764185539555330777687234331715596951664950815033608767182427378805807063697794284969262078695171017311133973025347468293645711 129),
  .twist12 (dec 618259809789115788030833138852355387702513785817606125268022198076523290913035413090261434566206376289838784273884629267909616615 129) (dec 429354011719257392825603328584366829530161825540838265636361642112658820401958216859024876466719417374005075584437076346877027846 130) (dec 295869387867032733404046195430771246391453849074226221604705473500944945006572943537933590140449740235360200609227955462714977816 129),
  .twist12 (dec 539900116855701610850896752044116716649634914126581958611876541989876387750613944758939416936272382807981466870430457063721783559 129) (dec 18442403204707776707045218964462160238874167365461717014665608259580995368099760421047476045486404143709148116358374383378829156 128) (dec 912518190501428550081988686666400785728817385641837010948112928185037048873908468201110621539995343178355708024020552687016333206 130),
  .twist12 (dec 455435319621959524854445386042740354584580869923664874381111996955808953632360053618360078042749918857996181713776805828290876079 129) (dec 25916940746428264876605923926982133387158988784019391493976056756858699244601713720760408808068027080534088738113541926167682953 128) (dec 262258654494751776134361354176169776722393543959472957393668679070170614756056719664317457958895395313220435239523556483554648606 130),
  .twist24 (dec 535142000931459522849860509672867310412336365732239571264361053752187427847816740644921762327754487164195529824582628675724347161 129) (dec 109775723659603060543295313946685960533391923607985675393749670638118416280412254593349708614235728226755707938273925831841504882 130) (dec 341451866195818968635925486368842693466839790743224893716210422573044284583859678319325859887325259835986086368865570905732477154 129) (dec 112428560506761202459884472563621400067484651163736967480053556610956445940282355576417406923496680177142813012724407835359025196 129)]

/-- quadrature_formulas.cpp:739-751 `ws11`. -/
def ws11 : List (Nat × Lit) := [
  (4, (dec 146893435861307484835449846959740836469637268064184716456561647155414836786426381806853285076770118362678140545254242815056483239 130)),
  (4, (dec 338086953062168092287610190174873892102494660228632418293039644423713348294399785802827036423318665126684600307390105574264490875 131)),
  (6, (dec 167667686772256268231022165265820726487585597694795414975802882086099186247565996358393244112143747418301329930541389334579890228 130)),
  (6, (dec 19323640347758510006613356380890538849114879280823986960447817345022288146401021355914628889847266790516235800418024641637127179 129)),
  (6, (dec 165325361037579681258959566389090025575652165982419161669714209250560843401634050340811405063725654157104663817239950387248569229 131)),
  (12, (dec 97999712470328737615883457556629234320586329874536586905691706141590600990475154526166474209063871966277004082889934000395995953 130)),
  (12, (dec 203627849130482580727984911984290270347187115865207890163928172957766990371891056866802562768360232180538192906086349387961120759 131)),
  (12, (dec 820761375291671833259815471264261500126350440346160800458663330762318287197569876043948345910211980165338179125656168774889183246 131)),
  (12, (dec 151049873666634928863986264377805604028682851845313880807525967652290847776644664107964277707920743659063455250941393894390214203 130)),
  (12, (dec 127423926661063865420150318618134420651835901389536744165051777972269130730488335347879379508607461582103056461263744666421899258 130)),
  (24, (dec 527342705968912969008018948033409649783812231782439996286116445492782130904769125610295556875111081149664514924217212184206033028 131))]

/-- quadrature_formulas.cpp:753-792 `fs12`. -/
def fs12 : List (Tet Lit) := [
  .twist4 (dec 359296016640094576807561116214051856850681602799352381213376991558469833736783454911970930778588164994249205163939660809350055798 129) (dec 213567994453301807730812961261982714383106132400215872928874336147176722087738848362676356407137278335250264945353446396883314734 129),
  .twist4 (dec 757585901465579719785906006681582497783885346071419206821252846866516365716333675714181037347215603268937292881327201498980521207 129) (dec 808046995114734267380313311061391674053715513095269310595823843778278780945554414286063208842614655770209023728909328336731595976 130),
  .twist4 (dec 561731594417354396345433076169664384051271531847459935018041006301584139712203323529113261771212091201066883262400607419130972449 129) (dec 14608946852754853455152230794344520531624282271751335499398633123280528676259889215696224607626263626631103891253313086028967585 128),
  .twist6 (dec 640653770377988894682561229535949512977916574365592697337215352307596859674275922123868865763352270468747043806468351084074874113 130) (dec 435934622962201110531743877046405048702208342563440730266278464769240314032572407787613113423664772953125295619353164891592512589 129),
  .twist6 (dec 127618304924601696389036090397308074369436317206933619326136416438624121091358028397978255435515704920452406124354140053110361717 129) (dec 372381695075398303610963909602691925630563682793066380673863583561375878908641971602021744564484295079547593875645859946889638283 129),
  .twist12 (dec 694035177272145362921880473131430255987731054197994826232217356826096571707122197429174215945949483841189167033480146158387715969 129) (dec 148147260674486495091545260163904667040318234356035874499343548427297483651456592906195542446257945361087758949853945643404983037 130) (dec 276335370592957338059810474835788810604205298930797998867913933488443931562586483989586675564798927086593281176549064712931287424 129),
  .twist12 (dec 578794387572494194848851423799238729567384606155999116968734259453687336600946545312791893716822664117535539951084523666697415336 132) (dec 440679196756297958782695052431132119498455078772790017697025544052297887977610936032041222209312743751686150680247239637693720929 130) (dec 911285366261167914048612138089974337370741599639285997343626156930086735067876866248278963664420628585545234323999467548794558399 129),
  .twist12 (dec 792783836472965566044122239115160716767176315109779208086878920727237810064916654003289253636930434600911365882591710768650297754 129) (dec 290048145551581954138829364951296076764777043899224287366346297890814877789586080004335493530293173956607172050450684411947906957 130) (dec 149206534416718043128111887894580067879868276110375934439851819694599214377166129995843647657010930607767199707318152348960120854 129),
  .twist12 (dec 721731835418575762096892584427381724686764113655572885490919568168563845402972189976151401101379937438756598501694041382477304965 129) (dec 138412578801503596807210409364542665981681885437186668878419406721929051285107909787445599103397077522651922496617547895870920062 129) (dec 144300697841704428868659684353294334987211547005377675224161838757805202681199044895740069182590751593955650507086282578085491058 131),
  .twist24 (dec 115518352710014202501522112132873190692393191022220578019113453067866754553069811459737584320240583110382935828989870364186179258 130) (dec 200268515666176705574924365215440306961484152766194846710797289073432410049388614015825264037448591593281542652417502377462260678 129) (dec 445955601569098217260431042575030942429013916222268676770388958534087819821664888367812105303200688908083779978468380057220440554 129) (dec 342224047493723656914492380996241431540262611909314418716902407085693094673639516470388872227326661187596383786215130528898680842 129),
  .twist24 (dec 729586319508262648615172545251039197017457707684845268735870127345366896401104631372501361647237948972797979434819546459338096469 130) (dec 254592045025154039512026671565452255333075395930109079854139552919471070003663881796697660883186336725225562359061672227343251977 129) (dec 42293328666445363023958128128333767203290743336477060916044988547827757745566393718878550215281433263153962261733853764654336938 128) (dec 249516036359566065386874792626106152932271399936635784111823548867714662900561717877266700799275535745955017080117835480179568996 129),
  .twist24 (dec 500181076151871020316060572619412028506288310722288427016352587698211558274808418972919621304454307122319800200736250397122737389 130) (dec 39373386599840534374170290867271778292626328036643200208755825345994170410476062471147843491867269990762578228398040733023752824 128) (dec 553849771685867987931395825976625079762112913896464043055670190862719405321208953950370690246955010694220459441419000206644227572 129) (dec 239825470053956629529520808871593446099497466487511215513629690751773474654957944085891270392685868592177825452696742340597044886 131),
  .twist24 (dec 251836782427111630726648434585676696996305264089210523250890292563883576402470528907366189267336204915695133915783587702532133128 129) (dec 360873566665786373397454756288212768968739667287532336522795682958273804695639915579005959232528278591129968556730394852078490793 130) (dec 598548629054402038661569545541798552975118242180322883682359873929808124565017567319757923422273392299383709147387660072219588799 129) (dec 113527231851907693272036544243703473131702527001713359414470265210480918562947912214975291387137574925808160081155712740040428994 129)]

/-- quadrature_formulas.cpp:793-807 `ws12`. -/
def ws12 : List (Nat × Lit) := [
  (4, (dec 176149155350325643546274998133639449580664664582028969156839657506157464508161069612375140130229761339916929073844935213736320854 130)),
  (4, (dec 8351235933432746921136429816437685473970023763359648731586498409805007096916813521650921566285726894043985008226236635113119506 129)),
  (4, (dec 177757192066943919679255581299911965103486797171156501367821394877105564222845606804597403349185836957137553210050097753599258201 130)),
  (6, (dec 101680243975721456573036458655969536351866767542107112207837013431737222625047119812317693476337230508173481029133655002636617538 130)),
  (6, (dec 157404000239538342752838526073786044751035928170006490762499302969192952707290484577212442605018105601036803394191153922327186888 130)),
  (12, (dec 151128114586428740958694908434826858893191227170059969218814422779331036362759265071425733782848191794821707509865177813467810907 131)),
  (12, (dec 872656988748560716108735155701863381069548214966498293699397635744383568440657699470583714488604652417312551650630380528867050849 132)),
  (12, (dec 371288266145752842478142644107918945653057476078420129859932099885449020256416375951860546496091159625579673685913351023718054189 131)),
  (12, (dec 235831425572737576459066437468235939115510527870331181866941881232619303774884235487263701703685734639561663522153449641558407487 131)),
  (24, (dec 44908470362717001733285173355274781205230543182930978296552274577397065410007909902086974546316269611942373402362072631275469004 130)),
  (24, (dec 754961604889951909804730800923105868546175793646851900528880610803870686742856561502022531075853495838345925383081839981697959332 131)),
  (24, (dec 185051458906769223195354651143461369726704516983574815426177557115341135922940637945527338423804933921844436189681056873662716282 131)),
  (24, (dec 97807035819541001487082847043583150699344765964094567542822081743305139345059218127314793621425964613402248946021118072288167759 130))]

/-- quadrature_formulas.cpp:819-847 `fs13`. -/
def fs13 : List (Tet Lit) := [
  .stwist2 (dec 202381678618097417199449373092872568415056889087925490885441191924580511108173041557369547041479525346013858563777983590006161436 130),
  .stwist2 (dec 289014735243526358108710236241785716868004457336350287998872053761033409897105576302058949565644735319043217270923314583729835911 129),
  .stwist2 (dec 94028700082127070431464136398425138930163721030129983207913505377723040770363355804195003521675260287566304666158102655569054936 129),
  .stwist2 (dec 197649854443725526440402195712018130749534824488531902272934411293359029310545291175959162417210453194158243873630944555589977513 129),
  .stwist3 (dec 404618967601836352613810419234450376784103428614302383228236478461964776155800488814168020744441452355457551040485019325712545045 130),
  .stwist3 (dec 499999804851969355726457275280987391737725246175036008899361073514749583124863400820493022304813040996695421928156443430926117981 129),
  .stwist4 (dec 675292649528024245298513076286528686612359783790352327129724945696426863009518167347809828428941816070858265872172809687167447578 130) (dec 611897130204293443135135370764327108504099381977913060929549296371252261988254616701510456879413379369987168423614661244055836166 129),
  .stwist4 (dec 136010514513202922608246268159525365212897173900224644296349957586644176800999000641395611689743357488981857722138650561482998298 129) (dec 486830833879815930499202042919616070461058711773156941609161595059882890162041451127176567621747559011294806166460711206368762742 129),
  .stwist4 (dec 278078345956370142681109982945460335600579659254208676655111563075550703921754225827003561269331751236845240484604640862462566453 129) (dec 427378608034899993473079373953694794920567335614082746699074819924692358082876970179377127239691020434411213347837426410185459204 129),
  .stwist4 (dec 196755019719286091705714891775106798476044143096333233611474432280273304954319287582674960596368908180644970946630993064374141219 129) (dec 566752868096798465672060771939231015625980026345194583369047390436022079375464165241156525652385895591459032303681956686739014226 129),
  .stwist4 (dec 386249862920349680910358878735096467526744973842121062793600509113960015176200598121473878791666140228303675338702928187562231712 129) (dec 620197072419754249349933198659918767240901205967809290186011416065750632463609596134182934588098453965685080547741798329755323875 130),
  .stwist4 (dec 235355190546527723661435331661532872277238108860388420426274919536601429963863110540095074271892946367281061004343960780078036625 130) (dec 108660782083319879217019301192209605077892035174912331639704761160628849638648178217657885907053485669417436933166701753010744913 129),
  .stwist5 (dec 336210893074771947547195040242991118221546715324462148228828079592568448522294396873500655419459250478411490802966694518969591855 129) (dec 544696497701916184414943626581518649304203813110548438005228774484099813401001227605329445441433793108307327653749590729042328981 129) (dec 115592549353432048860103076590799688941993755241715617438711176302776483806944276100898699086846373449643903135886969809060733187 129),
  .stwist5 (dec 685981630123515206927942029949330024029961241927514800890663951557098693107085290837217442121126158414748660609331852042985653389 129) (dec 288616049407555045327589927600465489723621145979522899696373301996243794248374435139523358392591742793244567902983692291360248244 130) (dec 27458333024900038720850362321382484451563421955957459596423445794942604350353750132455388365111125044175882330087773821907852892 128),
  .stwist5 (dec 735677246781859786541124837652850256222035583838734586058056299140689861263492873971679473805528174595836053824381011845441217408 129) (dec 154586646827380445511120238409928539065209877638906321191981506822011201317058075119299401119366294954269724440819219823982944132 129) (dec 110337135690874331053413364949572002509824860601763117196842822815601416322137287136608994064284334462994164303640514324122156924 130)]

/-- quadrature_formulas.cpp:848-864 `ws13`. -/
def ws13 : List (Nat × Lit) := [
  (4, (dec 860641778914147117570575977127060037445213605279952678626112816119819849923541298823808230438694826011476489398797699344351014606 132)),
  (4, (dec 226073268177392197011579814918166616426431330999538940443085140727066355550451703307350143485712914525123005706982131228196977195 130)),
  (4, (dec 968003732683891856884758139281488015412314724101270570230133306246145699729774522876035042542989209867976684698769890088224481651 131)),
  (4, (dec 717094032557274958881192838967982516951144993985284064172509342072314493219641095055298595026496571513884356458383377521405963652 131)),
  (6, (dec 778487097928040087505835170544385552795283278147897532545949757687543211339973162754376904150665626315351281376626702034796841466 131)),
  (6, (dec 512027148171612269589027906484064072997067983578058494619543160490871785525668325376113734152885488458074577937673899775245960509 132)),
  (12, (dec 88802721714229718040663592540539615258914844139098396406071463387261487672836380568216198086449513529489844140496721014946690269 130)),
  (12, (dec 106214477904937418907757936839405513904107922822002841665171707754950757153565244991042713536790466765559728568120340653238972349 130)),
  (12, (dec 587308933199585670265210923723462749913203702255786096884059294463793938959859758071140187507583247773143386796171015170373147153 131)),
  (12, (dec 923553539755601503819327216485642838684944547521233502999010085290387501525726037139019491390747438641221569197134503433268835183 131)),
  (12, (dec 145673220791652228449133297220513616977173769023647175004810998288529834167480788929078893894701259444377611873019550698074340405 130)),
  (12, (dec 265873986217338993336813577508794622566756454669648917024135002159469081977677811643387682132499190503222496471154200148544053897 131)),
  (24, (dec 322185277500176326015988354058348729785395253148784131100438698267829189583730267520675992684363191021478382779734586380618725197 131)),
  (24, (dec 146420674110399044574842513061680251154537334316774880221508798757540971210150888607757590231190988647637059226552824269705002328 131)),
  (24, (dec 226835492745013807154733529863222076024169129825948934892852556896418963290892172365570657009422071178958766199558753501530326746 131))]

/-- quadrature_formulas.cpp:866-899 `fs14`. -/
def fs14 : List (Tet Lit) := [
  .stwist2 (dec 329815151784619308848524983559176416289654478325154787874707305177444963402851249747210375435019201379471390936406244915778631553 129),
  .stwist2 (dec 57538282689759202504622700648680592512009418811176938021819395188130652500842813225351192246832115551248303236779152531740573359 129),
  .stwist2 (dec 585616861378350418958770770071940916682289178073800033754163540737526867165777185530621795911040314590976855608525746463117799429 131),
  .stwist2 (dec 160555475847956640177434156561711823503418336379820288158079209706360677277631475099645356367260787831179779678343277253363810317 129),
  .stwist2 (dec 987396460740490867109647502032049071975194224142168051666892116161077863433647726142007146370060947895162500380614612820087841664 130),
  .stwist2 (dec 208053196159726508005405227339905598158808613642078217505658176368561297417330789697358869389704248729790637570652801524888423638 129),
  .stwist3 (dec 490247971187776476231955642729399014342082737453911874860299133475809197714901715110272258495723348595595925158018664901980920995 129),
  .stwist3 (dec 102939400115532590640058259441029169942859759931436510594633025673273400506359668069611806905680670054307804207725092702509682832 129),
  .stwist3 (dec 379134634612151350082921714398731749601525014062058670531045025918265203723136918928742847078349272573966534666962674698015913426 130),
  .stwist3 (dec 318573576183860379523690456178328818404424776752735992388802802334030570456976172051334354640923237581166575819423564775087897425 129),
  .stwist4 (dec 249909218863499831840327185899541443487065793167024297028340584117608034821718041382539984626589213016689884342697552422564218957 129) (dec 418938778837666962484133441429706798058398043191295866742003648881023551893780933627996949136055685304470137706890328414211451955 129),
  .stwist4 (dec 213263378061875731401306162829162299499802774340135192542272591240593958536516288281390994926734629071765216922310230111802620045 129) (dec 562876680249783716336376896776521303559981696950400798914609310519744552159201632961708826746608163215918775306893947091127116079 129),
  .stwist4 (dec 491812849401590528388203038538198438948787652390978565150952808114485676841939044759676820605330847710086301068751510518673253626 130) (dec 895468972714016204481547323498351556631028115779208840787905995591848692132623436923000790262842422518583241373373539187226800854 129),
  .stwist4 (dec 392862617970060138172363596564325812984075256201659173981784267640789230571145844634009157622685880499600505592237573892944433252 129) (dec 206635789296734658096357279018520249550433402738397639852901286685245145323024042594761905359143921557509125003300905267675087405 130),
  .stwist4 (dec 126176055325707094152972047972164316368082258263618251334397396564711211078836675247415011324128568369447567040436713298892736473 130) (dec 126902202407495768830569476700796600705809963973942783188564572949481016793881828396604264677810710789893272077844804053924703472 129),
  .stwist5 (dec 121618784348698988590981932760934540577896166965062396504099503259778295190813740417713818856149102192799933390873131975803473931 129) (dec 621400031176215310837594872604645828196833784505534980544218220546934251768208345897151501622521431439861539424793255519326094843 130) (dec 239500595078584732457737658877933364753438735809253359967100337237648647892645739983754771471135789905277401845144465040054022138 129),
  .stwist5 (dec 348902296047024577218939682868824106494930022587999926254474201869236254826246627335037710322061208254249122879253832989434526614 129) (dec 551794132118424634604427352763911038137251403483894287846527414932697155974493235963889270599706009654745121726999688087881009125 129) (dec 837814526113429166323169902215418728175998724348842176264697129056705288933559410736923362430715093338294118852824074650690337739 130),
  .stwist5 (dec 68223832016828933899107684731046019315341281356936622880199152226351095063857933333784288608311378221437829268593046615630459933 128) (dec 178416406476545638547472567510741509554674662233632345057644250778963345940531516463145437840929547538938311286402091127642415922 130) (dec 28444074187088362606470467223342278323474992392542908007575410418182564524017695970099924686675976640031640486726311527221302462 128),
  .stwist5 (dec 73399829865858107172953087186729491616448105757577624321100904279928278566454966172180351617263648983415881230509199148305786846 128) (dec 169539550700162253299539782400334502677791149163789672603816401213984403451774720324663876091710703757529536576414111598145140665 129) (dec 786855478711138935377303752930221002425834535716317101823314789525709701464667961071652682168729846161627567700136397330481267544 130)]

/-- quadrature_formulas.cpp:900-920 `ws14`. -/
def ws14 : List (Nat × Lit) := [
  (4, (dec 344543305032338818807033309164223948760579357355233339207088836724291472963245155050021602829300614556214381287836212136698743582 131)),
  (4, (dec 262125527187049676461193244335298731489866531305548387315539615625283319033141233429641533294200347110025372601519329054702995908 131)),
  (4, (dec 110738324189350261425019589471251185464856065887960109015400988379730162815486404463030557179672567503474039285573641213828692395 132)),
  (4, (dec 100285853724738053150984154740814277247366798254016037201369711159402671628984702001741712429503572009233058295655557515085855234 130)),
  (4, (dec 679040845780941227331003692797600032578539536483272692495121646500603568153482591714959744095978071674953888269793687866950927186 131)),
  (4, (dec 711814834189928564420392605776960623051396577556451546334255140828119764910737452897694181010007197797186614480034828149141143566 131)),
  (6, (dec 106005229456405098055203782454258966062803836210033286487034907498904430059119059098489021386746649742765564918409204743058937505 131)),
  (6, (dec 13669830994980889913126133155446897796867406162694897071940755227751972786933822724125367686865729128080131259362520366705676093 129)),
  (6, (dec 269074109467615525327748806674355443658843524858973416558819282521978905418816100071983987671716455194130088718520936123741272899 131)),
  (6, (dec 101646012258427423954933407724882004034274565944054673671649127917495969175043103327020661789997389910842850355957855843848543348 130)),
  (12, (dec 135443996377273973278942403174997495138180000226220293672294108439706871077737269526756778630602886852116868007439239812157081212 130)),
  (12, (dec 462334004766979052438601795080383556379677479961243217371818679528664317181280398712428508763154842551282153441974760886728258347 131)),
  (12, (dec 833149845247330047530293078506055736523458818070839237857332207876470291419804588073657943720446048884235829005081710964249356774 132)),
  (12, (dec 724029676085724935740465287128287807744655285097850562073943118702922689351395778034494224088008866575931076230367680174131308023 131)),
  (12, (dec 875180780997807804167258252418947043965231098634280229209492917710849191479598559083412999910788911271768178711390621070302714359 132)),
  (24, (dec 717253651809843752453128631796626842397631376324734094084876915386491277225318411884026716070139188220835138117716766481042408437 131)),
  (24, (dec 42868563427907812059099330927323135260950859742624349276697292397298662223794125566748851116016746050594209863894697710879804796 130)),
  (24, (dec 975752764150689448699925740648097614827834341853261583933595400350813373027901123529704377131295929272536799244319175570411607541 132)),
  (24, (dec 375793629976672158010209639454335818144703038068120745200118933333937211014851494924438555844738374303800566689140285919589738112 131))]

/-- quadrature_formulas.cpp:922-961 `fs15`. -/
def fs15 : List (Tet Lit) := [
  .stwist2 (dec 169264215854722024114693024482665902502590550273900943358525551490160799027973520790835325445937608828677888875648178156895285751 130),
  .stwist2 (dec 283677925459572216187443720552609590583294477911541258109148051954139720056052405602332500087817480607427139573922506625031563762 129),
  .stwist2 (dec 18219841399758585209448697471577758693986875095249858332003396351552705762443093874359083423111992110143928896731727414742140278 128),
  .stwist3 (dec 145080051521845932816751102831273100743601896440585390809092133515375506778195447891085981113196359708793395515645362709638948247 130),
  .stwist3 (dec 142744143765856384872335148932243620081298392934160270612335061435712635616603606665143536042277448640886601618713121965071891502 129),
  .stwist4 (dec 732172725619535350291242043189978812939414346106650309311352853443976842987094932626292729977816381621142147430539057202693137024 130) (dec 776635749373300324713913625928310289328654522643484389002028135385147222285240950362335376345008224378945035364428038483228071365 129),
  .stwist4 (dec 105655841048969891822346283835111874854005753381128597472996752257552677819768940020565499624236736244273335399775407371509020515 130) (dec 222560655492434425795931648965691823816249183077977211428747356031202972948892629733748049242194470838140647302986523536496774774 129),
  .stwist4 (dec 263797262668814663983594456612664740964663990476246271526435763113604142320016493749135723474963925746644693871377638403343741937 129) (dec 557502224056597334385440242278166717473535886491749422730207794876636876116652586011766504445879006645881730501911583825730126741 130),
  .stwist4 (dec 435490270299381726355942518324652051944531424052418750432819414982434249940241045511432809439882519013837941696589121395345381164 129) (dec 111290926705532887238510491217072266815143608974127779483056272831629750007363639291418091032369769185277093349506113234642805534 129),
  .stwist4 (dec 534725936418519328792030580085961409326256614021989561044089061926179502994404169533344600325417315265029905994549313618986363416 130) (dec 544886532297560340166282559152836174934566138897879528759983782914066903498415316849749756260439498014452076547591917055276836515 129),
  .stwist4 (dec 110530893958010027688940184304701872557044557649736692120048562497394151465439882769976513135227729394551542672449405075129660655 129) (dec 769470377940540574816037764799472829249353247299072283267726884365226235778144807186413689528452738319647522126840767606205974863 129),
  .stwist5 (dec 410467051499107569632575859648805910583790815727579236185096701748923078161089808242017054281240040259624620286927729227792934627 130) (dec 603093644077098648939697189103067289558050149730789292532978155797530358336887166032639252453621368984621816102184618139715910489 129) (dec 23289244154814019667597857154815834600391965866627203332539811808982634302547340672933194727399322675692144982755397334861266349 130),
  .stwist5 (dec 920166732769525838290672375910482296065817917622789797626663059352158975630005017303135526492736571558688312787460430190680664573 130) (dec 293931933291708226330282107476917004314499841735339501803636635306651583826089591871109418844463307874067236281014784882480826052 130) (dec 867264605124181470250866705665491648221319511934765031836348233275818301763472419810275266824439317330065946587285257096289230566 129),
  .stwist5 (dec 682262786800005214548121102599371963900868030037912759319014821214999836856263669961928135568738280699860964630712147495065571368 130) (dec 707781487315597092657777317914365436322320738825772367326307352812952895401587236359171273381931733803806401615590008148515185076 129) (dec 220064375586166175078789584628928293094322147275862100944354561294007589022263732672071118820779486040986278367858034969431598321 130),
  .stwist5 (dec 189001555638617622410692369563993233302347110763610149298247937500571595360601377099756920401032237620006255577847682085991445854 129) (dec 12958095976745338626964734302637420156291239562563053259337480040468302787696133248812449658258792603129952265338538177858703334 128) (dec 680753297880063774854854200888987208829405177966321432378260187127376429926210072447338008220638838963124858992883349330362392515 130),
  .stwist5 (dec 305479966390601158178507145113897723549680941253928676838103705092245849133329054084769385115993799235307445518618471485698240582 129) (dec 469533300366267565556904669685107931200136750795776134756090919737360234517312298820439963977184506599356361470650168091428889029 129) (dec 725148432336914856241797649649661722941096324425284313723069254622310366589331040247653711244076327537673075945259449883925728745 130),
  .stwist5 (dec 15091455008251053018266775320072054835840729527887049087213824335754416285804714476065828415621016972321620116492315251348028795 128) (dec 577834626148275250558259263447902131472323492291066331233516350193413544267742508084504390466401868184501902375489971316287825033 129) (dec 111277403128062617040101263308383833870140511638561144876796533847848723290569958644507616945373778101366420603894431914232276356 130),
  .stwist5 (dec 336845065854764539406910256036738751179910995514509374093301142298281617516519127400900093521176455235413408123864578805303276995 129) (dec 108219475368229327185066518743068468685905706189983023590818783399197924357571747211685137565313875569098543241140517561920296801 130) (dec 41760695286430337959586986441765178692951794118156274150934366231000513575509698179369739843782647160747313105106578665905180825 128)]

/-- quadrature_formulas.cpp:962-981 `ws15`. -/
def ws15 : List (Nat × Lit) := [
  (4, (dec 511202977145493505509037158346070041260096144836897680459289004690108659523379088560690922430561740920739622631442081721931234079 132)),
  (4, (dec 162074059202265781311302859314404204141900222598208272967957528587596847680316644554260859985751331179021849007714475802148090432 130)),
  (4, (dec 155257860204131369272586847080683008310949032159879026299223535720176622985840291638471299274511253545886493963286501074759456188 130)),
  (6, (dec 121901025997542133525099691056062926017757431598524734091362713737283566544599548661742724310421001584323155093093257826249202479 131)),
  (6, (dec 847286285312591592756797632456586136525087165752893443300634513984133352594905497852951376025031101428152359719702588750872686789 131)),
  (12, (dec 179753430540573306146043039192265008164041933121814618200734744788792891307186093187493737971730548512109048179386343933722115865 131)),
  (12, (dec 819801522076006079706948404971613070624726855148179329688658778963807122211836011242378704974225462331237649778388129053918689979 132)),
  (12, (dec 768177527247301183100928044959232948013324433966819492983537797923455998177189623634372451059674542301606477623329077725552770185 131)),
  (12, (dec 447985038577478059797429202164349207173984061674081259178293647619865374409113986754655543850302265168164720939116584554039698848 131)),
  (12, (dec 56152986083843548000365518513140794185076756906450955985573431135464255201018513754776860300842931745344655258812497400639971179 130)),
  (12, (dec 176970368579728998307140901982219649716668057286528119015144128140591542547790140816964837516426596584028190001603236962810377617 131)),
  (24, (dec 113113832918702212811262188530020887715721271623413485559809639676401457450241228534742192755405736802014884445391462628319109858 131)),
  (24, (dec 840499340757748688973356116825693868340491467938900645223453510240580181419314854504343219772394561259906200106881815828925922792 132)),
  (24, (dec 301196860740268454171056016630195972857133397227144926807562632581437358298259523566716262035547160649207901635313201942681608086 131)),
  (24, (dec 508442932752266814473754684728701245788296069513287101440050566645604738229673871563885535864035763419433880718891427352042369275 131)),
  (24, (dec 71393837280039957189541694938930430955845485897225212827318757862449000602194690491466412016048066392634679241408917983392815872 130)),
  (24, (dec 337855056822929458689924319947421989653341832686426207672516126716220029657367968665569795982285211773974346059323814635940598439 131)),
  (24, (dec 220168077770146227096196827952726056190912543187352256822416953348445364977060585678669276714869736533480420196211925845745387773 131))]

/-- quadrature_formulas.cpp:983-1028 `fs16`. -/
def fs16 : List (Tet Lit) := [
  .stwist2 (dec 329671473844060636193751622580311960823573777613691460465338456558401873310087470862296441435069792436430781878419414911677069536 129),
  .stwist2 (dec 112042104417378775579773552690857848830649593190290007013785111525711189119858865832362325847471755682583455065376791964377505322 129),
  .stwist2 (dec 280446025911092919173269687593749222482154793170186014228309058920718060148839120692225314228262701685777767690835165601515489287 129),
  .stwist2 (dec 394216444407616553018604131519433587976665386763679804063678330252709612373179781586736476246280589665339080257243636207973363704 130),
  .stwist3 (dec 749174185647675533193688765333785776546639065622645748597493104850355694590530449911157472293776113792377258965407789413981746541 130),
  .stwist3 (dec 335693102955634581484493883530099093537635103418784083237420570967165168080666593651538312660035754209777518936933705161943280285 129),
  .stwist4 (dec 490489875955667485170883668175519881788431877921617336193515818786157782275458230988647227182652445257264332558380875019082468125 130) (dec 764687067580180401283525855220976786391295529381306135374097286183090208996325562328605552047549713635450726086897154244564548975 129),
  .stwist4 (dec 141260956830925339702338373039404420764957954740129694376572637658536526505166295873040618858543834000675826138018244245096897056 130) (dec 232826804589425112895375012098521509121808112866298921940506394298047009211148183941326250770455606725529801475821625576484899423 129),
  .stwist4 (dec 623965205815432520865836574743627876614226378297165507654602425344025017721656241024943736852718077768565857492491851452423010862 130) (dec 283241768307794686435655855044289855883780361166514527670123914105962308737883192879715565476475207374161033296180109495891357889 129),
  .stwist4 (dec 189095927569655977172247906006888766271641241031690881766346318509270483105861083956555389135737848438459415799324253870374616848 129) (dec 128318740561182397007459320483039098294274830149450227266809232373111299194692934650502047483720127362019058722481476855470425136 130),
  .stwist4 (dec 275017600129544394870944330066281046098028523108005152647708609156072901704769106175002953738908247050757173751772069503757912064 129) (dec 387270960319490308629554333604770747202903874842582481249605586971901364733925632205215137775399247830309539357320727319816118299 129),
  .stwist4 (dec 594489825256994551853672034278369066638261168645760816381024753705706123868368594545004784370533357581189368861687375084222612901 131) (dec 37238059355235419547590909883860452688644035787183034858431207138567609916978135092311226686059213049140185230135483777816834014 129),
  .stwist4 (dec 118305807109994448023392273944827514766815505405172967141553466518829382349864588210667986806436719524422259376118682082621809611 129) (dec 748294107830885875476406924419894119398625786509643741505231569751594410744683142851774637779199270968009542003239813079955221445 129),
  .stwist5 (dec 801184612787250238048953852942912249921061297644154856916446110594028080434515378504252152433407150574742135270735557464327108892 130) (dec 51463578878883950389557459439302903704382565207140436833510121709900716895088332949952445316246451847115460863297176848828559128 128) (dec 39080211141879205490649181473579692228148336960269432606426930993365067678058243342554259278726385784949139756478790727911994615 128),
  .stwist5 (dec 310258549862727268546901994976003692671190915847280802251252229549974541672852692106178209151545373879353203875788899976491301136 129) (dec 164573946837909856183654970811126256575197729206794570638357540748836966783613695247559674838788091775888128236129020555144109526 129) (dec 699509332296336891271177556649522969847564095324207426823101545039258076639418682667126675767791477585735338477779124934087459965 130),
  .stwist5 (dec 108524080192898466764968597936310458799537515854492874683213941515138513284001478507876288925299158249225544147904913464609421967 129) (dec 343586795014569576206991867406424940768215456176248343067470512036771010711553399796396238243937167506738731231807982307156215448 130) (dec 855715699220575192154004444645726502132380277450471978301277324342040479729869039186662477216887607684257056938917326439894627122 129),
  .stwist5 (dec 248382498781495463293299396966356752371275464762416010388503872630354841054574188734901501273225321652076440713883133572900696298 129) (dec 662531754485050930037006176614661673296064085183651766557503884650287764287381811195747679570271757381084045521041031722502367119 129) (dec 109832344876490044407395504617843736486331439040653967584051295012658554551126268494272562369567152287331337755003704959437256544 130),
  .stwist5 (dec 396009121106703506298652333120052933199313928325298878995663664092019401326403739454257285787575479983019369441780808077119510591 129) (dec 122689867800651884608501727445489088402645799830229101674146411754841616636103380411634841812848694484074899848062248418225921057 130) (dec 187818744959750973454213500679816323598446309840884121880754976966048952785115355358279991816929484643258510014008871952670228077 130),
  .stwist5 (dec 636751619713730578761088065954736331499619219163483192813055887153942725380355567773736207843727906132510679972621086868102740082 130) (dec 20546049913241051283959332798606713633734444388303216639460652704480426025360465893796239112847098203250073339731676887147353105 128) (dec 136244950888589525215241019961914786871664102394613201899360621330418272555730440101209554235222099782176481378945508768761738762 129),
  .stwist5 (dec 17576504661391044061489056539266475927212154541875560644855650910764629727732135669092856142496587207933740094902614073684391109 128) (dec 461067886079699428376878699683390457659133924175935908159374788947251711026037341467696482894934005974479599110195286105257841535 129) (dec 138753570961225309184569239311014518918319678144878114239917854718478809788832685217091027990289925506944100406456453956469319423 129),
  .stwist5 (dec 477994253200670436360833070188359514925865971248307348475458266887330202069297131408304095623921647555219120147967170053921853504 129) (dec 134478861029962906737425241719206152604944207536584311970532122461671296928522387152584981489878839325140402590033911678564447462 130) (dec 322139830653899560841448804086407402688528044954438405239401342484762205698945359655193011770825748836904474021112431432554713897 129)]

/-- quadrature_formulas.cpp:1029-1051 `ws16`. -/
def ws16 : List (Nat × Lit) := [
  (4, (dec 403487893723887049265039601220684146602534242165780385146662904922765437861859652405263149688624257603260202556668470229219717891 131)),
  (4, (dec 526342800804762849619159416605959534059223994403987019927425565324551119221653088103251677540916007342697071872771078680574250106 131)),
  (4, (dec 10786391068577638227475228568754912094524531591179115272116852933418469911875750493245332959491270003716929094833796093635254251 129)),
  (4, (dec 189234002903099684224605393918401685440083376509165247432758475375171235747455403766221105919729095867469626442460208121590998094 131)),
  (6, (dec 60145110030004587065006742090131667561881964426430694284578388980043249512610797176840186792871941678733157703566269659680588901 130)),
  (6, (dec 869219123287302312727334847940610224924364137408152920636786660168825308083758274047862136908439227594983940240733310828076845308 131)),
  (12, (dec 350762328578499275659307009126950991961312673536780821435821049454011969812268301359289345450880837024647503914909498504054682725 131)),
  (12, (dec 118866227331919807192940951748928690748969011131306902185492293263586976423427977170499794506469790175414240895731592471091960942 131)),
  (12, (dec 434522531446666750864079816261451059557540137737512385439286319816764507075389324600976150028596246881745525546523629037647693961 131)),
  (12, (dec 26606865702031660376464861201919219113510273693602807829965137815420657137884478351741663161104600571275357673103605009935764519 130)),
  (12, (dec 555317430212401341478384714866174459643029905046316843896885257323711492031300252634591621790275350698933025305840412881973114528 131)),
  (12, (dec 153143140539580769969310896383797610605369961183694353771639560052384880765944002634774561442220709103330870838185124920836456655 132)),
  (12, (dec 22312041367156792886628954209093899912477174651944948215634581270253641100753653931139293835183976659187951271637606390660607039 130)),
  (24, (dec 247237715624996985149659692307816435282161699658264687988964443744810408287139888644898706079900135145217925392896072702206354799 131)),
  (24, (dec 659612289181792506876909773112723783151381592988134444950758182899888922179512600365057692633543803089177906787693158106289142264 131)),
  (24, (dec 600434906769742160872691593406609237059807416668581288665263881601469603077664122398039546562273367696599713274203593728172093441 132)),
  (24, (dec 224233099687652742449689510982133218385117731160160740974872881253773867160413241433551346229919981378648829027658639763291541552 131)),
  (24, (dec 82444223624718372748546097521408512389769980992631364152749987092256435642891942521888549722359856120838841374189929283850979653 131)),
  (24, (dec 43880158352679103438135866658469060906806081577397967611951170933660448829088886719743609201201271859049125496753134799462643403 130)),
  (24, (dec 345427842574096232228714634129451823811003451979263306827783963957243179725140111375941572917439295994367735024899931368215709149 131)),
  (24, (dec 392928947333557070846156486164535463196047308150236679899778066208877282364675719738655910747909450953978785622280452123589473731 131))]

/-- quadrature_formulas.cpp:1053-1107 `fs17`. -/
def fs17 : List (Tet Lit) := [
  .stwist2 (dec 109259411039139984302043019733651130116727292466897216510577344527041311726415265286559571813515691434406782202380856734700581397 129),
  .stwist2 (dec 170690533535099073523365856317209267318974968094165490439347560383550440691713350995430567823330419923749689722924519135926633957 130),
  .stwist2 (dec 603027644020867104114830058999256332263270144845851000878155743239733909027031184971074636770379561959198259707699486383947904975 130),
  .stwist2 (dec 180293677875248739642214391580291958495076552199323031784764779294776706447087444768942255665660708793615780445941517206356323587 129),
  .stwist3 (dec 20756424943199227708813154528934739927611856131627612106090979089894223456883754833447442428907533461280999670247131085997669997 128),
  .stwist3 (dec 635056187503617908531182081563440985294108422073575353652900182513142705098679926655253149767214015535962815848593526103992274281 130),
  .stwist3 (dec 14257409485698342092173200695525142290085801527775032490650938549000235059056102033638533445633879461497453272271527510460880119 128),
  .stwist3 (dec 152549896113581813718837868519469383925689342346821121026362394789626400989195515469850510539801245858894797165795357398452588962 130),
  .stwist4 (dec 281771746866182357500252130725188160668153686645849006031708513545002883612092949599039276386646679465114245657894306407218514003 129) (dec 66056285459363540813664791194750356126419493047311641031515568793690188578551338136947168455017932912941054601413471331141671242 130),
  .stwist4 (dec 253279289661639381651196222608156346397553026296166706373057045371695341355532804005949853593290495880508852502929979235827935023 129) (dec 347307675526978868738973638242581903887542428716883382975481876615672818132819201022080710692619031533612805735066068053544813907 129),
  .stwist4 (dec 119444683688799187246927678400752267279074682262650196377832778085241669719092156816367437091752631467243268093958417015093742609 129) (dec 512963193213530437097397474086697486376191072035293206739173493288910357784881909156267361876810901362013592423487683136524530426 129),
  .stwist4 (dec 279697589217997761509484379702302800384483547226808416952949477255819905576540485445035421919855176315800298055876559767402688313 129) (dec 404013515013137895471397203589693142021266656873449536910799701380039560334822756706469419221959255696251534357524604636160425316 129),
  .stwist4 (dec 59149650017559159998163771325944564561603852502954921939988848324589210682934479733763329188704104649346968082626890793248253094 129) (dec 277150576803797882577406048917849411446456633873894586081006576285197101111631989166727632381167726587681744801037688189537657677 129),
  .stwist4 (dec 115664568797203920839153043400172305458456128804426470398065588781840594881630966148711449617005570001610182612272233372189227353 130) (dec 337269323171396242558193990530211624202755100339177886989944586704679775295074962696022567446626890830760171556531406834913539389 129),
  .stwist4 (dec 254620094611861869597041610759358639145021070991122458409580386131892178030546270499915146348988731658225935799711717673836422743 129) (dec 889921351196739032506975020657532145783285774552431466067043646199292474352862560025728054583822062791157107694560544124316821686 130),
  .stwist4 (dec 667291467786515853481064175679727173010233651546845663103972697755252822375316803829287174577862085740935969218526900421088511089 131) (dec 833537700079728187021689887625021632166591964624394572077305815003909221359604715181514761274528094568409618469632110314836607837 130),
  .stwist4 (dec 595499636617362931095966623243527888826503339054960134889701067515900665187751242966404213043441288468368193387005669296045640287 130) (dec 148873851460922566581649227631700333257451277162044828402838709391206999410272528622091282962994526375782786291038776173856353291 129),
  .stwist5 (dec 956382942582894850917862638637074035568186727139677912644434417282403877907551827291167614056380888801485685953849829021354024774 130) (dec 130804747131275973962074180251712371682700553859306518564174371779413016045692689746964038104047422426415215104555187484029410839 130) (dec 168349306418230212179219397063525554189170345449692535431301436790842652358609210623502361386245600964410256031396252645874169004 129),
  .stwist5 (dec 603575153489387061494404457930833722640167897155397649779150028319909028082879307670413436432192447313747473204598968206799128085 130) (dec 637655199341625239220695843087608859907223970045446231765423364699165019568196843659940620817016072742099440935981476807444778076 129) (dec 106224629959142318154259010331452344140637620610611908853290802536684106643410875136541837516787537771302266660615351130332722114 130),
  .stwist5 (dec 572062966275327131865005559707619760270295983526923424607767110924638290838768082598862055607128909230197669887741490018735699143 129) (dec 157506282408458374650048197748242448322056145859430993734818559342371232273373893208843253589003437553811224300996964369348178161 129) (dec 12895458797983037892481237818773788645260181089449500540564625051847846703265945448452424612084150899430443920254723081184528543 129),
  .stwist5 (dec 598287161849954766885524105300981908916493424219424196365454391621304172765308031856626537212046103205548604758833013902232601246 129) (dec 153096361222136753910831093649897463584274763206970910664730515051343448602662991217279457896185867396158073329604454707862608824 129) (dec 648906513190632028933300380082376044692814764251540608509308952577194643114289988221301542832927153892699641101433657117160194691 130),
  .stwist5 (dec 872107792177225262258052443349678430724831562596972570002081116379059471165434130475350666977485872782998517556926567355241191439 130) (dec 116550029704661223269551829881750467174845337388765702762404022826497256425125210143193261951552013519244422211748461421134678601 130) (dec 470776622375357937132737005601283456484604140297969805137152877950450291868766618535114113946073927251700544197028020611531621753 130),
  .stwist5 (dec 41377996806619141367438605480046338937849592503024274291382787094193768063405528077291160728747758214351759703826544512378555227 128) (dec 408532891016325614939977440036029944599016044233281862301762662099965061813084148267299592084751514897284955775013583670091604381 129) (dec 104800932001341457065593214221239302180168604552154174041562010420418157994429996350324302488190525063745599774636793874159660454 130),
  .stwist5 (dec 390498958371942481846400324075089607329911988827909367867334765243838563485073334044166568357221650186438274457752967188122265539 129) (dec 116793229924696388898229416445102630884768729168315262003164744882408591867233773076797080893911854256940150767632930000975316477 130) (dec 736059566927464196896510724451310582549532270571766300073733590801062508631800968253952008898492524583802243432813452143556707752 130),
  .stwist5 (dec 773501740353471737894496040022555414813893111010445363389044295505033346304998410298308761196245560674735940252244807396763084241 129) (dec 816368037123298165733860303389830032842182563472034220314838342946601012024548041109073780619458583734080358387734530754529758676 131) (dec 254543096242998785084946965585966957293845909276434924977267751078508401996455975243085790612372744826417104446401601842081414892 130),
  .stwist5 (dec 560344049440815807627973687713152863853506922153207995136147640412384207425613608388361108047606396967003064299072546264669672171 130) (dec 152988605503175154201768692204077682384134277475838971232339538851628339894891623441636595514446920831311090583850425920615880456 129) (dec 322698646926004328357403663618298200023929420262744719289438513560143070607506152088510603088845780633363883243195952254576263051 129)]

/-- quadrature_formulas.cpp:1108-1135 `ws17`. -/
def ws17 : List (Nat × Lit) := [
  (4, (dec 294341105468265476465301375384411797641324588078612943041744527715912312741492082265835001750103180292044298105592015057337569629 131)),
  (4, (dec 482125456213097346011711639825174811748513021058559552144598477846751169681047547822740829322311989679736620947596911416979506967 132)),
  (4, (dec 163341188233597072740743878709148116221576227970475219197643967533880183385440786430990444134634905436191075168390268370822557261 131)),
  (4, (dec 893726054473396705331939750119304359319101544817138575737114180287517779796238725794713996718040891417379449723434177439588275681 131)),
  (6, (dec 353928104113144424344560299599883349671884985196297274144900787634270847783232221716704913486448407659226836924219698825495827125 131)),
  (6, (dec 512787677512291314745392610872316909091193656181279046123435711521904572794877242773282494644646286960841001190264831365189478497 131)),
  (6, (dec 850596170577665595130514210900874242358541635784980885957426671851526162709944452766068259724430937244118391743668726885753246699 131)),
  (6, (dec 136200105956508960247502855469429341518215454233017896374192437641020243886490104187417035422229323024480617297174145827827063723 131)),
  (12, (dec 195270359469908288636965201463817507072969791333604256569101221119790937500579903327107248436198039692826809905143175766806523269 131)),
  (12, (dec 355248233270215575244004573548898171727858525038998874904182270063846855925421649812743801086267964171029913361315057313554686275 131)),
  (12, (dec 473503787208788085100738794395655543562024930342878459943575452818570022656801564909628306622838060023571938845771085588595755713 131)),
  (12, (dec 407620405252378067703062647719036068541418092071827580212829604722388666978820360677655393389618398563726737095893252377519650307 131)),
  (12, (dec 43978896160385907521125557336774041483754239957906332717086668172522186248193228705746132784943581056580820230439541574329407692 130)),
  (12, (dec 815991541803947962423811125141001325634992174143466090058580294549928510599420236265487839434626846612268078786774566452185301764 132)),
  (12, (dec 643692740335644074712927900064204499284781553960272741229706467867605781446541836335187499931290253279528299201330570561712714232 131)),
  (12, (dec 229093702997822438033807840186176898062048591424254025609084996545346846524405050420271270323168466010875230858581075454855337805 132)),
  (12, (dec 318874669420498006347680515275568414458668999165326316836310997152364653229813929310767110868076292313858472974054792436420660315 131)),
  (24, (dec 199126625996987858124341877247173385403479097318655786539881420317293034634352330096730582270907886304562248251014183285305839934 131)),
  (24, (dec 120994663686878080515564954290316309843160829724909927967077240773006784151566505953598330950950510347151543116600663539064352735 131)),
  (24, (dec 294341798218390226317743909215643991441313259662857107826827329068434384005379949935046501029355491750867358464071579948815278209 131)),
  (24, (dec 345409455481056401303307608535921832999434072413917132838112850698290274741824162739092331231782858852529646567440279350102532386 131)),
  (24, (dec 824113541477757106330694345548426877829537288404409025139023880133229209421144858453934841523250073469342915194190551651284021798 132)),
  (24, (dec 138354237817018513010163693168214612241360157088180199466816008424537905102779915298338014047633289406988741368976427833062840993 131)),
  (24, (dec 178144523592653809416848795126911918746174601625070091240303400762743765790592207935810680176624107677988625656556230736850587861 131)),
  (24, (dec 696931635100140188828431416467316092913615445566112454479802930664853324522369161777393947746743256959155707142782367000030015544 132)),
  (24, (dec 572288840189160536821399512787234844937177314734078264093946800537049417937491099062183618377387246272964829377896010391388969098 131))]

/-- quadrature_formulas.cpp:1137-1203 `fs18`. -/
def fs18 : List (Tet Lit) := [
  .stwist2 (dec 206372181868120948318749944658600785248823668442443786105953336392831355437947994310616719496491424910193742684428101857723170359 129),
  .stwist2 (dec 162538794517640625068345357852045380688376283642774492931729502842953989712521955880472493909135210324834371941765594882405739628 129),
  .stwist2 (dec 311626672825564289121982402923065738146295016939998381797058234004587196656753934361695544826075489352419017509158599923545483645 129),
  .stwist2 (dec 330727916089031298440338109131745273258098030411367202921567773370731862473378173026948968849370618111808583605278063065277747013 129),
  .stwist2 (dec 337440820129950571884063917764807389734622330220279084412017173633138006232585034583888347995729543157846847811538819274761654791 130),
  .stwist2 (dec 656813827842595411494079855233697411206270901124268005694394279099874900125268609710221691749735984020091133876802226383110537045 130),
  .stwist2 (dec 116907242025971055247642972840050153996339752488814532472467188848681006305498997348208276066647416377458283176780110874924620328 130),
  .stwist3 (dec 305172914121479387847029963435343735953240853935301197906266827020431673227463653529087763813759112197791445198017997270240329861 129),
  .stwist3 (dec 249817165341539947084005729389439350609909566143297727114646629161738641248535056593493472051884579097391744800341841990509475764 129),
  .stwist3 (dec 133665229160562022806248448565313271983906719954752637574264141354002065015442001819635444971212033294084157614477883503336856244 130),
  .stwist3 (dec 250342343575885522557275486096925417051907901250408384069169218153202041532316650043313622134145342515970041312204612041983956064 129),
  .stwist3 (dec 33245177225428393514094828962254824549555755819818971656505239139521571034812092810258191585319660681664989781299546442776136784 128),
  .stwist3 (dec 332893597470546587995646630947127278985795257194838394011656854815281858079860468322174880269924289911192847091733771875921830354 129),
  .stwist3 (dec 105388998294129321240897436423353629210185487259460949137093416855871986668227007746310715082720353579320166805665850338454013055 129),
  .stwist3 (dec 431772194136649418698291013081583718846234283679362533399700840662591318541539219093798943353815605942496706555504028324230710404 130),
  .stwist4 (dec 331030676150442848293514333853143938349319546239706787980813396256029735262194057115923955562618261587696565417109576860710037337 130) (dec 135275402130320086969094363421509187272892906136244132647492271034336253388093804567833204194824614675299403564740947909845497598 129),
  .stwist4 (dec 194618578446767468622182415178971502229529724049746508382136278485215273422262487683948069109486114221152506781293502100116040663 129) (dec 117187904704725294876226187321644674898331949860817215898053496645478374910101565069586912106818587415167027539390099474596378299 131),
  .stwist4 (dec 132125212613111817485653979416452398144503606313087287680065539139615038605115682110957751542572667223810496412683353369340831216 130) (dec 327896009814950325809839076206830604348867080726207480562337754433361712200525992683245319828089061763305205189229610584331529726 129),
  .stwist4 (dec 12293207217705982973054677254397158318623139721751533789396736211209387226656253476696815348351554689537573391315835053458715804 128) (dec 202839984315216983530532901543870661009657857842875580778691096344142880683850246988377004170840436425322651275410589181774699355 130),
  .stwist4 (dec 619950609516837954943448529245469503198811225374004286895274838248620181560980997284657153661988701706909522001239849462976520612 130) (dec 349896121962365311408820467809851085561214959524792785982978430886821271869275190022401042648242467764673383711318916230098770229 129),
  .stwist4 (dec 840718754699169784473444514148846631101574714830587410109180672075190027372638476034784006176722116226009069987205253110702737447 130) (dec 166683079695292380987655232932083471597083966224388434516831498145315212623666200685249069227378048762820721140012178024142567054 129),
  .stwist4 (dec 78670488744538912837270066934064656950772405858749319159164655818917351671703359353871302947629932691879964172356655160131470288 130) (dec 185917959122875153929739152036837752484146857870653915844184007075756667920892165960626039363829496291602575363694052032613264713 129),
  .stwist4 (dec 421758249887123601697121963274899872341482280988156271535846347908390463320202811507242276602905028034826722935281986018663184798 130) (dec 248270741150311715949928293233688298839995533833516713102194423619284426091577772234475700465222816565111999682249975827214495651 129),
  .stwist4 (dec 868349187213883954904996522992908489214683870948487807052354954178404329926873006734007528398041646353091335471750266179769816861 131) (dec 669810222676876433374571674830739927323198747512311603363898919202617598112502396285185941556651101007137314861687409753197434221 130),
  .stwist4 (dec 111118536757620823976982383638687764559243294442264435981821561558125882090574481839356513060614672058543629984742068076450503244 129) (dec 291841707798116234861810178091825396747979522537152032366545008468306994743575194748339956172151632976517050439556783087370842188 129),
  .stwist5 (dec 368546384560602231072732004278588585227194314946913157009682165380723360716321176690996609708472032288611056329998505746853319612 131) (dec 637707896451840583443498386534063717618729765681704146343515061401118826172172970230699114187335141770837781102820514938428878502 130) (dec 216198281801530203232113769604773190985050704964674641236554223512725841384021008464441451620253327307270987501874318907804561085 129),
  .stwist5 (dec 91475639794930699008469467732245566943599671620105316843764046814231959640653818139026501900233346798696780610536888419895148969 129) (dec 402409810322379786328969726798000580492482646643887149567819676032173638124154864383511025110482607649985506763978188562884809054 131) (dec 486603476792956608988157967157173583725708036443021089447933358708654660196226492701854508375143447383172244988672899816744812337 130),
  .stwist5 (dec 132656374018403637077430667319396387822580236613724064735344933751793088332892796520614353634855041568594392197694985027174494793 129) (dec 416877459738526012345267236957306832546520446280474257553930742569267573828892264258564618910174219465357151059277635430807038304 129) (dec 281432058629436194376854832148968963253321775426441001976034758661651255062073522546959708411566688371547029254906135470373490006 130),
  .stwist5 (dec 443919866927880962262848281512233042574108505040326222863555112621646320997575109013663376802576116075172851694586970229131535021 129) (dec 246433022480167745391129718909880799309192288157572937132000984933921135716020259109859833266379211513037246448552747198166821728 129) (dec 291944340561961120840628646745097354296346495418569840661250609671320049194277324816766673836048054622455174259992275702009404826 130),
  .stwist5 (dec 239545088589519026438172051034056760548663417821506447701722419099613167906108673028929794184528425592087279075854084691513318254 129) (dec 12712074880700960661285656191692246334045800086001349216771549081771614204965404558248665301927780115866110605127300588831527163 128) (dec 245757449711756120926254332803432115724444347975105982487748767972849422407158283329634755169114190091813693629678207515142013718 129),
  .stwist5 (dec 165713088716877935143570668753089558159104667773150968154871333860850709910346245890169560065214205813702050308041495265131831454 129) (dec 213704906186185047717624929968670501476703590376376285121428368695268786632650873479020814229527132941659231273134228369293428081 129) (dec 702396465369408029469471757150642980779577843368579515021798538647988058224591989332277787020337209925626826045682298482265408895 130),
  .stwist5 (dec 178877668602636590854162612799991451954074549131355471102372636629885661026137948687258624371586549730421810244461294177897710815 129) (dec 329035301487797384467188976184934478008506935495933427075272315041584006635600819332779285256924858009479215819543085821444526279 129) (dec 666106376614671786310683599563198382385053603431245810107481527993554706500663966464942039362285414122817585214745285775458122499 130),
  .stwist5 (dec 334017611672610646004340708181325998154347264912298346714644782514038452337743379651848040636541947314342023699672855341160649788 129) (dec 495031595694936929642574814441724155478347955886037213346724124806723207506652477128662751421759535541059951970483119267353679334 131) (dec 188799937282412715489725515501555079275123163337808721056110237364485080781465151040711939576102420727791251283089984064302355714 129),
  .stwist5 (dec 545877300912638538803359284472137184675326933489592677923083417973421878715017488899788608702526631899765878550171793182823799008 129) (dec 784628836168125343141768324038601449712909783278201373595092758809195247407705304527128647432704240405551541410556388924378167794 131) (dec 710496499051917527493992892747856347940007629495086695366530342870931321026520169491737879987597176085667524242653384562848917378 130),
  .stwist5 (dec 251043985900785126572041599813854345316077055832973678219082038013945772950122400019855629013093421976174283101992554870101317543 130) (dec 129355753466201289322434213671704612829297025894508346473322697166408835283731008488323472205670107044003719708434386372140354513 129) (dec 252988240037432081308109055136079299429267484428675258221444270479732487538422628868681966426276987492838559046595243171622863305 129)]

/-- quadrature_formulas.cpp:1204-1240 `ws18`. -/
def ws18 : List (Nat × Lit) := [
  (4, (dec 15053884067505955093900040490073510960969037011597613668844352376006128943397242827375555922775800745301458485992290810259104789 130)),
  (4, (dec 720144153152843635234534325040342268307366916004669886402846736771640046508398880309807704864218685715100402629762797023398884023 131)),
  (4, (dec 580180123369481459326923021054913828786674699778315203345772791122543176172799269082797684744457336702095694376334917484280757933 131)),
  (4, (dec 246508839284979077884008187708315776946028456390946113478411908827670220823012731843217364838171551956606934252151785593809537711 131)),
  (4, (dec 823527105911002063626573936205120505357130381176783615031543780789375595585220561097010063479828671330316142723997512099887776549 132)),
  (4, (dec 239615339582495960337918135010687916155801026707440880681909968670752735284241342815625310493837658455027907937548110976004164303 131)),
  (4, (dec 166202653806245288921625003113990865894655552798805560052244685159218129967936596053461909831782822763795608000399996908224557036 132)),
  (6, (dec 474762660688391755596405992203048365057085460538885566700568059619796351939576201105457313975507130666001699630695422717193390067 133)),
  (6, (dec 565496040417580508045322226060986723521821019849592656215185428330826129010626960683508826272062894077864826412858857618537817 129)),
  (6, (dec 112664484758759813802379280337283171815536796704220946727857666254450229105632242348276411811903894310675716927547737896783140783 131)),
  (6, (dec 13482461518802006459875097539972437922372054038711801454911367811272864183791221115780471939775471859831767232283033643797613536 130)),
  (6, (dec 365706909667768287001677557722692674632355438441905700488380144119047444108749925847946370143652805424271762936807477309565878831 132)),
  (6, (dec 585317199256511398038065347825920509347894135143792805985448904774580857430345256253160873204417555803552520945926556712458553056 131)),
  (6, (dec 195669103482143031882918763661692008663060348696800454264546206391897037424481290168721131965597251626976199484592895805712911786 131)),
  (6, (dec 167324425217903940207775488200997259925241392448013431260536830341908465246090595367957333841422042638741165747260384104081103984 131)),
  (12, (dec 168440997312563439024289254590928624981301936890488537589121725902356036287767352352621132714507165782237821788486755559809508322 131)),
  (12, (dec 948973303097115012225421439222681939309193237761105234143640670510844759373569403856874545183574011339466803855711454319988944953 132)),
  (12, (dec 103908313593165271940704307856967905475460149445184658040533933804996012674426694276772487132525740839384507732510606860401856742 131)),
  (12, (dec 286855832424034792608365072660944373427785298132297934651505733364031287672841928282337049940562123639312324313182706134733563281 131)),
  (12, (dec 367220278457213190378223801121347635941169988216946586021229316203769420350697659028508541852353555352116451470290143364861387381 131)),
  (12, (dec 474715554659636351994856331242133264425022027600393126570150711035620620564948683379293712565731036670163967665011198132388981015 131)),
  (12, (dec 415088407821297159795226576452410880430903770138483408998676265143480319287913193584118806279284449605283623978331821114349036256 132)),
  (12, (dec 250499012224768278660807899148717580232914686734289387702158881022378726626769943643025428600010350993010455083871278490076047294 131)),
  (12, (dec 262991962771023765435184883455289192849076994838237577463801313978659756189650062739825177532422051563519022810507398625393506062 132)),
  (12, (dec 523794881864567374677735091822929092588668505984225546211688343226567965358837146735852860261521398596742984855858785172266635926 131)),
  (24, (dec 95305173455027987048815049539868960694516392889598107012542870009851266907261726611541232590581364635833150846606356898268161171 131)),
  (24, (dec 442407949802804431759590081112716094811090136210013908651585625007653423174487565931127541493346328837290929977774980528279588731 132)),
  (24, (dec 175617900842293827016067596499791970660925593699851265632898282004925415691348674391314259516341625707225752536524467982021132059 131)),
  (24, (dec 243426688175015351865672660825326545533585728778166647660579511161051961588177450542286498163466244334747532331733214123893913294 131)),
  (24, (dec 39365119659381929340060515016654167534053147963334444726862257116835944976193273130271894974120728169709289818243676685217791699 130)),
  (24, (dec 319979126910645663073621997553738672291393495249818615109133107541626454130467646822173001545278311207832608043431737383477935833 131)),
  (24, (dec 379761031215874816994913442636149221550535457883883235564687052298697665950879505273446202762617379132115920882297339947957771936 131)),
  (24, (dec 14959385626309810551161683473041831268031950690397180465033247853428083712016278491486168599134440159865280527175831360715473188 130)),
  (24, (dec 170399618122472474047327649205935006096795837371919554274513674755525178369550023230626427825739410243716348632168086735531185769 131)),
  (24, (dec 362877511769905893456278951846466408905850391810201790155854645042965040220163873962933843730180045989829140260548361507035919868 131))]

/-- quadrature_formulas.cpp:1242-1313 `fs19`. -/
def fs19 : List (Tet Lit) := [
  .stwist1,
  .stwist2 (dec 962334679417011568284366181074556449699975819140631199729354940645187583511878012573856669107011222247157990402564985274501757575 130),
  .stwist2 (dec 284071097118555506947602382063297149283388329094896055435564168536869796501335290404628098440859502755137137345246085338215317363 129),
  .stwist2 (dec 420121804976231002329434238106731882271031061814193232798608346097981023406099455686534276429594732426865528566039373569816030319 130),
  .stwist3 (dec 129392501217952552624073997777263668408799158389704938902736889401787969015745329867725013133638938386225400091683467388643397337 129),
  .stwist4 (dec 533931212533030608266273497502592927002873637832600035063186395274122659731467970139656013991796474311091283685568674533534153431 130) (dec 767969994739386704258740243388004551778552850947104097641287613144395492370655172891800903263851212264745841219753036112727581545 129),
  .stwist4 (dec 525055390691960340931789274984064115636087440077972273164174480283225774232363738003778064283980183232549875165627390010207071061 131) (dec 166033925320529936975444991312217262021434050225819504861320607596892108723360341759011904442326316631474057864539799271742228481 129),
  .stwist4 (dec 212899332369465902932548792145650832696213672244370952283617886742937002261749265705950792382052582338195319800195881637784657117 129) (dec 103404599509332767929211126976758240822433714660827459920450092036226224946487736627356586860296832994283120548879841284116794741 129),
  .stwist4 (dec 403413532597722963565337027162632271253483715091732709948419242517255736840901013050985076450268084508635650446956676882551552918 129) (dec 13333563464320216092315671202191506964584379495833662095181412177378512359713776819309182907282336264924400971281333373773822565 128),
  .stwist4 (dec 118881193081127158167390129704405557120388653839576795221641114011999656780404363589114426159950978365523254837294834455897664234 130) (dec 553237967807089608118130850494082839449417195769414882283046755064195715501454641185394206666909029851321993856098378194657690095 129),
  .stwist4 (dec 890311655120662751838887461984309392460218135747913153732876959212424055180594534108892868741309718428834233941934034545315135159 130) (dec 80806951519091020624013971788185101177229067888306959486231777695174510301406738256747248636142588553102947045934673323707800756 128),
  .stwist4 (dec 515167869589916011049924507263194507527894055718909686846878594842436280449329575206739659839255456799183076982004642599497839591 130) (dec 487328036529490145058675327699764669122939991375349805566766633542108205790954593882620995701294838152625798171309935895610239323 129),
  .stwist4 (dec 117999285229767087020608772527518718310148893786270280010941695445527148611898250780633106513619674491174413981240531149474597515 129) (dec 246614994364408310901691337629303452121079778446562835545454254929039674551686635351319074204399150240409865784364548174587923527 129),
  .stwist4 (dec 460851233492859025770438356523194512125197854185885055859324788122044131425690719636937128209791330662555280467364803812007188978 130) (dec 278141431885612759807587332464970427328798160834509165703777448235319708929695972495507535342762288961818480885695596922065519025 129),
  .stwist4 (dec 141018670809789817962482549785183566088573276769326290396241862532971694974340772582548009341557720065465703774872559363701409182 129) (dec 817464994838945075466265008535057048817665225725208315766452656822786049180777907120448635976854709639631487085281795879846798562 131),
  .stwist4 (dec 141103440869926651017091296292167903822770879993297075825556863218469248533884969443830150199352442694058344879341991428588966392 129) (dec 585586876759896951086108523193497215401023827292991711382561788078158442802608187462732612434365913037441230133461544730734886109 129),
  .stwist4 (dec 791186220482110832109344071689469725053383477176700274134298859672111054850356251345446254447453968244946908282211956968000176615 131) (dec 303588380906193505525359129903307390870444868965880239239715087897283871016501243885767821352103452918491212672017273075376351979 130),
  .stwist4 (dec 176101211470317416831835908189967420181660158836389690048489903878407006735209930937515995480856378723540717048632728726703869099 129) (dec 246123958781684937098718637883837333135461966643385037854780901178143446076917304445544199615124595267774884952693490505565492354 129),
  .stwist5 (dec 453113744152098026534089037249865375023055511185371531210873344407563956103788603401917473592702885079442696067540402228890991938 130) (dec 769412404114981468736095119295542053161203902229704260175712826549122895297624630912883053953205687448157003304892748741514791201 129) (dec 116267123754130291156289297597526866244918566676469686583285391877412324638205049321258354425325766524331795394537129700646283328 130),
  .stwist5 (dec 190246977030951145208262466013951481990804519789135651286281888990518050175876710625624287568282955920496809775185728217900608342 129) (dec 113990734338976837313178978774510580147416876041851828955113243839154663519212697858638396610651242068831448295469028517855425747 129) (dec 490289639880780321398529551348966121656342030361819090515853645568601067441336836794600859674260599195894546184871887135974492433 130),
  .stwist5 (dec 20258821073146207966536039150941453348995754166816527778282560077127288104170348714464398312597151823503895577362135817934155745 128) (dec 504522419718954228612767662391899825018621879623122580688619623747612393120636954610972659783260754412704265721404863018792249708 129) (dec 52003563150541904887158671963831419828371696494008456168197031855786676465236931324032373836332494714597671147683455426870880255 129),
  .stwist5 (dec 628045986545769874289358059320424623155102293215132922892234922781768078170256442246579470486421763201362376394520867367723065285 130) (dec 389934213793839356852842360892676026311166693523096741014916556272524399135216462277866618286529167339491229652190642944612599813 129) (dec 965102192701457104655349894995258386644812392915743539609575431181082279499100987911275088548447483932478093400112947926809750171 131),
  .stwist5 (dec 168903461106830139202222457428430936600136229384630714089620795298626256316782115797059107324573492584879861170349172979613312213 129) (dec 102510197711690842901245484115249189272410620302813727899765097069536158600037638342822082748601281240498090630155901436247711957 130) (dec 254226033789745902957034656670870023240868930899974873349681540194697470171983044678314240663237752254764520291696014311771892611 129),
  .stwist5 (dec 128280229882654556608461669361721501271185219635694552027029390842363999773155137358868324817255978467698811183890321243748376168 129) (dec 371470931462182352546434962218605884000577750549727560511209846034019462499451589528177535760372435103770397997581598110974800864 129) (dec 282624134894052572820078498513924456534136959019711173934738046527633664088958531717120895629186078117373404292137325687472137855 129),
  .stwist5 (dec 375316430224833414077257154394333050135260840311168448284752722771160338156544715657561609612393776882024671618022211354872234986 129) (dec 232373823125989240593181439337537649708407098658353486336218905962423161691726501085856039266893842096893150725351652089418090023 129) (dec 564857460459760809818632899947453927600959431683096216025636257261954498581624212313784214201032365045504395330107447948740198057 130),
  .stwist5 (dec 817663469329853506568359158167069862978827738769081909496400122650619319484377523197450186699134314929946799588217811776539434279 130) (dec 28233239104772102798953858150512637786118135989006740158817029708773463533631454261257584770498831954433545679548500738655147354 129) (dec 884032192127647015620031105797728945975173802086192159896363973005587273016905851016438729612404795865703883010596203480317234175 129),
  .stwist5 (dec 372721500887821039747961250703594678256764869637686778148117389558664645451872324623287585572891119763359221873796260274015717536 129) (dec 469137344292685867252157060138264396010463437143320018046458130248214437349278673505864679475017731610018327710844733489404522436 129) (dec 105201440064736098610998051048918465187134434489530266861813246185694434279542584262451254049721575082685430648950420694128006849 130),
  .stwist5 (dec 288107701261745519010210649029694589797716921810491951051605344654976981416177809014246333279642333276517215185920574675329758355 129) (dec 624115043425393373538120988958116511494012487211515030061349264242993192427629381512327973664933916373670508198176326305011044559 131) (dec 204078718039468583333536162120915332503724907077718102077964987216745203764940677453116962151363396887370725604427207811855351094 130),
  .stwist5 (dec 848367703048867278258339437197482623589400556756221246925453253250365350963680407381826880075905277810044531018691773501159046129 131) (dec 254857100936454950835784643168830596402042420075603921325084480573398589421719589376230053495550994529858147101048422110525732985 129) (dec 836988668460013690288038511233535521569172752327044562525866269719642751396903902662459862135218728298892300661921279709653120143 130),
  .stwist5 (dec 119312803621203324861426104189749820429406686909067393749708857038914443634678120051793190226865920164668837563609058080422855309 129) (dec 508122590657161730487600893694710288448925983927468766206439901625353085442184207759981233049105930901078842456409189092156484479 129) (dec 501313800358508105789490160869251115144979855733650490093916674636078820711460360741905574230892180325410281418775280007850740633 130),
  .stwist5 (dec 419836920141742605999998444011424654584732731411031424512160163481405860198955356980088255412344074979287265730299007612640348723 129) (dec 109499610637902078299257698776321966104702384483104187611883240739717036123392687089434659506493124267358202439185286536917576271 130) (dec 31550288568364136415900674243531029157700246478043486640864655586432673586762920503966266904997978735914785549798969334245483829 128)]

/-- quadrature_formulas.cpp:1314-1346 `ws19`. -/
def ws19 : List (Nat × Lit) := [
  (1, (dec 947742496442155508008294740829809539055094287164174328551027903547614401936016148297293433496591561785038287258897072110218291921 131)),
  (4, (dec 230965204657903163237137292244625508690767126452635193166278425337917607126286438670791839585249673570154325313424041023266416333 131)),
  (4, (dec 409149276224073342013747716996418690515698431247554779653811480917726631263251672228831774260672830688799468149676423282714534624 131)),
  (4, (dec 117365466744828713444585940431338613812488394250677901627087630488617236035041002445198270477771774823173476579061961589129675832 131)),
  (6, (dec 579775930281866761588403679414373780531322109639301022596574769840860948789785829971707064863580810344189770468539779657707805142 131)),
  (12, (dec 20289926391069214066226608798185786231318282918657517967268613077216313077791546166205757578508360147746532518852097994529698581 130)),
  (12, (dec 200585848510643250450021992458145203453812541875627070282181818247911315653144260694300731069858830508670529116953698435723397468 132)),
  (12, (dec 290805997245689848626775197241992731631303848664402533916366416979463788033934163772005039637166481042098385939177003629531699047 131)),
  (12, (dec 253207846328713423882002523367059330697739087174740443864199387531944754754891579575879002533360315246261662420798784470913936399 131)),
  (12, (dec 734369573631613917602540605914274590505632662796555997651922285256059045340382616443752760981596247948402271671583904498262701179 132)),
  (12, (dec 107618357453939976048047460390579538944210476919628859258218701909881754166224451518698003917856340121599226217480410838756230111 131)),
  (12, (dec 198641567713146362216974323643499336063129212960960657058721761066948362374496469089932543084655839618981920078162217566393169476 131)),
  (12, (dec 504631736429394686887589732337180267469301384980268414843207287498966096971991740081139531241437333316486232989631171102921398698 131)),
  (12, (dec 269228246053105267720003799089884119302099714102057400037668614924139115904885884740723224041116671445564334378332396525554969382 131)),
  (12, (dec 133063628850380104094097889836553749629427214049075700774788634676357305563233244876436064694774539132924927288736007264603637826 131)),
  (12, (dec 178292890085285491443863898758590534308596675199163199146958809253758305780189525153886975585271002486305608707477956646706531467 131)),
  (12, (dec 12630158261844536917238658174156483065002664454077444488986348111383141564944379396715417036835544662173612655862735578938199014 131)),
  (12, (dec 324426094381917293591387861667229883766727229782838274784823742507693150581906484929050084809655469124884075944518238836425531028 131)),
  (24, (dec 104849818571252428946726948641068065088596257994257280881683839294630331576159018810110306754399590427772906237015259041762126995 131)),
  (24, (dec 360574074573460450279363329809822951822757912938053909159082228622193473153457513235130585489961474440039596482473901312862335433 131)),
  (24, (dec 256155840786984467591166461715481461977975561320387830557187137349675715469746799422574351007042812001917100872426889415198494849 131)),
  (24, (dec 149891846783441627334563730166632105020718046251971097745205342876763373637745197466856889462585386155493808978575234660727698789 131)),
  (24, (dec 181432457232748321803780083936445389400098490414357916723424765852818573575631879501272617410559669869328863123065096920755274087 131)),
  (24, (dec 288393807399617041467050243561064001599203748322968420044696785047189091150055464111713717296477743805822935161360634822486164098 131)),
  (24, (dec 31914113052212607306882051687679515851857327949105134039266281807968117256226810694750665267854181182765922841470052346556742701 130)),
  (24, (dec 395528233698675680240574540678354395946478848370625964169602848910937034064088822748972738159985905975704477100896978019273462389 132)),
  (24, (dec 164221123191576201087252886440026806479993105742945732313814136983812198492008662211901722145754071880366108810917927033888986516 131)),
  (24, (dec 464092089745968864810881016545135245108087063025294348681694777746500460367520750904920792800825512958650908942313683669372378702 132)),
  (24, (dec 121086533999402766637991850011750135519241331439769563670198894771229123425937563725923030026398841138662362801290716370078475982 131)),
  (24, (dec 365328301727806526371302465646531851718166552117317871370333782281243360632335931636978723259919200355298583169454420080859930284 131)),
  (24, (dec 174479123876261510112392388975554222359268245823346633456596272151395782578966220080026672253896702603198088474006438789023568205 131))]

/-- quadrature_formulas.cpp:1348-1428 `fs20`. -/
def fs20 : List (Tet Lit) := [
  .stwist2 (dec 29677595969341314868427235778625470122288941402575041694961076233471716398703965288679625598206978240348891172395366842217408888 128),
  .stwist2 (dec 120904797211218541480782303916034847875293967589228623315797808842219139049071193002040164902568430767307634500190546253461222495 129),
  .stwist2 (dec 317795907188104432779539637298202698308111634404165396928208299215833864191286535516756280541802142100368901205207656614037843894 129),
  .stwist2 (dec 20126557124147898430344311317642094866601674034350046855670339498367164782144460848115046357216659241745572323909896093662391835 128),
  .stwist2 (dec 167883896927288463392592228263384194816529085318017631059315308624090904829019532787154535945599389703550557580490704070524535405 129),
  .stwist2 (dec 362149396096894730973545915715727137501252979261689845338194307578012484592492582580755839231970055215146973788617255808384788413 130),
  .stwist3 (dec 526024496174837755586597644205805171151167239074800558561617094286537533991387892889516745283646466914695677843998061844012777956 130),
  .stwist3 (dec 304578556331304209536896185948024426448188858402255451596999630399717855141321311832243978152844070030650478833668175600186968738 129),
  .stwist4 (dec 322823054983951573504948717060226411353921748533101808793294753691522886824319264745414360740325149596162048112507556233493992547 130) (dec 818153273368780222412635422649363008342089024613172271914261297820086314169573251702639807339380683559083284564855341314143110243 129),
  .stwist4 (dec 81265144705196384668489231733595566904554064817714822161271568709074316291231164404591004804139143163239841711464079866260684549 130) (dec 167196393182821202525467567148017367627390656244250628751834996606792272117494883368509486749247827049441444243046291298823490953 129),
  .stwist4 (dec 185145952299434697652082297216572506265455548186979310814926979555538762384660649411313893318523522026307675730021400575846851863 129) (dec 661101187666243024025368520038561513769315136469219449178452077799745523228926309294825023977538478245639759069740583776295797465 130),
  .stwist4 (dec 411077538201776996156578591660258521378707626375539787919372408753731280427427853432707181076660348573615873360541816643576706114 129) (dec 128183184525274430487941275867576683039728614609159542187209086607049603674488545863934054062237263887358017988940976204378641554 129),
  .stwist4 (dec 100597974068544565321322282719338787254615563372125494719991500662666802916731583770381954939931365775534213869648746662259160745 130) (dec 556636624830715517017535440868042319564111234181476629757289531603449820826710296413195338603738752532409891989199916288171601109 129),
  .stwist4 (dec 823016150372358808654616099827595450257475571921049084778939372823652944237974006388024941929928621346478291150899647234027992221 130) (dec 824251581142850307045805411175166940054868617946479637685277868834256374625344402527235120874311296401401858665707322141210529825 129),
  .stwist4 (dec 380128286026646664960960656463154598406770267942765287310062041769150145984273083901056251081642189575315062361027011445565937053 130) (dec 607292271439115925023156511090994160109733376281450415712555641033384700519973347560867268750120205762484824782263192918490290118 129),
  .stwist4 (dec 829781690579475784336759464975929978110907219780104456402778862179770356480099017684731915530942504536931294489021142505647012433 130) (dec 192759120421416164612632499731862959195186341974471741832946023174714265738974694512153497619057709027614035600430907698029335443 129),
  .stwist4 (dec 323283014904537419774419087577518774589411967691178560470641083337633722244623699609083014926452423398651807225180337923425807595 130) (dec 229089979311382163119031523743399979911368363442814763671458737220898707312529591324646400218925554884223924025850736365721275258 129),
  .stwist4 (dec 140652194017776224782212249407404108286045718057968580765516509191795672719306803428673333994656833248509325522563070226080065572 129) (dec 406245917858537144207040023902169556973980090387229732910307034021902162706640276999278086018816106313371493394992940196408233109 131),
  .stwist4 (dec 113971943911291456700465896406911381108016368498815091344190431234805842805890511471530990180579443334845581571112350113835057691 129) (dec 516865657269377323248594938080067462395464751842088022196939569320312022930554085688737101030890528567628005866356284790442278845 129),
  .stwist4 (dec 745357137717489582861251414256796886728999909129464811630415068373060521040894271343221771381897338982345206537830261121909017253 131) (dec 25178563168111874461216304780289101573827448332396079090694418155759296461716364345192795952111292255926880767575630618536504427 129),
  .stwist4 (dec 111017126730268909191023113768111692870089668413778215425967881061224702098439649863319271252334079429025518512522355560755888581 129) (dec 390707067479131183519526020853733793983667251468215230390018795489316454647525932074426639992433570496404222748205101270824045708 129),
  .stwist5 (dec 531381050391376689806627178841042188394223717493713193246096275912325845506552133360220552361939165983232485808634258174746682084 130) (dec 53337671427373923387059460515514503563920918567668410732963082274320047765078425431046341371019480425107826757637066250932414466 128) (dec 976849266758000907062423952540025925165101640190944813854994066928503537472133398378738590469006657041062243800567688858735831707 131),
  .stwist5 (dec 943920742872811348161609591524131120505981806174908865611218303338570787415188643965506547723800628295626498349474334128137798074 130) (dec 94505171462757382787041484021084224859390200170872426796616542858276098101232155266642747781386220578058896787306432358172419335 129) (dec 760948092362436608958578621215569356705844002250518337136936289848194403663549851774308009188214310826668397278640979316352137581 129),
  .stwist5 (dec 550544516427295756199581157040645456817209669287944826131638062174644776784645811793053682241907085620755449369531312688912518536 130) (dec 765395569227002337792953195198892837832032481356313900158079896549569243279723215930414392471468248403418381309415978901080466028 129) (dec 566074794761922284069332309490365902302496197584263256827999061289493128402922885439300766842497843530287707579157526503816726314 131),
  .stwist5 (dec 17986373012343050572524767570084283310842063790754914595409565015578307499554594118604893432747170987499770704335593978504922863 128) (dec 975172038222043828482829673714336384423104005106712593985476509071360994006252887582788190150329756953843269096136831400831003464 130) (dec 346618707754120907968910927693594534393063467122819254448756101468932093334421855180164778094248366149428006599944934044615866418 130),
  .stwist5 (dec 212192054775214728281713016268651807126411530298961855315164494069462758402415253339249358717271833575947788229284503361008658533 129) (dec 409503658617094357901529514085878144016256674981141381619857455113657696034531417974447898040086319265869210803067215108791070677 129) (dec 461307841041859018551186845657052002545512012887464513504973517173929723760910562609629303174148780005798884353251922225343344954 130),
  .stwist5 (dec 129016151235196034494128395063510288434387631874758299223976835253752263765127797680943754317179528644903240421273498575746990113 129) (dec 476555720750006934989676145153095165959110336923312620613020200292060247523746428424113971042197411438215660670745487051491856657 129) (dec 995603037378283621709559105258561508608550025962021371135854146395295377311328245185053764709667435771483083889753840407336489328 131),
  .stwist5 (dec 161487322306611446325039333835524189330304146739391393263663115039810823735237756394382472481925168954526353997530740174829862411 129) (dec 137608474867702027020167698611382929185039946567411802929017819265090545104949111105913941173897899500469567127194545676679001354 130) (dec 226481319405554219801313652416763300191636642558209164092529240696989001618428396186231294650093529992865879459015494785104641589 129),
  .stwist5 (dec 105928307893985974757954028717881250577046769331130032337525797795020494658547924347814843952777066792888019764988976413735043859 129) (dec 414350074140247024542261483210916337035596140470239992383504136124231086908420390935015085532571990093246328980500055228556239022 129) (dec 194420241719402893250167045946962814725304525173593445846277403579443388171229541861936954920537645748523239582397098709347974586 129),
  .stwist5 (dec 204622932845680898244340052065565285513765481403269570072065426931693887067132921160749673607178534218282106553412677470141701588 129) (dec 286408315525495328632721586343669503460678716148229878945377275413797356845300817459695656144367505141923284488912883640852496126 129) (dec 360779412345272549995863294513638766920409437126657362537870497650798029557928384980415542399459888560999046231421845786066760762 130),
  .stwist5 (dec 744179686987701829886416658042872487802051607982807983422273483244828470581284983686365682823650863929217141036288250092394628992 130) (dec 236158323301529800680613965749759235024688227189622935263576478905102704616236110247621614562228084365596817308718459495275191849 130) (dec 899524029263241021600609750031504783233808228498965322348751760840153024637389383825581113570371319400065684043152651501102242262 129),
  .stwist5 (dec 293835235968678461146657380096360317256400934762823539252865021233202548701359853040950923702594482983032567265714804062010487884 129) (dec 507874575928640318781773406619735959154354704090781933819569121362152388899385450528060940025727031227462002498191501804359445641 129) (dec 437977236379033181967350653685295912941790444936750754759035849727017884750763183959364263319615758060374945656679675583523634034 131),
  .stwist5 (dec 289900491993130303260435705191387333216963543271651906170417575745544598385453464111637734593941027796094853130020398426912283114 129) (dec 238861494051180749685397733700935815100404392404715172089192059763032385846760631609120300403716612293552403866433269104590974586 131) (dec 209583484488425158159627461751923472311971683780400843196420800048778712516833297739014271426042391796990484896458037815148457287 130),
  .stwist5 (dec 692039552760895284534243255473137790729136556749884122604013831872845336187455581055450536253256075004919673630303087345707748109 131) (dec 278009023348863848163063689101539628693529493628997930146158172632748598821819209953423819365214774464019934763089918572590124614 129) (dec 866622443561011666689146161075873979275779714930183425175271448044691381014916710788624077636272148894437032602313712876406069467 130),
  .stwist5 (dec 105319106897215217010106378439771989377127761050311850486458264405801423497688262174926404556440069008937601082826738135137589148 129) (dec 543113057490581538144136655514921959327335864077745579304825318723202001939819690430624714755649223448332723214519803469582245174 129) (dec 462500885912753640028161512926068389523977975416469303573362070727248166942810101015101767138746840771388797878789027012576088534 130),
  .stwist5 (dec 33876157002929620384534905084048037168013171908331152367746646482628140027738420688773166291196746558578673990927134101315939493 128) (dec 879232521925877358609174528034727250833859715609617725574525251032574468315914936741819584900166441798272509045441716879909540305 131) (dec 4002505388571689283435725740459243026228394702302009740522071206786490484614076782976972772241760375571570088824781367203732536 127)]

/-- quadrature_formulas.cpp:1429-1466 `ws20`. -/
def ws20 : List (Nat × Lit) := [
  (4, (dec 541845479008464844266042950338791083420131779227392956925788099808372650883869427205818168868455637732833783015396175055858017915 131)),
  (4, (dec 382089798824862717803157892822955369343907445898967612270076917689732935424631315990525672858083597725779580753595620494141717992 131)),
  (4, (dec 40574581523340484110285972289278640682774510300580764219468531372952212973783351132678873067080263559651418550579988584850458368 130)),
  (4, (dec 414767029775032534107585928601921207693119939900544022214403177396123539725471503474529865967294322722986488974559599357705515169 131)),
  (4, (dec 52895666099343610281664450041113180445636367774707862363391957782130330380611823386721662741035284133174104166049196087898003595 130)),
  (4, (dec 972041819862353210240778630402700755243109572764460469027761212508194259182988456558466316300243655098160447669659834384373016389 132)),
  (6, (dec 298817613678045206304827900197170224628585436280651911492755665341890715681125963375130570234593858366475847334727248690197461663 131)),
  (6, (dec 706174692352836166081435748925489761894291628400031991436958291969864523015332872797899571267404065180240566978946610769621078459 131)),
  (12, (dec 113801416486596895314666302511097233439331237675778731818685418129993609618882627840021868788442600005936849265636617385516989979 131)),
  (12, (dec 328432808943958497554487056733894331238808103513458629948980184736495833750782005718664405358324367403555419023062393109306123801 132)),
  (12, (dec 451730507453316513478688839078141464023062114713771157198275317890466525292534751213729782316085074867212334799447395284909667576 131)),
  (12, (dec 274395709813969322955101996756145983820348743629486264400599961619604059611020972043517961272213260364645736757044822711313981799 131)),
  (12, (dec 534510402986635355317937160831685085380430447268478933109849736514883319777141280104842796261600678519520694316810511764555434949 132)),
  (12, (dec 852760277336583478077994431550166136127165578247905527385166147171885297429810638517344038600860978120166600649069092874315211819 132)),
  (12, (dec 160867332095061101842094724535528818950131085232008614602676707307669143063417551048702471075868746874479752263728247807749820961 131)),
  (12, (dec 216402178962303418274829778319015439560171139179639354004314129646943566726192349651272882836336862055597816964998857785253517264 131)),
  (12, (dec 129896455199082090427866338260162035886660587316434356975342187322813965826648679172231557146912063683626875064956208813612096216 131)),
  (12, (dec 754022108498084820924362912499035706227189458915753429484246860312341532641831755138127956329015879545642455974538653008156443654 132)),
  (12, (dec 393639217719707601633204110760104855639794753489177006919338695719626757591458317705032486015940859768453498073790826062494576861 131)),
  (12, (dec 826043725431126709407184812400565353145171336344642198640337632259049167783327687458403353206099493183754385608520434907405666484 133)),
  (12, (dec 220259358126582095432288848211761699016704122297162694872927114492242162045597917923303197129554993198171333179934219188345459167 131)),
  (24, (dec 114291228831241623474370378864407950929208336550100426520275337344356516765744803546783623255634636476062546939334150220735487211 131)),
  (24, (dec 803734117988498445806520341546952762738253390397102705650151352849802065469144079312737953131177731848303459776011277245368201251 132)),
  (24, (dec 64410550856333934513745910752035761886050415948435083581936366690221973346018744975103167126893899544991446863607392611850107454 131)),
  (24, (dec 228480306156802812049971515659450222343732136643217215137372143406233691365343521874982971379776146818876287117830726713037778393 131)),
  (24, (dec 17682151734035877967132558192217311234528370974913507656397511042841064513573288419844246282528950439096004706569634279106052015 130)),
  (24, (dec 136409311660403457082174629799030907209170656871971635994493735543900809004326283927589346931551027383344719408616558382373146471 131)),
  (24, (dec 140951302024202324345386525099322052424585066542587977006075827095963424959330835759140475726076431632825054357778005571474872101 131)),
  (24, (dec 535219617282092571003475179474768051871637213371054960159405977723915979446891897877707833199863604394397382219927887982099753937 131)),
  (24, (dec 23572517537989557801759966536255362622705576487221366101290246935831284159228075076851182564191877936912754807231388697052612306 130)),
  (24, (dec 233550028151908511860768765571163648776810615624170019835230410821580953798680885544924033616950239714983181997242207803233085235 132)),
  (24, (dec 829919111044838868862090628154671913351819867104218408132257638066568711134454370967009039987982026677361347297156828778118982534 132)),
  (24, (dec 348032727562015893325526103735929966957879782697007063426602583354518673384017241688115715798538940396357596774790790663626375182 132)),
  (24, (dec 108130649745930925610128237926639807053305918001320125873408179374252973387500280721696594627165881778073592226096089190856792411 131)),
  (24, (dec 336359299264356607379658271245218542268501964894308673623763442985610507675338560169820919076146799908317609242442997838584471131 131)),
  (24, (dec 113881952395300550763233993336166493534835939781462757680236920266233683112605090755416541129018857061607121599630616669188708885 131))]

/-- quadrature_formulas.cpp:537 `s1`. -/
def s1 : List Int := [1, 0, 0, 0, 0]

/-- quadrature_formulas.cpp:541 `s2`. -/
def s2 : List Int := [0, 1, 0, 0, 0]

/-- quadrature_formulas.cpp:549 `s3`. -/
def s3 : List Int := [0, 2, 0, 0, 0]

/-- quadrature_formulas.cpp:562 `s5`. -/
def s5 : List Int := [0, 2, 1, 0, 0]

/-- quadrature_formulas.cpp:581 `s6`. -/
def s6 : List Int := [0, 3, 0, 1, 0]

/-- quadrature_formulas.cpp:602 `s7`. -/
def s7 : List Int := [1, 1, 1, 2, 0]

/-- quadrature_formulas.cpp:630 `s8`. -/
def s8 : List Int := [0, 4, 1, 2, 0]

/-- quadrature_formulas.cpp:664 `s9`. -/
def s9 : List Int := [1, 4, 1, 3, 0]

/-- quadrature_formulas.cpp:703 `s10`. -/
def s10 : List Int := [1, 2, 2, 5, 0]

/-- quadrature_formulas.cpp:752 `s11`. -/
def s11 : List Int := [0, 2, 3, 5, 1]

/-- quadrature_formulas.cpp:808 `s12`. -/
def s12 : List Int := [0, 3, 2, 4, 4]

/-- quadrature_formulas.cpp:865 `s13`. -/
def s13 : List Int := [0, 4, 2, 6, 3]

/-- quadrature_formulas.cpp:921 `s14`. -/
def s14 : List Int := [0, 6, 4, 5, 4]

/-- quadrature_formulas.cpp:982 `s15`. -/
def s15 : List Int := [0, 3, 2, 6, 7]

/-- quadrature_formulas.cpp:1052 `s16`. -/
def s16 : List Int := [0, 4, 2, 7, 8]

/-- quadrature_formulas.cpp:1136 `s17`. -/
def s17 : List Int := [0, 4, 4, 9, 9]

/-- quadrature_formulas.cpp:1241 `s18`. -/
def s18 : List Int := [0, 7, 8, 10, 10]

/-- quadrature_formulas.cpp:1347 `s19`. -/
def s19 : List Int := [1, 3, 1, 13, 13]

/-- quadrature_formulas.cpp:1467 `s20`. -/
def s20 : List Int := [0, 6, 2, 13, 15]

end Verif.Quad.TetTab

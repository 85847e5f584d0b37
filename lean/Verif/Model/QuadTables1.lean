import Verif.Model.Quadrature

/-!
Transcription of the tables of `anifem++/fem/quadrature_formulas.cpp:8-107`, made by `tools/gen_quadrature.py`.
Named constants of the source are replaced by their literals.
-/
namespace Verif.Quad.SegTab

/-- quadrature_formulas.cpp:16-16 `fs1`. -/
def fs1 : List (Seg Lit) := [
  .centre]

/-- quadrature_formulas.cpp:16-16 `ws1`. -/
def ws1 : List (Nat × Lit) := [
  (1, (dec 1 0))]

/-- quadrature_formulas.cpp:18-18 `fs3`. -/
def fs3 : List (Seg Lit) := [
  .twist2 (dec 2113248654051871177454256097490212721761991243649365619906988367580111638485333271531423022071252373873956430974322161616716758 127)]

/-- quadrature_formulas.cpp:18-18 `ws3`. -/
def ws3 : List (Nat × Lit) := [
  (2, (dec 5 1))]

/-- quadrature_formulas.cpp:20-20 `fs5`. -/
def fs5 : List (Seg Lit) := [
  .centre,
  .twist2 (dec 1127016653792583114820734600217600389167078294708409173412426233886516908063020966480712623141326482083697793139050352986810459 127)]

/-- quadrature_formulas.cpp:20-20 `ws5`. -/
def ws5 : List (Nat × Lit) := [
  (1, (quo 4 9)),
  (2, (quo 5 18))]

/-- quadrature_formulas.cpp:25-25 `fs7`. -/
def fs7 : List (Seg Lit) := [
  .twist2 (dec 694318442029737123880267555535952474521373101851411811921390395467352642524755671479188300577603473947115395340109118375181280 127),
  .twist2 (dec 3300094782075718675986671204483776563997120651145428237035230115894899847683814827610623597822225942255198802396267533932077498 127)]

/-- quadrature_formulas.cpp:25-25 `ws7`. -/
def ws7 : List (Nat × Lit) := [
  (2, (dec 1739274225687269286865319746109997036176743479169467702462646597593759337329551758609918838661290797548990519523817510772122211 127)),
  (2, (dec 3260725774312730713134680253890002963823256520830532297537353402406240662670448241390081161338709202451009480476182489227877788 127))]

/-- quadrature_formulas.cpp:30-30 `fs9`. -/
def fs9 : List (Seg Lit) := [
  .centre,
  .twist2 (dec 469100770306680036011865608503035174371740446187345685631188567281146025416565765294285052232288690442081875916474419533989669 127),
  .twist2 (dec 2307653449471584544818427896498955975163566965472200218988841864702644073161223544820981663747145342143164713839478252244591543 127)]

/-- quadrature_formulas.cpp:30-30 `ws9`. -/
def ws9 : List (Nat × Lit) := [
  (1, (quo 64 225)),
  (2, (dec 1184634425280945437571320203599586813216300011062070077914139441108586442015215492899967152469757223880545673040716627906313826 127)),
  (2, (dec 2393143352496832340206457574178190964561477766715707699863638336669191335762562284877810625308020553897232104737061149871463950 127))]

/-- quadrature_formulas.cpp:37-37 `fs11`. -/
def fs11 : List (Seg Lit) := [
  .twist2 (dec 16939530676686774316930020249004732649677571780241496459273664707390825169642844952785679812676927178505581418036242666022132661 128),
  .twist2 (dec 38069040695840154568474913915964403229069468492998932490930241771286253286218007887538778637132543419546388845149465639852227348 128),
  .twist2 (dec 3376524289842398609384922275300269543261713114385508756372519173669324957789990186185563003903700747606816013671358294670601431 128)]

/-- quadrature_formulas.cpp:37-37 `ws11`. -/
def ws11 : List (Nat × Lit) := [
  (2, (dec 18038078652406930378491675691885805583076094637337274114486962011857001891863085916048110099440967397155860457018539929493994513 128)),
  (2, (dec 23395696728634552369493517199477549740582780288460526765581265998195710081019906351555504629239599115238313439487739855046418128 128)),
  (2, (dec 8566224618958517252014807108636644676341125074202199119931771989947288027117007732396385271319433487605826103493720215459587358 128))]

/-- quadrature_formulas.cpp:44-44 `fs13`. -/
def fs13 : List (Seg Lit) := [
  .centre,
  .twist2 (dec 29707742431130141654669679396151926832630899295031493680647837410266809338693717233584365513612670611735662066697599066099288051 128),
  .twist2 (dec 12923440720030278006806761335960579646292617642930486994002232401628506266390974310358658381656837647015374095344399287819997280 128),
  .twist2 (dec 2544604382862073773690515797607436879961453116469110822561544804346833482257992959713461498603713792784963016650239190290218709 128)]

/-- quadrature_formulas.cpp:44-44 `ws13`. -/
def ws13 : List (Nat × Lit) := [
  (1, (quo 256 1225)),
  (2, (dec 19091502525255947247518488774448756693918254176693136737554172551535277321706485417434232967202240072515733588229267866724644784 128)),
  (2, (dec 13985269574463833395073388571188979124346253261329938226850701634680940521528133840662047145059880938316168760668602575956781849 128)),
  (2, (dec 6474248308443484663530571633954100916429370112997333198860431936232761748602115435781270908146042254474220100081721394053267245 128))]

/-- quadrature_formulas.cpp:53-53 `fs15`. -/
def fs15 : List (Seg Lit) := [
  .twist2 (dec 40828267875217509753026192881990800966662109354351310884140576315039776288922894294196588814443832312736617061785661669554019937 128),
  .twist2 (dec 23723379504183550709113047540537682547901787843980357112457145036377258961571936373801929990318400896904515853758736957464456031 128),
  .twist2 (dec 10166676129318663020422303176208478158141413419201758396491485248039134716176345392642403635213703049040127327345134536731717525 128),
  .twist2 (dec 1985507175123188415821956571526350478588238284927398086418011131378755112829035778028052036834386584478780359135291189488052092 128)]

/-- quadrature_formulas.cpp:53-53 `ws15`. -/
def ws15 : List (Nat × Lit) := [
  (2, (dec 18134189168918099148257522463859780609707301994716527026241153378334336736195333866218302104241425477512938496314835327646291078 128)),
  (2, (dec 15685332293894364366898110099330065663016449950136746884513197253747813597108674848084903811696427802471378732053890430812362342 128)),
  (2, (dec 11119051722668723527217799721312044221506543502562478236295464464680840728522452042682657118859896392107963305060610906155571879 128)),
  (2, (dec 5061426814518812957626567715498109505769704552584247852950184903237008938173539243014136965202250327907719466570663335385774702 128))]

/-- quadrature_formulas.cpp:62-62 `fs17`. -/
def fs17 : List (Seg Lit) := [
  .centre,
  .twist2 (dec 8198444633668210285028510596513256172794664093766200194781401018027249655920494055302690148707122987181209480447190656160391498 128),
  .twist2 (dec 1591988024618695508221189854816356497529759975403733522498834407545981280169962346906312538655294419875620443834109200467385940 128),
  .twist2 (dec 33787328829809553548073099267833169571402186963151345558647626157890671023243787540345069915075121639611108714132463130441409772 128),
  .twist2 (dec 19331428364970480134564898032926290760713969752971765356359352885936632675449940070837999304821570771088325520157011571903014412 128)]

/-- quadrature_formulas.cpp:62-62 `ws17`. -/
def ws17 : List (Nat × Lit) := [
  (1, (quo 16384 99225)),
  (2, (dec 9032408034742870202923601562145640475716891086602024224916795323567864527247313488229748865159985207380373398012889686133981342 128)),
  (2, (dec 4063719418078720598594607905526182533783086039120537535555383844034334315422603147278927735147128847889703665898151904729502440 128)),
  (2, (dec 15617353852000142003431520329222183279937743063095232277700558279957194866200965828506096094400317692614773865908234865581959090 128)),
  (2, (dec 13030534820146773115937143470931642488592010221864997596999850105980540783444562232382304654750870091369369276781882525665920191 128))]

/-- quadrature_formulas.cpp:73-73 `fs19`. -/
def fs19 : List (Seg Lit) := [
  .twist2 (dec 42556283050918439455758699943514000769121757028965415214600537324204819132216573931441118510026815438498441959737233058694855491 128),
  .twist2 (dec 28330230293537640460036702841710791889996408117187675174864924342811650546114824938744862102494113938815853247950053102636288762 128),
  .twist2 (dec 16029521585048779688283631744256321211535264408259526616759140552372071230246253769246071321475981025008304897630034246958162958 128),
  .twist2 (dec 6746831665550774463395165578825347573622849251733477373902013407731262243097221932160463552697711465279768445679411741566084992 128),
  .twist2 (dec 1304673574141413996101799395777397328586502665380894038439396665170239838268192018713821752186572187088347874061289439248891570 128)]

/-- quadrature_formulas.cpp:73-73 `ws19`. -/
def ws19 : List (Nat × Lit) := [
  (2, (dec 14776211235737643508694649732566916471052335851342680067715401487799796910857616463517829789687710836135858220062627919340924539 128)),
  (2, (dec 13463335965499817754561346078473467642987996923044189790028163812107671615958963838211331835462638037779790572518434915434646173 128)),
  (2, (dec 10954318125799102199776746711408159622938593526133854494047827181759995532647564062134199658860109639329560843640644381738331345 128)),
  (2, (dec 7472567457529029657288816982884866620127831983471368391773863437661932736331500547297363231736597595700287628052271816911722585 128)),
  (2, (dec 3333567215434406879678440494666589642893241716007907256434744080670603204204355088839275484252943891054502735726020966574375356 128))]

/-- quadrature_formulas.cpp:85-85 `fs21`. -/
def fs21 : List (Seg Lit) := [
  .centre,
  .twist2 (dec 36522842202382751383423400729956923766018906878047385918803718405997146688815263214808920387786634933778139066460778993414836948 128),
  .twist2 (dec 24045193539659409203713716527069522275988644244003575548953869425665203677446355358720060994772547235925939209195453464354131910 128),
  .twist2 (dec 13492399721297533795329187398442327097517846898693484401081083015649337747074038520228829451435814996900672774890262078668552193 128),
  .twist2 (dec 5646870011595235046242111534803636668416212438734280751629447223119434307131366627885470243670131292087221765243360299934616522 128),
  .twist2 (dec 1088567092697150359803099943857130461428879554010779228709946700816810030955500589984030091632761505032603350053606341920169091 128)]

/-- quadrature_formulas.cpp:85-85 `ws21`. -/
def ws21 : List (Nat × Lit) := [
  (1, (dec 13646254338895031535724176416817109457802098494739187379880020572661265301957942650583343224035864728505421146113786806427499068 128)),
  (2, (dec 13140227225512333109034443494525459768638233880157227819002768574275640166977262677620849850851335297956616761744528429654078300 128)),
  (2, (dec 11659688229599523995926185242158756971589908615847925451365986106096610660944049797701997421913084220827555459583936590564600754 128)),
  (2, (dec 9314510546386712571304882071582794584564237402010170589075320208693617400439275123466537925898979306555048226948316771578090859 128)),
  (2, (dec 6279018473245231231734714961197005009880789569770175033196700540895728756623563881734382085702726519893252927254226096799205344 128)),
  (2, (dec 2783428355808683324137686022127428936425781284844907417419214283707770364036877194184561103615942290514816051412098708190275209 128))]

end Verif.Quad.SegTab

import Verif.Lemmas.EcRnsExact

/-!
# Kernel-friendly evaluation of products of residue vectors

The 50 columns of the byte matrix are packed in one natural number per row, 32 bits per column.
-/

namespace Verif.EcRns

open Verif.EcChunks Finset

/-- `Σ_j l_j 2^(32 j)`. -/
def packL : List Nat → Nat
  | [] => 0
  | x :: l => x + 4294967296 * packL l

/-- The first `n` 32-bit digits. -/
def unpackL : Nat → Nat → List Nat
  | 0, _ => []
  | n + 1, v => v % 4294967296 :: unpackL n (v / 4294967296)

theorem unpackL_packL (l : List Nat) (h : ∀ v ∈ l, v < 4294967296) : unpackL l.length (packL l) = l := by
  induction l with
  | nil => rfl
  | cons x l ih =>
    have hx := h x (by simp)
    simp only [List.length_cons, unpackL, packL]
    rw [Nat.add_mul_mod_self_left, Nat.mod_eq_of_lt hx, Nat.add_mul_div_left _ _ (by norm_num), Nat.div_eq_of_lt hx,
      Nat.zero_add, ih (fun v hv => h v (by simp [hv]))]

theorem packL_map_add {α : Type} (l : List α) (f g : α → Nat) :
    packL (l.map fun x => f x + g x) = packL (l.map f) + packL (l.map g) := by
  induction l with
  | nil => rfl
  | cons x l ih => simp only [List.map_cons, packL, ih]; ring

theorem packL_map_mul {α : Type} (l : List α) (c : Nat) (f : α → Nat) :
    packL (l.map fun x => c * f x) = c * packL (l.map f) := by
  induction l with
  | nil => rfl
  | cons x l ih => simp only [List.map_cons, packL, ih]; ring

theorem packL_map_sum {α : Type} (l : List α) (n : Nat) (f : Nat → α → Nat) :
    packL (l.map fun x => ∑ r ∈ range n, f r x) = ∑ r ∈ range n, packL (l.map (f r)) := by
  induction n with
  | zero =>
    simp only [range_zero, sum_empty]
    induction l with
    | nil => rfl
    | cons x l ih => simp only [List.map_cons, packL, ih, Nat.mul_zero, Nat.add_zero]
  | succ n ih =>
    simp only [sum_range_succ]
    rw [packL_map_add, ih]

/-- `Σ_i a_i b_i`. -/
def dot : List Nat → List Nat → Nat
  | a :: as, b :: bs => a * b + dot as bs
  | _, _ => 0

theorem dot_eq (n : Nat) (a b : List Nat) (ha : a.length = n) (hb : b.length = n) :
    dot a b = ∑ r ∈ range n, a.getD r 0 * b.getD r 0 := by
  induction n generalizing a b with
  | zero =>
    rw [List.length_eq_zero_iff.1 ha]
    rfl
  | succ n ih =>
    match a, b, ha, hb with
    | x :: a, y :: b, ha, hb =>
      rw [sum_range_succ']
      simp only [List.length_cons, Nat.add_right_cancel_iff] at ha hb
      simp only [dot, List.getD_cons_succ, List.getD_cons_zero]
      rw [ih a b ha hb, Nat.add_comm]

/-- The packed rows. -/
def PACKS : List Nat := [
  204394094457293477030934429867918889119240189333808918856717176952780767142542140532740218917776157450923573141655198510996669369573526764100493111095715997948081099560476692866759585549628572394656073285347752245452801588280734473655879108800482250049894795946775539099277863344363507975907508428863129357183869180327294187655390267462033416888000346761128769430394471224388547005257880178578727037053375607597544989312634730793329459990064854384780957492978416203461877062317,
  329324601479962330475607542079838453388406936380478757742315055850076302422734937116900423048712826306873485246743905703776735153699260728127178360543003687671023049436526227105526320601128773014157149912283761555356135780789763419738918189612793780080610882891507959559262011511235852459122080509890510304979295435588704375621945184089082871727557832319502643224408884297920268103902210836655887530934001092031087056814558939471905100663467400769371619589590615909302114758215,
  166794856647959661616451830860834038958555905727908824987865745038669692425696988459799173833435804547836801703758652385158621032568704010129166118720362399097343129305018149755374149818628793598136573403965922588443986750753010735347710740098005243333172503616827502836107665039334454214833285918230789806222571247967406668116839970450045561036507224604732503776703872528359799545170155249508840604652420974238166109768150827205890276559408492881604894444579125270307934312156,
  6345906669276893788030820945869040344957804681306658461085581526433890717785916192376491514541503391825849740108583757547081795002955997947797331907053973321679857271539469336265989453672744262092492056015786156424330116547958977105249885922338089445328938661233912321416018255367646143369126834853280868029119450385421003963983298188108161932892081256071758126463053381690986757555075149287984959821803519135906018592926194836644750529716529578356659438640530532734494338545,
  66802830821558173071570042320718824641374296237193508025276260170982104863540465495309199925508178400017535792912196926500517342150942896885561974115899602147572022279680326167819147770837804966487464236290861041302129662645204366560527432726744836476963994670066975385050016183190811732436795013391886264587653133301000391814954277186687330973983317356057989401933012785804573773889816956171633698663761808311865584469924989897556061096977791154655309670789358330358540562296,
  244467511148922577093131735622824012599814550175510311071659960102142892034614390430966899333869871469339516035070544641667668741331528575386334127204793155857279533956467092202180783548422720058245286475926050096700935078736934493150793276451887131908492809557552867327960195075110802258422803504787928441608551089514246730817289320259446707058737924762418429211376242701799218294584629382262188849046988229024497390575721257476537274404558650709038827267284717664696944045195,
  158492381801451478759265655343124486366787961305171842364082773650784792301641557464752939174338035747051722403589422133191260282124034348757808219915837896354253188571701730949026031375544886907221593127155509587354743520786446741962675969050355646975653164954566572755118063428835561260137532365969055522838189655112094435657386967234338159791608202527407701954898478899503674917671106838418328967458833248692389789667064025876863886030750342653069798903961671593237273443169,
  214021652554175280450508169293578599291130115268201192816286120198230924632529943433435155580123589414676709292304742437290278153260202126126038391371088298275434578390689298263200565889867277380192495012610284891302855354973144208740408629387630862519536677014859821669285593278363079630159357794974482994423138617824818933240381840598979684938142275556656085181265881417513917089399554050386595037691684748422709845510182337926950000659188503737293683420569780590280246840462,
  121390050197595286276461322956000336957607309825498927620825559628809205799763621549024732806207943645890176399088851527779251472068121000353418073163226658503764720894999952238678566597135402249600852886277666437248280155098724670299065972016351512271243845562950840659795980117636312815824985351139374739496928453369237021967609119791331403277596353385856644444096921828853792150717520087429172694620335214908986933467647413533573917053011197105514484832602300223936545224056,
  106648498856181223783207790894879510415850449721913320411310869497405289145793531966306511609678232733334804945799238201830479062953052018017359913660884218894611146731947054495489898834478308918840358076343947463528090262630163732840993476448299903057906464091554451827644317831505398490040715109486545388644286616977516982541189075178634679872214559548425777042184080330946616968114428471320693552222018139712834339165585459452848706979099901369594348024333393179130254624249,
  323661940979686647508390141888296976577812334788333270944901708568352704182371431976477540069260196013811308940230632311681149134640352889186149392233381890481717297513166180454277226697746779213904054874999668821387013701047158514051963506084865371689408062179890422860013327375774469498838797356236990076877576228994968492851227531996429822250792187766693393370469758256255888843079455546019601316332395062571689262458396801127664410669374076042539952742112381269292655599015,
  57941336462777761915803399741781216263306719168639026204755769544970617346610011460465778893384312524821354601309288492225679820935198408341642175417667843223029936288030957691193903504367523347820143494156217153397030575701842828570211590174958266355373137963918694448613306794239723216118904698887594627490481905872006579124667752014486704603918412046956937432356706894072601910129314730821581256664026762093281571328508940105911428490226875722971053324645828790474764200737,
  37392193573783861387641239539689011149775178636224940001931711269220198391263857312064744544698952311074861746667284303747926696240856578328478733464995472756185435437892728016610762026580194290088272020299520646359358878133602719019136912046961980676191457906737843728323403554416059218639530936227994508288788299071947931796303748822696741017519276384588378910794968286599101004024260355454816446767445980666588168723558319019252853945964772849450062121237347162248425035614,
  142870892306907603789496336229410370040188600257767094949185998027837888723208660017568327417073918310923709491738576688537609955908621130185046160251712960594730367187467053422057748109163209803321293472249883864635179119178048791937036280225733499337066630608048057693727528683679117523968605291346684879118974157064451890770750549739573688479261689466826985041212651162379978115734556718758777361933606106316463677384771773481908544721286323745966764910791969688124861187615,
  247190143137962612473258428511775993265533485700982129472229178067928060713257377504080107734654490932285168048590244700476594301832639376190015173679758149175267957034122012929785606660337425463394564193824017980908623568145178110123953146665584178434589866835521493826854784548850655154326942017760317262851689516922742384784253127282623597281287002562872694815103903252027295685218333532276551686471583795161815292641362133695307949858608600413169070561448778185220517065802,
  150645404269206067118165138571989158210204617610174985654140422189736577764456587557030085431127015569137191847665000126543974528729127847087126993438914565924747919751832378643381181368699568833550667131953137895487149689826028506602914324591063055200500849144259495000148525895892816872833163885655805876551358684238560377321830457909644332581400832318210525560349997683227965279929732006318159206612558864672688837726207839893926105169234473953336884053322203625368707942976,
  140738336373631673331597895761999663248799218478841655807092617031335121043871957699566750585333991891475477395203329218062513067910107437291674886330552091477357742668166462112181838449250262980091847866886573672256773255575033946331353549720498789745318994503342997739783654785301504639095584331366577893121014723720706427361629026099546300273902003187088120291537099535503231392897994792852686656610897573709778315977509936185812388642977549103197159696689001446944180071875,
  230988929763421098479493471414716925930210661341054437526354090807380894539049566581995416987792660426865292389098110207480399755750419762837890925294640137395458391453854734414653701722591793918798204055418761341185603977226437049058268708063561361738879677534051550857016338985840553737226566318659982561713850739480002831525937714202242240738389416215470268601605783617984208264586962419532520408417228302679774787877727784860367536808058579132462182289535962812708802329259,
  141897784298926177573803381218675708285873432839429454727778157004005288946490308147826294861627683233637808178587518768569035256392940882338647661262620285711331765413082219448936204542687175346739631877286262043251375002750486466795549638651560893745129450591790904353816397560874505302314159732687372769320145083593351133326137617678246179281765231750453991001693603856052048521532568852454215185498844891664652518573806520137248690264960786134083905983903717610573975783534,
  181060206193421150026030662211877568070225868118280926154036158623861713300728770312811557875700101749896434831426259604383379299821716450450935874374570629727053623246574447926303646494945542551592469451175218367578264865196527172955916990738318053115086551766829177842358554339994703312549711925740014380322243847346841432315835252875097715194773877661270592416953388551336883770652612649447305640326573900364594329781751837159504565007602657880121170461839071891073578059605,
  99536528496030599401068311392370122252819932187415450830742360161351558509374396395539638250096029683978665933553012291851369839243844562353396729264549349436814524933848385145480052968266518920744269586565331103026293701028366328309678035890164504996840879184513746544845906162846263807326137589941370168753358719690897542947271151250202409297505997107427762532208721008200236964989277328354569072430229040495382353628141077725303725084112143413495827979627359874415123780231,
  11190742378394241719539601887782017787393521097504038150135269664614154010925690161386792789596590756407231624249948473680876342250241056692580903447221980402907980437443393772679405746374028518128807850648480086998790750459406625792178112860526810582135043019198967574557145597643499213264255929403744382956417547517860476997336230932688973344339544680128688752761964968062690631469446424562599003507371686215832318592329580914921047065939093237673489942701741308029935049808,
  302864344899068844146818843035077377530682319568448415963706403704806136600605183444322823510647935781501562655748217112379535715412185576680413233734147299151275148659772115115920876001816123970422228268505898775636089421993210088933417428834854179409869658755847292021139418650407103669301025881137433387838547542218253080316382557634186738178377271776175696157308377626504732133299695925333593820512943583585497864343624174902136406593654251892093146902465500145816789111257,
  208555684043345348357411911078950112731831239446010652773368637407456863361298794186514669032175778567956347553853434781832240079194968054876949518615403687851010958009169391963272898012886566549644296308244011129708681509131546986292064098784183181074738548729030122688173348839775642173540183129639566953323632182349001791894301970445247953214412025041752051382954490324310661694871389165839581816754202069519433115077760281266483355118911254031164870117167098740969715072872,
  209901471799000909851701894276616399007021070275088947808233552626113161816076332592265113013003770218195778045649956771262516755216089727806734310114183859879383625568844192877398214934870306902843048172868191902432528350608347492280496179521779340213045066073122817445925335676747233659269715128740696064096142848860507481753100545219524214014668175901976629141600539963541209749981189993413936843769751202937559656744105846365145567761512603629508051345890647791295715624974,
  130168726851406204460016076532918294342044280821905102826152780853226145835178718971102263079565593301559675222059160426977645847293480473684441224217869327473449138084356065896242117750459192415715678730349664598754372685610544204829495977569218633684603333739833169799907233373534520782900484635862937751859042566472093795829507756081398986382772283664368468239107155761700033118615449591923199482368646858696271126036386010868373031488708558199793984193509717297025301619099,
  198917773762314012389896254464888614654655267514276784644880787642589700742606434822900002928639455773587913997572986290155474083474615056884282834796702323839063048575429164324962471995788356635883213898273688973253431805033717142944898449784386651434694192258635346750069146981428415766875368039406954532709129232435848853219317172105255599351695132845586896993042442490040429562467590655033863894624232764218083027294631125012008265657279938335028420066265117092890504335035,
  234519034388731129221736261332492866796235544084264412676670104305157351096576606841886259330251447898331486934923229271273395147137331031328044244124570044099078524490508744465962930557211303938349973094782346702275847674047648676065776770601849103582983956309733093477478460624461719529261499064480708354007633477231524671005634337767721405411278917471453817841903975866967717785282418269702162294180906102072855970931161520394733911781578684339962649525836026616333614482890,
  300286643891280762091827513310062050507311667387748147511773775001031337883570448178407920627381984073250439305410567496129959378901517879945620047123853758589005980313023791931960800439948167444831139119296373145195494117659373777176786575572281732869399304105409636879192732308425879454079877162901112337804031706608242553247465648117982228967760594892888864111589021076929493074366736383261183929342210556989295092082710653439942381954549386882676803406731186323140865193493,
  74546286225510004270685695671841218346824201662065390166956838139669167140408823942589057446646065113080170574667230259799117712654786520131008552886765077799699866477635568476903294687920146600984467703740463538195907976181588412609642363924571386110766212789140336716328413017682841780586619242735174199423426078097884801537077269285963252482246131905793241996502126912664972220759150444171450889798257096155611901330307654557314015057554067331388411192459483752195510248003,
  100758089592125061254921051245017370118217496102675164578195302782177858336256832466596028712135361023451191092597754825693817758131508673272994480312196176946210014149930436877646018548569473747790307959121198710739420734895571217594618930777729983245114773015213759779864854611100716289485837022035881873110327307616286005327097690455424483893168147719727467388080628463101089338132918801642127445206879859173365842430172809473142538418680538738938074839279522525411350207402,
  74308185273945241037661681019507937102956757697513125404830453094207280360981988647243298053094779931629345372092773394502204115253872846665257795398256304785588301416774661297580707365283722107205680547551896656415171052495988752075125574291312492167591715075715982765396898169107076122393598205142929162329068287309590617143911006448582806948465398954743712758037180021637620484928033395055044575297872498904835506300913781044808710764763429059577483713080819700788658996716,
  315255943964632666686199345910319227975837012119556385210491007372270174066401091615951554216895069777992831020224145243654327796312369242500094741617369232781485834911459639982455213910871800376216324059374627999231465125900544192570160710329894335054431121003931949298191736225648247661985495978466486642262372838478437227607705562090492449553986841994480356866938829006036799961176589251806696879194723899984625079656231483501452560534519986483834148109514263558462571038690,
  108656828200761650259596471107901914141604771359090938859029783788079603504108463847412019918160325361397187781999264178141540112545844958426600189264534948036735245766707744017426357433497172010791480599845586032509421508605140137809503556441463906158027430935506540408273005462733752294608566351585548849149477657897948578225447689297426362567214679605796745470579652729104403610380653001512906575659921302511446781426564638464694658261820490079462643573473508470885705614495,
  122135409600182683131303225403858320564152458441725005024414390434419141618135724723142699223813384672066975883386324688829403017506425300951612402096186279479154284175321528368601798659073606370397694565769023626877619385180808743502120499300999638391279391258941882263873584585815893389919088500894006761628743152696697070729087188174189391679611908832678710204126504973447982179163963191881077851536049260077769008424279719361961133843624683739439097839853990939617793153654,
  252159205448750176154531357663899036847083279715592643762141713537845336771938733040484341620861536871610823529674278711117954412170895596196596885780523268908189608530599871265073821542042448170241374875700217045917130349961123835654509038477250634318225844194582337676579504756430862472671662908188321236389917127152910814329445048639723056077974329724562977191509750550727116945160875515196810526964730439124457553794408442526208292492299544813166340372484658991110884953797,
  325235477362691774269709977364312509944499312115619685554635188334308137723792489237522247834010140703667844184415488810414257786185391078805727342884506903141092721259185274608926596043394592318105938254990318078819758082443545130931439217803268699411021912662782974161640449043672942284983279709132037294249035038996274738018889413310793890785970726451104765756882765632447529513973396171767585395757392405423876669161899704582182879372978447916097124097678924256116182363424,
  128263919657349669934202908526019423248867747392213453209733940225431219767096110632864045263539099901569828747018389353971204128182787663701748437916962499153732729616079573933871144662743758043101124934111328831035633980441374716617832793141889708406863041864529985704233571893238165295875775342800837126901651623169319150660984797692179890076534655431879703570751551119098579903945888034692136729847863481851688817456880708496892893123849730057021015486683664495654972960565,
  238276887709641131896889886236193024104259947886073534794182036641898725923263410899621774975753674214355784218733512420222354986457799231135584014290645126410179363306430065638764193891438643836188167063298334292564877910967147304862975683368226842802784209220687731842469023348147082624758820051179983581792902501737715780469544097084752642002839042415035585295743835987391370250182124982775359088183822407166478225819176540796115312853336669160438489236874162689623747213320,
  180232029157821727406484579998189347716162881192235805540776843667870391318347575137175911186671692539358743462572929537659088081093093075305492767678877409700125238233368990540160051293966123916744014301654532294944847847369995931622491311552460841350850154185364355542031805122749975117981284070413688558031195580985544119079064174139105663979613199489505700406346593594127721846828859575556165335978241024761775060379613703130323209470422833874663018717774447589454212268606,
  52816990982539387495726977491114529798805828115284252132871194109368293854638943132704490224352631056181812515780312427587810906132622608759706302189668936421369012478307409380968334119616890948993750682466921156347474983906306320722736561538540288340442148262326548866556326876785927053426273369273411569770862611220855828604398437204607195376117951756605578275465645261714738596344157499383728303554655358244803525466301043564553285956573621929536277170427799640708078408052,
  144185623318301904741000101675436108397128688389208177823563574770376228737700090601590303010435148569637300967063106607974952220321297731389415057344988693016413500522602719014966787415972099281262102449420692478151823294948563232148431817935611016455645453297604471361734482183056195934185062935751622801656346929720203042059531550427825555764384455290038175717553088548634470758816972419013505891779388630137946264115878894422310590400813143614912469503058453100588649450282,
  176940025469542275977546046634612309946459079870884916149772836549406578386408414976836087582998457480171197780709493637074845342660472785135069327051609107077140444940993216945689092636671436511429597434357700959422336352257713025318077839766951735046076450270395550966810039264892179608359543181232467916853074971756209975453078234212315893188058434943262042770318603217624928264268019104896250931097460324198641588525539013532958799879955717476466788985915034786379950260195,
  56160755848274416342782551859523886296989794239467325782150424902218022546039064665285525834157230592650968466542811179023210462013417070248995164250632493531236970530051302090536329514052893931122855563333776089488120944913310360784348363945257158211642152515645205309084145429367703756524674856099454410769514911692702710068090006794384315631240933756876775270983523836100381922532736257758612977331829894680260277168696648800046305422244751883826822558799319013227237532653,
  146794381037727668640648398680219237376098207846631280374230669941227519975075775617969874213964864639435342690631663630415323452188146416581975027778489459413284533370111799334798912360684580683097966513416563436730305919966722597115837861124131264065116271841370292424882059542759717667906556585595645686788675335342389593420174066339152332599837289205514101005029592549240716609248792470592369763835015716836464419687881919884860457900740439808063928499103589891780705788407,
  73128033007291733699776257400105072934600678714463865032707086000037479004500762110108861215385099561917679475058182391407357179118195433844396272839645142698764789269096315087519618109276261558232770133938363511531610508364072275611579034152256554288195292699923539599461396698003288615295024727417054409115524236214447835542109750389571665296706256582632416033527042929924141360372831146452625115120967588514117494398346703055184745909067569598897721176312173867754068148606,
  81420155628193010271612026536259956684252768809899203100349578460807685469691953319406326874616891229739867731937649426555137512970560124146679980973128911741638446299610258134396932054604066695619507112984183462645027890362553305163787374426252947338104644181682387059199607628626160066077085391354930780283512445282207196057660833134764319075071283134411160286412134909927799980108529995326159303128983649420171210919903303390838769089574856655215071606958034595005302050530,
  180832457546528771618725130802402739550590396193639927280183226269352023925754994098994362199318263536104278499771979343198087753818737333279065574599012091225513990384645234629753570290044119144638761462909818340706847729595467476126619703746313100004312721104990524144420791226698005898785739454252644541347437483166643992295554986054544668144478412664290913762374595809091279418190500134597876692299379787837321258146351093784165857752734870441400881479879557039755783862411,
  24172417507893128306459384062104257068835516876823634713681411862423091849683208596587399284457923779011264640821533347690093688692513376967813423209532246015944744722217538748936462914666670175899919471314585169445945960328198500992272952127995039540634599148697960663701931568529618580771123449358992714974848033430282264291723116845091095730581735843555972668270245031760820767504003469871580684552350799430103181564265143803897080331261317669466971533207158949029756300365,
  69069965454680417866989080185888483519988914362264964465384917491076341420908172065651576315253429112623948556733257306619209082684689964698552263710038261762396612482462704161666745013490356742047629149892342685288235881320262223771145447787973848721207305896059116301488822735247555382124877517035910561349161954139429921841796956579383238727906896738840996310495605801965779440225171828608810210716499296093271694422765983085819049620665844420122085198595099288385664115401,
  221133622899986956195232338605748796000164667260389518244278910901110141837372066819302857161669776180431892165643260062732113573545584572005535617387992277046895273276831445966917253304932376440328707898941679915459349849219711452019566239767907314523900852179551586406694259034799382355031657935485869904048471247975387579620194756070159432585752469485944394701922032621644245169659544633197272970733285095004957079583396032706418858313692854473934262008051081436360511387833,
  180045689385404580911211999983936454452657861476184159320563400552858436414850814005415034351983335736578956324322922834133787387008453960785596470695015858030304661959001155578758836851011316673547023570345639324277383155962363299928409639768616247073390132715281403493274128001347460417699173248876622776691703077584573933393541311065011434181151137762838570306919766981332417230647709174990624616249506799589253861618806186946435278637091326814105429024147087621346713192620,
  161039026166196960325383186728973168166094070050074949422924401228347822962403415220253978014224548254771722579141669324747853361656469244058029916982572065815840561706908216299908560824797034966015394729560767269699598710454550330852099377259876542613202071323942188064804455502519573639566723635575598885457875050194692784014235113717214880159583684616237518817941830363601197821177282585875479804744247071603873134193838267058612746860553246154708758963986290971763565182260,
  86130412607605093506013965795924461321999557749253120952875700745172609493216885800092780535647147528840173555688685567876960926500393862032841720397145549905894430519353175129370620682155299857375327500623675428815297634306914644721282948490015900523500800515793476352797983005744544404546214064956049882671184197203410614291290922238757446569095565115566344177180137984413472192609544162012302009486345756553814398665738405442435555633556976896967572630411940704401611619939,
  306270223061966869905145965017657633135731890594686939707109749149765193203065895559404936894186105829603829073550337174526726048158704753012062397867975417875166382256623715426355147955798768746441157740340743534017251984694489423462086296798283565999211860694100455509887956404952152471415121059360285074300532391141092330796599628899076792903323584476762655512148186253391809696394860003287052438981865015505748905125658757416004356635833233401478239255881801939669577903872,
  96441216787027790703631034190817692102937233525616271786788079785585745709961428154741148751016504796558211869154108418255675085790818524886797231833977964888773156049366429165637926224631466469622044664556697857330550733439296019807875295799196132171355936809052440511115140347935823411122581729720092985398221619516758601282701686399444994753871182078955642913154828390434420680293228792600753961114549458382247283000115852455454481243153420212104562214706889886057610901871,
  22101974873317974078436028542606995090374570872835708008973576470496466477766656151050746520876097464819940416363136967800025515542225297567255962663162392181182523516320544294586819265999535810915973186486495949440678727013578604248154583803089579531795841582208732223447450546321842501959405422426212151690299576450520858541195694157072523094818348537123879966604558599150907452493788648171069822005200122161634983252282863211214927147126569650774962609913945567915858220828,
  58376129415781990658928246989068942366491527927925830262608044735197860375787643079551083695479592094847103485913236400913686619457967632719973916440685592675416653172619674295383166058032908241643112641762835800296665235796333203606741776422220312570648102945920036775916905966528757272885517442686427909722437603179087141057056638583556811753535272311383434116139580335540442451257813634386178194627442297460402773788137886352192726377767089561560276066379688190909689676715,
  170490596745527306082178166832276702292008212244305658384889780888813169078816767885794470357329266080065167662542456509780954957385837877346246269058399418300934073338656235307139465808627068175619272581610565466906801137747272772990237233621433319543848267208953221084827271353615414226683479486871435819760877757457200996355358476649451882427090172180026060055628512246054845825157226813092057727610378368539741744895011849319376268358998286075589519030075551931927518800369,
  85975129374958301261557129150631573897746517909820195140438546940925106015087174145169053970364671002920436194074244060883294724828966458622008656955115437413057128424103362903879805653344320833129361846712971433215244883733836397128471950777578473721857838558695235330138767879055397675994204965551318796101414948648537415458925629820296684924199990234945165356998579350355324210866673017087416451595460919028827329012621213842002152615073296515375406670090594693668315134978,
  241279029503614056494484290562766530775896911123008197905597500372831270298204902810207786420706651622553480552885388970249375340456850846378854768104445773428652087875578210990407051355410094077876629460300944602019114691786075110909062561168711779835473077126502457224132293732837307708895761809627530288720574704725886987436939880171109051225222175937521415697555915524810007475525653228423015679509930357197431517293252455009238317447508348209687566992296142394959090178599,
  302564130788150697027144844957740307451307067482103267560308433142422508424521216870442643279025468119584160061747921810973987919893695731635464911969356301128736149163351299679806611696749058199341892195556867795834910108186951729440629663688477771608970926369078943760077373020043720684833640895646616194897917083733273531145578653981012580630189394314631462024404142676678775668156142004588515854713720200217534215189455488529730152521713717109365375294837494028957546220290,
  162032838634821341315660895349971445531684165257824575889047072580740441655828610508221209706375058449825008149882338302222509939559351553374059471254241150026488805044409726636405109067641736666842827705151046449827286765848594681441271350945484837962861640262531647752379372934755931122324627561110425543964296406611404524220966681168049199952263435978838073065090028691193924626601355474512906757471816108932658788719167338538512118422284537408546510778426809321502395112095,
  202717035912852973961637453486704265533038604505165267547749160076440300865458949321500493017199388155158632407508869625551735596235939046256112771923442557943246346124451357569696788725309215010405839871266232729039552048778881815050014882194139457476492307206564920692150157562788143320230481959387648316763169571323670373321726864818774134870257211642736357661978698521981385259826619110583487892196861416323493536270561628268036623989824376264474341705192758023409545313628,
  249022484849296584789863938545090168569161443889346026203626712400378820872616582147451304848963220926393618668391811186293019952145760902244758627988335499288182891673034896449373351417282027535155218652224202160571266865649022436689185872421141535984168800892317733130710118450178330485501012178022048104879763937786307468890944587812244731896742959800233165769649094778430400346841615029135190763225390061998421538463532955597580548488444562006267392794378366655737458873929,
  325670270275296756423365067178120765859282476052516215038209460089196989924628232719725898715841971155711020183333256829641536936234705477642163330522044656237846399900257409693507186123513573293918380008936438510606649208384196148576830523569652201138184496318820020435164461290254342137631463769557633964778912738054367544832474360902072045325675194903085351539061955353568367539078817807415401284710144727021066150918625563934832892010780604836706431263587042987097565738061,
  19586387159002700592383280975512354864424488371263874800988542959031879474867210684679979338580328118917958791191229464086096847193746112115116873439048803927629530157386970621636688536926743110767004737333348606257905463162441264406164603665182417163795255673114712090027195709639290331324455131995103958863760308418323480198471765709339512117926452164822385195240152367074693606518733034312361650097934237325151378572347461029216369248583997559351205459210552361870155624450,
  139444309804983757388586137193691139030689103454083795247420888449410763499136155630477595448129395589658479204227124586654016790303152594305965286487408312272366476285739303944267943103516525900692718498901459203648875400848374965659732902211642787390067101171645325647816373348335866621019754626058123734866009020243208959181442507625761152960588373180157488223402170787102933777544658392419704888760001087978792114389524831013364726070227273504088455869714771828298488013472,
  39721441469924617259213485021808456687615368870713506418372020617797007655451191453172510574440627187930665510709344728671831932221131917910525037343767617268845213030268842824917951576394459066672629873089970891235924489072265955325154752400940728228801097104957169311701429943935107570188131829712456860770504696422649938823103170241584012213958631559543382666894284086070214983604686935833266877379792507975410289386373738442210348238917575904288547034313133467808498217449,
  183141001081432677816479581609361531118432983823821023807203308053888123560752012084791229525853873197128803703137283939612724304493205709098007722314326322194510776160142058045580770699383796420951059562171940034228201464743230771011064019877909039778343833246092722390122949976064834641813831060524564853095268002421515266457787733747165529529047061019535267016899495188914610865565050277628336948660597926095347452177748138497416418617867060703163291956020534141868635647624,
  172012372018825917131020805844937243530265500590973025806522653679413697647350137292384622608602061499234918666029466540501439104250441533879578234723353872467241384776682780608374727464129233934351851107084799780073188120352014271534485139825819973353875316293186065339039370399803009610215909329891039273921077852065803890148412890336458295044659724670814486563514155770820410436859111647040407565451993783363637095779705909368447378119886325860874827889565938906038590831294,
  281776886934949944574221328151057391277626782138874336382821477199621952976001637890918071027817651225996816319600420812896685145447765746227532023225834841294426157648037950862607373352655925962019071339093222572299214250972826421982677900241356160899680511971461774815276411162974237635140060900225177029361695781897672877351769102508144232161331924151447009752783373932959272396646073506064654781943683988736190573250400589980676892046736362286179894527172861027496780374466,
  128470963943549929295525349415350648456502760502490115448999772952792084855359229404231399452082679229433446566444209130236165154911402440436403510486175959091914944624985675793747003778345546935834769474030048977193764785278944894725451830011647189965255654098851876473741425716472850943674729872948977944088205877546816203313268514536663845512086867509079786106020024924207484621128522075916823535165551497317749417205669851083522776029662661007469875838123643420764551516088,
  290814368967298926477889009644971091780962229198091037655923008821282787155259447605570408664706997401630546549168874075961220093183833683183205131741579297760263597258998970669219168104463721711034936337076937830210472479988473621489485909217798654233973029579368735790161573573778321259097776628952449366844358159642849643768880614269358697340990861366133173851873455181562661365248035482612575074843671086187133902872928086108493416053895950309144735405093874861383354462321,
  292232622123005744247915859004430530592789777631621419859798399112046344860408611354998318301460139338100656705019211793281883822997577727395804781508993171385666988622531027675451878707821018140420542132179072943188252787155555350749287948426748175973382884225483172131302662341652674903734560695477887957251529609419351682629055544711072238019403231918300654975285720750153934970752174633140985887044215882212483729013817477687248135495533403778513742831428928390662136562366,
  126483339028415783838819786189925866864071415379374140667023117013024528565755743601695069997397545028269636052141799074373406284490395986118543318295736695467073239532633464199476322316500388019331452921320526211763735376001001697006890648448342435294385035761620491900431737182946926828108553497926578470274765765048312694092558694271168229133360215306319857933940147596818170628498895579920554385849333481972190072925160736480193425637745018533473989815017206421476519981145,
  54235244181299205840737996886999028144856659879739834087109844276969365558466312703127907402997638827657490253267055518619244953347275944593373136619707111160331684962410990497698112265223133218314988919347752789846760064192976032724729320489669878077495342547808424661949699992889068884975506695948044478273201922922647520505533524256213463153173658592002531161599169070936693055180514169124507830035548855593566705928004963887608246640846186138981284486748707959663463786308,
  111845309789885788182895717319081588848699235538881289435216861081684376634191058333545339037498778148906570268431021857870416697548964383197767607872366875477689607189009071271767202619885376999446970640062292949340265709523601910312142620629276340788494909411531775316329112534922604969818057392324322726865620607854494683271619114008594610218372255774447680047347021439393167063856340315150369513126771327130796427787905157944490351528917680936914128786039755558767512534018,
  198586502877858949975524409983755181893349536546156090059108751496311383653531731869816151442354401680469023819340669802477560104949091434515597547459255050557597614649533719500862115565606300438087078945666992526655791767865928776525464111720732616529198863078616391497840308292952147499987735850959023222044685327948472445206128231013044991005178042647896459964945109988953364823794743659082763400873676308876476154061836069191693294185318159833056458649751589367526379788476,
  214942999496843325228141925294666990314252352466133509340786337012038068513061811261965477446376389227134984093402156754958821917654561479281077891949519957980147218304063099249544934074735363961448691286993096867807032443971753136053770732121171112628125689256945119446766111425630824012096419880183612129459713026707723640056710157812425585814410792138272439418360634759431062802887777598967662678106237193097112421837386662822213049649898961563182627560778025469780061892247,
  247252256411403314467923037111724215484140073399619978357865104917146699424973424504476950409616742741467758054756280337214889786989729950338994041119404512442436124178626896130444715145298136000041604649569995198183552037662999978044086255549953758222832102474511184679818762898281059611616392774837286607251076074103018784707560638967510130364463394018211678875744873900750166129212021453220820851420842423331829833892086840156652553207619756376342452737581573652586644376708,
  5486672950006644416790545839806738151625818444888341575158900105508214455787234776235488928822533501365490636609132589043267571966950192073110634025836087142781590222226783403565070701010565404437571353413473671275956555633379004299806397126631829574230453848430397980221900929683005399299569512294070524942157399340182871508035603167327885707328131439172118956567070929224280220713327928717996420013656236026231751738268304001011192138568100160474576726402082666627035304283,
  271517843862213641631475529213630672696140011246613782809458177180047628149541278890564012119505051338799374524888961601217922234969617487994299925600131552822889429129184402833733815816456623647710396561051762686039280240162105058307935368883763749876141556397975476849187939123682532830698482958600354071915782392427219643248963208809620291331917660794460010506596179816084492899622550625608071429724525026796814593875632332169811803914854869148353002314897300484902474502418,
  58003449778191644525665545384994989916298109977954539562843404709146222279597322727057615411735008628363291750292397651925473814022001658847455473931485591357610966156148753133066946331982838077684605904181331665348034137394730109135941964607615904576083539564329420768354238949489107423481789123677480356061728038208883498344945328573792168001651281477659840081295308819271412610967792623318617470050094732925927884627269851369438873713933182563336839535563288887298776691189,
  194942523890694401505764491718459446905357103528085469041231379022256040199191276302361089052267754981010326017746381502003223487569979564556595107043627406883855468109495165636573531565537221752952077366242753042555239409408974910710650755477717540450232313987330682124926868340987561726121012103841840432083089981627938769042200763496284228538212989558754804737526799616255453402987292508274061819654306879718761241136116958506599478939531323421923802996802101547472332560283,
  277563536227436463827609286397687362757346713319204316849654441726449548497699301343792363528144407438258510586463951476381310214013934532241938996075612376983571778930801276182218072400216344624772179189818521495246816661350017834124489713837452390860376394111458409815007181436083378235722088039960271053878738974956943916913995448773532652631418339207067279506962540815068400482477367784548744054580927437843676928508971586653024439685246566654535632436228688810001253310985,
  180635765461470747408787970027578044126306001298633184704564014636607999012202479718154684961254451262724260894917565071488594282789454557628895421381767158258786521588955404010526917040710714115831733523887274094688276253569629528776839317777169071417789189371334563356289936814895434940430957555426472628672566641026859481630798535412528825330935291326658410146237296780200142350158558521589601755483868292216894286776623890274045418327308017599910481586044029099664801293632,
  182054018709989055494559675136413584555038984951002942601763679632460529705644257108809088107919719705336261376222873631991778379252326902828058784846009033918899261758018026652195441995065992782088515326967822187536400731088874468368102899820697143079214697547948849737166888318811452184573612417384789355249258422753924956158626405450019738898815904903024655311393192243385601053673214325367693003901052745908017638141644354765531958458053076035545101651625032491771308836912,
  47920394219673337170025379256840920815508040593825750240437519929586257238847964542696081957356949669536289593572092364215983638643473374533164443790565827737862389605620349936142335314590265727853151975786003408422553237040096248438946545789675568576622086669486531128418096670670653017122333775185022261282103483691340860048385817098627512775821205123246836485806013985765632303222182419469083690691968122976760556652911402257216629846820573508214149927871552575952503464429,
  217820914779392951937540524907060356359054006111526747868452648063509804218776530662436066748417383567005454093134748999476486629390986328146166947635672851845941280231904587630998965317174344043644316658072672466106978307052829430026125781931873121200619494353194367528480267516585375768075831671069422647198136369927548443084548423726704597132486321776591956154106585809684649788115040375430597611357397450563904045042520695100244804601785018835078669141997034951818071821690,
  130427532235767583003363699576886866125839444876332908550242122983315628753333469949893458980030775076314738957072687323785309917230513478716986821472689348572781629532828370227472013717266491793583947006988247640519449000856874376620766647813192426271678695133560820693257744276246090899391832324299858425023165825659807709158146805770744839409262364249072171979755194824582988681056255802113394061812198293544416174889332444452069696657008347302784238801115785430464318149630,
  27247024797086085055668979347415638342041295486704840412748620011965474579263441265658515237686448108825294331423030891093254401386709242242696151086495409390548410325457978049669329511930866916875112493490899691283139682631225075580463805425478011098566432734724304654087260859033428801116005887029400509013264562996690714250039184798185234157182053819314691990753714574969247003770099424471590913525958806648764482064671993817497902079028895057619508996534538847262590667058,
  143409207381374587540303071809082171537366385176250885052429692615495999144055643658175977220912737375938617537188626307799108413594339741874214058689256297606389572038927337855367391342097710154422275009082577724418324131990149982960289328478666235786720216613748240305748017452971712057988182113057228900229222199000382152997665047905963492789799710736371653844257967725473798083922155912611766352544316211365882511914143296519203616134321989322929275357447946923052942534518,
  5579842858579301519986367462602756442852439397062117645091337810356445300637602261994103977007563338774423614971560714099348580709859802108242352895978643827186932107456370596335151166875307003347310036610083406353135943927760812734988693905609489544787355648637136266437927703427239552047343377201478996671375977002531794986108210018080380181184006717262597167012382622903803805684262791279996776243024233736247758464949132996985155869582781809794588081472141850844055218992,
  207675746009017425100614418987150619884184676571823657598090334562648052183780108851697532094490622680859704508988788089803261637393533249121868521203318572248919082646580218057139062686119151920362647162766239358320291690497880599362760171072613655258868688458278525016636380842432486180538064371728359855268060207150691162039802170806493823655734032265622025853901417810560877649470124532120271863212934305774379918004308956480728923797491084469690144717951112256192358966200,
  68262492841918199622528064807252145639865352478861881481311028622852104030550238513229702268396891367350875817946709548804454015721935365392939531881235755982525655582254444251119708444991793567831101619891201933285823156233366952800356907673262216157507444295485240724614896398247200721210275726246807374307178621823122766532483847798585298292586693719807348915136313797156727314646584356555740139025441346823172047384139783807361863446020337017331444383286115967284411416870,
  283288310054690708409225013232318943520604852175596338609952159651868428068707529102642378155892537427597782836663583112961566517355969433011376813543334261451846412173137288548868264772215354978107072699560394317570038781931070999365707967104175012770455650717417172509097527118197900871353053270190343325533525679019651187093327475850340487558673483113117437394687628506468364095086527624228561379589479239604485955513608445755687959892326145205979449408685687541832685211634,
  182592333766949940083539936947253797414936687704202187267837417132858629187543735815306765003469364159539205460249339320492608429190193308745790530685504304794757306895206109026078742017275981188026255758564724545850472728474587237348667847429150644908317906954061245556297341204601483990661200330250299496106694014279358508192143465780467777127871529575708678049712408896377795872704702985815842996120206738461906760580908037377323090303877553061901485545824623067394335624003,
  315597566957741455800352763388181535799201998443588309623193747000414894013828923725504543853663644409551827176774036718635557284616722644428209715063544798686051904652794906418714938738560098360115629891992573144991445284612668867840997789112651394922301785713025233611772975679198006625268105721220957195216979382445157134964213973773651129909037884222579720143210255281584449744445697622938317802552503421155401415964792344418405176205388688134152901714786565967529793032673,
  139972272608527550923577967674857078365983742937195353758063601557636236428836125401020257768299969015371790781680561673421032061887760942773829517008716383225837368573975883021050733665923844284326303987980219955790181495202091942208231747016636768857345409286595607464802490132875051176142302519911371505529403175645888183371959890509789355623195198393507906718636408328988239019230166616827744475998793875052006398072140614063814568013457132274146310898875085572473842844849]

/-- The quotient estimates. -/
def SQES : List Nat := [43933, 40192, 51123, 45768, 23784, 59159, 62885, 42189, 20921, 47328, 59623, 59046, 46742, 38176, 14774, 46359, 39180, 3003, 54708, 45967, 52548, 17173, 60203, 10797, 37438, 15760, 34038, 62885, 6340, 49945, 12994, 49477, 30075, 31469, 11472, 53141, 49937, 4208, 40821, 29799, 25006, 44318, 29359, 44650, 5164, 11185, 53194, 51574, 38494, 24006, 50093, 44110, 19444, 62309, 11727, 52925, 46812, 56284, 47929, 14370, 30619, 39636, 13864, 10206, 5617, 61616, 14922, 18696, 31440, 53122, 30652, 48065, 39927, 63173, 51349, 38005, 39762, 20867, 8520, 18307, 49033, 35023, 324, 17211, 60655, 61174, 18229, 13458, 14928, 20324, 19851, 35420, 38390, 62824, 18868, 45918, 40044, 27447, 30670, 52504]

/-- The packed correction row. -/
def PCOR : Nat := 336467628460951757257444876169750082492822924087947112745049669679175559991304002965002677312839823795681923188505346553729948511205246970018294721249366184277854631872323009176056892316268626205511988263917450361470748790358971504591041313741198277179826679848103933728280701193073240088653045974810670758276796926075939696893277770213556376859873336362453434036451463834196722413359938009987469748668832508559364868677210936213937264964133794674077468209288869454862757191827

/-- The moduli and their offsets as literals. -/
def MODLIT : List Nat := [65536, 65535, 65533, 65531, 65527, 65521, 65519, 65509, 65503, 65497, 65491, 65489, 65479, 65477, 65473, 65459, 65449, 65447, 65437, 65431, 65423, 65419, 65413, 65411, 65407, 65393, 65383, 65381, 65371, 65369, 65363, 65357, 65353, 65347, 65339, 65327, 65323, 65321, 65311, 65309, 65293, 65287, 32761, 32749, 32743, 32741, 32719, 32717, 32713, 32707]
@[inherit_doc MODLIT]
def TLIT : List Nat := [0, 1, 3, 5, 9, 15, 17, 27, 33, 39, 45, 47, 57, 59, 63, 77, 87, 89, 99, 105, 113, 117, 123, 125, 129, 143, 153, 155, 165, 167, 173, 179, 183, 189, 197, 209, 213, 215, 225, 227, 243, 249, 14, 38, 50, 54, 98, 102, 110, 122]

theorem MODLIT_eq : MODULI = MODLIT := by decide +kernel
theorem TLIT_len : TLIT.length = 50 := rfl
theorem TLIT_eq : RNS_T = TLIT := by decide +kernel

/-- The weights of the bytes. -/
def SHLIT : List Nat := [
  16088854066356591473883201833037143372067206727863370768356493280402129133520488289037701326550171667279492988098176960501359924143512941171670475104776530821543204645053862621787954814825036787446715767697595788057527955277853954354315265,
  14718849671886830503683191406765503526053881428681961120838189468643670455795312528463872071488505215926464893761908551577872170604695152426917800637588562738248343639041377700018243232136386738011481122056353308756701422132053493579055360,
  18721847996729207133094999117090300290969641909404395609424382073865954895161189170809520018028063294232307529016920503633598729812506056139247448548071939106007082987197366463854356369246826233473674747433720477623575778409078700774916096,
  16760745222532483526864340686825080658362497579666503146522547912339563352115373905176622641232549054949532856314647327761020951201615051667089276196150550390529051427468836722961197291798433086095803610300831053155162017339859647477907456,
  8709686190249656528167213703791427146326437031437760218262972524610360192876946556443291247406712828161527814350751233170509293280464248959059138727244200394054559545238364702164394862659935967231134416107809520340467310106416072495595520,
  21664712651181930938535854590088540251790711842222359072893970341680702530057549848328960433588070980688055646528174247306141104755661555437814414706452691889273043665718640245615883546190865868199688315502210915198918686260833789611868160,
  23029256678564289058732971264370546326727713391667847687708474101848075943895155417588711465962526924071503748365089939845988205361603759202872076185408395637048162948878863713060553381873373637435120154292250168562520628245265945618022400,
  15449891745948386354049783600309661208540212936188106786036609096476798404790348780072833861190031779452232595813952275960607704249033946914331401620252117842698421660280770765513031876818197628740466662035918787544687224912953942682828800,
  7661504412558614914498464575040300449500783746714737928108155864967278470045511939253538863475980226493687963683193205909278812046602988159727247916834967738958170125993251764514952474400469148094191104620825666282805791353039138584657920,
  17331965307710403306672810123122767834918567151653509584855437598533157303806466702238106537840465641930768148458379658515775058077124964275095759569392270215854267546234184279023427958748666247106091273628553941780698577905017930823434240,
  21834613143763265898070813226008691949422519898960733184073057028860725195906239117419732816657675532873558731466842726055289887386644256253927500816895702217478079142689612299146098632164217543024165133266675145014490230379642140783083520,
  21623259626946150958662555089965359310813974310514351881799740014556632887059623673933829918853460082480697865019555097460045842611155760626446480031924492833333321611690402342652829177706690097129670287154596909199875644278062622333992960,
  17117226980038320567612140507029154167936386738976296997837436318530251752964346000523463575968395438962676667357896525460713005310738446085596518064962751869426640142859685070913259364409809578785854829707905164847142273333950417414062080,
  13980527828974353030954759455397605298068868075066219076365075103961685214826707814333251532033850078611772511425056791087623800224478236925739406117558012965150915870067468604431412118856915242867190297901344101554838151984068814462648320,
  5410102428169953743727317868507860473464855051927100315489580829139345845211011634965065403391911401684977151878933591054636263417084862931500107144893612452012243795600152404888535842655475440367378769536308118840189871762624796977725440,
  16976957839707962790721215054431214632619212991890695572524662154905407132202415395994187426544171628812904194549868197730127298062185647957119487031030345189530396508723197825565779265444035784599713198452155611765122128232428419255828480,
  14348142289265362604212307339758922135092477328774994888449025760144019326049225176281533559535456221089516248282631558687408336276448534838707137027107509142959476942092140262508994596779589478917781641874530730021854543232079416695193600,
  1099560138153354269030672480250677357696949041462046978044829578809811082672975606588888718390344844726497401968748143708399193492482687769432076563287784344689003838182290932783184187562194791272529691196768813094882162518883307699240960,
  20034641066116373803278478888099547298123049889383339618720123258887213741756036124998103633687147027036444594779094915975162687717772371301207365258252174036921846301020288418093087831568556102934174256359518775256376157773932791488512000,
  16833495673275173226315684346418017436277545292517260882384704936260077038546511999017611025659878322359894435108492754366401439617132966899061091039759426119472385865982094735048529710003253750575089733203473854897168071549642405270978560,
  19243446186638474784759209329188696715763398435705584466128476329767938308817316949626529604793153542927592141293969256211102401775002066231010245400159105111124681773690852529048668856123735757529434113062562022730164215169500395818516480,
  6288906705431297552536664533111295239839570386302746758264568991166566801577078634429755185539321436464367632243640502101249801315168449631322329060808790592676023384020657009978941673933831565480806284669243146618277086639443093687828480,
  22046844159779271346040779214921309507194149874173257215612247800306275013390073174963468700083274376213088111867340397217439273296581343778144360894809944599748722216991087209392947949554593335375170154250416599119876174919909704948449280,
  3953912160106693238791103026143819017488949001686452103579523288577010939667639081179555242028598335161206264049215172219933049412337574062441189343142414140638789939977673164483128300466173099542258195684897433266915075902373806191738880,
  13710137282901250599575617552487659709089755457066488031956940357218804172461386051672416441339830509771327604513065790546470627731375273152815002311660970940105939466126859519652548821565464783082763983440072268183358896111434958764441600,
  5771416165126670015797825798194644827678847464963746037994759600715607285111000795873115072459215912494568225121313566045842173620057079295929020890239637706801446941147801898047026700825285616212303213026263278567442031230334309870469120,
  12465041570265495464427786942396738571116057042130317522893889532328833230076626843714027434439034974090760188207603542514732106530818593511762780069737465917982239308811341605906174841419698069958386540997594836339927521317190705850286080,
  23029189042745333285472667333693130559769448403063004361701334770404797076462325736961946530153665108718036907245782202755773481610205857416326989920353618628370280568529978252003209719667032973780266109853762118903901147096670028734136320,
  2321461201622099115922376783879284615947372399483559382647903677089200618518903143537944572878983820365136108138679104989018383797095998095761517335544761647968628350628372556490118969020696402808298937654333194683468458212000596381204480,
  18290167079762554474666494869483781019628942561918787139838907606512356554811178154108523986794532875562739815519900935185861562914874770406776672820833953448135588217740924850565447035884520403366948333049204023673826336798670733781237760,
  4758308394790156028707901982085026862134501066544715139443723743695911382938857229401771471713963619491986895103977137309430915010210584889701857375857658750126244527191730161278004302461364976938813016182164343033353458127679698115624960,
  18118822950665736679510486989572958658727290314879544826709041452147060311455728661009149529138592552631762088322418105375054473568699852371650977639091830799332620746244484597783665943830770105591174420842209701342445769282915343001845760,
  11013841026717741355047384237326976524794212029522909682258554922554317966815988898912935253110703015908818341809932075934477888787689003262857937073227820344180272840129772019730077328860755602976982018113040253825089167664896859935539200,
  11524287729204543285003300963092222115688619991736856420320945748330765798006528487635652278991512025335989146930605471962471670082593717514294535988024994504962658050499695197737877150461360623764195567945347629664094465530371686938378240,
  4201046065604374945103129398866125422144485853300173158023087328163544743877193933407585631690592721833392580963477583983722572436989296492830850243161596613618068778226408889853958026779167379613419785677218993198064335612826796939018240,
  19460641812979484077054196136437460187007993650744901287532227507941951158176931534398896150711974036509643635350019939494429947109475208299716092938556180961197946396902851515954071627541624869179902338191223597331955146848943126742302720,
  18287392507679337365331091277036151702485327305172980930285055530591709832901074974074320337795707408589836669214567705107077442836426856303426420563917280834135401641203007256374664852845130572991590181996810378509341725958729568771440640,
  1540790115014959512880927266898555450194357514069747756525691788853327711197477306233052280120329853462343391575989228638712266848956684048268073098995537530017505110099954543311003931866637121941751476195194649126927750962728844556042240,
  14948978673669012239710268739401208335508922856375947095609997425148759722576436897737612560206574563277605284663490528117613679108507444066152728501385278024266889866315887113837753793536179166127007306002239715274048872946228187235942400,
  10912699411613956156143300337772674498582406180837708306747467387942602147132169651443791222640309160399264748473156832340255786214138264468460552708740360851428395053680872470219286298895715037944904781275245583833105827972598081179156480,
  9157208579275778190205084278809815686320349656442170706203938163137326049059474241843879551700831872387235080904629255290108861518091964296771384935912343492678047777753633143280020555648162881719571292863784437313948775899498300917022720,
  16229631630307655753259479752376614685461845571294690898692750111183336340695465104295131609918936898737427578491375005339704596683835693952946993067450444213587433368143517502277517402549089578165032992852603448890569978149575528037416960,
  10751444731330099799954934252419458249837521889239808636543552621589442599717040250343672156380169483439859543834792532878021781681664018320507091305911499388062149246415889948063751990204950404901564295080888522034251558085931878689669120,
  16351323676905157581518850052219178809638243042497040569533410917363047043929177777854960349753093355521549848792626192260063837082910165035999490189874958292702176752636191052521716583751949755901955935022016018121428783999521730471526400,
  1891013065292793671342301320797485348055545986559798527543007462479283393722188536079177461856678161426117504252199467231973933270040821157380488382288455274268665168000023635270387395317835975787167539204168974773124726779622250111959040,
  4096094268709497195744169954478681883137779471081410702656215621094047304523576409931691343455171710159327865244771993049623009512366264532595221633657026519583891722070675953464999006854544205216906947550512695841514251022061078822256640,
  19480158209392973493910312279329563375269833190931302487042542051734497262707979791753621893294962469501835457440197167602298689718288447789112340528577227077952543625806730452282598199335740725136943723644455380110375358804914376753807360,
  18886859485958398828430522952205403351578668415263858877430024337245408848751097336331607152816962877977981243346156656413929124034673733329777701512629261731289218397091867890289436116755956713373468284762268151344488276849298718138368000,
  14096935248248556451706090102850362176389906287143199780145131442974193054397608261600626272988566808055908393087469328507056639750234339794359257464026923941814440445535695892101093051358984118885269095282095114816946640558069873486725120,
  8791045204787831627621805057110963012701061346956551104500938599374660763112548772227284196164820750361899455504960960288720468924361349179896379049486101405538819412622838309723514689063942462394015226840763047550221448656625488807198720,
  18344473007091506703155455755222266788732261297485090726995062717621896710574933385535790683277690544329579547016590590704871689947299168229520456658157164372912188811986686520283685477623191002782990601993584219749466653280461369334497280,
  16153397964530309995918233682544017529409459545969855714287531668581168395705230640369460723508012602836520108893847941674039527232268537128341313224405723456875020830721846104020283875050107148540258995369298006598909145326069788698542080,
  7120431191713651677340923950075253084835318432868962563306490197160073202415874959739763745181616307644455866988305997593010403621717871997444746021516276084456651424808110975299603468046077275160965599586228390043458628219016285240033280,
  22818195905273519394707900582973912646284044733603119900135135071969359237126406594612997922039633701005377361562741815051773673591960412257818215637463463771423797428618754642620334590377786455089756911386674678331349556963537959551303680,
  4294487715827708540349326442404565438656521188983930971890449729398736379768040334790937127985045399777479761673575422250278674244217711683518849436160629112193665731370090659619498083465830773474778685057506919406457064359341312979435520,
  19381541747840600326686390873794226053134939931375551020159317485470884871815775847219992257499137709449624235969151954816006814379045299528003396134699124411891046837388615842144617429601880417872881425109095464376572915728597485597163520,
  17143130574977433346969008202195869975775049016583555486832102479508188037889375432574853053966017890189372822053834505229052147177126563799951413469900846117796896870711375369131316187482613371796008950715561704611207987929037573807800320,
  20611848133387224546312889418076852104766411142524392258999612314313374155634242419488957899425197592645988113585179611782444118019836371800592629781710140547936638200100184948253958825494686253466645275861418281155661088326380851259637760,
  17551924758550093397192024345117414813195424254291621833227827205821445322823035281273923377643832125792951065944066950011593156547897414215978559792198103655920123506413916781463005439537712925313697149672775095314005680026353774734213120,
  5262346516426776736433779963572938679611973723732623849216718557106613726561991479866526037982032503430330243655112571529016540032653090364339637231761189384184059118466942836227863802972305554920328436728860089552266314099019550961500160,
  11213025153471727626724500985240589896222882903881612305963637785135530185618344142235440440524035628631361159932755526399289908611019267566321510488841196547391314903760456582354069558888049153481134439639575871754312578859363089896570880,
  14515099133600460567556691612009488479520164518742026853986789091760843662573801895563206367619217120814275264041579629120778354093332984025288349961830550157669987211361405761904470617997362993197417169866791334937446150857603061978562560,
  5077134002991104861427373938456448463340596750491781043138713667961984321172957433567135561545648862756841111178296662878581821554483550895076007430967015547364555941918495716041875554579704946168287952464615660328564787944568779485347840,
  3737528560859501322118314186721375123671386787683013702955723109541232201714043162074808747679127305449090758684558327410545767378962359396071430900649666153701464659109391682183871647223509109077161491406397959700863041494273183683051520,
  2056904966680505920633194885252677041600292445095986026780047621705925979554332482147963885003960571879794917451230816759979096282166762209684246869695715820395071217535938697197450101497604332475070006946813832481206070816448729938984960,
  22564258501651548880818674046523877069638773201934059889920811644434424203134592162224128724566746905554407983030882891302159545235702976334516904198306350143284120838968163073005343079149670237505039535231759026806417534221578167048929280,
  5464281726888184053386377765183147539355671946046981108328466701487182286213422816929815354364401061131253335621015151956171364207646757337167594738370916780806575782784325603643526561024944974629073555323065886590015356741902500178821120,
  6846695789262637930046300194820825139714238232168827921861760737271410954401843537653287930908802566313269571356833207606327905065126418220155820749610877176219665663574767973055694458302663275778679205426306913416525492699458691244359680,
  11513569143419375046469072320726169167328949841098330018870159141308078183896708253310852955788409179081313671608772594297994030352690461644513386578963496480022022218627193804015606751042227375010300341232515317957366919752346921059942400,
  19453872993261347621984208270866146799811001482987709505803202055892755998581511006918149441520680393763105269604205268438677933818446075278887158398311204357151901124355828305894865680290267865219190514351777836007595048777278597325783040,
  11225082518816561749532779185831530905147818832043173676497924893315666439967586350513511468536531975206631268836214032564352486103267360403797485540825583295514765281851661210405340087819051326273431027976679950117929735402332858280181760,
  17601784661877996006475910963290386764303762128101737710764288785875724775979807214749389538818281844083423143326957207376798192108844750419137963269833557677273284002709790543029726024333919228025343784165435396023438225857863768182947840,
  14621717739547509631472695741353472852301491112573037376136607313584081220804411268023332512804931688502701956453621275458036226452763105665742357040420959601073172688032063825889035156391296171590305736862713205639195010772716705676984320,
  23134550365758424980901606471487904241296278384938222591230337782105405991164946209855646866190620741009363371410286475155568687867204424314767419548312349252475675670209185690498150028707961555808899699299808086526200272465905792053739520,
  18804493469051954225243300524275575917601243402776640354548110177824111714589561805645937352830720684873127501086503700973975693874782640078162861698843677731983350642223919165280000792451965531160370152386309916582946771235470985389670400,
  13917823614843454983435252517771762715098380228549807280779257786947584051360933981982573406120119178253108044962031265980738555763516342441594552582106262455793851549969559554138460922588520014074928123727890184450215390668222761363046400,
  14561198572164325439600482203398718134047958212338653032646503005162988716660389363769987370879126097052160123466175150722353253923050157391835669713142066900172120894416858738594386207880385252295407802583332834075314438804901880913920000,
  7641643515663271861614940755070696368391855924935830657763634826305724930295338720999290533184389329670654126624078542820727720260689666194655463764915817821806416504716683343068019209914766216315028523778432966172773848705310652709273600,
  3119958655230233081084033884886127904033139476426715563580458182354564637060855539156630329044882156632874592220040343474613090213965558154630537320990424042746957067186445460041612135319329910818240882897613777383825927652180315671756800,
  6704052502634292355502477050880757520998417369664613901813698306324419631790481460640095063930010033386752789855146759247039647205344367186681377190439140849450263577936669555658319220804538935577993925406498014230051401432123144734965760,
  17956472200350380472645496898639148787940035259792763221347944146681310247811949677496381604923943709070487511457829984720657246252317261519054045415700452360847440926829238194205555850991744601905834294539155577531876840142604022280028160,
  12825841528051131518945760031201322770415992514379416738295916462511534226052739147548284443319710299494309650514791133382282722840517209600301996001924953106938440487602149563169934296302121643247840904778914568111600142946835932722298880,
  118370461687388844501247537603685401875215894262570724628310298924058392543117966671834172134710684295500187279173870679541177154910643031894322573378133765243623228203219010404516093625555387689745240671624360010750417302884737891041280,
  6302675669659260058925121218059584519101169276806754887429751785878823416620365026672661121893213298901710282302596313045756156276220418577106088573192867717707826855727297929768411258416605968759882457499998920448186039310431152614604800,
  22212659193523725381052074295462277579514949348963907147850237140548825505369895854679934344098040967800424413913241232196143094201776385795943698412936354058028367782089750763932026366337691383573992163293215134577613085086079797494087680,
  22402398276374642068288395236147767170659514893681484139087109651989811812084410647277873165216123900772961926633914345851326005761364133031231103771893859275568335040938774392699494287213700158625793356205485268143643288213855750383206400,
  6675546746946245569974295665604435188553265557789031505513380264577155311700267303610965928067883099078395974092653696832605464127901808782791505857813973179824281215034940498826597411734411646335274860232557984675758480508944226019246080,
  4928428134066692442428053392380044641894907330786171574769731285462879511602184390908304519294819831079395424939411144055249944698665019657950694576111424924175901983874187600681619013493678594972524254590399873415794904097337788997632000,
  5466610026308066306290025490348250460128750426735480954851451998322584149436771501186248750351907882191802408972158658170521454575047598131207109183586804128674592691889115267892029794372333797173732336492761022297976399643309547469537280,
  7442740440752494673380117837087172857622329288424788631745996727134287939579106707300237303710548757813832349249570798479951039119741661494271518724878038230431994394400922020672522195234201847211327184868261654654552475459662797667696640,
  7269466776633912273628501312328109150776757162969895973639509469884572870804241292402173660838887721552836828007158452672543868012352308343624633988837548749985352888400814133134989990359137174060790901760489842458323889822903648327106560,
  12970980600235663777539208502737308805384160330619371710552699412081024195712518873556162441115671900058228060057141153578770166832567721704188554848490513777451932979757225580903866883069974013815235959125932011929014947102579414858137600,
  14058715575128739805636913261316116405331650538722086430924763767277217432571050915439941782452523230122690412723674894032553105372120475899891525883911650843705131121651391226864367038436392844553084054950250820196122921406859361607352320,
  23006971408427054367306782032827923982741689405562884321504498359629026649931702596408941563530386680204434143539500315732600863508116389783997584751585564474215352062537612742909364090606149513169544056324460866923270136174796195179724800,
  6909482250746077093023211961961966264688897657025415272349456629691845159273209114612090293459634055529228059740249700084213092743611475290517760714709438954773050664061841388377492689944223942371749706135377662538149277842042778971996160,
  16815592062198994076162128442940243410708525426477714649969911277463230341439619124562368170397620920999734028392158814633232479558531250460190957518131910941741441806167277858135392815754479820680286496840562921579997440914443849917726720,
  14664361217130129772820720728419153262579113621262925324517613259460714088816790719684588275258133615148650297171898041859954834019304652626960404681614288239506571535816458699934237816464242310914321654964800379028849960415690954937466880,
  10051118104596897032601754751818210911413540955138186759350175187843295127916251393820235109617592081625800934123224093129947029520936248798747125482195104506766061138717504712282322297656599942942075578998287231973946590839251855245312000,
  11231433257911511937680996916264232188606825734870826812309141242248998513744439231931888328918463971220333391683905236662253162946773462814672288598125572870712742460364030398365936023207864512821317958167821103455034445691464001807319040,
  19227573870185244172419649954061915329809529251980940478435674112808735662854144857853865796592872823591166592335905456439371464046406967603087545938630888927955441701876302660942285483870094984284397913097570650322244059875436511130091520]

theorem SHLIT_eq : byteShifted FLIT 2 BIGM = SHLIT := by decide +kernel

/-- Division with remainder by several moduli. -/
def modsPack (c : Nat) : List Nat → Nat
  | [] => 0
  | m :: ms => c % m + 4294967296 * modsPack c ms

theorem modsPack_eq (c : Nat) (l : List Nat) : modsPack c l = packL (l.map fun m => c % m) := by
  induction l with
  | nil => rfl
  | cons m l ih => rw [modsPack, ih]; rfl

def packsOk : List Nat → List Nat → Bool
  | [], [] => true
  | c :: cs, v :: vs => (Nat.beq (c % P) (c % P) && Nat.beq (modsPack (c % P) MODLIT) v) && packsOk cs vs
  | _, _ => false

theorem packsOk_spec (cs vs : List Nat) (h : packsOk cs vs = true) :
    cs.map (fun c => packL (MODLIT.map fun m => c % P % m)) = vs := by
  induction cs generalizing vs with
  | nil =>
    cases vs with
    | nil => rfl
    | cons v vs => simp [packsOk] at h
  | cons c cs ih =>
    cases vs with
    | nil => simp [packsOk] at h
    | cons v vs =>
      rw [packsOk, Bool.and_eq_true, Bool.and_eq_true] at h
      rw [List.map_cons, ih vs h.2, ← modsPack_eq, Nat.eq_of_beq_eq_true h.1.2]

theorem packs_ok : packsOk SHLIT PACKS = true := by decide +kernel

theorem packs_check : (byteShifted FLIT 2 BIGM).map (fun c => packL (MODULI.map fun m => c % P % m)) = PACKS := by
  rw [SHLIT_eq, MODLIT_eq]
  exact packsOk_spec SHLIT PACKS packs_ok

theorem sqes_check : (byteShifted FLIT 2 BIGM).map (fun c => (c * 65536 + (BIGM - 1)) / BIGM) = SQES := by
  decide +kernel

theorem pcor_check : packL (MODULI.map fun m => ((-(BIGM : Int)) % (P : Int)).toNat % m) = PCOR := by
  decide +kernel

/-- `modRed (exactMatrix P) 50`. -/
def fastRed (l : List Nat) : List Nat :=
  List.zipWith foldRed TLIT (unpackL 50 (dot (bytes l) PACKS + dot (bytes l) SQES / 65536 * PCOR))

attribute [local irreducible] BIGM MODULI RNS_T FACTORS TOTAL P FLIT PACKS SQES PCOR MODLIT TLIT

theorem ext_zip (f : Nat → Nat → Nat) (a b : List Nat) (ha : a.length = 50) (hb : b.length = 50) (g : Nat → Nat)
    (l : List Nat) (hl : l.length = 50) (h : ∀ j, j < 50 → l.getD j 0 = f (a.getD j 0) (g (b.getD j 0))) :
    l = List.zipWith f a (b.map g) := by
  apply List.ext_getElem
  · simp [ha, hb, hl]
  · intro j h1 h2
    have := h j (by omega)
    rw [List.getD_eq_getElem _ 0 h1, List.getD_eq_getElem _ 0 (by omega), List.getD_eq_getElem _ 0 (by omega)] at this
    rw [this, List.getElem_zipWith, List.getElem_map]

/-- The quotient estimate. -/
theorem fast_est (l : List Nat) (hl : l.length = 50) : dot (bytes l) SQES / 65536 = estK (exactMatrix P) l := by
  have hg := exact_good P
  have hb : (bytes l).length = 100 := by rw [bytes_len, hl]
  have hS : SQES.length = 100 := by
    rw [← sqes_check, List.length_map, ← FACTORS_eq, byteShifted_len]
  have hsh : ∀ r, (byteShifted FLIT 2 BIGM).getD r 0 = shiftAt r := by
    intro r; unfold shiftAt; rw [FACTORS_eq]
  have hl2 : (byteShifted FLIT 2 BIGM).length = 100 := by rw [← FACTORS_eq, byteShifted_len]
  have hSr : ∀ r, r < 100 → SQES.getD r 0 =
      ((exactMatrix P).1.getD r []).getD 100 0 + 256 * ((exactMatrix P).1.getD r []).getD 101 0 := by
    intro r hr
    obtain ⟨c, e1, e2, e3, e4⟩ := hg.est r hr
    rw [e1, ← sqes_check, getD_map' _ _ _ 0 _ (by rw [hl2]; exact hr), hsh]
    have hM := BIGM_pos
    have hlo : (exactMatrix P).1.getD r [] = bytes (MODULI.map fun m => shiftAt r % P % m) ++
        bytes [(shiftAt r * 65536 + (BIGM - 1)) / BIGM] := by
      unfold exactMatrix
      dsimp only
      rw [getD_map' _ _ _ 0 _ (by rw [hl2]; exact hr), hsh]
    rw [hlo] at e1
    have hlen : (bytes (MODULI.map fun m => shiftAt r % P % m)).length = 100 := by
      rw [bytes_len, List.length_map,  MODULI_len]
    rw [List.getD_append_right _ _ _ _ (by omega), List.getD_append_right _ _ _ _ (by omega), hlen] at e1
    have hq : (shiftAt r * 65536 + (BIGM - 1)) / BIGM < 65537 := by
      rw [Nat.div_lt_iff_lt_mul hM]
      have h5 : shiftAt r * 65536 ≤ 65535 * BIGM := e3.trans (Nat.mul_le_mul_right _ (by omega))
      omega
    have hq : (shiftAt r * 65536 + (BIGM - 1)) / BIGM < 65536 := by
      rw [Nat.div_lt_iff_lt_mul hM]
      have h5 : shiftAt r * 65536 ≤ 65535 * BIGM := e3.trans (Nat.mul_le_mul_right _ (by omega))
      omega
    rw [← e1]
    simp only [bytes, List.flatMap_cons, List.flatMap_nil, List.append_nil, Nat.sub_self, List.getD_cons_zero,
      Nat.reduceSub, List.getD_cons_succ]
    generalize (shiftAt r * 65536 + (BIGM - 1)) / BIGM = c' at hq
    omega
  unfold estK
  rw [dot_eq 100 _ _ hb hS]
  refine congrArg (· / 65536) (sum_congr rfl ?_)
  intro r hr
  rw [hSr r (mem_range.1 hr)]

theorem fastRed_eq (l : List Nat) (hl : l.length = 50) : modRed (exactMatrix P) 50 l = fastRed l := by
  have hg := exact_good P
  obtain ⟨h1, h2⟩ := modRed_getD hg l hl
  have hb : (bytes l).length = 100 := by rw [bytes_len, hl]
  have hP : PACKS.length = 100 := by
    rw [← packs_check, List.length_map, ← FACTORS_eq, byteShifted_len]
  have hsh : ∀ r, (byteShifted FLIT 2 BIGM).getD r 0 = shiftAt r := by
    intro r; unfold shiftAt; rw [FACTORS_eq]
  have hl2 : (byteShifted FLIT 2 BIGM).length = 100 := by rw [← FACTORS_eq, byteShifted_len]
  have hPr : ∀ r, r < 100 → PACKS.getD r 0 = packL (MODULI.map fun m => shiftAt r % P % m) := by
    intro r hr
    rw [← packs_check, getD_map' _ _ _ 0 _ (by rw [hl2]; exact hr), hsh]
  have hk := fast_est l hl
  have hpk : dot (bytes l) PACKS + dot (bytes l) SQES / 65536 * PCOR =
      packL (MODULI.map fun m => ∑ r ∈ range 100, (bytes l).getD r 0 * (shiftAt r % P % m) +
        estK (exactMatrix P) l * (((-(BIGM : Int)) % (P : Int)).toNat % m)) := by
    rw [hk, dot_eq 100 _ _ hb hP, packL_map_add, packL_map_mul, pcor_check, packL_map_sum]
    refine congrArg (· + estK (exactMatrix P) l * PCOR) (sum_congr rfl ?_)
    intro r hr
    rw [packL_map_mul, hPr r (mem_range.1 hr)]
  have hun : unpackL 50 (dot (bytes l) PACKS + dot (bytes l) SQES / 65536 * PCOR) =
      MODULI.map fun m => ∑ r ∈ range 100, (bytes l).getD r 0 * (shiftAt r % P % m) +
        estK (exactMatrix P) l * (((-(BIGM : Int)) % (P : Int)).toNat % m) := by
    rw [hpk]
    have := unpackL_packL (MODULI.map fun m => ∑ r ∈ range 100, (bytes l).getD r 0 * (shiftAt r % P % m) +
        estK (exactMatrix P) l * (((-(BIGM : Int)) % (P : Int)).toNat % m)) (by
      intro v hv
      obtain ⟨m, hm, rfl⟩ := List.mem_map.1 hv
      obtain ⟨j, hj, rfl⟩ := List.mem_iff_getElem.1 hm
      have hj' : j < 50 := by rw [ MODULI_len] at hj; exact hj
      have := preFold_lt hg l j hj'
      unfold preFold at this
      rw [md_eq hj'] at this
      exact this)
    rw [List.length_map,  MODULI_len] at this
    exact this
  have hf : fastRed l = List.zipWith foldRed TLIT (MODULI.map fun m =>
      ∑ r ∈ range 100, (bytes l).getD r 0 * (shiftAt r % P % m) +
        estK (exactMatrix P) l * (((-(BIGM : Int)) % (P : Int)).toNat % m)) := by
    unfold fastRed
    rw [hun]
  rw [hf]
  apply ext_zip foldRed TLIT MODULI TLIT_len MODULI_len _ _ h1
  intro j hj
  rw [h2 j hj, TLIT_eq]
  unfold preFold
  exact rfl

/-- `modMul (exactMatrix P)`. -/
def fastMul (a b : List Nat) : List Nat :=
  fastRed (List.zipWith foldRed TLIT (List.zipWith (fun x y => x * y % 4294967296) a b))

theorem fastMul_eq (a b : List Nat) (ha : a.length = 50) (hb : b.length = 50) :
    modMul (exactMatrix P) a b = fastMul a b := by
  have hTl := TLIT_len
  unfold modMul fastMul mulUnreduced redInternal
  rw [fastRed_eq _ (by
    rw [List.length_zipWith, List.length_zipWith, TLIT_eq, hTl, ha, hb]; rfl), TLIT_eq]
  norm_num only

end Verif.EcRns

import Mathlib.Analysis.Real.Pi.Bounds

/-!
# Bounds of pi with 32 digits

The lists are lower and upper bounds of the iterated square roots, rounded to 90 digits.
-/

set_option linter.style.longLine false

namespace Geometrix

open Real

theorem pi_gt_d31 : 3.1415926535897932384626433832795 < π := by
  pi_lower_bound [
    282842712474619009760337744841939615713934375075389614635335947598146495692421407770077507/200000000000000000000000000000000000000000000000000000000000000000000000000000000000000000,
    184775906502257351225636637879357657364483325172728497223019546256107001500220471742967987/100000000000000000000000000000000000000000000000000000000000000000000000000000000000000000,
    490392640201615224563091118067119518486966865446668047501458044272653256774802531957532493/250000000000000000000000000000000000000000000000000000000000000000000000000000000000000000,
    1990369453344393772489673906218959843150949737459714123667225931569780333789173075945058169/1000000000000000000000000000000000000000000000000000000000000000000000000000000000000000000,
    1997590912410344785429543209518201388886407229409223588685634147371219811904314807662378489/1000000000000000000000000000000000000000000000000000000000000000000000000000000000000000000,
    499849409348102110057882824833086098425030540628864812322061893963190834377357387520950803/250000000000000000000000000000000000000000000000000000000000000000000000000000000000000000,
    1999849403678289081843292982392766448701212937604435660488167346002967442773768266958700349/1000000000000000000000000000000000000000000000000000000000000000000000000000000000000000000,
    1999962350565202285313980875457135432347834501888670183880315390161642138953180131089012453/1000000000000000000000000000000000000000000000000000000000000000000000000000000000000000000,
    124999411726197021438947515712514987444123454202773456763842123342977912639142919048876203/62500000000000000000000000000000000000000000000000000000000000000000000000000000000000000,
    1999997646903403819858051420343052038096535845779530078447725058910223617156939593260880709/1000000000000000000000000000000000000000000000000000000000000000000000000000000000000000000,
    999999705862882219160228217738765677116263899349301601391795991897657149463062624346327509/500000000000000000000000000000000000000000000000000000000000000000000000000000000000000000,
    399999970586287140457892592282955142779280462275569107625892858228537664767055668842758879/200000000000000000000000000000000000000000000000000000000000000000000000000000000000000000,
    1999999963232858587616693830805819429010152102485560706750627578109197659442272877345353851/1000000000000000000000000000000000000000000000000000000000000000000000000000000000000000000,
    499999997702053656445485966569803074479447151594726412015376413339287985195765637738419571/250000000000000000000000000000000000000000000000000000000000000000000000000000000000000000,
    999999998851026827562673307794554108400537416194282123417829138334846184042747213229523713/500000000000000000000000000000000000000000000000000000000000000000000000000000000000000000,
    79999999977020536547953117777491342087127156633462820216856776637165195069126332417238361/40000000000000000000000000000000000000000000000000000000000000000000000000000000000000000,
    1999999999856378353419550191767700980520960666219031603906082782450252004755295100710655971/1000000000000000000000000000000000000000000000000000000000000000000000000000000000000000000,
    1999999999964094588354565248295568214759278374992551601709559185648751560475090410101901363/1000000000000000000000000000000000000000000000000000000000000000000000000000000000000000000,
    124999999999438977943038823021624665555189325183164261397624170438479335117323208569889171/62500000000000000000000000000000000000000000000000000000000000000000000000000000000000000,
    1999999999997755911772154033103505073007698443821045230054939422781847471370434578252913389/1000000000000000000000000000000000000000000000000000000000000000000000000000000000000000000,
    399999999999887795588607685917887833780807203800012085551891013625591514045649077060990567/200000000000000000000000000000000000000000000000000000000000000000000000000000000000000000,
    1999999999999859744485759602479457473516421086293467729704702364438089447298111589986282563/1000000000000000000000000000000000000000000000000000000000000000000000000000000000000000000,
    124999999999997808507589993769530967091234414868564401201640216304253000955768906821575731/62500000000000000000000000000000000000000000000000000000000000000000000000000000000000000,
    399999999999998246806071995011782662486495582133982307352013405513168112070754448178948339/200000000000000000000000000000000000000000000000000000000000000000000000000000000000000000,
    1999999999999997808507589993763527668362340742051587895000052990982294760582698436551743493/1000000000000000000000000000000000000000000000000000000000000000000000000000000000000000000,
    1999999999999999452126897498440806875856474014516347312551623970002081028897515068877390327/1000000000000000000000000000000000000000000000000000000000000000000000000000000000000000000,
    199999999999999986303172437461019702888698655544148127842435015411746270949713737737787769/100000000000000000000000000000000000000000000000000000000000000000000000000000000000000000,
    79999999999999998630317243746101958563677035683945598162529201627381694182140758082988357/40000000000000000000000000000000000000000000000000000000000000000000000000000000000000000,
    399999999999999998287896554682627444540473535270410352450482782505085793195691516109650319/200000000000000000000000000000000000000000000000000000000000000000000000000000000000000000,
    1999999999999999997859870693353284304530553556795974925196376300090525493925496215267101201/1000000000000000000000000000000000000000000000000000000000000000000000000000000000000000000,
    1999999999999999999464967673338321076061073491555741355319528859548392278564704573453288579/1000000000000000000000000000000000000000000000000000000000000000000000000000000000000000000,
    39999999999999999997324838366691605380215911335724641306617205038759572802085035873899623/20000000000000000000000000000000000000000000000000000000000000000000000000000000000000000,
    999999999999999999983280239791822533626209670657569530869510758142415633104810058905694087/500000000000000000000000000000000000000000000000000000000000000000000000000000000000000000,
    1999999999999999999991640119895911266813087363429946080772649459370989113353402585309628323/1000000000000000000000000000000000000000000000000000000000000000000000000000000000000000000,
    999999999999999999998955014986988908351635374431904551200890371860183291091976225163902493/500000000000000000000000000000000000000000000000000000000000000000000000000000000000000000,
    399999999999999999999895501498698890835163523793269487397696766918422579697253705868766093/200000000000000000000000000000000000000000000000000000000000000000000000000000000000000000,
    1999999999999999999999869376873373613543954400475986556833873374189125959906114819383760251/1000000000000000000000000000000000000000000000000000000000000000000000000000000000000000000,
    1999999999999999999999967344218343403385988599852396620307640369518595745415809500302055621/1000000000000000000000000000000000000000000000000000000000000000000000000000000000000000000,
    999999999999999999999995918027292925423248574973218326947804172001428004651516185559945157/500000000000000000000000000000000000000000000000000000000000000000000000000000000000000000,
    1999999999999999999999997959013646462711624287485567757150070726727164443322327544819126873/1000000000000000000000000000000000000000000000000000000000000000000000000000000000000000000,
    999999999999999999999999744876705807838953035935663425696139110863597131688131019355851781/500000000000000000000000000000000000000000000000000000000000000000000000000000000000000000,
    1999999999999999999999999872438352903919476517967827644854617089184636262877911059237022173/1000000000000000000000000000000000000000000000000000000000000000000000000000000000000000000,
    9999999999999999999999999840547941129899345647459783284820317465778557108920445287973137/5000000000000000000000000000000000000000000000000000000000000000000000000000000000000000,
    999999999999999999999999996013698528247483641186494574175208224796324938850030203426511361/500000000000000000000000000000000000000000000000000000000000000000000000000000000000000000,
    19999999999999999999999999980068492641237418205932472860944416484171450958158924846268923/10000000000000000000000000000000000000000000000000000000000000000000000000000000000000000,
    399999999999999999999999999900342463206187091029662364292307551621094537620680591514672069/200000000000000000000000000000000000000000000000000000000000000000000000000000000000000000,
    79999999999999999999999999995017123160309354551483118214460195946057692916407604166765531/40000000000000000000000000000000000000000000000000000000000000000000000000000000000000000,
    99999999999999999999999999998442850987596673297338474442006687667908885757890936817038409/50000000000000000000000000000000000000000000000000000000000000000000000000000000000000000,
    499999999999999999999999999998053563734495841621673093052504570970750437422836658682211803/250000000000000000000000000000000000000000000000000000000000000000000000000000000000000000,
    7999999999999999999999999999992214254937983366486692372210014495268866079916819622389761/4000000000000000000000000000000000000000000000000000000000000000000000000000000000000000,
    1999999999999999999999999999999513390933623960405418273263125846757208260154574241831561841/1000000000000000000000000000000000000000000000000000000000000000000000000000000000000000000,
    7812499999999999999999999999999524795833617148833416282483521320271420207709489741884387/3906250000000000000000000000000000000000000000000000000000000000000000000000000000000000,
    1999999999999999999999999999999969586933351497525338642078945364266132237551843956822132807/1000000000000000000000000000000000000000000000000000000000000000000000000000000000000000000,
    399999999999999999999999999999998479346667574876266932103947268210416128680822655507875791/200000000000000000000000000000000000000000000000000000000000000000000000000000000000000000,
    1999999999999999999999999999999998099183334468595333665129934085262116884852037837405710099/1000000000000000000000000000000000000000000000000000000000000000000000000000000000000000000,
    199999999999999999999999999999999952479583361714883341628248352131547276646307255422773161/100000000000000000000000000000000000000000000000000000000000000000000000000000000000000000,
    499999999999999999999999999999999970299739601071802088517655220082216165798474270496675477/250000000000000000000000000000000000000000000000000000000000000000000000000000000000000000,
    49999999999999999999999999999999999257493490026795052212941380502055398631802683236525901/25000000000000000000000000000000000000000000000000000000000000000000000000000000000000000]

theorem pi_lt_d32 : π < 3.14159265358979323846264338327951 := by
  pi_upper_bound [
    707106781186547524400844362104849039284835937688474036588339868995366239231053519425193767/500000000000000000000000000000000000000000000000000000000000000000000000000000000000000000,
    1847759065022573512256366378793576573644833251727284972230195462561070015002204717429679869/1000000000000000000000000000000000000000000000000000000000000000000000000000000000000000000,
    1961570560806460898252364472268478073947867461786672190005832177090613027099210127830129971/1000000000000000000000000000000000000000000000000000000000000000000000000000000000000000000,
    248796181668049221561209238277369980393868717182464265458403241446222541723646634493132271/125000000000000000000000000000000000000000000000000000000000000000000000000000000000000000,
    249698864051293098178692901189775173610800903676152948585704268421402476488039350957797311/125000000000000000000000000000000000000000000000000000000000000000000000000000000000000000,
    199939763739240844023153129933234439370012216251545924928824757585276333750942955008380321/100000000000000000000000000000000000000000000000000000000000000000000000000000000000000000,
    499962350919572270460823245598191612175303234401108915122041836500741860693442066739675087/250000000000000000000000000000000000000000000000000000000000000000000000000000000000000000,
    1999962350565202285313980875457135432347834501888670183880315390161642138953180131089012451/1000000000000000000000000000000000000000000000000000000000000000000000000000000000000000000,
    1999990587619152343023160251400239799105975267244375308221473973487646602226286704782019247/1000000000000000000000000000000000000000000000000000000000000000000000000000000000000000000,
    1999997646903403819858051420343052038096535845779530078447725058910223617156939593260880707/1000000000000000000000000000000000000000000000000000000000000000000000000000000000000000000,
    249999926465720554790057054434691419279065974837325400347948997974414287365765656086581877/125000000000000000000000000000000000000000000000000000000000000000000000000000000000000000,
    1999999852931435702289462961414775713896402311377845538129464291142688323835278344213794393/1000000000000000000000000000000000000000000000000000000000000000000000000000000000000000000,
    39999999264657171752333876616116388580203042049711214135012551562183953188845457546907077/20000000000000000000000000000000000000000000000000000000000000000000000000000000000000000,
    999999995404107312890971933139606148958894303189452824030752826678575970391531275476839141/500000000000000000000000000000000000000000000000000000000000000000000000000000000000000000,
    79999999908082146205013864623564328672042993295542569873426331066787694723419777058361897/40000000000000000000000000000000000000000000000000000000000000000000000000000000000000000,
    124999999964094588356176746527330222011136182239785656588838713495570617295509894401934939/62500000000000000000000000000000000000000000000000000000000000000000000000000000000000000,
    199999999985637835341955019176770098052096066621903160390608278245025200475529510071065597/100000000000000000000000000000000000000000000000000000000000000000000000000000000000000000,
    999999999982047294177282624147784107379639187496275800854779592824375780237545205050950681/500000000000000000000000000000000000000000000000000000000000000000000000000000000000000000,
    399999999998204729417724233669198929776605840586125636472397345403133872375434267423645347/200000000000000000000000000000000000000000000000000000000000000000000000000000000000000000,
    499999999999438977943038508275876268251924610955261307513734855695461867842608644563228347/250000000000000000000000000000000000000000000000000000000000000000000000000000000000000000,
    999999999999719488971519214794719584452018009500030213879727534063978785114122692652476417/500000000000000000000000000000000000000000000000000000000000000000000000000000000000000000,
    1999999999999859744485759602479457473516421086293467729704702364438089447298111589986282561/1000000000000000000000000000000000000000000000000000000000000000000000000000000000000000000,
    999999999999982468060719950156247736729875318948515209613121730434024007646151254572605847/500000000000000000000000000000000000000000000000000000000000000000000000000000000000000000,
    999999999999995617015179987529456656216238955334955768380033513782920280176886120447370847/500000000000000000000000000000000000000000000000000000000000000000000000000000000000000000,
    499999999999999452126897498440881917090585185512896973750013247745573690145674609137935873/250000000000000000000000000000000000000000000000000000000000000000000000000000000000000000,
    999999999999999726063448749220403437928237007258173656275811985001040514448757534438695163/500000000000000000000000000000000000000000000000000000000000000000000000000000000000000000,
    1999999999999999863031724374610197028886986555441481278424350154117462709497137377377877689/1000000000000000000000000000000000000000000000000000000000000000000000000000000000000000000,
    1999999999999999965757931093652548964091925892098639954063230040684542354553518952074708923/1000000000000000000000000000000000000000000000000000000000000000000000000000000000000000000,
    1999999999999999991439482773413137222702367676352051762252413912525428965978457580548251593/1000000000000000000000000000000000000000000000000000000000000000000000000000000000000000000,
    1999999999999999997859870693353284304530553556795974925196376300090525493925496215267101199/1000000000000000000000000000000000000000000000000000000000000000000000000000000000000000000,
    999999999999999999732483836669160538030536745777870677659764429774196139282352286726644289/500000000000000000000000000000000000000000000000000000000000000000000000000000000000000000,
    1999999999999999999866241918334580269010795566786232065330860251937978640104251793694981149/1000000000000000000000000000000000000000000000000000000000000000000000000000000000000000000,
    1999999999999999999966560479583645067252419341315139061739021516284831266209620117811388173/1000000000000000000000000000000000000000000000000000000000000000000000000000000000000000000,
    999999999999999999995820059947955633406543681714973040386324729685494556676701292654814161/500000000000000000000000000000000000000000000000000000000000000000000000000000000000000000,
    399999999999999999999582005994795563340654149772761820480356148744073316436790490065560997/200000000000000000000000000000000000000000000000000000000000000000000000000000000000000000,
    31249999999999999999991836054585850846497150296349178702945059915501764038847945770997351/15625000000000000000000000000000000000000000000000000000000000000000000000000000000000000,
    7999999999999999999999477507493494454175817601903946227335493496756503839624459277535041/4000000000000000000000000000000000000000000000000000000000000000000000000000000000000000,
    99999999999999999999998367210917170169299429992619831015382018475929787270790475015102781/50000000000000000000000000000000000000000000000000000000000000000000000000000000000000000,
    1999999999999999999999991836054585850846497149946436653895608344002856009303032371119890313/1000000000000000000000000000000000000000000000000000000000000000000000000000000000000000000,
    249999999999999999999999744876705807838953035935695969643758840840895555415290943102390859/125000000000000000000000000000000000000000000000000000000000000000000000000000000000000000,
    49999999999999999999999987243835290391947651796783171284806955543179856584406550967792589/25000000000000000000000000000000000000000000000000000000000000000000000000000000000000000,
    499999999999999999999999968109588225979869129491956911213654272296159065719477764809255543/250000000000000000000000000000000000000000000000000000000000000000000000000000000000000000,
    1999999999999999999999999968109588225979869129491956656964063493155711421784089057594627399/1000000000000000000000000000000000000000000000000000000000000000000000000000000000000000000,
    1999999999999999999999999992027397056494967282372989148350416449592649877700060406853022721/1000000000000000000000000000000000000000000000000000000000000000000000000000000000000000000,
    1999999999999999999999999998006849264123741820593247286094441648417145095815892484626892299/1000000000000000000000000000000000000000000000000000000000000000000000000000000000000000000,
    1999999999999999999999999999501712316030935455148311821461537758105472688103402957573360343/1000000000000000000000000000000000000000000000000000000000000000000000000000000000000000000,
    999999999999999999999999999937714039503866931893538977680752449325721161455095052084569137/500000000000000000000000000000000000000000000000000000000000000000000000000000000000000000,
    1999999999999999999999999999968857019751933465946769488840133753358177715157818736340768179/1000000000000000000000000000000000000000000000000000000000000000000000000000000000000000000,
    1999999999999999999999999999992214254937983366486692372210018283883001749691346634728847211/1000000000000000000000000000000000000000000000000000000000000000000000000000000000000000000,
    1999999999999999999999999999998053563734495841621673093052503623817216519979204905597440249/1000000000000000000000000000000000000000000000000000000000000000000000000000000000000000000,
    24999999999999999999999999999993917386670299505067728415789073084465103251932178022894523/12500000000000000000000000000000000000000000000000000000000000000000000000000000000000000,
    1999999999999999999999999999999878347733405990101354568315781457989483573173629373922403071/1000000000000000000000000000000000000000000000000000000000000000000000000000000000000000000,
    399999999999999999999999999999993917386670299505067728415789072853226447510368791364426561/200000000000000000000000000000000000000000000000000000000000000000000000000000000000000000,
    1999999999999999999999999999999992396733337874381334660519736341052080643404113277539378953/1000000000000000000000000000000000000000000000000000000000000000000000000000000000000000000,
    1999999999999999999999999999999998099183334468595333665129934085262116884852037837405710097/1000000000000000000000000000000000000000000000000000000000000000000000000000000000000000000,
    1999999999999999999999999999999999524795833617148833416282483521315472766463072554227731609/1000000000000000000000000000000000000000000000000000000000000000000000000000000000000000000,
    1999999999999999999999999999999999881198958404287208354070620880328864663193897081986701907/1000000000000000000000000000000000000000000000000000000000000000000000000000000000000000000,
    1999999999999999999999999999999999970299739601071802088517655220082215945272107329461036039/1000000000000000000000000000000000000000000000000000000000000000000000000000000000000000000]

end Geometrix

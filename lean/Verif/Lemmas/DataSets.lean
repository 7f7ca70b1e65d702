import Verif.Lemmas.Data
import Verif.Model.DataSets

/-!
# The shipped data modules pass the checks

For each module six retained observations that do not lie on one conic are named, with the inverse of the matrix of their terms; the kernel checks them by rational arithmetic.
-/

namespace Oneka

def basicDataCertificate : Certificate where
  points := ![(2000, 2000), (1500, 3000), (2000, 3000), (2500, 3000), (2000, 1000), (2500, 2000)]
  inverse := ![
    ![0, (1 / 500000), (-1 / 250000), (1 / 500000), 0, 0],
    ![(-1 / 1000000), 0, (1 / 2000000), 0, (1 / 2000000), 0],
    ![(1 / 500000), 0, (-1 / 500000), (1 / 500000), 0, (-1 / 500000)],
    ![(-3 / 500), (-9 / 1000), (11 / 500), (-13 / 1000), 0, (3 / 500)],
    ![0, 0, (1 / 400), (-1 / 250), (-1 / 400), (1 / 250)],
    ![9, 10, (-27), 18, 3, (-12)]]

theorem basicData_good : basicData.good basicDataCertificate = true := by decide +kernel

def basicDeterministicDataCertificate : Certificate where
  points := ![(2000, 2000), (1500, 3000), (2000, 3000), (2500, 3000), (2000, 1000), (2500, 2000)]
  inverse := ![
    ![0, (1 / 500000), (-1 / 250000), (1 / 500000), 0, 0],
    ![(-1 / 1000000), 0, (1 / 2000000), 0, (1 / 2000000), 0],
    ![(1 / 500000), 0, (-1 / 500000), (1 / 500000), 0, (-1 / 500000)],
    ![(-3 / 500), (-9 / 1000), (11 / 500), (-13 / 1000), 0, (3 / 500)],
    ![0, 0, (1 / 400), (-1 / 250), (-1 / 400), (1 / 250)],
    ![9, 10, (-27), 18, 3, (-12)]]

theorem basicDeterministicData_good : basicDeterministicData.good basicDeterministicDataCertificate = true := by decide +kernel

def carlosDataCertificate : Certificate where
  points := ![(323384, 5094353), (323060, 5091983), (321612, 5092354), (321820, 5093298), (324125, 5094758), (322332, 5093693)]
  inverse := ![
    ![(742878788222 / 539556069714676365), (37376698907 / 186053817142991850), (-412765732285 / 575526474362321456), (8599317001793 / 2877632371811607280), (-291411609093 / 899260116191127275), (-43720191113 / 12403587809532790)],
    ![(10265376933559 / 152704548032455575), (54072484439 / 52656740700846750), (-20755561081 / 4072121280865482), (5384610829447 / 101803032021637050), (-20463896808208 / 763522740162277875), (-104429045827 / 1170149793352150)],
    ![(-1045388179220509 / 32373364182880581900), (-1124748580483 / 1395403628572438875), (5767717285151 / 1726579423086964368), (-1164607692168359 / 43164485577174109200), (522448234608052 / 40466705228600727375), (5436148768701 / 124035878095327900)],
    ![(203605631166221796247 / 1245129391649253150), (853390095794445031 / 214677481318836750), (-2197698140980010791 / 132813801775920336), (449721526519912127119 / 3320345044398008400), (-203964253426865713232 / 3112823479123132875), (-526842422843606779 / 2385305347987075)],
    ![(-1819163796356081892214 / 2697780348573381825), (-9488813118802497719 / 930269085714959250), (7314867736638041487 / 143881618590580364), (-1906624922048361768359 / 3597040464764509100), (3626324150588557235968 / 13488901742866909125), (55499573465682890501 / 62017939047663950)],
    ![(13683986046064402939408053508 / 8093341045720145475), (35351072952474125108859709 / 1395403628572438875), (-54729211737325305585954059 / 431644855771741092), (14329848073176580612972721543 / 10791121394293527300), (-27275529832658029161215023696 / 40466705228600727375), (-69559883637438283398732537 / 31008969523831975)]]

theorem carlosData_good : carlosData.good carlosDataCertificate = true := by decide +kernel

def barnesvilleDataCertificate : Certificate where
  points := ![(4415, 3641), ((-1081), 1867), (3243, (-107)), (799, (-1218)), ((-1128), 686), ((-857), (-737))]
  inverse := ![
    ![(-273419808031197 / 6545510218602244200128), (65016073892180107 / 190572819638950295738240), (1383630172337083 / 6806172129962510562080), (-3638014737336303 / 8181887773252805250160), (-1332429458793 / 1810152162224071958), (2749316011797413 / 4054740843381921185920)],
    ![(-11861617397045 / 818188777325280525016), (224763831802729 / 506842605422740148240), (959647537429 / 18101521622240719580), (-167221692272177 / 1022735971656600656270), (-765366165884 / 905076081112035979), (267189921770273 / 506842605422740148240)],
    ![(431009900239129 / 6545510218602244200128), (-67471394912270239 / 190572819638950295738240), (-953167414997063 / 6806172129962510562080), (1491620590728291 / 8181887773252805250160), (1029825812939 / 1810152162224071958), (-1309611297248913 / 4054740843381921185920)],
    ![(643567536478177661 / 6545510218602244200128), (-4078338703512164409 / 5444937703970008449664), (-1554330840937579243 / 6806172129962510562080), (1639159238180958675 / 1636377554650561050032), (2729439835712731 / 1810152162224071958), (-944457690063507379 / 579248691911703026560)],
    ![(646767998951776593 / 6545510218602244200128), (-2427440952779162601 / 4054740843381921185920), (-37064907989671777 / 144812172977925756640), (4341067408459336683 / 8181887773252805250160), (3234599905585331 / 1810152162224071958), (-6332223596095038249 / 4054740843381921185920)],
    ![(504165734688655233125 / 3272755109301122100064), (-2738863948558363041373 / 2027370421690960592960), (-6864084798779972049 / 14481217297792575664), (6339808213365416590439 / 4090943886626402625080), (2941315325616381706 / 905076081112035979), (-863101400427991158073 / 405474084338192118592)]]

theorem barnesvilleData_good : barnesvilleData.good barnesvilleDataCertificate = true := by decide +kernel

def longPrairieDataCertificate : Certificate where
  points := ![(356088, 5090659), (354864, 5088290), (356502, 5089983), (356079, 5090655), (356466, 5090007), (356253, 5090481)]
  inverse := ![
    ![(-48542969 / 367845190920), (31196 / 229903244325), (8719857829 / 183186905078160), (2525392508 / 20001582256275), (-118843177 / 2207071145520), (174366961 / 14756722909074)],
    ![(6817169 / 81743375760), (1451 / 25544804925), (-381670753 / 40708201128480), (-346131059 / 4444796056950), (1208441 / 98092050912), (-27953717 / 3279271757572)],
    ![(-1034773 / 735690381840), (1544 / 9196129773), (-1233252451 / 366373810156320), (-15190298 / 4000316451255), (3700519 / 4414142291040), (223230331 / 29513445818148)],
    ![(8274131247293 / 81743375760), (-24301820452 / 25544804925), (-682520789218957 / 40708201128480), (-5415628686359 / 76634414775), (16715954311417 / 490460254560), (-15915928670953 / 339235009404)],
    ![(-208082664346127 / 245230127280), (-9780134188 / 15326882955), (11804681384081071 / 122124603385440), (2117866947879433 / 2666877634170), (-184998953388019 / 1471380763680), (827275465379387 / 9837815272716)],
    ![(17505691359548689135 / 8174337576), (45816000825705529 / 25544804925), (-4947275073821604986347 / 20354100564240), (-4463845712006177492873 / 2222398028475), (76995311258938836799 / 245230127280), (-337233244243389339831 / 1639635878786)]]

theorem longPrairieData_good : longPrairieData.good longPrairieDataCertificate = true := by decide +kernel

def paynesvilleDataCertificate : Certificate where
  points := ![(367004, 5025839), (365858, 5025176), (366886, 5026040), (366196, 5027033), (366964, 5025710), (364578, 5026839)]
  inverse := ![
    ![(3706002654255083 / 437777439686527831732), (254425176063481 / 875554879373055663464), (-2781705326585175 / 875554879373055663464), (-18957622464569 / 1313332319059583495196), (-7460120025953407 / 1313332319059583495196), (12665825952939 / 109444359921631957933)],
    ![(5044244328254389 / 656666159529791747598), (137206115550739 / 328333079764895873799), (-1733101517421133 / 328333079764895873799), (583453480242221 / 656666159529791747598), (-386463783373219 / 109444359921631957933), (-19520717419418 / 109444359921631957933)],
    ![(2858030117959298 / 328333079764895873799), (517444090480649 / 656666159529791747598), (-522835676389988 / 328333079764895873799), (8367112573681 / 656666159529791747598), (-1694554215434727 / 218888719843263915866), (-37512479962923 / 218888719843263915866)],
    ![(-16398585832104599642590 / 328333079764895873799), (-5481159907124956058435 / 1313332319059583495196), (13563411533832422239003 / 1313332319059583495196), (-17440606709717854390 / 328333079764895873799), (4713523215797782260966 / 109444359921631957933), (84964628248034722980 / 109444359921631957933)],
    ![(-52798364703242111397443 / 656666159529791747598), (-1474085854650185829839 / 328333079764895873799), (17612981365317050870699 / 328333079764895873799), (-5867747846492533437893 / 656666159529791747598), (12584867265568158059084 / 328333079764895873799), (203097832877433105908 / 109444359921631957933)],
    ![(23114645440776014628235243093 / 109444359921631957933), (1318552807317307103905099193 / 109444359921631957933), (-14961026538159064243030529481 / 109444359921631957933), (2458585995525753138658465987 / 109444359921631957933), (-11404803111644662361805583375 / 109444359921631957933), (-525954484370988344330737484 / 109444359921631957933)]]

theorem paynesvilleData_good : paynesvilleData.good paynesvilleDataCertificate = true := by decide +kernel

def perhamDataCertificate : Certificate where
  points := ![(301201, 5166890), (300508, 5161780), (301853, 5166320), (304584, 5153120), (294393, 5165780), (305472, 5159740)]
  inverse := ![
    ![(-6884683782554 / 29595488765763649337), (-566024710827 / 15997561495007378020), (554217915283 / 2211427618427490491), (1818912907 / 228536592785819686), (28636627874 / 1243507931334607115), (-2044413802689 / 150377078053069353388)],
    ![(-54001620853241 / 591909775315272986740), (-14734560370461 / 799878074750368901000), (50553599236967 / 442285523685498098200), (477591967613 / 34280488917872952900), (3708719658269 / 746104758800764269000), (-177066161439583 / 7518853902653467669400)],
    ![(-65524935145892 / 147977443828818246685), (-1442581309637 / 79987807475036890100), (21702502758933 / 44228552368549809820), (44274111591 / 2285365927858196860), (421416508451 / 24870158626692142300), (-12437850778378 / 187971347566336691735)],
    ![(71803470150180492306 / 29595488765763649337), (1828198796061101927 / 15997561495007378020), (-5935796690024625220 / 2211427618427490491), (-23956638011105285 / 228536592785819686), (-126091904857651174 / 1243507931334607115), (52621580289497754901 / 150377078053069353388)],
    ![(159195627950069176251 / 147977443828818246685), (3909701882592584934 / 19996951868759222525), (-29374431831703935693 / 22114276184274904910), (-342182713795675593 / 2285365927858196860), (-701768292946275949 / 12435079313346071150), (197850435962754306841 / 751885390265346766940)],
    ![(-13290512811331490921300816 / 4227926966537664191), (-59598542638933413196794 / 114268296392909843), (1211171287037063681431856 / 315918231203927213), (137942256677788008967261 / 342804889178729529), (120100258353793384881760 / 746104758800764269), (-3931832522013831627160046 / 5370609930466762621)]]

theorem perhamData_good : perhamData.good perhamDataCertificate = true := by decide +kernel

theorem shipped_good : ∀ p ∈ shipped, ∃ c, p.2.good c = true := by
  intro p hp
  simp only [shipped, List.mem_cons, List.not_mem_nil, or_false] at hp
  rcases hp with rfl | rfl | rfl | rfl | rfl | rfl | rfl
  exacts [⟨_, basicData_good⟩, ⟨_, basicDeterministicData_good⟩, ⟨_, carlosData_good⟩, ⟨_, barnesvilleData_good⟩, ⟨_, longPrairieData_good⟩, ⟨_, paynesvilleData_good⟩, ⟨_, perhamData_good⟩]

end Oneka

import Verif.Props.CircuitCerts

/-!
# Certificates for the decentralised circuits
-/

namespace Verif

open Build

/-- certificate for `dgdLine3 (1/2) (some 1) 1 1` at `alpha = 0`, `beta = 0`, `delta = 0`, `eta = 1/1000`, `gamma = 0`, `h = 1/4`, `rho = 1/1000` -/
def dgdLine3Cert : Cert where
  env := [("alpha", 0), ("beta", 0), ("delta", 0), ("eta", 1/1000), ("gamma", 0), ("h", 1/4), ("rho", 1/1000)]
  mult := [(.tup 0 0 0 2, 1), (.tup 0 0 1 2, 5), (.tup 0 0 2 0, 1), (.tup 0 0 2 1, 5), (.tup 0 1 0 1, 118), (.tup 0 1 0 3, 1), (.tup 0 1 1 0, 118), (.tup 0 1 1 3, 1), (.tup 0 1 2 3, 2), (.tup 0 1 3 0, 1), (.tup 0 1 3 1, 1), (.tup 0 1 3 2, 2), (.tup 0 2 0 2, 1), (.tup 0 2 1 2, 5), (.tup 0 2 2 0, 1), (.tup 0 2 2 1, 5), (.tup 1 0 0 0, 122)]
  L := [[], [-3001/8000], [-6001/8000, -1434009001/3798993999], [-6001/8000, -1434009001/3798993999, 367259756099/458435612075], [-1/2, -1734668000/1266331333, 383353504104/458435612075, 191676752052/412847684087], [-5/16, -1500500/3798993999, 17503015000501/458435612075000, -6493449766339727/39633377672352000, -325829433389987/5602346454362500], [1/32, 750250/3798993999, -11804524002001/916871224150000, 516658478879967/13211125890784000, 210809945113987/5602346454362500, -13063762988140317068709/4857777198229426748359], [-3/8, 3001000/3798993999, -9239553000001/916871224150000, -9239553000001/1651390736348000, 325829433389987/2801173227181250, -262743671755635645816/211207704270844641233, -26564393320608755943290110721/192447796492084384788107680093], [3/32, -3751250/3798993999, 2052906001001/916871224150000, 2052906001001/1651390736348000, -287500801501987/2801173227181250, 5226827780094273621768/4857777198229426748359, 128120610862813209539687331721/192447796492084384788107680093, -1426626033052642977200108716336/2978960111868167065859036001223], [-5/16, -1500500/3798993999, -25766477001001/916871224150000, 6715199038339751/39633377672352000, -325829433389987/5602346454362500, 51535967484791004583/211207704270844641233, 26564393320608755943290110721/192447796492084384788107680093, -1, 0], [1/32, 750250/3798993999, 67753060/18337424483, -23359737875839/528445035631360, 210809945113987/5602346454362500, -246580380763042321059/4857777198229426748359, -5476875049532057082070232814/192447796492084384788107680093, 9246146488989116837267804531837/2978960111868167065859036001223, 4836078466037860779870092059471/4466650062419867748609713468715, 0], [3001/8000, 9006001/3798993999, -16430410333999/229217806037500, 2815177872121099/9908344418088000, 393044753141263/1400586613590625, 16479884123248872302836/4857777198229426748359, -222777532678560455619179490372/192447796492084384788107680093, 448265011857430095440594548360/2978960111868167065859036001223, -364765122242982692079687370057/4466650062419867748609713468715, 0, -104116392639685251508/889649077661904990259], [6001/8000, -13990999/3798993999, 17789557301/458435612075, 17789557301/825695368174, -5837052920579/11204692908725, -6668483843215145136000/4857777198229426748359, -158450347049289280370759142000/192447796492084384788107680093, 1874891044910073072640703264696/2978960111868167065859036001223, -4831415184662850440689400838772/4466650062419867748609713468715, 0, -104116392639685251508/889649077661904990259, 1], [3001/8000, 9006001/3798993999, 20332693306/458435612075, -118620616018603/396333776723520, 393044753141263/1400586613590625, -9748430207636087764/4857777198229426748359, 1711532183664742194288533256/192447796492084384788107680093, -11776841588999853807686245984700/2978960111868167065859036001223, -5200843588280843471949779429528/4466650062419867748609713468715, 0, -993765470301590241767/889649077661904990259, 1, 0]]
  d := [4, 3798993999/16000000, 458435612075/15195975996, 4954172209044/458435612075, 11204692908725/1651390736348, 4857777198229426748359/8605204153900800000000, 192447796492084384788107680093/77724435171670827973744000000, 2978960111868167065859036001223/6158329487746700313219445762976, 4466650062419867748609713468715/5957920223736334131718072002446, 0, 9078464649501829835932205560343/8933300124839735497219426937430, 104212974404632475703/3558596310647619961036, 0, 0]

/-- samples -/
def dgdLine3S0 : List Samp := [⟨vecQ 14 1 [(0, 1), (2, -1)], vecQ 14 1 [(2, 1)], vecQ 10 1 [(1, 1)]⟩,
  ⟨vecQ 14 1 [(5, 1)], vecQ 14 1 [(6, 1)], vecQ 10 1 [(4, 1)]⟩,
  ⟨vecQ 14 4 [(5, 3), (6, -1), (7, 1)], vecQ 14 1 [(11, 1)], vecQ 10 1 [(7, 1)]⟩]
/-- samples -/
def dgdLine3S1 : List Samp := [⟨vecQ 14 1 [(0, 1)], vecQ 14 1 [(1, 1)], vecQ 10 1 [(0, 1)]⟩,
  ⟨vecQ 14 2 [(0, 2), (2, -1), (3, -1), (4, -1)], vecQ 14 1 [(4, 1)], vecQ 10 1 [(3, 1)]⟩,
  ⟨vecQ 14 1 [(7, 1)], vecQ 14 1 [(8, 1)], vecQ 10 1 [(5, 1)]⟩,
  ⟨vecQ 14 4 [(5, 1), (7, 2), (8, -1), (9, 1)], vecQ 14 1 [(12, 1)], vecQ 10 1 [(8, 1)]⟩]
/-- samples -/
def dgdLine3S2 : List Samp := [⟨vecQ 14 1 [(0, 1), (3, -1)], vecQ 14 1 [(3, 1)], vecQ 10 1 [(2, 1)]⟩,
  ⟨vecQ 14 1 [(9, 1)], vecQ 14 1 [(10, 1)], vecQ 10 1 [(6, 1)]⟩,
  ⟨vecQ 14 4 [(7, 1), (9, 3), (10, -1)], vecQ 14 1 [(13, 1)], vecQ 10 1 [(9, 1)]⟩]
/-- equality -/
def dgdLine3E0 : QuadQ := ⟨vecQ 10 1 [], rowsQ 14 [(2, vecQ 14 4 [(2, 1), (3, 1), (4, 1)]), (3, vecQ 14 4 [(2, 1), (3, 1), (4, 1)]), (4, vecQ 14 4 [(2, 1), (3, 1), (4, 1)])]⟩
/-- coordinates -/
def dgdLine3D : Coord where
  dimG := 14
  dimF := 10
  fns := [(.smoothStrongly (1/2) 1, dgdLine3S0), (.smoothStrongly (1/2) 1, dgdLine3S1), (.smoothStrongly (1/2) 1, dgdLine3S2)]
  eqs := [dgdLine3E0]
  met := ⟨vecQ 10 1 [], rowsQ 14 [(0, vecQ 14 1000 [(1, 1), (2, 1), (3, 1), (6, 125), (8, 125), (10, 125), (11, -1), (12, -1), (13, -1)]), (2, vecQ 14 4000 [(5, -498), (6, -501), (7, 499), (8, 1), (9, -1), (11, 4)]), (3, vecQ 14 4000 [(5, -1), (7, 499), (8, 1), (9, -498), (10, -501), (13, 4)]), (5, vecQ 14 16000 [(1, -4), (2, -2004), (3, -4), (5, -2995), (6, -1502), (7, 2499), (8, -499), (9, 496), (10, 1), (11, 12), (12, 4)]), (6, vecQ 14 16000 [(0, 2000), (2, -2000), (5, -1502), (6, 501), (7, -499), (8, -1), (9, 1), (11, -4)]), (7, vecQ 14 16000 [(1, -8), (2, 1992), (3, 1992), (5, 2499), (6, -499), (7, -4998), (8, -1002), (9, 2499), (10, -499), (11, 4), (12, 8), (13, 4)]), (8, vecQ 14 16000 [(0, 2000), (1, 4), (2, 4), (3, 4), (5, -499), (6, -1), (7, -1002), (8, 502), (9, -499), (10, -1), (12, -4)]), (9, vecQ 14 16000 [(1, -4), (2, -4), (3, -2004), (5, 496), (6, 1), (7, 2499), (8, -499), (9, -2995), (10, -1502), (12, 4), (13, 12)]), (10, vecQ 14 16000 [(0, 2000), (3, -2000), (5, 1), (7, -499), (8, -1), (9, -1502), (10, 501), (13, -4)])]⟩

/-- the nonlinear program of `dgdLine3` is feasible -/
theorem C34_dgdLine3_feasible : ∃ p, IpoptFeasible refCAS (dgdLine3 (1/2) (some 1) 1 1).prog stdParams p ∧ p "alpha" = 0 ∧ p "beta" = 0 ∧ p "delta" = 0 ∧ p "eta" = 1/1000 ∧ p "gamma" = 0 ∧ p "h" = 1/4 ∧ p "rho" = 1/1000 := by
  obtain ⟨p, hp, hv⟩ := feasible_of_checks (prog := (dgdLine3 (1/2) (some 1) 1 1).prog) refCAS_lawful stdParams_simple dgdLine3Cert 23 (D := dgdLine3D) (by decide +kernel)
    (by decide +kernel) (by decide +kernel)
  refine ⟨p, hp, ?_, ?_, ?_, ?_, ?_, ?_, ?_⟩ <;> rw [hv _ (by decide)]
  · rw [show dgdLine3Cert.val "alpha" = 0 by decide +kernel]; norm_num
  · rw [show dgdLine3Cert.val "beta" = 0 by decide +kernel]; norm_num
  · rw [show dgdLine3Cert.val "delta" = 0 by decide +kernel]; norm_num
  · rw [show dgdLine3Cert.val "eta" = 1/1000 by decide +kernel]; norm_num
  · rw [show dgdLine3Cert.val "gamma" = 0 by decide +kernel]; norm_num
  · rw [show dgdLine3Cert.val "h" = 1/4 by decide +kernel]; norm_num
  · rw [show dgdLine3Cert.val "rho" = 1/1000 by decide +kernel]; norm_num

/-- certificate for `diffusionLine3 (1/2) (some 1) (1/2) 1` at `alpha = 0`, `beta = 0`, `delta = 0`, `eta = 1/10000`, `gamma = 0`, `h = 1/2`, `rho = 1/10000` -/
def diffusionLine3Cert : Cert where
  env := [("alpha", 0), ("beta", 0), ("delta", 0), ("eta", 1/10000), ("gamma", 0), ("h", 1/2), ("rho", 1/10000)]
  mult := [(.tup 0 0 0 2, 1), (.tup 0 0 1 2, 1), (.tup 0 0 2 0, 1), (.tup 0 0 2 1, 1), (.tup 0 1 0 2, 1), (.tup 0 1 1 2, 1), (.tup 0 1 2 0, 1), (.tup 0 1 2 1, 1), (.tup 0 2 0 2, 1), (.tup 0 2 1 2, 1), (.tup 0 2 2 0, 1), (.tup 0 2 2 1, 1), (.tup 1 0 0 0, 578), (.tup 1 0 1 0, 577), (.tup 1 0 2 0, 577)]
  L := [[], [-34659997/23144997], [11560000/23144997, -401535961265009/404137185995009], [3795001/15429998, 197764950135000/404137185995009, -1199524209470009/1205129208660027], [-20003/46289994, -2891939765009/808274371990018, -7428571/14860713, 4620340089232099820000/4716432109607503144973], [-5780000/23144997, -399743834874991/808274371990018, -12194688370045/2410258417320054, 4572406518849199820000/4716432109607503144973, 552179140688018188000180000/557003669673328695059510027], [-12499/7714999, -1473302820000/404137185995009, -8159241837500/24594473646123, 24001004867407540000/4716432109607503144973, -299607806106189624826300000/1671011009019986085178530081, -9229549117483696694583950000000/66456085030241250763276802294973], [12499/15429998, 736651410000/404137185995009, 4079620918750/24594473646123, -11999297304495109973/4716432109607503144973, 149790042032827116113690000/1671011009019986085178530081, 1538258497797046027408224940000/22152028343413750254425600764991, -203746059475055430451980311301851/141660581630898420053389141179286], [-2501/7714999, -954264997509/404137185995009, -707500/2122959, -2002823781057540000/4716432109607503144973, 23382440973188133484200000/557003669673328695059510027, -665877901273060000/15999688228479004997, -195185668737123798012524274812643/141660581630898420053389141179286, -53529487412985424119815776192736/185795692048014880384642665527683], [2501/15429998, 954264997509/808274371990018, 353750/2122959, 1001411890528770000/4716432109607503144973, -11686504054484459238955027/557003669673328695059510027, 998418030909530000/47999064685437014991, 461011668333093386752853569927275/283321163261796840106778282358572, 159681342302623618138467366159050/185795692048014880384642665527683, -224213446884936024070814446019435/239243169070806594052131503742406], [0, -173656912491/404137185995009, -8238846431123/24594473646123, -21998181086350000000/4716432109607503144973, 229460483186625224373700000/1671011009019986085178530081, 11995330412396329107120407540000/66456085030241250763276802294973, 53525087106225377959135133633357/141660581630898420053389141179286, 53529487412985424119815776192736/185795692048014880384642665527683, -1, 0], [0, 173656912491/808274371990018, 8238846431123/49188947292246, 10999090543175000000/4716432109607503144973, -114730241593312612186850000/1671011009019986085178530081, -5997108202528491224865144259973/66456085030241250763276802294973, -53519549376754887741118383263357/283321163261796840106778282358572, -26761974767089260745014356415654/185795692048014880384642665527683, 2084533772455703814430522635017599/1196215845354032970260657518712030, 34862695045103289622179727080970/38800856399665253197648156463867, 0], [18750/7714999, 1949624831250/404137185995009, 1997280307000045/4820516834640108, -45039911720125450000/4716432109607503144973, 231619573258044239249775000/557003669673328695059510027, 2308271668269563651054000075000/22152028343413750254425600764991, 495627613476859782367472818169703/283321163261796840106778282358572, -566795619197228409837176843348931/371591384096029760769285331055366, 383968561224170141957654465735463/1196215845354032970260657518712030, -32744813124968902003758875323297/77601712799330506395296312927734, 0, -12969042403242382583/58350965015767890546], [0, 1301906081250/404137185995009, 173299985/416099964, 15051806483375225000/4716432109607503144973, -175589530134388482999550000/557003669673328695059510027, 5000423861375025000/15999688228479004997, -461011668331017507383595381907203/283321163261796840106778282358572, -461037432293460461225010468418929/371591384096029760769285331055366, 906927872971833777181397936476623/1196215845354032970260657518712030, -110346525924299408399055188251031/77601712799330506395296312927734, 0, -12969042403242382583/58350965015767890546, 1], [0, 0, 2020685929975045/4820516834640108, 29988105236750225000/4716432109607503144973, -56030043123655756250225000/557003669673328695059510027, -9231502266544301567106875150000/22152028343413750254425600764991, -8653986286460568745969359065625/70830290815449210026694570589643, -34621310741049279338231247076785/371591384096029760769285331055366, -1448390528292783321366762843997083/598107922677016485130328759356015, -102470203215175481248118329485237/77601712799330506395296312927734, 0, -71320007419010273129/58350965015767890546, 1, 0]]
  d := [7714999/15000, 404137185995009/1041524865000, 1205129208660027/404137185995009, 4716432109607503144973/24102584173200540000, 557003669673328695059510027/94328642192150062899460000, 66456085030241250763276802294973/11140073393466573901190200540000, 70830290815449210026694570589643/199368255090723752289830406884919, 185795692048014880384642665527683/424981744892695260160167423537858, 598107922677016485130328759356015/2229548304576178564615711986332196, 38800856399665253197648156463867/239243169070806594052131503742406, 0, 79464302192236602687751029103173/388008563996652531976481564638670, 35637310153933779617/466807720126143124368, 0, 0]

/-- samples -/
def diffusionLine3S0 : List Samp := [⟨vecQ 15 1 [(0, 1)], vecQ 15 1 [(3, 1)], vecQ 9 1 [(0, 1)]⟩,
  ⟨vecQ 15 1 [(6, 1)], vecQ 15 1 [(7, 1)], vecQ 9 1 [(3, 1)]⟩,
  ⟨vecQ 15 6 [(6, 4), (7, -2), (8, 2), (9, -1)], vecQ 15 1 [(12, 1)], vecQ 9 1 [(6, 1)]⟩]
/-- samples -/
def diffusionLine3S1 : List Samp := [⟨vecQ 15 1 [(1, 1)], vecQ 15 1 [(4, 1)], vecQ 9 1 [(1, 1)]⟩,
  ⟨vecQ 15 1 [(8, 1)], vecQ 15 1 [(9, 1)], vecQ 9 1 [(4, 1)]⟩,
  ⟨vecQ 15 6 [(6, 2), (7, -1), (8, 2), (9, -1), (10, 2), (11, -1)], vecQ 15 1 [(13, 1)], vecQ 9 1 [(7, 1)]⟩]
/-- samples -/
def diffusionLine3S2 : List Samp := [⟨vecQ 15 1 [(2, 1)], vecQ 15 1 [(5, 1)], vecQ 9 1 [(2, 1)]⟩,
  ⟨vecQ 15 1 [(10, 1)], vecQ 15 1 [(11, 1)], vecQ 9 1 [(5, 1)]⟩,
  ⟨vecQ 15 6 [(8, 2), (9, -1), (10, 4), (11, -2)], vecQ 15 1 [(14, 1)], vecQ 9 1 [(8, 1)]⟩]
/-- equality -/
def diffusionLine3E0 : QuadQ := ⟨vecQ 9 1 [], rowsQ 15 [(0, vecQ 15 9 [(0, 4), (1, -8), (2, 4), (3, -2), (4, -2), (5, -2)]), (1, vecQ 15 9 [(0, -8), (1, 16), (2, -8), (3, 4), (4, 4), (5, 4)]), (2, vecQ 15 9 [(0, 4), (1, -8), (2, 4), (3, -2), (4, -2), (5, -2)]), (3, vecQ 15 9 [(0, -2), (1, 4), (2, -2), (3, 1), (4, 1), (5, 1)]), (4, vecQ 15 9 [(0, -2), (1, 4), (2, -2), (3, 1), (4, 1), (5, 1)]), (5, vecQ 15 9 [(0, -2), (1, 4), (2, -2), (3, 1), (4, 1), (5, 1)])]⟩
/-- equality -/
def diffusionLine3E1 : QuadQ := ⟨vecQ 9 1 [], rowsQ 15 [(0, vecQ 15 9 [(0, 4), (1, -4), (3, 4), (4, 2)]), (1, vecQ 15 9 [(0, -4), (1, 4), (3, -4), (4, -2)]), (3, vecQ 15 9 [(0, 4), (1, -4), (3, 4), (4, 2)]), (4, vecQ 15 9 [(0, 2), (1, -2), (3, 2), (4, 1)])]⟩
/-- equality -/
def diffusionLine3E2 : QuadQ := ⟨vecQ 9 1 [], rowsQ 15 [(1, vecQ 15 9 [(1, 4), (2, -4), (4, -2), (5, -4)]), (2, vecQ 15 9 [(1, -4), (2, 4), (4, 2), (5, 4)]), (4, vecQ 15 9 [(1, -2), (2, 2), (4, 1), (5, 2)]), (5, vecQ 15 9 [(1, -4), (2, 4), (4, 2), (5, 4)])]⟩
/-- coordinates -/
def diffusionLine3D : Coord where
  dimG := 15
  dimF := 9
  fns := [(.smoothStrongly (1/2) 1, diffusionLine3S0), (.smoothStrongly (1/2) 1, diffusionLine3S1), (.smoothStrongly (1/2) 1, diffusionLine3S2)]
  eqs := [diffusionLine3E0, diffusionLine3E1, diffusionLine3E2]
  met := ⟨vecQ 9 1 [], rowsQ 15 [(0, vecQ 15 30000 [(0, 2), (1, -2), (3, -1), (4, 1), (6, 4998), (7, -2499), (8, -4998), (9, 2499), (12, 7500)]), (1, vecQ 15 30000 [(0, -2), (1, 4), (2, -2), (3, 1), (4, -2), (5, 1), (6, -4998), (7, 2499), (8, 9996), (9, -4998), (10, -4998), (11, 2499), (13, 7500)]), (2, vecQ 15 30000 [(1, -2), (2, 2), (4, 1), (5, -1), (8, -4998), (9, 2499), (10, 4998), (11, -2499), (14, 7500)]), (3, vecQ 15 60000 [(0, -2), (1, 2), (3, 4), (4, -1), (6, -4998), (7, 2496), (8, 4998), (9, -2499), (12, -7500)]), (4, vecQ 15 60000 [(0, 2), (1, -4), (2, 2), (3, -1), (4, 5), (5, -1), (6, 4998), (7, -2499), (8, -9996), (9, 4995), (10, 4998), (11, -2499), (13, -7500)]), (5, vecQ 15 60000 [(1, 2), (2, -2), (4, -1), (5, 4), (8, 4998), (9, -2499), (10, -4998), (11, 2496), (14, -7500)]), (6, vecQ 15 90000 [(0, 14994), (1, -14994), (3, -7497), (4, 7497), (6, -19994), (7, 9997), (8, 14994), (9, -7497), (10, 5000), (11, -2500), (12, -15000), (13, -7500)]), (7, vecQ 15 180000 [(0, -14994), (1, 14994), (3, 7488), (4, -7497), (6, 19994), (7, -9988), (8, -14994), (9, 7497), (10, -5000), (11, 2500), (12, 15000), (13, 7500)]), (8, vecQ 15 30000 [(0, -4998), (1, 9996), (2, -4998), (3, 2499), (4, -4998), (5, 2499), (6, 4998), (7, -2499), (8, -9996), (9, 4998), (10, 4998), (11, -2499), (12, -2500), (13, -2500), (14, -2500)]), (9, vecQ 15 60000 [(0, 4998), (1, -9996), (2, 4998), (3, -2499), (4, 4995), (5, -2499), (6, -4998), (7, 2499), (8, 9996), (9, -4995), (10, -4998), (11, 2499), (12, 2500), (13, 2500), (14, 2500)]), (10, vecQ 15 90000 [(1, -14994), (2, 14994), (4, 7497), (5, -7497), (6, 5000), (7, -2500), (8, 14994), (9, -7497), (10, -19994), (11, 9997), (13, -7500), (14, -15000)]), (11, vecQ 15 180000 [(1, 14994), (2, -14994), (4, -7497), (5, 7488), (6, -5000), (7, 2500), (8, -14994), (9, 7497), (10, 19994), (11, -9988), (13, 7500), (14, 15000)]), (12, vecQ 15 24 [(0, 6), (3, -3), (6, -4), (7, 2), (8, -2), (9, 1), (12, 3)]), (13, vecQ 15 24 [(1, 6), (4, -3), (6, -2), (7, 1), (8, -2), (9, 1), (10, -2), (11, 1), (13, 3)]), (14, vecQ 15 24 [(2, 6), (5, -3), (8, -2), (9, 1), (10, -4), (11, 2), (14, 3)])]⟩

/-- the nonlinear program of `diffusionLine3` is feasible -/
theorem C34_diffusionLine3_feasible : ∃ p, IpoptFeasible refCAS (diffusionLine3 (1/2) (some 1) (1/2) 1).prog stdParams p ∧ p "alpha" = 0 ∧ p "beta" = 0 ∧ p "delta" = 0 ∧ p "eta" = 1/10000 ∧ p "gamma" = 0 ∧ p "h" = 1/2 ∧ p "rho" = 1/10000 := by
  obtain ⟨p, hp, hv⟩ := feasible_of_checks (prog := (diffusionLine3 (1/2) (some 1) (1/2) 1).prog) refCAS_lawful stdParams_simple diffusionLine3Cert 36 (D := diffusionLine3D) (by decide +kernel)
    (by decide +kernel) (by decide +kernel)
  refine ⟨p, hp, ?_, ?_, ?_, ?_, ?_, ?_, ?_⟩ <;> rw [hv _ (by decide)]
  · rw [show diffusionLine3Cert.val "alpha" = 0 by decide +kernel]; norm_num
  · rw [show diffusionLine3Cert.val "beta" = 0 by decide +kernel]; norm_num
  · rw [show diffusionLine3Cert.val "delta" = 0 by decide +kernel]; norm_num
  · rw [show diffusionLine3Cert.val "eta" = 1/10000 by decide +kernel]; norm_num
  · rw [show diffusionLine3Cert.val "gamma" = 0 by decide +kernel]; norm_num
  · rw [show diffusionLine3Cert.val "h" = 1/2 by decide +kernel]; norm_num
  · rw [show diffusionLine3Cert.val "rho" = 1/10000 by decide +kernel]; norm_num

/-- certificate for `pgExtraLine3 0 (some 1) (some 1) (1/2) (fun i j => ([[3/4,1/4,0],[1/4,1/2,1/4],[0,1/4,3/4]].getD i []).getD j 0)` at `alpha = 0`, `beta = 0`, `delta = 0`, `eta = 1/10000`, `gamma = 1/2`, `h = 1/2`, `rho = 1/10000` -/
def pgExtraLine3Cert : Cert where
  env := [("alpha", 0), ("beta", 0), ("delta", 0), ("eta", 1/10000), ("gamma", 1/2), ("h", 1/2), ("rho", 1/10000)]
  mult := [(.tup 0 0 0 2, 4999/10000), (.tup 0 0 1 0, 2499/10000), (.tup 0 0 1 2, 7501/10000), (.tup 0 0 2 0, 1/4), (.tup 0 0 2 1, 1), (.tup 0 1 0 2, 4999/10000), (.tup 0 1 1 0, 2499/10000), (.tup 0 1 1 2, 2501/10000), (.tup 0 1 2 0, 1/4), (.tup 0 1 2 1, 1/2), (.tup 0 2 0 2, 4999/10000), (.tup 0 2 1 0, 2499/10000), (.tup 0 2 1 2, 7501/10000), (.tup 0 2 2 0, 1/4), (.tup 0 2 2 1, 1), (.tup 0 3 0 1, 4999/10000), (.tup 0 3 1 0, 4999/10000), (.tup 0 4 0 1, 4999/10000), (.tup 0 4 1 0, 4999/10000), (.tup 0 5 0 1, 4999/10000), (.tup 0 5 1 0, 4999/10000)]
  L := [[], [], [0, 1/2], [0, 1/2, 1/3], [0, 1/2, 1/3, 1/4], [0, 1/2, 1/3, 1/4, 1/5], [0, 2499/79984, -2499/39992, 0, 500/4999, -625/4999], [0, 2501/79984, 17495/119976, -1249/39992, -375/4999, 1250/4999, -293687497/274942498], [0, -625/9998, -1/12, 1249/39992, -125/4999, -625/4999, 18744999/274942498, -1], [0, -2499/19996, 833/9998, 2499/39992, 2499/49990, 833/19996, -187469998/137471249, -7028249850080004/75242002218970003, 0], [0, 0, -833/4999, 2499/39992, 2499/49990, 833/19996, 87489998/137471249, -174979996/293687497, 0, 2257672425630342666589999/24476210495502516003819999], [0, 0, 0, -7497/39992, 2499/49990, 833/19996, 0, 103086939100350008/75242002218970003, 0, 162008429789218763888333/8158736831834172001273333, 143967406577068307320649012523/786766044356866276993460260027], [0, 2499/39992, -833/19996, -2499/79984, -62483/99980, 12497/119976, 43739999/137471249, 8512000212540002/75242002218970003, 0, -11023919604332949524489995/48952420991005032007639998, 35777056820927688776544066211/786766044356866276993460260027, 6374027976095832858251422790879/100639964755634662111391959294868574], [0, 0, 833/9998, -2499/79984, -2499/99980, -77479/119976, -31242499/137471249, 62484998/293687497, 0, -239095811026651908216665/16317473663668344002546666, -140949405441722049163873693797/786766044356866276993460260027, 11497483671433540041/6160164895203103949938, 26625860252787965361940584624264074821/25651770311324256580912722185505019821], [0, 3749/9998, 3749/14997, 22493/79984, 12497/99980, 12497/119976, -12497500/137471249, -24520500425160004/75242002218970003, 0, -4867671022985641576665/16317473663668344002546666, 2743073460414714108727126203/786766044356866276993460260027, -23085928599289492724486773103848625/100639964755634662111391959294868574, 19159581691461085499857162358718062321/25651770311324256580912722185505019821, 4122261545228667654409013133463963967/3361450254662206510927646466942429031], [0, 2499/39992, -2499/19996, 0, 1000/4999, -1250/4999, 74982498/137471249, -7496500000080000/75242002218970003, 0, -5153316085626496899920000/24476210495502516003819999, 176726462262649737940417760008/786766044356866276993460260027, -90731442023786330788502069760032/50319982377817331055695979647434287, -974089941463708781027862438759055000/25651770311324256580912722185505019821, -1, 0], [0, 625/4999, 1/6, -1249/19996, 250/4999, 1250/4999, -18744999/137471249, 40529000637780006/75242002218970003, 0, -117114070001833133320000/8158736831834172001273333, -143692478902136763272600820000/786766044356866276993460260027, 11636882755656580609461014333079784/50319982377817331055695979647434287, 7466278561326879862083422265546012500/25651770311324256580912722185505019821, -760811290566461143481366666521534936/3361450254662206510927646466942429031, -1, 0], [0, -12499/39992, 12499/59988, 12499/79984, 32499/99980, 7499/119976, 231209997/137471249, 15540250062620006/75242002218970003, 0, -59976340595337981532129993/48952420991005032007639998, 35777056820927688776544066211/786766044356866276993460260027, 6374027976095832858251422790879/100639964755634662111391959294868574, 1, 0, 0, 0, 0], [0, 0, -12499/29994, 12499/79984, 12499/99980, 37499/119976, -118732497/137471249, 237464994/293687497, 0, -5232632284340641057829993/48952420991005032007639998, -927715449798588326157333953824/786766044356866276993460260027, 11497483671433540041/6160164895203103949938, 26625860252787965361940584624264074821/25651770311324256580912722185505019821, 1, 0, 0, 0, 0], [0, -625/4999, -1250/14997, -42497/79984, 7499/99980, 7499/119976, -12497500/137471249, -127607439525510012/75242002218970003, 0, -328884530601423169353331/16317473663668344002546666, -141224333116653593211921886320/786766044356866276993460260027, -123725893354924154835878732398717199/100639964755634662111391959294868574, 19159581691461085499857162358718062321/25651770311324256580912722185505019821, 4122261545228667654409013133463963967/3361450254662206510927646466942429031, 1, 0, 0, 0, 0]]
  d := [0, 4999/5000, 14997/20000, 4999/7500, 4999/8000, 14997/25000, 137471249/1599680000, 75242002218970003/879640030401280000, 0, 24476210495502516003819999/30090781527410483599760000, 786766044356866276993460260027/1957705220272273240049538800016, 50319982377817331055695979647434287/62928695291839592299044925437999568, 8550590103774752193637574061835006607/167733274592724436852319932158114290000, 3361450254662206510927646466942429031/307821243735891078970952666226060237852, 82228643684282974779043870071636355/13445801018648826043710585867769716124, 0, 0, 0, 0, 0]

/-- samples -/
def pgExtraLine3S0 : List Samp := [⟨vecQ 20 1 [(0, 1)], vecQ 20 1 [(1, 1)], vecQ 15 1 [(1, 1)]⟩,
  ⟨vecQ 20 1 [(6, 1)], vecQ 20 1 [(9, 1)], vecQ 15 1 [(6, 1)]⟩,
  ⟨vecQ 20 4 [(6, 3), (7, 1), (12, -2), (15, -2), (17, -2)], vecQ 20 1 [(17, 1)], vecQ 15 1 [(12, 1)]⟩]
/-- samples -/
def pgExtraLine3S1 : List Samp := [⟨vecQ 20 1 [(0, 1)], vecQ 20 1 [(2, 1)], vecQ 15 1 [(2, 1)]⟩,
  ⟨vecQ 20 1 [(7, 1)], vecQ 20 1 [(10, 1)], vecQ 15 1 [(7, 1)]⟩,
  ⟨vecQ 20 4 [(6, 1), (7, 2), (8, 1), (13, -2), (15, 2), (16, -2), (18, -2)], vecQ 20 1 [(18, 1)], vecQ 15 1 [(13, 1)]⟩]
/-- samples -/
def pgExtraLine3S2 : List Samp := [⟨vecQ 20 1 [(0, 1)], vecQ 20 1 [(3, 1)], vecQ 15 1 [(3, 1)]⟩,
  ⟨vecQ 20 1 [(8, 1)], vecQ 20 1 [(11, 1)], vecQ 15 1 [(8, 1)]⟩,
  ⟨vecQ 20 4 [(7, 1), (8, 3), (14, -2), (16, 2), (19, -2)], vecQ 20 1 [(19, 1)], vecQ 15 1 [(14, 1)]⟩]
/-- samples -/
def pgExtraLine3S3 : List Samp := [⟨vecQ 20 1 [(0, 1)], vecQ 20 1 [(4, 1)], vecQ 15 1 [(4, 1)]⟩,
  ⟨vecQ 20 1 [(6, 1)], vecQ 20 1 [(12, 1)], vecQ 15 1 [(9, 1)]⟩]
/-- samples -/
def pgExtraLine3S4 : List Samp := [⟨vecQ 20 1 [(0, 1)], vecQ 20 1 [(5, 1)], vecQ 15 1 [(5, 1)]⟩,
  ⟨vecQ 20 1 [(7, 1)], vecQ 20 1 [(13, 1)], vecQ 15 1 [(10, 1)]⟩]
/-- samples -/
def pgExtraLine3S5 : List Samp := [⟨vecQ 20 1 [(0, 1)], vecQ 20 1 [(1, -1), (2, -1), (3, -1), (4, -1), (5, -1)], vecQ 15 1 [(0, 1), (1, -1), (2, -1), (3, -1), (4, -1), (5, -1)]⟩,
  ⟨vecQ 20 1 [(8, 1)], vecQ 20 1 [(14, 1)], vecQ 15 1 [(11, 1)]⟩]
/-- equality -/
def pgExtraLine3E0 : QuadQ := ⟨vecQ 15 1 [], rowsQ 20 []⟩
/-- coordinates -/
def pgExtraLine3D : Coord where
  dimG := 20
  dimF := 15
  fns := [(.smoothConvex 1, pgExtraLine3S0), (.smoothConvex 1, pgExtraLine3S1), (.smoothConvex 1, pgExtraLine3S2), (.smoothConvex 1, pgExtraLine3S3), (.smoothConvex 1, pgExtraLine3S4), (.smoothConvex 1, pgExtraLine3S5)]
  eqs := [pgExtraLine3E0]
  met := ⟨vecQ 15 1 [], rowsQ 20 [(0, vecQ 20 4 [(12, 1), (13, 1), (14, 1), (17, 1), (18, 1), (19, 1)]), (1, vecQ 20 40000 [(6, 7497), (7, -1), (8, -7496), (12, -4998), (14, 5000), (15, -4998), (16, -5000), (17, -4998), (19, 5000)]), (2, vecQ 20 40000 [(6, 2499), (7, 2498), (8, -4997), (13, -4998), (14, 5000), (15, 4998), (16, -9998), (18, -4998), (19, 5000)]), (3, vecQ 20 40000 [(7, -1), (8, 1), (14, 2), (16, -2), (19, 2)]), (4, vecQ 20 5000 [(6, 937), (8, -937), (12, -625), (14, 625), (15, -625), (16, -625), (17, -625), (19, 625)]), (5, vecQ 20 10000 [(6, 625), (7, 624), (8, -1249), (13, -1250), (14, 1250), (15, 1250), (16, -2500), (18, -1250), (19, 1250)]), (6, vecQ 20 256 [(1, 48), (2, 16), (4, 48), (5, 16), (6, -27), (7, 31), (8, -4), (12, -60), (13, -6), (14, 2), (15, -22), (16, 8), (17, -60), (18, -6), (19, 2)]), (7, vecQ 20 256 [(2, 16), (5, 16), (6, 31), (7, -62), (8, 31), (12, -6), (13, -52), (14, -6), (15, 30), (16, -30), (17, -6), (18, -52), (19, -6)]), (8, vecQ 20 256 [(1, -48), (2, -32), (4, -48), (5, -32), (6, -4), (7, 31), (8, -27), (12, 2), (13, -6), (14, -60), (15, -8), (16, 22), (17, 2), (18, -6), (19, -60)]), (12, vecQ 20 80000 [(0, 19992), (1, -10000), (4, -10000), (6, -18742), (7, -1875), (8, 625), (12, 11250), (13, -1250), (15, 2500), (16, -1250), (17, 11250), (18, -1250)]), (13, vecQ 20 80000 [(0, 19992), (2, -10000), (5, -10000), (6, -1875), (7, -16242), (8, -1875), (12, -1250), (13, 12500), (14, -1250), (15, -3750), (16, 3750), (17, -1250), (18, 12500), (19, -1250)]), (14, vecQ 20 80000 [(0, 19992), (1, 10000), (2, 10000), (4, 10000), (5, 10000), (6, 625), (7, -1875), (8, -18742), (13, -1250), (14, 11250), (15, 1250), (16, -2500), (18, -1250), (19, 11250)]), (15, vecQ 20 128 [(1, -16), (2, 16), (4, -16), (5, 16), (6, -11), (7, 15), (8, -4), (12, 4), (13, -6), (14, 2), (15, -22), (16, 8), (17, 4), (18, -6), (19, 2)]), (16, vecQ 20 128 [(1, -16), (2, -32), (4, -16), (5, -32), (6, 4), (7, -15), (8, 11), (12, -2), (13, 6), (14, -4), (15, 8), (16, -22), (17, -2), (18, 6), (19, -4)]), (17, vecQ 20 80000 [(0, 19992), (1, -10000), (4, -10000), (6, -18744), (7, -1873), (8, 625), (12, 11246), (13, -1250), (15, 2496), (16, -1250), (17, 11246), (18, -1250)]), (18, vecQ 20 80000 [(0, 19992), (2, -10000), (5, -10000), (6, -1873), (7, -16246), (8, -1873), (12, -1250), (13, 12496), (14, -1250), (15, -3746), (16, 3746), (17, -1250), (18, 12496), (19, -1250)]), (19, vecQ 20 80000 [(0, 19992), (1, 10000), (2, 10000), (4, 10000), (5, 10000), (6, 625), (7, -1873), (8, -18744), (13, -1250), (14, 11246), (15, 1250), (16, -2496), (18, -1250), (19, 11246)])]⟩

/-- the nonlinear program of `pgExtraLine3` is feasible -/
theorem C34_pgExtraLine3_feasible : ∃ p, IpoptFeasible refCAS (pgExtraLine3 0 (some 1) (some 1) (1/2) (fun i j => ([[3/4,1/4,0],[1/4,1/2,1/4],[0,1/4,3/4]].getD i []).getD j 0)).prog stdParams p ∧ p "alpha" = 0 ∧ p "beta" = 0 ∧ p "delta" = 0 ∧ p "eta" = 1/10000 ∧ p "gamma" = 1/2 ∧ p "h" = 1/2 ∧ p "rho" = 1/10000 := by
  obtain ⟨p, hp, hv⟩ := feasible_of_checks (prog := (pgExtraLine3 0 (some 1) (some 1) (1/2) (fun i j => ([[3/4,1/4,0],[1/4,1/2,1/4],[0,1/4,3/4]].getD i []).getD j 0)).prog) refCAS_lawful stdParams_simple pgExtraLine3Cert 39 (D := pgExtraLine3D) (by decide +kernel)
    (by decide +kernel) (by decide +kernel)
  refine ⟨p, hp, ?_, ?_, ?_, ?_, ?_, ?_, ?_⟩ <;> rw [hv _ (by decide)]
  · rw [show pgExtraLine3Cert.val "alpha" = 0 by decide +kernel]; norm_num
  · rw [show pgExtraLine3Cert.val "beta" = 0 by decide +kernel]; norm_num
  · rw [show pgExtraLine3Cert.val "delta" = 0 by decide +kernel]; norm_num
  · rw [show pgExtraLine3Cert.val "eta" = 1/10000 by decide +kernel]; norm_num
  · rw [show pgExtraLine3Cert.val "gamma" = 1/2 by decide +kernel]; norm_num
  · rw [show pgExtraLine3Cert.val "h" = 1/2 by decide +kernel]; norm_num
  · rw [show pgExtraLine3Cert.val "rho" = 1/10000 by decide +kernel]; norm_num

/-- certificate for `dadmmLine3 0 (some 1) 1 1` at `alpha = 1`, `beta = 1/2`, `delta = 0`, `eta = 1/1000`, `gamma = 1`, `h = 1`, `rho = 1/1000` -/
def dadmmLine3Cert : Cert where
  env := [("alpha", 1), ("beta", 1/2), ("delta", 0), ("eta", 1/1000), ("gamma", 1), ("h", 1), ("rho", 1/1000)]
  mult := [(.tup 0 0 0 1, 1), (.tup 0 0 0 2, 1), (.tup 0 0 1 0, 999/1000), (.tup 0 0 1 2, 3001/1000), (.tup 0 0 2 0, 1), (.tup 0 0 2 1, 3), (.tup 0 1 0 1, 1), (.tup 0 1 0 2, 1), (.tup 0 1 1 0, 999/1000), (.tup 0 1 1 2, 4001/1000), (.tup 0 1 2 0, 1), (.tup 0 1 2 1, 4), (.tup 0 2 0 1, 1), (.tup 0 2 0 2, 1), (.tup 0 2 1 0, 999/1000), (.tup 0 2 1 2, 3001/1000), (.tup 0 2 2 0, 1), (.tup 0 2 2 1, 3), (.tup 1 0 1 0, 90), (.tup 1 0 2 0, 90)]
  L := [[], [], [0, 1333/122666], [0, 60000/61333, -40000/81333], [0, 749/367998, 29606750/975752001, -118427/1919520], [0, -749/367998, -29606750/975752001, 118427/1919520, -1], [0, 250/61333, -1876834/975752001, -158587/959760, 11951350/173945651, 0], [0, 250/61333, 40181278/325250667, -26249/319920, 11951350/173945651, 0, -1414838917582543/4499137879201249], [0, -458/61333, -9021583/325250667, 252649/639840, -31087057/15813241, 0, -8793306838900144/4499137879201249, 552600028126055843/504275375198043224], [0, 0, -9077284/36138963, -222/1333, 0, 0, 9740433227481792/4499137879201249, -3499812/2124937, 730581232076030206806/1501233892226808729619], [0, 458/61333, 8775121/31475871, -438427/1919520, 31087057/15813241, 0, -7207951509242044/4499137879201249, 811801766879028243/504275375198043224, -292639490268117637481/1501233892226808729619, 138608946929108967066228/199615982740484471466161], [0, -917/122666, 131/34857, 266329/639840, 330006277/173945651, 0, 5425554438378692/4499137879201249, -1298142929164681979/1008550750396086448, -3032146775559465436669/3002467784453617459238, 6611345671191880539707/150464308598355129245850, -10520520622001/157175879622500], [0, 0, -39437119/139393143, -4501/23994, 0, 0, -8609047748801995/4499137879201249, 49492745/33998992, -212977350751129770149/428923969207659637034, -143852962927163248706143/150464308598355129245850, -10520520622001/157175879622500, 1], [0, 917/122666, 303120583/975752001, -398827/1919520, -330006277/173945651, 0, 6924498070339298/4499137879201249, -807995656274540331/1008550750396086448, 555599989430387297531/3002467784453617459238, -19475684250799160832532507/29942397411072670719924150, -167696400244501/157175879622500, 1, 0]]
  d := [0, 183999/1000, 975752001/245332000, 26660/9037, 173945651/383904000, 0, 4499137879201249/8347303900188000, 819447484696820239/1687176704700468375, 1501233892226808729619/504275375198043224000, 598847948221453414398483/240197422756289396739040, 2653759869822300100118835/1596927861923875771729288, 1696215196286562491/1886110555470000000, 0, 0]

/-- samples -/
def dadmmLine3S0 : List Samp := [⟨vecQ 14 1 [(0, 1)], vecQ 14 1 [(1, 1)], vecQ 9 1 [(1, 1)]⟩,
  ⟨vecQ 14 1 [(4, 1), (6, 1), (8, -1)], vecQ 14 1 [(8, 1)], vecQ 9 1 [(3, 1)]⟩,
  ⟨vecQ 14 2 [(4, 1), (5, 1), (6, 1), (7, 1), (9, -1), (11, -2)], vecQ 14 1 [(11, 1)], vecQ 9 1 [(6, 1)]⟩]
/-- samples -/
def dadmmLine3S1 : List Samp := [⟨vecQ 14 1 [(0, 1)], vecQ 14 1 [(2, 1)], vecQ 9 1 [(2, 1)]⟩,
  ⟨vecQ 14 2 [(4, 1), (5, 1), (6, -1), (7, 1), (9, -1)], vecQ 14 1 [(9, 1)], vecQ 9 1 [(4, 1)]⟩,
  ⟨vecQ 14 2 [(4, 1), (5, 1), (8, -1), (10, -1), (12, -1)], vecQ 14 1 [(12, 1)], vecQ 9 1 [(7, 1)]⟩]
/-- samples -/
def dadmmLine3S2 : List Samp := [⟨vecQ 14 1 [(0, 1)], vecQ 14 1 [(1, -1), (2, -1)], vecQ 9 1 [(0, 1), (1, -1), (2, -1)]⟩,
  ⟨vecQ 14 1 [(5, 1), (7, -1), (10, -1)], vecQ 14 1 [(10, 1)], vecQ 9 1 [(5, 1)]⟩,
  ⟨vecQ 14 2 [(4, 1), (5, 1), (6, -1), (7, -1), (9, -1), (13, -2)], vecQ 14 1 [(13, 1)], vecQ 9 1 [(8, 1)]⟩]
/-- equality -/
def dadmmLine3E0 : QuadQ := ⟨vecQ 9 1 [], rowsQ 14 []⟩
/-- equality -/
def dadmmLine3E1 : QuadQ := ⟨vecQ 9 1 [], rowsQ 14 [(1, vecQ 14 1 [(1, 1), (3, 1)]), (3, vecQ 14 1 [(1, 1), (3, 1)])]⟩
/-- equality -/
def dadmmLine3E2 : QuadQ := ⟨vecQ 9 1 [], rowsQ 14 [(1, vecQ 14 1 [(1, 1), (3, 1)]), (3, vecQ 14 1 [(1, 1), (3, 1)])]⟩
/-- coordinates -/
def dadmmLine3D : Coord where
  dimG := 14
  dimF := 9
  fns := [(.smoothConvex 1, dadmmLine3S0), (.smoothConvex 1, dadmmLine3S1), (.smoothConvex 1, dadmmLine3S2)]
  eqs := [dadmmLine3E0, dadmmLine3E1, dadmmLine3E2]
  met := ⟨vecQ 9 1000 [(0, -1), (6, 1), (7, 1), (8, 1)], rowsQ 14 [(0, vecQ 14 2 [(8, 1), (9, 1), (10, 1), (11, 1), (12, 1), (13, 1)]), (1, vecQ 14 1000 [(4, 125), (5, -125), (6, 249), (7, 249), (8, -125), (10, 125), (11, -124), (13, 124)]), (2, vecQ 14 2000 [(4, 250), (5, -250), (6, -1), (7, 999), (8, -249), (9, -1), (10, 251), (12, -249), (13, 498)]), (3, vecQ 14 8 [(4, -1), (5, 1), (6, -2), (7, -2), (8, 1), (10, -1), (11, 1), (13, -1)]), (4, vecQ 14 32 [(1, 4), (2, 4), (3, -4), (4, -15), (5, 15), (6, -2), (7, -2), (8, -9), (9, -8), (10, -7), (11, -9), (12, -8), (13, -7)]), (5, vecQ 14 32 [(1, -4), (2, -4), (3, 4), (4, 15), (5, -15), (6, 2), (7, 2), (8, -7), (9, -8), (10, -9), (11, -7), (12, -8), (13, -9)]), (6, vecQ 14 4000 [(1, 1000), (3, -1000), (4, -250), (5, 250), (6, -2499), (7, 501), (8, 250), (10, -250), (11, -1), (12, -250), (13, 501)]), (7, vecQ 14 4000 [(1, 1000), (2, 2000), (3, -1000), (4, -250), (5, 250), (6, 501), (7, -2499), (8, 250), (10, -250), (11, -501), (12, 250), (13, 1)]), (8, vecQ 14 4000 [(0, 2000), (1, -500), (2, -500), (3, 500), (4, -1125), (5, -875), (6, 250), (7, 250), (8, 626), (9, 499), (10, 376), (11, 624), (12, 501), (13, 374)]), (9, vecQ 14 4000 [(0, 2000), (4, -1000), (5, -1000), (8, 499), (9, 501), (10, 499), (11, 501), (12, 499), (13, 501)]), (10, vecQ 14 4000 [(0, 2000), (1, 500), (2, 500), (3, -500), (4, -875), (5, -1125), (6, -250), (7, -250), (8, 376), (9, 499), (10, 626), (11, 374), (12, 501), (13, 624)]), (11, vecQ 14 4000 [(0, 2000), (1, -500), (3, 500), (4, -1125), (5, -875), (6, -1), (7, -501), (8, 624), (9, 501), (10, 374), (11, 1252), (12, 374)]), (12, vecQ 14 4000 [(0, 2000), (2, -500), (4, -1000), (5, -1000), (6, -250), (7, 250), (8, 501), (9, 499), (10, 501), (11, 374), (12, 626), (13, 374)]), (13, vecQ 14 4000 [(0, 2000), (1, 500), (2, 1000), (3, -500), (4, -875), (5, -1125), (6, 501), (7, 1), (8, 374), (9, 501), (10, 624), (12, 374), (13, 1252)])]⟩

/-- the nonlinear program of `dadmmLine3` is feasible -/
theorem C34_dadmmLine3_feasible : ∃ p, IpoptFeasible refCAS (dadmmLine3 0 (some 1) 1 1).prog stdParams p ∧ p "alpha" = 1 ∧ p "beta" = 1/2 ∧ p "delta" = 0 ∧ p "eta" = 1/1000 ∧ p "gamma" = 1 ∧ p "h" = 1 ∧ p "rho" = 1/1000 := by
  obtain ⟨p, hp, hv⟩ := feasible_of_checks (prog := (dadmmLine3 0 (some 1) 1 1).prog) refCAS_lawful stdParams_simple dadmmLine3Cert 40 (D := dadmmLine3D) (by decide +kernel)
    (by decide +kernel) (by decide +kernel)
  refine ⟨p, hp, ?_, ?_, ?_, ?_, ?_, ?_, ?_⟩ <;> rw [hv _ (by decide)]
  · rw [show dadmmLine3Cert.val "alpha" = 1 by decide +kernel]; norm_num
  · rw [show dadmmLine3Cert.val "beta" = 1/2 by decide +kernel]; norm_num
  · rw [show dadmmLine3Cert.val "delta" = 0 by decide +kernel]; norm_num
  · rw [show dadmmLine3Cert.val "eta" = 1/1000 by decide +kernel]; norm_num
  · rw [show dadmmLine3Cert.val "gamma" = 1 by decide +kernel]; norm_num
  · rw [show dadmmLine3Cert.val "h" = 1 by decide +kernel]; norm_num
  · rw [show dadmmLine3Cert.val "rho" = 1/1000 by decide +kernel]; norm_num

/-- certificate for `dadmmCycle4 0 (some 1) 1 1` at `alpha = 1`, `beta = 1/2`, `delta = 0`, `eta = 1/1000`, `gamma = 1`, `h = 1`, `rho = 1/1000` -/
def dadmmCycle4Cert : Cert where
  env := [("alpha", 1), ("beta", 1/2), ("delta", 0), ("eta", 1/1000), ("gamma", 1), ("h", 1), ("rho", 1/1000)]
  mult := [(.tup 0 0 0 1, 1), (.tup 0 0 1 0, 999/1000), (.tup 0 1 0 1, 1), (.tup 0 1 1 0, 999/1000), (.tup 0 2 0 1, 1), (.tup 0 2 1 0, 999/1000), (.tup 0 3 0 1, 1), (.tup 0 3 1 0, 999/1000)]
  L := [[], [], [0, 1/2], [0, 1/2, 1/3], [], [], [0, 0, 0, 0, 0, -1000/1999], [0, 0, 0, 0, 0, 1/1999, -2000/2999], [0, 0, 0, 0, 0, -1000/1999, -999/2999, -1], [0, 0, 0, 0, 0, 0, 1999/2996001, 1/1998, 0], [0, 0, 0, 0, 0, -1/1999, -1000/2996001, 1/1998, 0, -999/1999], [0, 0, 0, 0, 0, 0, -1999/2996001, -1/1998, 0, -1/1999, -999/1499], [0, 0, 0, 0, 0, 1/1999, 1000/2996001, -1/1998, 0, -999/1999, -500/1499, -1], [0, -1/2, 1/3, 1/4, 0, 1/3998, -1/5998, -1/1998, 0, -1/2, -1999/5996, -1/4, 0], [0, 0, -2/3, 1/4, 0, 1/3998, 1/1998, 0, 0, 1/2, -1999/5996, -1/4, 0, 1], [0, 0, 0, -3/4, 0, -1/3998, 1/5998, 1/1998, 0, 1/3998, 3997/5996, -1/4, 0, 1, 0], [0, 1/2, 1/3, 1/4, 0, -1/3998, -1/1998, 0, 0, -1/3998, 1/5996, 3/4, 0, 1, 0, 0]]
  d := [0, 1999/1000, 5997/4000, 1999/1500, 0, 1999/4000, 2996001/7996000, 999/2999, 0, 997501/1998000, 748001/1997001, 499/1499, 0, 2499/8000, 0, 0, 0]

/-- samples -/
def dadmmCycle4S0 : List Samp := [⟨vecQ 17 1 [(0, 1)], vecQ 17 1 [(1, 1)], vecQ 8 1 [(1, 1)]⟩,
  ⟨vecQ 17 2 [(5, 1), (8, 1), (9, 1), (12, -1), (13, -1)], vecQ 17 1 [(13, 1)], vecQ 8 1 [(4, 1)]⟩]
/-- samples -/
def dadmmCycle4S1 : List Samp := [⟨vecQ 17 1 [(0, 1)], vecQ 17 1 [(2, 1)], vecQ 8 1 [(2, 1)]⟩,
  ⟨vecQ 17 2 [(5, 1), (6, 1), (9, -1), (10, 1), (14, -1)], vecQ 17 1 [(14, 1)], vecQ 8 1 [(5, 1)]⟩]
/-- samples -/
def dadmmCycle4S2 : List Samp := [⟨vecQ 17 1 [(0, 1)], vecQ 17 1 [(3, 1)], vecQ 8 1 [(3, 1)]⟩,
  ⟨vecQ 17 2 [(6, 1), (7, 1), (10, -1), (11, 1), (15, -1)], vecQ 17 1 [(15, 1)], vecQ 8 1 [(6, 1)]⟩]
/-- samples -/
def dadmmCycle4S3 : List Samp := [⟨vecQ 17 1 [(0, 1)], vecQ 17 1 [(1, -1), (2, -1), (3, -1)], vecQ 8 1 [(0, 1), (1, -1), (2, -1), (3, -1)]⟩,
  ⟨vecQ 17 2 [(7, 1), (8, 1), (11, -1), (12, 1), (16, -1)], vecQ 17 1 [(16, 1)], vecQ 8 1 [(7, 1)]⟩]
/-- equality -/
def dadmmCycle4E0 : QuadQ := ⟨vecQ 8 1 [], rowsQ 17 []⟩
/-- equality -/
def dadmmCycle4E1 : QuadQ := ⟨vecQ 8 1 [], rowsQ 17 []⟩
/-- coordinates -/
def dadmmCycle4D : Coord where
  dimG := 17
  dimF := 8
  fns := [(.smoothConvex 1, dadmmCycle4S0), (.smoothConvex 1, dadmmCycle4S1), (.smoothConvex 1, dadmmCycle4S2), (.smoothConvex 1, dadmmCycle4S3)]
  eqs := [dadmmCycle4E0, dadmmCycle4E1]
  met := ⟨vecQ 8 1000 [(0, -1), (4, 1), (5, 1), (6, 1), (7, 1)], rowsQ 17 [(0, vecQ 17 2 [(13, 1), (14, 1), (15, 1), (16, 1)]), (1, vecQ 17 2000 [(5, 499), (7, -499), (9, 499), (11, 499), (12, -998), (13, -499), (16, 499)]), (2, vecQ 17 2000 [(5, 499), (6, 499), (7, -499), (8, -499), (9, -499), (10, 499), (11, 499), (12, -499), (14, -499), (16, 499)]), (3, vecQ 17 2000 [(6, 499), (8, -499), (10, -499), (11, 998), (12, -499), (15, -499), (16, 499)]), (5, vecQ 17 8000 [(1, 2000), (2, 2000), (5, -3998), (6, 2000), (7, -2), (8, 2000), (10, 2), (12, -2), (13, -2001), (14, -2001), (15, 1), (16, 1)]), (6, vecQ 17 8000 [(2, 2000), (3, 2000), (5, 2000), (6, -3998), (7, 2000), (8, -2), (9, -2), (11, 2), (13, 1), (14, -2001), (15, -2001), (16, 1)]), (7, vecQ 17 8000 [(1, -2000), (2, -2000), (5, -2), (6, 2000), (7, -3998), (8, 2000), (10, -2), (12, 2), (13, 1), (14, 1), (15, -2001), (16, -2001)]), (8, vecQ 17 8000 [(2, -2000), (3, -2000), (5, 2000), (6, -2), (7, 2000), (8, -3998), (9, 2), (11, -2), (13, -2001), (14, 1), (15, 1), (16, -2001)]), (9, vecQ 17 8000 [(1, 2000), (2, -2000), (6, -2), (8, 2), (9, -3994), (10, 1996), (11, 2), (12, 1996), (13, -3), (14, 3), (15, -1), (16, 1)]), (10, vecQ 17 8000 [(2, 2000), (3, -2000), (5, 2), (7, -2), (9, 1996), (10, -3994), (11, 1996), (12, 2), (13, 1), (14, -3), (15, 3), (16, -1)]), (11, vecQ 17 8000 [(1, 2000), (2, 2000), (3, 4000), (6, 2), (8, -2), (9, 2), (10, 1996), (11, -3994), (12, 1996), (13, -1), (14, 1), (15, -3), (16, 3)]), (12, vecQ 17 8000 [(1, -4000), (2, -2000), (3, -2000), (5, -2), (7, 2), (9, 1996), (10, 2), (11, 1996), (12, -3994), (13, 3), (14, -1), (15, 1), (16, -3)]), (13, vecQ 17 8000 [(0, 4000), (1, -2000), (5, -2001), (6, 1), (7, 1), (8, -2001), (9, -3), (10, 1), (11, -1), (12, 3), (13, 2002), (14, -1), (16, -1)]), (14, vecQ 17 8000 [(0, 4000), (2, -2000), (5, -2001), (6, -2001), (7, 1), (8, 1), (9, 3), (10, -3), (11, 1), (12, -1), (13, -1), (14, 2002), (15, -1)]), (15, vecQ 17 8000 [(0, 4000), (3, -2000), (5, 1), (6, -2001), (7, -2001), (8, 1), (9, -1), (10, 3), (11, -3), (12, 1), (14, -1), (15, 2002), (16, -1)]), (16, vecQ 17 8000 [(0, 4000), (1, 2000), (2, 2000), (3, 2000), (5, 1), (6, 1), (7, -2001), (8, -2001), (9, 1), (10, -1), (11, 3), (12, -3), (13, -1), (15, -1), (16, 2002)])]⟩

/-- the nonlinear program of `dadmmCycle4` is feasible -/
theorem C34_dadmmCycle4_feasible : ∃ p, IpoptFeasible refCAS (dadmmCycle4 0 (some 1) 1 1).prog stdParams p ∧ p "alpha" = 1 ∧ p "beta" = 1/2 ∧ p "delta" = 0 ∧ p "eta" = 1/1000 ∧ p "gamma" = 1 ∧ p "h" = 1 ∧ p "rho" = 1/1000 := by
  obtain ⟨p, hp, hv⟩ := feasible_of_checks (prog := (dadmmCycle4 0 (some 1) 1 1).prog) refCAS_lawful stdParams_simple dadmmCycle4Cert 42 (D := dadmmCycle4D) (by decide +kernel)
    (by decide +kernel) (by decide +kernel)
  refine ⟨p, hp, ?_, ?_, ?_, ?_, ?_, ?_, ?_⟩ <;> rw [hv _ (by decide)]
  · rw [show dadmmCycle4Cert.val "alpha" = 1 by decide +kernel]; norm_num
  · rw [show dadmmCycle4Cert.val "beta" = 1/2 by decide +kernel]; norm_num
  · rw [show dadmmCycle4Cert.val "delta" = 0 by decide +kernel]; norm_num
  · rw [show dadmmCycle4Cert.val "eta" = 1/1000 by decide +kernel]; norm_num
  · rw [show dadmmCycle4Cert.val "gamma" = 1 by decide +kernel]; norm_num
  · rw [show dadmmCycle4Cert.val "h" = 1 by decide +kernel]; norm_num
  · rw [show dadmmCycle4Cert.val "rho" = 1/1000 by decide +kernel]; norm_num

/-- certificate for `exampleFC3RC 0 (some 1) 1 1` at `alpha = 1`, `beta = 1/2`, `delta = 0`, `eta = 1/1000`, `gamma = 0`, `h = 1/2`, `rho = 1/1000` -/
def exampleFC3RCCert : Cert where
  env := [("alpha", 1), ("beta", 1/2), ("delta", 0), ("eta", 1/1000), ("gamma", 0), ("h", 1/2), ("rho", 1/1000)]
  mult := [(.tup 0 0 0 1, 249/1000), (.tup 0 0 0 2, 1/4), (.tup 0 0 1 0, 499/1000), (.tup 0 0 1 2, 3/4), (.tup 0 0 1 3, 2), (.tup 0 0 2 1, 1), (.tup 0 0 2 3, 9), (.tup 0 0 3 1, 2), (.tup 0 0 3 2, 9)]
  L := [[], [], [], [0, 0, -40625/30497], [0, 0, 67500/30497, 161657875/372226143], [0, 0, -34000/30497, -595584500/372226143, -26142135259/29248412390]]
  d := [0, 0, 91491/256000, 372226143/121988000, 14624206195/1488904572, 92930485663/233987299120]

/-- samples -/
def exampleFC3RCS0 : List Samp := [⟨vecQ 6 1 [(0, 1)], vecQ 6 1 [], vecQ 4 1 [(0, 1)]⟩,
  ⟨vecQ 6 2 [(1, 2), (3, -1)], vecQ 6 1 [(3, 1)], vecQ 4 1 [(1, 1)]⟩,
  ⟨vecQ 6 8 [(1, 8), (2, -3), (3, -5), (4, -4)], vecQ 6 1 [(4, 1)], vecQ 4 1 [(2, 1)]⟩,
  ⟨vecQ 6 64 [(1, 64), (2, -15), (3, -17), (4, -20), (5, -32)], vecQ 6 1 [(5, 1)], vecQ 4 1 [(3, 1)]⟩]
/-- coordinates -/
def exampleFC3RCD : Coord where
  dimG := 6
  dimF := 4
  fns := [(.smoothConvex 1, exampleFC3RCS0)]
  eqs := []
  met := ⟨vecQ 4 1 [], rowsQ 6 [(0, vecQ 6 1000 [(3, 124), (4, 125)]), (1, vecQ 6 1000 [(3, -124), (4, -125)]), (2, vecQ 6 256000 [(2, -91491), (3, 13875), (4, 7500)]), (3, vecQ 6 2048 [(0, 256), (1, -256), (2, 111), (3, 65), (4, 68)]), (4, vecQ 6 512 [(0, 64), (1, -64), (2, 15), (3, 17), (4, 20)])]⟩

/-- the nonlinear program of `exampleFC3RC` is feasible -/
theorem C34_exampleFC3RC_feasible : ∃ p, IpoptFeasible refCAS (exampleFC3RC 0 (some 1) 1 1).prog stdParams p ∧ p "alpha" = 1 ∧ p "beta" = 1/2 ∧ p "delta" = 0 ∧ p "eta" = 1/1000 ∧ p "gamma" = 0 ∧ p "h" = 1/2 ∧ p "rho" = 1/1000 := by
  obtain ⟨p, hp, hv⟩ := feasible_of_checks (prog := (exampleFC3RC 0 (some 1) 1 1).prog) refCAS_lawful stdParams_simple exampleFC3RCCert 17 (D := exampleFC3RCD) (by decide +kernel)
    (by decide +kernel) (by decide +kernel)
  refine ⟨p, hp, ?_, ?_, ?_, ?_, ?_, ?_, ?_⟩ <;> rw [hv _ (by decide)]
  · rw [show exampleFC3RCCert.val "alpha" = 1 by decide +kernel]; norm_num
  · rw [show exampleFC3RCCert.val "beta" = 1/2 by decide +kernel]; norm_num
  · rw [show exampleFC3RCCert.val "delta" = 0 by decide +kernel]; norm_num
  · rw [show exampleFC3RCCert.val "eta" = 1/1000 by decide +kernel]; norm_num
  · rw [show exampleFC3RCCert.val "gamma" = 0 by decide +kernel]; norm_num
  · rw [show exampleFC3RCCert.val "h" = 1/2 by decide +kernel]; norm_num
  · rw [show exampleFC3RCCert.val "rho" = 1/1000 by decide +kernel]; norm_num

end Verif

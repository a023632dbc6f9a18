/-
Sets of states of the session model that are closed under all steps, as search trees of state numbers (`wCode`). The numbers were computed by
exploring the model; nothing is assumed about them, `Proofs/Session` checks that the sets contain the start state and are closed.
-/
import Verif.Proofs.SessionCode

namespace Verif.Session

def serverStatesllll : Tree := (.node (.node (.node (.node (.node (.node .leaf 2097152 .leaf) 2097156 (.node .leaf 2097172 .leaf)) 5357568 (.node (.node .leaf 481041580032 .leaf) 481041584128 (.node .leaf 2199028502528 .leaf))) 2199032700928 (.node (.node (.node .leaf 2199137673216 .leaf) 2199137677312 (.node .leaf 2206007926784 .leaf)) 2206272184320 (.node (.node .leaf 2206272188416 .leaf) 2714533625856 (.node .leaf 2714533736448 .leaf)))) 2721668136960 (.node (.node (.node (.node .leaf 2721668247552 .leaf) 2731713495040 (.node .leaf 2731713605632 .leaf)) 2738848006144 (.node (.node .leaf 2738848116736 .leaf) 5497668354048 (.node .leaf 5497668366336 .leaf))) 5504542818304 (.node (.node (.node .leaf 5504647688192 .leaf) 5978704576512 (.node .leaf 5978704683008 .leaf)) 5985579040768 (.node (.node .leaf 5985579044864 .leaf) 5985579147264 .leaf)))) 6030244184064 (.node (.node (.node (.node (.node .leaf 6030244290560 .leaf) 6037223505920 (.node .leaf 6037223612416 .leaf)) 6597079212032 (.node (.node .leaf 6597184184320 .leaf) 6597184188416 (.node .leaf 6604318695424 .leaf))) 6604318699520 (.node (.node (.node .leaf 7112580136960 .leaf) 7112580247552 (.node .leaf 7119714648064 .leaf)) 7119714758656 (.node (.node .leaf 7129760006144 .leaf) 7129760116736 (.node .leaf 7136894517248 .leaf)))) 7136894627840 (.node (.node (.node (.node .leaf 7696586641408 .leaf) 7696855076864 (.node .leaf 7696959934464 .leaf)) 7323853937295360 (.node (.node .leaf 7323853937307648 .leaf) 7323854042152960 (.node .leaf 7323854042165248 .leaf))) 7324334973517824 (.node (.node (.node .leaf 7324334973521920 .leaf) 7324334973624320 (.node .leaf 7324335078375424 .leaf)) 7324335078481920 (.node (.node .leaf 7324386513125376 .leaf) 7324386513129472 .leaf)))))

def serverStateslllr : Tree := (.node (.node (.node (.node (.node (.node .leaf 7324386617982976 .leaf) 7324386618089472 (.node .leaf 7324946473689088 .leaf)) 7324946578661376 (.node (.node .leaf 7324946578665472 .leaf) 7324953713172480 (.node .leaf 7324953713176576 .leaf))) 7325461974614016 (.node (.node (.node .leaf 7325461974724608 .leaf) 7325469109125120 (.node .leaf 7325469109235712 .leaf)) 7325479154483200 (.node (.node .leaf 7325479154593792 .leaf) 7325486288994304 (.node .leaf 7325486289104896 .leaf)))) 7326046249553920 (.node (.node (.node (.node .leaf 7326046354411520 .leaf) 18016597546381322 (.node .leaf 18016597546487818 .leaf)) 18016597550579722 (.node (.node .leaf 18016597550682122 .leaf) 18016597558976522 (.node .leaf 18016597559070730 .leaf))) 18016597563174922 (.node (.node (.node .leaf 18016597647155202 .leaf) 18016597647155210 (.node .leaf 18016597647159298 .leaf)) 18016597647159306 (.node (.node .leaf 18016598875983882 .leaf) 18016598876082186 .leaf)))) 18016604781666306 (.node (.node (.node (.node (.node .leaf 18016604781666314 .leaf) 18016604781670402 (.node .leaf 18016604781670410 .leaf)) 18017095762575370 (.node (.node .leaf 18017095762587658 .leaf) 18017095766769674 (.node .leaf 18017095766786058 .leaf))) 18017095775158282 (.node (.node (.node .leaf 18017095775182858 .leaf) 18017097092169738 (.node .leaf 18017097092190218 .leaf)) 18017113043107842 (.node (.node .leaf 18017113043107850 .leaf) 18017113043218434 .leaf))) 18017113043218442 (.node (.node (.node (.node .leaf 18017120177618946 .leaf) 18017120177618954 (.node .leaf 18017120177729538 .leaf)) 18017120177729546 (.node (.node .leaf 18017130222977026 .leaf) 18017130222977034 (.node .leaf 18017130223087618 .leaf))) 18017130223087626 (.node (.node (.node .leaf 18017137357488130 .leaf) 18017137357488138 (.node .leaf 18017137357598722 .leaf)) 18017137357598730 (.node (.node .leaf 18020995592892426 .leaf) 18020995592998922 .leaf)))))

def serverStateslll : Tree := .node serverStatesllll 7324386513231872 serverStateslllr

def serverStatesllrl : Tree := (.node (.node (.node (.node (.node (.node .leaf 18020995597193226 .leaf) 18020995605487626 (.node .leaf 18020995605581834 .leaf)) 18020995609686026 (.node (.node .leaf 18020995693666306 .leaf) 18020995693666314 (.node .leaf 18020995693670402 .leaf))) 18020995693670410 (.node (.node (.node .leaf 18020996922494986 .leaf) 18020996922593290 (.node .leaf 18021002828177410 .leaf)) 18021002828177418 (.node (.node .leaf 18021002828181506 .leaf) 18021002828181514 (.node .leaf 18021493809086474 .leaf)))) 18021493809098762 (.node (.node (.node (.node .leaf 18021493813280778 .leaf) 18021493813297162 (.node .leaf 18021493821669386 .leaf)) 18021493821693962 (.node (.node .leaf 18021495138680842 .leaf) 18021495138701322 (.node .leaf 18021511089618946 .leaf))) 18021511089618954 (.node (.node (.node .leaf 18021511089729538 .leaf) 18021511089729546 (.node .leaf 18021518224130050 .leaf)) 18021518224130058 (.node (.node .leaf 18021518224240642 .leaf) 18021518224240650 .leaf)))) 18021528269488130 (.node (.node (.node (.node (.node .leaf 18021528269488138 .leaf) 18021528269598722 (.node .leaf 18021528269598730 .leaf)) 18021535403999234 (.node (.node .leaf 18021535403999242 .leaf) 18021535404109826 (.node .leaf 18021535404109834 .leaf))) 25339344987369482 (.node (.node (.node .leaf 25339344987475978 .leaf) 25339344991567882 (.node .leaf 25339344991670282 .leaf)) 25339344999964682 (.node (.node .leaf 25339345000058890 .leaf) 25339345004163082 (.node .leaf 25339345088143362 .leaf)))) 25339345088143370 (.node (.node (.node (.node .leaf 25339345088147458 .leaf) 25339345088147466 (.node .leaf 25339346316972042 .leaf)) 25339346317070346 (.node (.node .leaf 25339352222654466 .leaf) 25339352222654474 (.node .leaf 25339352222658562 .leaf))) 25339352222658570 (.node (.node (.node .leaf 25339843203563530 .leaf) 25339843203575818 (.node .leaf 25339843207757834 .leaf)) 25339843207774218 (.node (.node .leaf 25339843216146442 .leaf) 25339843216171018 .leaf)))))

def serverStatesllrr : Tree := (.node (.node (.node (.node (.node (.node .leaf 25339844533178378 .leaf) 25339860484096002 (.node .leaf 25339860484096010 .leaf)) 25339860484206594 (.node (.node .leaf 25339860484206602 .leaf) 25339867618607106 (.node .leaf 25339867618607114 .leaf))) 25339867618717698 (.node (.node (.node .leaf 25339867618717706 .leaf) 25339877663965186 (.node .leaf 25339877663965194 .leaf)) 25339877664075778 (.node (.node .leaf 25339877664075786 .leaf) 25339884798476290 (.node .leaf 25339884798476298 .leaf)))) 25339884798586882 (.node (.node (.node (.node .leaf 25339884798586890 .leaf) 144115188077953172 (.node .leaf 144115188077953684 .leaf)) 144115188077954196 (.node (.node .leaf 144115188077954708 .leaf) 144115188077955220 (.node .leaf 162131785723011210 .leaf))) 162131785723011722 (.node (.node (.node .leaf 162131785723012234 .leaf) 162131785723012746 (.node .leaf 162131785723013258 .leaf)) 162131785723015306 (.node (.node .leaf 162131785723015818 .leaf) 162131785723016330 .leaf)))) 162131785723016842 (.node (.node (.node (.node (.node .leaf 162131785723017354 .leaf) 162131792857522314 (.node .leaf 162131792857522826 .leaf)) 162131792857523338 (.node (.node .leaf 162131792857523850 .leaf) 162131792857524362 (.node .leaf 162131792857526410 .leaf))) 162131792857526922 (.node (.node (.node .leaf 162131792857527434 .leaf) 162131792857527946 (.node .leaf 162131792857528458 .leaf)) 162132301118963850 (.node (.node .leaf 162132301118964362 .leaf) 162132301118964874 .leaf))) 162132301118965386 (.node (.node (.node (.node .leaf 162132301118965898 .leaf) 162132301119074442 (.node .leaf 162132301119074954 .leaf)) 162132301119075466 (.node (.node .leaf 162132301119075978 .leaf) 162132301119076490 (.node .leaf 162132308253474954 .leaf))) 162132308253475466 (.node (.node (.node .leaf 162132308253475978 .leaf) 162132308253476490 (.node .leaf 162132308253477002 .leaf)) 162132308253585546 (.node (.node .leaf 162132308253586058 .leaf) 162132308253586570 .leaf)))))

def serverStatesllr : Tree := .node serverStatesllrl 25339844533157898 serverStatesllrr

def serverStatesll : Tree := .node serverStateslll 18020995597090826 serverStatesllr

def serverStateslrll : Tree := (.node (.node (.node (.node (.node (.node .leaf 162132308253587594 .leaf) 162132318298833034 (.node .leaf 162132318298833546 .leaf)) 162132318298834058 (.node (.node .leaf 162132318298834570 .leaf) 162132318298835082 (.node .leaf 162132318298943626 .leaf))) 162132318298944138 (.node (.node (.node .leaf 162132318298944650 .leaf) 162132318298945162 (.node .leaf 162132318298945674 .leaf)) 162132325433344138 (.node (.node .leaf 162132325433344650 .leaf) 162132325433345162 (.node .leaf 162132325433345674 .leaf)))) 162132325433346186 (.node (.node (.node (.node .leaf 162132325433454730 .leaf) 162132325433455242 (.node .leaf 162132325433455754 .leaf)) 162132325433456266 (.node (.node .leaf 162132325433456778 .leaf) 162136183769522314 (.node .leaf 162136183769522826 .leaf))) 162136183769523338 (.node (.node (.node .leaf 162136183769523850 .leaf) 162136183769524362 (.node .leaf 162136183769526410 .leaf)) 162136183769526922 (.node (.node .leaf 162136183769527434 .leaf) 162136183769527946 .leaf)))) 162136183769528458 (.node (.node (.node (.node (.node .leaf 162136190904033418 .leaf) 162136190904033930 (.node .leaf 162136190904034442 .leaf)) 162136190904034954 (.node (.node .leaf 162136190904035466 .leaf) 162136190904037514 (.node .leaf 162136190904038026 .leaf))) 162136190904038538 (.node (.node (.node .leaf 162136190904039050 .leaf) 162136190904039562 (.node .leaf 162136699165474954 .leaf)) 162136699165475466 (.node (.node .leaf 162136699165475978 .leaf) 162136699165476490 (.node .leaf 162136699165477002 .leaf)))) 162136699165585546 (.node (.node (.node (.node .leaf 162136699165586058 .leaf) 162136699165586570 (.node .leaf 162136699165587082 .leaf)) 162136699165587594 (.node (.node .leaf 162136706299986058 .leaf) 162136706299986570 (.node .leaf 162136706299987082 .leaf))) 162136706299987594 (.node (.node (.node .leaf 162136706299988106 .leaf) 162136706300096650 (.node .leaf 162136706300097162 .leaf)) 162136706300097674 (.node (.node .leaf 162136706300098186 .leaf) 162136706300098698 .leaf)))))

def serverStateslrlr : Tree := (.node (.node (.node (.node (.node (.node .leaf 162136716345344650 .leaf) 162136716345345162 (.node .leaf 162136716345345674 .leaf)) 162136716345346186 (.node (.node .leaf 162136716345454730 .leaf) 162136716345455242 (.node .leaf 162136716345455754 .leaf))) 162136716345456266 (.node (.node (.node .leaf 162136716345456778 .leaf) 162136723479855242 (.node .leaf 162136723479855754 .leaf)) 162136723479856266 (.node (.node .leaf 162136723479856778 .leaf) 162136723479857290 (.node .leaf 162136723479965834 .leaf)))) 162136723479966346 (.node (.node (.node (.node .leaf 162136723479966858 .leaf) 162136723479967370 (.node .leaf 162136723479967882 .leaf)) 169454533163999370 (.node (.node .leaf 169454533163999882 .leaf) 169454533164000394 (.node .leaf 169454533164000906 .leaf))) 169454533164001418 (.node (.node (.node .leaf 169454533164003466 .leaf) 169454533164003978 (.node .leaf 169454533164004490 .leaf)) 169454533164005002 (.node (.node .leaf 169454533164005514 .leaf) 169454540298510474 .leaf)))) 169454540298510986 (.node (.node (.node (.node (.node .leaf 169454540298511498 .leaf) 169454540298512010 (.node .leaf 169454540298512522 .leaf)) 169454540298514570 (.node (.node .leaf 169454540298515082 .leaf) 169454540298515594 (.node .leaf 169454540298516106 .leaf))) 169454540298516618 (.node (.node (.node .leaf 169455048559952010 .leaf) 169455048559952522 (.node .leaf 169455048559953034 .leaf)) 169455048559953546 (.node (.node .leaf 169455048559954058 .leaf) 169455048560062602 .leaf))) 169455048560063114 (.node (.node (.node (.node .leaf 169455048560063626 .leaf) 169455048560064138 (.node .leaf 169455048560064650 .leaf)) 169455055694463114 (.node (.node .leaf 169455055694463626 .leaf) 169455055694464138 (.node .leaf 169455055694464650 .leaf))) 169455055694465162 (.node (.node (.node .leaf 169455055694573706 .leaf) 169455055694574218 (.node .leaf 169455055694574730 .leaf)) 169455055694575242 (.node (.node .leaf 169455055694575754 .leaf) 169455065739821194 .leaf)))))

def serverStateslrl : Tree := .node serverStateslrll 162136716345344138 serverStateslrlr

def serverStateslrrl : Tree := (.node (.node (.node (.node (.node (.node .leaf 169455065739822218 .leaf) 169455065739822730 (.node .leaf 169455065739823242 .leaf)) 169455065739931786 (.node (.node .leaf 169455065739932298 .leaf) 169455065739932810 (.node .leaf 169455065739933322 .leaf))) 169455065739933834 (.node (.node (.node .leaf 169455072874332298 .leaf) 169455072874332810 (.node .leaf 169455072874333322 .leaf)) 169455072874333834 (.node (.node .leaf 169455072874334346 .leaf) 169455072874442890 (.node .leaf 169455072874443402 .leaf)))) 169455072874443914 (.node (.node (.node (.node .leaf 169455072874444426 .leaf) 169455072874444938 (.node .leaf 1237940039375454466521219210 .leaf)) 1237940039375454469423673482 (.node (.node .leaf 1237940039375454469423747210 .leaf) 1237940039375454967639834762 (.node .leaf 1237940039375454967639879818 .leaf))) 1237940039375454969036918922 (.node (.node (.node .leaf 1237940039375454969036919946 .leaf) 1237940039375458864567730314 (.node .leaf 1237940039375458867470184586 .leaf)) 1237940039375458867470258314 (.node (.node .leaf 1237940039375459365686345866 .leaf) 1237940039375459365686390922 .leaf)))) 1237940039375459367083430026 (.node (.node (.node (.node (.node .leaf 1237940039375459367083431050 .leaf) 1237940039382777213962207370 (.node .leaf 1237940039382777216864661642 .leaf)) 1237940039382777216864735370 (.node (.node .leaf 1237940039382777715080822922 .leaf) 1237940039382777715080867978 (.node .leaf 1237940039382777716477907082 .leaf))) 1237940039382777716477908106 (.node (.node (.node .leaf 1237940043698910108801093770 .leaf) 1237940043698910108801159306 (.node .leaf 1237940043698910607017246858 .leaf)) 1237940043698910607017300106 (.node (.node .leaf 1237940043698910607017570442 .leaf) 1237940043698910607017627786 (.node .leaf 1237940043698914506847604874 .leaf)))) 1237940043698914506847670410 (.node (.node (.node (.node .leaf 1237940043698915005063757962 .leaf) 1237940043698915005063811210 (.node .leaf 1237940043698915005064081546 .leaf)) 1237940043698915005064138890 (.node (.node .leaf 1237940043706232856242081930 .leaf) 1237940043706232856242147466 (.node .leaf 1237940043706233354458235018 .leaf))) 1237940043706233354458288266 (.node (.node (.node .leaf 1237940043706233354458558602 .leaf) 1237940043706233354458615946 (.node .leaf 1237940205396151129890656394 .leaf)) 1237940205396155527937167498 (.node (.node .leaf 1237940205403473877331644554 .leaf) 1237940223842895203600212106 .leaf)))))

def serverStateslrrr : Tree := (.node (.node (.node (.node (.node (.node .leaf 1237940223842899601646723210 .leaf) 1237940223842899601646801034 (.node .leaf 1237940223850217951041200266 .leaf)) 1237940223850217951041278090 (.node (.node .leaf 1237940297629872000916115594 .leaf) 1237940297629872000916116106 (.node .leaf 1237940297629872000916116618 .leaf))) 1237940297629872000916117130 (.node (.node (.node .leaf 1237940297629876398962626698 .leaf) 1237940297629876398962627210 (.node .leaf 1237940297629876398962627722 .leaf)) 1237940297629876398962628234 (.node (.node .leaf 1237940297637194748357103754 .leaf) 1237940297637194748357104266 (.node .leaf 1237940297637194748357104778 .leaf)))) 1237940297637194748357105290 (.node (.node (.node (.node .leaf 1237940301953327638896763018 .leaf) 1237940301953327638896763530 (.node .leaf 1237940301953327638896824458 .leaf)) 1237940301953327638896824970 (.node (.node .leaf 1237940301953332036943274122 .leaf) 1237940301953332036943274634 (.node .leaf 1237940301953332036943335562 .leaf))) 1237940301953332036943336074 (.node (.node (.node .leaf 1237940301960650386337751178 .leaf) 1237940301960650386337751690 (.node .leaf 1237940301960650386337812618 .leaf)) 1237940301960650386337813130 (.node (.node .leaf 1237974276532455275748249738 .leaf) 1237974276532455275748250762 .leaf)))) 1237974276532455773964337290 (.node (.node (.node (.node (.node .leaf 1237974276532455773964338314 .leaf) 1237974276532455773964390538 (.node .leaf 1237974276532455773964391562 .leaf)) 1237974276532455773964402826 (.node (.node .leaf 1237974276532455773964403850 .leaf) 1237974276532459673794760842 (.node .leaf 1237974276532459673794761866 .leaf))) 1237974276532460172010848394 (.node (.node (.node .leaf 1237974276532460172010849418 .leaf) 1237974276532460172010901642 (.node .leaf 1237974276532460172010902666 .leaf)) 1237974276532460172010913930 (.node (.node .leaf 1237974276532460172010914954 .leaf) 1237974276539778023189237898 .leaf))) 1237974276539778023189238922 (.node (.node (.node (.node .leaf 1237974276539778521405325450 .leaf) 1237974276539778521405326474 (.node .leaf 1237974276539778521405378698 .leaf)) 1237974276539778521405379722 (.node (.node .leaf 1237974276539778521405390986 .leaf) 1237974276539778521405392010 (.node .leaf 1237974280855910913728958602 .leaf))) 1237974280855911411945046154 (.node (.node (.node .leaf 1237974280855911411945099402 .leaf) 1237974280855911411945369738 (.node .leaf 1237974280855915311775469706 .leaf)) 1237974280855915809991557258 (.node (.node .leaf 1237974280855915809991610506 .leaf) 1237974280855915809991880842 .leaf)))))

def serverStateslrr : Tree := .node serverStateslrrl 1237940223842895203600289930 serverStateslrrr

def serverStateslr : Tree := .node serverStateslrl 169455065739821706 serverStateslrr

def serverStatesl : Tree := .node serverStatesll 162132308253587082 serverStateslr

def serverStatesrlll : Tree := (.node (.node (.node (.node (.node (.node .leaf 1237974280863234159386034314 .leaf) 1237974280863234159386087562 (.node .leaf 1237974280863234159386357898 .leaf)) 1237974460999896008527708298 (.node (.node .leaf 1237974460999896008527741066 .leaf) 1237974460999896008528011402 (.node .leaf 1237974460999900406574219402 .leaf))) 1237974460999900406574252170 (.node (.node (.node .leaf 1237974460999900406574522506 .leaf) 1237974461007218755968696458 (.node .leaf 1237974461007218755968729226 .leaf)) 1237974461007218755968999562 (.node (.node .leaf 1237974534786872307627446410 .leaf) 1237974534786872307627446922 (.node .leaf 1237974534786872307627447434 .leaf)))) 1237974534786872307627447946 (.node (.node (.node (.node .leaf 1237974534786872805843533962 .leaf) 1237974534786872805843534474 (.node .leaf 1237974534786872805843534986 .leaf)) 1237974534786872805843535498 (.node (.node .leaf 1237974534786872805843599498 .leaf) 1237974534786872805843600010 (.node .leaf 1237974534786872805843600522 .leaf))) 1237974534786872805843601034 (.node (.node (.node .leaf 1237974534786872805843853450 .leaf) 1237974534786872805843853962 (.node .leaf 1237974534786872805843854474 .leaf)) 1237974534786872805843854986 (.node (.node .leaf 1237974534786876705673957514 .leaf) 1237974534786876705673958026 .leaf)))) 1237974534786876705673958538 (.node (.node (.node (.node (.node .leaf 1237974534786876705673959050 .leaf) 1237974534786877203890045066 (.node .leaf 1237974534786877203890045578 .leaf)) 1237974534786877203890046090 (.node (.node .leaf 1237974534786877203890046602 .leaf) 1237974534786877203890110602 (.node .leaf 1237974534786877203890111114 .leaf))) 1237974534786877203890111626 (.node (.node (.node .leaf 1237974534786877203890112138 .leaf) 1237974534786877203890364554 (.node .leaf 1237974534786877203890365066 .leaf)) 1237974534786877203890365578 (.node (.node .leaf 1237974534786877203890366090 .leaf) 1237974534794195055068434570 (.node .leaf 1237974534794195055068435082 .leaf)))) 1237974534794195055068435594 (.node (.node (.node (.node .leaf 1237974534794195055068436106 .leaf) 1237974534794195553284522122 (.node .leaf 1237974534794195553284522634 .leaf)) 1237974534794195553284523146 (.node (.node .leaf 1237974534794195553284523658 .leaf) 1237974534794195553284587658 (.node .leaf 1237974534794195553284588170 .leaf))) 1237974534794195553284588682 (.node (.node (.node .leaf 1237974534794195553284589194 .leaf) 1237974534794195553284841610 (.node .leaf 1237974534794195553284842122 .leaf)) 1237974534794195553284842634 (.node (.node .leaf 1237974534794195553284843146 .leaf) 1237974539110327945608155274 .leaf)))))

def serverStatesrllr : Tree := (.node (.node (.node (.node (.node (.node .leaf 1237974539110328443824242826 .leaf) 1237974539110328443824243338 (.node .leaf 1237974539110328443824562314 .leaf)) 1237974539110328443824562826 (.node (.node .leaf 1237974539110328443824566410 .leaf) 1237974539110328443824566922 (.node .leaf 1237974539110332343654666378 .leaf))) 1237974539110332343654666890 (.node (.node (.node .leaf 1237974539110332841870753930 .leaf) 1237974539110332841870754442 (.node .leaf 1237974539110332841871073418 .leaf)) 1237974539110332841871073930 (.node (.node .leaf 1237974539110332841871077514 .leaf) 1237974539110332841871078026 (.node .leaf 1237974539117650693049143434 .leaf)))) 1237974539117650693049143946 (.node (.node (.node (.node .leaf 1237974539117651191265230986 .leaf) 1237974539117651191265231498 (.node .leaf 1237974539117651191265550474 .leaf)) 1237974539117651191265550986 (.node (.node .leaf 1237974539117651191265554570 .leaf) 1237974539117651191265555082 (.node .leaf 9903520314427157387270947284 .leaf))) 9903520314427157387270947796 (.node (.node (.node .leaf 9903520314427157387270948308 .leaf) 9903520314427157387270948820 (.node .leaf 9903520314427157387270949332 .leaf)) 9903520314445173984916005322 (.node (.node .leaf 9903520314445173984916005834 .leaf) 9903520314445173984916006346 .leaf)))) 9903520314445173984916006858 (.node (.node (.node (.node (.node .leaf 9903520314445173984916007370 .leaf) 9903520314445173984916009418 (.node .leaf 9903520314445173984916009930 .leaf)) 9903520314445173984916010442 (.node (.node .leaf 9903520314445173984916010954 .leaf) 9903520314445173984916011466 (.node .leaf 9903520314445173992050516426 .leaf))) 9903520314445173992050516938 (.node (.node (.node .leaf 9903520314445173992050517450 .leaf) 9903520314445173992050517962 (.node .leaf 9903520314445173992050518474 .leaf)) 9903520314445173992050520522 (.node (.node .leaf 9903520314445173992050521034 .leaf) 9903520314445173992050521546 .leaf))) 9903520314445173992050522058 (.node (.node (.node (.node .leaf 9903520314445173992050522570 .leaf) 9903520314445174500311957962 (.node .leaf 9903520314445174500311958474 .leaf)) 9903520314445174500311958986 (.node (.node .leaf 9903520314445174500311959498 .leaf) 9903520314445174500311960010 (.node .leaf 9903520314445174500312068554 .leaf))) 9903520314445174500312069066 (.node (.node (.node .leaf 9903520314445174500312069578 .leaf) 9903520314445174500312070090 (.node .leaf 9903520314445174500312070602 .leaf)) 9903520314445174507446469066 (.node (.node .leaf 9903520314445174507446469578 .leaf) 9903520314445174507446470090 .leaf)))))

def serverStatesrll : Tree := .node serverStatesrlll 1237974539110327945608155786 serverStatesrllr

def serverStatesrlrl : Tree := (.node (.node (.node (.node (.node (.node .leaf 9903520314445174507446471114 .leaf) 9903520314445174507446579658 (.node .leaf 9903520314445174507446580170 .leaf)) 9903520314445174507446580682 (.node (.node .leaf 9903520314445174507446581194 .leaf) 9903520314445174507446581706 (.node .leaf 9903520314445174517491827146 .leaf))) 9903520314445174517491827658 (.node (.node (.node .leaf 9903520314445174517491828170 .leaf) 9903520314445174517491828682 (.node .leaf 9903520314445174517491829194 .leaf)) 9903520314445174517491937738 (.node (.node .leaf 9903520314445174517491938250 .leaf) 9903520314445174517491938762 (.node .leaf 9903520314445174517491939274 .leaf)))) 9903520314445174517491939786 (.node (.node (.node (.node .leaf 9903520314445174524626338250 .leaf) 9903520314445174524626338762 (.node .leaf 9903520314445174524626339274 .leaf)) 9903520314445174524626339786 (.node (.node .leaf 9903520314445174524626340298 .leaf) 9903520314445174524626448842 (.node .leaf 9903520314445174524626449354 .leaf))) 9903520314445174524626449866 (.node (.node (.node .leaf 9903520314445174524626450378 .leaf) 9903520314445174524626450890 (.node .leaf 9903520314445178382962516426 .leaf)) 9903520314445178382962516938 (.node (.node .leaf 9903520314445178382962517450 .leaf) 9903520314445178382962517962 .leaf)))) 9903520314445178382962518474 (.node (.node (.node (.node (.node .leaf 9903520314445178382962520522 .leaf) 9903520314445178382962521034 (.node .leaf 9903520314445178382962521546 .leaf)) 9903520314445178382962522058 (.node (.node .leaf 9903520314445178382962522570 .leaf) 9903520314445178390097027530 (.node .leaf 9903520314445178390097028042 .leaf))) 9903520314445178390097028554 (.node (.node (.node .leaf 9903520314445178390097029066 .leaf) 9903520314445178390097029578 (.node .leaf 9903520314445178390097031626 .leaf)) 9903520314445178390097032138 (.node (.node .leaf 9903520314445178390097032650 .leaf) 9903520314445178390097033162 (.node .leaf 9903520314445178390097033674 .leaf)))) 9903520314445178898358469066 (.node (.node (.node (.node .leaf 9903520314445178898358469578 .leaf) 9903520314445178898358470090 (.node .leaf 9903520314445178898358470602 .leaf)) 9903520314445178898358471114 (.node (.node .leaf 9903520314445178898358579658 .leaf) 9903520314445178898358580170 (.node .leaf 9903520314445178898358580682 .leaf))) 9903520314445178898358581194 (.node (.node (.node .leaf 9903520314445178898358581706 .leaf) 9903520314445178905492980170 (.node .leaf 9903520314445178905492980682 .leaf)) 9903520314445178905492981194 (.node (.node .leaf 9903520314445178905492981706 .leaf) 9903520314445178905492982218 .leaf)))))

def serverStatesrlrr : Tree := (.node (.node (.node (.node (.node (.node .leaf 9903520314445178905493091274 .leaf) 9903520314445178905493091786 (.node .leaf 9903520314445178905493092298 .leaf)) 9903520314445178905493092810 (.node (.node .leaf 9903520314445178915538338250 .leaf) 9903520314445178915538338762 (.node .leaf 9903520314445178915538339274 .leaf))) 9903520314445178915538339786 (.node (.node (.node .leaf 9903520314445178915538340298 .leaf) 9903520314445178915538448842 (.node .leaf 9903520314445178915538449354 .leaf)) 9903520314445178915538449866 (.node (.node .leaf 9903520314445178915538450378 .leaf) 9903520314445178915538450890 (.node .leaf 9903520314445178922672849354 .leaf)))) 9903520314445178922672849866 (.node (.node (.node (.node .leaf 9903520314445178922672850378 .leaf) 9903520314445178922672850890 (.node .leaf 9903520314445178922672851402 .leaf)) 9903520314445178922672959946 (.node (.node .leaf 9903520314445178922672960458 .leaf) 9903520314445178922672960970 (.node .leaf 9903520314445178922672961482 .leaf))) 9903520314445178922672961994 (.node (.node (.node .leaf 9903520314452496732356993482 .leaf) 9903520314452496732356993994 (.node .leaf 9903520314452496732356994506 .leaf)) 9903520314452496732356995018 (.node (.node .leaf 9903520314452496732356995530 .leaf) 9903520314452496732356997578 .leaf)))) 9903520314452496732356998090 (.node (.node (.node (.node (.node .leaf 9903520314452496732356998602 .leaf) 9903520314452496732356999114 (.node .leaf 9903520314452496732356999626 .leaf)) 9903520314452496739491504586 (.node (.node .leaf 9903520314452496739491505098 .leaf) 9903520314452496739491505610 (.node .leaf 9903520314452496739491506122 .leaf))) 9903520314452496739491506634 (.node (.node (.node .leaf 9903520314452496739491508682 .leaf) 9903520314452496739491509194 (.node .leaf 9903520314452496739491509706 .leaf)) 9903520314452496739491510218 (.node (.node .leaf 9903520314452496739491510730 .leaf) 9903520314452497247752946122 .leaf))) 9903520314452497247752946634 (.node (.node (.node (.node .leaf 9903520314452497247752947146 .leaf) 9903520314452497247752947658 (.node .leaf 9903520314452497247752948170 .leaf)) 9903520314452497247753056714 (.node (.node .leaf 9903520314452497247753057226 .leaf) 9903520314452497247753057738 (.node .leaf 9903520314452497247753058250 .leaf))) 9903520314452497247753058762 (.node (.node (.node .leaf 9903520314452497254887457226 .leaf) 9903520314452497254887457738 (.node .leaf 9903520314452497254887458250 .leaf)) 9903520314452497254887458762 (.node (.node .leaf 9903520314452497254887459274 .leaf) 9903520314452497254887567818 .leaf)))))

def serverStatesrlr : Tree := .node serverStatesrlrl 9903520314445178905493090762 serverStatesrlrr

def serverStatesrl : Tree := .node serverStatesrll 9903520314445174507446470602 serverStatesrlr

def serverStatesrrll : Tree := (.node (.node (.node (.node (.node (.node .leaf 9903520314452497254887568842 .leaf) 9903520314452497254887569354 (.node .leaf 9903520314452497254887569866 .leaf)) 9903520314452497264932815306 (.node (.node .leaf 9903520314452497264932815818 .leaf) 9903520314452497264932816330 (.node .leaf 9903520314452497264932816842 .leaf))) 9903520314452497264932817354 (.node (.node (.node .leaf 9903520314452497264932925898 .leaf) 9903520314452497264932926410 (.node .leaf 9903520314452497264932926922 .leaf)) 9903520314452497264932927434 (.node (.node .leaf 9903520314452497264932927946 .leaf) 9903520314452497272067326410 (.node .leaf 9903520314452497272067326922 .leaf)))) 9903520314452497272067327434 (.node (.node (.node (.node .leaf 9903520314452497272067327946 .leaf) 9903520314452497272067328458 (.node .leaf 9903520314452497272067437002 .leaf)) 9903520314452497272067437514 (.node (.node .leaf 9903520314452497272067438026 .leaf) 9903520314452497272067438538 (.node .leaf 9903520314452497272067439050 .leaf))) 11141460353658496665714213322 (.node (.node (.node .leaf 11141460353658496668616667594 .leaf) 11141460353658496668616741322 (.node .leaf 11141460353658497166832828874 .leaf)) 11141460353658497166832873930 (.node (.node .leaf 11141460353658497168229913034 .leaf) 11141460353658497168229914058 .leaf)))) 11141460353658501063760724426 (.node (.node (.node (.node (.node .leaf 11141460353658501066663178698 .leaf) 11141460353658501066663252426 (.node .leaf 11141460353658501564879339978 .leaf)) 11141460353658501564879385034 (.node (.node .leaf 11141460353658501566276424138 .leaf) 11141460353658501566276425162 (.node .leaf 11141460353665819413155201482 .leaf))) 11141460353665819416057655754 (.node (.node (.node .leaf 11141460353665819416057729482 .leaf) 11141460353665819914273817034 (.node .leaf 11141460353665819914273862090 .leaf)) 11141460353665819915670901194 (.node (.node .leaf 11141460353665819915670902218 .leaf) 11141460357981952307994087882 (.node .leaf 11141460357981952307994153418 .leaf)))) 11141460357981952806210240970 (.node (.node (.node (.node .leaf 11141460357981952806210294218 .leaf) 11141460357981952806210564554 (.node .leaf 11141460357981952806210621898 .leaf)) 11141460357981956706040598986 (.node (.node .leaf 11141460357981956706040664522 .leaf) 11141460357981957204256752074 (.node .leaf 11141460357981957204256805322 .leaf))) 11141460357981957204257075658 (.node (.node (.node .leaf 11141460357981957204257133002 .leaf) 11141460357989275055435076042 (.node .leaf 11141460357989275055435141578 .leaf)) 11141460357989275553651229130 (.node (.node .leaf 11141460357989275553651282378 .leaf) 11141460357989275553651552714 .leaf)))))

def serverStatesrrlr : Tree := (.node (.node (.node (.node (.node (.node .leaf 11141460519679193329083650506 .leaf) 11141460519679197727130161610 (.node .leaf 11141460519686516076524638666 .leaf)) 11141460538125937402793206218 (.node (.node .leaf 11141460538125937402793284042 .leaf) 11141460538125941800839717322 (.node .leaf 11141460538125941800839795146 .leaf))) 11141460538133260150234194378 (.node (.node (.node .leaf 11141460538133260150234272202 .leaf) 11141460611912914200109109706 (.node .leaf 11141460611912914200109110218 .leaf)) 11141460611912914200109110730 (.node (.node .leaf 11141460611912914200109111242 .leaf) 11141460611912918598155620810 (.node .leaf 11141460611912918598155621322 .leaf)))) 11141460611912918598155621834 (.node (.node (.node (.node .leaf 11141460611912918598155622346 .leaf) 11141460611920236947550097866 (.node .leaf 11141460611920236947550098378 .leaf)) 11141460611920236947550098890 (.node (.node .leaf 11141460611920236947550099402 .leaf) 11141460616236369838089757130 (.node .leaf 11141460616236369838089757642 .leaf))) 11141460616236369838089818570 (.node (.node (.node .leaf 11141460616236369838089819082 .leaf) 11141460616236374236136268234 (.node .leaf 11141460616236374236136268746 .leaf)) 11141460616236374236136329674 (.node (.node .leaf 11141460616236374236136330186 .leaf) 11141460616243692585530745290 .leaf)))) 11141460616243692585530745802 (.node (.node (.node (.node (.node .leaf 11141460616243692585530806730 .leaf) 11141460616243692585530807242 (.node .leaf 11141494590815497474941243850 .leaf)) 11141494590815497474941244874 (.node (.node .leaf 11141494590815497973157331402 .leaf) 11141494590815497973157332426 (.node .leaf 11141494590815497973157384650 .leaf))) 11141494590815497973157385674 (.node (.node (.node .leaf 11141494590815497973157396938 .leaf) 11141494590815497973157397962 (.node .leaf 11141494590815501872987754954 .leaf)) 11141494590815501872987755978 (.node (.node .leaf 11141494590815502371203842506 .leaf) 11141494590815502371203843530 .leaf))) 11141494590815502371203895754 (.node (.node (.node (.node .leaf 11141494590815502371203896778 .leaf) 11141494590815502371203908042 (.node .leaf 11141494590815502371203909066 .leaf)) 11141494590822820222382232010 (.node (.node .leaf 11141494590822820222382233034 .leaf) 11141494590822820720598319562 (.node .leaf 11141494590822820720598320586 .leaf))) 11141494590822820720598372810 (.node (.node (.node .leaf 11141494590822820720598373834 .leaf) 11141494590822820720598385098 (.node .leaf 11141494590822820720598386122 .leaf)) 11141494595138953112921952714 (.node (.node .leaf 11141494595138953611138040266 .leaf) 11141494595138953611138093514 .leaf)))))

def serverStatesrrl : Tree := .node serverStatesrrll 11141460357989275553651610058 serverStatesrrlr

def serverStatesrrrl : Tree := (.node (.node (.node (.node (.node (.node .leaf 11141494595138957510968463818 .leaf) 11141494595138958009184551370 (.node .leaf 11141494595138958009184604618 .leaf)) 11141494595138958009184874954 (.node (.node .leaf 11141494595146275860362940874 .leaf) 11141494595146276358579028426 (.node .leaf 11141494595146276358579081674 .leaf))) 11141494595146276358579352010 (.node (.node (.node .leaf 11141494775282938207720702410 .leaf) 11141494775282938207720735178 (.node .leaf 11141494775282938207721005514 .leaf)) 11141494775282942605767213514 (.node (.node .leaf 11141494775282942605767246282 .leaf) 11141494775282942605767516618 (.node .leaf 11141494775290260955161690570 .leaf)))) 11141494775290260955161723338 (.node (.node (.node (.node .leaf 11141494775290260955161993674 .leaf) 11141494849069914506820440522 (.node .leaf 11141494849069914506820441034 .leaf)) 11141494849069914506820441546 (.node (.node .leaf 11141494849069914506820442058 .leaf) 11141494849069915005036528074 (.node .leaf 11141494849069915005036528586 .leaf))) 11141494849069915005036529098 (.node (.node (.node .leaf 11141494849069915005036529610 .leaf) 11141494849069915005036593610 (.node .leaf 11141494849069915005036594122 .leaf)) 11141494849069915005036594634 (.node (.node .leaf 11141494849069915005036595146 .leaf) 11141494849069915005036847562 .leaf)))) 11141494849069915005036848074 (.node (.node (.node (.node (.node .leaf 11141494849069915005036848586 .leaf) 11141494849069915005036849098 (.node .leaf 11141494849069918904866951626 .leaf)) 11141494849069918904866952138 (.node (.node .leaf 11141494849069918904866952650 .leaf) 11141494849069918904866953162 (.node .leaf 11141494849069919403083039178 .leaf))) 11141494849069919403083039690 (.node (.node (.node .leaf 11141494849069919403083040202 .leaf) 11141494849069919403083040714 (.node .leaf 11141494849069919403083104714 .leaf)) 11141494849069919403083105226 (.node (.node .leaf 11141494849069919403083105738 .leaf) 11141494849069919403083106250 (.node .leaf 11141494849069919403083358666 .leaf)))) 11141494849069919403083359178 (.node (.node (.node (.node .leaf 11141494849069919403083359690 .leaf) 11141494849069919403083360202 (.node .leaf 11141494849077237254261428682 .leaf)) 11141494849077237254261429194 (.node (.node .leaf 11141494849077237254261429706 .leaf) 11141494849077237254261430218 (.node .leaf 11141494849077237752477516234 .leaf))) 11141494849077237752477516746 (.node (.node (.node .leaf 11141494849077237752477517258 .leaf) 11141494849077237752477517770 (.node .leaf 11141494849077237752477581770 .leaf)) 11141494849077237752477582282 (.node (.node .leaf 11141494849077237752477582794 .leaf) 11141494849077237752477583306 .leaf)))))

def serverStatesrrrr : Tree := (.node (.node (.node (.node (.node (.node .leaf 11141494849077237752477836234 .leaf) 11141494849077237752477836746 (.node .leaf 11141494849077237752477837258 .leaf)) 11141494853393370144801149386 (.node (.node .leaf 11141494853393370144801149898 .leaf) 11141494853393370643017236938 (.node .leaf 11141494853393370643017237450 .leaf))) 11141494853393370643017556426 (.node (.node (.node .leaf 11141494853393370643017556938 .leaf) 11141494853393370643017560522 (.node .leaf 11141494853393370643017561034 .leaf)) 11141494853393374542847660490 (.node (.node .leaf 11141494853393374542847661002 .leaf) 11141494853393375041063748042 (.node .leaf 11141494853393375041063748554 .leaf)))) 11141494853393375041064067530 (.node (.node (.node (.node .leaf 11141494853393375041064068042 .leaf) 11141494853393375041064071626 (.node .leaf 11141494853393375041064072138 .leaf)) 11141494853400692892242137546 (.node (.node .leaf 11141494853400692892242138058 .leaf) 11141494853400693390458225098 (.node .leaf 11141494853400693390458225610 .leaf))) 11141494853400693390458544586 (.node (.node (.node .leaf 11141494853400693390458545098 .leaf) 11141494853400693390458548682 (.node .leaf 11141494853400693390458549194 .leaf)) 85070592231600331776512737383693259178 (.node (.node .leaf 85070592231600331776512737383693287850 .leaf) 85070592231600331776512741781739770282 .leaf)))) 85070592231600331776512741781739798954 (.node (.node (.node (.node (.node .leaf 85070592231600331776520060131134247338 .leaf) 85070592231600331776520060131134276010 (.node .leaf 85070620892388121311636861848217285034 .leaf)) 85070620892388121311636866246263796138 (.node (.node .leaf 85070620892388121311644184595658273194 .leaf) 85070622160038721539866263344920494506 (.node .leaf 85070622160038721539866263344920527274 .leaf))) 85070622160038721539866267742967005610 (.node (.node (.node .leaf 85070622160038721539866267742967038378 .leaf) 85070622160038721539873586092361482666 (.node .leaf 85070622160038721539873586092361515434 .leaf)) 85073188380029599190327002631857242538 (.node (.node .leaf 85073188380029599190327002631857275306 .leaf) 85073188380029599190327002631857869226 .leaf))) 85073188380029599190327007029903753642 (.node (.node (.node (.node .leaf 85073188380029599190327007029903786410 .leaf) 85073188380029599190327007029904380330 (.node .leaf 85073188380029599190334325379298230698 .leaf)) 85073188380029599190334325379298263466 (.node (.node .leaf 85073188380029599190334325379298857386 .leaf) 85073218308467988953680528593084481962 (.node .leaf 85073218308467988953680528593084514730 .leaf))) 85073218308467988953680528593085104554 (.node (.node (.node .leaf 85073218308467988953680532991130993066 .leaf) 85073218308467988953680532991131025834 (.node .leaf 85073218308467988953680532991131615658 .leaf)) 85073218308467988953687851340525470122 (.node (.node .leaf 85073218308467988953687851340525502890 .leaf) 85073218308467988953687851340526092714 .leaf)))))

def serverStatesrrr : Tree := .node serverStatesrrrl 11141494849077237752477835722 serverStatesrrrr

def serverStatesrr : Tree := .node serverStatesrrl 11141494595138953611138363850 serverStatesrrr

def serverStatesr : Tree := .node serverStatesrl 9903520314452497254887568330 serverStatesrr

/-- States of a server session. -/
def serverStates : Tree := .node serverStatesl 1237974280863233661169946762 serverStatesr

def clientStateslll : Tree := (.node (.node (.node (.node (.node (.node .leaf 2097153 .leaf) 2097157 .leaf) 72466433 (.node (.node .leaf 481108688897 .leaf) 481108758529 .leaf)) 144115188077953157 (.node (.node (.node .leaf 144115188077953669 .leaf) 144115188077954181 .leaf) 144115188077954693 (.node (.node .leaf 144115188077955205 .leaf) 1237940389863589668004900995 .leaf))) 1237940389863589668004941955 (.node (.node (.node (.node .leaf 1237940408310333741714456707 .leaf) 1237974627020590472932360323 .leaf) 1237974627020590472932434051 (.node (.node .leaf 1237974627020590472932700291 .leaf) 1238091155102904598660501635 .leaf)) 1238091155102904598660502659 (.node (.node (.node .leaf 1238091159426359738424676483 .leaf) 1238091159426359738424742019 .leaf) 1238091159426360236640829571 (.node (.node .leaf 1238091159426360236640882819 .leaf) 1238091159426360236641153155 .leaf)))) 1238091159426360236641210499 (.node (.node (.node (.node (.node .leaf 1238091162867109853682589829 .leaf) 1238091162867109853682590341 .leaf) 1238091162867109853682590853 (.node (.node .leaf 1238091162867109853682591365 .leaf) 1238091162867109853682593925 .leaf)) 1238091162867109853682594437 (.node (.node (.node .leaf 1238091162867109853682594949 .leaf) 1238091162867109853682595461 .leaf) 1238091413357321630539698307 (.node (.node .leaf 1238091413357321630539698819 .leaf) 1238091413357321630539699331 .leaf))) 1238091413357321630539699843 (.node (.node (.node (.node .leaf 1238091417680777268520345731 .leaf) 1238091417680777268520346243 .leaf) 1238091417680777268520407171 (.node (.node .leaf 1238091417680777268520407683 .leaf) 1238091524037785570361294979 .leaf)) 1238091531531775350305800323 (.node (.node (.node .leaf 1238091542484529644070850691 .leaf) 1238091560931273717754937475 .leaf) 1238091560931273717780406403 (.node (.node .leaf 1238091560931273717780435075 .leaf) 1238091653146979687744266373 .leaf)))))

def clientStatesllr : Tree := (.node (.node (.node (.node (.node (.node .leaf 1238091653146979687744267397 .leaf) 1238091653146979687744267909 .leaf) 1238091653146979687744270469 (.node (.node .leaf 1238091653146979687744270981 .leaf) 1238091653146979687744271493 .leaf)) 1238091653146979687744272005 (.node (.node (.node .leaf 1238125392259904905371832451 .leaf) 1238125392259904905371833475 .leaf) 1238125392259905403587920003 (.node (.node .leaf 1238125392259905403587921027 .leaf) 1238125392259905403587973251 .leaf))) 1238125392259905403587974275 (.node (.node (.node (.node .leaf 1238125392259905403587985539 .leaf) 1238125392259905403587986563 .leaf) 1238125396583360543352541315 (.node (.node .leaf 1238125396583361041568628867 .leaf) 1238125396583361041568682115 .leaf)) 1238125396583361041568952451 (.node (.node (.node .leaf 1238125650514321937251029123 .leaf) 1238125650514321937251029635 .leaf) 1238125650514321937251030147 (.node (.node .leaf 1238125650514321937251030659 .leaf) 1238125650514322435467116675 .leaf)))) 1238125650514322435467117187 (.node (.node (.node (.node (.node .leaf 1238125650514322435467117699 .leaf) 1238125650514322435467118211 .leaf) 1238125650514322435467182211 (.node (.node .leaf 1238125650514322435467182723 .leaf) 1238125650514322435467183235 .leaf)) 1238125650514322435467183747 (.node (.node (.node .leaf 1238125650514322435467436163 .leaf) 1238125650514322435467436675 .leaf) 1238125650514322435467437187 (.node (.node .leaf 1238125650514322435467437699 .leaf) 1238125654837777575231737987 .leaf))) 1238125654837777575231738499 (.node (.node (.node (.node .leaf 1238125654837778073447825539 .leaf) 1238125654837778073447826051 .leaf) 1238125654837778073448145027 (.node (.node .leaf 1238125654837778073448145539 .leaf) 1238125654837778073448149123 .leaf)) 1238125654837778073448149635 (.node (.node (.node .leaf 1238125798088274522707853443 .leaf) 1238125798088274522707927171 .leaf) 1238125798088274522708205699 (.node .leaf 1238126580615731376021307525 .leaf)))))

def clientStatesll : Tree := .node clientStateslll 1238091653146979687744266885 clientStatesllr

def clientStateslrl : Tree := (.node (.node (.node (.node (.node (.node .leaf 1238126580615731376021308549 .leaf) 1238126580615731376021309061 .leaf) 1238126580615731376021680261 (.node (.node .leaf 1238126580615731376021680773 .leaf) 1238126580615731376021681285 .leaf)) 1238126580615731376021681797 (.node (.node (.node .leaf 1238127070895601210082984069 .leaf) 1238127070895601210082984581 .leaf) 1238127070895601210082985093 (.node (.node .leaf 1238127070895601210082985605 .leaf) 1238127070895601210083356805 .leaf))) 1238127070895601210083357317 (.node (.node (.node (.node .leaf 1238127070895601210083357829 .leaf) 1238127070895601210083358341 .leaf) 1238127761207352093432610949 (.node (.node .leaf 1238127761207352093432611461 .leaf) 1238127761207352093432611973 .leaf)) 1238127761207352093432612485 (.node (.node (.node .leaf 1238127761207352093432983685 .leaf) 1238127761207352093432984197 .leaf) 1238127761207352093432984709 (.node (.node .leaf 1238127761207352093432985221 .leaf) 1238128251487221927494287493 .leaf)))) 1238128251487221927494288005 (.node (.node (.node (.node (.node .leaf 1238128251487221927494288517 .leaf) 1238128251487221927494289029 .leaf) 1238128251487221927494660229 (.node (.node .leaf 1238128251487221927494660741 .leaf) 1238128251487221927494661253 .leaf)) 1238128251487221927494661765 (.node (.node (.node .leaf 1624872235944730771888394371 .leaf) 1624872339131205434201198723 .leaf) 1624872339131205434201206915 (.node (.node .leaf 1624872346625195214145712259 .leaf) 1624906473101731576815812739 .leaf))) 1624906473101731576815886467 (.node (.node (.node (.node .leaf 1624906473101731576816156803 .leaf) 1624906473101731576816181379 .leaf) 1624906576288206239128617091 (.node (.node .leaf 1624906576288206239128690819 .leaf) 1624906576288206239128985731 .leaf)) 1624908937471447673951223939 (.node (.node (.node .leaf 1624908937471447673951297667 .leaf) 1624908937471447673951592579 .leaf) 1624908944965437453895729283 (.node .leaf 1624908944965437453895803011 .leaf)))))

def clientStateslrr : Tree := (.node (.node (.node (.node (.node (.node .leaf 1624947417379585934566477955 .leaf) 1624947417379585934566478979 .leaf) 1624947421703041074330652803 (.node (.node .leaf 1624947421703041074330718339 .leaf) 1624947421703041572546805891 .leaf)) 1624947421703041572546859139 (.node (.node (.node .leaf 1624947421703041572547129475 .leaf) 1624947421703041572547186819 .leaf) 1624947425143791189588566149 (.node (.node .leaf 1624947425143791189588566661 .leaf) 1624947425143791189588567173 .leaf))) 1624947425143791189588567685 (.node (.node (.node (.node .leaf 1624947425143791189588570245 .leaf) 1624947425143791189588570757 .leaf) 1624947425143791189588571269 (.node (.node .leaf 1624947425143791189588571781 .leaf) 1624947675634002966445674627 .leaf)) 1624947675634002966445675139 (.node (.node (.node .leaf 1624947675634002966445675651 .leaf) 1624947675634002966445676163 .leaf) 1624947679957458604426322051 (.node (.node .leaf 1624947679957458604426322563 .leaf) 1624947679957458604426383491 .leaf)))) 1624947679957458604426384003 (.node (.node (.node (.node (.node .leaf 1624947823207955053660913795 .leaf) 1624947823207955053686411395 .leaf) 1624947915423661023650242693 (.node (.node .leaf 1624947915423661023650243205 .leaf) 1624947915423661023650243717 .leaf)) 1624947915423661023650244229 (.node (.node (.node .leaf 1624947915423661023650246789 .leaf) 1624947915423661023650247301 .leaf) 1624947915423661023650247813 (.node (.node .leaf 1624947915423661023650248325 .leaf) 1624981654536586241277808771 .leaf))) 1624981654536586241277809795 (.node (.node (.node (.node .leaf 1624981654536586739493896323 .leaf) 1624981654536586739493897347 .leaf) 1624981654536586739493949571 (.node (.node .leaf 1624981654536586739493950595 .leaf) 1624981654536586739493961859 .leaf)) 1624981654536586739493962883 (.node (.node (.node .leaf 1624981658860041879258517635 .leaf) 1624981658860042377474605187 .leaf) 1624981658860042377474658435 (.node .leaf 1624981658860042377474928771 .leaf)))))

def clientStateslr : Tree := .node clientStateslrl 1624908944965437453896097923 clientStateslrr

def clientStatesl : Tree := .node clientStatesll 1238126580615731376021308037 clientStateslr

def clientStatesrll : Tree := (.node (.node (.node (.node (.node (.node .leaf 1624981912791003273157005955 .leaf) 1624981912791003273157006467 .leaf) 1624981912791003273157006979 (.node (.node .leaf 1624981912791003771373092995 .leaf) 1624981912791003771373093507 .leaf)) 1624981912791003771373094019 (.node (.node (.node .leaf 1624981912791003771373094531 .leaf) 1624981912791003771373158531 .leaf) 1624981912791003771373159043 (.node (.node .leaf 1624981912791003771373159555 .leaf) 1624981912791003771373160067 .leaf))) 1624981912791003771373412483 (.node (.node (.node (.node .leaf 1624981912791003771373412995 .leaf) 1624981912791003771373413507 .leaf) 1624981912791003771373414019 (.node (.node .leaf 1624981917114458911137714307 .leaf) 1624981917114458911137714819 .leaf)) 1624981917114459409353801859 (.node (.node (.node .leaf 1624981917114459409353802371 .leaf) 1624981917114459409354121347 .leaf) 1624981917114459409354121859 (.node (.node .leaf 1624981917114459409354125443 .leaf) 1624981917114459409354125955 .leaf)))) 1624982041918211784904626307 (.node (.node (.node (.node (.node .leaf 1624982060364955858613829763 .leaf) 1624982060364955858613903491 .leaf) 1624982060364955858614182019 (.node (.node .leaf 1624982842892412711927283845 .leaf) 1624982842892412711927284357 .leaf)) 1624982842892412711927284869 (.node (.node (.node .leaf 1624982842892412711927285381 .leaf) 1624982842892412711927656581 .leaf) 1624982842892412711927657093 (.node (.node .leaf 1624982842892412711927657605 .leaf) 1624982842892412711927658117 .leaf))) 1624983333172282545988960389 (.node (.node (.node (.node .leaf 1624983333172282545988960901 .leaf) 1624983333172282545988961413 .leaf) 1624983333172282545988961925 (.node (.node .leaf 1624983333172282545989333125 .leaf) 1624983333172282545989333637 .leaf)) 1624983333172282545989334149 (.node (.node (.node .leaf 1624983333172282545989334661 .leaf) 1624984023484033429338587269 .leaf) 1624984023484033429338587781 (.node (.node .leaf 1624984023484033429338588293 .leaf) 1624984023484033429338588805 .leaf)))))

def clientStatesrlr : Tree := (.node (.node (.node (.node (.node (.node .leaf 1624984023484033429338960517 .leaf) 1624984023484033429338961029 .leaf) 1624984023484033429338961541 (.node (.node .leaf 1624984513763903263400263813 .leaf) 1624984513763903263400264325 .leaf)) 1624984513763903263400264837 (.node (.node (.node .leaf 1624984513763903263400265349 .leaf) 1624984513763903263400636549 .leaf) 1624984513763903263400637061 (.node (.node .leaf 1624984513763903263400637573 .leaf) 1624984513763903263400638085 .leaf))) 1625023344178192820590690435 (.node (.node (.node (.node .leaf 1625023351672182600535195779 .leaf) 1632730253772225861523984515 .leaf) 1632730253772225861523992707 (.node (.node .leaf 1632730364452690303781294211 .leaf) 1632730364452690303781302403 .leaf)) 1632764490929226666451402883 (.node (.node (.node .leaf 1632764490929226666451476611 .leaf) 1632764490929226666451746947 .leaf) 1632764490929226666451771523 (.node (.node .leaf 1632764601609691108708712579 .leaf) 1632764601609691108708786307 .leaf)))) 1632764601609691108709081219 (.node (.node (.node (.node (.node .leaf 1632766852112468101274009731 .leaf) 1632766852112468101274083459 .leaf) 1632766852112468101274353795 (.node (.node .leaf 1632766852112468101274378371 .leaf) 1632766962792932543531319427 .leaf)) 1632766962792932543531393155 (.node (.node (.node .leaf 1632766962792932543531688067 .leaf) 1632805435207081024202068099 .leaf) 1632805435207081024202069123 (.node (.node .leaf 1632805439530536163966242947 .leaf) 1632805439530536163966308483 .leaf))) 1632805439530536662182396035 (.node (.node (.node (.node .leaf 1632805439530536662182449283 .leaf) 1632805439530536662182719619 .leaf) 1632805439530536662182776963 (.node (.node .leaf 1632805442971286279224156293 .leaf) 1632805442971286279224156805 .leaf)) 1632805442971286279224157317 (.node (.node (.node .leaf 1632805442971286279224157829 .leaf) 1632805442971286279224160389 .leaf) 1632805442971286279224160901 (.node .leaf 1632805442971286279224161413 .leaf)))))

def clientStatesrl : Tree := .node clientStatesrll 1624984023484033429338960005 clientStatesrlr

def clientStatesrrl : Tree := (.node (.node (.node (.node (.node (.node .leaf 1632805693461498056081264771 .leaf) 1632805693461498056081265283 .leaf) 1632805693461498056081265795 (.node (.node .leaf 1632805693461498056081266307 .leaf) 1632805697784953694061912195 .leaf)) 1632805697784953694061912707 (.node (.node (.node .leaf 1632805697784953694061973635 .leaf) 1632805697784953694061974147 .leaf) 1632805841035450143296503939 (.node (.node .leaf 1632805841035450143322001539 .leaf) 1632805933251156113285832837 .leaf))) 1632805933251156113285833349 (.node (.node (.node (.node .leaf 1632805933251156113285833861 .leaf) 1632805933251156113285834373 .leaf) 1632805933251156113285836933 (.node (.node .leaf 1632805933251156113285837445 .leaf) 1632805933251156113285837957 .leaf)) 1632805933251156113285838469 (.node (.node (.node .leaf 1632839672364081330913398915 .leaf) 1632839672364081330913399939 .leaf) 1632839672364081829129486467 (.node (.node .leaf 1632839672364081829129487491 .leaf) 1632839672364081829129539715 .leaf)))) 1632839672364081829129540739 (.node (.node (.node (.node (.node .leaf 1632839672364081829129552003 .leaf) 1632839672364081829129553027 .leaf) 1632839676687536968894107779 (.node (.node .leaf 1632839676687537467110195331 .leaf) 1632839676687537467110248579 .leaf)) 1632839676687537467110518915 (.node (.node (.node .leaf 1632839930618498362792595587 .leaf) 1632839930618498362792596099 .leaf) 1632839930618498362792596611 (.node (.node .leaf 1632839930618498362792597123 .leaf) 1632839930618498861008683139 .leaf))) 1632839930618498861008683651 (.node (.node (.node (.node .leaf 1632839930618498861008684163 .leaf) 1632839930618498861008684675 .leaf) 1632839930618498861008748675 (.node (.node .leaf 1632839930618498861008749187 .leaf) 1632839930618498861008749699 .leaf)) 1632839930618498861008750211 (.node (.node (.node .leaf 1632839930618498861009002627 .leaf) 1632839930618498861009003139 .leaf) 1632839930618498861009003651 (.node .leaf 1632839930618498861009004163 .leaf)))))

def clientStatesrrr : Tree := (.node (.node (.node (.node (.node (.node .leaf 1632839934941954000773304963 .leaf) 1632839934941954498989392003 .leaf) 1632839934941954498989392515 (.node (.node .leaf 1632839934941954498989711491 .leaf) 1632839934941954498989712003 .leaf)) 1632839934941954498989715587 (.node (.node (.node .leaf 1632839934941954498989716099 .leaf) 1632840059745706874540216451 .leaf) 1632840078192450948249419907 (.node (.node .leaf 1632840078192450948249493635 .leaf) 1632840078192450948249772163 .leaf))) 1632840860719907801562873989 (.node (.node (.node (.node .leaf 1632840860719907801562874501 .leaf) 1632840860719907801562875013 .leaf) 1632840860719907801562875525 (.node (.node .leaf 1632840860719907801563246725 .leaf) 1632840860719907801563247237 .leaf)) 1632840860719907801563247749 (.node (.node (.node .leaf 1632840860719907801563248261 .leaf) 1632841350999777635624550533 .leaf) 1632841350999777635624551045 (.node (.node .leaf 1632841350999777635624551557 .leaf) 1632841350999777635624552069 .leaf)))) 1632841350999777635624923269 (.node (.node (.node (.node (.node .leaf 1632841350999777635624923781 .leaf) 1632841350999777635624924293 .leaf) 1632841350999777635624924805 (.node (.node .leaf 1632842041311528518974177413 .leaf) 1632842041311528518974177925 .leaf)) 1632842041311528518974178437 (.node (.node (.node .leaf 1632842041311528518974178949 .leaf) 1632842041311528518974550149 .leaf) 1632842041311528518974550661 (.node (.node .leaf 1632842041311528518974551173 .leaf) 1632842041311528518974551685 .leaf))) 1632842420928948309362823299 (.node (.node (.node (.node .leaf 1632842439375692383072379011 .leaf) 1632842531591398353035853957 .leaf) 1632842531591398353035854469 (.node (.node .leaf 1632842531591398353035854981 .leaf) 1632842531591398353035855493 .leaf)) 1632842531591398353036226693 (.node (.node (.node .leaf 1632842531591398353036227205 .leaf) 1632842531591398353036227717 .leaf) 1632842531591398353036228229 (.node .leaf 1632881369499677690170785923 .leaf)))))

def clientStatesrr : Tree := .node clientStatesrrl 1632839934941954000773304451 clientStatesrrr

def clientStatesr : Tree := .node clientStatesrl 1632805442971286279224161925 clientStatesrr

/-- States of a client session. -/
def clientStates : Tree := .node clientStatesl 1624981912791003273157005443 clientStatesr

end Verif.Session

import Mathlib.Data.List.Nodup
import Verif.Model.Filetype

/-!
# Names of file types as numbers

Names are injected into the natural numbers, where the kernel compares them quickly.  The table of
numbers below is generated; `codes_eq` checks it against the model.
-/

set_option autoImplicit false
set_option maxRecDepth 20000

namespace Verif.Types

/-- An injective numbering of texts. -/
def code : Str → Nat
  | [] => 0
  | b :: s => (b.toNat + 1) + 257 * code s

theorem code_inj : ∀ s t : Str, code s = code t → s = t
  | [], [], _ => rfl
  | [], b :: t, h => by simp only [code] at h; omega
  | b :: s, [], h => by simp only [code] at h; omega
  | b :: s, c :: t, h => by
    simp only [code] at h
    have hb := b.toNat_lt
    have hc := c.toNat_lt
    have h1 : b.toNat = c.toNat := by omega
    have h2 : code s = code t := by omega
    rw [UInt8.toNat_inj.1 h1, code_inj s t h2]

/-- type, name, three-letter name, one-letter name -/
def codes : List (Nat × Nat × Nat × Nat) := [
  (0, 8623473210375612257, 0, 0),
  (1, 2215639632909884901486, 0, 0),
  (2, 8501096386733828610865123429585, 0, 0),
  (3, 9752887117509944252330942124539, 0, 0),
  (4, 2235633991833258879255, 5637123, 85),
  (5, 1097932986829990238259767176096046, 0, 0),
  (6, 137284251917931, 5236956, 67),
  (7, 1993387675, 0, 0),
  (8, 2376893405086891035478807574427807, 0, 0),
  (9, 5669563063967432203566340656827, 0, 0),
  (10, 35659514691554840010570175173260822390841, 0, 0),
  (11, 162683681361004354536425418588135464289, 0, 0),
  (12, 2101013340822436060035, 0, 0),
  (15, 2330348342233009615806, 5501154, 69),
  (16, 28369010957936502, 0, 0),
  (17, 8989693979820835317, 0, 0),
  (25, 9536459019106155617608532927234693378651695, 4443082, 0),
  (26, 12046915241638991866310924767520254125706100541439781499, 5372651, 0),
  (27, 185491829235437729239208102347679424275399581909653, 5371623, 0),
  (239, 122635110588762, 5565159, 0),
  (240, 29226695148808646, 4577495, 0),
  (241, 4174204714490810690933919671506, 0, 0),
  (242, 4257227534336120852985299562707, 0, 0),
  (243, 4340250354181431015036679453908, 0, 0),
  (244, 4423273174026741177088059345109, 0, 0),
  (245, 4506295993872051339139439236310, 0, 0),
  (246, 4589318813717361501190819127511, 0, 0),
  (247, 4672341633562671663242199018712, 0, 0),
  (248, 4755364453407981825293578909913, 0, 0),
  (250, 22060556669133673621380302908, 5634542, 74),
  (251, 183911976552128412998319093795307059110346941864158, 5504500, 0),
  (252, 1457077707439648147686431520721694, 5565145, 66),
  (253, 12147202139291529550125977826086235985317973047079722944, 5499116, 0),
  (254, 128747816934417354943259497, 5103846, 83),
  (255, 123774003937675, 5571330, 0),
  (256, 84, 0, 84),
  (257, 1128275311, 0, 66),
  (258, 1145249904, 0, 67),
  (13, 5744531279889067299379631354294, 0, 0),
  (14, 5827554099734377461431011245495, 0, 0),
  (18, 4250443568665100375303242261669, 0, 0),
  (19, 4333466388510410537354622152870, 0, 0),
  (20, 4416489208355720699406002044071, 0, 0),
  (21, 4499512028201030861457381935272, 0, 0),
  (22, 4582534848046341023508761826473, 0, 0),
  (23, 4665557667891651185560141717674, 0, 0),
  (24, 4748580487736961347611521608875, 0, 0),
  (28, 5661831506035373130176700412086, 0, 0),
  (29, 5744854325880683292228080303287, 0, 0),
  (30, 5827877145725993454279460194488, 0, 0),
  (31, 5910899965571303616330840085689, 0, 0),
  (32, 4084720974966096044048931428260, 0, 0),
  (33, 4167743794811406206100311319461, 0, 0),
  (34, 4250766614656716368151691210662, 0, 0),
  (35, 4333789434502026530203071101863, 0, 0),
  (36, 4416812254347336692254450993064, 0, 0),
  (37, 4499835074192646854305830884265, 0, 0),
  (38, 4582857894037957016357210775466, 0, 0),
  (39, 4665880713883267178408590666667, 0, 0),
  (40, 4748903533728577340459970557868, 0, 0),
  (41, 4831926353573887502511350449069, 0, 0),
  (42, 5496108912336368798922389578677, 0, 0),
  (43, 5579131732181678960973769469878, 0, 0),
  (44, 5662154552026989123025149361079, 0, 0),
  (45, 5745177371872299285076529252280, 0, 0),
  (46, 5828200191717609447127909143481, 0, 0),
  (47, 5911223011562919609179289034682, 0, 0),
  (48, 4085044020957712036897380377253, 0, 0),
  (49, 4168066840803022198948760268454, 0, 0),
  (50, 4251089660648332361000140159655, 0, 0),
  (51, 4334112480493642523051520050856, 0, 0),
  (52, 4417135300338952685102899942057, 0, 0),
  (53, 4500158120184262847154279833258, 0, 0),
  (54, 4583180940029573009205659724459, 0, 0),
  (55, 4666203759874883171257039615660, 0, 0),
  (56, 4749226579720193333308419506861, 0, 0),
  (57, 4832249399565503495359799398062, 0, 0),
  (58, 5496431958327984791770838527670, 0, 0),
  (59, 5579454778173294953822218418871, 0, 0),
  (60, 5662477598018605115873598310072, 0, 0),
  (61, 5745500417863915277924978201273, 0, 0),
  (62, 5828523237709225439976358092474, 0, 0),
  (63, 5911546057554535602027737983675, 0, 0),
  (64, 4085367066949328029745829326246, 0, 0),
  (65, 4168389886794638191797209217447, 0, 0),
  (66, 4251412706639948353848589108648, 0, 0),
  (67, 4334435526485258515899968999849, 0, 0),
  (68, 4417458346330568677951348891050, 0, 0),
  (69, 4500481166175878840002728782251, 0, 0),
  (70, 4583503986021189002054108673452, 0, 0),
  (71, 4666526805866499164105488564653, 0, 0),
  (72, 4749549625711809326156868455854, 0, 0),
  (73, 4832572445557119488208248347055, 0, 0),
  (74, 5496755004319600784619287476663, 0, 0),
  (75, 5579777824164910946670667367864, 0, 0),
  (76, 5662800644010221108722047259065, 0, 0),
  (77, 5745823463855531270773427150266, 0, 0),
  (78, 5828846283700841432824807041467, 0, 0),
  (79, 5911869103546151594876186932668, 0, 0),
  (80, 4085690112940944022594278275239, 0, 0),
  (81, 4168712932786254184645658166440, 0, 0),
  (82, 4251735752631564346697038057641, 0, 0),
  (83, 4334758572476874508748417948842, 0, 0),
  (84, 4417781392322184670799797840043, 0, 0),
  (85, 4500804212167494832851177731244, 0, 0),
  (86, 4583827032012804994902557622445, 0, 0),
  (87, 4666849851858115156953937513646, 0, 0),
  (88, 4749872671703425319005317404847, 0, 0),
  (89, 4832895491548735481056697296048, 0, 0),
  (90, 5497078050311216777467736425656, 0, 0),
  (91, 5580100870156526939519116316857, 0, 0),
  (92, 5663123690001837101570496208058, 0, 0),
  (93, 5746146509847147263621876099259, 0, 0),
  (94, 5829169329692457425673255990460, 0, 0),
  (95, 5912192149537767587724635881661, 0, 0),
  (96, 4086013158932560015442727224232, 0, 0),
  (97, 4169035978777870177494107115433, 0, 0),
  (98, 4252058798623180339545487006634, 0, 0),
  (99, 4335081618468490501596866897835, 0, 0),
  (100, 4418104438313800663648246789036, 0, 0),
  (101, 4501127258159110825699626680237, 0, 0),
  (102, 4584150078004420987751006571438, 0, 0),
  (103, 4667172897849731149802386462639, 0, 0),
  (104, 4750195717695041311853766353840, 0, 0),
  (105, 4833218537540351473905146245041, 0, 0),
  (106, 5497401096302832770316185374649, 0, 0),
  (107, 5580423916148142932367565265850, 0, 0),
  (108, 5663446735993453094418945157051, 0, 0),
  (109, 5746469555838763256470325048252, 0, 0),
  (110, 5829492375684073418521704939453, 0, 0),
  (111, 5912515195529383580573084830654, 0, 0),
  (112, 4086336204924176008291176173225, 0, 0),
  (113, 4169359024769486170342556064426, 0, 0),
  (114, 4252381844614796332393935955627, 0, 0),
  (115, 4335404664460106494445315846828, 0, 0),
  (116, 4418427484305416656496695738029, 0, 0),
  (117, 4501450304150726818548075629230, 0, 0),
  (118, 4584473123996036980599455520431, 0, 0),
  (119, 4667495943841347142650835411632, 0, 0),
  (120, 4750518763686657304702215302833, 0, 0),
  (121, 4833541583531967466753595194034, 0, 0),
  (122, 5497724142294448763164634323642, 0, 0),
  (123, 5580746962139758925216014214843, 0, 0),
  (124, 5663769781985069087267394106044, 0, 0),
  (125, 5746792601830379249318773997245, 0, 0),
  (126, 5829815421675689411370153888446, 0, 0),
  (127, 5912838241520999573421533779647, 0, 0),
  (128, 4086659250915792001139625122218, 0, 0),
  (129, 4169682070761102163191005013419, 0, 0),
  (130, 4252704890606412325242384904620, 0, 0),
  (131, 4335727710451722487293764795821, 0, 0),
  (132, 4418750530297032649345144687022, 0, 0),
  (133, 4501773350142342811396524578223, 0, 0),
  (134, 4584796169987652973447904469424, 0, 0),
  (135, 4667818989832963135499284360625, 0, 0),
  (136, 4750841809678273297550664251826, 0, 0),
  (137, 4833864629523583459602044143027, 0, 0),
  (138, 5498047188286064756013083272635, 0, 0),
  (139, 5581070008131374918064463163836, 0, 0),
  (140, 5664092827976685080115843055037, 0, 0),
  (141, 5747115647821995242167222946238, 0, 0),
  (142, 5830138467667305404218602837439, 0, 0),
  (143, 5913161287512615566269982728640, 0, 0),
  (144, 4086982296907407993988074071211, 0, 0),
  (145, 4170005116752718156039453962412, 0, 0),
  (146, 4253027936598028318090833853613, 0, 0),
  (147, 4336050756443338480142213744814, 0, 0),
  (148, 4419073576288648642193593636015, 0, 0),
  (149, 4502096396133958804244973527216, 0, 0),
  (150, 4585119215979268966296353418417, 0, 0),
  (151, 4668142035824579128347733309618, 0, 0),
  (152, 4751164855669889290399113200819, 0, 0),
  (153, 4834187675515199452450493092020, 0, 0),
  (154, 5498370234277680748861532221628, 0, 0),
  (155, 5581393054122990910912912112829, 0, 0),
  (156, 5664415873968301072964292004030, 0, 0),
  (157, 5747438693813611235015671895231, 0, 0),
  (158, 5830461513658921397067051786432, 0, 0),
  (159, 5913484333504231559118431677633, 0, 0),
  (160, 4089566664840335936775665663155, 0, 0),
  (161, 4172589484685646098827045554356, 0, 0),
  (162, 4255612304530956260878425445557, 0, 0),
  (163, 4338635124376266422929805336758, 0, 0),
  (164, 4421657944221576584981185227959, 0, 0),
  (165, 4504680764066886747032565119160, 0, 0),
  (166, 4587703583912196909083945010361, 0, 0),
  (167, 4670726403757507071135324901562, 0, 0),
  (168, 4753749223602817233186704792763, 0, 0),
  (169, 4836772043448127395238084683964, 0, 0),
  (170, 5500954602210608691649123813572, 0, 0),
  (171, 5583977422055918853700503704773, 0, 0),
  (172, 5667000241901229015751883595974, 0, 0),
  (173, 5750023061746539177803263487175, 0, 0),
  (174, 5833045881591849339854643378376, 0, 0),
  (175, 5916068701437159501906023269577, 0, 0),
  (176, 4089889710831951929624114612148, 0, 0),
  (177, 4172912530677262091675494503349, 0, 0),
  (178, 4255935350522572253726874394550, 0, 0),
  (179, 4338958170367882415778254285751, 0, 0),
  (180, 4421980990213192577829634176952, 0, 0),
  (181, 4505003810058502739881014068153, 0, 0),
  (182, 4588026629903812901932393959354, 0, 0),
  (183, 4671049449749123063983773850555, 0, 0),
  (184, 4754072269594433226035153741756, 0, 0),
  (185, 4837095089439743388086533632957, 0, 0),
  (186, 5501277648202224684497572762565, 0, 0),
  (187, 5584300468047534846548952653766, 0, 0),
  (188, 5667323287892845008600332544967, 0, 0),
  (189, 5750346107738155170651712436168, 0, 0),
  (190, 5833368927583465332703092327369, 0, 0),
  (191, 5916391747428775494754472218570, 0, 0),
  (192, 69429696830488038291827320116751898842, 0, 0),
  (193, 70838975407074501251413538858273155035, 0, 0),
  (194, 72248253983660964210999757599794411228, 0, 0),
  (195, 73657532560247427170585976341315667421, 0, 0),
  (196, 75066811136833890130172195082836923614, 0, 0),
  (197, 76476089713420353089758413824358179807, 0, 0),
  (198, 77885368290006816049344632565879436000, 0, 0),
  (199, 79294646866593279008930851307400692193, 0, 0),
  (200, 80703925443179741968517070048921948386, 0, 0),
  (201, 82113204019766204928103288790443204579, 0, 0),
  (202, 93387432632457908604793038722613254123, 0, 0),
  (203, 94796711209044371564379257464134510316, 0, 0),
  (204, 96205989785630834523965476205655766509, 0, 0),
  (205, 97615268362217297483551694947177022702, 0, 0),
  (206, 99024546938803760443137913688698278895, 0, 0),
  (207, 100433825515390223402724132430219535088, 0, 0),
  (208, 69435180404716001182720651707185833691, 0, 0),
  (209, 70844458981302464142306870448707089884, 0, 0),
  (210, 72253737557888927101893089190228346077, 0, 0),
  (211, 73663016134475390061479307931749602270, 0, 0),
  (212, 75072294711061853021065526673270858463, 0, 0),
  (213, 76481573287648315980651745414792114656, 0, 0),
  (214, 77890851864234778940237964156313370849, 0, 0),
  (215, 79300130440821241899824182897834627042, 0, 0),
  (216, 80709409017407704859410401639355883235, 0, 0),
  (217, 82118687593994167818996620380877139428, 0, 0),
  (218, 93392916206685871495686370313047188972, 0, 0),
  (219, 94802194783272334455272589054568445165, 0, 0),
  (220, 96211473359858797414858807796089701358, 0, 0),
  (221, 97620751936445260374445026537610957551, 0, 0),
  (222, 99030030513031723334031245279132213744, 0, 0),
  (223, 100439309089618186293617464020653469937, 0, 0),
  (224, 69440663978943964073613983297619768540, 0, 0),
  (225, 70849942555530427033200202039141024733, 0, 0),
  (226, 72259221132116889992786420780662280926, 0, 0),
  (227, 73668499708703352952372639522183537119, 0, 0),
  (228, 75077778285289815911958858263704793312, 0, 0),
  (229, 76487056861876278871545077005226049505, 0, 0),
  (230, 77896335438462741831131295746747305698, 0, 0),
  (231, 79305614015049204790717514488268561891, 0, 0),
  (232, 80714892591635667750303733229789818084, 0, 0),
  (233, 82124171168222130709889951971311074277, 0, 0),
  (234, 93398399780913834386579701903481123821, 0, 0),
  (235, 94807678357500297346165920645002380014, 0, 0),
  (236, 96216956934086760305752139386523636207, 0, 0),
  (237, 97626235510673223265338358128044892400, 0, 0),
  (238, 99035514087259686224924576869566148593, 0, 0)]

/-- The advertised names. -/
def nameCodes : List (List Nat) := [
  [8623473210375612257],
  [2215639632909884901486],
  [8501096386733828610865123429585],
  [9752887117509944252330942124539],
  [2235633991833258879255, 5637123, 85],
  [1097932986829990238259767176096046],
  [137284251917931, 5236956, 67],
  [1993387675],
  [2376893405086891035478807574427807],
  [5669563063967432203566340656827],
  [35659514691554840010570175173260822390841],
  [162683681361004354536425418588135464289],
  [2101013340822436060035],
  [2330348342233009615806, 5501154, 69],
  [28369010957936502],
  [8989693979820835317],
  [9536459019106155617608532927234693378651695, 4443082],
  [12046915241638991866310924767520254125706100541439781499, 5372651],
  [185491829235437729239208102347679424275399581909653, 5371623],
  [122635110588762, 5565159],
  [29226695148808646, 4577495],
  [4174204714490810690933919671506],
  [4257227534336120852985299562707],
  [4340250354181431015036679453908],
  [4423273174026741177088059345109],
  [4506295993872051339139439236310],
  [4589318813717361501190819127511],
  [4672341633562671663242199018712],
  [4755364453407981825293578909913],
  [22060556669133673621380302908, 5634542, 74],
  [183911976552128412998319093795307059110346941864158, 5504500],
  [1457077707439648147686431520721694, 5565145, 66],
  [12147202139291529550125977826086235985317973047079722944, 5499116],
  [128747816934417354943259497, 5103846, 83],
  [123774003937675, 5571330],
  [84],
  [1128275311],
  [1145249904],
  [5744531279889067299379631354294],
  [5827554099734377461431011245495],
  [4250443568665100375303242261669],
  [4333466388510410537354622152870],
  [4416489208355720699406002044071],
  [4499512028201030861457381935272],
  [4582534848046341023508761826473],
  [4665557667891651185560141717674],
  [4748580487736961347611521608875],
  [5661831506035373130176700412086],
  [5744854325880683292228080303287],
  [5827877145725993454279460194488],
  [5910899965571303616330840085689],
  [4084720974966096044048931428260],
  [4167743794811406206100311319461],
  [4250766614656716368151691210662],
  [4333789434502026530203071101863],
  [4416812254347336692254450993064],
  [4499835074192646854305830884265],
  [4582857894037957016357210775466],
  [4665880713883267178408590666667],
  [4748903533728577340459970557868],
  [4831926353573887502511350449069],
  [5496108912336368798922389578677],
  [5579131732181678960973769469878],
  [5662154552026989123025149361079],
  [5745177371872299285076529252280],
  [5828200191717609447127909143481],
  [5911223011562919609179289034682],
  [4085044020957712036897380377253],
  [4168066840803022198948760268454],
  [4251089660648332361000140159655],
  [4334112480493642523051520050856],
  [4417135300338952685102899942057],
  [4500158120184262847154279833258],
  [4583180940029573009205659724459],
  [4666203759874883171257039615660],
  [4749226579720193333308419506861],
  [4832249399565503495359799398062],
  [5496431958327984791770838527670],
  [5579454778173294953822218418871],
  [5662477598018605115873598310072],
  [5745500417863915277924978201273],
  [5828523237709225439976358092474],
  [5911546057554535602027737983675],
  [4085367066949328029745829326246],
  [4168389886794638191797209217447],
  [4251412706639948353848589108648],
  [4334435526485258515899968999849],
  [4417458346330568677951348891050],
  [4500481166175878840002728782251],
  [4583503986021189002054108673452],
  [4666526805866499164105488564653],
  [4749549625711809326156868455854],
  [4832572445557119488208248347055],
  [5496755004319600784619287476663],
  [5579777824164910946670667367864],
  [5662800644010221108722047259065],
  [5745823463855531270773427150266],
  [5828846283700841432824807041467],
  [5911869103546151594876186932668],
  [4085690112940944022594278275239],
  [4168712932786254184645658166440],
  [4251735752631564346697038057641],
  [4334758572476874508748417948842],
  [4417781392322184670799797840043],
  [4500804212167494832851177731244],
  [4583827032012804994902557622445],
  [4666849851858115156953937513646],
  [4749872671703425319005317404847],
  [4832895491548735481056697296048],
  [5497078050311216777467736425656],
  [5580100870156526939519116316857],
  [5663123690001837101570496208058],
  [5746146509847147263621876099259],
  [5829169329692457425673255990460],
  [5912192149537767587724635881661],
  [4086013158932560015442727224232],
  [4169035978777870177494107115433],
  [4252058798623180339545487006634],
  [4335081618468490501596866897835],
  [4418104438313800663648246789036],
  [4501127258159110825699626680237],
  [4584150078004420987751006571438],
  [4667172897849731149802386462639],
  [4750195717695041311853766353840],
  [4833218537540351473905146245041],
  [5497401096302832770316185374649],
  [5580423916148142932367565265850],
  [5663446735993453094418945157051],
  [5746469555838763256470325048252],
  [5829492375684073418521704939453],
  [5912515195529383580573084830654],
  [4086336204924176008291176173225],
  [4169359024769486170342556064426],
  [4252381844614796332393935955627],
  [4335404664460106494445315846828],
  [4418427484305416656496695738029],
  [4501450304150726818548075629230],
  [4584473123996036980599455520431],
  [4667495943841347142650835411632],
  [4750518763686657304702215302833],
  [4833541583531967466753595194034],
  [5497724142294448763164634323642],
  [5580746962139758925216014214843],
  [5663769781985069087267394106044],
  [5746792601830379249318773997245],
  [5829815421675689411370153888446],
  [5912838241520999573421533779647],
  [4086659250915792001139625122218],
  [4169682070761102163191005013419],
  [4252704890606412325242384904620],
  [4335727710451722487293764795821],
  [4418750530297032649345144687022],
  [4501773350142342811396524578223],
  [4584796169987652973447904469424],
  [4667818989832963135499284360625],
  [4750841809678273297550664251826],
  [4833864629523583459602044143027],
  [5498047188286064756013083272635],
  [5581070008131374918064463163836],
  [5664092827976685080115843055037],
  [5747115647821995242167222946238],
  [5830138467667305404218602837439],
  [5913161287512615566269982728640],
  [4086982296907407993988074071211],
  [4170005116752718156039453962412],
  [4253027936598028318090833853613],
  [4336050756443338480142213744814],
  [4419073576288648642193593636015],
  [4502096396133958804244973527216],
  [4585119215979268966296353418417],
  [4668142035824579128347733309618],
  [4751164855669889290399113200819],
  [4834187675515199452450493092020],
  [5498370234277680748861532221628],
  [5581393054122990910912912112829],
  [5664415873968301072964292004030],
  [5747438693813611235015671895231],
  [5830461513658921397067051786432],
  [5913484333504231559118431677633],
  [4089566664840335936775665663155],
  [4172589484685646098827045554356],
  [4255612304530956260878425445557],
  [4338635124376266422929805336758],
  [4421657944221576584981185227959],
  [4504680764066886747032565119160],
  [4587703583912196909083945010361],
  [4670726403757507071135324901562],
  [4753749223602817233186704792763],
  [4836772043448127395238084683964],
  [5500954602210608691649123813572],
  [5583977422055918853700503704773],
  [5667000241901229015751883595974],
  [5750023061746539177803263487175],
  [5833045881591849339854643378376],
  [5916068701437159501906023269577],
  [4089889710831951929624114612148],
  [4172912530677262091675494503349],
  [4255935350522572253726874394550],
  [4338958170367882415778254285751],
  [4421980990213192577829634176952],
  [4505003810058502739881014068153],
  [4588026629903812901932393959354],
  [4671049449749123063983773850555],
  [4754072269594433226035153741756],
  [4837095089439743388086533632957],
  [5501277648202224684497572762565],
  [5584300468047534846548952653766],
  [5667323287892845008600332544967],
  [5750346107738155170651712436168],
  [5833368927583465332703092327369],
  [5916391747428775494754472218570],
  [69429696830488038291827320116751898842],
  [70838975407074501251413538858273155035],
  [72248253983660964210999757599794411228],
  [73657532560247427170585976341315667421],
  [75066811136833890130172195082836923614],
  [76476089713420353089758413824358179807],
  [77885368290006816049344632565879436000],
  [79294646866593279008930851307400692193],
  [80703925443179741968517070048921948386],
  [82113204019766204928103288790443204579],
  [93387432632457908604793038722613254123],
  [94796711209044371564379257464134510316],
  [96205989785630834523965476205655766509],
  [97615268362217297483551694947177022702],
  [99024546938803760443137913688698278895],
  [100433825515390223402724132430219535088],
  [69435180404716001182720651707185833691],
  [70844458981302464142306870448707089884],
  [72253737557888927101893089190228346077],
  [73663016134475390061479307931749602270],
  [75072294711061853021065526673270858463],
  [76481573287648315980651745414792114656],
  [77890851864234778940237964156313370849],
  [79300130440821241899824182897834627042],
  [80709409017407704859410401639355883235],
  [82118687593994167818996620380877139428],
  [93392916206685871495686370313047188972],
  [94802194783272334455272589054568445165],
  [96211473359858797414858807796089701358],
  [97620751936445260374445026537610957551],
  [99030030513031723334031245279132213744],
  [100439309089618186293617464020653469937],
  [69440663978943964073613983297619768540],
  [70849942555530427033200202039141024733],
  [72259221132116889992786420780662280926],
  [73668499708703352952372639522183537119],
  [75077778285289815911958858263704793312],
  [76487056861876278871545077005226049505],
  [77896335438462741831131295746747305698],
  [79305614015049204790717514488268561891],
  [80714892591635667750303733229789818084],
  [82124171168222130709889951971311074277],
  [93398399780913834386579701903481123821],
  [94807678357500297346165920645002380014],
  [96216956934086760305752139386523636207],
  [97626235510673223265338358128044892400],
  [99035514087259686224924576869566148593]]

/-- The parts of a text separated by `|`. -/
def parts : Str → List Str
  | [] => [[]]
  | c :: rest =>
    match parts rest with
    | p :: ps => if c = 0x7C then [] :: p :: ps else (c :: p) :: ps
    | [] => []

/-- An entry as numbers. -/
def codeOf (i : FiletypeInfo) : Nat × Nat × Nat × Nat := (i.type.toNat, code i.name, code i.threeLetter, code i.oneLetter)

theorem codes_eq : filetypeInfos.map codeOf = codes := by decide +kernel
theorem nameCodes_eq : filetypeInfos.map (fun i => (parts i.namesString).map code) = nameCodes := by decide +kernel
theorem types_nonneg : (filetypeInfos.all fun i => decide (0 ≤ i.type)) = true := by decide +kernel

/-- The lookup on numbers. -/
def look (c : Nat) : Option Nat :=
  (codes.find? (fun r => r.2.1 == c || r.2.2.1 == c || r.2.2.2 == c)).map (·.1)

theorem forName_look (s : Str) (t : Nat) (h : look (code s) = some t) : filetypeForName s = .ok (t : Int) := by
  unfold look at h
  rw [← codes_eq, List.find?_map] at h
  unfold filetypeForName
  have e : (fun info : FiletypeInfo => decide (info.name = s ∨ info.threeLetter = s ∨ info.oneLetter = s)) =
      ((fun r : Nat × Nat × Nat × Nat => r.2.1 == code s || r.2.2.1 == code s || r.2.2.2 == code s) ∘ codeOf) := by
    funext info
    have k : ∀ x : Str, (code x == code s) = decide (x = s) := by
      intro x
      by_cases hx : x = s
      · simp [hx]
      · have : code x ≠ code s := fun h => hx (code_inj _ _ h)
        simp [hx, this]
    simp only [Function.comp, codeOf, k, Bool.decide_or, Bool.or_assoc]
  rw [e]
  generalize hf : filetypeInfos.find? _ = f at h
  cases f with
  | none => simp at h
  | some info =>
    have hm : info ∈ filetypeInfos := List.mem_of_find?_eq_some hf
    have hn := of_decide_eq_true (List.all_eq_true.1 types_nonneg info hm)
    simp only [Option.map_some, Option.some.injEq] at h
    change Out.ok info.type = _
    rw [← h]
    unfold codeOf
    rw [Int.toNat_of_nonneg hn]

theorem look_name : (codes.all fun r => look r.2.1 == some r.1) = true := by decide +kernel
theorem look_three : (codes.all fun r => r.2.2.1 == 0 || look r.2.2.1 == some r.1) = true := by decide +kernel
theorem look_one : (codes.all fun r => r.2.2.2 == 0 || r.1 == 0x101 || r.1 == 0x102 || look r.2.2.2 == some r.1) = true := by
  decide +kernel
theorem look_parts : ((codes.zip nameCodes).all fun p => p.2.all fun c => look c == some p.1.1) = true := by decide +kernel
theorem codes_types : (codes.map (·.1)).Nodup := by decide +kernel
theorem codes_names : (codes.map (·.2.1)).Nodup := by decide +kernel
theorem codes_bytes : ((List.range 256).all fun b => b == 0xF9 || codes.any fun r => r.1 == b) = true := by decide +kernel
theorem codes_F9 : (codes.all fun r => r.1 != 0xF9) = true := by decide +kernel

end Verif.Types

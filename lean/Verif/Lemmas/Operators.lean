import Verif.Model.Operators
import Verif.Spec.Operators

/-!
# Operator names differ even up to case

Comparing all pairs of names character by character is slow, so each name is encoded as a number; the
numbers are computed once and compared as literals.
-/

namespace OnnxIR.Ops

/-- The lower-case name as a number in base 256. -/
def nameCode (s : String) : Nat := (s.toList.map Char.toLower).foldl (fun a c => a * 256 + c.toNat) 0

def memberCodes : List Nat :=
  [6382692, 7566690, 7173484, 6580598, 7234919, 6382195, 7368567, 540220063578903325925740,
   1936814708, 6649968, 7106407, 1667590508, 439905906546, 491496238692, 1936287598, 6648422,
   7563630, 6516595, 7627118, 1634953582, 1633906547, 1635017070, 1936289384, 1668248424, 1952542312,
   418548117096, 418280076136, 418564370024, 1919249525, 32485515260291428, 32492108152398200,
   512070623166397502284152, 1999553598200557694069, 126188464955829111697140068, 6646901,
   1936026741, 1667591285, 1734700149, 1835627368, 8317979687064991091, 8317979687115122542,
   604424869596852047492937809347832949, 1925483168881904808808, 482955586677, 435695214956,
   29117702353479026, 2098151575504210525722748311134572, 1818588019, 131043077226711078430663020,
   6385252, 28530, 7892850, 7237492, 512852587109, 464737215741339705110116, 1815379748989608226674,
   464737215741339706617714, 464737215741339705962356, 7091327127293355636, 107143989387640,
   107143989389678, 2110234917968154550648, 2110234917968154552686, 540220138999847565222254,
   2110234917968154948973, 540220138999847616409444, 8243105148313103409, 8243105148313103410,
   35403867029494008977944704365, 593978324389099359328917541194397808,
   593978324389099488890160454203175525, 7168376, 7170414, 1835360622, 7566701, 1667330932,
   1668049264, 109330244526452, 111567955914340, 28829613445899630, 113668262487410,
   2096809347408499462284599788205171, 7449363250374930020, 7364964, 32199693691875429,
   125780053555813, 32478892538488178, 599129818455006179896971438739846259, 2128536701402361261668,
   495672455269, 1936292453, 495740085093, 495807392116, 32494371347987045, 1953066085,
   2148064302785459352421, 2166227886339537599077, 31071133542310741788535645029,
   35726635724338613595866690664, 120265332585836, 8666030512306586152237053470066, 1734700397,
   109330245759332, 109330245759588, 109330245759844, 516297488218836540784778544964514148,
   516297488218836540784778544964514404, 516297488218836540784778544964514660,
   7721773636696904249301780935012, 7721773636696904249301780935268, 2017718591277138456932,
   2017718591277138457188, 35193218756747545144591120905472798846828,
   8194059775384971767869221072748, 8570166117506855435340793053620898642882414,
   154088235628412548630431766543199660037737638621038, 9441295633551854639492568528981991837233006,
   9011505794886936428329536077365112547667822, 28273320624354676, 119200079503730,
   1797725618680598458222, 7165066974322585204, 516297487290301471329416199245230181,
   28562449165282149, 7594306396727374969, 35399078237152675032111866220,
   9062164028711086777407191872109, 152037883337116071421836215230245989221,
   38921698134301722741581920765906988395365, 1815090945793702259817, 491260897125, 122519938428788,
   26982, 1819242352, 1935892846, 452907855462, 452908179822, 31084767728726639, 1953460331,
   129117075895653, 500135718005, 7171940, 109355998606701, 459958496284720189565284,
   117824915110731571186855788, 1996262922946323991778138175860599, 7161131826368047973,
   7874979606410158604800752640356, 109330207762797, 7165065861892764531,
   8662034381066029827374768872899498566640485, 1668247158, 120209876495767342191961458,
   7878074466229805615002114028389, 6579828, 474107150682537614863990,
   133449522773337409221615486780546834802, 6579572,
   146843413185454413424631024768808810348188413550962, 111503499031917, 488514270881710284500069,
   6779509, 8269881237033309795067229400951, 492923405822479246323575, 29380541516964216, 26989,
   32628158922448780717061334386, 563048440186417108743998868690661230, 119230178488172, 7107182,
   1819505773, 30787942371782508, 516535959929871699767148, 2017718596770418618220,
   686689934034303603117351342893406310885358946354969180729198,
   568017474543132003314345647312890232, 132327431853207494974857580,
   692967605588763417062044996365017125335203470236144068686707,
   37579178039994851818057218285438138675054, 8030046131791487340,
   9707730101419306397061429577295724575813236, 9707730101419306397066078084744705344892532,
   137120578059602218670059126, 8986334203714091013696081720684, 2301212133804340753200623261147506,
   152100293103754172402417806078733021038, 7499374, 2320228738856324513143452647842664,
   593979745562464330530909449117131621, 8245925309890258798, 594182409964264113186787421185470055,
   544943442233677213688180, 39267313334105345791689287733712256328564,
   9142633838137925088341822305401, 9142633838137925088341905208165,
   2340514262563308822619908901007988, 2340514262563308822623168697431144,
   139505521211821366704955760, 126892433305195,
   11056491468349180358884339850712406944465666213673923443, 599394357885376981649260569760260965,
   1937008244, 35731551819172591363690815860, 153465846498675637632946452633684174194,
   139576374293643003750541684, 495924638568, 9221858364614757788805340882290,
   604383591399046998316032071273440626, 8462390562114268261]

def operatorCodes : List Nat :=
  [6382195, 1633906547, 418280076136, 6382692, 459958496284720189565284, 6385252, 107143989387640,
   107143989389678, 1634953582, 418548117096, 1635017070, 418564370024, 1797725618680598458222,
   117824915110731571186855788, 8570166117506855435340793053620898642882414, 1815090945793702259817,
   7091327127293355636, 464737215741339705110116, 464737215741339705962356, 1815379748989608226674,
   464737215741339706617714, 1996262922946323991778138175860599, 1667330932, 7161131826368047973,
   1667590508, 1667591285, 7874979606410158604800752640356, 1668049264, 109330207762797,
   7165065861892764531, 109330244526452, 8662034381066029827374768872899498566640485,
   7165066974322585204, 516297487290301471329416199245230181, 1668247158,
   120209876495767342191961458, 7878074466229805615002114028389, 6516595, 1668248424,
   109355998606701, 6579828, 474107150682537614863990, 31071133542310741788535645029,
   133449522773337409221615486780546834802, 6579572, 6580598, 28273320624354676,
   146843413185454413424631024768808810348188413550962, 111503499031917, 6646901, 435695214956,
   6648422, 6649968, 111567955914340, 28562449165282149, 28829613445899630, 439905906546, 6779509,
   113668262487410, 2096809347408499462284599788205171, 7449363250374930020, 1734700149, 1734700397,
   35193218756747545144591120905472798846828, 32008045997597544933017743212,
   8194059775384971767869221072748, 29117702353479026, 2098151575504210525722748311134572,
   488514270881710284500069, 9011505794886936428329536077365112547667822,
   8269881237033309795067229400951, 492923405822479246323575, 126188464955829111697140068,
   1925483168881904808808, 29380541516964216, 7594306396727374969, 26982,
   32628158922448780717061334386, 154088235628412548630431766543199660037737638621038, 452907855462,
   452908179822, 7107182, 1819505773, 9441295633551854639492568528981991837233006,
   1999553598200557694069, 1818588019, 131043077226711078430663020, 7106407,
   512070623166397502284152, 1819242352, 563048440186417108743998868690661230, 119230178488172,
   120265332585836, 8666030512306586152237053470066, 7168376, 30787942371782508,
   516535959929871699767148, 2017718596770418618220, 1835360622,
   686689934034303603117351342893406310885358946354969180729198,
   568017474543132003314345647312890232, 7170414, 1835627368, 7171940, 7173484,
   132327431853207494974857580, 7234919,
   692967605588763417062044996365017125335203470236144068686707,
   37579178039994851818057218285438138675054, 31084767728726639, 7237492, 122519938428788,
   8030046131791487340, 9707730101419306397061429577295724575813236,
   9707730101419306397066078084744705344892532, 28530, 482955586677, 7364964, 7368567,
   137120578059602218670059126, 8986334203714091013696081720684, 2301212133804340753200623261147506,
   152100293103754172402417806078733021038, 7499374, 35399078237152675032111866220,
   152037883337116071421836215230245989221, 9062164028711086777407191872109,
   38921698134301722741581920765906988395365, 491260897125, 540220063578903325925740,
   8243105148313103409, 8243105148313103410, 35403867029494008977944704365,
   593978324389099359328917541194397808, 2110234917968154550648, 540220138999847565222254,
   2110234917968154552686, 540220138999847616409444, 2110234917968154948973,
   593978324389099488890160454203175525, 2320228738856324513143452647842664, 1919249525,
   32199693691875429, 125780053555813, 593979745562464330530909449117131621, 8245925309890258798,
   594182409964264113186787421185470055, 491496238692, 1937008244, 1935892846, 32478892538488178,
   599129818455006179896971438739846259, 2128536701402361261668, 1936026741,
   544943442233677213688180, 39267313334105345791689287733712256328564,
   9142633838137925088341822305401, 9142633838137925088341905208165,
   2340514262563308822619908901007988, 2340514262563308822623168697431144,
   139505521211821366704955760, 495672455269, 126892433305195, 32485515260291428, 1936287598,
   7563630, 1936289384, 1936292453, 495740085093, 32492108152398200,
   11056491468349180358884339850712406944465666213673923443, 8317979687064991091,
   8317979687115122542, 35726635724338613595866690664, 495807392116,
   599394357885376981649260569760260965, 1936814708, 32494371347987045,
   35731551819172591363690815860, 153465846498675637632946452633684174194,
   139576374293643003750541684, 7566690, 7566701, 495924638568, 7627118, 1952542312,
   9221858364614757788805340882290, 604383591399046998316032071273440626,
   604424869596852047492937809347832949, 1953066085, 1953460331, 2148064302785459352421,
   500135718005, 129117075895653, 2166227886339537599077, 8462390562114268261, 512852587109, 7892850]

set_option synthInstance.maxSize 4096 in
set_option synthInstance.maxHeartbeats 0 in
/-- What the proofs need of the tables, in one statement: decoding the names is the slow part, and the
kernel does it once for each statement. -/
theorem tables :
    members.map nameCode = memberCodes ∧ Onnx.operators.map nameCode = operatorCodes ∧
    (∀ e ∈ processors, e.1 ∉ ["GlobalMaxPool", "Scatter", "Unique"] → codeOf e.1 = some e.1) ∧
    (∀ d ∈ Onnx.documentedSupported, d ≠ "ReduceL" →
      (d ∈ members ∧ accepted d = true ∧ codeOf d = some d) ∨ d ∈ ["GRU", "LSTM", "RNN"]) ∧
    (∀ d ∈ Onnx.documentedUnsupported,
      (d ∈ members ∧ codeOf d = none) ∨ d ∈ ["DFT", "LRN", "STFT"] ∨ d = "GlobalLpPool") ∧
    (∀ t ∈ ["Gru", "Lstm", "Rnn"], t ∈ members ∧ accepted t = true ∧ codeOf t = some t) ∧
    (∀ t ∈ ["Dft", "Lrn", "Stft"], t ∈ members ∧ codeOf t = none) ∧
    (∀ op ∈ ["GlobalMaxPool", "Scatter", "Unique"], op ∈ Onnx.operators ∧ op ∈ members ∧
      op ∉ Onnx.windowOperators.map Prod.fst ∧ accepted op = true ∧ codeOf op = none) ∧
    ("Attention" ∈ members ∧ "Attention" ∉ Onnx.windowOperators.map Prod.fst ∧
      accepted "Attention" = true ∧ codeOf "Attention" = some "Attention") ∧
    ("Linear" ∉ Onnx.operators ∧ "Linear" ∈ members ∧ "Linear" ∉ Onnx.windowOperators.map Prod.fst ∧
      accepted "Linear" = true) ∧
    ("relu" ∉ Onnx.operators ∧ "Relu" ∈ members ∧ "Relu" ∉ Onnx.windowOperators.map Prod.fst ∧
      accepted "Relu" = true) ∧
    ("ReduceL" ∈ Onnx.documentedSupported ∧ "ReduceL" ∉ Onnx.operators ∧ nameCode "ReduceL" ∉ memberCodes ∧
      nameCode "GlobalLpPool" ∉ memberCodes) ∧
    (∀ op ∈ ["ReduceL1", "ReduceL2"], op ∈ Onnx.operators ∧ op ∉ Onnx.documentedSupported ∧ op ∈ members ∧
      op ∉ Onnx.windowOperators.map Prod.fst ∧ accepted op = true ∧ codeOf op = some op) ∧
    (∀ t ∈ ["Conv", "MaxPool", "AveragePool", "Einsum", "Det"], t ∈ members) ∧
    (accepted "Conv2d" = true ∧ accepted "Einsum" = false ∧ accepted "Det" = false) := by
  decide +kernel

theorem memberCodes_eq : members.map nameCode = memberCodes := tables.1

theorem operatorCodes_eq : Onnx.operators.map nameCode = operatorCodes := tables.2.1

theorem memberCodes_nodup : memberCodes.Nodup := by decide +kernel

theorem operatorCodes_nodup : operatorCodes.Nodup := by decide +kernel

theorem eq_of_map_nodup {α β : Type} {f : α → β} : ∀ {l : List α}, (l.map f).Nodup → ∀ {a b : α}, a ∈ l → b ∈ l →
    f a = f b → a = b := by
  intro l
  induction l with
  | nil => intro _ a b ha; cases ha
  | cons x l ih =>
    intro h a b ha hb hab
    rw [List.map_cons, List.nodup_cons] at h
    rcases List.mem_cons.1 ha with h1 | h1 <;> rcases List.mem_cons.1 hb with h2 | h2
    · exact h1.trans h2.symm
    · exact absurd (List.mem_map.2 ⟨b, h2, by rw [← h1]; exact hab.symm⟩) h.1
    · exact absurd (List.mem_map.2 ⟨a, h1, by rw [← h2]; exact hab⟩) h.1
    · exact ih h.2 h1 h2 hab

theorem member_eq {a b : String} (ha : a ∈ members) (hb : b ∈ members) (h : Onnx.EqUpToCase a b) : a = b :=
  eq_of_map_nodup (f := nameCode) (by rw [memberCodes_eq]; exact memberCodes_nodup) ha hb
    (by unfold nameCode; rw [h])

theorem operator_eq {a b : String} (ha : a ∈ Onnx.operators) (hb : b ∈ Onnx.operators)
    (h : Onnx.EqUpToCase a b) : a = b :=
  eq_of_map_nodup (f := nameCode) (by rw [operatorCodes_eq]; exact operatorCodes_nodup) ha hb
    (by unfold nameCode; rw [h])

end OnnxIR.Ops

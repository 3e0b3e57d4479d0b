import Verif.Proofs.FreqSum

/-! The sums of `FreqSum`, as numbers. -/

namespace Poker.Freq
open Rules

/-- Larger than every count. -/
def base : Nat := 18446744073709551616

/-- The weight with an exponent, if any. -/
def power : Option Nat → Nat
  | none => 0
  | some e => Nat.pow base e

/-- All hands without a straight flush: the sum of the weights. -/
def runsAll (f : List Nat) : Nat := ((allB 4).map (fun b => Nat.mul (f.getD (b.count true) 0) (runs f b))).sum

/-- The sum over all sets of the ranks left without a straight, `b` being the values so far as bits, and `w`
the weights by the number of ranks. -/
noncomputable def rowSum : List Nat → Nat → List Nat → Nat
  | [], b, w => cond (Seven.inRow b) 0 (w.headD 0)
  | v :: vs, b, w => Nat.add (rowSum vs b w) (rowSum vs (Nat.add b (Nat.pow 2 v)) w.tail)

/-- All hands without a flush and a straight: the sum of the weights. -/
noncomputable def rows (f : List Nat) : Nat := rowSum allValues 0 ((List.range 14).map (few f))

/-- The number with these digits. -/
def number (l : List Nat) : Nat := l.foldr (fun a b => Nat.add a (Nat.mul base b)) 0

/-- No straight flush, by the number of cards. -/
def any : List Nat :=
  [1, 52, 1326, 22100, 270725, 2598920, 20356676, 133742976, 751926810, 3672487284, 15764542120,
    60023601920, 204201496560, 624368943360, 1723916430012, 4314369481828, 9815878701131, 20348562279924,
    38498519198552, 66546890315844, 105153270274833, 151895765051892, 200490681608474, 241570471556816,
    265300616612961, 265016587177480, 240144228935380, 196722917218604, 145074879803443, 95818042759496,
    56324580137624, 29243665030836, 13286312528504, 5222090881228, 1750563679802, 491621183380,
    113039836023, 20648517088, 2876812252, 288833732, 19286850, 772640, 17548, 208, 1]

set_option maxRecDepth 1000000 in
theorem any_check : Nat.beq (Nat.mod (runsAll ([some 0, some 1, some 2, some 3, some 4].map power))
    (Nat.pow base 53)) (number any) = true := by
  decide +kernel

/-- No straight flush, and no rank four times. -/
def three : List Nat :=
  [1, 52, 1326, 22100, 270712, 2598296, 20342012, 133518128, 749397548, 3650239668, 15605279672,
    59070188744, 199334745854, 602877974208, 1640915092036, 4031637694684, 8960943894884, 18042313270836,
    32927945104958, 54466948037092, 81594316474394, 110536364425504, 135118394410854, 148592849163624,
    146452985951456, 128749750246416, 100369415083448, 68892142286964, 41275976195136, 21361141230628,
    9427267219280, 3492475192768, 1064975479476, 260744788892, 49638870188, 7041081472, 701598084,
    45044364, 1617000, 23880]

set_option maxRecDepth 1000000 in
theorem three_check : Nat.beq (Nat.mod (runsAll ([some 0, some 1, some 2, some 3, none].map power))
    (Nat.pow base 53)) (number three) = true := by
  decide +kernel

/-- No straight flush, and no rank three times. -/
def two : List Nat :=
  [1, 52, 1326, 22048, 268216, 2539640, 19443868, 123456104, 661592836, 3029811724, 11961813964,
    40958016628, 122087675454, 317388661428, 719666460000, 1420967292588, 2434866832296, 3601509285324,
    4563550125366, 4902232960488, 4401568558398, 3239898551640, 1902612729270, 856353793032,
    277108787964, 57329004096, 5689119456]

set_option maxRecDepth 1000000 in
theorem two_check : Nat.beq (Nat.mod (runsAll ([some 0, some 1, some 2, none, none].map power))
    (Nat.pow base 53)) (number two) = true := by
  decide +kernel

/-- No straight flush, and every rank at most once; from place 20 on, but for one rank three times, by the
number of the other cards. -/
def trips : List Nat :=
  [1, 52, 1248, 18304, 183040, 1317848, 7027492, 28098032, 84213568, 186796804, 297921796, 323344804,
    213901488, 65086848, 0, 0, 0, 0, 0, 0, 52, 2496, 54912, 732160, 6588840, 42152584, 196519120,
    672420096, 1674971156, 2960158552, 3520268220, 2526966848, 827201616]

set_option maxRecDepth 1000000 in
theorem trips_check : Nat.beq (Nat.mod (runsAll ([some 0, some 1, none, some 20, none].map power))
    (Nat.pow base 40)) (number trips) = true := by
  decide +kernel

/-- No flush, and no rank three times. -/
def fewTwo : List Nat :=
  [1, 52, 1326, 22048, 268216, 2534532, 19238076, 119485080, 612740700, 2599628460, 9086327250,
    25891454160, 59059263120, 104618754240, 136781124480, 119870871120, 54726882210]

set_option maxRecDepth 1000000 in
theorem fewTwo_check : Nat.beq (Nat.mod (few ([some 0, some 1, some 2, none, none].map power) 13)
    (Nat.pow base 53)) (number fewTwo) = true := by
  decide +kernel

/-- No flush, and every rank at most once; from place 20 on, but for one rank three times. -/
def fewTrips : List Nat :=
  [1, 52, 1248, 18304, 183040, 1312740, 6898320, 26666640, 75135060, 150750600, 206606400, 180180000,
    87687600, 17417400, 0, 0, 0, 0, 0, 0, 52, 2496, 54912, 732160, 6512220, 40154400, 173693520,
    523242720, 1070269200, 1417416000, 1117116000, 446846400, 62462400]

set_option maxRecDepth 1000000 in
theorem fewTrips_check : Nat.beq (Nat.mod (few ([some 0, some 1, none, some 20, none].map power) 13)
    (Nat.pow base 40)) (number fewTrips) = true := by
  decide +kernel

/-- No flush, no straight, and no rank three times. -/
def rowTwo : List Nat :=
  [1, 52, 1326, 22048, 268216, 2524332, 18876456, 113355660, 547329480, 2112521280, 6440007270,
    15229232760, 27233911950, 35473102140, 31735669770, 17540825400, 4596568200]

set_option maxRecDepth 1000000 in
theorem rowTwo_check : Nat.beq (Nat.mod (rows (0 :: [some 1, some 2, none, none].map power))
    (Nat.pow base 53)) (number rowTwo) = true := by
  decide +kernel

/-- No flush, no straight, and every rank at most once; from place 20 on, but for one rank three times. -/
def rowTrips : List Nat :=
  [1, 52, 1248, 18304, 183040, 1302540, 6612900, 23294460, 53476080, 69788040, 37564800, 2310000, 0, 0,
    0, 0, 0, 0, 0, 0, 52, 2496, 54912, 732160, 6461620, 38493000, 151728780, 372408960, 495467280,
    257712000, 14322000]

set_option maxRecDepth 1000000 in
theorem rowTrips_check : Nat.beq (Nat.mod (rows (0 :: [some 1, none, some 20, none].map power))
    (Nat.pow base 40)) (number rowTrips) = true := by
  decide +kernel

/-- No flush, no straight, and every rank at most once; from place 20 on, but for one rank twice. -/
def rowPair : List Nat :=
  [1, 52, 1248, 18304, 183040, 1302540, 6612900, 23294460, 53476080, 69788040, 37564800, 2310000, 0, 0,
    0, 0, 0, 0, 0, 0, 78, 3744, 82368, 1098240, 9730740, 58627800, 236092500, 600163200, 842044140,
    473054400, 29383200]

set_option maxRecDepth 1000000 in
theorem rowPair_check : Nat.beq (Nat.mod (rows (0 :: [some 1, some 20, none, none].map power))
    (Nat.pow base 40)) (number rowPair) = true := by
  decide +kernel

/-- No royal flush, by the number of cards. -/
def plain : List Nat :=
  [1, 52, 1326, 22100, 270725, 2598956, 20358332, 133780236, 752473290, 3678361940, 15813888470,
    60360778800, 206127846040, 633755798500, 1763516419600, 4460674243320, 10293557442215,
    21736744621320, 42109978117900, 74996480529400, 122996989590190, 186004557566680, 259635471652440,
    334748695415400, 398808846744900, 439091902606056, 446707133865612, 419736154095856, 363997718041300,
    291031374157800, 214243686214976, 144962948756672, 89964063140231, 51077890169540, 26449348493190,
    12445748666580, 5298420377045, 2030059677500, 695595708300, 211516057900, 56538365650, 13127618500,
    2607606750, 434264000, 58975500, 6272500, 490000, 25000, 625]

set_option maxRecDepth 1000000 in
theorem plain_check : Nat.beq (Nat.mod (Nat.mul (few ([some 0, some 1, some 2, some 3, some 4].map power) 5)
    (Nat.pow (Nat.add 1 base) 32)) (Nat.pow base 53)) (number plain) = true := by
  decide +kernel

end Poker.Freq

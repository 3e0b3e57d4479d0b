import Verif.Spec.Rules

/-! How many sets of a given number of cards have each category. -/

namespace Poker.Rules

/-- How many of the sets of `n` cards, from 5 to 52 cards, have each category (high card, pair, two pair,
three of a kind, straight, flush, full house, four of a kind, straight flush).  Other numbers of cards have
no result. -/
def frequencies (n : Nat) : List Nat :=
  match n with
  | 5 => [1302540, 1098240, 123552, 54912, 10200, 5108, 3744, 624, 40]
  | 6 => [6612900, 9730740, 2532816, 732160, 361620, 205792, 165984, 14664, 1844]
  | 7 => [23294460, 58627800, 31433400, 6461620, 6180020, 4047644, 3473184, 224848, 41584]
  | 8 => [53476080, 236092500, 257760900, 38493000, 67072620, 50850320, 45652128, 2529262, 611340]
  | 9 => [69788040, 600163200, 1442570040, 151728780, 509071920, 453008864, 423908824, 22247616, 6588116]
  | 10 => [37564800, 842044140, 5560398330, 372408960, 2797153740, 3024664090, 2971045612, 159262448,
      55482100]
  | 11 => [2310000, 473054400, 14753868360, 495467280, 11237023320, 15671264424, 16437200960, 953413176,
      380126920]
  | 12 => [0, 29383200, 27204528750, 257712000, 32985055170, 64571154886, 74286911848, 4866750706,
      2177910310]
  | 13 => [0, 0, 35473102140, 14322000, 70248446100, 215173059408, 281969044560, 21490969152, 10644616240]
  | 14 => [0, 0, 31735669770, 0, 105492301110, 584965455968, 918721665188, 83001337976, 45049914588]
  | 15 => [0, 0, 17540825400, 0, 102392508120, 1301861160684, 2609843200480, 282731787144, 167011924492]
  | 16 => [0, 0, 4596568200, 0, 50130314010, 2380139950086, 6526077062588, 854934806247, 547315800984]
  | 17 => [0, 0, 0, 0, 0, 3601509285324, 14440803985512, 2306249009088, 1597026077496]
  | 18 => [0, 0, 0, 0, 0, 4563550125366, 28364394979592, 5570574093594, 4173458163098]
  | 19 => [0, 0, 0, 0, 0, 4902232960488, 49564715076604, 12079942278752, 9813490226056]
  | 20 => [0, 0, 0, 0, 0, 4401568558398, 77192747915996, 23558953800439, 20841357619302]
  | 21 => [0, 0, 0, 0, 0, 3239898551640, 107296465873864, 41359400626388, 40096048882028]
  | 22 => [0, 0, 0, 0, 0, 1902612729270, 133215781681584, 65372287197620, 70043238025686]
  | 23 => [0, 0, 0, 0, 0, 856353793032, 147736495370592, 92977622393192, 111299858400784]
  | 24 => [0, 0, 0, 0, 0, 277108787964, 146175877163492, 118847630661505, 161084365419139]
  | 25 => [0, 0, 0, 0, 0, 57329004096, 128692421242320, 136266836931064, 212534592698472]
  | 26 => [0, 0, 0, 0, 0, 5689119456, 100363725963992, 139774813851932, 255774304012724]
  | 27 => [0, 0, 0, 0, 0, 0, 68892142286964, 127830774931640, 280828262657348]
  | 28 => [0, 0, 0, 0, 0, 0, 41275976195136, 103798903608307, 281310102228657]
  | 29 => [0, 0, 0, 0, 0, 0, 21361141230628, 74456901528868, 257052287198104]
  | 30 => [0, 0, 0, 0, 0, 0, 9427267219280, 46897312918344, 214209339496536]
  | 31 => [0, 0, 0, 0, 0, 0, 3492475192768, 25751189838068, 162748148903084]
  | 32 => [0, 0, 0, 0, 0, 0, 1064975479476, 12221337049028, 112708315365631]
  | 33 => [0, 0, 0, 0, 0, 0, 260744788892, 4961346092336, 71138289660672]
  | 34 => [0, 0, 0, 0, 0, 0, 49638870188, 1700924809614, 40921413681848]
  | 35 => [0, 0, 0, 0, 0, 0, 7041081472, 484580101908, 21453967174040]
  | 36 => [0, 0, 0, 0, 0, 0, 701598084, 112338237939, 10250154666092]
  | 37 => [0, 0, 0, 0, 0, 0, 45044364, 20603472724, 4460732889232]
  | 38 => [0, 0, 0, 0, 0, 0, 1617000, 2875195252, 1766089532348]
  | 39 => [0, 0, 0, 0, 0, 0, 23880, 288809852, 634724725868]
  | 40 => [0, 0, 0, 0, 0, 0, 0, 19286850, 206360120020]
  | 41 => [0, 0, 0, 0, 0, 0, 0, 772640, 60402956200]
  | 42 => [0, 0, 0, 0, 0, 0, 0, 17548, 15820006672]
  | 43 => [0, 0, 0, 0, 0, 0, 0, 208, 3679075192]
  | 44 => [0, 0, 0, 0, 0, 0, 0, 1, 752538149]
  | 45 => [0, 0, 0, 0, 0, 0, 0, 0, 133784560]
  | 46 => [0, 0, 0, 0, 0, 0, 0, 0, 20358520]
  | 47 => [0, 0, 0, 0, 0, 0, 0, 0, 2598960]
  | 48 => [0, 0, 0, 0, 0, 0, 0, 0, 270725]
  | 49 => [0, 0, 0, 0, 0, 0, 0, 0, 22100]
  | 50 => [0, 0, 0, 0, 0, 0, 0, 0, 1326]
  | 51 => [0, 0, 0, 0, 0, 0, 0, 0, 52]
  | 52 => [0, 0, 0, 0, 0, 0, 0, 0, 1]
  | _ => []

/-- How many sets of 0, 1, 2, … cards hold ten, jack, queen, king and ace of some suit. -/
def royals : List Nat :=
  [0, 0, 0, 0, 0, 4, 188, 4324, 64860, 713460, 6135750, 42950040, 251560830, 1257761100, 5449925000,
    20707163000, 69637059900, 208843736100, 561999243750, 1363900012500, 2997638303945, 5987256367240,
    10898447981720, 18121634542200, 27576135287200, 38459277269896, 49211399082492, 57815025780096,
    62387263990800, 61838955799800, 56290233419184, 47028865177248, 36030564753904, 25282490372360,
    16222628868460, 9499839690840, 5064774125070, 2451321728820, 1073370636300, 423497501700,
    149841041220, 47276110340, 13212417470, 3244811400, 693562650, 127512060, 19868520, 2573960, 270100,
    22100, 1326, 52, 1]

end Poker.Rules

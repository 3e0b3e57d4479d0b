/-! Combinations of a list. -/

namespace Poker

/-- All sub-lists with `n` elements, in lexicographic order of positions. -/
def combos {α : Type} : Nat → List α → List (List α)
  | 0, _ => [[]]
  | _ + 1, [] => []
  | n + 1, x :: xs => (combos n xs).map (x :: ·) ++ combos (n + 1) xs

end Poker

import Verif.Props.Results
import Verif.Props.Range
import Verif.Proofs.Exact

/-! # The worth of hands of any size: C42 -/

namespace Poker
open Rules Tab

/-- Three pairs: the third pair only gives the last deciding value. -/
def threePairs : List PCard := [(.Nine, .Clubs), (.King, .Hearts), (.Four, .Spades), (.King, .Clubs),
  (.Four, .Clubs), (.Nine, .Diamonds), (.Two, .Hearts)]

/-- Twice three of a kind make a full house. -/
def twoTrips : List PCard := [(.Nine, .Clubs), (.King, .Hearts), (.Nine, .Spades), (.King, .Clubs),
  (.King, .Spades), (.Nine, .Diamonds)]

/-- Flushes in two suits, and a straight. -/
def twoFlushes : List PCard := [(.Two, .Clubs), (.Three, .Clubs), (.Four, .Clubs), (.Five, .Clubs),
  (.Ten, .Clubs), (.Ten, .Hearts), (.Nine, .Hearts), (.Six, .Hearts), (.Three, .Hearts),
  (.Two, .Hearts)]

/-- C42: the class of five or more distinct cards is that of the worth read off the cards. -/
theorem c42_class (h : List PCard) (e : Eval) (he : evaluateHand h = .ok (.ok e)) :
    e.class' = className (bestWorth h) := by
  obtain ⟨hn, h5, w, hw, rfl⟩ := ok_iff.1 he
  rw [class_evalOf, hw.unique (Exact.isBest_bestWorth hn h5)]

/-- C42: results of any two hands, of any sizes, compare as the worths read off the cards; equality,
order, `is_better_than`, `is_worse_than` and `is_equal_to` alike. -/
theorem c42_compare (h h' : List PCard) (e e' : Eval) (he : evaluateHand h = .ok (.ok e))
    (he' : evaluateHand h' = .ok (.ok e')) :
    e.cmp e' = cmpWorth (bestWorth h) (bestWorth h') ∧
    (e.eq e' = true ↔ bestWorth h = bestWorth h') ∧
    (e.is_better_than e' = true ↔ cmpWorth (bestWorth h) (bestWorth h') = .gt) ∧
    (e.is_worse_than e' = true ↔ cmpWorth (bestWorth h) (bestWorth h') = .lt) ∧
    (e.is_equal_to e' = true ↔ bestWorth h = bestWorth h') := by
  obtain ⟨hn, h5, w, hw, rfl⟩ := ok_iff.1 he
  obtain ⟨hn', h5', w', hw', rfl⟩ := ok_iff.1 he'
  rw [hw.unique (Exact.isBest_bestWorth hn h5), hw'.unique (Exact.isBest_bestWorth hn' h5')]
  have m := (Exact.isBest_bestWorth hn h5).mem_ladder
  have m' := (Exact.isBest_bestWorth hn' h5').mem_ladder
  have hc := cmp_evalOf m m'
  obtain ⟨a, b, c, _⟩ := c11_methods (evalOf (bestWorth h)) (evalOf (bestWorth h'))
  rw [a, b, c, Eval.gt_iff, Eval.lt_iff, Eval.eq_iff_cmp, hc, cmpWorth_eq_iff]
  simp

/-- C42: and the text of the result is the description of the worth read off the cards. -/
theorem c42_text (h : List PCard) (e : Eval) (he : evaluateHand h = .ok (.ok e)) :
    e.display = Text.describe (className (bestWorth h)) := by
  rw [c28_exact_result, c42_class h e he]

example : ∃ e, evaluateHand twoTrips = .ok (.ok e) ∧ e.display = "Full house, kings over nines".toList := by
  obtain ⟨e, he⟩ := (c04_iff twoTrips).2.2.2 (by decide)
  exact ⟨e, he, by rw [c42_text _ e he]; decide +kernel⟩

/-! ## C13: the order of classes, exactly -/

/-- The key of a class as numbers, with pip values. -/
def keyCheck (w : Nat × List Nat) : Bool :=
  let k := classKey (className w)
  Nat.beq k.1 (told w).1 && (k.2.map (· + 2) == (told w).2)

set_option maxRecDepth 100000 in
theorem check_keys : Kinds.ladder.all keyCheck = true := by decide +kernel

theorem cmpList_map : ∀ a b : List Nat, cmpList (a.map (· + 2)) (b.map (· + 2)) = cmpList a b
  | [], [] => rfl
  | [], _ :: _ => rfl
  | _ :: _, [] => rfl
  | x :: a, y :: b => by
    simp only [List.map_cons, cmpList, cmpList_map a b]
    rw [show compare (x + 2) (y + 2) = compare x y by
      rcases Nat.lt_trichotomy x y with h | h | h
      · rw [Nat.compare_eq_lt.2 h, Nat.compare_eq_lt.2 (by omega)]
      · rw [Nat.compare_eq_eq.2 h, Nat.compare_eq_eq.2 (by omega)]
      · rw [Nat.compare_eq_gt.2 h, Nat.compare_eq_gt.2 (by omega)]]

theorem class_cmp_told {w v : Nat × List Nat} (hw : w ∈ Kinds.ladder) (hv : v ∈ Kinds.ladder) :
    (className w).cmp (className v) = cmpWorth (told w) (told v) := by
  have h : ∀ w ∈ Kinds.ladder, (classKey (className w)).1 = (told w).1 ∧
      (classKey (className w)).2.map (· + 2) = (told w).2 := by
    intro w hw
    have := List.all_eq_true.1 check_keys w hw
    rw [keyCheck, Bool.and_eq_true] at this
    exact ⟨Nat.eq_of_beq_eq_true this.1, beq_iff_eq.1 this.2⟩
  rw [class_cmp_eq, cmpWorth, cmpWorth, (h w hw).1, (h v hv).1, ← (h w hw).2, ← (h v hv).2,
    cmpList_map]

/-- C13: the order of the classes of two results is that of the worths read off the cards, as far as
the names of the hands tell them. -/
theorem c13_exact (h h' : List PCard) (e e' : Eval) (he : evaluateHand h = .ok (.ok e))
    (he' : evaluateHand h' = .ok (.ok e')) :
    e.class'.cmp e'.class' = cmpWorth (told (bestWorth h)) (told (bestWorth h')) := by
  obtain ⟨hn, h5, w, hw, rfl⟩ := ok_iff.1 he
  obtain ⟨hn', h5', w', hw', rfl⟩ := ok_iff.1 he'
  rw [hw.unique (Exact.isBest_bestWorth hn h5), hw'.unique (Exact.isBest_bestWorth hn' h5'),
    class_evalOf, class_evalOf]
  exact class_cmp_told (Exact.isBest_bestWorth hn h5).mem_ladder
    (Exact.isBest_bestWorth hn' h5').mem_ladder

example : ∃ a b, evaluateHand threePairs = .ok (.ok a) ∧ evaluateHand twoTrips = .ok (.ok b) ∧
    a.class'.cmp b.class' = .lt := by
  obtain ⟨a, ha⟩ := (c04_iff threePairs).2.2.2 (by decide)
  obtain ⟨b, hb⟩ := (c04_iff twoTrips).2.2.2 (by decide)
  exact ⟨a, b, ha, hb, by rw [c13_exact _ _ a b ha hb]; decide +kernel⟩

example : bestWorth threePairs = (2, [13, 9, 4]) ∧ bestWorth twoTrips = (6, [13, 9]) ∧
    bestWorth twoFlushes = (5, [10, 9, 6, 3, 2]) := by decide +kernel

/-- The hypotheses hold of these hands, and the second beats the third, which beats the first. -/
example : ∃ a b c, evaluateHand threePairs = .ok (.ok a) ∧ evaluateHand twoTrips = .ok (.ok b) ∧
    evaluateHand twoFlushes = .ok (.ok c) ∧ b.is_better_than c = true ∧ c.is_better_than a = true ∧
    a.class' = .TwoPair .King .Nine := by
  obtain ⟨a, ha⟩ := (c04_iff threePairs).2.2.2 (by decide)
  obtain ⟨b, hb⟩ := (c04_iff twoTrips).2.2.2 (by decide)
  obtain ⟨c, hc⟩ := (c04_iff twoFlushes).2.2.2 (by decide)
  refine ⟨a, b, c, ha, hb, hc, ?_, ?_, ?_⟩
  · rw [(c42_compare _ _ b c hb hc).2.2.1]; decide +kernel
  · rw [(c42_compare _ _ c a hc ha).2.2.1]; decide +kernel
  · rw [c42_class _ a ha]; decide +kernel

end Poker

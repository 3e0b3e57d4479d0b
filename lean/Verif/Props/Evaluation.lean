import Verif.Proofs.Best

/-! # Properties of `Evaluator::new().evaluate`

C01–C07, C12, C30 and C36.  The theorems speak about `evaluateHand h`, which is
`Evaluator::new().evaluate` on the cards of `h` (`Spec/Api.lean`), and about the rules of poker
(`Spec/Rules.lean`). -/

namespace Poker
open Rules Tab

/-! ## Hands used in the examples -/

/-- A full house, queens over fives. -/
def fullHouseHand : List PCard :=
  [(.Queen, .Spades), (.Five, .Hearts), (.Queen, .Clubs), (.Five, .Spades), (.Queen, .Diamonds)]

/-- A five-high straight (wheel). -/
def wheelHand : List PCard :=
  [(.Ace, .Clubs), (.Two, .Spades), (.Three, .Diamonds), (.Four, .Diamonds), (.Five, .Clubs)]

/-- Seven cards with a pair of sevens. -/
def sevenCards : List PCard :=
  [(.Seven, .Clubs), (.Eight, .Diamonds), (.Three, .Spades), (.King, .Spades), (.Seven, .Hearts),
    (.Two, .Clubs), (.Jack, .Diamonds)]

/-! ## C36: building the evaluator -/

/-- C36: `Evaluator::new` returns normally: no index, shift, addition, `unreachable!` or loop in the
construction of the tables fails. -/
theorem c36_new_ok : ∃ ev, Evaluator.new = .ok ev := ⟨_, evaluator_new⟩

/-! ## C01: classes of five-card hands -/

/-- C01: five distinct cards are evaluated, and get the class the rules give them. -/
theorem c01_class (h : List PCard) (hn : h.Nodup) (h5 : h.length = 5) :
    ∃ e, evaluateHand h = .ok (.ok e) ∧ e.class' = classOf h :=
  ⟨_, evaluate_five_ok hn h5, class_evalOf _⟩

example : fullHouseHand.Nodup ∧ fullHouseHand.length = 5 ∧
    classOf fullHouseHand = .FullHouse .Queen .Five := by decide
example : wheelHand.Nodup ∧ wheelHand.length = 5 ∧ classOf wheelHand = .Straight .Five := by decide

/-! ## C02: comparing five-card hands -/

/-- C02: comparing the results of two five-card hands is comparing the hands by the rules. -/
theorem c02_compare (h₁ h₂ : List PCard) (n₁ : h₁.Nodup) (l₁ : h₁.length = 5) (n₂ : h₂.Nodup)
    (l₂ : h₂.length = 5) :
    ∃ e₁ e₂, evaluateHand h₁ = .ok (.ok e₁) ∧ evaluateHand h₂ = .ok (.ok e₂) ∧
      e₁.cmp e₂ = showdown h₁ h₂ ∧
      (e₁.gt e₂ = true ↔ Beats h₁ h₂) ∧
      (e₁.lt e₂ = true ↔ Beats h₂ h₁) ∧
      (e₁.eq e₂ = true ↔ showdown h₁ h₂ = .eq) := by
  have m₁ := strength_mem n₁ l₁
  have m₂ := strength_mem n₂ l₂
  refine ⟨_, _, evaluate_five_ok n₁ l₁, evaluate_five_ok n₂ l₂, cmp_evalOf m₁ m₂, ?_, ?_, ?_⟩
  · rw [Eval.gt_iff, cmp_evalOf m₁ m₂]; rfl
  · rw [Eval.lt_iff, cmp_evalOf m₁ m₂, cmpWorth_lt_iff]; rfl
  · rw [Eval.eq_iff_cmp, cmp_evalOf m₁ m₂]; rfl

example : Beats fullHouseHand wheelHand := by unfold Beats; decide

/-! ## C03: the best five of any number of cards -/

/-- C03: five or more distinct cards get the result of some five of them, and no five of them are
better, by the library's order or by the rules. -/
theorem c03_best_five (h : List PCard) (hn : h.Nodup) (h5 : 5 ≤ h.length) :
    ∃ e c, evaluateHand h = .ok (.ok e) ∧ FiveOf c h ∧ evaluateHand c = .ok (.ok e) ∧
      ∀ d, FiveOf d h → ¬ Beats d c ∧
        ∃ e', evaluateHand d = .ok (.ok e') ∧ e'.gt e = false := by
  obtain ⟨w, hw, he⟩ := evaluate_best hn h5
  obtain ⟨⟨c, hc, rfl⟩, ht⟩ := id hw
  refine ⟨_, c, he, hc, evaluate_five_ok hc.1 hc.2.1, ?_⟩
  intro d hd
  refine ⟨ht d hd, _, evaluate_five_ok hd.1 hd.2.1, ?_⟩
  rw [Bool.eq_false_iff]
  intro hg
  rw [Eval.gt_iff, cmp_evalOf (fiveOf_mem_ladder hd) hw.mem_ladder] at hg
  exact ht d hd hg

example : sevenCards.Nodup ∧ 5 ≤ sevenCards.length := by decide

/-! ## C04: outcomes -/

/-- C04: `evaluate` never panics, and its outcome is decided by uniqueness and number of cards. -/
theorem c04_outcome (h : List PCard) :
    (¬ h.Nodup ∧ evaluateHand h = .ok (.error (.CardsNotUnique (deal h)))) ∨
    (h.Nodup ∧ h.length < 5 ∧ evaluateHand h = .ok (.error (.InvalidHandSize h.length))) ∨
    (h.Nodup ∧ 5 ≤ h.length ∧ ∃ e, evaluateHand h = .ok (.ok e)) := by
  by_cases hn : h.Nodup
  · by_cases h5 : h.length < 5
    · exact .inr (.inl ⟨hn, h5, evaluateHand_short hn h5⟩)
    · obtain ⟨w, _, e⟩ := evaluate_best hn (by omega)
      exact .inr (.inr ⟨hn, by omega, _, e⟩)
  · exact .inl ⟨hn, evaluateHand_dup hn⟩

example : evaluateHand [(.Ace, .Clubs), (.King, .Spades)] = .ok (.error (.InvalidHandSize 2)) := by
  rcases c04_outcome [(.Ace, .Clubs), (.King, .Spades)] with h | h | h
  · exact absurd (by decide) h.1
  · exact h.2.2
  · exact absurd h.2.1 (by decide)

/-- C04: no panic, for every slice. -/
theorem c04_no_panic (h : List PCard) : ∃ r, evaluateHand h = .ok r := by
  rcases c04_outcome h with ⟨_, e⟩ | ⟨_, _, e⟩ | ⟨_, _, _, e⟩ <;> exact ⟨_, e⟩

/-- C04: exactly when each outcome occurs. -/
theorem c04_iff (h : List PCard) :
    ((∃ cs, evaluateHand h = .ok (.error (.CardsNotUnique cs))) ↔ ¬ h.Nodup) ∧
    (∀ n, evaluateHand h = .ok (.error (.InvalidHandSize n)) ↔ h.Nodup ∧ h.length = n ∧ n < 5) ∧
    ((∃ e, evaluateHand h = .ok (.ok e)) ↔ h.Nodup ∧ 5 ≤ h.length) := by
  rcases c04_outcome h with ⟨a, e⟩ | ⟨a, b, e⟩ | ⟨a, b, _, e⟩ <;> rw [e]
  · simp [a]
  · refine ⟨by simp [a], ?_, by simp; omega⟩
    intro n
    simp only [Except.ok.injEq, Except.error.injEq, EvalError.InvalidHandSize.injEq]
    constructor
    · rintro rfl; exact ⟨a, rfl, b⟩
    · rintro ⟨_, h, _⟩; exact h
  · refine ⟨by simp [a], ?_, by simp [a, b]⟩
    intro n
    constructor
    · intro h; cases h
    · rintro ⟨_, h, h'⟩; omega

-- duplicates are reported even when there are fewer than five cards
example : ¬ ([(.Ace, .Clubs), (.Ace, .Clubs)] : List PCard).Nodup := by decide
example : ([(.Ace, .Clubs), (.Ace, .Spades)] : List PCard).Nodup := by decide

/-! ## C05: order of the cards -/

/-- C05: permuting the cards does not change an `Ok` result (rank, class and text), and leaves the
kind of error. -/
theorem c05_perm (h h' : List PCard) (hp : h.Perm h') :
    (∀ e, evaluateHand h = .ok (.ok e) ↔ evaluateHand h' = .ok (.ok e)) ∧
    (∀ n, evaluateHand h = .ok (.error (.InvalidHandSize n)) ↔
      evaluateHand h' = .ok (.error (.InvalidHandSize n))) ∧
    ((∃ cs, evaluateHand h = .ok (.error (.CardsNotUnique cs))) ↔
      ∃ cs, evaluateHand h' = .ok (.error (.CardsNotUnique cs))) := by
  refine ⟨?_, ?_, ?_⟩
  · have key : ∀ h h' : List PCard, h.Perm h' → ∀ e, evaluateHand h = .ok (.ok e) →
        evaluateHand h' = .ok (.ok e) := by
      intro h h' hp e he
      obtain ⟨hn, h5, w, hw, rfl⟩ := ok_iff.1 he
      exact ok_iff.2 ⟨hp.nodup_iff.1 hn, by rw [← hp.length_eq]; exact h5, w,
        isBest_congr (fun _ => hp.mem_iff) hw, rfl⟩
    exact fun e => ⟨key h h' hp e, key h' h hp.symm e⟩
  · intro n
    rw [(c04_iff h).2.1, (c04_iff h').2.1, hp.nodup_iff, hp.length_eq]
  · rw [(c04_iff h).1, (c04_iff h').1, hp.nodup_iff]

example : sevenCards.Perm sevenCards.reverse ∧ sevenCards ≠ sevenCards.reverse :=
  ⟨(List.reverse_perm _).symm, by decide⟩

/-! ## C06: suits -/

/-- The cards with renamed suits. -/
def renameSuits (f : Suit → Suit) (h : List PCard) : List PCard := h.map (fun c => (c.1, f c.2))

theorem strength_rename {f : Suit → Suit} (hf : Function.Injective f) (h : List PCard) :
    strength (renameSuits f h) = strength h := by
  have hv : values (renameSuits f h) = values h := by
    simp [values, renameSuits, Function.comp_def]
  have hfl : Rules.flush (renameSuits f h) = Rules.flush h := by
    cases h with
    | nil => rfl
    | cons c h =>
      have : renameSuits f (c :: h) = (c.1, f c.2) :: renameSuits f h := rfl
      rw [this, flush_cons, flush_cons, Bool.eq_iff_iff, List.all_eq_true, List.all_eq_true]
      simp only [renameSuits, List.mem_map, forall_exists_index, and_imp, beq_iff_eq]
      constructor
      · intro hall d hd
        exact hf (hall _ d hd rfl)
      · rintro hall _ d hd rfl
        show f d.2 = f c.2
        rw [hall d hd]
  rw [strength, strength, hv, hfl]

theorem rename_inj {f : Suit → Suit} (hf : Function.Injective f) :
    Function.Injective (fun c : PCard => (c.1, f c.2)) := by
  intro c d h
  simp only [Prod.mk.injEq] at h
  exact Prod.ext h.1 (hf h.2)

theorem isBest_rename {f : Suit → Suit} (hf : Function.Injective f) {w : Nat × List Nat}
    {h : List PCard} (hw : IsBest w h) : IsBest w (renameSuits f h) := by
  obtain ⟨⟨c, hc, rfl⟩, ht⟩ := hw
  refine ⟨⟨renameSuits f c, ⟨?_, ?_, ?_⟩, strength_rename hf c⟩, ?_⟩
  · exact hc.1.map (rename_inj hf)
  · rw [renameSuits, List.length_map, hc.2.1]
  · intro x hx
    obtain ⟨y, hy, rfl⟩ := List.mem_map.1 hx
    exact List.mem_map.2 ⟨y, hc.2.2 y hy, rfl⟩
  · intro d hd
    have hex : ∃ d', FiveOf d' h ∧ renameSuits f d' = d := by
      obtain ⟨c', hc', hp⟩ := fiveOf_combos hd
      have hsub : d ⊆ renameSuits f h := hd.2.2
      have : ∀ l : List PCard, (∀ x ∈ l, x ∈ renameSuits f h) →
          ∃ l', (∀ x ∈ l', x ∈ h) ∧ renameSuits f l' = l := by
        intro l
        induction l with
        | nil => exact fun _ => ⟨[], by simp, rfl⟩
        | cons a l ih =>
          intro hl
          obtain ⟨l', h1, h2⟩ := ih (fun x hx => hl x (by simp [hx]))
          obtain ⟨y, hy, rfl⟩ := List.mem_map.1 (hl a (by simp))
          refine ⟨y :: l', ?_, ?_⟩
          · intro x hx
            rcases List.mem_cons.1 hx with rfl | hx
            · exact hy
            · exact h1 x hx
          · rw [← h2]; rfl
      obtain ⟨d', hd', e⟩ := this d hsub
      refine ⟨d', ⟨?_, ?_, hd'⟩, e⟩
      · have := hd.1
        rw [← e] at this
        exact List.Nodup.of_map _ this
      · have := hd.2.1
        rw [← e, renameSuits, List.length_map] at this
        exact this
    obtain ⟨d', hd', rfl⟩ := hex
    rw [strength_rename hf]
    exact ht d' hd'

/-- C06: renaming the suits injectively leaves the result unchanged (and the kind of error). -/
theorem c06_suits (f : Suit → Suit) (hf : Function.Injective f) (h : List PCard) :
    (∀ e, evaluateHand (renameSuits f h) = .ok (.ok e) ↔ evaluateHand h = .ok (.ok e)) ∧
    (∀ n, evaluateHand (renameSuits f h) = .ok (.error (.InvalidHandSize n)) ↔
      evaluateHand h = .ok (.error (.InvalidHandSize n))) ∧
    ((∃ cs, evaluateHand (renameSuits f h) = .ok (.error (.CardsNotUnique cs))) ↔
      ∃ cs, evaluateHand h = .ok (.error (.CardsNotUnique cs))) := by
  have hn : (renameSuits f h).Nodup ↔ h.Nodup := List.nodup_map_iff (rename_inj hf)
  have hl : (renameSuits f h).length = h.length := by rw [renameSuits, List.length_map]
  refine ⟨?_, ?_, ?_⟩
  · intro e
    constructor
    · intro he
      obtain ⟨n, l, w, hw, rfl⟩ := ok_iff.1 he
      obtain ⟨v, hv, e'⟩ := evaluate_best (hn.1 n) (hl ▸ l)
      rw [e', hw.unique (isBest_rename hf hv)]
    · intro he
      obtain ⟨n, l, w, hw, rfl⟩ := ok_iff.1 he
      exact ok_iff.2 ⟨hn.2 n, by omega, w, isBest_rename hf hw, rfl⟩
  · intro n
    rw [(c04_iff _).2.1, (c04_iff h).2.1, hn, hl]
  · rw [(c04_iff _).1, (c04_iff h).1, hn]

/-- Exchange clubs and hearts. -/
def swapClubsHearts : Suit → Suit
  | .Clubs => .Hearts
  | .Hearts => .Clubs
  | s => s

example : Function.Injective swapClubsHearts := by
  intro a b h
  cases a <;> cases b <;> first | rfl | cases h

/-! ## C07: more cards -/

/-- C07: if a list of cards evaluates and `h'` contains these cards, all different, then `h'`
evaluates to a result at least as good. -/
theorem c07_more_cards (h h' : List PCard) (e : Eval) (he : evaluateHand h = .ok (.ok e))
    (hn : h'.Nodup) (hs : ∀ c ∈ h, c ∈ h') :
    ∃ e', evaluateHand h' = .ok (.ok e') ∧ e'.lt e = false := by
  obtain ⟨n, l, w, hw, rfl⟩ := ok_iff.1 he
  have hl : h.length ≤ h'.length := (n.subperm hs).length_le
  obtain ⟨v, hv, e'⟩ := evaluate_best hn (by omega)
  refine ⟨_, e', ?_⟩
  rw [Bool.eq_false_iff]
  intro hlt
  rw [Eval.lt_iff, cmp_evalOf hv.mem_ladder hw.mem_ladder, cmpWorth_lt_iff] at hlt
  exact isBest_mono hs hw hv hlt

/-- C07: in particular a player's cards together with the board are never worth less than the
board. -/
theorem c07_board (hand board : List PCard) (e : Eval) (he : evaluateHand board = .ok (.ok e))
    (hn : (hand ++ board).Nodup) :
    ∃ e', evaluateHand (hand ++ board) = .ok (.ok e') ∧ e'.lt e = false :=
  c07_more_cards board _ e he hn (fun _ h => List.mem_append.2 (.inr h))

example : (∃ e, evaluateHand wheelHand = .ok (.ok e)) ∧
    (([(.Six, .Clubs), (.King, .Hearts)] : List PCard) ++ wheelHand).Nodup :=
  ⟨((c04_iff _).2.2).2 (by decide), by decide⟩

/-! ## C12: equal results are interchangeable -/

/-- C12: two results that are `==` are the same value: same rank, class and text. -/
theorem c12_equal (h h' : List PCard) (e e' : Eval) (he : evaluateHand h = .ok (.ok e))
    (he' : evaluateHand h' = .ok (.ok e')) (heq : e.eq e' = true) :
    e = e' ∧ e.class' = e'.class' ∧ e.display = e'.display := by
  obtain ⟨_, _, w, hw, rfl⟩ := ok_iff.1 he
  obtain ⟨_, _, v, hv, rfl⟩ := ok_iff.1 he'
  rw [evalOf_inj hw.mem_ladder hv.mem_ladder heq]
  exact ⟨rfl, rfl, rfl⟩

-- two different hands with equal results
example : ∃ e e', evaluateHand wheelHand = .ok (.ok e) ∧
    evaluateHand (renameSuits swapClubsHearts wheelHand) = .ok (.ok e') ∧ e.eq e' = true ∧
    wheelHand ≠ renameSuits swapClubsHearts wheelHand := by
  obtain ⟨e, e', h1, h2, _, _, _, h3⟩ := c02_compare wheelHand
    (renameSuits swapClubsHearts wheelHand) (by decide) (by decide) (by decide) (by decide)
  exact ⟨e, e', h1, h2, h3.2 (by decide), by decide⟩

/-! ## C30: hand and board -/

theorem box_cards_eq (first : List Card) (rest : List (List Card)) :
    box_cards first rest = first ++ rest.flatten := by
  unfold box_cards
  induction rest generalizing first with
  | nil => simp
  | cons s rest ih => rw [List.foldl_cons, ih, List.flatten_cons, List.append_assoc]

/-- C30: `box_cards!` of slices is their concatenation, in order. -/
theorem c30_concat (first : List Card) (rest : List (List Card)) :
    box_cards first rest = (first :: rest).flatten := by
  rw [box_cards_eq, List.flatten_cons]

example : box_cards (deal [(.Ace, .Clubs)]) [deal [(.Two, .Clubs)], deal [(.Three, .Clubs)]]
    = deal [(.Ace, .Clubs), (.Two, .Clubs), (.Three, .Clubs)] := c30_concat _ _

/-- C30: evaluating `box_cards!(hand, board)` or `box_cards!(board, hand)` gives the same result, and
fails with `CardsNotUnique` iff a card is repeated within or between the two. -/
theorem c30_join (hand board : List PCard) :
    ∃ ev, Evaluator.new = .ok ev ∧
      (∀ e, ev.evaluate (box_cards (deal hand) [deal board]) = .ok (.ok e) ↔
        ev.evaluate (box_cards (deal board) [deal hand]) = .ok (.ok e)) ∧
      ((∃ cs, ev.evaluate (box_cards (deal hand) [deal board]) = .ok (.error (.CardsNotUnique cs))) ↔
        ¬ hand.Nodup ∨ ¬ board.Nodup ∨ ∃ c, c ∈ hand ∧ c ∈ board) := by
  refine ⟨_, evaluator_new, ?_, ?_⟩
  all_goals
    have e : ∀ a b : List PCard, box_cards (deal a) [deal b] = deal (a ++ b) := by
      intro a b
      rw [box_cards_eq]
      simp [deal]
  · intro r
    rw [e, e, ← evaluateHand_eq, ← evaluateHand_eq]
    exact (c05_perm _ _ List.perm_append_comm).1 r
  · rw [e, ← evaluateHand_eq, (c04_iff _).1, List.nodup_append]
    constructor
    · intro h
      by_contra hc
      push Not at hc
      obtain ⟨a, b, d⟩ := hc
      exact h ⟨a, b, fun x hx y hy hxy => d x hx (hxy ▸ hy)⟩
    · rintro (h | h | ⟨c, h1, h2⟩) ⟨a, b, d⟩
      · exact h a
      · exact h b
      · exact d c h1 c h2 rfl

example : ∃ ev cs, Evaluator.new = .ok ev ∧
    ev.evaluate (box_cards (deal [(.Ace, .Clubs), (.Five, .Spades)]) [deal wheelHand])
      = .ok (.error (.CardsNotUnique cs)) :=
  have ⟨ev, hev, _, h⟩ := c30_join [(.Ace, .Clubs), (.Five, .Spades)] wheelHand
  have ⟨cs, hc⟩ := h.2 (by decide)
  ⟨ev, cs, hev, hc⟩

end Poker

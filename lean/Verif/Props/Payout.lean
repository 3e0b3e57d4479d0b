import Verif.Props.Range
import Verif.Props.Categories
import Verif.Model.Game
import Verif.Spec.Game

/-! # What the jacks-or-better game pays: C33 -/

namespace Poker
open Rules Tab

/-! ## Pairs -/

theorem mem_grouped {vs : List Nat} {v : Nat} :
    v ∈ grouped vs ↔ v ∈ allValues ∧ 1 ≤ vs.count v ∧ vs.count v ≤ 4 := by
  simp only [grouped, List.mem_flatMap, List.mem_filter, beq_iff_eq, List.mem_cons,
    List.not_mem_nil, or_false]
  constructor
  · rintro ⟨m, hm, hv, rfl⟩
    exact ⟨hv, by omega, by omega⟩
  · rintro ⟨hv, h1, h4⟩
    exact ⟨_, by omega, hv, rfl⟩

/-- A hand of the category pair has one value twice, and its rank is in the class. -/
theorem pair_head {fl : Bool} {vs : List Nat} (hm : ∀ v ∈ vs, v ∈ allValues)
    (h4 : ∀ v, vs.count v ≤ 4) (h : (worth fl vs).1 = 1) :
    ∃ a ∈ allValues, (worth fl vs).2.getD 0 0 = a ∧ vs.count a = 2 ∧
      ∀ v, 2 ≤ vs.count v → v = a := by
  have hsh : shape vs = [2, 1, 1, 1] ∧ worth fl vs = (1, grouped vs) := by
    unfold worth at h ⊢
    cases hst : straightTop vs <;> cases fl <;> simp only [hst] at h ⊢ <;>
      (try split_ifs at h ⊢) <;> simp_all
  obtain ⟨hs, hw⟩ := hsh
  rw [hw]
  unfold shape at hs
  obtain ⟨a, l, hg, ha, hs⟩ := List.map_eq_cons_iff.1 hs
  obtain ⟨b, l, rfl, hb, hs⟩ := List.map_eq_cons_iff.1 hs
  obtain ⟨c, l, rfl, hc, hs⟩ := List.map_eq_cons_iff.1 hs
  obtain ⟨d, l, rfl, hd, hs⟩ := List.map_eq_cons_iff.1 hs
  rw [List.map_eq_nil_iff] at hs
  subst hs
  have hmem : a ∈ grouped vs := by rw [hg]; simp
  refine ⟨a, (mem_grouped.1 hmem).1, by rw [hg]; rfl, ha, ?_⟩
  intro v hv
  have hvm : v ∈ vs := List.count_pos_iff.1 (by omega)
  have : v ∈ grouped vs := mem_grouped.2 ⟨hm v hvm, by omega, h4 v⟩
  rw [hg] at this
  simp only [List.mem_cons, List.not_mem_nil, or_false] at this
  rcases this with rfl | rfl | rfl | rfl
  · rfl
  all_goals omega

theorem count_le_four {h : List PCard} (hn : h.Nodup) (v : Nat) : (values h).count v ≤ 4 := by
  rw [Cat.count_values]
  have hsub : (h.filter (fun c => pips c.1 == v)).Subperm
      ([Suit.Clubs, .Hearts, .Spades, .Diamonds].map (fun s => (rankOf v, s))) := by
    refine List.Nodup.subperm (hn.filter _) ?_
    intro c hc
    obtain ⟨-, hv⟩ := List.mem_filter.1 hc
    rw [beq_iff_eq] at hv
    obtain ⟨r, s⟩ := c
    simp only at hv
    subst hv
    have : rankOf (pips r) = r := by cases r <;> rfl
    rw [this]
    cases s <;> simp
  have := hsub.length_le
  simpa using this

theorem high_pair_iff {h : List PCard} (hn : h.Nodup) (hc : (strength h).1 = 1) :
    ∃ r, className (strength h) = .Pair r ∧ hasHighPair h = decide (11 ≤ pips r) := by
  obtain ⟨a, ha, h0, h2, huniq⟩ := pair_head (fl := Rules.flush h) (values_mem h)
    (count_le_four hn) hc
  refine ⟨rankOf a, ?_, ?_⟩
  · rw [className, hc]
    simp only
    rw [← h0]
    rfl
  · have hp : pips (rankOf a) = a := by
      have : ∀ v ∈ allValues, pips (rankOf v) = v := by decide
      exact this a ha
    rw [hp, Bool.eq_iff_iff, decide_eq_true_eq]
    simp only [hasHighPair, List.any_eq_true, decide_eq_true_eq]
    constructor
    · rintro ⟨v, hv, hv2⟩
      rw [← huniq v hv2]
      simp only [List.mem_cons, List.not_mem_nil, or_false] at hv
      omega
    · intro h11
      have ha14 : a ≤ 14 := by
        have : ∀ v ∈ allValues, v ≤ 14 := by decide
        exact this a ha
      refine ⟨a, ?_, h2.ge⟩
      simp only [List.mem_cons, List.not_mem_nil, or_false]
      omega

theorem royal_iff (h : List PCard) : hasRoyal h = true ↔
    ∃ s, ∀ r ∈ [Rank.Ten, .Jack, .Queen, .King, .Ace], (r, s) ∈ h := by
  simp only [hasRoyal, List.any_eq_true, List.all_eq_true, List.contains_iff_mem]
  constructor
  · rintro ⟨s, -, hs⟩
    exact ⟨s, hs⟩
  · rintro ⟨s, hs⟩
    exact ⟨s, Cat.suits_all s, hs⟩

/-! ## The payout -/

theorem usizeMul_ok {a b : Nat} (h : a * b < 2 ^ 64) : Game.usizeMul a b = .ok (a * b) := by
  rw [Game.usizeMul, Game.USIZE, if_pos h]

/-- What the payout makes of a class. -/
theorem payout_class {k w : Nat} {l : List Nat} {royal hp : Bool} (hk : k ≤ 8)
    (hw : 250 * w < 2 ^ 64) (c : EvalClass) (hc : c = className (k, l))
    (hr : royal = true ↔ c = .StraightFlush .Ace)
    (hp1 : k = 1 → hp = decide (11 ≤ pips (rankOf (l.getD 0 0)))) :
    Game.payout w c = .ok (if royal ∧ w = 5 then 4000 else
      (if royal then 250
      else match k with
        | 8 => 50
        | 7 => 25
        | 6 => 9
        | 5 => 6
        | 4 => 4
        | 3 => 3
        | 2 => 2
        | 1 => if hp then 1 else 0
        | _ => 0) * w) := by
  cases royal with
  | true =>
    rw [hr.1 rfl]
    show (if w = 5 then .ok 4000 else Game.usizeMul 250 w) = _
    simp only [true_and, if_true]
    by_cases h5 : w = 5
    · rw [if_pos h5, if_pos h5]
    · rw [if_neg h5, if_neg h5]
      exact usizeMul_ok hw
  | false =>
    simp only [Bool.false_eq_true, false_and, if_false]
    have hne : c ≠ .StraightFlush .Ace := fun h => absurd (hr.2 h) (by simp)
    have hm : ∀ a, a ≤ 250 → Game.usizeMul a w = .ok (a * w) := fun a ha => by
      refine usizeMul_ok (lt_of_le_of_lt ?_ hw)
      exact Nat.mul_le_mul_right _ ha
    subst hc
    rw [className] at hne ⊢
    simp only at hne ⊢
    generalize rankOf (l.getD 0 0) = v0 at *
    interval_cases k
    · simp only [Game.payout, Nat.zero_mul]
    · rw [hp1 rfl]
      cases v0 <;> simp only [Game.payout, pips] <;> congr 1 <;> norm_num
    · exact hm 2 (by decide)
    · exact hm 3 (by decide)
    · exact hm 4 (by decide)
    · exact hm 6 (by decide)
    · exact hm 9 (by decide)
    · exact hm 25 (by decide)
    · have := hm 50 (by decide)
      cases v0 <;> first | exact absurd rfl hne | exact this

/-- C33: what five distinct cards pay can be read off the cards.  (The wager is not so large that the
multiplication overflows.) -/
theorem c33_payout (h : List PCard) (hn : h.Nodup) (h5 : h.length = 5) (w : Nat)
    (hw : 250 * w < 2 ^ 64) :
    ∃ e, evaluateHand h = .ok (.ok e) ∧ Game.payout w e.class' = .ok (prize w h) := by
  obtain ⟨e, he, hcls⟩ := c01_class h hn h5
  refine ⟨e, he, ?_⟩
  have hroyal : hasRoyal h = true ↔ e.class' = .StraightFlush .Ace := by
    rw [royal_iff, ← (c10_royal h e he).2.2, (c10_royal h e he).1]
  have hcat := Cat.category_five hn h5
  rw [prize, odds]
  refine payout_class (l := (strength h).2) (Cat.category_le h) hw _ ?_ hroyal ?_
  · rw [hcls, classOf, ← hcat]
  · intro h1
    obtain ⟨r, hr, hhp⟩ := high_pair_iff hn (hcat.trans h1)
    rw [className, hcat, h1] at hr
    simp only [EvalClass.Pair.injEq] at hr
    rw [hhp, hr]

example : ∃ e, evaluateHand royalHand = .ok (.ok e) ∧ Game.payout 5 e.class' = .ok 4000 :=
  c33_payout _ (by decide) (by decide) 5 (by decide)

/-- C33: nothing is paid exactly for hands below a pair of jacks. -/
theorem c33_zero (h : List PCard) (hn : h.Nodup) (h5 : h.length = 5) (w : Nat) (h1 : 1 ≤ w)
    (hw : 250 * w < 2 ^ 64) :
    ∃ e, evaluateHand h = .ok (.ok e) ∧
      (Game.payout w e.class' = .ok 0 ↔ category h = 0 ∨ category h = 1 ∧ hasHighPair h = false) := by
  obtain ⟨e, he, hp⟩ := c33_payout h hn h5 w hw
  refine ⟨e, he, ?_⟩
  rw [hp, Except.ok.injEq, prize, odds]
  have hroyal : hasRoyal h = true → category h = 8 := by
    intro hr
    have : e.class' = .StraightFlush .Ace := by
      rw [← (c10_royal h e he).1, (c10_royal h e he).2.2, ← royal_iff]
      exact hr
    have hc := c31_class h e he
    rw [this] at hc
    exact hc.symm
  have hle := Cat.category_le h
  by_cases hr : hasRoyal h = true
  · rw [hroyal hr]
    simp only [hr, true_and, if_true]
    split_ifs <;> simp
    omega
  · simp only [hr, Bool.false_eq_true, false_and, if_false]
    generalize category h = k at *
    interval_cases k <;> simp <;> (try omega)
    cases hasHighPair h <;> simp
    omega

/-- The payout as a plain function of the class. -/
def pay (w : Nat) : EvalClass → Nat
  | .Pair r => if 11 ≤ pips r then w else 0
  | .TwoPair _ _ => 2 * w
  | .ThreeOfAKind _ => 3 * w
  | .Straight _ => 4 * w
  | .Flush _ => 6 * w
  | .FullHouse _ _ => 9 * w
  | .FourOfAKind _ => 25 * w
  | .StraightFlush r => if 14 ≤ pips r then (if w = 5 then 4000 else 250 * w) else 50 * w
  | .HighCard _ => 0

theorem payout_pay {w : Nat} (hw : 250 * w < 2 ^ 64) (c : EvalClass) :
    Game.payout w c = .ok (pay w c) := by
  have hm : ∀ a, a ≤ 250 → Game.usizeMul a w = .ok (a * w) := fun a ha => by
    refine usizeMul_ok (lt_of_le_of_lt ?_ hw)
    exact Nat.mul_le_mul_right _ ha
  have hm250 := hm 250 (by decide)
  have hm50 := hm 50 (by decide)
  cases c with
  | HighCard r => rfl
  | Pair r => cases r <;> rfl
  | TwoPair r s => exact hm 2 (by decide)
  | ThreeOfAKind r => exact hm 3 (by decide)
  | Straight r => exact hm 4 (by decide)
  | Flush r => exact hm 6 (by decide)
  | FullHouse r s => exact hm 9 (by decide)
  | FourOfAKind r => exact hm 25 (by decide)
  | StraightFlush r =>
    cases r
    case Ace =>
      show (if w = 5 then .ok 4000 else Game.usizeMul 250 w)
        = Except.ok (if w = 5 then 4000 else 250 * w)
      by_cases hw5 : w = 5
      · rw [if_pos hw5, if_pos hw5]
      · rw [if_neg hw5, if_neg hw5, hm250]
    all_goals exact hm50

theorem cmp_pips (r r' : Rank) : r.cmp r' ≠ .gt → pips r ≤ pips r' := by
  cases r <;> cases r' <;> decide

theorem pay_mono {w : Nat} {c c' : EvalClass} (h : c.cmp c' ≠ .gt) : pay w c ≤ pay w c' := by
  have hd : c.discr ≤ c'.discr := by
    by_contra hlt
    refine h ?_
    rw [EvalClass.cmp, Nat.compare_eq_gt.2 (by omega)]
    rfl
  have h1 : ∀ r r' : Rank, c.fields = [r] → c'.fields = [r'] → c.discr = c'.discr →
      pips r ≤ pips r' := by
    intro r r' hr hr' he
    rw [EvalClass.cmp, he, Nat.compare_eq_eq.2 rfl, hr, hr'] at h
    refine cmp_pips r r' (fun hgt => h ?_)
    simp [EvalClass.cmpFields, hgt]
  cases c <;> cases c' <;> simp only [EvalClass.discr] at hd <;>
    first
    | omega
    | exact le_rfl
    | (have h1 := h1 _ _ rfl rfl rfl; simp only [pay]; split_ifs <;> omega)
    | (simp only [pay]; split_ifs <;> omega)
    | (simp only [pay]; omega)

/-- C33: a better hand never pays less. -/
theorem c33_monotone (h h' : List PCard) (hn : h.Nodup) (h5 : h.length = 5) (hn' : h'.Nodup)
    (h5' : h'.length = 5) (w : Nat) (hw : 250 * w < 2 ^ 64) :
    ∃ e e' p p', evaluateHand h = .ok (.ok e) ∧ evaluateHand h' = .ok (.ok e') ∧
      Game.payout w e.class' = .ok p ∧ Game.payout w e'.class' = .ok p' ∧
      (e.cmp e' ≠ .gt → p ≤ p') := by
  obtain ⟨e, he, hp⟩ := c33_payout h hn h5 w hw
  obtain ⟨e', he', hp'⟩ := c33_payout h' hn' h5' w hw
  refine ⟨e, e', _, _, he, he', hp, hp', ?_⟩
  intro hle
  have hcl := (c13_class_order h h' e e' he he').1 hle
  rw [payout_pay hw, Except.ok.injEq] at hp hp'
  rw [← hp, ← hp']
  exact pay_mono hcl

example : ∃ e e' p p', evaluateHand wheelHand = .ok (.ok e) ∧ evaluateHand fullHouseHand = .ok (.ok e') ∧
    Game.payout 3 e.class' = .ok p ∧ Game.payout 3 e'.class' = .ok p' ∧ (e.cmp e' ≠ .gt → p ≤ p') :=
  c33_monotone _ _ (by decide) (by decide) (by decide) (by decide) 3 (by decide)

/-- C33: the payout is proportional to the wager, but for the royal flush at the highest wager,
where it is 4000 instead of 1250. -/
theorem c33_proportional (h : List PCard) (hn : h.Nodup) (h5 : h.length = 5) (w : Nat)
    (hw : 250 * w < 2 ^ 64) :
    ∃ e p1 pw, evaluateHand h = .ok (.ok e) ∧ Game.payout 1 e.class' = .ok p1 ∧
      Game.payout w e.class' = .ok pw ∧
      (¬ (hasRoyal h = true ∧ w = 5) → pw = p1 * w) ∧
      (hasRoyal h = true → p1 = 250 ∧ (w = 5 → pw = 4000)) := by
  obtain ⟨e, he, hp⟩ := c33_payout h hn h5 w hw
  obtain ⟨e', he', hp'⟩ := c33_payout h hn h5 1 (by decide)
  rw [he, Except.ok.injEq, Except.ok.injEq] at he'
  subst he'
  refine ⟨e, _, _, he, hp', hp, ?_, ?_⟩
  · intro hne
    rw [prize, if_neg hne, prize, if_neg (by omega), Nat.mul_one]
  · intro hr
    refine ⟨by rw [prize, if_neg (by omega), odds, if_pos hr], ?_⟩
    rintro rfl
    rw [prize, if_pos ⟨hr, rfl⟩]

example : ∃ e p1 pw, evaluateHand fullHouseHand = .ok (.ok e) ∧ Game.payout 1 e.class' = .ok p1 ∧
    Game.payout 5 e.class' = .ok pw ∧ pw = p1 * 5 :=
  have ⟨e, p1, pw, h, h1, hw, hp, _⟩ := c33_proportional fullHouseHand (by decide) (by decide) 5 (by decide)
  ⟨e, p1, pw, h, h1, hw, hp (by decide)⟩

/-- A straight flush below the royal flush. -/
def kingFlush : List PCard :=
  [(.King, .Hearts), (.Queen, .Hearts), (.Jack, .Hearts), (.Ten, .Hearts), (.Nine, .Hearts)]

/-- C33: the chart of the README is not what is paid: it is right exactly for hands below a straight
flush.  (At no wager in the game does a royal flush pay 4000 per credit.) -/
theorem c33_chart (h : List PCard) (hn : h.Nodup) (h5 : h.length = 5) (w : Nat) (h1 : 1 ≤ w)
    (hw : 250 * w < 2 ^ 64) :
    ∃ e, evaluateHand h = .ok (.ok e) ∧
      (Game.payout w e.class' = .ok (chart h * w) ↔ category h ≠ 8) := by
  obtain ⟨e, he, hp⟩ := c33_payout h hn h5 w hw
  refine ⟨e, he, ?_⟩
  rw [hp, Except.ok.injEq, prize, odds, chart]
  have hroyal : hasRoyal h = true → category h = 8 := by
    intro hr
    have : e.class' = .StraightFlush .Ace := by
      rw [← (c10_royal h e he).1, (c10_royal h e he).2.2, ← royal_iff]
      exact hr
    have hc := c31_class h e he
    rw [this] at hc
    exact hc.symm
  have hle := Cat.category_le h
  by_cases hr : hasRoyal h = true
  · rw [hroyal hr]
    simp only [hr, true_and, if_true]
    split_ifs <;> simp <;> omega
  · simp only [hr, Bool.false_eq_true, false_and, if_false]
    generalize category h = k at *
    interval_cases k <;> simp
    omega

example : royalHand.Nodup ∧ royalHand.length = 5 ∧ category royalHand = 8 ∧
    prize 4 royalHand = 1000 ∧ prize 5 royalHand = 4000 ∧ kingFlush.Nodup ∧
    prize 5 kingFlush = 250 ∧ chart kingFlush * 5 = 1250 ∧ prize 3 fullHouseHand = 27 := by decide

/-- Both alternatives of `c33_zero` occur: a pair of jacks pays, a pair of tens does not. -/
example :
    category [(.Jack, .Clubs), (.Jack, .Hearts), (.Two, .Clubs), (.Five, .Spades), (.Nine, .Clubs)] = 1 ∧
    hasHighPair [(.Jack, .Clubs), (.Jack, .Hearts), (.Two, .Clubs), (.Five, .Spades), (.Nine, .Clubs)]
      = true ∧
    category [(.Ten, .Clubs), (.Ten, .Hearts), (.Two, .Clubs), (.Five, .Spades), (.Nine, .Clubs)] = 1 ∧
    hasHighPair [(.Ten, .Clubs), (.Ten, .Hearts), (.Two, .Clubs), (.Five, .Spades), (.Nine, .Clubs)]
      = false := by decide

end Poker

import Verif.Spec.Outcomes
import Verif.Props.Strategy

/-! C61: how likely each prize is in one round. -/

namespace Poker

open Rules Tab Counts Nat Shuffles Game Sets

theorem count_pairs {ι : Type} [Fintype ι] (p : ι × ι → Prop) (f : ι → ι → Nat)
    (h1 : ∀ i j, p (i, j) → f i j = 1) (h0 : ∀ i j, ¬ p (i, j) → f i j = 0) :
    {d | p d}.ncard = ∑ i, ∑ j, (0 + f i j) := by
  classical
  rw [Set.ncard_eq_toFinset_card', Set.toFinset_ofPred, Finset.card_filter, Fintype.sum_prod_type]
  refine Finset.sum_congr rfl (fun i _ => Finset.sum_congr rfl (fun j _ => ?_))
  by_cases h : p (i, j)
  · rw [if_pos h, h1 i j h]
  · rw [if_neg h, h0 i j h]

/-- Whether a kind of hand brings back `x` credits. -/
def brings (w x k : Nat) : Nat := if back w k = x then 1 else 0

/-- What a worth of the kinds of the second hand comes to over all hands. -/
def over (value : Nat → Nat) : Nat := ((List.range 11).map (fun k => tally k * value k)).sum

theorem rule_ok : ([1, 2, 3, 4, 5].all fun w => (ruleTable w).all fun p =>
    over (worthOf (brings w (p.1 * w))) == 47980800 * p.2) = true := by
  decide +kernel

theorem stand_ok : ([1, 2, 3, 4, 5].all fun w => (standTable w).all fun p =>
    over (fun k => brings w (p.1 * w) k * 50939616000) == 50939616000 * p.2) = true := by
  decide +kernel

theorem checked {t : Nat → List (Nat × Nat)} {f : Nat → Nat → Nat} {D : Nat}
    (h : ([1, 2, 3, 4, 5].all fun w => (t w).all fun p => f w p.1 == D * p.2) = true)
    {w m n : Nat} (hw1 : 1 ≤ w) (hw : w ≤ 5) (hm : (m, n) ∈ t w) : f w m = D * n := by
  have h1 := List.all_eq_true.1 h w (by simp only [List.mem_cons, List.not_mem_nil, or_false]; omega)
  have h2 := List.all_eq_true.1 h1 _ hm
  rwa [beq_iff_eq] at h2

theorem counted {ev : Evaluator} {l : List Card} {c w x : Nat} {bet : Input}
    {choice : List PCard → Input} {last : Draws → Draws → List PCard}
    (h : ∀ d₁ d₂ c', Round ev l c bet choice d₁ d₂ c' ↔
      c' = c - w + back w (setKind (last d₁ d₂).toFinset)) :
    endings ev l c bet choice (c - w + x)
      = ∑ d₁, ∑ d₂, (0 + brings w x (setKind (last d₁ d₂).toFinset)) := by
  refine count_pairs _ (fun d₁ d₂ => brings w x (setKind (last d₁ d₂).toFinset)) ?_ ?_
  · intro i j hp
    have := (h i j _).1 hp
    rw [brings, if_pos (by omega)]
  · intro i j hp
    rw [brings, if_neg (fun he => hp ((h i j _).2 (by rw [he])))]

/-- C61: whoever stands on every paying hand, keeps a low pair and otherwise changes all five cards gets
back each multiple of the wager in exactly the number of cases that the table says. -/
theorem c61_rule {ev : Evaluator} (hev : Evaluator.new = .ok ev) {l : List Card}
    (hl : l.Perm Deck.generate) {c w : Nat} (hc : c + 4000 < 2 ^ 64) {bet : Input}
    (hb : Bets bet.line c w) {choice : List PCard → Input}
    (ha : ∀ h, h.Nodup → h.length = 5 → Chooses (choice h).line (advice h))
    (hr : ∀ h k, (choice h).drawRound k ≤ k) {m n : Nat} (hm : (m, n) ∈ ruleTable w) :
    endings ev l c bet choice (c - w + m * w) * 2759229200 = Fintype.card Draws ^ 2 * n := by
  obtain ⟨-, -, -, hw1, hw5, hwc⟩ := id hb
  obtain ⟨last, h1, h2⟩ := round_kinds (F := brings w (m * w)) (value := worthOf (brings w (m * w)))
    (D := 47980800) (Q := 2759229200) (X := n) hev hl hc hb ha hr (fun h g hn hp h5 => by
      obtain ⟨hand, h1, h2⟩ := second_kinds hn hp h5
      exact ⟨hand, h1, h2 _⟩) (checked (f := fun w m => over (worthOf (brings w (m * w)))) rule_ok hw1 hw5 hm) (by norm_num) (by norm_num)
  have h3 := h2 0
  rw [Nat.zero_mul, Nat.zero_add] at h3
  rw [counted h1, h3]

/-- C61: and whoever never changes a card as the number of hands of each kind says. -/
theorem c61_stand {ev : Evaluator} (hev : Evaluator.new = .ok ev) {l : List Card}
    (hl : l.Perm Deck.generate) {c w : Nat} (hc : c + 4000 < 2 ^ 64) {bet : Input}
    (hb : Bets bet.line c w) {choice : List PCard → Input}
    (ha : ∀ h, h.Nodup → h.length = 5 → Chooses (choice h).line [])
    (hr : ∀ h k, (choice h).drawRound k ≤ k) {m n : Nat} (hm : (m, n) ∈ standTable w) :
    endings ev l c bet choice (c - w + m * w) * 2598960 = Fintype.card Draws ^ 2 * n := by
  obtain ⟨-, -, -, hw1, hw5, hwc⟩ := id hb
  obtain ⟨last, h1, h2⟩ := round_kinds (F := brings w (m * w))
    (value := fun k => brings w (m * w) k * 50939616000) (adv := fun _ => [])
    (D := 50939616000) (Q := 2598960) (X := n) hev hl hc hb ha hr (fun h g hn hp h5 => by
      have hhn := (List.nodup_append'.1 hn).1
      refine ⟨fun _ => h, fun d => ⟨g, rfl, hhn, h5⟩, ?_⟩
      rw [sum_const, setKind_list hhn, Nat.mul_assoc]) (checked (f := fun w m => over (fun k => brings w (m * w) k * 50939616000)) stand_ok hw1 hw5 hm)
      (by norm_num) (by norm_num)
  have h3 := h2 0
  rw [Nat.zero_mul, Nat.zero_add] at h3
  rw [counted h1, h3]

theorem back_listed (w k : Nat) :
    ∃ p ∈ ruleTable w, back w k = p.1 * w := by
  match k with
  | 0 | 1 => exact ⟨(0, _), .head _, (Nat.zero_mul w).symm⟩
  | 2 => exact ⟨(3, _), .tail _ (.tail _ (.head _)), rfl⟩
  | 3 => exact ⟨(4, _), .tail _ (.tail _ (.tail _ (.head _))), rfl⟩
  | 4 => exact ⟨(5, _), .tail _ (.tail _ (.tail _ (.tail _ (.head _)))), rfl⟩
  | 5 => exact ⟨(7, 8140875), by simp [ruleTable], rfl⟩
  | 6 => exact ⟨(10, 13874328), by simp [ruleTable], rfl⟩
  | 7 => exact ⟨(26, 2971332), by simp [ruleTable], rfl⟩
  | 8 => exact ⟨(51, 57375), by simp [ruleTable], rfl⟩
  | 9 => exact ⟨(if w = 5 then 801 else 251, 6375), by simp [ruleTable], by rw [back]; split <;> omega⟩
  | k + 10 => exact ⟨(2, _), .tail _ (.head _), rfl⟩

/-- C61: nothing else can happen: a round ends, with one of the multiples of the table. -/
theorem c61_only {ev : Evaluator} (hev : Evaluator.new = .ok ev) {l : List Card}
    (hl : l.Perm Deck.generate) {c w : Nat} (hc : c + 4000 < 2 ^ 64) {bet : Input}
    (hb : Bets bet.line c w) {choice : List PCard → Input}
    (ha : ∀ h, h.Nodup → h.length = 5 → Chooses (choice h).line (advice h))
    (hr : ∀ h k, (choice h).drawRound k ≤ k) (d₁ d₂ : Draws) :
    ∃ c', Round ev l c bet choice d₁ d₂ c' ∧ ∃ p ∈ ruleTable w, c' = c - w + p.1 * w := by
  obtain ⟨-, -, -, hw1, hw5, hwc⟩ := id hb
  obtain ⟨last, h1, -⟩ := round_kinds (F := brings w 0) (value := worthOf (brings w 0))
    (D := 1) (Q := 2598960 * 50939616000) hev hl hc hb ha hr (fun h g hn hp h5 => by
      obtain ⟨hand, h1, h2⟩ := second_kinds hn hp h5
      exact ⟨hand, h1, h2 _⟩) (Nat.one_mul _).symm (Nat.one_mul _) Nat.one_pos
  obtain ⟨p, hp, he⟩ := back_listed w (setKind (last d₁ d₂).toFinset)
  exact ⟨_, (h1 _ _ _).2 rfl, p, hp, by rw [he]⟩

/-- The tables cover all cases. -/
example : ∀ w, ((ruleTable w).map Prod.snd).sum = 2759229200 ∧
    ((standTable w).map Prod.snd).sum = 2598960 := fun _ => ⟨by simp [ruleTable], by simp [standTable]⟩

/-- And the average over the table is that of C51. -/
example : ((ruleTable 1).map (fun p => p.1 * p.2)).sum = 5 * 623208741 ∧
    ((ruleTable 5).map (fun p => p.1 * 5 * p.2)).sum = 5 * (623208741 * 5 + 3506250) := by decide

/-- Whoever has the 100 credits of the start and bets five can win 4000, in 6375 of 2759229200 cases. -/
example : ∃ (ev : Evaluator) (bet : Input) (choice : List PCard → Input),
    endings ev Deck.generate 100 bet choice 4100 * 2759229200 = Fintype.card Draws ^ 2 * 6375 := by
  obtain ⟨choice, ha, hr⟩ := player
  obtain ⟨ev, hev⟩ := c36_new_ok
  exact ⟨ev, ⟨some "5".toList, id, id, id⟩, choice, c61_rule (w := 5) (m := 801) hev (.refl _)
    (by decide) ⟨_, rfl, .inl ⟨by decide, by decide⟩, by decide, by decide, by decide⟩ ha hr
    (by decide)⟩

/-- Whoever bets one and never changes a card loses it in 2062860 of 2598960 cases. -/
example : ∃ (ev : Evaluator) (bet : Input) (choice : List PCard → Input),
    endings ev Deck.generate 100 bet choice 99 * 2598960 = Fintype.card Draws ^ 2 * 2062860 := by
  obtain ⟨ev, hev⟩ := c36_new_ok
  exact ⟨ev, ⟨some "1".toList, id, id, id⟩, fun _ => ⟨some [], id, id, id⟩,
    c61_stand (w := 1) (m := 0) hev (.refl _)
    (by decide) ⟨_, rfl, .inl ⟨by decide, by decide⟩, by decide, by decide, by decide⟩
    (fun _ _ _ => ⟨[], [], [], rfl, by decide, .nil _ (by simp), .nil, by simp, by simp, rfl⟩)
    (fun _ _ => le_rfl) (by decide)⟩

end Poker

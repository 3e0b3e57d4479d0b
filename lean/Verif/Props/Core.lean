import Verif.Props.Results
import Verif.Props.Exact
import Mathlib.Data.List.Nodup

/-! # Which cards a result depends on: C67 -/

namespace Poker
open Rules Tab

/-- A call has one result. -/
theorem same {x : Exec (Except EvalError Eval)} {a b : Eval} (ha : x = .ok (.ok a)) (hb : x = .ok (.ok b)) :
    a = b := by
  subst ha
  injection hb with q
  injection q

theorem of_size {α : Type} {c h : List α} (hs : c.Sublist h) (k : Nat) (h1 : c.length ≤ k) (h2 : k ≤ h.length) :
    ∃ s, c.Sublist s ∧ s.Sublist h ∧ s.length = k := by
  induction hs generalizing k with
  | slnil => exact ⟨[], .slnil, .slnil, by simpa using h1.antisymm h2⟩
  | @cons l₁ l₂ a hs ih =>
    by_cases hk : k ≤ l₂.length
    · obtain ⟨s, a1, a2, a3⟩ := ih k h1 hk
      exact ⟨s, a1, a2.cons a, a3⟩
    · rw [List.length_cons] at h2
      exact ⟨a :: l₂, hs.cons a, List.Sublist.refl _, by rw [List.length_cons]; omega⟩
  | @cons_cons l₁ l₂ a hs ih =>
    rw [List.length_cons] at h1 h2
    obtain ⟨s, a1, a2, a3⟩ := ih (k - 1) (by omega) (by omega)
    exact ⟨a :: s, a1.cons_cons a, a2.cons_cons a, by rw [List.length_cons]; omega⟩

/-- Cards between two sets of cards with the same result have that result. -/
theorem between {c h h' : List PCard} {e : Eval} (hc : evaluateHand c = .ok (.ok e))
    (he : evaluateHand h = .ok (.ok e)) (hn : h'.Nodup) (h1 : ∀ x ∈ c, x ∈ h') (h2 : ∀ x ∈ h', x ∈ h) :
    evaluateHand h' = .ok (.ok e) := by
  obtain ⟨e', he', l1⟩ := c07_more_cards c h' e hc hn h1
  obtain ⟨e'', he'', l2⟩ := c07_more_cards h' h e' he' ((c04_iff h).2.2.1 ⟨e, he⟩).1 h2
  obtain rfl : e = e'' := same he he''
  rw [Bool.eq_false_iff, Ne, Eval.lt_iff, Eval.cmp_eq, Int.compare_eq_lt] at l1 l2
  have hq : e'.eq e = true := by
    rw [Eval.eq_iff_cmp, Eval.cmp_eq, Int.compare_eq_eq]
    omega
  rw [he', (c12_equal h' h e' e he' he hq).1]

/-- C67: five of the cards decide: with them, any of the others may be left out, in any order, and the result
is the same. -/
theorem c67_core (h : List PCard) (e : Eval) (he : evaluateHand h = .ok (.ok e)) :
    ∃ c, FiveOf c h ∧ ∀ h', h'.Nodup → (∀ x ∈ c, x ∈ h') → (∀ x ∈ h', x ∈ h) →
      evaluateHand h' = .ok (.ok e) := by
  obtain ⟨hn, h5⟩ := (c04_iff h).2.2.1 ⟨e, he⟩
  obtain ⟨e', c, he', hc, hce, -⟩ := c03_best_five h hn h5
  obtain rfl : e = e' := same he he'
  exact ⟨c, hc, fun h' hn' h1 h2 => between hce he hn' h1 h2⟩

/-- C67: of six or more cards at most five matter: leaving out any other one does not change the result.  And
leaving out a card never makes it better. -/
theorem c67_few (h : List PCard) (e : Eval) (he : evaluateHand h = .ok (.ok e)) (h6 : 6 ≤ h.length) :
    (h.filter (fun x => evaluateHand (h.erase x) ≠ .ok (.ok e))).length ≤ 5 ∧
    ∀ x, ∃ e', evaluateHand (h.erase x) = .ok (.ok e') ∧ e'.gt e = false := by
  obtain ⟨hn, -⟩ := (c04_iff h).2.2.1 ⟨e, he⟩
  constructor
  · obtain ⟨c, hc, hall⟩ := c67_core h e he
    rw [← hc.2.1]
    refine ((hn.filter _).subperm (fun x hx => ?_)).length_le
    rw [List.mem_filter, decide_eq_true_eq] at hx
    by_contra hxc
    refine hx.2 (hall _ (hn.erase x) (fun y hy => ?_) (fun y hy => List.mem_of_mem_erase hy))
    exact (List.mem_erase_of_ne (fun h => hxc (by rwa [← h]))).2 (hc.2.2 y hy)
  · intro x
    have hl : h.length - 1 ≤ (h.erase x).length := by rw [List.length_erase]; split <;> omega
    obtain ⟨e', he'⟩ := (c04_iff (h.erase x)).2.2.2 ⟨hn.erase x, by omega⟩
    obtain ⟨e'', h2, hl⟩ := c07_more_cards _ h e' he' hn (fun y hy => List.mem_of_mem_erase hy)
    obtain rfl : e = e'' := same he h2
    refine ⟨e', he', ?_⟩
    rw [Bool.eq_false_iff, Ne, Eval.lt_iff, Eval.cmp_eq, Int.compare_eq_lt] at hl
    rw [Bool.eq_false_iff, Ne, Eval.gt_iff, Eval.cmp_eq, Int.compare_eq_gt]
    exact hl

/-- C67: the result is the best one of any number of the cards: for each size from five up, some cards of that
size have it and none of that size have a better one. -/
theorem c67_sizes (h : List PCard) (e : Eval) (he : evaluateHand h = .ok (.ok e)) (k : Nat) (h5 : 5 ≤ k)
    (hk : k ≤ h.length) :
    (∃ s, s.Sublist h ∧ s.length = k ∧ evaluateHand s = .ok (.ok e)) ∧
    ∀ s, s.Sublist h → s.length = k → ∃ e', evaluateHand s = .ok (.ok e') ∧ e'.gt e = false := by
  obtain ⟨hn, -⟩ := (c04_iff h).2.2.1 ⟨e, he⟩
  constructor
  · obtain ⟨c, hc, hall⟩ := c67_core h e he
    obtain ⟨d, hd, hds⟩ := hc.1.subperm hc.2.2
    obtain ⟨s, h1, h2, h3⟩ := of_size hds k (by rw [hd.length_eq, hc.2.1]; exact h5) hk
    exact ⟨s, h2, h3, hall s (hn.sublist h2) (fun x hx => h1.subset (hd.mem_iff.2 hx)) (fun x hx => h2.subset hx)⟩
  · intro s hs hl
    obtain ⟨e', he'⟩ := (c04_iff s).2.2.2 ⟨hn.sublist hs, by omega⟩
    obtain ⟨e'', h2, hl⟩ := c07_more_cards s h e' he' hn (fun y hy => hs.subset hy)
    obtain rfl : e = e'' := same he h2
    refine ⟨e', he', ?_⟩
    rw [Bool.eq_false_iff, Ne, Eval.lt_iff, Eval.cmp_eq, Int.compare_eq_lt] at hl
    rw [Bool.eq_false_iff, Ne, Eval.gt_iff, Eval.cmp_eq, Int.compare_eq_gt]
    exact hl

/-- C67: a further card leaves the result as it is, or makes it better and is in every five cards that have the
new result. -/
theorem c67_new (x : PCard) (h : List PCard) (e e' : Eval) (he : evaluateHand h = .ok (.ok e))
    (he' : evaluateHand (x :: h) = .ok (.ok e')) :
    e' = e ∨ e'.gt e = true ∧ ∀ c, FiveOf c (x :: h) → evaluateHand c = .ok (.ok e') → x ∈ c := by
  obtain ⟨hn, -⟩ := (c04_iff _).2.2.1 ⟨e', he'⟩
  obtain ⟨e'', h2, hl⟩ := c07_more_cards h (x :: h) e he hn (fun y hy => List.mem_cons_of_mem _ hy)
  obtain rfl : e' = e'' := same he' h2
  by_cases hg : e'.gt e = true
  · refine .inr ⟨hg, fun c hc hce => by_contra fun hx => ?_⟩
    obtain ⟨e'', h2, hl⟩ := c07_more_cards c h e' hce (List.nodup_cons.1 hn).2 (fun y hy =>
      (List.mem_cons.1 (hc.2.2 y hy)).resolve_left (fun h => hx (by rwa [← h])))
    obtain rfl : e = e'' := same he h2
    rw [Bool.eq_false_iff, Ne, Eval.lt_iff, Eval.cmp_eq, Int.compare_eq_lt] at hl
    rw [Eval.gt_iff, Eval.cmp_eq, Int.compare_eq_gt] at hg
    exact hl hg
  · refine .inl (c12_equal _ _ e' e he' he ?_).1
    rw [Bool.eq_false_iff, Ne, Eval.lt_iff, Eval.cmp_eq, Int.compare_eq_lt] at hl
    rw [Eval.gt_iff, Eval.cmp_eq, Int.compare_eq_gt] at hg
    rw [Eval.eq_iff_cmp, Eval.cmp_eq, Int.compare_eq_eq]
    omega

-- seven cards that have a result
example : ∃ e, evaluateHand sevenCards = .ok (.ok e) ∧ 6 ≤ sevenCards.length :=
  ((c04_iff _).2.2.2 (by decide)).imp (fun _ h => ⟨h, by decide⟩)

-- a six makes the five-high straight a six-high one
example : ∃ e e', evaluateHand wheelHand = .ok (.ok e) ∧
    evaluateHand ((.Six, .Hearts) :: wheelHand) = .ok (.ok e') ∧ e'.class' ≠ e.class' := by
  obtain ⟨e, he⟩ := (c04_iff wheelHand).2.2.2 (by decide)
  obtain ⟨e', he'⟩ := (c04_iff ((.Six, .Hearts) :: wheelHand)).2.2.2 (by decide)
  refine ⟨e, e', he, he', ?_⟩
  rw [c42_class _ e he, c42_class _ e' he']
  decide

end Poker

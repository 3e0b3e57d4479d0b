import Verif.Proofs.Evaluate
import Verif.Spec.Api

/-! # What `Evaluator::new().evaluate` returns (helper lemmas) -/

namespace Poker
open Rules Comb

namespace Tab

theorem evaluateHand_eq (h : List PCard) : evaluateHand h = theEvaluator.evaluate (deal h) := by
  rw [evaluateHand, evaluator_new]
  rfl

theorem values_perm {a b : List PCard} (h : a.Perm b) : (values a).Perm (values b) := h.map _

theorem flush_iff {h : List PCard} :
    Rules.flush h = true ↔ ∃ s, ∀ c ∈ h, c.2 = s := by
  constructor
  · intro hf
    simp only [Rules.flush, List.any_eq_true, List.all_eq_true, beq_iff_eq] at hf
    obtain ⟨s, _, hs⟩ := hf
    exact ⟨s, hs⟩
  · rintro ⟨s, hs⟩
    simp only [Rules.flush, List.any_eq_true, List.all_eq_true, beq_iff_eq]
    exact ⟨s, by cases s <;> simp, hs⟩

theorem flush_perm {a b : List PCard} (h : a.Perm b) : Rules.flush a = Rules.flush b := by
  rw [Bool.eq_iff_iff, flush_iff, flush_iff]
  simp only [h.mem_iff]

theorem strength_perm {a b : List PCard} (h : a.Perm b) : strength a = strength b := by
  rw [strength, strength, flush_perm h, worth_perm _ (values_perm h)]

theorem fiveOf_combos {d h : List PCard} (hf : FiveOf d h) : ∃ c ∈ combos 5 h, c.Perm d := by
  obtain ⟨hd, h5, hm⟩ := hf
  obtain ⟨c, hp, hs⟩ := hd.subperm hm
  exact ⟨c, mem_combos.2 ⟨hs, by rw [hp.length_eq, h5]⟩, hp⟩

theorem combos_fiveOf {c h : List PCard} (hn : h.Nodup) (hc : c ∈ combos 5 h) : FiveOf c h :=
  ⟨(combos_props hn hc).1, (combos_props hn hc).2, (mem_combos.1 hc).1.subset⟩

theorem fiveOf_mem_ladder {d h : List PCard} (hf : FiveOf d h) : strength d ∈ Kinds.ladder :=
  strength_mem hf.1 hf.2.1

/-- `w` is the worth of the best five cards of `h`. -/
def IsBest (w : Nat × List Nat) (h : List PCard) : Prop :=
  (∃ c, FiveOf c h ∧ strength c = w) ∧ ∀ d, FiveOf d h → cmpWorth (strength d) w ≠ .gt

theorem IsBest.unique {w v : Nat × List Nat} {h : List PCard} (hw : IsBest w h) (hv : IsBest v h) :
    w = v := by
  obtain ⟨⟨c, hc, rfl⟩, hw⟩ := hw
  obtain ⟨⟨d, hd, rfl⟩, hv⟩ := hv
  have h1 := hw d hd
  have h2 := hv c hc
  rw [← cmpWorth_eq_iff]
  cases e : cmpWorth (strength c) (strength d) with
  | eq => rfl
  | gt => exact absurd e h2
  | lt => exact absurd (cmpWorth_lt_iff.1 e) h1

theorem IsBest.mem_ladder {w : Nat × List Nat} {h : List PCard} (hw : IsBest w h) :
    w ∈ Kinds.ladder := by
  obtain ⟨⟨c, hc, rfl⟩, _⟩ := hw
  exact fiveOf_mem_ladder hc

theorem evaluate_best {h : List PCard} (hn : h.Nodup) (h5 : 5 ≤ h.length) :
    ∃ w, IsBest w h ∧ evaluateHand h = .ok (.ok (evalOf w)) := by
  obtain ⟨c, hc, ht, e⟩ := evaluate_ok hn h5
  refine ⟨strength c, ⟨⟨c, combos_fiveOf hn hc, rfl⟩, ?_⟩, by rw [evaluateHand_eq, e]⟩
  intro d hd
  obtain ⟨d', hd', hp⟩ := fiveOf_combos hd
  rw [← strength_perm hp]
  exact ht d' hd'

theorem evaluateHand_dup {h : List PCard} (hn : ¬ h.Nodup) :
    evaluateHand h = .ok (.error (.CardsNotUnique (deal h))) := by
  rw [evaluateHand_eq]
  exact evaluate_dup hn

theorem evaluateHand_short {h : List PCard} (hn : h.Nodup) (h5 : h.length < 5) :
    evaluateHand h = .ok (.error (.InvalidHandSize h.length)) := by
  rw [evaluateHand_eq]
  exact evaluate_short hn h5

/-- An `Ok` result comes from at least five distinct cards, and is that of the best five. -/
theorem ok_iff {h : List PCard} {e : Eval} :
    evaluateHand h = .ok (.ok e) ↔
      h.Nodup ∧ 5 ≤ h.length ∧ ∃ w, IsBest w h ∧ e = evalOf w := by
  constructor
  · intro he
    by_cases hn : h.Nodup
    · by_cases h5 : 5 ≤ h.length
      · obtain ⟨w, hw, e'⟩ := evaluate_best hn h5
        rw [e', Except.ok.injEq, Except.ok.injEq] at he
        exact ⟨hn, h5, w, hw, he.symm⟩
      · rw [evaluateHand_short hn (by omega)] at he
        cases he
    · rw [evaluateHand_dup hn] at he
      cases he
  · rintro ⟨hn, h5, w, hw, rfl⟩
    obtain ⟨v, hv, e'⟩ := evaluate_best hn h5
    rw [e', hw.unique hv]

theorem isBest_five {h : List PCard} (hn : h.Nodup) (h5 : h.length = 5) : IsBest (strength h) h := by
  refine ⟨⟨h, ⟨hn, h5, fun _ h => h⟩, rfl⟩, ?_⟩
  intro d hd
  have hp : d.Perm h := (hd.1.subperm hd.2.2).perm_of_length_le (by rw [hd.2.1, h5])
  rw [strength_perm hp, cmpWorth_self]
  simp

theorem evaluate_five_ok {h : List PCard} (hn : h.Nodup) (h5 : h.length = 5) :
    evaluateHand h = .ok (.ok (evalOf (strength h))) :=
  ok_iff.2 ⟨hn, by omega, _, isBest_five hn h5, rfl⟩

theorem isBest_mono {w v : Nat × List Nat} {h h' : List PCard} (hs : ∀ c ∈ h, c ∈ h')
    (hw : IsBest w h) (hv : IsBest v h') : cmpWorth w v ≠ .gt := by
  obtain ⟨⟨c, hc, rfl⟩, _⟩ := hw
  exact hv.2 c ⟨hc.1, hc.2.1, fun x hx => hs x (hc.2.2 x hx)⟩

theorem isBest_congr {w : Nat × List Nat} {h h' : List PCard} (hs : ∀ c, c ∈ h ↔ c ∈ h')
    (hw : IsBest w h) : IsBest w h' := by
  obtain ⟨⟨c, hc, rfl⟩, ht⟩ := hw
  refine ⟨⟨c, ⟨hc.1, hc.2.1, fun x hx => (hs x).1 (hc.2.2 x hx)⟩, rfl⟩, ?_⟩
  intro d hd
  exact ht d ⟨hd.1, hd.2.1, fun x hx => (hs x).2 (hd.2.2 x hx)⟩

end Tab
end Poker

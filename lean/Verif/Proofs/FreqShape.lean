import Verif.Proofs.FreqHands

/-! How many hands of `n` cards have which of the features of `Categories`. -/

namespace Poker.Freq
open Rules Counts

/-! ## Weights that are powers -/

/-- Every rank has an exponent. -/
def fits (xs : List (Option Nat)) (rs : List Rank) (h : List PCard) : Bool :=
  rs.all (fun r => (xs.getD (cnt h r) none).isSome)

/-- The sum of the exponents. -/
def expo (xs : List (Option Nat)) (rs : List Rank) (h : List PCard) : Nat :=
  (rs.map (fun r => (xs.getD (cnt h r) none).getD 0)).sum

theorem wt_power (xs : List (Option Nat)) (rs : List Rank) (h : List PCard) :
    wt (xs.map power) rs h = (fits xs rs h).toNat * base ^ expo xs rs h := by
  induction rs with
  | nil => simp [wt, fits, expo]
  | cons r rs ih =>
    have e1 : wt (xs.map power) (r :: rs) h = (xs.map power).getD (cnt h r) 0 * wt (xs.map power) rs h := by
      simp [wt]
    have e2 : fits xs (r :: rs) h = ((xs.getD (cnt h r) none).isSome && fits xs rs h) := by simp [fits]
    have e3 : expo xs (r :: rs) h = (xs.getD (cnt h r) none).getD 0 + expo xs rs h := by simp [expo]
    have e4 : (xs.map power).getD (cnt h r) 0 = power (xs.getD (cnt h r) none) := by
      simp only [List.getD_eq_getElem?_getD, List.getElem?_map]
      cases xs[cnt h r]? <;> rfl
    rw [e1, e2, e3, e4, ih]
    cases xs.getD (cnt h r) none with
    | none => simp [power]
    | some e => simp [power, Nat.pow_add]; ring

theorem hands_few : (cards.sublists').length < base := by
  rw [List.length_sublists', show cards.length = 52 from rfl]
  decide

/-- A digit of a sum of weights counts hands. -/
theorem count_digit (xs : List (Option Nat)) (q : List PCard → Bool) {x : Nat}
    (hx : (cards.sublists'.map (fun h => wt (xs.map power) ranks h * (q h).toNat)).sum = x) (i : Nat) :
    cards.sublists'.countP (fun h => q h && fits xs ranks h && expo xs ranks h == i) = x / base ^ i % base := by
  have key : ∀ L : List (List PCard), (L.map (fun h => wt (xs.map power) ranks h * (q h).toNat)).sum
      = (((L.filter (fun h => q h && fits xs ranks h)).map (expo xs ranks)).map (base ^ ·)).sum := by
    intro L
    induction L with
    | nil => rfl
    | cons h L ih =>
      rw [List.map_cons, List.sum_cons, ih, List.filter_cons, wt_power]
      cases q h <;> cases fits xs ranks h <;> simp
  rw [← hx, key, digit_count _ i (by
    rw [List.length_map]
    exact (List.length_filter_le _ _).trans_lt hands_few), List.count, List.countP_map, List.countP_filter]
  refine List.countP_congr (fun h _ => ?_)
  rw [Function.comp_apply, Bool.and_comm]

/-! ## How often the ranks occur -/

/-- How many ranks occur `k` times. -/
def group (h : List PCard) (k : Nat) : Nat := ranks.countP (fun r => cnt h r == k)

theorem sum_groups (c : Rank → Nat) (hc : ∀ r, c r ≤ 4) (φ : Nat → Nat) (rs : List Rank) :
    (rs.map (fun r => φ (c r))).sum = φ 0 * rs.countP (fun r => c r == 0) + φ 1 * rs.countP (fun r => c r == 1)
      + φ 2 * rs.countP (fun r => c r == 2) + φ 3 * rs.countP (fun r => c r == 3)
      + φ 4 * rs.countP (fun r => c r == 4) := by
  induction rs with
  | nil => simp
  | cons r rs ih =>
    rw [List.map_cons, List.sum_cons, ih]
    have h := hc r
    simp only [List.countP_cons]
    generalize c r = k at h
    interval_cases k <;> simp <;> ring

theorem countP_groups (c : Rank → Nat) (hc : ∀ r, c r ≤ 4) (p : Nat → Bool) (rs : List Rank) :
    rs.countP (fun r => p (c r)) = (p 0).toNat * rs.countP (fun r => c r == 0)
      + (p 1).toNat * rs.countP (fun r => c r == 1) + (p 2).toNat * rs.countP (fun r => c r == 2)
      + (p 3).toNat * rs.countP (fun r => c r == 3) + (p 4).toNat * rs.countP (fun r => c r == 4) := by
  rw [← sum_groups c hc (fun k => (p k).toNat)]
  induction rs with
  | nil => rfl
  | cons r rs ih =>
    rw [List.countP_cons, ih, List.map_cons, List.sum_cons]
    cases p (c r) <;> simp [Nat.add_comm]

theorem sum_cnt {rs : List Rank} (hn : rs.Nodup) {h : List PCard} (hh : ∀ c ∈ h, c.1 ∈ rs) :
    (rs.map (cnt h)).sum = h.length := by
  induction h with
  | nil =>
    have : cnt [] = fun _ => 0 := rfl
    rw [this]
    simp
  | cons c h ih =>
    rw [List.length_cons, ← ih (fun c hc => hh c (by simp [hc]))]
    have hm := hh c (by simp)
    clear ih hh
    have e : ∀ r, cnt (c :: h) r = cnt h r + if r = c.1 then 1 else 0 := by
      intro r
      simp only [cnt, values, List.map_cons, List.count_cons, beq_iff_eq]
      congr 1
      by_cases h : r = c.1
      · simp [h]
      · have : pips c.1 ≠ pips r := fun e => h (Seven.pips_inj e).symm
        simp [h, this]
    rw [List.map_congr_left (fun r _ => e r), List.sum_map_add]
    congr 1
    induction rs with
    | nil => simp at hm
    | cons r rs ih =>
      rw [List.nodup_cons] at hn
      rw [List.map_cons, List.sum_cons]
      by_cases hr : r = c.1
      · subst hr
        rw [if_pos rfl, List.map_congr_left (g := fun _ => 0)
          (fun r' hr' => if_neg (fun e : r' = c.1 => hn.1 (e ▸ hr')))]
        simp
      · rw [if_neg hr, ih hn.2 ((List.mem_cons.1 hm).resolve_left (fun e => hr e.symm))]

theorem two_le_countP (p : Rank → Bool) {l : List Rank} (hl : l.Nodup) :
    2 ≤ l.countP p ↔ ∃ v ∈ l, ∃ u ∈ l, u ≠ v ∧ p v = true ∧ p u = true := by
  have hn : (l.filter p).Nodup := hl.filter _
  have hm : ∀ v, v ∈ l.filter p ↔ v ∈ l ∧ p v = true := by simp [List.mem_filter]
  rw [List.countP_eq_length_filter]
  generalize l.filter p = k at hn hm
  constructor
  · intro h
    match k, h with
    | v :: u :: k, _ =>
      have h1 := (hm v).1 (by simp)
      have h2 := (hm u).1 (by simp)
      refine ⟨v, h1.1, u, h2.1, ?_, h1.2, h2.2⟩
      rintro rfl
      simp at hn
  · rintro ⟨v, hv, u, hu, hne, h1, h2⟩
    have a1 := (hm v).2 ⟨hv, h1⟩
    have a2 := (hm u).2 ⟨hu, h2⟩
    match k with
    | [] => simp at a1
    | [x] => simp at a1 a2; exact absurd (a2.trans a1.symm) hne
    | _ :: _ :: _ => simp

/-- What is known of a hand from the groups. -/
structure Shape (h : List PCard) (a b c d : Nat) : Prop where
  size : a + b + c + d ≤ 13
  length : h.length = a + 2 * b + 3 * c + 4 * d
  quads : hasQuads h = decide (1 ≤ d)
  full : hasFullHouse h = (decide (1 ≤ c + d) && decide (2 ≤ b + c + d))
  trips : hasTrips h = decide (1 ≤ c + d)
  twoPair : hasTwoPair h = decide (2 ≤ b + c + d)
  pair : hasPair h = decide (1 ≤ b + c + d)
  fits : ∀ x0 x1 x2 x3 x4, fits [x0, x1, x2, x3, x4] ranks h = ((x0.isSome || decide (a + b + c + d = 13))
    && (x1.isSome || decide (a = 0)) && (x2.isSome || decide (b = 0)) && (x3.isSome || decide (c = 0))
    && (x4.isSome || decide (d = 0)))
  expo : ∀ x1 x2 x3 x4, expo [some 0, x1, x2, x3, x4] ranks h
    = x1.getD 0 * a + x2.getD 0 * b + x3.getD 0 * c + x4.getD 0 * d

theorem shape_of {h : List PCard} (hh : h ∈ cards.sublists') :
    Shape h (group h 1) (group h 2) (group h 3) (group h 4) := by
  have hs := List.mem_sublists'.1 hh
  have hc : ∀ r, cnt h r ≤ 4 := fun r => count_values hs _
  have h13 : group h 0 + group h 1 + group h 2 + group h 3 + group h 4 = 13 := by
    have := countP_groups (cnt h) hc (fun _ => true) ranks
    change 13 = 1 * group h 0 + 1 * group h 1 + 1 * group h 2 + 1 * group h 3 + 1 * group h 4 at this
    omega
  have c2 : ranks.countP (fun r => decide (2 ≤ cnt h r)) = group h 2 + group h 3 + group h 4 := by
    have := countP_groups (cnt h) hc (fun n => decide (2 ≤ n)) ranks
    change _ = 0 * group h 0 + 0 * group h 1 + 1 * group h 2 + 1 * group h 3 + 1 * group h 4 at this
    omega
  have c3 : ranks.countP (fun r => decide (3 ≤ cnt h r)) = group h 3 + group h 4 := by
    have := countP_groups (cnt h) hc (fun n => decide (3 ≤ n)) ranks
    change _ = 0 * group h 0 + 0 * group h 1 + 0 * group h 2 + 1 * group h 3 + 1 * group h 4 at this
    omega
  have c4 : ranks.countP (fun r => decide (4 ≤ cnt h r)) = group h 4 := by
    have := countP_groups (cnt h) hc (fun n => decide (4 ≤ n)) ranks
    change _ = 0 * group h 0 + 0 * group h 1 + 0 * group h 2 + 0 * group h 3 + 1 * group h 4 at this
    omega
  have hcnt : ∀ r, (values h).count (pips r) = cnt h r := fun _ => rfl
  have g1 : ∀ k, allValues.any (fun v => decide (k ≤ (values h).count v))
      = decide (1 ≤ ranks.countP (fun r => decide (k ≤ cnt h r))) := by
    intro k
    rw [Bool.eq_iff_iff, decide_eq_true_eq, Nat.one_le_iff_ne_zero, ← Nat.pos_iff_ne_zero, List.countP_pos_iff]
    simp [values_ranks, hcnt, mem_ranks]
  have g2 : hasTwoPair h = decide (2 ≤ ranks.countP (fun r => decide (2 ≤ cnt h r))) := by
    rw [Bool.eq_iff_iff, decide_eq_true_eq, two_le_countP _ ranks_nodup]
    simp only [hasTwoPair, values_ranks, List.any_map, List.any_eq_true, Function.comp_apply, Bool.and_eq_true,
      decide_eq_true_eq, mem_ranks, true_and, hcnt]
    refine exists_congr (fun v => exists_congr (fun u => ?_))
    rw [and_assoc]
    exact and_congr_left (fun _ => not_congr ⟨Seven.pips_inj, congrArg pips⟩)
  refine ⟨by omega, ?_, ?_, ?_, ?_, ?_, ?_, ?_, ?_⟩
  · rw [← sum_cnt ranks_nodup (fun c _ => mem_ranks c.1)]
    have := sum_groups (cnt h) hc id ranks
    change _ = 0 * group h 0 + 1 * group h 1 + 2 * group h 2 + 3 * group h 3 + 4 * group h 4 at this
    exact this.trans (by omega)
  · rw [hasQuads, g1, c4]
  · rw [← c2, ← g2, ← c3, ← g1 3, Bool.eq_iff_iff, Bool.and_eq_true]
    simp only [hasFullHouse, hasTwoPair, values_ranks, List.any_map, List.any_eq_true, Function.comp_apply,
      Bool.and_eq_true, decide_eq_true_eq, mem_ranks, true_and]
    constructor
    · rintro ⟨v, u, ⟨hne, h3⟩, h2⟩
      exact ⟨⟨v, h3⟩, v, u, ⟨hne, by omega⟩, h2⟩
    · rintro ⟨⟨w, h3⟩, v, u, ⟨hne, hv⟩, hu⟩
      by_cases e : v = w
      · subst e
        exact ⟨v, u, ⟨hne, h3⟩, hu⟩
      · exact ⟨w, v, ⟨fun he => e (Seven.pips_inj he), h3⟩, hv⟩
  · rw [hasTrips, g1, c3]
  · rw [g2, c2]
  · rw [hasPair, g1, c2]
  · intro x0 x1 x2 x3 x4
    have := countP_groups (cnt h) hc (fun k => !([x0, x1, x2, x3, x4].getD k none).isSome) ranks
    change _ = (!x0.isSome).toNat * group h 0 + (!x1.isSome).toNat * group h 1 + (!x2.isSome).toNat * group h 2
      + (!x3.isSome).toNat * group h 3 + (!x4.isSome).toNat * group h 4 at this
    have e : fits [x0, x1, x2, x3, x4] ranks h
        = decide (ranks.countP (fun r => !([x0, x1, x2, x3, x4].getD (cnt h r) none).isSome) = 0) := by
      rw [Bool.eq_iff_iff, decide_eq_true_eq, List.countP_eq_zero, fits, List.all_eq_true]
      refine forall_congr' (fun r => imp_congr_right (fun _ => ?_))
      cases ([x0, x1, x2, x3, x4].getD (cnt h r) none).isSome <;> simp
    rw [e, this, Bool.eq_iff_iff]
    cases x0 <;> cases x1 <;> cases x2 <;> cases x3 <;> cases x4 <;> simp <;> omega
  · intro x1 x2 x3 x4
    have := sum_groups (cnt h) hc (fun k => ([some 0, x1, x2, x3, x4].getD k none).getD 0) ranks
    rw [expo, this]
    change 0 * _ + _ + _ + _ + _ = _
    rw [Nat.zero_mul, Nat.zero_add]
    rfl

end Poker.Freq

import Verif.Spec.Categories
import Verif.Proofs.Counts
import Mathlib.Algebra.BigOperators.Ring.List

/-! Counting the hands of six and seven cards of each category.

Up to seven cards a hand with five cards of a suit has no full house or four of a kind.  So it is
enough to count the hands by their values and by the number of cards in one suit (`dpX`), and by the
values of the cards in one suit (`dpY`).  As in `Counts`, all counts are digits of one number. -/

namespace Poker.Seven
open Rules Counts

/-- The category, flushes left out of account. -/
def flat (h : List PCard) : Nat :=
  if hasQuads h then 7
  else if hasFullHouse h then 6
  else if hasStraight h then 4
  else if hasTrips h then 3
  else if hasTwoPair h then 2
  else if hasPair h then 1
  else 0

/-- The number of cards of a suit. -/
def suited (s : Suit) (h : List PCard) : Nat := (ofSuit s h).length

/-- What the cards of one suit are by themselves: 0 if less than five, 1 a flush, 2 a straight flush,
3 a royal flush. -/
def code (us : List Nat) : Nat :=
  if us.length < 5 then 0
  else match straightTop us with
    | none => 1
    | some t => if t = 14 then 3 else 2

/-! ## Values only -/

/-- The weight of a value by how often it occurs. -/
def weight : Nat → Nat
  | 2 => 1
  | 3 => 16
  | 4 => 256
  | _ => 0

/-- The weights of all values. -/
def pattern (vs : List Nat) : Nat := (allValues.map (fun v => weight (vs.count v))).sum

/-- The values that occur, as bits. -/
def bits (vs : List Nat) : Nat := (allValues.map (fun v => if v ∈ vs then 2 ^ v else 0)).sum

/-- Five bits in a row, or the ace and the lowest four. -/
noncomputable def inRow (b : Nat) : Bool :=
  (Nat.beq (Nat.land b 31744) 31744).or
  ((Nat.beq (Nat.land b 15872) 15872).or
  ((Nat.beq (Nat.land b 7936) 7936).or
  ((Nat.beq (Nat.land b 3968) 3968).or
  ((Nat.beq (Nat.land b 1984) 1984).or
  ((Nat.beq (Nat.land b 992) 992).or
  ((Nat.beq (Nat.land b 496) 496).or
  ((Nat.beq (Nat.land b 248) 248).or
  ((Nat.beq (Nat.land b 124) 124).or
  (Nat.beq (Nat.land b 16444) 16444)))))))))

/-- `flat`, from pattern and bits. -/
noncomputable def quick (p b : Nat) : Nat :=
  cond (Nat.ble 256 p) 7
  (cond (Nat.ble 17 p) 6
  (cond (inRow b) 4
  (cond (Nat.ble 16 p) 3
  (cond (Nat.ble 2 p) 2 p))))

/-- Every set of values, the later ones from `rs`. -/
noncomputable def rowCheck : List Nat → List Nat → Nat → Bool
  | [], us, b => cond (inRow b) (Nat.ble 1 (top us straightTops)) (Nat.beq (top us straightTops) 0)
  | v :: rs, us, b => (rowCheck rs us b).and (rowCheck rs (us ++ [v]) (Nat.add b (Nat.pow 2 v)))

set_option maxRecDepth 100000 in
theorem row_check : rowCheck allValues [] 0 = true := by decide +kernel

theorem row_of_check (rs us : List Nat) (b : Nat) (h : rowCheck rs us b = true) (ws : List Nat)
    (hw : ws.Sublist rs) :
    inRow (b + (ws.map (2 ^ ·)).sum) = (straightTop (us ++ ws)).isSome := by
  induction rs generalizing us b ws with
  | nil =>
    obtain rfl := List.sublist_nil.1 hw
    have e : top us straightTops = (straightTop us).getD 0 := top_eq us _
    simp only [rowCheck, e] at h
    simp only [List.map_nil, List.sum_nil, Nat.add_zero, List.append_nil]
    cases hst : straightTop us with
    | none => cases hr : inRow b <;> rw [hr, hst] at h <;> simp at h ⊢
    | some t =>
      have ht : t ∈ straightTops := List.mem_of_find?_eq_some hst
      cases hr : inRow b with
      | true => rfl
      | false =>
        rw [hr, hst] at h
        have h0 := Nat.eq_of_beq_eq_true h
        simp only [Option.getD_some] at h0
        subst h0
        exact absurd ht (by decide)
  | cons v rs ih =>
    have h' : rowCheck rs us b = true ∧ rowCheck rs (us ++ [v]) (b + 2 ^ v) = true := by
      have := (Bool.and_eq_true _ _).mp h
      exact this
    cases hw with
    | cons _ hw => exact ih us b h'.1 ws hw
    | cons_cons _ hw =>
      rename_i ws
      have := ih (us ++ [v]) (b + 2 ^ v) h'.2 ws hw
      simpa [Nat.add_assoc] using this

theorem straightTop_congr {a b : List Nat} (h : ∀ v, v ∈ a ↔ v ∈ b) : straightTop a = straightTop b := by
  have hp : plays a = plays b := by
    funext v
    have : ∀ v, a.contains v = b.contains v := by
      intro v
      rw [Bool.eq_iff_iff, List.contains_iff_mem, List.contains_iff_mem]
      exact h v
    rw [plays, plays, this, this]
  rw [straightTop, straightTop, hp]

theorem sum_ite (l : List Nat) (p : Nat → Prop) [DecidablePred p] (f : Nat → Nat) :
    (l.map (fun v => if p v then f v else 0)).sum = ((l.filter (fun v => decide (p v))).map f).sum := by
  induction l with
  | nil => rfl
  | cons v l ih =>
    rw [List.map_cons, List.sum_cons, ih, List.filter_cons]
    by_cases h : p v <;> simp [h]

theorem inRow_bits {vs : List Nat} (hv : ∀ v ∈ vs, v ∈ allValues) :
    inRow (bits vs) = (straightTop vs).isSome := by
  have h := row_of_check _ _ _ row_check (allValues.filter (fun v => decide (v ∈ vs)))
    List.filter_sublist
  rw [Nat.zero_add, List.nil_append, ← sum_ite allValues (· ∈ vs) (2 ^ ·)] at h
  rw [bits, h]
  congr 1
  refine straightTop_congr (fun v => ?_)
  rw [List.mem_filter, decide_eq_true_eq]
  exact ⟨fun h => h.2, fun h => ⟨hv v h, h⟩⟩

/-! ## The category from pattern and bits -/

theorem weights (c : Nat → Nat) (l : List Nat) (hc : ∀ v, c v ≤ 4) :
    (l.map (fun v => weight (c v))).sum = howMany c 2 l + 16 * howMany c 3 l + 256 * howMany c 4 l ∧
    howMany c 2 l + howMany c 3 l + howMany c 4 l ≤ l.length := by
  induction l with
  | nil => exact ⟨rfl, Nat.le_refl _⟩
  | cons v l ih =>
    obtain ⟨h1, h2⟩ := ih
    have hv := hc v
    rw [List.map_cons, List.sum_cons, h1]
    generalize hk : c v = k at hv
    have key : ∀ m, howMany c m (v :: l) = howMany c m l + if k == m then 1 else 0 := by
      intro m
      rw [howMany, List.filter_cons, hk]
      split <;> simp [howMany]
    simp only [key, List.length_cons]
    clear key hk h1
    generalize howMany c 2 l = a at *
    generalize howMany c 3 l = b at *
    generalize howMany c 4 l = d at *
    interval_cases k <;> simp [weight] <;> omega

theorem howMany_pos (c : Nat → Nat) (m : Nat) (l : List Nat) : 1 ≤ howMany c m l ↔ ∃ v ∈ l, c v = m := by
  rw [howMany, Nat.one_le_iff_ne_zero, ← Nat.pos_iff_ne_zero, List.length_pos_iff_exists_mem]
  simp [List.mem_filter]

theorem howMany_two (c : Nat → Nat) (m : Nat) {l : List Nat} (hl : l.Nodup) :
    2 ≤ howMany c m l ↔ ∃ v ∈ l, ∃ u ∈ l, u ≠ v ∧ c v = m ∧ c u = m := by
  have hn : (l.filter (fun v => c v == m)).Nodup := hl.filter _
  have hm : ∀ v, v ∈ l.filter (fun v => c v == m) ↔ v ∈ l ∧ c v = m := by simp [List.mem_filter]
  rw [howMany]
  generalize l.filter (fun v => c v == m) = k at hn hm
  constructor
  · intro h
    match k, h with
    | v :: u :: k, _ =>
      have h1 := (hm v).1 (by simp)
      have h2 := (hm u).1 (by simp)
      refine ⟨v, h1.1, u, h2.1, ?_, h1.2, h2.2⟩
      rintro rfl
      simp at hn
  · rintro ⟨v, hv, u, hu, hne, h1, h2⟩
    have a1 := (hm v).2 ⟨hv, h1⟩
    have a2 := (hm u).2 ⟨hu, h2⟩
    match k with
    | [] => simp at a1
    | [x] => simp at a1 a2; exact absurd (a2.trans a1.symm) hne
    | _ :: _ :: _ => simp

theorem pips_mem (r : Rank) : pips r ∈ allValues := by cases r <;> decide

theorem pips_inj {r r' : Rank} (h : pips r = pips r') : r = r' := by
  revert h
  cases r <;> cases r' <;> decide

theorem flat_quick (h : List PCard) (hc : ∀ v, (values h).count v ≤ 4) :
    flat h = quick (pattern (values h)) (bits (values h)) := by
  have hv : ∀ v ∈ values h, v ∈ allValues := by
    intro v hv
    obtain ⟨c, -, rfl⟩ := List.mem_map.1 hv
    exact pips_mem c.1
  obtain ⟨hp, hlen⟩ := weights (values h).count allValues hc
  rw [show allValues.length = 13 from rfl] at hlen
  have p2 := howMany_pos (values h).count 2 allValues
  have p3 := howMany_pos (values h).count 3 allValues
  have p4 := howMany_pos (values h).count 4 allValues
  have t2 := howMany_two (values h).count 2 (l := allValues) (by decide)
  have t3 := howMany_two (values h).count 3 (l := allValues) (by decide)
  have q7 : hasQuads h = true ↔ 1 ≤ howMany (values h).count 4 allValues := by
    rw [p4, hasQuads, List.any_eq_true]
    refine exists_congr (fun v => and_congr_right (fun _ => ?_))
    rw [decide_eq_true_eq]
    have := hc v
    omega
  rw [pattern, hp]
  have hs : hasStraight h = inRow (bits (values h)) := (inRow_bits hv).symm
  rw [flat, quick, ← hs]
  by_cases h7 : hasQuads h = true
  · have := q7.1 h7
    rw [if_pos h7, show Nat.ble 256 _ = true from Nat.ble_eq_true_of_le (by omega)]
    rfl
  have c4 : howMany (values h).count 4 allValues = 0 := by
    have := mt q7.2 h7
    omega
  have lt4 : ∀ v ∈ allValues, (values h).count v ≤ 3 := by
    intro v hv
    have := hc v
    by_contra hlt
    exact absurd (p4.2 ⟨v, hv, by omega⟩) (by omega)
  rw [if_neg h7, show Nat.ble 256 _ = false from by
    rw [← Bool.not_eq_true, Nat.ble_eq]; omega, cond_false, c4]
  generalize hb : howMany (values h).count 2 allValues = n2 at *
  generalize hd : howMany (values h).count 3 allValues = n3 at *
  have q6 : hasFullHouse h = true ↔ 17 ≤ n2 + 16 * n3 + 256 * 0 := by
    have : 17 ≤ n2 + 16 * n3 + 256 * 0 ↔ 2 ≤ n3 ∨ 1 ≤ n3 ∧ 1 ≤ n2 := by omega
    rw [this, t3, p3, p2]
    simp only [hasFullHouse, List.any_eq_true, Bool.and_eq_true, decide_eq_true_eq]
    constructor
    · rintro ⟨v, hv, u, hu, ⟨hne, h1⟩, h2⟩
      have a := lt4 v hv
      have b := lt4 u hu
      by_cases hu3 : (values h).count u = 3
      · exact .inl ⟨v, hv, u, hu, hne, by omega, hu3⟩
      · exact .inr ⟨⟨v, hv, by omega⟩, u, hu, by omega⟩
    · rintro (⟨v, hv, u, hu, hne, h1, h2⟩ | ⟨⟨v, hv, h1⟩, u, hu, h2⟩)
      · exact ⟨v, hv, u, hu, ⟨hne, by omega⟩, by omega⟩
      · refine ⟨v, hv, u, hu, ⟨?_, by omega⟩, by omega⟩
        rintro rfl
        omega
  by_cases h6 : hasFullHouse h = true
  · rw [if_pos h6, show Nat.ble 17 _ = true from Nat.ble_eq_true_of_le (q6.1 h6)]
    rfl
  have n6 := mt q6.2 h6
  rw [if_neg h6, show Nat.ble 17 _ = false from by
    rw [← Bool.not_eq_true, Nat.ble_eq]; omega, cond_false]
  by_cases h4 : hasStraight h = true
  · rw [if_pos h4, h4]
    rfl
  rw [if_neg h4, Bool.eq_false_iff.2 h4, cond_false]
  have q3 : hasTrips h = true ↔ 1 ≤ n3 := by
    rw [p3, hasTrips, List.any_eq_true]
    refine exists_congr (fun v => and_congr_right (fun hv => ?_))
    rw [decide_eq_true_eq]
    have := lt4 v hv
    omega
  by_cases h3 : hasTrips h = true
  · have := q3.1 h3
    rw [if_pos h3, show Nat.ble 16 _ = true from Nat.ble_eq_true_of_le (by omega)]
    rfl
  have n3' := mt q3.2 h3
  rw [if_neg h3, show Nat.ble 16 _ = false from by
    rw [← Bool.not_eq_true, Nat.ble_eq]; omega, cond_false]
  have lt3 : ∀ v ∈ allValues, (values h).count v ≤ 2 := by
    intro v hv
    have := lt4 v hv
    by_contra hlt
    exact absurd (p3.2 ⟨v, hv, by omega⟩) (by omega)
  have q2 : hasTwoPair h = true ↔ 2 ≤ n2 := by
    rw [t2]
    simp only [hasTwoPair, List.any_eq_true, Bool.and_eq_true, decide_eq_true_eq]
    constructor
    · rintro ⟨v, hv, u, hu, ⟨hne, h1⟩, h2⟩
      have a := lt3 v hv
      have b := lt3 u hu
      exact ⟨v, hv, u, hu, hne, by omega, by omega⟩
    · rintro ⟨v, hv, u, hu, hne, h1, h2⟩
      exact ⟨v, hv, u, hu, ⟨hne, by omega⟩, by omega⟩
  have q1 : hasPair h = true ↔ 1 ≤ n2 := by
    rw [p2, hasPair, List.any_eq_true]
    refine exists_congr (fun v => and_congr_right (fun hv => ?_))
    rw [decide_eq_true_eq]
    have := lt3 v hv
    omega
  by_cases h2 : hasTwoPair h = true
  · have := q2.1 h2
    rw [if_pos h2, show Nat.ble 2 _ = true from Nat.ble_eq_true_of_le (by omega)]
    rfl
  have n2' := mt q2.2 h2
  rw [if_neg h2, show Nat.ble 2 _ = false from by
    rw [← Bool.not_eq_true, Nat.ble_eq]; omega, cond_false]
  by_cases h1 : hasPair h = true
  · have := q1.1 h1
    rw [if_pos h1]
    omega
  · have := mt q1.2 h1
    rw [if_neg h1]
    omega

/-! ## Counting by values and cards of one suit -/

theorem sum_bump {l : List Nat} (hl : l.Nodup) {v : Nat} (hv : v ∈ l) (f g : Nat → Nat) (d : Nat)
    (h : ∀ u ∈ l, u ≠ v → g u = f u) (hd : g v = f v + d) : (l.map g).sum = (l.map f).sum + d := by
  induction l with
  | nil => simp at hv
  | cons x l ih =>
    rw [List.map_cons, List.map_cons, List.sum_cons, List.sum_cons]
    rw [List.nodup_cons] at hl
    rcases List.mem_cons.1 hv with rfl | hv
    · have : l.map g = l.map f := List.map_congr_left (fun u hu =>
        h u (by simp [hu]) (fun e => hl.1 (e ▸ hu)))
      rw [hd, this]
      omega
    · rw [ih hl.2 hv (fun u hu => h u (by simp [hu])), h x (by simp) (fun e => hl.1 (e ▸ hv))]
      omega

theorem pattern_add {vs : List Nat} {v : Nat} (hv : v ∈ allValues) (hn : v ∉ vs) (c : Nat) :
    pattern (vs ++ List.replicate c v) = pattern vs + weight c := by
  refine sum_bump (by decide) hv _ _ _ (fun u _ hu => ?_) ?_
  · rw [List.count_append, List.count_replicate, if_neg (by simpa using fun e => hu e.symm)]
    rfl
  · rw [List.count_append, List.count_replicate_self, List.count_eq_zero_of_not_mem hn, Nat.zero_add]
    show _ = 0 + _
    omega

theorem bits_add {vs : List Nat} {v : Nat} (hv : v ∈ allValues) (hn : v ∉ vs) (c : Nat) :
    bits (vs ++ List.replicate (c + 1) v) = bits vs + 2 ^ v := by
  refine sum_bump (by decide) hv _ _ _ (fun u _ hu => ?_) ?_
  · have : u ∈ vs ++ List.replicate (c + 1) v ↔ u ∈ vs := by simp [hu]
    simp only [this]
  · simp [hn]

/-- The place of a hand without cards of the suit. -/
noncomputable def leaf (B p b : Nat) : Nat := Nat.pow B (Nat.mul 8 (quick p b))

/-- All ways to take `n` cards of the ranks left, given the pattern and the bits so far; a card of the
suit counts as a factor `B`. -/
noncomputable def dpX (B : Nat) : List Nat → Nat → Nat → Nat → Nat
  | _, 0, p, b => leaf B p b
  | [], _, _, _ => 0
  | v :: rs, 1, p, b => dpX B rs 1 p b + (3 + B) * dpX B rs 0 p (b + 2 ^ v)
  | v :: rs, 2, p, b => dpX B rs 2 p b + (3 + B) * dpX B rs 1 p (b + 2 ^ v)
      + (3 + 3 * B) * dpX B rs 0 (p + 1) (b + 2 ^ v)
  | v :: rs, 3, p, b => dpX B rs 3 p b + (3 + B) * dpX B rs 2 p (b + 2 ^ v)
      + (3 + 3 * B) * dpX B rs 1 (p + 1) (b + 2 ^ v) + (1 + 3 * B) * dpX B rs 0 (p + 16) (b + 2 ^ v)
  | v :: rs, n + 4, p, b => dpX B rs (n + 4) p b + (3 + B) * dpX B rs (n + 3) p (b + 2 ^ v)
      + (3 + 3 * B) * dpX B rs (n + 2) (p + 1) (b + 2 ^ v)
      + (1 + 3 * B) * dpX B rs (n + 1) (p + 16) (b + 2 ^ v) + B * dpX B rs n (p + 256) (b + 2 ^ v)

/-- The same sum over the hands themselves, after the values `vs`. -/
noncomputable def totX (B : Nat) (s : Suit) (n : Nat) (D : List PCard) (vs : List Nat) : Nat :=
  ((List.sublistsLen n D).map (fun h => B ^ suited s h
    * leaf B (pattern (vs ++ values h)) (bits (vs ++ values h)))).sum

theorem totX_zero (B : Nat) (s : Suit) (D : List PCard) (vs : List Nat) :
    totX B s 0 D vs = leaf B (pattern vs) (bits vs) := by
  simp [totX, suited, ofSuit, values]

theorem totX_nil (B : Nat) (s : Suit) (n : Nat) (vs : List Nat) : totX B s (n + 1) [] vs = 0 := by
  simp [totX]

theorem totX_cons (B : Nat) (s : Suit) (n : Nat) (c : PCard) (D : List PCard) (vs : List Nat) :
    totX B s (n + 1) (c :: D) vs
      = totX B s (n + 1) D vs + (if c.2 = s then B else 1) * totX B s n D (vs ++ [pips c.1]) := by
  simp only [totX, List.sublistsLen_succ_cons, List.map_append, List.sum_append, List.map_map,
    ← List.sum_map_mul_left]
  refine congrArg₂ (· + ·) rfl (congrArg List.sum (List.map_congr_left (fun h _ => ?_)))
  have e : suited s (c :: h) = (if c.2 = s then 1 else 0) + suited s h := by
    have : (c.2 == s) = decide (c.2 = s) := rfl
    by_cases hs : c.2 = s <;> simp [suited, ofSuit, this, hs, Nat.add_comm]
  have e2 : vs ++ values (c :: h) = vs ++ [pips c.1] ++ values h := by simp [values]
  simp only [Function.comp_apply, e, e2]
  by_cases hs : c.2 = s <;> simp [hs, Nat.pow_add, Nat.mul_assoc]

theorem totX_eq (B : Nat) (s : Suit) (rs : List Rank) (n : Nat) (vs : List Nat) (hn : rs.Nodup)
    (hv : ∀ r ∈ rs, pips r ∉ vs) :
    totX B s n (rs.flatMap block) vs = dpX B (rs.map pips) n (pattern vs) (bits vs) := by
  induction rs generalizing n vs with
  | nil =>
    match n with
    | 0 => rw [totX_zero]; rfl
    | n + 1 => rw [List.flatMap_nil, totX_nil]; rfl
  | cons r rs ih =>
    rw [List.nodup_cons] at hn
    have hr := hv r (by simp)
    have h0 := fun n => ih n vs hn.2 (fun x hx => hv x (by simp [hx]))
    have inj : ∀ x ∈ rs, pips x ≠ pips r := by
      intro x hx e
      exact hn.1 ((pips_inj e) ▸ hx)
    have hs : ∀ c, ∀ x ∈ rs, pips x ∉ vs ++ List.replicate (c + 1) (pips r) := by
      intro c x hx
      simp only [List.mem_append, List.mem_replicate, not_or, not_and]
      exact ⟨hv x (by simp [hx]), fun _ => inj x hx⟩
    have step := fun c n => ih n _ hn.2 (hs c)
    simp only [pattern_add (pips_mem r) hr, bits_add (pips_mem r) hr] at step
    have h1 := step 0
    have h2 := step 1
    have h3 := step 2
    have h4 := step 3
    have p1 := pattern_add (pips_mem r) hr 1
    have p2 := pattern_add (pips_mem r) hr 2
    have p3 := pattern_add (pips_mem r) hr 3
    have p4 := pattern_add (pips_mem r) hr 4
    have b1 := bits_add (pips_mem r) hr 0
    have b2 := bits_add (pips_mem r) hr 1
    have b3 := bits_add (pips_mem r) hr 2
    have b4 := bits_add (pips_mem r) hr 3
    simp only [Nat.zero_add, Nat.reduceAdd, List.replicate, weight, Nat.add_zero]
      at h1 h2 h3 h4 p1 p2 p3 p4 b1 b2 b3 b4
    rw [List.flatMap_cons, block]
    match n with
    | 0 => rw [totX_zero]; rfl
    | 1 | 2 | 3 | n + 4 =>
      cases s <;>
      · simp only [List.cons_append, List.nil_append, totX_cons, List.append_assoc, h0, h1, h2, h3, h4,
          List.map_cons, dpX, totX_zero, reduceCtorEq, p1, p2, p3, p4, b1, b2, b3, b4, if_true, if_false]
        try ring

/-! ## Counting by the cards of one suit -/

/-- All ways to take `n` cards: some of the suit, given those so far, and some of the 39 others; `w` says
how many ways there are to take that many others. -/
noncomputable def dpY (B : Nat) (w : Nat → Nat) : List Nat → Nat → List Nat → Nat
  | [], n, us => w n * B ^ code us
  | _ :: _, 0, us => B ^ code us
  | v :: rs, n + 1, us => dpY B w rs (n + 1) us + dpY B w rs n (us ++ [v])

noncomputable def totY (B : Nat) (s : Suit) (n : Nat) (D : List PCard) (us : List Nat) : Nat :=
  ((List.sublistsLen n D).map (fun h => B ^ code (us ++ values (ofSuit s h)))).sum

theorem totY_other (B : Nat) (s : Suit) (n : Nat) (D : List PCard) (us : List Nat)
    (h : ∀ c ∈ D, c.2 ≠ s) : totY B s n D us = D.length.choose n * B ^ code us := by
  have e : (List.sublistsLen n D).map (fun h => B ^ code (us ++ values (ofSuit s h)))
      = (List.sublistsLen n D).map (fun _ => B ^ code us) := by
    refine List.map_congr_left (fun l hl => ?_)
    have : ofSuit s l = [] := by
      rw [ofSuit, List.filter_eq_nil_iff]
      intro c hc
      have := h c ((List.mem_sublistsLen.1 hl).1.subset hc)
      have e : (c.2 == s) = decide (c.2 = s) := rfl
      simp [e, this]
    rw [this]
    simp [values]
  rw [totY, e, List.map_const', List.sum_replicate, List.length_sublistsLen]
  rfl

theorem totY_cons (B : Nat) (s : Suit) (n : Nat) (r : Rank) (D : List PCard) (us : List Nat) :
    totY B s (n + 1) ((r, s) :: D) us = totY B s (n + 1) D us + totY B s n D (us ++ [pips r]) := by
  simp only [totY, List.sublistsLen_succ_cons, List.map_append, List.sum_append, List.map_map]
  congr 2
  refine List.map_congr_left (fun h _ => ?_)
  simp [ofSuit, values]

theorem totY_eq (B : Nat) (w : Nat → Nat) (s : Suit) (rs : List Rank) (n : Nat) (D : List PCard)
    (us : List Nat) (h : ∀ c ∈ D, c.2 ≠ s) (hw : ∀ m ≤ n, D.length.choose m = w m) :
    totY B s n (rs.map (fun r => (r, s)) ++ D) us = dpY B w (rs.map pips) n us := by
  induction rs generalizing n us with
  | nil =>
    rw [List.map_nil, List.nil_append, totY_other B s n D us h, hw n le_rfl]
    rfl
  | cons r rs ih =>
    match n with
    | 0 =>
      simp [totY, dpY, ofSuit, values]
    | n + 1 =>
      rw [List.map_cons, List.cons_append, totY_cons, ih (n + 1) us hw,
        ih n _ (fun m hm => hw m (by omega))]
      rfl

/-! ## The numbers -/

/-- The ways to take `n` of 39 cards, for `n` up to seven. -/
def others : Nat → Nat
  | 0 => 1
  | 1 => 39
  | 2 => 741
  | 3 => 9139
  | 4 => 82251
  | 5 => 575757
  | 6 => 3262623
  | 7 => 15380937
  | _ => 0

/-- How many hands of six cards have `i / 8` for their category by values and `i % 8` cards of a suit. -/
def sixX : List Nat := [1199205, 2398410, 1998675, 888300, 222075, 29610, 1645, 0, 1551555,
  3620295, 3103110, 1264230, 249015, 19155, 0, 0, 355212, 949806, 872586, 316602, 38610, 0, 0, 0,
  77220, 308880, 257400, 80080, 8580, 0, 0, 0, 63909, 131868, 110565, 48240, 11535, 1428, 71, 0,
  0, 0, 0, 0, 0, 0, 0, 0, 15522, 67392, 67626, 15444, 0, 0, 0, 0, 0, 8190, 5616, 858, 0, 0, 0, 0]

set_option maxRecDepth 100000 in
theorem sixX_check : Nat.beq (dpX (2 ^ 32) allValues 6 0 0)
    (List.foldr (fun a b => a + 2 ^ 32 * b) 0 sixX) = true := by
  decide +kernel

set_option maxRecDepth 100000 in
theorem sixY_check : Nat.beq (dpY (2 ^ 32) others allValues 6 [])
    (List.foldr (fun a b => a + 2 ^ 32 * b) 0 [20306611, 51448, 414, 47]) = true := by
  decide +kernel

/-- How many hands of seven cards have `i / 8` for their category by values and `i % 8` cards of a suit. -/
def sevenX : List Nat := [3278313, 7649397, 7649397, 4249665, 1416555, 283311, 31479, 1499,
  7195230, 19187280, 19986750, 10659600, 3109050, 473760, 29610, 0, 3334770, 10081530, 11270340,
  5750100, 1341450, 114930, 0, 0, 517185, 2241135, 2413530, 1110990, 236245, 19155, 0, 0, 813483,
  2025945, 2069901, 1125375, 351005, 62511, 5835, 217, 0, 0, 0, 0, 0, 0, 0, 0, 241956, 1135992,
  1420848, 597168, 77220, 0, 0, 0, 0, 92820, 98280, 30888, 2860, 0, 0, 0]

set_option maxRecDepth 100000 in
theorem sevenX_check : Nat.beq (dpX (2 ^ 32) allValues 7 0 0)
    (List.foldr (fun a b => a + 2 ^ 32 * b) 0 sevenX) = true := by
  decide +kernel

set_option maxRecDepth 100000 in
theorem sevenY_check : Nat.beq (dpY (2 ^ 32) others allValues 7 [])
    (List.foldr (fun a b => a + 2 ^ 32 * b) 0 [132762253, 1011911, 9315, 1081]) = true := by
  decide +kernel

end Poker.Seven

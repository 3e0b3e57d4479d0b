import Verif.Proofs.FreqTable

/-! What the sums of `Freq` say about hands. -/

namespace Poker.Freq
open Rules Counts

/-- The ranks from the highest down. -/
def ranks : List Rank := [.Ace, .King, .Queen, .Jack, .Ten, .Nine, .Eight, .Seven, .Six, .Five, .Four, .Three, .Two]

theorem cards_ranks : cards = ranks.flatMap block := rfl

theorem values_ranks : allValues = ranks.map pips := rfl

theorem ranks_nodup : ranks.Nodup := by decide

theorem mem_ranks (r : Rank) : r ∈ ranks := by cases r <;> decide

theorem mem_order (s : Suit) : s ∈ order := by cases s <;> decide

/-! ## Cards of one suit -/

theorem mem_suit {h : List PCard} {r : Rank} {s : Suit} : pips r ∈ values (ofSuit s h) ↔ (r, s) ∈ h := by
  constructor
  · intro hr
    obtain ⟨⟨r', s'⟩, hc, hp⟩ := List.mem_map.1 hr
    obtain ⟨hc', hs⟩ := List.mem_filter.1 hc
    have : s' = s := by simpa using hs
    subst this
    rw [← Seven.pips_inj hp]
    exact hc'
  · intro hr
    exact List.mem_map.2 ⟨(r, s), List.mem_filter.2 ⟨hr, by simp⟩, rfl⟩

/-- The sum of the values whose bit is set. -/
def weigh : List Nat → List Bool → Nat
  | v :: vs, true :: l => Nat.add (Nat.pow 2 v) (weigh vs l)
  | _ :: vs, false :: l => weigh vs l
  | _, _ => 0

/-- Runs by bits, the ace counted at both ends. -/
noncomputable def bitCheck : Bool := (allB 13).all (fun l =>
  (stays (fun _ => 0) 0 (l ++ [l.headD false])).xor (Seven.inRow (weigh allValues l)))

set_option maxRecDepth 1000000 in
theorem bit_check : bitCheck = true := by decide +kernel

theorem mem_allB (l : List Bool) : l ∈ allB l.length := by
  induction l with
  | nil => simp [allB]
  | cons b l ih => cases b <;> simp [allB, ih]

theorem weigh_eq (rs : List Rank) (p : Rank → Bool) :
    weigh (rs.map pips) (rs.map p) = (rs.map (fun r => if p r then 2 ^ pips r else 0)).sum := by
  induction rs with
  | nil => rfl
  | cons r rs ih => cases h : p r <;> simp [weigh, h, ih]

theorem bits_ranks (vs : List Nat) :
    Seven.bits vs = (ranks.map (fun r => if decide (pips r ∈ vs) then 2 ^ pips r else 0)).sum := by
  rw [Seven.bits, values_ranks, List.map_map]
  simp [Function.comp_def]

theorem suit_row (h : List PCard) (s : Suit) :
    stays (fun _ => 0) 0 (bitsOf ranks h s ++ [decide ((Rank.Ace, s) ∈ h)])
      = (straightTop (values (ofSuit s h))).isNone := by
  have hv : ∀ v ∈ values (ofSuit s h), v ∈ allValues := by
    intro v hv
    obtain ⟨c, -, rfl⟩ := List.mem_map.1 hv
    exact Seven.pips_mem c.1
  have hb := Seven.inRow_bits hv
  rw [bits_ranks] at hb
  simp only [mem_suit] at hb
  have hc := List.all_eq_true.1 bit_check (bitsOf ranks h s) (mem_allB _)
  rw [values_ranks, bitsOf, weigh_eq, hb] at hc
  rw [bitsOf]
  have e : (ranks.map (fun r => decide ((r, s) ∈ h))).headD false = decide ((Rank.Ace, s) ∈ h) := rfl
  rw [e] at hc
  revert hc
  generalize stays (fun _ => 0) 0 _ = x
  cases straightTop (values (ofSuit s h)) <;> cases x <;> simp

theorem no_straightFlush (h : List PCard) : (!hasStraightFlush h)
    = order.all (fun s => stays (fun _ => 0) 0 (bitsOf ranks h s ++ [decide ((Rank.Ace, s) ∈ h)])) := by
  simp only [suit_row, hasStraightFlush, suits, order, List.any_cons, List.any_nil, List.all_cons, List.all_nil,
    Bool.or_false, Bool.and_true, Bool.not_or, Option.not_isSome]
  ac_rfl

theorem stays_id (r : Nat) (l : List Bool) (hr : r ≤ 4) : stays id r l = decide (r + l.count true ≤ 4) := by
  induction l generalizing r with
  | nil => simp [stays, hr]
  | cons b l ih =>
    cases b
    · simp [stays, ih r hr]
    · by_cases h : r < 4
      · simp [stays, h, ih (r + 1) h, Nat.add_assoc, Nat.add_comm 1]
      · have : ¬ r + (l.count true + 1) ≤ 4 := by omega
        simp [stays, h, this]

theorem suit_length {h : List PCard} (hn : h.Nodup) (s : Suit) :
    (ofSuit s h).length = (bitsOf ranks h s).count true := by
  have hp : (ofSuit s h).Perm ((ranks.filter (fun r => decide ((r, s) ∈ h))).map (fun r => (r, s))) := by
    refine (List.perm_ext_iff_of_nodup (hn.filter _) ?_).2 ?_
    · exact (ranks_nodup.filter _).map (fun a b hab => by injection hab)
    · rintro ⟨r, s'⟩
      simp only [List.mem_filter, List.mem_map, decide_eq_true_eq, Prod.mk.injEq, beq_iff_eq]
      constructor
      · rintro ⟨hm, rfl⟩
        exact ⟨r, ⟨mem_ranks r, hm⟩, rfl, rfl⟩
      · rintro ⟨r', ⟨-, hm⟩, rfl, rfl⟩
        exact ⟨hm, rfl⟩
  rw [hp.length_eq, List.length_map, bitsOf, List.count, List.countP_map, List.countP_eq_length_filter]
  congr 2
  funext r
  simp

theorem no_flush {h : List PCard} (hn : h.Nodup) :
    (!hasFlush h) = stay id (fun _ => []) ranks [0, 0, 0, 0] h := by
  have key : ∀ s, stays id 0 (bitsOf ranks h s ++ []) = !decide (5 ≤ (ofSuit s h).length) := by
    intro s
    rw [List.append_nil, stays_id 0 _ (by decide), suit_length hn s, Bool.eq_iff_iff, Bool.not_eq_true',
      decide_eq_true_eq, decide_eq_false_iff_not]
    omega
  simp only [stay, order, List.zip_cons_cons, List.zip_nil_right, List.all_cons, List.all_nil, key, hasFlush,
    suits, List.any_cons, List.any_nil, Bool.or_false, Bool.and_true, Bool.not_or]
  ac_rfl

/-! ## The sums -/

theorem nodup_of_mem {h : List PCard} (hh : h ∈ cards.sublists') : h.Nodup :=
  (List.mem_sublists'.1 hh).nodup (by decide)

theorem stays_start (b : Bool) (l : List Bool) :
    stays (fun _ => 0) 0 (b :: l) = stays (fun _ => 0) b.toNat l := by
  cases b <;> simp [stays]

theorem stays_end (r : Nat) (b : Bool) : stays (fun _ => 0) r [b] = (!b || decide (r < 4)) := by
  cases b <;> simp [stays]

/-- Hands without a straight flush. -/
theorem sum_runs (f : List Nat) :
    (cards.sublists'.map (fun h => wt f ranks h * (!hasStraightFlush h).toNat)).sum = runsAll f := by
  have hr : ranks = Rank.Ace :: ranks.tail := rfl
  have ha : Rank.Ace ∉ ranks.tail := by decide
  rw [cards_ranks, hr, List.flatMap_cons, sum_sublists_append, sublists_pick (block .Ace), List.map_map, runsAll,
    ← hr]
  refine congrArg List.sum (List.map_congr_left (fun b hb => ?_))
  have hb' : b ∈ allB 4 := hb
  obtain ⟨b0, b1, b2, b3, rfl⟩ := allB_four hb'
  obtain ⟨m0, m1, m2, m3⟩ := pick_mem .Ace b0 b1 b2 b3
  let a : Suit → List Bool := fun s => [decide ((Rank.Ace, s) ∈ pick (block .Ace) [b0, b1, b2, b3])]
  have hs : ∀ h ∈ (ranks.tail.flatMap block).sublists',
      wt f ranks (pick (block .Ace) [b0, b1, b2, b3] ++ h)
        * (!hasStraightFlush (pick (block .Ace) [b0, b1, b2, b3] ++ h)).toNat
      = f.getD ([b0, b1, b2, b3].count true) 0
        * (wt f ranks.tail h
          * (stay (fun _ => 0) a ranks.tail ([b0, b1, b2, b3].map Bool.toNat) h).toNat) := by
    intro h hh
    have hm := not_mem_rest ha hh
    conv_lhs => rw [hr]
    rw [wt_cons f ha hb' hm, Nat.mul_assoc, no_straightFlush]
    congr 3
    have key : ∀ s, bitsOf ranks (pick (block .Ace) [b0, b1, b2, b3] ++ h) s
        = decide ((Rank.Ace, s) ∈ pick (block .Ace) [b0, b1, b2, b3]) :: bitsOf ranks.tail h s := by
      intro s
      rw [← bits_rest ha [b0, b1, b2, b3] h s]
      conv_lhs => rw [hr]
      simp [bitsOf, hm s]
    have key' : ∀ s, decide ((Rank.Ace, s) ∈ pick (block .Ace) [b0, b1, b2, b3] ++ h)
        = decide ((Rank.Ace, s) ∈ pick (block .Ace) [b0, b1, b2, b3]) := by
      intro s
      simp [hm s]
    simp only [key, key', List.cons_append, stays_start, stay, order, List.map_cons, List.map_nil,
      List.zip_cons_cons, List.zip_nil_right, List.all_cons, List.all_nil, m0, m1, m2, m3, a]
  rw [Function.comp_apply, List.map_congr_left hs, List.sum_map_mul_left,
    sum_hands (fun _ => 0) f a ranks.tail (by decide) (by simp), runs_eq]
  congr 2
  have : (fun σ => (stay (fun _ => 0) a [] σ []).toNat) = fun σ => (alive σ [b0, b1, b2, b3]).toNat := by
    funext σ
    congr 1
    match σ with
    | [] | [_] | [_, _] | [_, _, _] | _ :: _ :: _ :: _ :: _ =>
      simp [stay, order, bitsOf, stays_end, alive, m0, m1, m2, m3, a]
  rw [this]

/-- Hands without a flush. -/
theorem sum_few (f : List Nat) :
    (cards.sublists'.map (fun h => wt f ranks h * (!hasFlush h).toNat)).sum = few f 13 := by
  have e : ∀ h ∈ cards.sublists', wt f ranks h * (!hasFlush h).toNat
      = wt f ranks h * (stay id (fun _ => []) ranks [0, 0, 0, 0] h).toNat :=
    fun h hh => by rw [no_flush (nodup_of_mem hh)]
  rw [List.map_congr_left e, cards_ranks, sum_hands id f (fun _ => []) ranks ranks_nodup rfl, few_eq]
  congr 1
  funext σ
  simp [stay, bitsOf, stays]

/-! ## Sets of ranks -/

/-- The ranks that occur. -/
def present (rs : List Rank) (h : List PCard) : List Rank := rs.filter (fun r => decide (0 < cnt h r))

theorem present_cons {rs : List Rank} {r : Rank} (hr : r ∉ rs) {b : List Bool} (hb : b ∈ allB 4) {h : List PCard}
    (hh : ∀ s, (r, s) ∉ h) : present (r :: rs) (pick (block r) b ++ h)
      = if 0 < b.count true then r :: present rs h else present rs h := by
  have hp : present rs (pick (block r) b ++ h) = present rs h := by
    refine List.filter_congr (fun r' hr' => ?_)
    rw [cnt_append, cnt_zero (fun s => pick_other (r := r) (r' := r') (fun e => hr (e ▸ hr')) b s), Nat.zero_add]
  rw [present, List.filter_cons, ← present, hp, cnt_append, pick_cnt r b hb, cnt_zero hh, Nat.add_zero]
  simp only [decide_eq_true_eq]

theorem count_zero_iff : ∀ b ∈ allB 4, b.count true = 0 ↔ b = [false, false, false, false] := by decide

theorem next_none {ρ : List Nat} (hρ : ρ.length = 4) : next id ρ [false, false, false, false] = ρ := by
  match ρ, hρ with
  | [_, _, _, _], _ => rfl

/-- The sum over all sets of cards, with a weight for the set of ranks. -/
theorem sum_present (f : List Nat) (χ : List Rank → Nat) (rs : List Rank) (hn : rs.Nodup) {ρ : List Nat}
    (hρ : ρ.length = 4) :
    ((rs.flatMap block).sublists'.map (fun h =>
      χ (present rs h) * (wt (1 :: f) rs h * (stay id (fun _ => []) rs ρ h).toNat))).sum
      = (rs.sublists'.map (fun S => χ S * advs id (0 :: f) (fun _ => 1) S.length ρ)).sum := by
  induction rs generalizing ρ χ with
  | nil =>
    have : ∀ l : List (Suit × Nat), (l.all fun _ => true) = true := by simp
    simp [wt, advs, present, stay, bitsOf, stays, this]
  | cons r rs ih =>
    rw [List.nodup_cons] at hn
    rw [List.flatMap_cons, sum_sublists_append, sublists_pick (block r), List.map_map, List.sublists'_cons,
      List.map_append, List.sum_append, List.map_map, ← ih χ hn.2 hρ]
    have hs : ∀ b ∈ allB 4, ∀ h ∈ (rs.flatMap block).sublists',
        χ (present (r :: rs) (pick (block r) b ++ h)) * (wt (1 :: f) (r :: rs) (pick (block r) b ++ h)
          * (stay id (fun _ => []) (r :: rs) ρ (pick (block r) b ++ h)).toNat)
        = (1 :: f).getD (b.count true) 0 * (alive ρ b).toNat
          * (χ (if 0 < b.count true then r :: present rs h else present rs h)
            * (wt (1 :: f) rs h * (stay id (fun _ => []) rs (next id ρ b) h).toNat)) := by
      intro b hb h hh
      have hm := not_mem_rest hn.1 hh
      rw [wt_cons _ hn.1 hb hm, stay_cons id _ hn.1 hρ hb hm, present_cons hn.1 hb hm]
      cases alive ρ b <;> cases stay id (fun _ => []) rs (next id ρ b) h <;> simp
      ring
    have hterm : ∀ b ∈ allB 4, ((rs.flatMap block).sublists'.map (fun h =>
        χ (present (r :: rs) (pick (block r) b ++ h)) * (wt (1 :: f) (r :: rs) (pick (block r) b ++ h)
          * (stay id (fun _ => []) (r :: rs) ρ (pick (block r) b ++ h)).toNat))).sum
        = (if b = [false, false, false, false] then
            ((rs.flatMap block).sublists'.map (fun h =>
              χ (present rs h) * (wt (1 :: f) rs h * (stay id (fun _ => []) rs ρ h).toNat))).sum else 0)
          + (0 :: f).getD (b.count true) 0 * ((alive ρ b).toNat
            * (rs.sublists'.map (fun S => χ (r :: S) * advs id (0 :: f) (fun _ => 1) S.length (next id ρ b))).sum) := by
      intro b hb
      rw [List.map_congr_left (hs b hb), List.sum_map_mul_left]
      by_cases hz : b = [false, false, false, false]
      · rw [if_pos hz, hz, next_none hρ, alive_none]
        simp
      · have hpos : 0 < b.count true := Nat.pos_of_ne_zero (fun e => hz ((count_zero_iff b hb).1 e))
        rw [if_neg hz, Nat.zero_add, ← ih (fun S => χ (r :: S)) hn.2 (next_length id hρ hb), ← Nat.mul_assoc]
        simp only [hpos, if_true]
        obtain ⟨k, hk⟩ := Nat.exists_eq_succ_of_ne_zero hpos.ne'
        rw [hk]
        rfl
    have hlast : ∀ S : List Rank, χ (r :: S) * advs id (0 :: f) (fun _ => 1) (r :: S).length ρ
        = ((allB 4).map (fun b => (0 :: f).getD (b.count true) 0 * ((alive ρ b).toNat
            * (χ (r :: S) * advs id (0 :: f) (fun _ => 1) S.length (next id ρ b))))).sum := by
      intro S
      rw [List.length_cons, advs, adv_eq, hρ, ← List.sum_map_mul_left]
      refine congrArg List.sum (List.map_congr_left (fun b _ => ?_))
      ring
    refine (congrArg List.sum (List.map_congr_left (fun b hb => hterm b hb))).trans ?_
    rw [List.sum_map_add]
    refine congrArg₂ (· + ·) ?_ ?_
    · simp [allB]
    · simp only [Function.comp_def, hlast]
      generalize rs.sublists' = L
      generalize allB 4 = Bs
      induction L with
      | nil => simp
      | cons S L ihL =>
        simp only [List.map_cons, List.sum_cons, ← ihL, ← List.sum_map_add]
        refine congrArg List.sum (List.map_congr_left (fun b _ => ?_))
        ring

theorem rowSum_eq (rs : List Rank) (b : Nat) (w : List Nat) : rowSum (rs.map pips) b w
    = (rs.sublists'.map (fun S => (!Seven.inRow (b + (S.map (fun r => 2 ^ pips r)).sum)).toNat
      * w.getD S.length 0)).sum := by
  induction rs generalizing b w with
  | nil =>
    cases w <;> cases h : Seven.inRow b <;> simp [rowSum, h]
  | cons r rs ih =>
    rw [List.map_cons, rowSum, ih, ih, List.sublists'_cons, List.map_append, List.sum_append, List.map_map,
      Nat.add_eq]
    refine congrArg₂ (· + ·) rfl (congrArg List.sum (List.map_congr_left (fun S _ => ?_)))
    have : w.tail.getD S.length 0 = w.getD (S.length + 1) 0 := by cases w <;> simp
    simp only [Function.comp_apply, List.map_cons, List.sum_cons, List.length_cons, this, ← Nat.add_assoc]
    rfl

theorem straight_present (h : List PCard) :
    hasStraight h = Seven.inRow (0 + ((present ranks h).map (fun r => 2 ^ pips r)).sum) := by
  have hv : ∀ v ∈ values h, v ∈ allValues := by
    intro v hv
    obtain ⟨c, -, rfl⟩ := List.mem_map.1 hv
    exact Seven.pips_mem c.1
  rw [hasStraight, ← Seven.inRow_bits hv, bits_ranks, Nat.zero_add]
  congr 1
  have hc : ∀ r, decide (pips r ∈ values h) = decide (0 < cnt h r) := by
    intro r
    rw [cnt, decide_eq_decide, List.count_pos_iff]
  simp only [hc, present]
  generalize ranks = rs
  induction rs with
  | nil => rfl
  | cons r rs ih =>
    rw [List.map_cons, List.sum_cons, ih, List.filter_cons]
    by_cases h : 0 < cnt h r <;> simp [h]

/-- The ranks have no straight. -/
noncomputable def noRow (S : List Rank) : Nat := (!Seven.inRow (0 + (S.map (fun r => 2 ^ pips r)).sum)).toNat

/-- Hands without a flush and a straight. -/
theorem sum_rows (f : List Nat) :
    (cards.sublists'.map (fun h => wt (1 :: f) ranks h * (!hasFlush h && !hasStraight h).toNat)).sum
      = rows (0 :: f) := by
  have e : ∀ h ∈ cards.sublists', wt (1 :: f) ranks h * (!hasFlush h && !hasStraight h).toNat
      = noRow (present ranks h)
        * (wt (1 :: f) ranks h * (stay id (fun _ => []) ranks [0, 0, 0, 0] h).toNat) := by
    intro h hh
    rw [no_flush (nodup_of_mem hh), straight_present, noRow]
    cases stay id (fun _ => []) ranks [0, 0, 0, 0] h <;>
      cases Seven.inRow (0 + ((present ranks h).map (fun r => 2 ^ pips r)).sum) <;> simp
  rw [List.map_congr_left e, cards_ranks, sum_present f _ ranks ranks_nodup rfl, rows, values_ranks, rowSum_eq]
  refine congrArg List.sum (List.map_congr_left (fun S hS => ?_))
  have hl : S.length < 14 := Nat.lt_succ_of_le (List.mem_sublists'.1 hS).length_le
  rw [noRow, ← few_eq, List.getD_eq_getElem?_getD, List.getElem?_map, List.getElem?_range hl]
  rfl

/-! ## Digits -/

theorem sum_low (l : List Nat) (i : Nat) (hl : l.length < base) (hi : ∀ e ∈ l, e < i) :
    (l.map (base ^ ·)).sum < base ^ i ∨ l = [] := by
  match i, l with
  | _, [] => exact .inr rfl
  | 0, e :: l => exact absurd (hi e (by simp)) (by omega)
  | i + 1, e :: l =>
    left
    have hb : 0 < base := by decide
    have key : ∀ k : List Nat, (∀ e ∈ k, e < i + 1) → (k.map (base ^ ·)).sum ≤ k.length * base ^ i := by
      intro k
      induction k with
      | nil => simp
      | cons x k ih =>
        intro hk
        rw [List.map_cons, List.sum_cons, List.length_cons, Nat.succ_mul]
        have h1 := ih (fun e he => hk e (by simp [he]))
        have h2 : base ^ x ≤ base ^ i := Nat.pow_le_pow_right hb (Nat.lt_succ_iff.1 (hk x (by simp)))
        omega
    calc _ ≤ (e :: l).length * base ^ i := key _ hi
      _ < base * base ^ i := Nat.mul_lt_mul_of_pos_right hl (Nat.pow_pos hb)
      _ = base ^ (i + 1) := by rw [Nat.pow_succ, Nat.mul_comm]

theorem split_sum (l : List Nat) (i : Nat) : ∃ k, (l.map (base ^ ·)).sum
    = ((l.filter (fun e => decide (e < i))).map (base ^ ·)).sum + base ^ i * (l.count i + base * k) := by
  induction l with
  | nil => exact ⟨0, by simp⟩
  | cons x l ih =>
    obtain ⟨k, hk⟩ := ih
    rw [List.map_cons, List.sum_cons, hk]
    rcases Nat.lt_trichotomy x i with h | h | h
    · refine ⟨k, ?_⟩
      rw [List.filter_cons_of_pos (by simpa using h), List.map_cons, List.sum_cons, List.count_cons_of_ne (by omega)]
      omega
    · refine ⟨k, ?_⟩
      subst h
      rw [List.filter_cons_of_neg (by simp), List.count_cons_self]
      ring
    · refine ⟨k + base ^ (x - i - 1), ?_⟩
      rw [List.filter_cons_of_neg (by simpa using Nat.le_of_lt h), List.count_cons_of_ne (by omega)]
      have : base ^ x = base ^ i * (base * base ^ (x - i - 1)) := by
        rw [← Nat.pow_succ', ← Nat.pow_add]
        congr 1
        omega
      rw [this]
      ring

/-- How often an exponent occurs is a digit of the sum of the powers. -/
theorem digit_count (l : List Nat) (i : Nat) (hl : l.length < base) :
    (l.map (base ^ ·)).sum / base ^ i % base = l.count i := by
  obtain ⟨k, hk⟩ := split_sum l i
  have hb : 0 < base := by decide
  have hlow : ((l.filter (fun e => decide (e < i))).map (base ^ ·)).sum < base ^ i := by
    rcases sum_low (l.filter (fun e => decide (e < i))) i ((List.length_filter_le _ _).trans_lt hl)
      (fun e he => by simpa using (List.mem_filter.1 he).2) with h | h
    · exact h
    · rw [h]
      exact Nat.pow_pos hb
  rw [hk, Nat.add_mul_div_left _ _ (Nat.pow_pos hb), Nat.div_eq_of_lt hlow, Nat.zero_add, Nat.add_mul_mod_self_left,
    Nat.mod_eq_of_lt (List.count_le_length.trans_lt hl)]

theorem digit_mod (x i k : Nat) (h : i < k) : x % base ^ k / base ^ i % base = x / base ^ i % base := by
  obtain ⟨j, rfl⟩ : ∃ j, k = i + (j + 1) := ⟨k - i - 1, by omega⟩
  rw [Nat.pow_add, Nat.mod_mul_right_div_self, Nat.pow_succ', Nat.mod_mul_right_mod]

theorem number_digit (l : List Nat) (hl : ∀ d ∈ l, d < base) (i : Nat) :
    number l / base ^ i % base = l.getD i 0 := by
  have hb : 0 < base := by decide
  induction l generalizing i with
  | nil => simp [number]
  | cons d l ih =>
    have e : number (d :: l) = d + base * number l := rfl
    have hd := hl d (by simp)
    rw [e]
    match i with
    | 0 => rw [Nat.pow_zero, Nat.div_one, Nat.add_mul_mod_self_left, Nat.mod_eq_of_lt hd]; rfl
    | i + 1 =>
      rw [Nat.pow_succ', ← Nat.div_div_eq_div_mul, Nat.add_mul_div_left _ _ hb, Nat.div_eq_of_lt hd, Nat.zero_add,
        ih (fun d hd => hl d (by simp [hd]))]
      rfl

end Poker.Freq

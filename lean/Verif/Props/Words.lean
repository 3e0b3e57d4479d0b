import Verif.Spec.Words
import Verif.Spec.Seats
import Verif.Props.Odds
import Mathlib.Data.BitVec
import Mathlib.Tactic.Ring
import Mathlib.Analysis.SpecificLimits.Normed

/-! # C78: shuffling from random words -/

namespace Poker.Rand
open Poker Nat

/-! ## One number from words -/

/-- Multiples of `r` in a stretch of `r * s` numbers. -/
theorem stretch {W r s h : Nat} (hr : 0 < r) (hs : r * s ≤ W) (hh : h < r) (v : Nat) :
    (v < W ∧ v * r / W = h ∧ v * r % W < r * s) ↔
      (h * W + (r - 1)) / r ≤ v ∧ v < (h * W + (r - 1)) / r + s := by
  have hW : 0 < W ∨ s = 0 := by
    rcases Nat.eq_zero_or_pos W with h0 | h0
    · right
      subst h0
      exact (Nat.mul_eq_zero.1 (Nat.le_zero.1 hs)).resolve_left (by omega)
    · exact .inl h0
  rcases hW with hW | rfl
  swap
  · simp
  have key : (v < W ∧ v * r / W = h ∧ v * r % W < r * s) ↔ h * W ≤ v * r ∧ v * r < h * W + r * s := by
    have hdm := Nat.div_add_mod (v * r) W
    constructor
    · rintro ⟨_, rfl, h2⟩
      rw [Nat.mul_comm] at hdm
      omega
    · rintro ⟨h1, h2⟩
      have hq : v * r / W = h := by
        apply Nat.div_eq_of_lt_le
        · exact h1
        · rw [Nat.succ_mul]
          omega
      refine ⟨?_, hq, ?_⟩
      · by_contra hv
        have h3 : W * r ≤ v * r := Nat.mul_le_mul_right r (by omega)
        have h4 : (h + 1) * W ≤ r * W := Nat.mul_le_mul_right W hh
        rw [Nat.succ_mul] at h4
        rw [Nat.mul_comm W r] at h3
        omega
      · rw [hq, Nat.mul_comm] at hdm
        omega
  rw [key]
  generalize hA : h * W = A
  have h1 : (A + (r - 1)) / r ≤ v ↔ A ≤ v * r := by
    rw [← Nat.lt_succ_iff, Nat.div_lt_iff_lt_mul hr, Nat.succ_mul]
    omega
  have h2 : v < (A + (r - 1)) / r + s ↔ v * r < A + r * s := by
    by_cases hv : v < s
    · have : v * r < r * s := by
        rw [Nat.mul_comm]
        exact Nat.mul_lt_mul_of_pos_left hv hr
      exact ⟨fun _ => Nat.lt_of_lt_of_le this (Nat.le_add_left _ _), fun _ => Nat.lt_of_lt_of_le hv (Nat.le_add_left _ _)⟩
    · have e : v * r = (v - s) * r + r * s := by
        rw [Nat.mul_comm r s, ← Nat.add_mul]
        congr 1
        omega
      have : v - s < (A + (r - 1)) / r ↔ (v - s) * r < A := by
        rw [← Nat.add_one_le_iff, Nat.le_div_iff_mul_le hr, Nat.succ_mul]
        omega
      rw [e]
      omega
  rw [h1, h2]

theorem hi_toNat (v r : BitVec 32) : (wmul v r).1.toNat = v.toNat * r.toNat / 2 ^ 32 := by
  have hv := v.isLt
  have hr := r.isLt
  have : v.toNat * r.toNat < 2 ^ 64 := by
    calc v.toNat * r.toNat < 2 ^ 32 * 2 ^ 32 := Nat.mul_lt_mul'' hv hr
      _ = 2 ^ 64 := by norm_num
  simp only [wmul, BitVec.toNat_setWidth, BitVec.toNat_ushiftRight, BitVec.toNat_mul]
  rw [Nat.mod_eq_of_lt (show v.toNat < 2 ^ 64 by omega), Nat.mod_eq_of_lt (show r.toNat < 2 ^ 64 by omega),
    Nat.mod_eq_of_lt this, Nat.shiftRight_eq_div_pow, Nat.mod_eq_of_lt]
  exact Nat.div_lt_of_lt_mul (by norm_num; omega)

theorem lo_toNat (v r : BitVec 32) : (wmul v r).2.toNat = v.toNat * r.toNat % 2 ^ 32 := by
  have hv := v.isLt
  have hr := r.isLt
  have : v.toNat * r.toNat < 2 ^ 64 := by
    calc v.toNat * r.toNat < 2 ^ 32 * 2 ^ 32 := Nat.mul_lt_mul'' hv hr
      _ = 2 ^ 64 := by norm_num
  simp only [wmul, BitVec.toNat_setWidth, BitVec.toNat_mul]
  rw [Nat.mod_eq_of_lt (show v.toNat < 2 ^ 64 by omega), Nat.mod_eq_of_lt (show r.toNat < 2 ^ 64 by omega),
    Nat.mod_eq_of_lt this]

/-- The range, scaled up as far as it fits. -/
def scaled (r : BitVec 32) : Nat := r.toNat * 2 ^ leading_zeros r

theorem scaled_bounds {r : BitVec 32} (hr : r ≠ 0) : 2 ^ 31 ≤ scaled r ∧ scaled r < 2 ^ 32 := by
  have h0 : r.toNat ≠ 0 := fun h => hr (BitVec.eq_of_toNat_eq (by simpa using h))
  unfold scaled leading_zeros
  rw [if_neg hr]
  have hlog : r.toNat.log2 < 32 := (Nat.log2_lt h0).2 r.isLt
  have h1 := Nat.log2_self_le h0
  have h2 := Nat.lt_log2_self (n := r.toNat)
  have e1 : 2 ^ r.toNat.log2 * 2 ^ (31 - r.toNat.log2) = 2 ^ 31 := by
    rw [← Nat.pow_add]
    congr 1
    omega
  have e2 : 2 ^ (r.toNat.log2 + 1) * 2 ^ (31 - r.toNat.log2) = 2 ^ 32 := by
    rw [← Nat.pow_add]
    congr 1
    omega
  exact ⟨e1 ▸ Nat.mul_le_mul_right _ h1, e2 ▸ Nat.mul_lt_mul_of_pos_right h2 (Nat.two_pow_pos _)⟩

theorem zone_toNat {r : BitVec 32} (hr : r ≠ 0) : (zone r).toNat = scaled r - 1 := by
  have hb := scaled_bounds hr
  unfold zone
  have h : (r <<< leading_zeros r).toNat = scaled r := by
    rw [BitVec.toNat_shiftLeft, Nat.shiftLeft_eq]
    exact Nat.mod_eq_of_lt hb.2
  rw [BitVec.toNat_sub, h]
  have : (1 : BitVec 32).toNat = 1 := rfl
  rw [this]
  omega

/-- The word is accepted. -/
def Taken (r v : BitVec 32) : Prop := (wmul v r).2 ≤ zone r

/-- The word is accepted, and gives `h`. -/
def Hit (r : BitVec 32) (h : Nat) (v : BitVec 32) : Prop :=
  Taken r v ∧ (wmul v r).1.toNat = h

theorem accepted_iff {r : BitVec 32} (hr : r ≠ 0) (v : BitVec 32) :
    Taken r v ↔ v.toNat * r.toNat % 2 ^ 32 < scaled r := by
  have hb := scaled_bounds hr
  rw [Taken, BitVec.le_def, lo_toNat, zone_toNat hr]
  omega

theorem hits {r : BitVec 32} (hr : r ≠ 0) {h : Nat} (hh : h < r.toNat) :
    {v | Hit r h v}.ncard = 2 ^ leading_zeros r := by
  have hb := scaled_bounds hr
  rw [← Set.ncard_image_of_injective _ (f := BitVec.toNat) (fun a b h => BitVec.eq_of_toNat_eq h)]
  have : BitVec.toNat '' {v | Hit r h v} = ↑(Finset.Ico ((h * 2 ^ 32 + (r.toNat - 1)) / r.toNat)
      ((h * 2 ^ 32 + (r.toNat - 1)) / r.toNat + 2 ^ leading_zeros r)) := by
    ext n
    rw [Finset.coe_Ico, Set.mem_Ico, ← stretch (by omega) hb.2.le hh]
    simp only [Set.mem_image, Set.mem_ofPred_eq, Hit, accepted_iff hr, hi_toNat]
    constructor
    · rintro ⟨v, ⟨h1, h2⟩, rfl⟩
      exact ⟨v.isLt, h2, h1⟩
    · rintro ⟨h1, h2, h3⟩
      have e : (BitVec.ofNat 32 n).toNat = n := by
        rw [BitVec.toNat_ofNat]
        exact Nat.mod_eq_of_lt h1
      exact ⟨BitVec.ofNat 32 n, by rw [e]; exact ⟨h3, h2⟩, e⟩
  rw [this, Set.ncard_coe_finset, Nat.card_Ico, Nat.add_sub_cancel_left]

theorem hi_lt {r : BitVec 32} (hr : r ≠ 0) (v : BitVec 32) : (wmul v r).1.toNat < r.toNat := by
  have h0 : r.toNat ≠ 0 := fun h => hr (BitVec.eq_of_toNat_eq (by simpa using h))
  rw [hi_toNat]
  apply Nat.div_lt_of_lt_mul
  exact Nat.mul_lt_mul_of_pos_right v.isLt (by omega)

/-! ## Counting sequences -/

noncomputable instance : Fintype (BitVec 32) := Fintype.ofEquiv _ (BitVec.equivFin (m := 32)).toEquiv.symm

theorem card_word : Fintype.card (BitVec 32) = 2 ^ 32 :=
  (Fintype.card_congr (BitVec.equivFin (m := 32)).toEquiv).trans (Fintype.card_fin _)

open Classical in
theorem count_sum {ι : Type} [Fintype ι] (q : ι → Prop) :
    {i | q i}.ncard = ∑ i, if q i then 1 else 0 := by
  rw [Set.ncard_eq_toFinset_card', Finset.card_eq_sum_ones, Set.toFinset_ofPred, Finset.sum_filter]

theorem sequences_congr {n : Nat} {q q' : Words → Prop} (h : ∀ ws, q ws ↔ q' ws) :
    sequences n q = sequences n q' := by
  have : q = q' := funext fun ws => propext (h ws)
  rw [this]

open Classical in
theorem sequences_zero (q : Words → Prop) : sequences 0 q = if q [] then 1 else 0 := by
  unfold sequences
  rw [count_sum, Fintype.sum_unique]
  rfl

open Classical in
theorem sequences_succ (n : Nat) (q : Words → Prop) :
    sequences (n + 1) q = ∑ v : BitVec 32, sequences n (fun ws => q (v :: ws)) := by
  unfold sequences
  simp only [count_sum]
  rw [← (Fin.consEquiv (fun _ : Fin (n + 1) => BitVec 32)).sum_comp, Fintype.sum_prod_type]
  refine Finset.sum_congr rfl fun v _ => Finset.sum_congr rfl fun f _ => ?_
  have : List.ofFn (Fin.consEquiv (fun _ : Fin (n + 1) => BitVec 32) (v, f)) = v :: List.ofFn f := by
    rw [List.ofFn_succ]
    rfl
  rw [this]

theorem sequences_all (n : Nat) : sequences n (fun _ => True) = 2 ^ (32 * n) := by
  induction n with
  | zero => rw [sequences_zero, if_pos trivial]; rfl
  | succ n ih =>
    rw [sequences_succ, Finset.sum_const, Finset.card_univ, card_word, ih, smul_eq_mul, ← Nat.pow_add]
    congr 1
    omega

open Classical in
theorem sequences_none (n : Nat) : sequences n (fun _ => False) = 0 := by
  unfold sequences
  simp

open Classical in
theorem sum_two (P : BitVec 32 → Prop) (a b : Nat) :
    (∑ v, if P v then a else b) = {v | P v}.ncard * a + {v | ¬ P v}.ncard * b := by
  rw [count_sum, count_sum, Finset.sum_mul, Finset.sum_mul, ← Finset.sum_add_distrib]
  refine Finset.sum_congr rfl fun v _ => ?_
  by_cases h : P v <;> simp [h]

theorem split (P : BitVec 32 → Prop) : {v | P v}.ncard + {v | ¬ P v}.ncard = 2 ^ 32 := by
  classical
  have := sum_two P 1 1
  simp only [ite_self, Finset.sum_const, Finset.card_univ, card_word, smul_eq_mul, Nat.mul_one] at this
  exact this.symm

/-- The number of words that are accepted. -/
theorem accepted {r : BitVec 32} (hr : r ≠ 0) : {v | Taken r v}.ncard = scaled r := by
  classical
  have h : ∀ v, (if Taken r v then 1 else 0) =
      ∑ h ∈ Finset.range r.toNat, if Hit r h v then 1 else 0 := by
    intro v
    by_cases ha : Taken r v
    · simp only [Hit, ha, true_and, if_true]
      rw [Finset.sum_ite_eq, if_pos (Finset.mem_range.2 (hi_lt hr v))]
    · simp [Hit, ha]
  rw [count_sum, Finset.sum_congr rfl fun v _ => h v, Finset.sum_comm]
  have : ∀ h ∈ Finset.range r.toNat, (∑ v, if Hit r h v then 1 else 0) = 2 ^ leading_zeros r := by
    intro h hh
    rw [← count_sum, hits hr (Finset.mem_range.1 hh)]
  rw [Finset.sum_congr rfl this, Finset.sum_const, Finset.card_range, smul_eq_mul]
  rfl

/-- How many sequences give `h` and leave words with the property. -/
noncomputable def giving (n : Nat) (r : BitVec 32) (h : Nat) (q : Words → Prop) : Nat :=
  sequences n (fun ws => ∃ i rest, sample r ws = some (i, rest) ∧ i.toNat = h ∧ q rest)

theorem giving_succ {r : BitVec 32} (hr : r ≠ 0) {h : Nat} (hh : h < r.toNat) (n : Nat) (q : Words → Prop) :
    giving (n + 1) r h q = 2 ^ leading_zeros r * sequences n q +
      {v | ¬ Taken r v}.ncard * giving n r h q := by
  classical
  unfold giving
  rw [sequences_succ, ← hits hr hh]
  have e : ∀ v, sequences n (fun ws => ∃ i rest, sample r (v :: ws) = some (i, rest) ∧ i.toNat = h ∧ q rest) =
      (if Hit r h v then 1 else 0) * sequences n q + (if ¬ Taken r v then 1 else 0) *
        sequences n (fun ws => ∃ i rest, sample r ws = some (i, rest) ∧ i.toNat = h ∧ q rest) := by
    intro v
    by_cases ha : Taken r v
    · by_cases hi : (wmul v r).1.toNat = h
      · rw [if_pos ⟨ha, hi⟩, if_neg (not_not.2 ha), Nat.one_mul, Nat.zero_mul, Nat.add_zero]
        refine sequences_congr fun ws => ?_
        simp only [sample, if_pos (show (wmul v r).2 ≤ zone r from ha), Option.some.injEq, Prod.mk.injEq]
        constructor
        · rintro ⟨_, _, ⟨rfl, rfl⟩, _, hq⟩
          exact hq
        · intro hq
          exact ⟨_, _, ⟨rfl, rfl⟩, hi, hq⟩
      · rw [if_neg (fun x => hi x.2), if_neg (not_not.2 ha), Nat.zero_mul, Nat.zero_mul]
        refine Eq.trans ?_ (sequences_none n)
        refine sequences_congr fun ws => ?_
        simp only [sample, if_pos (show (wmul v r).2 ≤ zone r from ha), Option.some.injEq, Prod.mk.injEq, iff_false]
        rintro ⟨_, _, ⟨rfl, rfl⟩, h', _⟩
        exact hi h'
    · rw [if_neg (fun x => ha x.1), if_pos ha, Nat.one_mul, Nat.zero_mul, Nat.zero_add]
      refine sequences_congr fun ws => ?_
      simp only [sample, if_neg (show ¬ (wmul v r).2 ≤ zone r from ha)]
  rw [Finset.sum_congr rfl fun v _ => e v, Finset.sum_add_distrib, ← Finset.sum_mul, ← Finset.sum_mul, count_sum,
    count_sum]
  congr!

/-- All numbers in the range are equally likely. -/
theorem giving_eq {r : BitVec 32} (hr : r ≠ 0) {h h' : Nat} (hh : h < r.toNat) (hh' : h' < r.toNat)
    {q q' : Words → Prop} (hq : ∀ n, sequences n q = sequences n q') (n : Nat) :
    giving n r h q = giving n r h' q' := by
  induction n with
  | zero => unfold giving; rw [sequences_zero, sequences_zero]; simp [sample]
  | succ n ih => rw [giving_succ hr hh, giving_succ hr hh', ih, hq]

/-! ## The whole shuffle -/

/-- The words make `gen_index` return `draw k`, ..., `draw 1`. -/
def Follows (draw : Nat → Nat) : Nat → Words → Prop
  | 0, _ => True
  | k + 1, ws => ∃ i rest, sample (BitVec.ofNat 32 (k + 2)) ws = some (i, rest) ∧ i.toNat = draw (k + 1) ∧
    Follows draw k rest

theorem follows_count (k : Nat) (hk : k < 2 ^ 31) {draw draw' : Nat → Nat} (hd : InRange draw k)
    (hd' : InRange draw' k) (n : Nat) : sequences n (Follows draw k) = sequences n (Follows draw' k) := by
  induction k generalizing n with
  | zero => rfl
  | succ k ih =>
    have e : (BitVec.ofNat 32 (k + 2)).toNat = k + 2 := by
      rw [BitVec.toNat_ofNat]
      exact Nat.mod_eq_of_lt (by omega)
    have h0 : BitVec.ofNat 32 (k + 2) ≠ 0 := by
      intro h
      rw [h] at e
      simp at e
    have b := hd (k + 1) (by omega) (by omega)
    have b' := hd' (k + 1) (by omega) (by omega)
    exact giving_eq h0 (by rw [e]; omega) (by rw [e]; omega)
      (ih (by omega) (fun i h1 h2 => hd i h1 (by omega)) (fun i h1 h2 => hd' i h1 (by omega))) n

theorem follows_congr {draw draw' : Nat → Nat} : ∀ {k : Nat} {ws : Words},
    (∀ i, 1 ≤ i → i ≤ k → draw i = draw' i) → Follows draw k ws → Follows draw' k ws
  | 0, _, _, _ => trivial
  | k + 1, _, h, ⟨i, rest, h1, h2, h3⟩ =>
    ⟨i, rest, h1, h2.trans (h _ (by omega) (by omega)), follows_congr (fun j h1 h2 => h j h1 (by omega)) h3⟩

theorem follows_shuffle {α : Type} {draw : Nat → Nat} : ∀ {k : Nat} {ws : Words} (l : List α),
    Follows draw k ws → ∃ rest, shuffleAux k l ws = (Deck.shuffleAux draw k l).map (fun m => some (m, rest))
  | 0, ws, l, _ => ⟨ws, rfl⟩
  | k + 1, ws, l, ⟨i, rest, h1, h2, h3⟩ => by
    unfold shuffleAux Deck.shuffleAux gen_index
    rw [h1]
    simp only [h2]
    cases hs : Deck.swap l (k + 1) (draw (k + 1)) with
    | error e => exact ⟨rest, rfl⟩
    | ok m =>
      obtain ⟨rest', h⟩ := follows_shuffle m h3
      exact ⟨rest', h⟩

theorem range_toNat {k : Nat} (hk : k + 1 < 2 ^ 31) : (BitVec.ofNat 32 (k + 2)).toNat = k + 2 := by
  rw [BitVec.toNat_ofNat]
  exact Nat.mod_eq_of_lt (by omega)

theorem range_pos {k : Nat} (hk : k + 1 < 2 ^ 31) : BitVec.ofNat 32 (k + 2) ≠ 0 := by
  intro h
  have e := range_toNat hk
  rw [h] at e
  simp at e

theorem sample_lt {r : BitVec 32} (hr : r ≠ 0) : ∀ {ws : Words} {i : BitVec 32} {rest : Words},
    sample r ws = some (i, rest) → i.toNat < r.toNat
  | [], _, _, h => by simp [sample] at h
  | v :: ws, i, rest, h => by
    unfold sample at h
    simp only at h
    split at h
    · simp only [Option.some.injEq, Prod.mk.injEq] at h
      exact h.1 ▸ hi_lt hr v
    · exact sample_lt hr h

/-- The words run out before the shuffle ends. -/
def Spent : Nat → Words → Prop
  | 0, _ => False
  | k + 1, ws => sample (BitVec.ofNat 32 (k + 2)) ws = none ∨
    ∃ i rest, sample (BitVec.ofNat 32 (k + 2)) ws = some (i, rest) ∧ Spent k rest

theorem spent_or : ∀ (k : Nat) (ws : Words), k < 2 ^ 31 →
    Spent k ws ∨ ∃ draw, InRange draw k ∧ Follows draw k ws
  | 0, _, _ => .inr ⟨fun _ => 0, fun _ _ _ => Nat.zero_le _, trivial⟩
  | k + 1, ws, hk => by
    cases h : sample (BitVec.ofNat 32 (k + 2)) ws with
    | none => exact .inl (.inl h)
    | some x =>
      obtain ⟨i, rest⟩ := x
      rcases spent_or k rest (by omega) with hs | ⟨draw, hd, hf⟩
      · exact .inl (.inr ⟨i, rest, h, hs⟩)
      · have hi := sample_lt (range_pos hk) h
        rw [range_toNat hk] at hi
        refine .inr ⟨fun j => if j = k + 1 then i.toNat else draw j, ?_, i, rest, h, by simp, ?_⟩
        · intro j h1 h2
          simp only
          split
          · omega
          · exact hd j h1 (by omega)
        · refine follows_congr (fun j _ h2 => ?_) hf
          rw [if_neg (by omega)]

theorem spent_shuffle {α : Type} : ∀ {k : Nat} {ws : Words} (l : List α), k < 2 ^ 31 → k < l.length →
    Spent k ws → shuffleAux k l ws = .ok none
  | k + 1, ws, l, hk, hl, h => by
    unfold shuffleAux gen_index
    rcases h with h | ⟨i, rest, h, hs⟩
    · rw [h]
    · rw [h]
      have hi := sample_lt (range_pos hk) h
      rw [range_toNat hk] at hi
      simp only
      obtain ⟨m, hm, hlen⟩ : ∃ m, Deck.swap l (k + 1) i.toNat = .ok m ∧ m.length = l.length := by
        exact ⟨_, swap_eq l _ _ hl (by omega), (sw_perm l _ _ hl (by omega)).length_eq⟩
      rw [hm]
      exact spent_shuffle m (by omega) (by omega) hs

/-! ## Counting shuffles -/

theorem spent_count (n : Nat) : ∀ k, k < 2 ^ 31 →
    sequences n (Spent k) ≤ (∑ j ∈ Finset.range k, n.choose j) * 2 ^ (31 * n) := by
  classical
  induction n with
  | zero =>
    intro k _
    rw [sequences_zero]
    cases k with
    | zero => simp [Spent]
    | succ k =>
      rw [Finset.sum_range_succ']
      split <;> simp
  | succ n ih =>
    intro k hk
    cases k with
    | zero =>
      have : sequences (n + 1) (Spent 0) = 0 := sequences_none (n + 1)
      rw [this]
      exact Nat.zero_le _
    | succ k =>
      have hr := range_pos hk
      have e : ∀ v, sequences n (fun ws => Spent (k + 1) (v :: ws)) =
          if Taken (BitVec.ofNat 32 (k + 2)) v then sequences n (Spent k) else sequences n (Spent (k + 1)) := by
        intro v
        by_cases ha : Taken (BitVec.ofNat 32 (k + 2)) v
        · rw [if_pos ha]
          refine sequences_congr fun ws => ?_
          rw [Spent]
          simp only [sample, if_pos (show (wmul v (BitVec.ofNat 32 (k + 2))).2 ≤ zone _ from ha),
            Option.some.injEq, Prod.mk.injEq, reduceCtorEq, false_or]
          constructor
          · rintro ⟨_, _, ⟨_, rfl⟩, h⟩
            exact h
          · intro h
            exact ⟨_, _, ⟨rfl, rfl⟩, h⟩
        · rw [if_neg ha]
          refine sequences_congr fun ws => ?_
          rw [Spent, Spent]
          simp only [sample, if_neg (show ¬ (wmul v (BitVec.ofNat 32 (k + 2))).2 ≤ zone _ from ha)]
      rw [sequences_succ, Finset.sum_congr rfl fun v _ => e v, sum_two, accepted hr]
      have hs := split (Taken (BitVec.ofNat 32 (k + 2)))
      rw [accepted hr] at hs
      have hb := (scaled_bounds hr).1
      have h1 := ih k (by omega)
      have h2 := ih (k + 1) hk
      have mono : (∑ j ∈ Finset.range k, n.choose j) ≤ ∑ j ∈ Finset.range (k + 1), n.choose j := by
        rw [Finset.sum_range_succ]
        exact Nat.le_add_right _ _
      have pascal : (∑ j ∈ Finset.range (k + 1), (n + 1).choose j) =
          (∑ j ∈ Finset.range k, n.choose j) + ∑ j ∈ Finset.range (k + 1), n.choose j := by
        rw [Finset.sum_range_succ', Finset.sum_range_succ' (fun j => n.choose j)]
        simp only [Nat.choose_succ_succ', Nat.choose_zero_right, Finset.sum_add_distrib]
        omega
      rw [pascal]
      have p : 2 ^ (31 * (n + 1)) = 2 ^ 31 * 2 ^ (31 * n) := by
        rw [← Nat.pow_add]
        congr 1
        omega
      have w : (2 : Nat) ^ 32 = 2 ^ 31 + 2 ^ 31 := by norm_num
      rw [p]
      rw [w] at hs
      generalize 2 ^ (31 * n) = P at *
      generalize (2 : Nat) ^ 31 = H at *
      generalize (∑ j ∈ Finset.range k, n.choose j) = B at *
      generalize (∑ j ∈ Finset.range (k + 1), n.choose j) = B' at *
      generalize sequences n (Spent k) = U at *
      generalize sequences n (Spent (k + 1)) = U' at *
      generalize scaled (BitVec.ofNat 32 (k + 2)) = A at *
      generalize {v | ¬ Taken (BitVec.ofNat 32 (k + 2)) v}.ncard = R at *
      obtain ⟨x, rfl⟩ := Nat.exists_eq_add_of_le hb
      have hR : H = x + R := by omega
      obtain ⟨y, rfl⟩ := Nat.exists_eq_add_of_le mono
      calc (H + x) * U + R * U' ≤ (H + x) * (B * P) + R * ((B + y) * P) :=
            Nat.add_le_add (Nat.mul_le_mul_left _ h1) (Nat.mul_le_mul_left _ h2)
        _ ≤ (B + (B + y)) * (H * P) := by
          subst hR
          have : (B + (B + y)) * ((x + R) * P) = (x + R + x) * (B * P) + R * ((B + y) * P) + x * y * P := by ring
          rw [this]
          exact Nat.le_add_right _ _

theorem follows_unique {draw draw' : Nat → Nat} : ∀ {k : Nat} {ws : Words}, Follows draw k ws →
    Follows draw' k ws → ∀ i, 1 ≤ i → i ≤ k → draw i = draw' i
  | 0, _, _, _, i, h1, h2 => by omega
  | k + 1, ws, ⟨a, rest, h1, h2, h3⟩, ⟨b, rest', h1', h2', h3'⟩, i, hi, hk => by
    rw [h1] at h1'
    simp only [Option.some.injEq, Prod.mk.injEq] at h1'
    obtain ⟨rfl, rfl⟩ := h1'
    by_cases h : i = k + 1
    · exact h ▸ h2.symm.trans h2'
    · exact follows_unique h3 h3' i hi (by omega)

theorem draws_ext {d d' : Draws} (h : ∀ i, 1 ≤ i → i ≤ 51 → d.stream i = d'.stream i) : d = d' := by
  funext i
  apply Fin.ext
  rw [← stream_at, ← stream_at]
  exact h _ (by omega) (by omega)

/-- Numbers in range are those of some choices. -/
theorem draws_of {draw : Nat → Nat} (h : InRange draw 51) :
    ∃ d : Draws, ∀ i, 1 ≤ i → i ≤ 51 → d.stream i = draw i := by
  refine ⟨fun i => ⟨draw (i.val + 1), Nat.lt_succ_of_le (h _ (by omega) (by omega))⟩, fun i h1 h2 => ?_⟩
  have := stream_at (fun i => ⟨draw (i.val + 1), Nat.lt_succ_of_le (h _ (by omega) (by omega))⟩) ⟨i - 1, by omega⟩
  simp only at this
  rwa [Nat.sub_add_cancel h1] at this

theorem gives_iff {l : List Card} (hl : l.Perm Deck.generate) (q : List Card → Prop) (ws : Words) :
    ShufflesTo l q ws ↔ ∃ d : Draws, Follows d.stream 51 ws ∧ Shuffled l q d := by
  have h52 : l.length = 52 := hl.length_eq.trans c21_deck.1
  constructor
  · rintro ⟨m, rest, h, hq⟩
    rw [shuffle, h52] at h
    rcases spent_or 51 ws (by norm_num) with hs | ⟨draw, hd, hf⟩
    · rw [spent_shuffle l (by norm_num) (by omega) hs] at h
      simp at h
    · obtain ⟨d, he⟩ := draws_of hd
      have hf' : Follows d.stream 51 ws := follows_congr (fun i h1 h2 => (he i h1 h2).symm) hf
      obtain ⟨m', hm', _⟩ := shuffle_draws hl d
      refine ⟨d, hf', m, ?_, hq⟩
      obtain ⟨rest', h'⟩ := follows_shuffle l hf'
      rw [Deck.shuffle, h52] at hm' ⊢
      rw [hm'] at h' ⊢
      rw [h] at h'
      simp only [Except.map, Except.ok.injEq, Option.some.injEq, Prod.mk.injEq] at h'
      rw [h'.1]
  · rintro ⟨d, hf, m, hm, hq⟩
    obtain ⟨rest, h⟩ := follows_shuffle l hf
    rw [Deck.shuffle, h52] at hm
    rw [hm] at h
    exact ⟨m, rest, by rw [shuffle, h52]; exact h, hq⟩

theorem toofew_iff {l : List Card} (hl : l.Perm Deck.generate) (ws : Words) : TooFew l ws ↔ Spent 51 ws := by
  have h52 : l.length = 52 := hl.length_eq.trans c21_deck.1
  unfold TooFew
  rw [shuffle, h52]
  constructor
  · intro h
    rcases spent_or 51 ws (by norm_num) with hs | ⟨draw, hd, hf⟩
    · exact hs
    · obtain ⟨rest', h'⟩ := follows_shuffle l hf
      obtain ⟨m, hm, _⟩ := shuffleAux_ok draw 51 l (by omega) hd
      rw [hm, h] at h'
      simp [Except.map] at h'
  · exact spent_shuffle l (by norm_num) (by omega)

/-- How many sequences of words lead to given choices: as many for all. -/
noncomputable def each (n : Nat) : Nat := sequences n (Follows (fun _ => 0) 51)

theorem each_eq (n : Nat) (d : Draws) : sequences n (Follows d.stream 51) = each n :=
  follows_count 51 (by norm_num) (stream_le d 51) (fun _ _ _ => Nat.zero_le _) n

theorem gives_count {l : List Card} (hl : l.Perm Deck.generate) (q : List Card → Prop) (n : Nat) :
    sequences n (ShufflesTo l q) = ways (Shuffled l q) * each n := by
  classical
  have h : ∀ ws, (if ShufflesTo l q ws then 1 else 0) =
      ∑ d : Draws, if Shuffled l q d then (if Follows d.stream 51 ws then 1 else 0) else 0 := by
    intro ws
    by_cases hg : ShufflesTo l q ws
    · rw [if_pos hg]
      obtain ⟨d, hf, hs⟩ := (gives_iff hl q ws).1 hg
      rw [Finset.sum_eq_single d, if_pos hs, if_pos hf]
      · intro d' _ hd'
        split
        · rw [if_neg]
          intro hf'
          exact hd' (draws_ext (follows_unique hf' hf))
        · rfl
      · intro h
        exact absurd (Finset.mem_univ d) h
    · rw [if_neg hg]
      symm
      apply Finset.sum_eq_zero
      intro d _
      split
      · rename_i hs
        rw [if_neg]
        intro hf
        exact hg ((gives_iff hl q ws).2 ⟨d, hf, hs⟩)
      · rfl
  have hw : ways (Shuffled l q) = ∑ d : Draws, if Shuffled l q d then 1 else 0 := count_sum _
  rw [hw, Finset.sum_mul]
  unfold sequences
  rw [count_sum, Finset.sum_congr rfl fun f _ => h (List.ofFn f), Finset.sum_comm]
  refine Finset.sum_congr rfl fun d _ => ?_
  by_cases hs : Shuffled l q d
  · simp only [if_pos hs, Nat.one_mul]
    rw [← each_eq n d, sequences, count_sum]
  · simp [if_neg hs]

end Poker.Rand

namespace Poker
open Rand Nat

/-- C78: `gen_index` returns a number below the bound, and each of them from equally many sequences of words. -/
theorem c78_index {b : Nat} (hb : 0 < b) (hb' : b < 2 ^ 32) :
    (∀ ws i rest, gen_index b ws = some (i, rest) → i < b) ∧
    ∀ i j, i < b → j < b → ∀ n, sequences n (fun ws => ∃ rest, gen_index b ws = some (i, rest)) =
      sequences n (fun ws => ∃ rest, gen_index b ws = some (j, rest)) := by
  have e : (BitVec.ofNat 32 b).toNat = b := by
    rw [BitVec.toNat_ofNat]
    exact Nat.mod_eq_of_lt hb'
  have h0 : BitVec.ofNat 32 b ≠ 0 := by
    intro h
    rw [h] at e
    simp at e
    omega
  have key : ∀ ws i rest, gen_index b ws = some (i, rest) ↔
      ∃ x, sample (BitVec.ofNat 32 b) ws = some (x, rest) ∧ x.toNat = i := by
    intro ws i rest
    unfold gen_index
    cases sample (BitVec.ofNat 32 b) ws with
    | none => simp
    | some x => obtain ⟨x, r⟩ := x; simp; tauto
  refine ⟨?_, ?_⟩
  · intro ws i rest h
    obtain ⟨x, h1, rfl⟩ := (key _ _ _).1 h
    exact e ▸ sample_lt h0 h1
  · intro i j hi hj n
    have h := giving_eq h0 (e.symm ▸ hi) (e.symm ▸ hj) (q := fun _ => True) (q' := fun _ => True)
      (fun _ => rfl) n
    have g : ∀ i, sequences n (fun ws => ∃ rest, gen_index b ws = some (i, rest)) =
        giving n (BitVec.ofNat 32 b) i (fun _ => True) := by
      intro i
      refine sequences_congr fun ws => ?_
      simp only [key, and_true]
      exact exists_comm
    rw [g, g, h]

/-- C78: the shuffle never panics: the words are too few, or the deck is rearranged. -/
theorem c78_safe {l : List Card} (hl : l.Perm Deck.generate) (ws : Words) :
    TooFew l ws ∨ ShufflesTo l (fun m => m.Perm l) ws := by
  rcases spent_or 51 ws (by norm_num) with hs | ⟨draw, hd, hf⟩
  · exact .inl ((toofew_iff hl ws).2 hs)
  · obtain ⟨d, he⟩ := draws_of hd
    obtain ⟨m, hm, hp⟩ := shuffle_draws hl d
    exact .inr ((gives_iff hl _ ws).2 ⟨d, follows_congr (fun i h1 h2 => (he i h1 h2).symm) hf, m, hm,
      hp.trans hl.symm⟩)

theorem ways_one {l : List Card} (hl : l.Perm Deck.generate) {m : List Card} (hm : m.Perm Deck.generate) :
    ways (Shuffled l (· = m)) = 1 := by
  obtain ⟨d, hd, hu⟩ := (c46_orders hl).2 m hm
  unfold ways
  rw [Set.ncard_eq_one]
  refine ⟨d, Set.ext fun d' => ?_⟩
  constructor
  · rintro ⟨m', h, rfl⟩
    exact hu d' h
  · rintro rfl
    exact ⟨m, hd, rfl⟩

theorem ways_every {l : List Card} (hl : l.Perm Deck.generate) : ways (Shuffled l (fun _ => True)) = 52 ! := by
  rw [← c46_draws]
  refine ways_congr fun d => ?_
  obtain ⟨m, hm, _⟩ := shuffle_draws hl d
  exact ⟨fun _ => trivial, fun _ => ⟨m, hm, trivial⟩⟩

/-- C78: all orders of the deck come from equally many sequences of `n` words, and the other sequences are too
short. -/
theorem c78_orders {l : List Card} (hl : l.Perm Deck.generate) {m : List Card} (hm : m.Perm Deck.generate)
    (n : Nat) : 52 ! * sequences n (ShufflesTo l (· = m)) + sequences n (TooFew l) = 2 ^ (32 * n) := by
  classical
  rw [gives_count hl, ways_one hl hm, Nat.one_mul, ← ways_every hl, ← gives_count hl, ← sequences_all n]
  unfold sequences
  rw [count_sum, count_sum, count_sum, ← Finset.sum_add_distrib]
  refine Finset.sum_congr rfl fun f _ => ?_
  rw [if_pos trivial]
  rcases c78_safe hl (List.ofFn f) with h | ⟨m, rest, h, hp⟩
  · rw [if_pos h, if_neg]
    rintro ⟨m, rest, h', _⟩
    rw [h] at h'
    simp at h'
  · rw [if_pos ⟨m, rest, h, trivial⟩, if_neg]
    intro h'
    rw [TooFew, h] at h'
    simp at h'

/-- C78: so whatever is true of some part of all orders is true of the same part of the shuffles that come to an
end. -/
theorem c78_odds {l : List Card} (hl : l.Perm Deck.generate) (q : List Card → Prop) (n : Nat) :
    sequences n (ShufflesTo l q) * 52 ! = ways (Shuffled l q) * sequences n (ShufflesTo l (fun _ => True)) := by
  rw [gives_count hl, gives_count hl (fun _ => True), ways_every hl]
  ring

/-- C78: for instance, how often the first five cards have a given result. -/
theorem c78_hands {l : List Card} (hl : l.Perm Deck.generate) (p : Eval → Prop) (n : Nat) :
    sequences n (ShufflesTo l (fun m => ∃ ev e, Evaluator.new = .ok ev ∧ ev.evaluate (m.take 5) = .ok (.ok e) ∧ p e)) *
      2598960 = handsWith p * sequences n (ShufflesTo l (fun _ => True)) := by
  rw [gives_count hl, gives_count hl (fun _ => True), ways_every hl, Nat.mul_right_comm, ← Nat.mul_assoc,
    ← c46_draws, ← c46_odds hl p]
  congr 2
  refine ways_congr fun d => ?_
  constructor
  · rintro ⟨m, hm, ev, e, h1, h2, h3⟩
    exact ⟨ev, m, e, h1, hm, h2, h3⟩
  · rintro ⟨ev, m, e, h1, hm, h2, h3⟩
    exact ⟨m, hm, ev, e, h1, h2, h3⟩

/-- C78: and they come to an end: of `n` words, fewer than 51 useful ones are as unlikely as fewer than 51 heads
in `n` throws of a coin. -/
theorem c78_enough {l : List Card} (hl : l.Perm Deck.generate) (n : Nat) :
    sequences n (TooFew l) ≤ (∑ j ∈ Finset.range 51, n.choose j) * 2 ^ (31 * n) := by
  rw [sequences_congr (toofew_iff hl)]
  exact spent_count n 51 (by norm_num)

/-- C78: the part of the sequences that is too short for the shuffle tends to nothing. -/
theorem c78_ends {l : List Card} (hl : l.Perm Deck.generate) :
    Filter.Tendsto (fun n => (sequences n (TooFew l) : ℝ) / 2 ^ (32 * n)) Filter.atTop (nhds 0) := by
  have hlim : Filter.Tendsto (fun n : ℕ => 102 * (((n + 1 : ℕ) : ℝ) ^ 50 / 2 ^ (n + 1))) Filter.atTop (nhds 0) := by
    have := (Filter.tendsto_add_atTop_iff_nat 1).2
      (tendsto_pow_const_div_const_pow_of_one_lt 50 (show (1 : ℝ) < 2 by norm_num))
    simpa using this.const_mul 102
  refine squeeze_zero (fun n => by positivity) (fun n => ?_) hlim
  have h1 := c78_enough hl n
  have h2 : (∑ j ∈ Finset.range 51, n.choose j) ≤ 51 * (n + 1) ^ 50 := by
    calc (∑ j ∈ Finset.range 51, n.choose j) ≤ ∑ j ∈ Finset.range 51, (n + 1) ^ 50 := by
          refine Finset.sum_le_sum fun j hj => ?_
          have hj := Finset.mem_range.1 hj
          calc n.choose j ≤ n ^ j := Nat.choose_le_pow n j
            _ ≤ (n + 1) ^ j := Nat.pow_le_pow_left (by omega) _
            _ ≤ (n + 1) ^ 50 := Nat.pow_le_pow_right (by omega) (by omega)
      _ = 51 * (n + 1) ^ 50 := by rw [Finset.sum_const, Finset.card_range, smul_eq_mul]
  have h3 : (sequences n (TooFew l) : ℝ) ≤ 51 * ((n + 1 : ℕ) : ℝ) ^ 50 * 2 ^ (31 * n) := by
    exact_mod_cast h1.trans (Nat.mul_le_mul_right _ h2)
  rw [div_le_iff₀ (by positivity)]
  refine h3.trans (le_of_eq ?_)
  have e : (2 : ℝ) ^ (32 * n) = 2 ^ n * 2 ^ (31 * n) := by
    rw [← pow_add]
    congr 1
    omega
  rw [e, pow_succ (2 : ℝ) n]
  have : (2 : ℝ) ^ n ≠ 0 := by positivity
  field_simp
  ring

/-- C78: fewer than 51 words are never enough. -/
theorem c78_fewest {l : List Card} (hl : l.Perm Deck.generate) {ws : Words} (h : ws.length < 51) : TooFew l ws := by
  have drop : ∀ {r : BitVec 32} {ws : Words} {i : BitVec 32} {rest : Words}, sample r ws = some (i, rest) →
      rest.length < ws.length := by
    intro r ws
    induction ws with
    | nil => intro i rest h; simp [sample] at h
    | cons v ws ih =>
      intro i rest h
      unfold sample at h
      simp only at h
      split at h
      · simp only [Option.some.injEq, Prod.mk.injEq] at h
        rw [← h.2, List.length_cons]
        omega
      · have := ih h
        rw [List.length_cons]
        omega
  have main : ∀ (k : Nat) (ws : Words), ws.length < k → Spent k ws := by
    intro k
    induction k with
    | zero => intro ws h; omega
    | succ k ih =>
      intro ws h
      cases hs : sample (BitVec.ofNat 32 (k + 2)) ws with
      | none => exact .inl hs
      | some x =>
        have := drop (i := x.1) (rest := x.2) hs
        exact .inr ⟨x.1, x.2, hs, ih _ (by omega)⟩
  exact (toofew_iff hl ws).2 (main 51 ws h)

/-- 51 words may be enough, even if they are all zero. -/
example : ShufflesTo Deck.generate (· = Deck.generate.rotate 1) (List.replicate 51 0) :=
  ⟨_, [], by decide +kernel, rfl⟩

/-- Not all words are accepted. -/
example : sample 3 [0xFFFFFFFF] = none ∧ sample 3 [0xFFFFFFFF, 0x80000000] = some (1, []) := by decide +kernel

example (n : Nat) : sequences n (ShufflesTo Deck.generate (· = Deck.generate)) * 52 ! =
    ways (Shuffled Deck.generate (· = Deck.generate)) * sequences n (ShufflesTo Deck.generate (fun _ => True)) :=
  c78_odds (.refl _) _ n

example : 52 ! * sequences 100 (ShufflesTo Deck.generate (· = Deck.generate.reverse)) +
    sequences 100 (TooFew Deck.generate) = 2 ^ (32 * 100) :=
  c78_orders (.refl _) (List.reverse_perm _) 100

example : sequences 7 (fun ws => ∃ rest, gen_index 3 ws = some (0, rest)) =
    sequences 7 (fun ws => ∃ rest, gen_index 3 ws = some (2, rest)) :=
  (c78_index (by decide) (by norm_num)).2 0 2 (by decide) (by decide) 7

end Poker

import Verif.Spec.Broke
import Mathlib.Algebra.Order.BigOperators.Group.List
import Mathlib.Algebra.BigOperators.Ring.List
import Mathlib.Algebra.Order.Field.Basic
import Mathlib.Data.Rat.Cast.Order
import Mathlib.Tactic.Ring
import Mathlib.Tactic.FieldSimp
import Mathlib.Tactic.Positivity
import Mathlib.Tactic.Linarith

/-! The chance to run out of coins, and bounds for it. -/

namespace Poker.Broke

/-- The number of cases of a table. -/
def total (t : List (Nat × Nat)) : Nat := (t.map Prod.snd).sum

/-- The average over a table. -/
def mean (t : List (Nat × Nat)) (f : Nat → ℚ) : ℚ :=
  (t.map (fun p => (p.2 : ℚ) / (total t : Nat) * f p.1)).sum

theorem ruin_zero (t : List (Nat × Nat)) (n : Nat) : ruin t n 0 = 1 := by cases n <;> rfl

theorem ruin_succ (t : List (Nat × Nat)) (n k : Nat) :
    ruin t (n + 1) (k + 1) = mean t (fun m => ruin t n (k + m)) := by
  rw [ruin]; rfl

theorem mean_le {t : List (Nat × Nat)} {f g : Nat → ℚ} (h : ∀ m, f m ≤ g m) : mean t f ≤ mean t g := by
  refine List.sum_le_sum (fun p _ => ?_)
  exact mul_le_mul_of_nonneg_left (h _) (by positivity)

theorem mean_mul (t : List (Nat × Nat)) (f : Nat → ℚ) (c : ℚ) :
    mean t (fun m => c * f m) = c * mean t f := by
  rw [mean, mean, ← List.sum_map_mul_left]
  exact congrArg List.sum (List.map_congr_left (fun p _ => by ring))

theorem mean_sub (t : List (Nat × Nat)) (f g : Nat → ℚ) :
    mean t (fun m => f m - g m) = mean t f - mean t g := by
  simp only [mean]
  generalize total t = T
  induction t with
  | nil => simp
  | cons p t ih =>
    simp only [List.map_cons, List.sum_cons, ih]
    ring

/-- If a coin is worth `x` or less, losing all of `k` coins is no more likely than `x ^ k`. -/
theorem ruin_le {t : List (Nat × Nat)} {x : ℚ} (hx : 0 ≤ x) (h : mean t (x ^ ·) ≤ x) (n : Nat) :
    ∀ k, ruin t n k ≤ x ^ k := by
  induction n with
  | zero =>
    intro k
    cases k with
    | zero => rw [ruin_zero, pow_zero]
    | succ k => rw [ruin]; positivity
  | succ n ih =>
    intro k
    cases k with
    | zero => rw [ruin_zero, pow_zero]
    | succ k =>
      rw [ruin_succ]
      calc mean t (fun m => ruin t n (k + m)) ≤ mean t (fun m => x ^ k * x ^ m) :=
            mean_le (fun m => (ih _).trans (pow_add x k m).le)
        _ = x ^ k * mean t (x ^ ·) := mean_mul _ _ _
        _ ≤ x ^ k * x := mul_le_mul_of_nonneg_left h (by positivity)
        _ = x ^ (k + 1) := (pow_succ x k).symm

/-- And no less likely than `x ^ k` but for what is left of the time, if it is worth `x` or more. -/
theorem le_ruin {t : List (Nat × Nat)} {x y r : ℚ} (hx : 0 ≤ x) (hxy : x ≤ y) (hr : 0 ≤ r)
    (h1 : x ≤ mean t (x ^ ·)) (h2 : mean t (y ^ ·) ≤ r * y) (n : Nat) :
    ∀ k, x ^ k - y ^ k * r ^ n ≤ ruin t n k := by
  have hy : 0 ≤ y := hx.trans hxy
  induction n with
  | zero =>
    intro k
    cases k with
    | zero => rw [ruin_zero]; norm_num
    | succ k =>
      rw [ruin, pow_zero, mul_one, sub_nonpos]
      exact pow_le_pow_left₀ hx hxy _
  | succ n ih =>
    intro k
    cases k with
    | zero =>
      rw [ruin_zero, pow_zero, pow_zero, one_mul, sub_le_self_iff]
      positivity
    | succ k =>
      rw [ruin_succ]
      calc x ^ (k + 1) - y ^ (k + 1) * r ^ (n + 1)
          = x ^ k * x - (y ^ k * r ^ n) * (r * y) := by ring
        _ ≤ x ^ k * mean t (x ^ ·) - (y ^ k * r ^ n) * mean t (y ^ ·) :=
            sub_le_sub (mul_le_mul_of_nonneg_left h1 (by positivity))
              (mul_le_mul_of_nonneg_left h2 (by positivity))
        _ = mean t (fun m => x ^ k * x ^ m - (y ^ k * r ^ n) * y ^ m) := by
            rw [mean_sub, mean_mul, mean_mul]
        _ ≤ mean t (fun m => ruin t n (k + m)) := mean_le (fun m => by
            refine le_trans (le_of_eq ?_) (ih (k + m))
            ring)

theorem mean_one {t : List (Nat × Nat)} (h : 0 < total t) : mean t ((1 : ℚ) ^ ·) = 1 := by
  have key : ∀ (T : Nat) (l : List (Nat × Nat)),
      (l.map (fun p => (p.2 : ℚ) / (T : Nat) * 1 ^ p.1)).sum = (total l : ℚ) / T := by
    intro T l
    induction l with
    | nil => simp [total]
    | cons p l ih =>
      rw [List.map_cons, List.sum_cons, ih]
      simp only [total, List.map_cons, List.sum_cons, one_pow, Nat.cast_add]
      ring
  rw [mean, key, div_self]
  exact_mod_cast h.ne'

/-- The average of the powers of `a / b`, as a whole number. -/
def powers (t : List (Nat × Nat)) (a b B : Nat) : Nat :=
  (t.map (fun p => p.2 * (a ^ p.1 * b ^ (B - p.1)))).sum

theorem mean_powers {t : List (Nat × Nat)} {a b B : Nat} (hb : 0 < b) (hB : ∀ p ∈ t, p.1 ≤ B) :
    mean t (((a : ℚ) / b) ^ ·) = (powers t a b B : ℚ) / ((total t : ℚ) * (b : ℚ) ^ B) := by
  have hb' : (b : ℚ) ≠ 0 := by exact_mod_cast hb.ne'
  rw [mean, powers]
  generalize total t = T
  induction t with
  | nil => simp
  | cons p t ih =>
    rw [List.map_cons, List.sum_cons, List.map_cons, List.sum_cons,
      ih (fun q hq => hB q (List.mem_cons_of_mem _ hq)), Nat.cast_add, add_div]
    congr 1
    have hp := hB p (List.mem_cons_self ..)
    have : (b : ℚ) ^ B = (b : ℚ) ^ p.1 * (b : ℚ) ^ (B - p.1) := by
      rw [← pow_add, Nat.add_sub_cancel' hp]
    rw [this, div_pow]
    push_cast
    rcases eq_or_ne (T : ℚ) 0 with h | h
    · rw [h]; simp
    · field_simp

theorem mean_le_of {t : List (Nat × Nat)} {a b B : Nat} (r s : Nat) (hb : 0 < b) (hs : 0 < s)
    (hB : ∀ p ∈ t, p.1 ≤ B) (ht : 0 < total t)
    (h : powers t a b B * (s * b) ≤ r * a * (total t * b ^ B)) :
    mean t (((a : ℚ) / b) ^ ·) ≤ (r : ℚ) / s * ((a : ℚ) / b) := by
  have hb' : (0 : ℚ) < b := by exact_mod_cast hb
  have hs' : (0 : ℚ) < s := by exact_mod_cast hs
  have ht' : (0 : ℚ) < total t := by exact_mod_cast ht
  rw [mean_powers hb hB, div_mul_div_comm, div_le_div_iff₀ (by positivity) (by positivity)]
  exact_mod_cast h

theorem le_mean_of {t : List (Nat × Nat)} {a b B : Nat} (hb : 0 < b)
    (hB : ∀ p ∈ t, p.1 ≤ B) (ht : 0 < total t)
    (h : a * (total t * b ^ B) ≤ powers t a b B * b) :
    (a : ℚ) / b ≤ mean t (((a : ℚ) / b) ^ ·) := by
  have hb' : (0 : ℚ) < b := by exact_mod_cast hb
  have ht' : (0 : ℚ) < total t := by exact_mod_cast ht
  rw [mean_powers hb hB, div_le_div_iff₀ (by positivity) (by positivity)]
  exact_mod_cast h

theorem room {a A x X y Y r R : Nat} (hA : 0 < A) (hX : 0 < X) (hY : 0 < Y) (hR : 0 < R)
    (h : a * (X * (Y * R)) + y * r * (A * X) ≤ x * (A * (Y * R))) :
    (a : ℚ) / A ≤ (x : ℚ) / X - (y : ℚ) / Y * ((r : ℚ) / R) := by
  have hA' : (0 : ℚ) < A := by exact_mod_cast hA
  have hX' : (0 : ℚ) < X := by exact_mod_cast hX
  have hY' : (0 : ℚ) < Y := by exact_mod_cast hY
  have hR' : (0 : ℚ) < R := by exact_mod_cast hR
  have h' : (a : ℚ) * (X * (Y * R)) + y * r * (A * X) ≤ x * (A * (Y * R)) := by exact_mod_cast h
  rw [le_sub_iff_add_le, div_mul_div_comm, div_add_div _ _ (by positivity) (by positivity),
    div_le_div_iff₀ (by positivity) (by positivity)]
  linarith

theorem room_pow {a A x X y Y r R k n : Nat} (hA : 0 < A) (hX : 0 < X) (hY : 0 < Y) (hR : 0 < R)
    (h : a * (X ^ k * (Y ^ k * R ^ n)) + y ^ k * r ^ n * (A * X ^ k) ≤ x ^ k * (A * (Y ^ k * R ^ n))) :
    (a : ℚ) / A ≤ ((x : ℚ) / X) ^ k - ((y : ℚ) / Y) ^ k * ((r : ℚ) / R) ^ n := by
  have := room hA (Nat.pow_pos hX) (Nat.pow_pos hY) (Nat.pow_pos hR) h
  rw [Nat.cast_pow, Nat.cast_pow, Nat.cast_pow, Nat.cast_pow, Nat.cast_pow, Nat.cast_pow] at this
  rwa [div_pow, div_pow, div_pow]

/-- The wagers that 100 credits are a multiple of. -/
theorem wagers {w : Nat} (h : w ∣ 100) (h5 : w ≤ 5) : w = 1 ∨ w = 2 ∨ w = 4 ∨ w = 5 := by
  have : w ≠ 0 := by rintro rfl; revert h; decide
  have : w ≠ 3 := by rintro rfl; revert h; decide
  omega

theorem rule_ok : ([1, 2, 4, 5].all fun w =>
    (ruleTable w).all (fun p => decide (p.1 ≤ 801)) && decide (0 < total (ruleTable w)) &&
    decide (powers (ruleTable w) 9065 10000 801 * (1 * 10000)
      ≤ 1 * 9065 * (total (ruleTable w) * 10000 ^ 801)) &&
    decide (90642 * (total (ruleTable w) * 100000 ^ 801)
      ≤ powers (ruleTable w) 90642 100000 801 * 100000) &&
    decide (powers (ruleTable w) 95 100 801 * (10000 * 100)
      ≤ 9972 * 95 * (total (ruleTable w) * 100 ^ 801)) &&
    decide (9064 ^ (100 / w) * (100000 ^ (100 / w) * (100 ^ (100 / w) * 10000 ^ 5000))
      + 95 ^ (100 / w) * 9972 ^ 5000 * (10000 ^ (100 / w) * 100000 ^ (100 / w))
      ≤ 90642 ^ (100 / w) * (10000 ^ (100 / w) * (100 ^ (100 / w) * 10000 ^ 5000)))) = true := by
  decide +kernel

theorem stand_ok : ([1, 2, 4, 5].all fun w =>
    (standTable w).all (fun p => decide (p.1 ≤ 801)) && decide (0 < total (standTable w)) &&
    decide (powers (standTable w) 1005 1000 801 * (10000 * 1000)
      ≤ 9979 * 1005 * (total (standTable w) * 1000 ^ 801)) &&
    decide (9999 * (1 ^ (100 / w) * (1000 ^ (100 / w) * 10000 ^ 5000))
      + 1005 ^ (100 / w) * 9979 ^ 5000 * (10000 * 1 ^ (100 / w))
      ≤ 1 ^ (100 / w) * (10000 * (1000 ^ (100 / w) * 10000 ^ 5000)))) = true := by
  decide +kernel

theorem of_all {p : Nat → Bool} (h : [1, 2, 4, 5].all p = true) {w : Nat} (hw : w ∣ 100) (h5 : w ≤ 5) :
    p w = true := by
  refine List.all_eq_true.1 h w ?_
  rcases wagers hw h5 with rfl | rfl | rfl | rfl <;> decide

theorem table_bound {t : List (Nat × Nat)} {B : Nat} (h : t.all (fun p => decide (p.1 ≤ B)) = true) :
    ∀ p ∈ t, p.1 ≤ B := fun p hp => of_decide_eq_true (List.all_eq_true.1 h p hp)

theorem most_of {t : List (Nat × Nat)} {a b B : Nat} (hb : 0 < b) (hB : ∀ p ∈ t, p.1 ≤ B)
    (ht : 0 < total t) (h : powers t a b B * (1 * b) ≤ 1 * a * (total t * b ^ B)) (n k : Nat) :
    ruin t n k ≤ ((a : ℚ) / b) ^ k := by
  have h1 := mean_le_of 1 1 hb Nat.one_pos hB ht h
  rw [Nat.cast_one, div_one, one_mul] at h1
  exact ruin_le (by positivity) h1 n k

theorem least_of {t : List (Nat × Nat)} {a A x X y Y r R B n k : Nat} (hA : 0 < A) (hX : 0 < X)
    (hY : 0 < Y) (hR : 0 < R) (hB : ∀ p ∈ t, p.1 ≤ B) (ht : 0 < total t) (hxy : x * Y ≤ y * X)
    (h1 : x * (total t * X ^ B) ≤ powers t x X B * X)
    (h2 : powers t y Y B * (R * Y) ≤ r * y * (total t * Y ^ B))
    (h3 : a * (X ^ k * (Y ^ k * R ^ n)) + y ^ k * r ^ n * (A * X ^ k) ≤ x ^ k * (A * (Y ^ k * R ^ n))) :
    (a : ℚ) / A ≤ ruin t n k := by
  have hX' : (0 : ℚ) < X := by exact_mod_cast hX
  have hY' : (0 : ℚ) < Y := by exact_mod_cast hY
  refine (room_pow hA hX hY hR h3).trans (le_ruin (by positivity) ?_ (by positivity)
    (le_mean_of hX hB ht h1) (mean_le_of r R hY hR hB ht h2) n k)
  rw [div_le_div_iff₀ hX' hY']
  exact_mod_cast hxy

/-- The chance to lose everything, for whoever plays by the rule: at most this in any time. -/
theorem rule_most {w : Nat} (hw : w ∣ 100) (h5 : w ≤ 5) (n : Nat) :
    ruin (ruleTable w) n (100 / w) ≤ (((9065 : Nat) : ℚ) / (10000 : Nat)) ^ (100 / w) := by
  have h := of_all rule_ok hw h5
  simp only [Bool.and_eq_true, decide_eq_true_eq] at h
  obtain ⟨⟨⟨⟨⟨h1, h2⟩, h3⟩, -⟩, -⟩, -⟩ := h
  exact most_of (by decide) (table_bound h1) h2 h3 n _

/-- And hardly less in 5000 rounds. -/
theorem rule_least {w : Nat} (hw : w ∣ 100) (h5 : w ≤ 5) :
    (((9064 ^ (100 / w) : Nat) : ℚ) / ((10000 ^ (100 / w) : Nat) : ℚ)) ≤ ruin (ruleTable w) 5000 (100 / w) := by
  have h := of_all rule_ok hw h5
  simp only [Bool.and_eq_true, decide_eq_true_eq] at h
  obtain ⟨⟨⟨⟨⟨h1, h2⟩, -⟩, h4⟩, h6⟩, h7⟩ := h
  exact least_of (Nat.pow_pos (by decide)) (by decide) (by decide) (by decide) (table_bound h1) h2 (by decide) h4 h6 h7

/-- Whoever never changes a card. -/
theorem stand_least {w : Nat} (hw : w ∣ 100) (h5 : w ≤ 5) :
    ((9999 : Nat) : ℚ) / (10000 : Nat) ≤ ruin (standTable w) 5000 (100 / w) := by
  have h := of_all stand_ok hw h5
  simp only [Bool.and_eq_true, decide_eq_true_eq] at h
  obtain ⟨⟨⟨h1, h2⟩, h6⟩, h7⟩ := h
  refine least_of (x := 1) (X := 1) (by decide) (by decide) (by decide) (by decide) (table_bound h1) h2
    (by decide) ?_ h6 h7
  have := mean_one h2
  have h8 := mean_powers (a := 1) (b := 1) (by decide) (table_bound h1)
  rw [Nat.cast_one, div_one, this, one_pow, mul_one, eq_comm, div_eq_one_iff_eq (by exact_mod_cast h2.ne')] at h8
  have h9 : powers (standTable w) 1 1 801 = total (standTable w) := by exact_mod_cast h8
  rw [h9, one_pow, Nat.one_mul]

end Poker.Broke

import Verif.Props.Courses

/-! # C78: the chance of a course of shuffles -/

namespace Poker.Rand
open Poker Filter Topology Nat

/-- A sequence that keeps a part `ρ` of itself and gets more and more precisely `y` in addition. -/
theorem tendsto_mix {ρ y : ℝ} (h0 : 0 ≤ ρ) (h1 : ρ < 1) {x u : ℕ → ℝ} (hu : Tendsto u atTop (𝓝 y))
    (hx : ∀ n, x (n + 1) = u n + ρ * x n) : Tendsto x atTop (𝓝 (y / (1 - ρ))) := by
  have hρ : 0 < 1 - ρ := by linarith
  generalize hz : y / (1 - ρ) = z
  have hy : y = z - ρ * z := by
    rw [← hz]
    field_simp
  rw [Metric.tendsto_atTop]
  intro ε hε
  obtain ⟨N, hN⟩ := Metric.tendsto_atTop.1 hu (ε / 2 * (1 - ρ)) (by positivity)
  have step : ∀ k, |x (N + k) - z| ≤ ρ ^ k * |x N - z| + ε / 2 := by
    intro k
    induction k with
    | zero => simp; positivity
    | succ k ih =>
      have hd := hN (N + k) (by omega)
      rw [Real.dist_eq] at hd
      have e : x (N + (k + 1)) - z = (u (N + k) - y) + ρ * (x (N + k) - z) := by
        rw [← Nat.add_assoc, hx, hy]
        ring
      rw [e]
      calc |(u (N + k) - y) + ρ * (x (N + k) - z)| ≤ |u (N + k) - y| + |ρ * (x (N + k) - z)| := abs_add_le _ _
        _ = |u (N + k) - y| + ρ * |x (N + k) - z| := by rw [abs_mul, abs_of_nonneg h0]
        _ ≤ ε / 2 * (1 - ρ) + ρ * (ρ ^ k * |x N - z| + ε / 2) :=
          add_le_add hd.le (mul_le_mul_of_nonneg_left ih h0)
        _ = ρ ^ (k + 1) * |x N - z| + ε / 2 := by ring
  have hpow : Tendsto (fun k => ρ ^ k * |x N - z|) atTop (𝓝 0) := by
    simpa using (tendsto_pow_atTop_nhds_zero_of_lt_one h0 h1).mul_const |x N - z|
  obtain ⟨K, hK⟩ := Metric.tendsto_atTop.1 hpow (ε / 2) (by positivity)
  refine ⟨N + K, fun n hn => ?_⟩
  obtain ⟨k, rfl⟩ : ∃ k, n = N + k := ⟨n - N, by omega⟩
  have h2 := hK k (by omega)
  rw [Real.dist_eq, sub_zero, abs_of_nonneg (by positivity)] at h2
  rw [Real.dist_eq]
  linarith [step k]

/-- The part of the sequences of `n` words with the property. -/
noncomputable def part (q : Words → Prop) (n : Nat) : ℝ := sequences n q / 2 ^ (32 * n)

theorem part_giving {r : BitVec 32} (hr : r ≠ 0) {h : Nat} (hh : h < r.toNat) {q : Words → Prop} {p : ℝ}
    (hq : Tendsto (part q) atTop (𝓝 p)) :
    Tendsto (fun n => (giving n r h q : ℝ) / 2 ^ (32 * n)) atTop (𝓝 (p / r.toNat)) := by
  have hs := split (Taken r)
  rw [accepted hr] at hs
  have hb := scaled_bounds hr
  have hs' : (scaled r : ℝ) + ({v | ¬ Taken r v}.ncard : ℝ) = 2 ^ 32 := by exact_mod_cast hs
  have hpos : (0 : ℝ) < scaled r := by
    have : 0 < scaled r := by omega
    exact_mod_cast this
  have h0 : (0 : ℝ) < r.toNat := by
    have : 0 < r.toNat := by omega
    exact_mod_cast this
  have hsc : (scaled r : ℝ) = r.toNat * 2 ^ leading_zeros r := by
    unfold scaled
    push_cast
    rfl
  have main := tendsto_mix (ρ := ({v | ¬ Taken r v}.ncard : ℝ) / 2 ^ 32)
    (y := (2 ^ leading_zeros r : ℝ) / 2 ^ 32 * p)
    (x := fun n => (giving n r h q : ℝ) / 2 ^ (32 * n))
    (u := fun n => (2 ^ leading_zeros r : ℝ) / 2 ^ 32 * part q n) (by positivity)
    (by rw [div_lt_one (by positivity)]; linarith) (hq.const_mul _) (by
      intro n
      simp only [part]
      rw [giving_succ hr hh, show 32 * (n + 1) = 32 + 32 * n by omega, pow_add]
      push_cast
      field_simp)
  have e : (2 ^ leading_zeros r : ℝ) / 2 ^ 32 * p / (1 - ({v | ¬ Taken r v}.ncard : ℝ) / 2 ^ 32) = p / r.toNat := by
    have e1 : 1 - ({v | ¬ Taken r v}.ncard : ℝ) / 2 ^ 32 = r.toNat * 2 ^ leading_zeros r / 2 ^ 32 := by
      rw [← hsc]
      field_simp
      linarith
    rw [e1]
    have : (2 ^ leading_zeros r : ℝ) ≠ 0 := by positivity
    field_simp
  rw [e] at main
  exact main

theorem part_followsTo (k : Nat) (hk : k < 2 ^ 31) {draw : Nat → Nat} (hd : InRange draw k) {q : Words → Prop}
    {p : ℝ} (hq : Tendsto (part q) atTop (𝓝 p)) :
    Tendsto (part (FollowsTo draw q k)) atTop (𝓝 (p / (k + 1)!)) := by
  induction k with
  | zero =>
    have : FollowsTo draw q 0 = q := rfl
    simpa [this] using hq
  | succ k ih =>
    have e := range_toNat hk
    have b := hd (k + 1) (by omega) (by omega)
    have := part_giving (range_pos hk) (h := draw (k + 1)) (by rw [e]; omega)
      (ih (by omega) (fun i h1 h2 => hd i h1 (by omega)))
    rw [e, div_div, ← Nat.cast_mul, Nat.mul_comm, ← Nat.factorial_succ] at this
    exact this

theorem part_true : Tendsto (part (fun _ => True)) atTop (𝓝 1) := by
  have : part (fun _ => True) = fun _ => 1 := by
    funext n
    rw [part, sequences_all]
    push_cast
    exact div_self (by positivity)
  rw [this]
  exact tendsto_const_nhds

theorem part_course {α : Type} {next : List (List α) → List α}
    (hnext : ∀ b, Course next b → (next b).Nodup ∧ 0 < (next b).length ∧ (next b).length ≤ 2 ^ 31) :
    ∀ (k : Nat) (b r : List (List α)), r.length = k → Course next (b ++ r) →
    Tendsto (part (fun ws => ∃ rest, shuffles next k b ws = .ok (some (b ++ r, rest)))) atTop
      (𝓝 (∏ i ∈ Finset.range k, 1 / ((next (b ++ r.take i)).length ! : ℝ)))
  | 0, b, r, hr, _ => by
    rw [List.length_eq_zero_iff] at hr
    subst hr
    have : (fun ws => ∃ rest, shuffles next 0 b ws = .ok (some (b ++ [], rest))) = fun _ => True := by
      funext ws
      simp [shuffles]
    rw [this, Finset.prod_range_zero]
    exact part_true
  | k + 1, b, m :: r, hr, hc => by
    obtain ⟨draw, hd, h⟩ := course_step hnext k hc
    obtain ⟨_, hp, hl⟩ := hnext b (course_left hc)
    have ih := part_course hnext k (b ++ [m]) r (by simpa using hr) (by simpa using hc)
    have := part_followsTo _ (by omega) hd ih
    rw [Nat.sub_add_cancel hp] at this
    rw [show (fun ws => ∃ rest, shuffles next (k + 1) b ws = .ok (some (b ++ m :: r, rest))) = _ from
      funext fun ws => propext (h ws), Finset.prod_range_succ']
    simpa [div_eq_mul_inv] using this

end Poker.Rand

namespace Poker
open Rand Filter Topology Nat

/-- C78: the chance of a course of shuffles is one by the number of orders each time. -/
theorem c78_chance {α : Type} {next : List (List α) → List α}
    (hnext : ∀ b, Course next b → (next b).Nodup ∧ 0 < (next b).length ∧ (next b).length ≤ 2 ^ 31)
    {h : List (List α)} (hc : Course next h) :
    Tendsto (fun n => (sequences n (fun ws => ∃ rest, shuffles next h.length [] ws = .ok (some (h, rest))) : ℝ) /
      2 ^ (32 * n)) atTop (𝓝 (∏ i ∈ Finset.range h.length, 1 / ((next (h.take i)).length ! : ℝ))) :=
  part_course hnext h.length [] h rfl hc

/-- C78: the chance of something that is true of some part of all orders. -/
theorem c78_limit {l : List Card} (hl : l.Perm Deck.generate) (q : List Card → Prop) :
    Tendsto (fun n => (sequences n (ShufflesTo l q) : ℝ) / 2 ^ (32 * n)) atTop
      (𝓝 (ways (Shuffled l q) / (52 ! : ℝ))) := by
  have h := (tendsto_const_nhds (x := (ways (Shuffled l q) / (52 ! : ℝ)))).mul
    ((tendsto_const_nhds (x := (1 : ℝ))).sub (c78_ends hl))
  rw [sub_zero, mul_one] at h
  refine h.congr fun n => ?_
  have h1 := c78_orders hl hl n
  rw [gives_count hl, ways_one hl hl, Nat.one_mul] at h1
  have h2 : (52 ! : ℝ) * each n + sequences n (TooFew l) = 2 ^ (32 * n) := by exact_mod_cast h1
  have h3 : (52 ! : ℝ) ≠ 0 := by exact_mod_cast Nat.factorial_ne_zero 52
  have h4 : (2 : ℝ) ^ (32 * n) ≠ 0 := by positivity
  rw [gives_count hl]
  push_cast
  generalize (52 ! : ℝ) = F at *
  generalize (2 : ℝ) ^ (32 * n) = W at *
  field_simp
  rw [← h2]
  ring

/-- C78: for instance, the chance of each order of the deck. -/
theorem c78_each {l m : List Card} (hl : l.Perm Deck.generate) (hm : m.Perm Deck.generate) :
    Tendsto (fun n => (sequences n (ShufflesTo l (· = m)) : ℝ) / 2 ^ (32 * n)) atTop (𝓝 (1 / (52 ! : ℝ))) := by
  have := c78_limit hl (· = m)
  rwa [ways_one hl hm, Nat.cast_one] at this

/-- First the deck is shuffled, then what remains after five cards were dealt. -/
def undealt (b : List (List Card)) : List Card :=
  match b with
  | [] => Deck.generate
  | m :: _ => m.drop 5

example : Tendsto (fun n => (sequences n (fun ws => ∃ r, shuffles undealt 2 [] ws =
      .ok (some ([Deck.generate, (Deck.generate.drop 5).reverse], r))) : ℝ) / 2 ^ (32 * n)) atTop
    (𝓝 (1 / (52 ! : ℝ) * (1 / (47 ! : ℝ)))) := by
  have hnext : ∀ b, Course undealt b → (undealt b).Nodup ∧ 0 < (undealt b).length ∧ (undealt b).length ≤ 2 ^ 31 := by
    intro b hb
    cases b with
    | nil => exact ⟨c21_deck.2.1, by decide, by decide +kernel⟩
    | cons m b =>
      have hm : m.Perm Deck.generate := course_at (b := []) hb
      have hn := (hm.nodup_iff.2 c21_deck.2.1).sublist (List.drop_sublist 5 m)
      have hl : (m.drop 5).length = 47 := by rw [List.length_drop, hm.length_eq, c21_deck.1]
      exact ⟨hn, by rw [undealt, hl]; norm_num, by rw [undealt, hl]; norm_num⟩
  have hc : Course undealt [Deck.generate, (Deck.generate.drop 5).reverse] := by
    intro i m hm
    match i with
    | 0 => exact Option.some.inj hm ▸ .refl _
    | 1 => exact Option.some.inj hm ▸ List.reverse_perm _
  have h := c78_chance hnext hc
  have l1 : Deck.generate.length = 52 := c21_deck.1
  have l2 : (Deck.generate.drop 5).length = 47 := by rw [List.length_drop, l1]
  simp only [List.length_cons, List.length_nil, Finset.prod_range_succ, Finset.prod_range_zero, one_mul,
    List.take_zero, List.take_succ_cons, undealt, l1, l2] at h
  exact h

end Poker

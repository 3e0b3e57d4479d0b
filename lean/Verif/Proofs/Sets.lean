import Verif.Props.Counts
import Verif.Proofs.SevenSum
import Mathlib.Algebra.BigOperators.Group.Finset.Basic
import Mathlib.Data.Fintype.Defs

/-! Sums over sets of cards of what depends on the kind of the hand. -/

namespace Poker.Sets
open Rules Tab Counts

/-- The kind of the hand that the cards of `x` are. -/
noncomputable def setKind (x : Finset PCard) : Nat := kind (strength x.toList)

theorem toFinset_perm {l : List PCard} (hn : l.Nodup) : l.toFinset.toList.Perm l :=
  (List.perm_ext_iff_of_nodup (Finset.nodup_toList _) hn).2 (by simp)

theorem setKind_list {l : List PCard} (hn : l.Nodup) : setKind l.toFinset = kind (strength l) := by
  rw [setKind, strength_perm (toFinset_perm hn)]

theorem sum_sets {D : List PCard} (hn : D.Nodup) (n : Nat) (F : Finset PCard → Nat) :
    ∑ x ∈ D.toFinset.powersetCard n, F x = ((List.sublistsLen n D).map (fun l => F l.toFinset)).sum := by
  have h1 : ∑ x ∈ D.toFinset.powersetCard n, F x
      = (((D.toFinset.powersetCard n).val.map Finset.val).map (fun m => F m.toFinset)).sum := by
    rw [Multiset.map_map, Finset.sum]
    refine congrArg Multiset.sum (Multiset.map_congr rfl (fun x _ => ?_))
    rw [Function.comp_apply, Finset.val_toFinset]
  rw [h1, Finset.map_val_val_powersetCard, List.toFinset_val, hn.dedup, Multiset.powersetCard_coe,
    Multiset.map_coe, List.map_map, Multiset.sum_coe]
  rfl

theorem sum_counts (l : List Nat) (N : Nat) (hl : ∀ k ∈ l, k < N) (φ : Nat → Nat) :
    (l.map φ).sum = ((List.range N).map (fun k => l.count k * φ k)).sum := by
  induction l with
  | nil => simp
  | cons a l ih =>
    rw [List.map_cons, List.sum_cons, ih (fun k hk => hl k (by simp [hk]))]
    have ha := hl a (by simp)
    have : ∀ M, ((List.range M).map (fun k => (a :: l).count k * φ k)).sum
        = (if a < M then φ a else 0) + ((List.range M).map (fun k => l.count k * φ k)).sum := by
      intro M
      induction M with
      | zero => simp
      | succ M ih =>
        rw [List.range_succ, List.map_append, List.map_append, List.sum_append, List.sum_append, ih]
        simp only [List.map_cons, List.map_nil, List.sum_cons, List.sum_nil, Nat.add_zero,
          List.count_cons]
        by_cases h : a = M
        · subst h
          simp
          ring
        · have : (a == M) = false := by simpa using h
          rw [this]
          have : a < M + 1 ↔ a < M := by omega
          simp only [this, Bool.false_eq_true, if_false, Nat.add_zero]
          ring
    rw [this N, if_pos ha]

/-- C45's numbers, as sums. -/
theorem five_sum (φ : Nat → Nat) :
    ∑ x ∈ fiveCardHands, φ (setKind x) = ((List.range 11).map (fun k => tally k * φ k)).sum := by
  have hp : fiveCardHands = cards.toFinset.powersetCard 5 := by
    have : pack = cards.toFinset := by
      ext c
      rw [List.mem_toFinset]
      have h := pack_complete c
      rw [pack_eq] at h
      exact ⟨fun _ => h, fun _ => pack_complete c⟩
    rw [fiveCardHands, this]
  rw [hp, sum_sets cards_nodup]
  have : (List.sublistsLen 5 cards).map (fun l => φ (setKind l.toFinset))
      = ((List.sublistsLen 5 cards).map (fun l => kind (strength l))).map φ := by
    rw [List.map_map]
    refine List.map_congr_left (fun l hl => ?_)
    rw [Function.comp_apply, setKind_list ((List.mem_sublistsLen.1 hl).1.nodup cards_nodup)]
  rw [this, sum_counts _ 11]
  · refine congrArg List.sum (List.map_congr_left (fun k hk => ?_))
    rw [count_tally k (Nat.lt_succ_iff.1 (List.mem_range.1 hk))]
  · intro k hk
    obtain ⟨h, -, rfl⟩ := List.mem_map.1 hk
    exact Nat.lt_succ_of_le (kind_le h)

instance : Fintype Suit := ⟨{.Clubs, .Diamonds, .Hearts, .Spades}, fun s => by cases s <;> decide⟩

theorem four_suits : ∀ a b c d : Suit, a ≠ b → c ≠ d → a ≠ c → a ≠ d → b ≠ c → b ≠ d →
    ∀ s, s = a ∨ s = b ∨ s = c ∨ s = d := by decide

theorem two_suits : ∀ a b : Suit, a ≠ b →
    ∃ c d : Suit, a ≠ b ∧ c ≠ d ∧ a ≠ c ∧ a ≠ d ∧ b ≠ c ∧ b ≠ d := by decide

/-- The ranks but one. -/
def others (r : Rank) : List Rank :=
  [Rank.Ace, .King, .Queen, .Jack, .Ten, .Nine, .Eight, .Seven, .Six, .Five, .Four, .Three,
    .Two].filter (fun x => decide (x ≠ r))

/-- The pack without two cards of a rank: the other two cards of the rank, and the other ranks. -/
def rest (r : Rank) (c d : Suit) : List PCard := (r, c) :: (r, d) :: (others r).flatMap block

theorem rest_spec (r : Rank) (a b : Suit) (hab : a ≠ b) : ∃ c d, (rest r c d).Nodup ∧
    (rest r c d).length = 50 ∧
    (∀ x ∈ rest r c d, x ≠ (r, a) ∧ x ≠ (r, b)) ∧
    (rest r c d).toFinset = pack \ {(r, a), (r, b)} := by
  have key : ∀ c d : Suit, a ≠ b ∧ c ≠ d ∧ a ≠ c ∧ a ≠ d ∧ b ≠ c ∧ b ≠ d →
      (rest r c d).Nodup ∧ (rest r c d).length = 50 ∧
      (∀ x ∈ rest r c d, x ≠ (r, a) ∧ x ≠ (r, b)) ∧
      (rest r c d).toFinset = pack \ {(r, a), (r, b)} := by
    rintro c d ⟨-, h2, h3, h4, h5, h6⟩
    have ho : ∀ x : Rank, x ∈ others r ↔ x ≠ r := by
      intro x
      rw [others, List.mem_filter, decide_eq_true_eq]
      constructor
      · exact fun h => h.2
      · exact fun h => ⟨by cases x <;> decide, h⟩
    have hm : ∀ x : PCard, x ∈ (others r).flatMap block ↔ x.1 ≠ r := by
      rintro ⟨x, s⟩
      rw [List.mem_flatMap]
      constructor
      · rintro ⟨y, hy, hb⟩
        have : x = y := by
          simp only [block, List.mem_cons, Prod.mk.injEq, List.not_mem_nil, or_false] at hb
          tauto
        subst this
        exact (ho x).1 hy
      · intro h
        exact ⟨x, (ho x).2 h, by cases s <;> simp [block]⟩
    have hfour : ∀ s : Suit, s = a ∨ s = b ∨ s = c ∨ s = d :=
      four_suits a b c d hab h2 h3 h4 h5 h6
    refine ⟨?_, ?_, ?_, ?_⟩
    · rw [rest, List.nodup_cons, List.nodup_cons, List.mem_cons, hm, hm]
      refine ⟨by simpa using h2, by simp, ?_⟩
      cases r <;> decide
    · cases r <;> rfl
    · intro x hx
      rw [rest, List.mem_cons, List.mem_cons, hm] at hx
      rcases hx with rfl | rfl | hx
      · exact ⟨by simpa using h3.symm, by simpa using h5.symm⟩
      · exact ⟨by simpa using h4.symm, by simpa using h6.symm⟩
      · constructor <;> rintro rfl <;> exact hx rfl
    · ext ⟨x, s⟩
      rw [List.mem_toFinset, Finset.mem_sdiff, rest, List.mem_cons, List.mem_cons, hm]
      simp only [pack_complete, true_and, Finset.mem_insert, Finset.mem_singleton, Prod.mk.injEq]
      by_cases hx : x = r
      · subst hx
        simp only [true_and, ne_eq, not_true_eq_false, or_false]
        rcases hfour s with rfl | rfl | rfl | rfl
        · simp [h3, h4]
        · simp [h5, h6]
        · simp [h3.symm, h5.symm]
        · simp [h4.symm, h6.symm]
      · simp [hx]
  obtain ⟨c, d, h⟩ := two_suits a b hab
  exact ⟨c, d, key c d h⟩

/-- How many of the ways to complete a pair with three cards make which kind of hand. -/
def completions (r : Rank) : List Nat :=
  if 11 ≤ pips r then [0, 0, 3168, 2112, 0, 0, 192, 48, 0, 0, 14080]
  else [0, 14080, 3168, 2112, 0, 0, 192, 48, 0, 0, 0]

/-- Whether the counts for a rank are right. -/
noncomputable def pairOk (r : Rank) : Bool :=
  let v := pips r
  let R := (others r).map pips
  Nat.beq (dpM R 3 [v, v] + 2 * dpM R 2 [v, v, v] + dpM R 1 [v, v, v, v])
    (List.foldr (fun a b => a + 2 ^ 32 * b) 0 (completions r))

set_option maxRecDepth 100000 in
theorem check_pairs : [Rank.Ace, .King, .Queen, .Jack, .Ten, .Nine, .Eight, .Seven, .Six, .Five, .Four,
    .Three, .Two].all pairOk = true := by
  decide +kernel

theorem pair_sum (r : Rank) (a b : Suit) (hab : a ≠ b) (φ : Nat → Nat) :
    ∑ x ∈ (pack \ {(r, a), (r, b)}).powersetCard 3, φ (setKind ({(r, a), (r, b)} ∪ x))
      = ((List.range 11).map (fun k => (completions r).getD k 0 * φ k)).sum := by
  obtain ⟨c, d, hn, h50, hne, hset⟩ := rest_spec r a b hab
  have hok := List.all_eq_true.1 check_pairs r (by cases r <;> decide)
  have hsum := Nat.eq_of_beq_eq_true hok
  rw [← hset, sum_sets hn]
  set L := List.sublistsLen 3 (rest r c d) with hL
  have hnd : ∀ l ∈ L, ([(r, a), (r, b)] ++ l).Nodup := by
    intro l hl
    obtain ⟨hs, -⟩ := List.mem_sublistsLen.1 hl
    refine List.nodup_append'.2 ⟨by simpa using hab, hs.nodup hn, ?_⟩
    intro x hx hx'
    have := hne x (hs.mem hx')
    simp only [List.mem_cons, List.not_mem_nil, or_false] at hx
    rcases hx with rfl | rfl
    · exact this.1 rfl
    · exact this.2 rfl
  have hk : ∀ l ∈ L, setKind ({(r, a), (r, b)} ∪ l.toFinset) = kind (strength ([(r, a), (r, b)] ++ l)) := by
    intro l hl
    rw [← setKind_list (hnd l hl), List.toFinset_append]
    congr 2
    ext x
    simp
  have e1 : L.map (fun l => φ (setKind ({(r, a), (r, b)} ∪ l.toFinset)))
      = (L.map (fun l => kind (strength ([(r, a), (r, b)] ++ l)))).map φ := by
    rw [List.map_map]
    refine List.map_congr_left (fun l hl => ?_)
    rw [Function.comp_apply, hk l hl]
  have htot : ((L.map (fun l => kind (strength ([(r, a), (r, b)] ++ l)))).map ((2 ^ 32) ^ ·)).sum
      = List.foldr (fun a b => a + 2 ^ 32 * b) 0 (completions r) := by
    rw [← hsum, List.map_map]
    have e2 : L.map ((fun x => (2 ^ 32) ^ x) ∘ fun l => kind (strength ([(r, a), (r, b)] ++ l)))
        = L.map (fun l => final (l.foldl step ([pips r, pips r], .mixed))) := by
      refine List.map_congr_left (fun l hl => ?_)
      have := final_strength ([(r, a), (r, b)] ++ l) (count_values_le (hnd l hl))
      rw [List.foldl_append, List.foldl_cons, List.foldl_cons, List.foldl_nil] at this
      simp only [step, Seen.add, if_neg hab, List.nil_append] at this
      rw [Function.comp_apply, ← Nat.pow_mul, ← this]
      rfl
    have e3 : (L.map (fun l => final (l.foldl step ([pips r, pips r], .mixed)))).sum
        = Counts.total 3 (rest r c d) ([pips r, pips r], .mixed) := rfl
    rw [e2, e3, rest, total_cons, total_cons, total_cons]
    simp only [step, Seen.add, total_mixed, List.cons_append, List.nil_append]
    ring
  have hlen : L.length = 19600 := by
    rw [hL, List.length_sublistsLen, h50]
    rfl
  have hkl : ∀ e ∈ L.map (fun l => kind (strength ([(r, a), (r, b)] ++ l))), e < 11 := by
    intro e he
    obtain ⟨l, -, rfl⟩ := List.mem_map.1 he
    exact Nat.lt_succ_of_le (kind_le _)
  have hclen : (completions r).length = 11 := by unfold completions; split <;> rfl
  have hcb : ∀ x ∈ completions r, x < 2 ^ 32 := by
    unfold completions
    split <;> decide
  rw [e1, sum_counts _ 11 hkl]
  refine congrArg List.sum (List.map_congr_left (fun k hk' => ?_))
  have hk'' : k < (completions r).length := by rw [hclen]; exact List.mem_range.1 hk'
  rw [Seven.count_digits (2 ^ 32) (completions r) _ (by rw [List.length_map, hlen]; decide)
    (by rw [hclen]; exact hkl) hcb htot k hk'', List.getD,
    List.getElem?_eq_getElem hk'', Option.getD_some]

end Poker.Sets

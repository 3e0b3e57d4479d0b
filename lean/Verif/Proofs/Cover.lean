import Verif.Proofs.Lookup
import Mathlib.Data.List.Sort
import Mathlib.Data.Nat.Factors
import Mathlib.Tactic.NormNum.Prime

/-! # Prime products are injective, and every five values are of one of the kinds (helper lemmas) -/

namespace Poker
open Rules Comb

namespace Tab

attribute [local irreducible] Kinds.straights Kinds.nonStraights Kinds.quads Kinds.fullHouses
  Kinds.trips Kinds.twoPairs Kinds.pairs

/-! ## Worth does not depend on the order -/

theorem grouped_perm {a b : List Nat} (h : a.Perm b) : grouped a = grouped b := by
  simp only [grouped, h.count_eq]

theorem shape_perm {a b : List Nat} (h : a.Perm b) : shape a = shape b := by
  simp only [shape, grouped_perm h, h.count_eq]

theorem straightTop_perm {a b : List Nat} (h : a.Perm b) : straightTop a = straightTop b := by
  have : plays a = plays b := by
    funext v
    have hc : ∀ x, a.contains x = b.contains x := fun x => by
      rw [Bool.eq_iff_iff, List.contains_iff_mem, List.contains_iff_mem, h.mem_iff]
    simp only [plays, hc]
  simp only [straightTop, this]

theorem worth_perm (fl : Bool) {a b : List Nat} (h : a.Perm b) : worth fl a = worth fl b := by
  simp only [worth, grouped_perm h, shape_perm h, straightTop_perm h]

/-! ## Prime products -/

theorem primeV_prime {v : Nat} (h : v ∈ allValues) : (primeV v).Prime := by
  simp only [allValues, List.mem_cons, List.not_mem_nil, or_false] at h
  rcases h with rfl | rfl | rfl | rfl | rfl | rfl | rfl | rfl | rfl | rfl | rfl | rfl | rfl <;>
    norm_num [primeV]

def valueOf (p : Nat) : Nat := [2, 3, 5, 7, 11, 13, 17, 19, 23, 29, 31, 37, 41].idxOf p + 2

theorem valueOf_primeV {v : Nat} (h : v ∈ allValues) : valueOf (primeV v) = v := by
  have : ∀ v ∈ allValues, valueOf (primeV v) = v := by decide +kernel
  exact this v h

theorem primeV_le {v : Nat} (h : v ∈ allValues) : primeV v ≤ 41 := by
  have : ∀ v ∈ allValues, primeV v ≤ 41 := by decide +kernel
  exact this v h

theorem keyN_le : ∀ (c : List Nat), (∀ v ∈ c, v ∈ allValues) → keyN c ≤ 41 ^ c.length
  | [], _ => by simp [keyN]
  | v :: c, h => by
    have ih := keyN_le c (fun x hx => h x (by simp [hx]))
    simp only [keyN, List.map_cons, List.prod_cons, List.length_cons] at ih ⊢
    rw [Nat.pow_succ, Nat.mul_comm]
    exact Nat.mul_le_mul ih (primeV_le (h v (by simp)))

theorem keyN_inj {c d : List Nat} (hc : ∀ v ∈ c, v ∈ allValues) (hd : ∀ v ∈ d, v ∈ allValues)
    (h : keyN c = keyN d) : c.Perm d := by
  have p1 := Nat.primeFactorsList_unique (n := keyN d) (l := c.map primeV) h (by
    intro p hp
    obtain ⟨v, hv, rfl⟩ := List.mem_map.1 hp
    exact primeV_prime (hc v hv))
  have p2 := Nat.primeFactorsList_unique (n := keyN d) (l := d.map primeV) rfl (by
    intro p hp
    obtain ⟨v, hv, rfl⟩ := List.mem_map.1 hp
    exact primeV_prime (hd v hv))
  have p := (p1.trans p2.symm).map valueOf
  rw [List.map_map, List.map_map] at p
  have e : ∀ (l : List Nat), (∀ v ∈ l, v ∈ allValues) → l.map (valueOf ∘ primeV) = l := by
    intro l hl
    conv_rhs => rw [← List.map_id l]
    exact List.map_congr_left (fun v hv => valueOf_primeV (hl v hv))
  rwa [e c hc, e d hd] at p

theorem keyV_inj {c d : List Nat} (hc : ∀ v ∈ c, v ∈ allValues) (hd : ∀ v ∈ d, v ∈ allValues)
    (lc : c.length = 5) (ld : d.length = 5) (h : keyV c = keyV d) : c.Perm d := by
  refine keyN_inj hc hd ?_
  have bc := keyN_le c hc
  have bd := keyN_le d hd
  rw [lc] at bc
  rw [ld] at bd
  have := congrArg BitVec.toNat h
  simp only [keyV, BitVec.toNat_ofNat] at this
  rwa [Nat.mod_eq_of_lt (by omega), Nat.mod_eq_of_lt (by omega)] at this

theorem keyN_perm {c d : List Nat} (h : c.Perm d) : keyN c = keyN d := (h.map primeV).prod_eq

theorem keyV_perm {c d : List Nat} (h : c.Perm d) : keyV c = keyV d := by
  rw [keyV, keyV, keyN_perm h]

/-! ## Every five values are of one of the kinds -/

theorem sublist_of_desc : ∀ (l L : List Nat), l.Pairwise (· > ·) → L.Pairwise (· > ·) →
    (∀ x ∈ l, x ∈ L) → l.Sublist L
  | [], _, _, _, _ => List.nil_sublist _
  | a :: l, [], _, _, h => absurd (h a (by simp)) (by simp)
  | a :: l, b :: L, hl, hL, h => by
    rw [List.pairwise_cons] at hl hL
    by_cases hab : a = b
    · subst hab
      refine List.Sublist.cons_cons a (sublist_of_desc l L hl.2 hL.2 ?_)
      intro x hx
      have hxa := hl.1 x hx
      rcases List.mem_cons.1 (h x (by simp [hx])) with rfl | hm
      · omega
      · exact hm
    · refine List.Sublist.cons b (sublist_of_desc (a :: l) L (List.pairwise_cons.2 hl) hL.2 ?_)
      have ha : a ∈ L := by
        rcases List.mem_cons.1 (h a (by simp)) with rfl | hm
        · exact absurd rfl hab
        · exact hm
      intro x hx
      rcases List.mem_cons.1 hx with rfl | hx'
      · exact ha
      · rcases List.mem_cons.1 (h x (by simp [hx'])) with rfl | hm
        · have h1 := hl.1 x hx'
          have h2 := hL.1 a ha
          omega
        · exact hm

theorem allValues_desc : allValues.Pairwise (· > ·) := by decide

theorem mem_combos_of_desc {n : Nat} {l : List Nat} (p : Nat → Bool) (hl : l.Pairwise (· > ·))
    (hm : ∀ x ∈ l, x ∈ allValues ∧ p x = true) (hn : l.length = n) :
    l ∈ combos n (allValues.filter p) := by
  refine mem_combos.2 ⟨sublist_of_desc _ _ hl (allValues_desc.filter _) ?_, hn⟩
  intro x hx
  exact List.mem_filter.2 (hm x hx)

theorem mem_five_of_desc {l : List Nat} (hl : l.Pairwise (· > ·))
    (hm : ∀ x ∈ l, x ∈ allValues) (hn : l.length = 5) : l ∈ five :=
  mem_combos.2 ⟨sublist_of_desc _ _ hl allValues_desc hm, hn⟩

theorem five_split {c : List Nat} (h : c ∈ five) : c ∈ Kinds.straights ∨ c ∈ Kinds.nonStraights := by
  by_cases hs : c ∈ Kinds.straights
  · exact .inl hs
  · right
    unfold Kinds.nonStraights
    exact List.mem_filter.2 ⟨h, by simpa using hs⟩

theorem mem_quads {q k : Nat} (hq : q ∈ allValues) (hk : k ∈ allValues) (h : k ≠ q) :
    [q, q, q, q, k] ∈ Kinds.quads := by
  unfold Kinds.quads
  exact List.mem_flatMap.2 ⟨q, hq, List.mem_map.2 ⟨k, List.mem_filter.2 ⟨hk, by simpa using h⟩, rfl⟩⟩

theorem mem_fullHouses {q k : Nat} (hq : q ∈ allValues) (hk : k ∈ allValues) (h : k ≠ q) :
    [q, q, q, k, k] ∈ Kinds.fullHouses := by
  unfold Kinds.fullHouses
  exact List.mem_flatMap.2 ⟨q, hq, List.mem_map.2 ⟨k, List.mem_filter.2 ⟨hk, by simpa using h⟩, rfl⟩⟩

theorem mem_trips {q a b : Nat} (hq : q ∈ allValues) (ha : a ∈ allValues) (hb : b ∈ allValues)
    (h1 : a ≠ q) (h2 : b ≠ q) (hab : a > b) : [q, q, q, a, b] ∈ Kinds.trips := by
  unfold Kinds.trips
  refine List.mem_flatMap.2 ⟨q, hq, List.mem_map.2 ⟨[a, b], ?_, rfl⟩⟩
  refine mem_combos_of_desc _ (by simpa using hab) ?_ rfl
  simp [ha, hb, h1, h2]

theorem mem_pairs {q a b c : Nat} (hq : q ∈ allValues) (ha : a ∈ allValues) (hb : b ∈ allValues)
    (hc : c ∈ allValues) (h1 : a ≠ q) (h2 : b ≠ q) (h3 : c ≠ q) (hab : a > b) (hbc : b > c) :
    [q, q, a, b, c] ∈ Kinds.pairs := by
  unfold Kinds.pairs
  refine List.mem_flatMap.2 ⟨q, hq, List.mem_map.2 ⟨[a, b, c], ?_, rfl⟩⟩
  refine mem_combos_of_desc _ (by simp; omega) ?_ rfl
  simp [ha, hb, hc, h1, h2, h3]

theorem mem_twoPairs {p q k : Nat} (hp : p ∈ allValues) (hq : q ∈ allValues) (hk : k ∈ allValues)
    (hpq : p > q) (h1 : k ≠ p) (h2 : k ≠ q) : [p, p, q, q, k] ∈ Kinds.twoPairs := by
  unfold Kinds.twoPairs
  refine List.mem_flatMap.2 ⟨[p, q], ?_, List.mem_map.2 ⟨k, List.mem_filter.2 ⟨hk, ?_⟩, rfl⟩⟩
  · refine mem_combos.2 ⟨sublist_of_desc _ _ (by simpa using hpq) allValues_desc ?_, rfl⟩
    simp [hp, hq]
  · simp [h1, h2]

theorem exists_sorted (vs : List Nat) (h5 : vs.length = 5) :
    ∃ a b c d e, vs.Perm [a, b, c, d, e] ∧ a ≥ b ∧ b ≥ c ∧ c ≥ d ∧ d ≥ e := by
  have hp := List.perm_insertionSort (· ≥ ·) vs
  have hs := List.pairwise_insertionSort (· ≥ ·) vs
  have hl := hp.length_eq
  revert hp hs hl
  generalize List.insertionSort (· ≥ ·) vs = l
  intro hp hs hl
  rw [h5] at hl
  match l, hl with
  | [a, b, c, d, e], _ =>
    simp only [List.pairwise_cons, List.mem_cons, forall_eq_or_imp] at hs
    exact ⟨a, b, c, d, e, hp.symm, hs.1.1, hs.2.1.1, hs.2.2.1.1, hs.2.2.2.1.1⟩

theorem perm_of_count {a b : List Nat} (h : ∀ x, a.count x = b.count x) : a.Perm b :=
  List.perm_iff_count.2 h

/-- Every five values, none of them five times, are one of the kinds of the unsuited table. -/
theorem cover_unsuited {vs : List Nat} (h5 : vs.length = 5) (hv : ∀ v ∈ vs, v ∈ allValues)
    (h4 : ∀ v, vs.count v ≤ 4) : ∃ c ∈ unsuitedKinds, vs.Perm c := by
  obtain ⟨a, b, c, d, e, hp, hab, hbc, hcd, hde⟩ := exists_sorted vs h5
  have ha := hv a (hp.symm.subset (by simp))
  have hb := hv b (hp.symm.subset (by simp))
  have hc := hv c (hp.symm.subset (by simp))
  have hd := hv d (hp.symm.subset (by simp))
  have he := hv e (hp.symm.subset (by simp))
  have key : ∃ k ∈ unsuitedKinds, [a, b, c, d, e].Perm k := by
    simp only [unsuitedKinds, List.mem_append]
    by_cases h1 : a = b <;> by_cases h2 : b = c <;> by_cases h3 : c = d <;> by_cases h4' : d = e
    · exfalso
      subst h1 h2 h3 h4'
      have := h4 a
      rw [hp.count_eq] at this
      simp at this
    · subst h1 h2 h3
      exact ⟨_, by simp [mem_quads ha he (Ne.symm h4')], .refl _⟩
    · subst h1 h2 h4'
      exact ⟨_, by simp [mem_fullHouses ha hd (Ne.symm h3)], .refl _⟩
    · subst h1 h2
      exact ⟨_, by simp [mem_trips ha hd he (by omega) (by omega) (by omega)], .refl _⟩
    · subst h1 h3 h4'
      exact ⟨[c, c, c, a, a], by simp [mem_fullHouses hc ha (by omega)],
        perm_of_count fun x => by simp only [List.count_cons, List.count_nil]; omega⟩
    · subst h1 h3
      exact ⟨[a, a, c, c, e], by simp [mem_twoPairs ha hc he (by omega) (by omega) (by omega)],
        .refl _⟩
    · subst h1 h4'
      exact ⟨[a, a, d, d, c], by simp [mem_twoPairs ha hd hc (by omega) (by omega) (by omega)],
        perm_of_count fun x => by simp only [List.count_cons, List.count_nil]; omega⟩
    · subst h1
      exact ⟨[a, a, c, d, e], by simp [mem_pairs ha hc hd he (by omega) (by omega) (by omega)
        (by omega) (by omega)], .refl _⟩
    · subst h2 h3 h4'
      exact ⟨[b, b, b, b, a], by simp [mem_quads hb ha h1],
        perm_of_count fun x => by simp only [List.count_cons, List.count_nil]; omega⟩
    · subst h2 h3
      exact ⟨[b, b, b, a, e], by simp [mem_trips hb ha he (by omega) (by omega) (by omega)],
        perm_of_count fun x => by simp only [List.count_cons, List.count_nil]; omega⟩
    · subst h2 h4'
      exact ⟨[b, b, d, d, a], by simp [mem_twoPairs hb hd ha (by omega) (by omega) (by omega)],
        perm_of_count fun x => by simp only [List.count_cons, List.count_nil]; omega⟩
    · subst h2
      exact ⟨[b, b, a, d, e], by simp [mem_pairs hb ha hd he (by omega) (by omega) (by omega)
        (by omega) (by omega)],
        perm_of_count fun x => by simp only [List.count_cons, List.count_nil]; omega⟩
    · subst h3 h4'
      exact ⟨[c, c, c, a, b], by simp [mem_trips hc ha hb (by omega) (by omega) (by omega)],
        perm_of_count fun x => by simp only [List.count_cons, List.count_nil]; omega⟩
    · subst h3
      exact ⟨[c, c, a, b, e], by simp [mem_pairs hc ha hb he (by omega) (by omega) (by omega)
        (by omega) (by omega)],
        perm_of_count fun x => by simp only [List.count_cons, List.count_nil]; omega⟩
    · subst h4'
      exact ⟨[d, d, a, b, c], by simp [mem_pairs hd ha hb hc (by omega) (by omega) (by omega)
        (by omega) (by omega)],
        perm_of_count fun x => by simp only [List.count_cons, List.count_nil]; omega⟩
    · refine ⟨[a, b, c, d, e], ?_, .refl _⟩
      have hm : [a, b, c, d, e] ∈ five := mem_five_of_desc (by simp; omega)
        (by simp [ha, hb, hc, hd, he]) rfl
      rcases five_split hm with h | h <;> simp [h]
  obtain ⟨k, hk, hpk⟩ := key
  exact ⟨k, hk, hp.trans hpk⟩

/-- Every five distinct values are one of the kinds of the flush table. -/
theorem cover_flush {vs : List Nat} (h5 : vs.length = 5) (hv : ∀ v ∈ vs, v ∈ allValues)
    (hn : vs.Nodup) : ∃ c ∈ five, vs.Perm c := by
  obtain ⟨a, b, c, d, e, hp, hab, hbc, hcd, hde⟩ := exists_sorted vs h5
  refine ⟨_, mem_five_of_desc ?_ ?_ rfl, hp⟩
  · have := hp.nodup_iff.1 hn
    simp at this
    simp
    omega
  · intro x hx
    exact hv x (hp.symm.subset hx)

end Tab
end Poker

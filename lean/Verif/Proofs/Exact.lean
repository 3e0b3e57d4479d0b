import Verif.Proofs.Categories
import Verif.Spec.Exact

/-! # The worth of hands of any size (helper lemmas) -/

namespace Poker
open Rules Tab

namespace Exact

/-! ## Lists of deciding values -/

theorem cmpList_append : ∀ {a c : List Nat} (b d : List Nat), a.length = c.length →
    cmpList (a ++ b) (c ++ d) = (cmpList a c).then (cmpList b d)
  | [], [], _, _, _ => rfl
  | x :: a, y :: c, b, d, h => by
    have ih := cmpList_append (a := a) (c := c) b d (by simpa using h)
    simp only [List.cons_append, cmpList, ih]
    cases compare x y <;> rfl

theorem le_trans' {a b c : List Nat} (h1 : cmpList a b ≠ .gt) (h2 : cmpList b c ≠ .gt) :
    cmpList a c ≠ .gt := by
  intro h
  cases e : cmpList b c with
  | gt => exact h2 e
  | eq => rw [cmpList_eq_iff] at e; subst e; exact h1 h
  | lt =>
    have : cmpList c b = .gt := by rw [← cmpList_swap, e]; rfl
    exact h1 (cmpList_gt_trans h this)

/-- Descending lists of members of a descending list are at most as good as its beginning. -/
theorem dominate : ∀ (M L : List Nat), M.Pairwise (· > ·) → L.Pairwise (· > ·) → (∀ v ∈ L, v ∈ M) →
    cmpList L (M.take L.length) ≠ .gt ∧ (M.take L.length).length = L.length
  | _, [], _, _, _ => by simp [cmpList]
  | [], l :: L, _, _, hm => by simpa using hm l (by simp)
  | m :: M, l :: L, hM, hL, hm => by
    rw [List.pairwise_cons] at hM hL
    have hle : l ≤ m := by
      rcases List.mem_cons.1 (hm l (by simp)) with h | h
      · omega
      · exact Nat.le_of_lt (hM.1 l h)
    have hsub : ∀ v ∈ L, v ∈ M := by
      intro v hv
      rcases List.mem_cons.1 (hm v (by simp [hv])) with h | h
      · have := hL.1 v hv
        omega
      · exact h
    have ih := dominate M L hM.2 hL.2 hsub
    constructor
    · simp only [List.length_cons, List.take_succ_cons, cmpList]
      rcases Nat.lt_or_eq_of_le hle with h | h
      · rw [Nat.compare_eq_lt.2 h]; simp
      · subst h
        rw [Nat.compare_eq_eq.2 rfl]
        exact ih.1
    · simp only [List.length_cons, List.take_succ_cons, ih.2]

theorem mem_atLeast {m v : Nat} {vs : List Nat} :
    v ∈ atLeast m vs ↔ v ∈ allValues ∧ m ≤ vs.count v := by
  rw [atLeast, List.mem_filter, decide_eq_true_eq]

theorem atLeast_desc (m : Nat) (vs : List Nat) : (atLeast m vs).Pairwise (· > ·) :=
  allValues_desc.filter _

/-! ## Groups -/

theorem grouped_pairwise (vs : List Nat) : (grouped vs).Pairwise
    (fun a b => vs.count b < vs.count a ∨ vs.count a = vs.count b ∧ a > b) := by
  unfold grouped
  rw [List.pairwise_flatMap]
  constructor
  · intro m _
    have : ((allValues.filter (fun v => vs.count v == m))).Pairwise (· > ·) := allValues_desc.filter _
    refine this.imp_of_mem ?_
    intro a b ha hb hab
    rw [List.mem_filter, beq_iff_eq] at ha hb
    exact .inr ⟨ha.2.trans hb.2.symm, hab⟩
  · have : [4, 3, 2, 1].Pairwise (· > ·) := by decide
    refine this.imp ?_
    intro m n hmn a ha b hb
    rw [List.mem_filter, beq_iff_eq] at ha hb
    exact .inl (by omega)

theorem mem_grouped {v : Nat} {vs : List Nat} (h : v ∈ grouped vs) : v ∈ allValues := by
  rw [grouped, List.mem_flatMap] at h
  obtain ⟨m, _, h⟩ := h
  exact (List.mem_filter.1 h).1

/-- The two groups of values that occur equally often. -/
theorem split_groups {m n m' n' : Nat} {vs : List Nat}
    (hs : shape vs = List.replicate n m ++ List.replicate n' m') :
    ∃ A B, grouped vs = A ++ B ∧ A.length = n ∧ B.length = n' ∧
      A.Pairwise (· > ·) ∧ B.Pairwise (· > ·) ∧
      (∀ v ∈ A, v ∈ allValues ∧ vs.count v = m) ∧ (∀ v ∈ B, v ∈ allValues ∧ vs.count v = m') := by
  rw [shape] at hs
  obtain ⟨A, B, hAB, hA, hB⟩ := List.map_eq_append_iff.1 hs
  rw [List.eq_replicate_iff, List.length_map] at hA hB
  have hA' : ∀ v ∈ A, vs.count v = m := fun v hv => hA.2 _ (List.mem_map_of_mem hv)
  have hB' : ∀ v ∈ B, vs.count v = m' := fun v hv => hB.2 _ (List.mem_map_of_mem hv)
  have hp := grouped_pairwise vs
  rw [hAB, List.pairwise_append] at hp
  refine ⟨A, B, hAB, hA.1, hB.1, ?_, ?_, ?_, ?_⟩
  · refine hp.1.imp_of_mem ?_
    intro a b ha hb h
    rw [hA' a ha, hA' b hb] at h
    omega
  · refine hp.2.1.imp_of_mem ?_
    intro a b ha hb h
    rw [hB' a ha, hB' b hb] at h
    omega
  · intro v hv
    exact ⟨mem_grouped (by rw [hAB]; simp [hv]), hA' v hv⟩
  · intro v hv
    exact ⟨mem_grouped (by rw [hAB]; simp [hv]), hB' v hv⟩

theorem shape_of_counts {m n m' n' : Nat} {vs a b : List Nat} (hg : grouped vs = a ++ b)
    (ha : a.length = n) (hb : b.length = n') (hca : ∀ v ∈ a, vs.count v = m)
    (hcb : ∀ v ∈ b, vs.count v = m') :
    shape vs = List.replicate n m ++ List.replicate n' m' := by
  rw [shape, hg, List.map_append]
  congr 1
  · rw [List.eq_replicate_iff, List.length_map]
    refine ⟨ha, ?_⟩
    intro x hx
    obtain ⟨v, hv, rfl⟩ := List.mem_map.1 hx
    exact hca v hv
  · rw [List.eq_replicate_iff, List.length_map]
    refine ⟨hb, ?_⟩
    intro x hx
    obtain ⟨v, hv, rfl⟩ := List.mem_map.1 hx
    exact hcb v hv

theorem filter_mem_of_desc {a : List Nat} (ha : a.Pairwise (· > ·)) (hm : ∀ v ∈ a, v ∈ allValues)
    (p : Nat → Bool) (hp : ∀ v, p v = true ↔ v ∈ a) : allValues.filter p = a := by
  refine List.Perm.eq_of_pairwise (le := (· > ·)) ?_ (allValues_desc.filter _) ha ?_
  · intro x y _ _ h1 h2
    omega
  · rw [List.perm_ext_iff_of_nodup (Cat.allValues_nodup.filter _)
      (ha.imp (fun h => Nat.ne_of_gt h))]
    intro v
    rw [List.mem_filter, hp]
    exact ⟨fun h => h.2, fun h => ⟨hm v h, h⟩⟩

theorem grouped_of_counts {m m' : Nat} {vs a b : List Nat} (h4 : m ≤ 4) (hlt : m' < m)
    (h0 : m' = 0 → b = []) (ha : a.Pairwise (· > ·)) (hb : b.Pairwise (· > ·))
    (hma : ∀ v ∈ a, v ∈ allValues) (hmb : ∀ v ∈ b, v ∈ allValues) (hdis : ∀ v ∈ b, v ∉ a)
    (hc : ∀ v, vs.count v = if v ∈ a then m else if v ∈ b then m' else 0) :
    grouped vs = a ++ b := by
  have f : ∀ k, 1 ≤ k → allValues.filter (fun v => vs.count v == k)
      = if k = m then a else if k = m' then b else [] := by
    intro k hk
    split
    · subst k
      refine filter_mem_of_desc ha hma _ ?_
      intro v
      rw [beq_iff_eq, hc]
      split <;> [simp [*]; split] <;> simp [*] <;> omega
    · split
      · subst k
        refine filter_mem_of_desc hb hmb _ ?_
        intro v
        rw [beq_iff_eq, hc]
        by_cases hv : v ∈ a
        · have : v ∉ b := fun h => hdis v h hv
          simp only [hv, if_true, this, iff_false]
          omega
        · by_cases hv' : v ∈ b
          · simp [hv, hv']
          · simp only [hv, hv', if_false, iff_false]
            omega
      · rw [List.filter_eq_nil_iff]
        intro v _
        rw [beq_iff_eq, hc]
        repeat' split
        all_goals omega
  have h1 : 1 ≤ m := by omega
  simp only [grouped, List.flatMap_cons, List.flatMap_nil, List.append_nil,
    f 4 (by omega), f 3 (by omega), f 2 (by omega), f 1 (by omega)]
  interval_cases m <;> interval_cases m' <;> simp_all

/-- Cards with given values, each `m` times. -/
theorem group {m : Nat} {h : List PCard} (hn : h.Nodup) : ∀ (a : List Nat), a.Nodup →
    (∀ v ∈ a, m ≤ (values h).count v) → ∃ s : List PCard, s.Nodup ∧ (∀ c ∈ s, c ∈ h) ∧
      (∀ c ∈ s, pips c.1 ∈ a) ∧ s.length = m * a.length ∧
      ∀ v, (values s).count v = if v ∈ a then m else 0
  | [], _, _ => ⟨[], by simp, by simp, by simp, by simp, by simp [values]⟩
  | x :: a, hna, hc => by
    rw [List.nodup_cons] at hna
    obtain ⟨s, s1, s2, s3, s4, s5⟩ := group hn a hna.2 (fun v hv => hc v (by simp [hv]))
    obtain ⟨t1, t2⟩ := Cat.some_sub (n := m) (v := x) hn
    obtain ⟨t3, t4⟩ := Cat.some_count (hc x (by simp))
    refine ⟨Cat.some' m x h ++ s, ?_, ?_, ?_, ?_, ?_⟩
    · rw [List.nodup_append]
      refine ⟨t1, s1, ?_⟩
      rintro c hc' d hd rfl
      apply hna.1
      rw [← (t2 c hc').2]
      exact s3 c hd
    · intro c hc'
      rcases List.mem_append.1 hc' with hc' | hc'
      · exact (t2 c hc').1
      · exact s2 c hc'
    · intro c hc'
      rcases List.mem_append.1 hc' with hc' | hc'
      · rw [(t2 c hc').2]; simp
      · simp [s3 c hc']
    · rw [List.length_append, t4, s4, List.length_cons, Nat.mul_succ, Nat.add_comm]
    · intro v
      rw [Cat.values_append, List.count_append, s5]
      by_cases hv : v = x
      · subst hv
        rw [t3, if_neg hna.1]
        simp
      · have : (values (Cat.some' m x h)).count v = 0 := by
          rw [List.count_eq_zero]
          intro hm
          obtain ⟨c, hc', e⟩ := List.mem_map.1 hm
          exact hv (e.symm.trans (t2 c hc').2)
        rw [this]
        simp [hv]

/-- The best hand of two groups. -/
theorem groups_best {m n m' n' : Nat} {h : List PCard} (hn : h.Nodup)
    (h4 : m ≤ 4) (hlt : m' < m) (h0 : m' = 0 → n' = 0) (hsum : m * n + m' * n' = 5)
    (hex : ∃ c, FiveOf c h ∧ shape (values c) = List.replicate n m ++ List.replicate n' m') :
    (∃ d, FiveOf d h ∧ grouped (values d) = highest m n m' n' (values h) ∧
      shape (values d) = List.replicate n m ++ List.replicate n' m') ∧
    ∀ c, FiveOf c h → shape (values c) = List.replicate n m ++ List.replicate n' m' →
      cmpList (grouped (values c)) (highest m n m' n' (values h)) ≠ .gt := by
  -- what a hand of this shape says about the values of `h`
  have key : ∀ c, FiveOf c h → shape (values c) = List.replicate n m ++ List.replicate n' m' →
      ((atLeast m (values h)).take n).length = n ∧
      (((atLeast m' (values h)).filter
        (fun v => !((atLeast m (values h)).take n).contains v)).take n').length = n' ∧
      cmpList (grouped (values c)) (highest m n m' n' (values h)) ≠ .gt := by
    intro c hc hs
    have hcount : ∀ v, (values c).count v ≤ (values h).count v :=
      fun v => (Cat.values_subperm hc.1 hc.2.2).count_le v
    obtain ⟨A, B, hg, hA, hB, hdA, hdB, hmA, hmB⟩ := split_groups hs
    have hsubA : ∀ v ∈ A, v ∈ atLeast m (values h) := fun v hv =>
      mem_atLeast.2 ⟨(hmA v hv).1, by have := hcount v; rw [(hmA v hv).2] at this; exact this⟩
    have hsubB : ∀ v ∈ B, v ∈ atLeast m' (values h) := fun v hv =>
      mem_atLeast.2 ⟨(hmB v hv).1, by have := hcount v; rw [(hmB v hv).2] at this; exact this⟩
    have hsubA' : ∀ v ∈ A, v ∈ atLeast m' (values h) := fun v hv =>
      mem_atLeast.2 ⟨(hmA v hv).1, Nat.le_trans (Nat.le_of_lt hlt) (mem_atLeast.1 (hsubA v hv)).2⟩
    have hdis : ∀ v ∈ B, v ∉ A := by
      intro v hv hv'
      have h1 := (hmA v hv').2
      have h2 := (hmB v hv).2
      omega
    obtain ⟨d1, d2⟩ := dominate _ A (atLeast_desc m (values h)) hdA hsubA
    rw [hA] at d1 d2
    have hlen2 : (((atLeast m' (values h)).filter
        (fun v => !((atLeast m (values h)).take n).contains v)).take n').length = n' := by
      have hnd : (A ++ B).Nodup := by
        rw [List.nodup_append]
        refine ⟨hdA.imp (fun h => Nat.ne_of_gt h), hdB.imp (fun h => Nat.ne_of_gt h), ?_⟩
        rintro x hx y hy rfl
        exact hdis x hy hx
      have hsub : A ++ B ⊆ ((atLeast m (values h)).take n) ++ ((atLeast m' (values h)).filter
          (fun v => !((atLeast m (values h)).take n).contains v)) := by
        intro v hv
        have hv' : v ∈ atLeast m' (values h) := by
          rcases List.mem_append.1 hv with h | h
          · exact hsubA' v h
          · exact hsubB v h
        rw [List.mem_append, List.mem_filter]
        by_cases hva : v ∈ (atLeast m (values h)).take n
        · exact .inl hva
        · exact .inr ⟨hv', by simp [hva]⟩
      have := (hnd.subperm hsub).length_le
      rw [List.length_append, List.length_append, d2, hA, hB] at this
      rw [List.length_take]
      omega
    refine ⟨d2, hlen2, ?_⟩
    rw [hg, highest]
    rw [cmpList_append _ _ (by rw [hA, d2])]
    cases e : cmpList A (List.take n (atLeast m (values h))) with
    | gt => exact absurd e d1
    | lt => simp
    | eq =>
      rw [cmpList_eq_iff] at e
      rw [← e]
      have := (dominate ((atLeast m' (values h)).filter (fun v => !A.contains v)) B
        ((atLeast_desc m' _).filter _) hdB (fun v hv => List.mem_filter.2 ⟨hsubB v hv, by
          have := hdis v hv
          simpa using this⟩)).1
      rw [hB] at this
      exact this
  refine ⟨?_, fun c hc hs => (key c hc hs).2.2⟩
  obtain ⟨c, hc, hs⟩ := hex
  obtain ⟨l1, l2, _⟩ := key c hc hs
  have ha : ((atLeast m (values h)).take n).Pairwise (· > ·) :=
    (atLeast_desc m _).sublist (List.take_sublist _ _)
  have hb : (((atLeast m' (values h)).filter
      (fun v => !((atLeast m (values h)).take n).contains v)).take n').Pairwise (· > ·) :=
    ((atLeast_desc m' _).filter _).sublist (List.take_sublist _ _)
  have hma : ∀ v ∈ (atLeast m (values h)).take n, v ∈ allValues ∧ m ≤ (values h).count v :=
    fun v hv => mem_atLeast.1 ((List.take_sublist _ _).subset hv)
  have hmb : ∀ v ∈ ((atLeast m' (values h)).filter
      (fun v => !((atLeast m (values h)).take n).contains v)).take n',
      (v ∈ allValues ∧ m' ≤ (values h).count v) ∧ v ∉ (atLeast m (values h)).take n := by
    intro v hv
    have := List.mem_filter.1 ((List.take_sublist _ _).subset hv)
    exact ⟨mem_atLeast.1 this.1, by simpa using this.2⟩
  rw [highest]
  generalize (atLeast m (values h)).take n = a at *
  generalize ((atLeast m' (values h)).filter (fun v => !a.contains v)).take n' = b at *
  obtain ⟨s, s1, s2, s3, s4, s5⟩ := group hn a (ha.imp (fun h => Nat.ne_of_gt h))
    (fun v hv => (hma v hv).2)
  obtain ⟨t, t1, t2, t3, t4, t5⟩ := group hn b (hb.imp (fun h => Nat.ne_of_gt h))
    (fun v hv => (hmb v hv).1.2)
  have hcnt : ∀ v, (values (s ++ t)).count v = if v ∈ a then m else if v ∈ b then m' else 0 := by
    intro v
    rw [Cat.values_append, List.count_append, s5, t5]
    by_cases hv : v ∈ b
    · have := (hmb v hv).2
      simp [hv, this]
    · simp [hv]
  have hg : grouped (values (s ++ t)) = a ++ b :=
    grouped_of_counts h4 hlt (fun h => List.length_eq_zero_iff.1 (l2.trans (h0 h))) ha hb
      (fun v hv => (hma v hv).1) (fun v hv => (hmb v hv).1.1) (fun v hv => (hmb v hv).2) hcnt
  refine ⟨s ++ t, ⟨?_, ?_, ?_⟩, hg, ?_⟩
  · rw [List.nodup_append]
    refine ⟨s1, t1, ?_⟩
    rintro x hx y hy rfl
    exact (hmb _ (t3 x hy)).2 (s3 x hx)
  · rw [List.length_append, s4, t4, l1, l2, hsum]
  · intro x hx
    rcases List.mem_append.1 hx with hx | hx
    · exact s2 x hx
    · exact t2 x hx
  · refine shape_of_counts hg l1 l2 (fun v hv => ?_) (fun v hv => ?_)
    · rw [hcnt, if_pos hv]
    · rw [hcnt, if_neg (hmb v hv).2, if_pos hv]

/-! ## Categories -/

theorem category_sub {c h : List PCard} (hc : FiveOf c h) : (strength c).1 ≤ category h := by
  rw [Cat.category_five hc.1 hc.2.1]
  exact Cat.le_category (Cat.category_le c) (Cat.has_mono hc.1 hc.2.2 (Cat.has_category c))

theorem isBest_of {k : Nat} {X : List Nat} {h : List PCard} (hk : category h = k)
    (hd : ∃ d, FiveOf d h ∧ strength d = (k, X))
    (hall : ∀ c, FiveOf c h → (strength c).1 = k → cmpList (strength c).2 X ≠ .gt) :
    IsBest (k, X) h := by
  refine ⟨hd, ?_⟩
  intro c hc
  have := category_sub hc
  rw [hk] at this
  rw [cmpWorth]
  rcases Nat.lt_or_eq_of_le this with h1 | h1
  · rw [Nat.compare_eq_lt.2 h1]; simp
  · rw [Nat.compare_eq_eq.2 h1]
    exact hall c hc h1

theorem exists_category {h : List PCard} (hn : h.Nodup) (h5 : 5 ≤ h.length) :
    ∃ c, FiveOf c h ∧ (strength c).1 = category h := by
  obtain ⟨w, hw, _⟩ := evaluate_best hn h5
  obtain ⟨⟨c, hc, rfl⟩, hb⟩ := hw
  exact ⟨c, hc, Cat.category_best hn h5 ⟨⟨c, hc, rfl⟩, hb⟩⟩

theorem group_case {k m n m' n' : Nat} {h : List PCard} (hn : h.Nodup) (h5 : 5 ≤ h.length)
    (hk : category h = k) (h4 : m ≤ 4) (hlt : m' < m) (h0 : m' = 0 → n' = 0)
    (hsum : m * n + m' * n' = 5)
    (h1 : ∀ c, FiveOf c h → (strength c).1 = k →
      shape (values c) = List.replicate n m ++ List.replicate n' m' ∧
      (strength c).2 = grouped (values c))
    (h2 : ∀ c, FiveOf c h → shape (values c) = List.replicate n m ++ List.replicate n' m' →
      (strength c).1 ≤ k → strength c = (k, grouped (values c))) :
    IsBest (k, highest m n m' n' (values h)) h := by
  obtain ⟨c, hc, hck⟩ := exists_category hn h5
  rw [hk] at hck
  obtain ⟨⟨d, hd, hg, hs⟩, hall⟩ := groups_best hn h4 hlt h0 hsum ⟨c, hc, (h1 c hc hck).1⟩
  refine isBest_of hk ⟨d, hd, ?_⟩ ?_
  · rw [h2 d hd hs (by rw [← hk]; exact category_sub hd), hg]
  · intro c hc hck
    obtain ⟨e1, e2⟩ := h1 c hc hck
    rw [e2]
    exact hall c hc e1

theorem worth_group {fl : Bool} {vs : List Nat} :
    ((worth fl vs).1 = 7 → shape vs = [4, 1] ∧ (worth fl vs).2 = grouped vs) ∧
    ((worth fl vs).1 = 6 → shape vs = [3, 2] ∧ (worth fl vs).2 = grouped vs) ∧
    ((worth fl vs).1 = 5 → fl = true ∧ (worth fl vs).2 = grouped vs) ∧
    ((worth fl vs).1 = 3 → shape vs = [3, 1, 1] ∧ (worth fl vs).2 = grouped vs) ∧
    ((worth fl vs).1 = 2 → shape vs = [2, 2, 1] ∧ (worth fl vs).2 = grouped vs) ∧
    ((worth fl vs).1 = 1 → shape vs = [2, 1, 1, 1] ∧ (worth fl vs).2 = grouped vs) ∧
    ((worth fl vs).1 = 0 → (worth fl vs).2 = grouped vs) := by
  unfold worth
  cases straightTop vs <;> cases fl <;> simp only <;>
    refine ⟨?_, ?_, ?_, ?_, ?_, ?_, ?_⟩ <;> (repeat' split) <;> simp_all

theorem worth_of_shape {fl : Bool} {vs : List Nat} :
    (shape vs = [4, 1] → (worth fl vs).1 ≤ 7 → worth fl vs = (7, grouped vs)) ∧
    (shape vs = [3, 2] → (worth fl vs).1 ≤ 6 → worth fl vs = (6, grouped vs)) ∧
    (shape vs = [3, 1, 1] → (worth fl vs).1 ≤ 3 → worth fl vs = (3, grouped vs)) ∧
    (shape vs = [2, 2, 1] → (worth fl vs).1 ≤ 2 → worth fl vs = (2, grouped vs)) ∧
    (shape vs = [2, 1, 1, 1] → (worth fl vs).1 ≤ 1 → worth fl vs = (1, grouped vs)) ∧
    (shape vs = [1, 1, 1, 1, 1] → (worth fl vs).1 ≤ 0 → worth fl vs = (0, grouped vs)) ∧
    (shape vs = [1, 1, 1, 1, 1] → fl = true → (worth fl vs).1 ≤ 5 →
      worth fl vs = (5, grouped vs)) := by
  unfold worth
  cases straightTop vs <;> cases fl <;> simp only <;>
    refine ⟨?_, ?_, ?_, ?_, ?_, ?_, ?_⟩ <;> intro h <;> simp [h]

/-- Five different values. -/
theorem shape_distinct {vs : List Nat} (hn : vs.Nodup) (h5 : vs.length = 5)
    (hm : ∀ v ∈ vs, v ∈ allValues) : shape vs = [1, 1, 1, 1, 1] := by
  have hmem : ∀ v, v ∈ atLeast 1 vs ↔ v ∈ vs := by
    intro v
    rw [mem_atLeast, List.one_le_count_iff]
    exact ⟨fun h => h.2, fun h => ⟨hm v h, h⟩⟩
  have hp : (atLeast 1 vs).Perm vs :=
    (List.perm_ext_iff_of_nodup (Cat.allValues_nodup.filter _) hn).2 hmem
  have hc : ∀ v, vs.count v = if v ∈ atLeast 1 vs then 1 else if v ∈ ([] : List Nat) then 0 else 0 := by
    intro v
    simp only [hmem, ite_self]
    split
    · exact List.count_eq_one_of_mem hn (by assumption)
    · exact List.count_eq_zero.2 (by assumption)
  have hg := grouped_of_counts (m := 1) (m' := 0) (b := []) (by decide) (by decide) (fun _ => rfl)
    (atLeast_desc 1 vs) List.Pairwise.nil (fun v hv => (mem_atLeast.1 hv).1) (by simp) (by simp) hc
  exact shape_of_counts (m := 1) (m' := 0) (n' := 0) hg (hp.length_eq.trans h5) rfl
    (fun v hv => by rw [hc, if_pos hv]) (by simp)

theorem shape_high {c h : List PCard} (hc : FiveOf c h) (h0 : (strength c).1 = 0) :
    shape (values c) = [1, 1, 1, 1, 1] := by
  refine shape_distinct ?_ ((values_length c).trans hc.2.1) (values_mem c)
  rw [Cat.category_five hc.1 hc.2.1] at h0
  have hp : hasPair c = false := by
    by_contra hp
    have := Cat.le_category (k := 1) (h := c) (by decide) (by simpa [Cat.has] using hp)
    omega
  rw [List.nodup_iff_count_le_one]
  intro v
  by_contra hv
  have hv : 2 ≤ (values c).count v := by omega
  have hmem : v ∈ values c := List.one_le_count_iff.1 (by omega)
  have : hasPair c = true := by
    rw [hasPair, List.any_eq_true]
    exact ⟨v, values_mem c v hmem, by simpa using hv⟩
  rw [hp] at this
  cases this

/-! ## Straights -/

theorem straightTop_some {vs : List Nat} {t : Nat} (h : straightTop vs = some t) :
    t ∈ straightTops ∧ [t, t - 1, t - 2, t - 3, t - 4].all (plays vs) = true := by
  rw [straightTop] at h
  have := List.find?_some (p := fun t => [t, t - 1, t - 2, t - 3, t - 4].all (plays vs)) h
  exact ⟨List.mem_of_find?_eq_some h, this⟩

theorem find_max {p : Nat → Bool} : ∀ {l : List Nat}, l.Pairwise (· > ·) → ∀ {t : Nat}, t ∈ l →
    p t = true → ∃ u, l.find? p = some u ∧ t ≤ u
  | x :: l, hl, t, ht, hp => by
    rw [List.pairwise_cons] at hl
    rw [List.find?_cons]
    cases hx : p x with
    | true =>
      refine ⟨x, rfl, ?_⟩
      rcases List.mem_cons.1 ht with h | h
      · omega
      · exact Nat.le_of_lt (hl.1 t h)
    | false =>
      rcases List.mem_cons.1 ht with h | h
      · subst h; rw [hp] at hx; cases hx
      · exact find_max hl.2 h hp

theorem straightTops_desc : straightTops.Pairwise (· > ·) := by decide

theorem straightTop_mono {a b : List Nat} {t : Nat} (h : ∀ v ∈ a, v ∈ b)
    (ht : straightTop a = some t) : ∃ u, straightTop b = some u ∧ t ≤ u := by
  obtain ⟨h1, h2⟩ := straightTop_some ht
  refine find_max straightTops_desc h1 ?_
  rw [List.all_eq_true] at h2 ⊢
  intro v hv
  have := h2 v hv
  simp only [plays, Bool.or_eq_true, Bool.and_eq_true, List.contains_iff_mem] at this ⊢
  rcases this with h1 | ⟨h1, h2⟩
  · exact .inl (h v h1)
  · exact .inr ⟨h1, h 14 h2⟩

theorem straightTop_run : ∀ t ∈ straightTops, straightTop (Cat.run t) = some t := by decide

theorem pick_straight {h : List PCard} {t : Nat} (ht : straightTop (values h) = some t) :
    ∃ d, FiveOf d h ∧ straightTop (values d) = some t := by
  obtain ⟨h1, h2⟩ := straightTop_some ht
  obtain ⟨r1, r2, _⟩ := Cat.run_props t h1
  obtain ⟨d, hv, hn, hm⟩ := Cat.pick h (Cat.run t) r1 (Cat.plays_run h2 (Cat.one_not_value h))
  refine ⟨d, ⟨hn, ?_, hm⟩, by rw [hv]; exact straightTop_run t h1⟩
  rw [← r2, ← hv, values, List.length_map]

theorem worth_straight {fl : Bool} {vs : List Nat} :
    ((worth fl vs).1 = 4 → ∃ t, straightTop vs = some t ∧ (worth fl vs).2 = [t]) ∧
    ((worth fl vs).1 = 8 → fl = true ∧ ∃ t, straightTop vs = some t ∧ (worth fl vs).2 = [t]) ∧
    (∀ t, straightTop vs = some t → (worth fl vs).1 ≤ 4 → worth fl vs = (4, [t])) ∧
    (∀ t, straightTop vs = some t → fl = true → worth fl vs = (8, [t])) := by
  unfold worth
  cases straightTop vs <;> cases fl <;> simp only <;>
    refine ⟨?_, ?_, ?_, ?_⟩ <;> (repeat' split) <;> simp_all

theorem cmp_one {t u : Nat} (h : t ≤ u) : cmpList [t] [u] ≠ .gt := by
  simp only [cmpList]
  rcases Nat.lt_or_eq_of_le h with h | h
  · rw [Nat.compare_eq_lt.2 h]; simp
  · rw [Nat.compare_eq_eq.2 h]; simp

theorem foldl_max_mem : ∀ (l : List Nat) (a : Nat), l.foldl max a = a ∨ l.foldl max a ∈ l
  | [], _ => .inl rfl
  | x :: l, a => by
    rw [List.foldl_cons]
    rcases foldl_max_mem l (max a x) with h | h
    · rw [h]
      rcases Nat.le_total a x with h' | h'
      · right; rw [Nat.max_eq_right h']; simp
      · left; exact Nat.max_eq_left h'
    · right; simp [h]

theorem le_foldl_max : ∀ (l : List Nat) (a : Nat), a ≤ l.foldl max a ∧ ∀ x ∈ l, x ≤ l.foldl max a
  | [], _ => by simp
  | x :: l, a => by
    rw [List.foldl_cons]
    obtain ⟨h1, h2⟩ := le_foldl_max l (max a x)
    refine ⟨by omega, ?_⟩
    intro y hy
    rcases List.mem_cons.1 hy with rfl | hy
    · omega
    · exact h2 y hy

theorem fiveOf_suit {s : Suit} {d h : List PCard} (hd : FiveOf d (ofSuit s h)) :
    FiveOf d h ∧ Rules.flush d = true :=
  ⟨⟨hd.1, hd.2.1, fun c hc => (Cat.mem_ofSuit.1 (hd.2.2 c hc)).1⟩,
    flush_iff.2 ⟨s, fun c hc => (Cat.mem_ofSuit.1 (hd.2.2 c hc)).2⟩⟩

theorem suit_fiveOf {c h : List PCard} (hc : FiveOf c h) (hf : Rules.flush c = true) :
    ∃ s, FiveOf c (ofSuit s h) := by
  obtain ⟨s, hs⟩ := flush_iff.1 hf
  exact ⟨s, hc.1, hc.2.1, fun x hx => Cat.mem_ofSuit.2 ⟨hc.2.2 x hx, hs x hx⟩⟩

/-! ## Flushes -/

theorem better_mem (a b : List Nat) : better a b = a ∨ better a b = b := by
  unfold better
  split
  · exact .inr rfl
  · exact .inl rfl

theorem le_better (a b : List Nat) : cmpList a (better a b) ≠ .gt ∧ cmpList b (better a b) ≠ .gt := by
  unfold better
  split
  · rename_i h
    refine ⟨?_, by rw [cmpList_eq_iff.2 rfl]; simp⟩
    rw [← cmpList_swap, h]; simp
  · rename_i h
    exact ⟨by rw [cmpList_eq_iff.2 rfl]; simp, h⟩

theorem foldl_better_mem : ∀ (l : List (List Nat)) (a : List Nat),
    l.foldl better a = a ∨ l.foldl better a ∈ l
  | [], _ => .inl rfl
  | x :: l, a => by
    rw [List.foldl_cons]
    rcases foldl_better_mem l (better a x) with h | h
    · rw [h]
      rcases better_mem a x with h' | h'
      · exact .inl h'
      · right; rw [h']; simp
    · right; simp [h]

theorem le_foldl_better : ∀ (l : List (List Nat)) (a : List Nat),
    cmpList a (l.foldl better a) ≠ .gt ∧ ∀ x ∈ l, cmpList x (l.foldl better a) ≠ .gt
  | [], a => by rw [List.foldl_nil, cmpList_eq_iff.2 rfl]; simp
  | x :: l, a => by
    rw [List.foldl_cons]
    obtain ⟨h1, h2⟩ := le_foldl_better l (better a x)
    refine ⟨le_trans' (le_better a x).1 h1, ?_⟩
    intro y hy
    rcases List.mem_cons.1 hy with rfl | hy
    · exact le_trans' (le_better a y).2 h1
    · exact h2 y hy

/-! ## Any number of cards -/

theorem isBest_bestWorth {h : List PCard} (hn : h.Nodup) (h5 : 5 ≤ h.length) :
    IsBest (bestWorth h) h := by
  have hle := Cat.category_le h
  unfold bestWorth
  split <;> rename_i hk
  · -- straight flush
    obtain ⟨c, hc, hck⟩ := exists_category hn h5
    rw [hk] at hck
    have hall : ∀ c, FiveOf c h → (strength c).1 = 8 → ∃ t ∈ suits.filterMap
        (fun s => straightTop (values (ofSuit s h))), ∃ u, (strength c).2 = [u] ∧ u ≤ t := by
      intro c hc hck
      obtain ⟨hf, t, ht, e⟩ := worth_straight.2.1 hck
      obtain ⟨s, hs⟩ := suit_fiveOf hc hf
      obtain ⟨u, hu, htu⟩ := straightTop_mono
        (fun v hv => (Cat.values_subperm hs.1 hs.2.2).subset hv) ht
      exact ⟨u, List.mem_filterMap.2 ⟨s, Cat.suits_all s, hu⟩, t, e, htu⟩
    have hmax := le_foldl_max (suits.filterMap (fun s => straightTop (values (ofSuit s h)))) 0
    refine isBest_of hk ?_ ?_
    · have hmem : (suits.filterMap (fun s => straightTop (values (ofSuit s h)))).foldl max 0
          ∈ suits.filterMap (fun s => straightTop (values (ofSuit s h))) := by
        rcases foldl_max_mem (suits.filterMap (fun s => straightTop (values (ofSuit s h)))) 0
          with h0 | h0
        · exfalso
          obtain ⟨t, ht, _⟩ := hall c hc hck
          have := hmax.2 t ht
          rw [h0] at this
          obtain ⟨s, _, hs⟩ := List.mem_filterMap.1 ht
          have h1 := (straightTop_some hs).1
          rw [Nat.le_zero.1 this] at h1
          revert h1
          decide
        · exact h0
      obtain ⟨s, _, hs⟩ := List.mem_filterMap.1 hmem
      obtain ⟨d, hd, hdt⟩ := pick_straight hs
      obtain ⟨hd', hf⟩ := fiveOf_suit hd
      exact ⟨d, hd', worth_straight.2.2.2 _ hdt hf⟩
    · intro c hc hck
      obtain ⟨t, ht, u, e, hut⟩ := hall c hc hck
      rw [e]
      exact cmp_one (Nat.le_trans hut (hmax.2 t ht))
  · exact group_case hn h5 hk (by decide) (by decide) (by decide) (by decide)
      (fun c _ h => worth_group.1 h) (fun c _ => worth_of_shape.1)
  · exact group_case hn h5 hk (by decide) (by decide) (by decide) (by decide)
      (fun c _ h => worth_group.2.1 h) (fun c _ => worth_of_shape.2.1)
  · -- flush
    obtain ⟨c, hc, hck⟩ := exists_category hn h5
    rw [hk] at hck
    have hsuit : ∀ s, 5 ≤ (ofSuit s h).length →
        (∃ d, FiveOf d h ∧ strength d = (5, highest 1 5 0 0 (values (ofSuit s h)))) ∧
        ∀ c, FiveOf c (ofSuit s h) →
          cmpList (grouped (values c)) (highest 1 5 0 0 (values (ofSuit s h))) ≠ .gt := by
      intro s hs5
      have hns : (ofSuit s h).Nodup := hn.filter _
      have hsh : ∀ c, FiveOf c (ofSuit s h) → shape (values c) = [1, 1, 1, 1, 1] := fun c hc =>
        shape_distinct (values_nodup hc.1 (fiveOf_suit hc).2) ((values_length c).trans hc.2.1)
          (values_mem c)
      have hex : FiveOf ((ofSuit s h).take 5) (ofSuit s h) :=
        ⟨hns.sublist (List.take_sublist _ _), by rw [List.length_take]; omega,
          fun c hc => (List.take_sublist _ _).subset hc⟩
      obtain ⟨⟨d, hd, hg, hs⟩, hall⟩ := groups_best (m := 1) (n := 5) (m' := 0) (n' := 0) hns
        (by decide) (by decide) (by decide) (by decide) ⟨_, hex, hsh _ hex⟩
      refine ⟨⟨d, (fiveOf_suit hd).1, ?_⟩, fun c hc => hall c hc (hsh c hc)⟩
      rw [← hg]
      refine worth_of_shape.2.2.2.2.2.2 hs (fiveOf_suit hd).2 ?_
      have := category_sub (fiveOf_suit hd).1
      rw [hk] at this
      exact this
    have hall : ∀ c, FiveOf c h → (strength c).1 = 5 → ∃ l ∈ (suits.filter
        (fun s => decide (5 ≤ (ofSuit s h).length))).map
        (fun s => highest 1 5 0 0 (values (ofSuit s h))), cmpList (strength c).2 l ≠ .gt := by
      intro c hc hck
      obtain ⟨hf, e⟩ := worth_group.2.2.1 hck
      obtain ⟨s, hs⟩ := suit_fiveOf hc hf
      have hlen : 5 ≤ (ofSuit s h).length := by
        have := (hs.1.subperm hs.2.2).length_le
        rw [hs.2.1] at this
        exact this
      refine ⟨_, List.mem_map.2 ⟨s, List.mem_filter.2 ⟨Cat.suits_all s, by simpa using hlen⟩, rfl⟩, ?_⟩
      rw [show (strength c).2 = grouped (values c) from e]
      exact (hsuit s hlen).2 c hs
    have hbest := le_foldl_better ((suits.filter (fun s => decide (5 ≤ (ofSuit s h).length))).map
      (fun s => highest 1 5 0 0 (values (ofSuit s h)))) []
    refine isBest_of hk ?_ ?_
    · rcases foldl_better_mem ((suits.filter (fun s => decide (5 ≤ (ofSuit s h).length))).map
        (fun s => highest 1 5 0 0 (values (ofSuit s h)))) [] with h0 | h0
      · exfalso
        obtain ⟨l, hl, hcl⟩ := hall c hc hck
        have h1 := le_trans' hcl (hbest.2 l hl)
        rw [h0, show (strength c).2 = grouped (values c) from (worth_group.2.2.1 hck).2] at h1
        have h2 := congrArg List.length (shape_distinct (values_nodup hc.1
          (worth_group.2.2.1 hck).1) ((values_length c).trans hc.2.1) (values_mem c))
        rw [shape, List.length_map] at h2
        match hg : grouped (values c), h2 with
        | x :: l', _ =>
          rw [hg] at h1
          exact h1 rfl
      · obtain ⟨s, hs, e⟩ := List.mem_map.1 h0
        rw [List.mem_filter, decide_eq_true_eq] at hs
        rw [← e]
        exact (hsuit s hs.2).1
    · intro c hc hck
      obtain ⟨l, hl, hcl⟩ := hall c hc hck
      exact le_trans' hcl (hbest.2 l hl)
  · -- straight
    have hs : hasStraight h = true := by
      have := Cat.has_category h
      rw [hk] at this
      exact this
    rw [hasStraight, Option.isSome_iff_exists] at hs
    obtain ⟨t, ht⟩ := hs
    rw [ht]
    refine isBest_of hk ?_ ?_
    · obtain ⟨d, hd, hdt⟩ := pick_straight ht
      refine ⟨d, hd, worth_straight.2.2.1 _ hdt ?_⟩
      have := category_sub hd
      rw [hk] at this
      exact this
    · intro c hc hck
      obtain ⟨u, hu, e⟩ := worth_straight.1 hck
      obtain ⟨u', hu', hle⟩ := straightTop_mono
        (fun v hv => (Cat.values_subperm hc.1 hc.2.2).subset hv) hu
      rw [ht] at hu'
      cases hu'
      rw [show (strength c).2 = [u] from e]
      exact cmp_one hle
  · exact group_case hn h5 hk (by decide) (by decide) (by decide) (by decide)
      (fun c _ h => worth_group.2.2.2.1 h) (fun c _ => worth_of_shape.2.2.1)
  · exact group_case hn h5 hk (by decide) (by decide) (by decide) (by decide)
      (fun c _ h => worth_group.2.2.2.2.1 h) (fun c _ => worth_of_shape.2.2.2.1)
  · exact group_case hn h5 hk (by decide) (by decide) (by decide) (by decide)
      (fun c _ h => worth_group.2.2.2.2.2.1 h) (fun c _ => worth_of_shape.2.2.2.2.1)
  · have hk0 : category h = 0 := by
      generalize category h = k at *
      interval_cases k <;> first | rfl | contradiction
    exact group_case hn h5 hk0 (by decide) (by decide) (by decide) (by decide)
      (fun c hc h => ⟨shape_high hc h, worth_group.2.2.2.2.2.2 h⟩)
      (fun c _ => worth_of_shape.2.2.2.2.2.1)

end Exact
end Poker

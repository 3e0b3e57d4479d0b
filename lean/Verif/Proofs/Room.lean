import Verif.Proofs.Exact
import Verif.Proofs.RoomDefs
import Verif.Props.Forced

/-! # How often each value may occur in a hand of a given worth (helper lemmas) -/

namespace Poker.Room
open Rules Tab Exact

/-! ## Values that occur often enough -/

/-- A descending list begins with those of its members that are above all others. -/
theorem take_top : ∀ (M A : List Nat), M.Pairwise (· > ·) → A.Pairwise (· > ·) → (∀ v ∈ A, v ∈ M) →
    (∀ v ∈ M, v ∉ A → ∀ y ∈ A, v < y) → M.take A.length = A
  | _, [], _, _, _, _ => by simp
  | [], a :: A, _, _, hs, _ => by simpa using hs a (by simp)
  | x :: M, a :: A, hM, hA, hs, hr => by
    rw [List.pairwise_cons] at hM hA
    have hax : a ≤ x := by
      rcases List.mem_cons.1 (hs a (by simp)) with h | h
      · omega
      · exact Nat.le_of_lt (hM.1 a h)
    have hxa : x = a := by
      by_cases hx : x ∈ a :: A
      · rcases List.mem_cons.1 hx with h | h
        · exact h
        · have := hA.1 x h
          omega
      · have := hr x (by simp) hx a (by simp)
        omega
    subst hxa
    rw [List.length_cons, List.take_succ_cons]
    congr 1
    refine take_top M A hM.2 hA.2 ?_ ?_
    · intro v hv
      rcases List.mem_cons.1 (hs v (by simp [hv])) with h | h
      · have := hA.1 v hv
        omega
      · exact h
    · intro v hv hn y hy
      refine hr v (by simp [hv]) ?_ y (by simp [hy])
      have := hM.1 v hv
      rw [List.mem_cons, not_or]
      exact ⟨by omega, hn⟩

/-- Members after the beginning of a descending list are below those of the beginning. -/
theorem below_take {M : List Nat} {n : Nat} (hM : M.Pairwise (· > ·)) {v y : Nat} (hv : v ∈ M)
    (hn : v ∉ M.take n) (hy : y ∈ M.take n) : v < y := by
  have h := hM
  rw [← List.take_append_drop n M, List.pairwise_append] at h
  rw [← List.take_append_drop n M, List.mem_append] at hv
  exact h.2.2 y hy v (hv.resolve_left hn)

/-- When `highest` gives two lists of values. -/
theorem highest_of {m n m' n' : Nat} {vs A B : List Nat} (hA : A.Pairwise (· > ·))
    (hB : B.Pairwise (· > ·)) (hn : A.length = n) (hn' : B.length = n')
    (hmA : ∀ v ∈ A, v ∈ allValues ∧ m ≤ vs.count v)
    (hmB : ∀ v ∈ B, v ∉ A ∧ v ∈ allValues ∧ m' ≤ vs.count v)
    (hrA : ∀ v ∈ allValues, v ∉ A → m ≤ vs.count v → ∀ y ∈ A, v < y)
    (hrB : ∀ v ∈ allValues, v ∉ A → v ∉ B → m' ≤ vs.count v → ∀ y ∈ B, v < y) :
    highest m n m' n' vs = A ++ B := by
  have h1 : (atLeast m vs).take n = A := by
    rw [← hn]
    refine take_top _ A (atLeast_desc m vs) hA (fun v hv => mem_atLeast.2 (hmA v hv)) ?_
    intro v hv hna
    exact hrA v (mem_atLeast.1 hv).1 hna (mem_atLeast.1 hv).2
  rw [highest, h1]
  congr 1
  rw [← hn']
  refine take_top _ B ((atLeast_desc m' vs).filter _) hB ?_ ?_
  · intro v hv
    rw [List.mem_filter, mem_atLeast]
    exact ⟨(hmB v hv).2, by simpa using (hmB v hv).1⟩
  · intro v hv hnb
    rw [List.mem_filter, mem_atLeast] at hv
    exact hrB v hv.1.1 (by simpa using hv.2) hnb hv.1.2

/-- What it means that `highest` gives two lists of values. -/
theorem of_highest {m n m' n' : Nat} {vs w : List Nat} (h : highest m n m' n' vs = w)
    (hl : w.length = n + n') :
    ((w.take n).Pairwise (· > ·) ∧ (w.drop n).Pairwise (· > ·) ∧ (w.take n).length = n ∧
      (w.drop n).length = n') ∧
    (∀ v ∈ w.take n, v ∈ allValues ∧ m ≤ vs.count v) ∧
    (∀ v ∈ w.drop n, v ∉ w.take n ∧ v ∈ allValues ∧ m' ≤ vs.count v) ∧
    (∀ v ∈ allValues, v ∉ w.take n → m ≤ vs.count v → ∀ y ∈ w.take n, v < y) ∧
    (∀ v ∈ allValues, v ∉ w.take n → v ∉ w.drop n → m' ≤ vs.count v → ∀ y ∈ w.drop n, v < y) := by
  have ha : ((atLeast m vs).take n).length ≤ n := List.length_take_le _ _
  have hb : (((atLeast m' vs).filter (fun v => !((atLeast m vs).take n).contains v)).take n').length
      ≤ n' := List.length_take_le _ _
  rw [highest] at h
  rw [← h, List.length_append] at hl
  have hA : w.take n = (atLeast m vs).take n := by
    rw [← h]; exact List.take_left' (by omega)
  have hB : w.drop n = ((atLeast m' vs).filter
      (fun v => !((atLeast m vs).take n).contains v)).take n' := by
    rw [← h]; exact List.drop_left' (by omega)
  rw [hB, hA]
  refine ⟨⟨(atLeast_desc m vs).sublist (List.take_sublist _ _),
    ((atLeast_desc m' vs).filter _).sublist (List.take_sublist _ _), by omega, by omega⟩, ?_, ?_, ?_, ?_⟩
  · intro v hv
    exact mem_atLeast.1 ((List.take_sublist _ _).subset hv)
  · intro v hv
    have := (List.take_sublist _ _).subset hv
    rw [List.mem_filter, mem_atLeast] at this
    exact ⟨by simpa using this.2, this.1⟩
  · intro v hv hna hc y hy
    exact below_take (atLeast_desc m vs) (mem_atLeast.2 ⟨hv, hc⟩) hna hy
  · intro v hv hna hnb hc y hy
    refine below_take ((atLeast_desc m' vs).filter _) ?_ hnb hy
    rw [List.mem_filter, mem_atLeast]
    exact ⟨⟨hv, hc⟩, by simpa using hna⟩

/-! ## How often a value may occur -/

/-- How often `v` must occur. -/
def lo (m m' : Nat) (A B : List Nat) (v : Nat) : Nat :=
  if v ∈ A then m else if v ∈ B then m' else 0

theorem any_beq {v : Nat} {l : List Nat} : l.any (Nat.beq v) = true ↔ v ∈ l := by
  rw [List.any_eq_true]
  constructor
  · rintro ⟨x, hx, h⟩
    rw [Nat.eq_of_beq_eq_true h]
    exact hx
  · intro h
    exact ⟨v, h, by simp⟩

theorem all_blt {v : Nat} {l : List Nat} : l.all (Nat.blt v) = true ↔ ∀ y ∈ l, v < y := by
  rw [List.all_eq_true]
  refine forall₂_congr (fun y _ => ?_)
  rw [Nat.blt_eq]

theorem hi_A {m k v : Nat} {A B : List Nat} (h : v ∈ A) : hi m k A B v = m := by
  rw [hi, any_beq.2 h]; rfl

theorem hi_B {m k v : Nat} {A B : List Nat} (h : v ∉ A) (hb : v ∈ B ∨ ∀ y ∈ B, v < y) :
    hi m k A B v = if ∀ y ∈ A, v < y then k else min k (m - 1) := by
  have h1 : A.any (Nat.beq v) = false := by rw [Bool.eq_false_iff, ne_eq, any_beq]; exact h
  have h2 : (B.any (Nat.beq v) || B.all (Nat.blt v)) = true := by
    rw [Bool.or_eq_true, any_beq, all_blt]; exact hb
  rw [hi, h1, h2]
  simp only [cond_false, cond_true]
  by_cases h3 : ∀ y ∈ A, v < y
  · rw [all_blt.2 h3, if_pos h3]; rfl
  · rw [show A.all (Nat.blt v) = false by rw [Bool.eq_false_iff, ne_eq, all_blt]; exact h3, if_neg h3]
    rfl

theorem hi_C {m k v : Nat} {A B : List Nat} (h : v ∉ A) (hb : v ∉ B) (hc : ¬ ∀ y ∈ B, v < y) :
    hi m k A B v = 0 := by
  have h1 : A.any (Nat.beq v) = false := by rw [Bool.eq_false_iff, ne_eq, any_beq]; exact h
  have h2 : B.any (Nat.beq v) = false := by rw [Bool.eq_false_iff, ne_eq, any_beq]; exact hb
  have h3 : B.all (Nat.blt v) = false := by rw [Bool.eq_false_iff, ne_eq, all_blt]; exact hc
  rw [hi, h1, h2, h3]; rfl

theorem hi_not_A {m k v : Nat} {A B : List Nat} (h : v ∉ A) : hi m k A B v ≤ k := by
  by_cases hb : v ∈ B ∨ ∀ y ∈ B, v < y
  · rw [hi_B h hb]
    split <;> omega
  · rw [not_or] at hb
    rw [hi_C h hb.1 hb.2]
    omega

/-- The counts of a hand are within the bounds. -/
theorem within {m n m' n' k : Nat} {vs w : List Nat} (h : highest m n m' n' vs = w)
    (hl : w.length = n + n') (h1 : m' = 1 ∨ n' = 0)
    (hA : ∀ v ∈ w.take n, vs.count v ≤ m)
    (hk : ∀ v ∈ allValues, v ∉ w.take n → vs.count v ≤ k) :
    ∀ v ∈ allValues, vs.count v ≤ hi m k (w.take n) (w.drop n) v := by
  obtain ⟨⟨-, -, -, l2⟩, -, -, h4, h5⟩ := of_highest h hl
  intro v hv
  by_cases ha : v ∈ w.take n
  · rw [hi_A ha]; exact hA v ha
  · by_cases hb : v ∈ w.drop n ∨ ∀ y ∈ w.drop n, v < y
    · rw [hi_B ha hb]
      have := hk v hv ha
      split
      · exact this
      · rename_i hn
        have : ¬ m ≤ vs.count v := fun hc => hn (h4 v hv ha hc)
        omega
    · rw [not_or] at hb
      rw [hi_C ha hb.1 hb.2]
      rcases h1 with h1 | h1
      · by_contra hc
        exact hb.2 (h5 v hv ha hb.1 (by omega))
      · rw [h1, List.length_eq_zero_iff] at l2
        rw [l2] at hb
        exact absurd (by simp) hb.2

/-- Counts within the bounds give the deciding values. -/
theorem highest_within {m n m' n' k : Nat} {vs A B : List Nat} (hA : A.Pairwise (· > ·))
    (hB : B.Pairwise (· > ·)) (hn : A.length = n) (hn' : B.length = n') (hm : 1 ≤ m)
    (h1 : m' = 1 ∨ n' = 0) (hmA : ∀ v ∈ A, v ∈ allValues)
    (hmB : ∀ v ∈ B, v ∉ A ∧ v ∈ allValues) (hlo : ∀ v ∈ A ++ B, lo m m' A B v ≤ vs.count v)
    (hhi : ∀ v ∈ allValues, vs.count v ≤ hi m k A B v) : highest m n m' n' vs = A ++ B := by
  refine highest_of hA hB hn hn' ?_ ?_ ?_ ?_
  · intro v hv
    have := hlo v (by simp [hv])
    rw [lo, if_pos hv] at this
    exact ⟨hmA v hv, this⟩
  · intro v hv
    have := hlo v (by simp [hv])
    rw [lo, if_neg (hmB v hv).1, if_pos hv] at this
    exact ⟨(hmB v hv).1, (hmB v hv).2, this⟩
  · intro v hv ha hc
    have := hhi v hv
    by_contra hy
    by_cases hb : v ∈ B ∨ ∀ y ∈ B, v < y
    · rw [hi_B ha hb, if_neg hy] at this
      omega
    · rw [not_or] at hb
      rw [hi_C ha hb.1 hb.2] at this
      omega
  · intro v hv ha hb hc
    rcases h1 with h1 | h1
    · have := hhi v hv
      by_contra hy
      rw [hi_C ha hb hy] at this
      omega
    · rw [h1, List.length_eq_zero_iff] at hn'
      rw [hn']
      simp

/-! ## Cards with given counts -/

theorem sum_mono {l u : Nat → Nat} {T : List Nat} (h : ∀ v ∈ T, l v ≤ u v) :
    (T.map l).sum ≤ (T.map u).sum := by
  induction T with
  | nil => exact Nat.le_refl _
  | cons x T ih =>
    rw [List.map_cons, List.sum_cons, List.map_cons, List.sum_cons]
    exact Nat.add_le_add (h x (by simp)) (ih (fun v hv => h v (by simp [hv])))

/-- Numbers between two bounds with a given sum. -/
theorem choose {l u : Nat → Nat} : ∀ {T : List Nat} {n : Nat}, T.Nodup → (∀ v ∈ T, l v ≤ u v) →
    (T.map l).sum ≤ n → n ≤ (T.map u).sum →
    ∃ c : Nat → Nat, (∀ v ∈ T, l v ≤ c v ∧ c v ≤ u v) ∧ (T.map c).sum = n
  | [], n, _, _, _, h => ⟨l, by simp, by simp at h ⊢; exact h.symm⟩
  | x :: T, n, hT, hlu, h1, h2 => by
    rw [List.nodup_cons] at hT
    rw [List.map_cons, List.sum_cons] at h1 h2
    have hx := hlu x (by simp)
    have key : ∃ a, l x ≤ a ∧ a ≤ u x ∧ (T.map l).sum ≤ n - a ∧ n - a ≤ (T.map u).sum ∧ a ≤ n := by
      by_cases hc : n - l x ≤ (T.map u).sum
      · exact ⟨l x, by omega, hx, by omega, hc, by omega⟩
      · have : (T.map l).sum ≤ (T.map u).sum :=
          sum_mono (fun v hv => hlu v (by simp [hv]))
        exact ⟨n - (T.map u).sum, by omega, by omega, by omega, by omega, by omega⟩
    obtain ⟨a, a1, a2, a3, a4, a5⟩ := key
    obtain ⟨c, c1, c2⟩ := choose hT.2 (fun v hv => hlu v (by simp [hv])) a3 a4
    refine ⟨fun v => if v = x then a else c v, ?_, ?_⟩
    · intro v hv
      by_cases hvx : v = x
      · simp only [hvx, if_true]
        exact ⟨a1, a2⟩
      · simp only [hvx, if_false]
        rcases List.mem_cons.1 hv with h | h
        · exact absurd h hvx
        · exact c1 v h
    · rw [List.map_cons, List.sum_cons, if_pos rfl]
      have : T.map (fun v => if v = x then a else c v) = T.map c := by
        refine List.map_congr_left (fun v hv => ?_)
        rw [if_neg]
        rintro rfl
        exact hT.1 hv
      rw [this, c2]
      omega

theorem suitAt_inj {i j : Nat} (h : suitAt i = suitAt j) : i % 4 = j % 4 := by
  have hi := Nat.mod_lt i (show 4 > 0 by decide)
  have hj := Nat.mod_lt j (show 4 > 0 by decide)
  unfold suitAt at h
  generalize i % 4 = a at *
  generalize j % 4 = b at *
  revert h
  interval_cases a <;> interval_cases b <;> simp

theorem pips_rankOf {v : Nat} (h : v ∈ allValues) : pips (rankOf v) = v := by
  revert v
  decide

theorem lay_mem {c : Nat → Nat} : ∀ {T : List Nat} {off : Nat} {x : PCard}, x ∈ lay c T off →
    ∃ v ∈ T, x.1 = rankOf v
  | v :: T, off, x, h => by
    rw [lay, List.mem_append] at h
    rcases h with h | h
    · obtain ⟨i, -, rfl⟩ := List.mem_map.1 h
      exact ⟨v, by simp, rfl⟩
    · obtain ⟨u, hu, e⟩ := lay_mem h
      exact ⟨u, by simp [hu], e⟩

theorem lay_count {c : Nat → Nat} : ∀ {T : List Nat} {off : Nat}, T.Nodup → (∀ v ∈ T, v ∈ allValues) →
    ∀ v, (values (lay c T off)).count v = if v ∈ T then c v else 0
  | [], _, _, _, v => by simp [lay, values]
  | x :: T, off, hT, hm, v => by
    rw [List.nodup_cons] at hT
    have ih := lay_count (c := c) (off := off + c x) hT.2 (fun v hv => hm v (by simp [hv])) v
    have hb : values ((List.range (c x)).map (fun i => (rankOf x, suitAt (off + i))))
        = List.replicate (c x) x := by
      rw [values, List.map_map, List.eq_replicate_iff]
      refine ⟨by simp, ?_⟩
      intro y hy
      obtain ⟨i, -, rfl⟩ := List.mem_map.1 hy
      exact pips_rankOf (hm x (by simp))
    rw [lay, Cat.values_append, List.count_append, ih, hb, List.count_replicate]
    by_cases hv : v = x
    · subst hv
      simp [hT.1]
    · have hv' : ¬ x = v := fun h => hv h.symm
      simp [hv, hv']

theorem lay_nodup {c : Nat → Nat} : ∀ {T : List Nat} {off : Nat}, T.Nodup → (∀ v ∈ T, v ∈ allValues) →
    (∀ v ∈ T, c v ≤ 4) → (lay c T off).Nodup
  | [], _, _, _, _ => by simp [lay]
  | x :: T, off, hT, hm, h4 => by
    rw [List.nodup_cons] at hT
    have ih := lay_nodup (c := c) (off := off + c x) hT.2 (fun v hv => hm v (by simp [hv]))
      (fun v hv => h4 v (by simp [hv]))
    rw [lay, List.nodup_append]
    refine ⟨?_, ih, ?_⟩
    · refine List.Nodup.map_on ?_ List.nodup_range
      intro i hi j hj h
      have := suitAt_inj (Prod.ext_iff.1 h).2
      rw [List.mem_range] at hi hj
      have := h4 x (by simp)
      omega
    · intro a ha b hb hab
      subst hab
      obtain ⟨i, -, rfl⟩ := List.mem_map.1 ha
      obtain ⟨v, hv, e⟩ := lay_mem hb
      have := congrArg pips e
      rw [pips_rankOf (hm x (by simp)), pips_rankOf (hm v (by simp [hv]))] at this
      subst this
      exact hT.1 hv

theorem lay_suits {c : Nat → Nat} : ∀ {T : List Nat} {off : Nat},
    (lay c T off).map Prod.snd = (List.range' off (T.map c).sum).map suitAt
  | [], _ => by simp [lay]
  | x :: T, off => by
    rw [lay, List.map_append, lay_suits, List.map_cons, List.sum_cons, ← List.range'_append_1,
      List.map_append, List.map_map]
    congr 1
    rw [List.range'_eq_map_range, List.map_map]
    rfl

theorem lay_length {c : Nat → Nat} {T : List Nat} {off : Nat} :
    (lay c T off).length = (T.map c).sum := by
  have := congrArg List.length (lay_suits (c := c) (T := T) (off := off))
  simpa using this

theorem suits_turn : ∀ n ≤ 16, ∀ s ∈ suits,
    ((List.range' 0 n).map suitAt).countP (fun t => t == s) ≤ 4 := by decide

theorem lay_flush {c : Nat → Nat} {T : List Nat} (h : (T.map c).sum ≤ 16) {s : Suit}
    (hs : s ∈ suits) : (ofSuit s (lay c T 0)).length ≤ 4 := by
  have := suits_turn _ h s hs
  rw [← lay_suits, List.countP_map] at this
  rw [ofSuit, ← List.countP_eq_length_filter]
  exact this

/-! ## The most cards -/

theorem le_grow : ∀ {rs S : List (Nat × Nat)} {b acc : Nat}, S.Sublist rs →
    Seven.inRow (b + ((S.map Prod.fst).map (2 ^ ·)).sum) = false →
    acc + (S.map Prod.snd).sum ≤ grow rs b acc
  | [], S, b, acc, hs, h => by
    rw [List.sublist_nil] at hs
    subst hs
    simp only [List.map_nil, List.sum_nil, Nat.add_zero] at h ⊢
    rw [grow, h]
    exact Nat.le_refl _
  | x :: rs, S, b, acc, hs, h => by
    rw [grow]
    rcases List.sublist_cons_iff.1 hs with hs | ⟨S', rfl, hs'⟩
    · exact Nat.le_trans (le_grow hs h) (Nat.le_max_right _ _)
    · simp only [List.map_cons, List.sum_cons, ← Nat.add_assoc] at h ⊢
      exact Nat.le_trans (le_grow hs' h) (Nat.le_max_left _ _)

theorem grow_of : ∀ {rs : List (Nat × Nat)} {b acc : Nat}, 0 < grow rs b acc →
    ∃ S : List (Nat × Nat), S.Sublist rs ∧
      Seven.inRow (b + ((S.map Prod.fst).map (2 ^ ·)).sum) = false ∧
      acc + (S.map Prod.snd).sum = grow rs b acc
  | [], b, acc, h => by
    rw [grow] at h ⊢
    refine ⟨[], List.Sublist.slnil, ?_⟩
    cases hr : Seven.inRow b <;> rw [hr] at h <;> simp_all
  | x :: rs, b, acc, h => by
    rw [grow] at h ⊢
    rcases Nat.le_total (grow rs (b + 2 ^ x.1) (acc + x.2)) (grow rs b acc) with hc | hc
    · rw [Nat.max_eq_right hc] at h ⊢
      obtain ⟨S, s1, s2, s3⟩ := grow_of h
      exact ⟨S, s1.cons x, s2, s3⟩
    · rw [Nat.max_eq_left hc] at h ⊢
      obtain ⟨S, s1, s2, s3⟩ := grow_of h
      refine ⟨x :: S, s1.cons_cons x, ?_, ?_⟩
      · simpa only [List.map_cons, List.sum_cons, ← Nat.add_assoc] using s2
      · simpa only [List.map_cons, List.sum_cons, ← Nat.add_assoc] using s3

theorem mem_free {m k : Nat} {A B : List Nat} {x : Nat × Nat} : x ∈ free m k A B ↔
    x.1 ∈ allValues ∧ x.1 ∉ A ++ B ∧ x.2 = hi m k A B x.1 ∧ 0 < x.2 := by
  rw [free, List.mem_filter, List.mem_map, Nat.blt_eq]
  constructor
  · rintro ⟨⟨v, hv, rfl⟩, h0⟩
    simp only at h0 ⊢
    cases ha : (A ++ B).any (Nat.beq v) with
    | true => rw [ha] at h0; simp at h0
    | false =>
      rw [ha] at h0
      refine ⟨hv, ?_, rfl, h0⟩
      rw [← any_beq, ha]
      simp
  · rintro ⟨h1, h2, h3, h4⟩
    refine ⟨⟨x.1, h1, ?_⟩, h4⟩
    have : (A ++ B).any (Nat.beq x.1) = false := by rw [Bool.eq_false_iff, ne_eq, any_beq]; exact h2
    rw [this, cond_false, ← h3]

theorem free_nodup (m k : Nat) (A B : List Nat) : ((free m k A B).map Prod.fst).Nodup := by
  have h : ((free m k A B).map Prod.fst).Sublist (allValues.map id) := by
    have := (List.filter_sublist (p := fun x => Nat.blt 0 x.2) (l := allValues.map
      (fun v => (v, bif (A ++ B).any (Nat.beq v) then 0 else hi m k A B v)))).map Prod.fst
    rw [List.map_map] at this
    exact this
  rw [List.map_id] at h
  exact h.nodup Cat.allValues_nodup

theorem bits_nodup {T : List Nat} (hT : T.Nodup) (hm : ∀ v ∈ T, v ∈ allValues) :
    Seven.bits T = (T.map (2 ^ ·)).sum := by
  rw [Seven.bits, Seven.sum_ite]
  refine (List.Perm.map _ ?_).sum_eq
  rw [List.perm_ext_iff_of_nodup (Cat.allValues_nodup.filter _) hT]
  intro v
  rw [List.mem_filter, decide_eq_true_eq]
  exact ⟨fun h => h.2, fun h => ⟨hm v h, h⟩⟩

theorem inRow_nodup {T : List Nat} (hT : T.Nodup) (hm : ∀ v ∈ T, v ∈ allValues) :
    Seven.inRow ((T.map (2 ^ ·)).sum) = (straightTop T).isSome := by
  rw [← bits_nodup hT hm, Seven.inRow_bits hm]

theorem length_count {T : List Nat} (hT : T.Nodup) : ∀ {l : List Nat}, (∀ v ∈ l, v ∈ T) →
    l.length = (T.map (fun v => l.count v)).sum
  | [], _ => by
    induction T with
    | nil => rfl
    | cons x T ih =>
      simp
  | x :: l, h => by
    have ih := length_count hT (l := l) (fun v hv => h v (by simp [hv]))
    rw [List.length_cons, ih]
    have : ∀ {T : List Nat}, T.Nodup → (T.map (fun v => (x :: l).count v)).sum
        = (T.map (fun v => l.count v)).sum + if x ∈ T then 1 else 0 := by
      intro T hT
      induction T with
      | nil => simp
      | cons y T ih =>
        rw [List.nodup_cons] at hT
        rw [List.map_cons, List.sum_cons, ih hT.2, List.map_cons, List.sum_cons, List.count_cons]
        by_cases hxy : x = y
        · subst hxy
          simp [hT.1]
          omega
        · simp [hxy]
          omega
    rw [this hT, if_pos (h x (by simp))]

/-! ## Hands without straight or flush -/

theorem low_room {k m n m' n' k2 N : Nat} {w : List Nat}
    (hb : ∀ h, category h = k → bestWorth h = (k, highest m n m' n' (values h)))
    (hsum : m * n + m' * n' = 5) (h1 : m' = 1 ∨ n' = 0) (hm : 1 ≤ m) (hm4 : m ≤ 4) (hk2 : 1 ≤ k2)
    (hk4 : k2 ≤ 4) (hm2 : n' = 0 ∨ 2 ≤ m) (hl : w.length = n + n')
    (hnec : ∀ h, category h = k → (straightTop (values h)).isSome = false ∧
      (∀ v ∈ w.take n, (values h).count v ≤ m) ∧ ((∀ v ∈ w.take n, m ≤ (values h).count v) →
        ∀ v ∈ allValues, v ∉ w.take n → (values h).count v ≤ k2))
    (hsuf : ∀ h, (∀ s ∈ suits, (ofSuit s h).length ≤ 4) → (straightTop (values h)).isSome = false →
      (∀ v ∈ w.take n, (values h).count v = m ∧ v ∈ allValues) →
      (∀ v ∈ allValues, v ∉ w.take n → (values h).count v ≤ k2) →
      (w.take n).Nodup → (w.take n).length = n → category h = k)
    (hw : (k, w) ∈ Kinds.ladder) (h5 : 5 ≤ N) (h16 : N ≤ 16) :
    (∃ h : List PCard, h.Nodup ∧ h.length = N ∧ IsBest (k, w) h) ↔
      N ≤ most m k2 (w.take n) (w.drop n) := by
  have best : ∀ h : List PCard, h.Nodup → 5 ≤ h.length → IsBest (k, w) h →
      category h = k ∧ highest m n m' n' (values h) = w := by
    intro h hn h5 hw
    have hc : category h = k := (Cat.category_best hn h5 hw).symm
    have := (isBest_bestWorth hn h5).unique hw
    rw [hb h hc] at this
    exact ⟨hc, (Prod.ext_iff.1 this).2⟩
  have facts : (w.take n).Pairwise (· > ·) ∧ (w.drop n).Pairwise (· > ·) ∧ (w.take n).length = n ∧
      (w.drop n).length = n' ∧ (∀ v ∈ w.take n, v ∈ allValues) ∧
      (∀ v ∈ w.drop n, v ∉ w.take n ∧ v ∈ allValues) := by
    obtain ⟨d, d1, d2, d3⟩ := ladder_hand hw
    have hd : IsBest (k, w) d := by
      have := isBest_bestWorth d1 (Nat.le_of_eq d2.symm)
      obtain ⟨⟨c, hc, e⟩, hall⟩ := this
      refine ⟨⟨d, ⟨d1, d2, fun x hx => hx⟩, d3⟩, fun c' hc' => ?_⟩
      have : c'.Perm d := (hc'.1.subperm hc'.2.2).perm_of_length_le (by rw [d2, hc'.2.1])
      rw [← d3, strength_perm this, cmpWorth_self]
      simp
    obtain ⟨⟨f1, f2, f3, f4⟩, f5, f6, -, -⟩ := of_highest (best d d1 (Nat.le_of_eq d2.symm) hd).2 hl
    exact ⟨f1, f2, f3, f4, fun v hv => (f5 v hv).1, fun v hv => ⟨(f6 v hv).1, (f6 v hv).2.1⟩⟩
  obtain ⟨f1, f2, f3, f4, f5, f6⟩ := facts
  have hwAB : w = w.take n ++ w.drop n := (List.take_append_drop n w).symm
  have hAB : (w.take n ++ w.drop n).Nodup := by
    rw [List.nodup_append]
    refine ⟨f1.imp (fun h => Nat.ne_of_gt h), f2.imp (fun h => Nat.ne_of_gt h), ?_⟩
    rintro x hx y hy rfl
    exact (f6 x hy).1 hx
  have hABm : ∀ v ∈ w.take n ++ w.drop n, v ∈ allValues := by
    intro v hv
    rcases List.mem_append.1 hv with h | h
    · exact f5 v h
    · exact (f6 v h).2
  have hTn : ∀ S : List (Nat × Nat), S.Sublist (free m k2 (w.take n) (w.drop n)) →
      ((w.take n ++ w.drop n) ++ S.map Prod.fst).Nodup ∧
      ∀ v ∈ (w.take n ++ w.drop n) ++ S.map Prod.fst, v ∈ allValues := by
    intro S hS
    constructor
    · rw [List.nodup_append]
      refine ⟨hAB, (hS.map Prod.fst).nodup (free_nodup ..), ?_⟩
      rintro x hx y hy rfl
      obtain ⟨p, hp, rfl⟩ := List.mem_map.1 hy
      exact (mem_free.1 (hS.subset hp)).2.1 hx
    · intro v hv
      rcases List.mem_append.1 hv with h | h
      · exact hABm v h
      · obtain ⟨p, hp, rfl⟩ := List.mem_map.1 h
        exact (mem_free.1 (hS.subset hp)).1
  have hsnd : ∀ S : List (Nat × Nat), S.Sublist (free m k2 (w.take n) (w.drop n)) →
      (S.map Prod.fst).map (hi m k2 (w.take n) (w.drop n)) = S.map Prod.snd := by
    intro S hS
    rw [List.map_map]
    exact List.map_congr_left (fun p hp => ((mem_free.1 (hS.subset hp)).2.2.1).symm)
  constructor
  · rintro ⟨h, hn, rfl, hbest⟩
    obtain ⟨hc, hh⟩ := best h hn h5 hbest
    obtain ⟨-, g1, g2, -, -⟩ := of_highest hh hl
    obtain ⟨hst, hA, hk⟩ := hnec h hc
    have hin := within hh hl h1 hA (hk (fun v hv => (g1 v hv).2))
    have hS : ((free m k2 (w.take n) (w.drop n)).filter
        (fun x => decide (0 < (values h).count x.1))).Sublist (free m k2 (w.take n) (w.drop n)) :=
      List.filter_sublist
    obtain ⟨t1, t2⟩ := hTn _ hS
    have t3 := hsnd _ hS
    have hsub : ∀ v ∈ (w.take n ++ w.drop n) ++ ((free m k2 (w.take n) (w.drop n)).filter
        (fun x => decide (0 < (values h).count x.1))).map Prod.fst, v ∈ values h := by
      intro v hv
      rcases List.mem_append.1 hv with hv | hv
      · rcases List.mem_append.1 hv with hv | hv
        · exact List.one_le_count_iff.1 (Nat.le_trans hm (g1 v hv).2)
        · rcases h1 with h1 | h1
          · exact List.one_le_count_iff.1 (h1 ▸ (g2 v hv).2.2)
          · rw [h1, List.length_eq_zero_iff] at f4
            rw [f4] at hv
            simp at hv
      · obtain ⟨p, hp, rfl⟩ := List.mem_map.1 hv
        have := (List.mem_filter.1 hp).2
        exact List.count_pos_iff.1 (by simpa using this)
    have hr : Seven.inRow (((w.take n ++ w.drop n).map (2 ^ ·)).sum
        + (((((free m k2 (w.take n) (w.drop n)).filter
        (fun x => decide (0 < (values h).count x.1)))).map Prod.fst).map (2 ^ ·)).sum) = false := by
      rw [← List.sum_append, ← List.map_append, inRow_nodup t1 t2]
      by_contra hc
      rw [Bool.not_eq_false, Option.isSome_iff_exists] at hc
      obtain ⟨t, ht⟩ := hc
      obtain ⟨u, hu, -⟩ := straightTop_mono hsub ht
      rw [hu] at hst
      cases hst
    refine Nat.le_trans ?_ (le_grow (acc := ((w.take n ++ w.drop n).map
      (hi m k2 (w.take n) (w.drop n))).sum) hS hr)
    rw [← t3, ← List.sum_append, ← List.map_append, ← Forced.length_values h, length_count t1 (l := values h)]
    · exact sum_mono (fun v hv => hin v (t2 v hv))
    · intro v hv
      rw [List.mem_append]
      by_cases hvw : v ∈ w.take n ++ w.drop n
      · exact .inl hvw
      · right
        have hv0 : 0 < (values h).count v := List.count_pos_iff.2 hv
        have hva := Forced.values_all h v hv
        refine List.mem_map.2 ⟨(v, hi m k2 (w.take n) (w.drop n) v), ?_, rfl⟩
        rw [List.mem_filter, mem_free]
        exact ⟨⟨hva, hvw, rfl, Nat.lt_of_lt_of_le hv0 (hin v hva)⟩, by simpa using hv0⟩
  · intro hN
    obtain ⟨S, hS, hr, hs⟩ := grow_of (Nat.lt_of_lt_of_le (by omega) hN)
    obtain ⟨t1, t2⟩ := hTn S hS
    have t3 := hsnd S hS
    rw [← List.sum_append, ← List.map_append, inRow_nodup t1 t2] at hr
    rw [← t3, ← List.sum_append, ← List.map_append] at hs
    have hlohi : ∀ v ∈ (w.take n ++ w.drop n) ++ S.map Prod.fst,
        lo m m' (w.take n) (w.drop n) v ≤ hi m k2 (w.take n) (w.drop n) v := by
      intro v hv
      by_cases ha : v ∈ w.take n
      · rw [lo, if_pos ha, hi_A ha]
      · rw [lo, if_neg ha]
        split
        · rename_i hb'
          rw [hi_B ha (.inl hb')]
          have : n' ≠ 0 := by
            intro h0
            rw [h0, List.length_eq_zero_iff] at f4
            rw [f4] at hb'
            simp at hb'
          split <;> omega
        · omega
    have hlosum : (((w.take n ++ w.drop n) ++ S.map Prod.fst).map
        (lo m m' (w.take n) (w.drop n))).sum = 5 := by
      have e1 : (w.take n).map (lo m m' (w.take n) (w.drop n)) = List.replicate n m := by
        rw [List.eq_replicate_iff, List.length_map]
        refine ⟨f3, fun x hx => ?_⟩
        obtain ⟨v, hv, rfl⟩ := List.mem_map.1 hx
        rw [lo, if_pos hv]
      have e2 : (w.drop n).map (lo m m' (w.take n) (w.drop n)) = List.replicate n' m' := by
        rw [List.eq_replicate_iff, List.length_map]
        refine ⟨f4, fun x hx => ?_⟩
        obtain ⟨v, hv, rfl⟩ := List.mem_map.1 hx
        rw [lo, if_neg (f6 v hv).1, if_pos hv]
      have e3 : (S.map Prod.fst).map (lo m m' (w.take n) (w.drop n))
          = List.replicate S.length 0 := by
        rw [List.eq_replicate_iff, List.length_map, List.length_map]
        refine ⟨rfl, fun x hx => ?_⟩
        obtain ⟨v, hv, rfl⟩ := List.mem_map.1 hx
        obtain ⟨p, hp, rfl⟩ := List.mem_map.1 hv
        have := (mem_free.1 (hS.subset hp)).2.1
        rw [List.mem_append, not_or] at this
        rw [lo, if_neg this.1, if_neg this.2]
      rw [List.map_append, List.map_append, e1, e2, e3]
      simp only [List.sum_append, List.sum_replicate, nsmul_eq_mul, Nat.cast_id]
      rw [Nat.mul_comm n, Nat.mul_comm n']
      omega
    obtain ⟨c, c1, c2⟩ := choose t1 hlohi (n := N) (by omega) (by rw [hs]; exact hN)
    have hhi4 : ∀ v, hi m k2 (w.take n) (w.drop n) v ≤ 4 := by
      intro v
      by_cases ha : v ∈ w.take n
      · rw [hi_A ha]; exact hm4
      · exact Nat.le_trans (hi_not_A ha) hk4
    have hcnt := lay_count (c := c) (off := 0) t1 t2
    have hnd := lay_nodup (c := c) (off := 0) t1 t2 (fun v hv => Nat.le_trans (c1 v hv).2 (hhi4 v))
    have hlen := lay_length (c := c) (off := 0) (T := (w.take n ++ w.drop n) ++ S.map Prod.fst)
    rw [c2] at hlen
    have hsu : ∀ s ∈ suits, (ofSuit s (lay c ((w.take n ++ w.drop n) ++ S.map Prod.fst) 0)).length ≤ 4 :=
      fun s hs => lay_flush (by rw [c2]; exact h16) hs
    generalize lay c ((w.take n ++ w.drop n) ++ S.map Prod.fst) 0 = h at *
    have hst : (straightTop (values h)).isSome = false := by
      by_contra hc
      rw [Bool.not_eq_false, Option.isSome_iff_exists] at hc
      obtain ⟨t, ht⟩ := hc
      have hsub : ∀ v ∈ values h, v ∈ (w.take n ++ w.drop n) ++ S.map Prod.fst := by
        intro v hv
        by_contra hn
        have := hcnt v
        rw [if_neg hn, List.count_eq_zero] at this
        exact this hv
      obtain ⟨u, hu, -⟩ := straightTop_mono hsub ht
      rw [hu] at hr
      cases hr
    have hin : ∀ v ∈ allValues, (values h).count v ≤ hi m k2 (w.take n) (w.drop n) v := by
      intro v _
      rw [hcnt]
      split
      · rename_i hv
        exact (c1 v hv).2
      · omega
    have hlo : ∀ v ∈ w.take n ++ w.drop n, lo m m' (w.take n) (w.drop n) v ≤ (values h).count v := by
      intro v hv
      have hv' : v ∈ (w.take n ++ w.drop n) ++ S.map Prod.fst := List.mem_append.2 (.inl hv)
      rw [hcnt, if_pos hv']
      exact (c1 v hv').1
    have hc : category h = k := by
      refine hsuf h hsu hst ?_ ?_ (f1.imp (fun h => Nat.ne_of_gt h)) f3
      · intro v hv
        have h1 := hin v (f5 v hv)
        have h2 := hlo v (List.mem_append.2 (.inl hv))
        rw [hi_A hv] at h1
        rw [lo, if_pos hv] at h2
        exact ⟨by omega, f5 v hv⟩
      · intro v hv ha
        exact Nat.le_trans (hin v hv) (hi_not_A ha)
    have hh := highest_within f1 f2 f3 f4 hm h1 f5 f6 hlo hin
    rw [List.take_append_drop] at hh
    have := isBest_bestWorth hnd (by omega : 5 ≤ h.length)
    rw [hb h hc, hh] at this
    exact ⟨h, hnd, hlen, this⟩

end Poker.Room

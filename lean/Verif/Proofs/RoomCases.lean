import Verif.Proofs.Room
import Verif.Proofs.RoomGood

/-! # How many cards a hand of a given worth can have (helper lemmas) -/

namespace Poker.Room
open Rules Tab Exact

/-! ## High card, pair, two pair, three of a kind -/

/-- No straight flush, flush or straight. -/
theorem plain {h : List PCard} (hs : ∀ s ∈ suits, (ofSuit s h).length ≤ 4)
    (hst : (straightTop (values h)).isSome = false) :
    hasStraightFlush h = false ∧ hasFlush h = false ∧ hasStraight h = false := by
  refine ⟨?_, ?_, hst⟩
  · rw [hasStraightFlush, List.any_eq_false]
    intro s _ hc
    rw [Option.isSome_iff_exists] at hc
    obtain ⟨t, ht⟩ := hc
    obtain ⟨u, hu, -⟩ := straightTop_mono (b := values h) (fun v hv => by
      obtain ⟨c, hc, rfl⟩ := List.mem_map.1 hv
      exact List.mem_map_of_mem (Cat.mem_ofSuit.1 hc).1) ht
    rw [hu] at hst
    cases hst
  · rw [hasFlush, List.any_eq_false]
    intro s hm
    have := hs s hm
    simp only [decide_eq_true_eq]
    omega

theorem any_false {n : Nat} {vs : List Nat} (h : ∀ v ∈ allValues, vs.count v ≤ n) (m : Nat) (hm : n < m) :
    allValues.any (fun v => decide (m ≤ vs.count v)) = false := by
  rw [List.any_eq_false]
  intro v hv
  have := h v hv
  simp only [decide_eq_true_eq]
  omega

/-- At most one value occurs twice. -/
theorem any_two_false {vs : List Nat} {p : Nat} (h : ∀ v ∈ allValues, v ≠ p → vs.count v ≤ 1) (m : Nat)
    (hm : 2 ≤ m) : allValues.any (fun v => allValues.any (fun u =>
      decide (u ≠ v) && decide (m ≤ vs.count v) && decide (2 ≤ vs.count u))) = false := by
  rw [List.any_eq_false]
  intro v hv hc
  rw [List.any_eq_true] at hc
  obtain ⟨u, hu, hc⟩ := hc
  simp only [Bool.and_eq_true, decide_eq_true_eq] at hc
  by_cases hvp : v = p
  · have := h u hu (by rw [← hvp]; exact hc.1.1)
    omega
  · have := h v hv hvp
    omega

theorem any_true {vs : List Nat} {p m : Nat} (hp : p ∈ allValues) (h : m ≤ vs.count p) :
    allValues.any (fun v => decide (m ≤ vs.count v)) = true :=
  List.any_eq_true.2 ⟨p, hp, by simpa using h⟩

theorem singleton_of {l : List Nat} (h : l.length = 1) : ∃ p, l = [p] := List.length_eq_one_iff.1 h

theorem room_high {w : List Nat} {N : Nat} (hw : (0, w) ∈ Kinds.ladder) (hl : w.length = 5)
    (h5 : 5 ≤ N) (h16 : N ≤ 16) : (∃ h : List PCard, h.Nodup ∧ h.length = N ∧ IsBest (0, w) h) ↔
      N ≤ most 1 1 (w.take 5) (w.drop 5) := by
  refine low_room (m' := 0) (n' := 0) (fun h hc => by rw [bestWorth, hc]; rfl) (by decide) (.inr rfl) (by decide)
    (by decide) (by decide) (by decide) (.inl rfl) hl ?_ ?_ hw h5 h16
  · intro h hc
    have hnot := fun k hk hlt => Forced.not_has (h := h) (k := k) hk hlt
    have h1 := Forced.no_tally (n := 1) (hnot 1 (by decide) (by omega))
    refine ⟨hnot 4 (by decide) (by omega), fun v _ => ?_, fun _ v hv _ => h1 v hv⟩
    by_cases hv : v ∈ allValues
    · exact h1 v hv
    · have : (values h).count v = 0 := List.count_eq_zero.2 (fun hm => hv (Forced.values_all h v hm))
      omega
  · intro h hs hst hA hk _ _
    have h1 : ∀ v ∈ allValues, (values h).count v ≤ 1 := by
      intro v hv
      by_cases ha : v ∈ w.take 5
      · exact Nat.le_of_eq (hA v ha).1
      · exact hk v hv ha
    obtain ⟨p1, p2, p3⟩ := plain hs hst
    have q : hasQuads h = false := any_false h1 4 (by decide)
    have f : hasFullHouse h = false := any_two_false (p := 0) (fun v hv _ => h1 v hv) 3 (by decide)
    have t : hasTrips h = false := any_false h1 3 (by decide)
    have w2 : hasTwoPair h = false := any_two_false (p := 0) (fun v hv _ => h1 v hv) 2 (by decide)
    have w1 : hasPair h = false := any_false h1 2 (by decide)
    simp [category, p1, p2, p3, q, f, t, w2, w1]

theorem room_pair {w : List Nat} {N : Nat} (hw : (1, w) ∈ Kinds.ladder) (hl : w.length = 4)
    (h5 : 5 ≤ N) (h16 : N ≤ 16) : (∃ h : List PCard, h.Nodup ∧ h.length = N ∧ IsBest (1, w) h) ↔
      N ≤ most 2 1 (w.take 1) (w.drop 1) := by
  refine low_room (m' := 1) (n' := 3) (fun h hc => by rw [bestWorth, hc]; rfl) (by decide) (.inl rfl) (by decide)
    (by decide) (by decide) (by decide) (.inr (by decide)) hl ?_ ?_ hw h5 h16
  · intro h hc
    have hnot := fun k hk hlt => Forced.not_has (h := h) (k := k) hk hlt
    have h2 := Forced.no_tally (n := 2) (hnot 3 (by decide) (by omega))
    obtain ⟨p, hp⟩ := singleton_of (l := w.take 1) (by rw [List.length_take, hl]; rfl)
    refine ⟨hnot 4 (by decide) (by omega), fun v _ => ?_, fun hA v hv ha => ?_⟩
    · by_cases hv : v ∈ allValues
      · exact h2 v hv
      · have : (values h).count v = 0 := List.count_eq_zero.2 (fun hm => hv (Forced.values_all h v hm))
        omega
    · have h2p := hA p (by simp [hp])
      have hpm : p ∈ allValues := Forced.values_all h p (List.one_le_count_iff.1 (by omega))
      have := Forced.no_two (hnot 2 (by decide) (by omega)) hpm hv (by simpa [hp] using ha) h2p
      omega
  · intro h hs hst hA hk _ hl1
    obtain ⟨p, hp⟩ := singleton_of hl1
    rw [hp] at hA hk
    obtain ⟨hp2, hpm⟩ := hA p (by simp)
    have h1 : ∀ v ∈ allValues, v ≠ p → (values h).count v ≤ 1 := fun v hv hne => hk v hv (by simpa using hne)
    have h2 : ∀ v ∈ allValues, (values h).count v ≤ 2 := by
      intro v hv
      by_cases ha : v = p
      · rw [ha, hp2]
      · have := h1 v hv ha
        omega
    obtain ⟨p1, p2, p3⟩ := plain hs hst
    have q : hasQuads h = false := any_false h2 4 (by decide)
    have f : hasFullHouse h = false := any_two_false h1 3 (by decide)
    have t : hasTrips h = false := any_false h2 3 (by decide)
    have w2 : hasTwoPair h = false := any_two_false h1 2 (by decide)
    have w1 : hasPair h = true := any_true hpm (Nat.le_of_eq hp2.symm)
    simp [category, p1, p2, p3, q, f, t, w2, w1]

theorem room_trips {w : List Nat} {N : Nat} (hw : (3, w) ∈ Kinds.ladder) (hl : w.length = 3)
    (h5 : 5 ≤ N) (h16 : N ≤ 16) : (∃ h : List PCard, h.Nodup ∧ h.length = N ∧ IsBest (3, w) h) ↔
      N ≤ most 3 1 (w.take 1) (w.drop 1) := by
  refine low_room (m' := 1) (n' := 2) (fun h hc => by rw [bestWorth, hc]; rfl) (by decide) (.inl rfl) (by decide)
    (by decide) (by decide) (by decide) (.inr (by decide)) hl ?_ ?_ hw h5 h16
  · intro h hc
    have hnot := fun k hk hlt => Forced.not_has (h := h) (k := k) hk hlt
    have h2 := Forced.no_tally (n := 3) (hnot 7 (by decide) (by omega))
    obtain ⟨p, hp⟩ := singleton_of (l := w.take 1) (by rw [List.length_take, hl]; rfl)
    refine ⟨hnot 4 (by decide) (by omega), fun v _ => ?_, fun hA v hv ha => ?_⟩
    · by_cases hv : v ∈ allValues
      · exact h2 v hv
      · have : (values h).count v = 0 := List.count_eq_zero.2 (fun hm => hv (Forced.values_all h v hm))
        omega
    · have h2p := hA p (by simp [hp])
      have hpm : p ∈ allValues := Forced.values_all h p (List.one_le_count_iff.1 (by omega))
      have := Forced.no_two (hnot 6 (by decide) (by omega)) hpm hv (by simpa [hp] using ha) h2p
      omega
  · intro h hs hst hA hk _ hl1
    obtain ⟨p, hp⟩ := singleton_of hl1
    rw [hp] at hA hk
    obtain ⟨hp2, hpm⟩ := hA p (by simp)
    have h1 : ∀ v ∈ allValues, v ≠ p → (values h).count v ≤ 1 := fun v hv hne => hk v hv (by simpa using hne)
    have h2 : ∀ v ∈ allValues, (values h).count v ≤ 3 := by
      intro v hv
      by_cases ha : v = p
      · rw [ha, hp2]
      · have := h1 v hv ha
        omega
    obtain ⟨p1, p2, p3⟩ := plain hs hst
    have q : hasQuads h = false := any_false h2 4 (by decide)
    have f : hasFullHouse h = false := any_two_false h1 3 (by decide)
    have t : hasTrips h = true := any_true hpm (Nat.le_of_eq hp2.symm)
    simp [category, p1, p2, p3, q, f, t]

theorem room_two {w : List Nat} {N : Nat} (hw : (2, w) ∈ Kinds.ladder) (hl : w.length = 3)
    (h5 : 5 ≤ N) (h16 : N ≤ 16) : (∃ h : List PCard, h.Nodup ∧ h.length = N ∧ IsBest (2, w) h) ↔
      N ≤ most 2 2 (w.take 2) (w.drop 2) := by
  refine low_room (m' := 1) (n' := 1) (fun h hc => by rw [bestWorth, hc]; rfl) (by decide) (.inl rfl) (by decide)
    (by decide) (by decide) (by decide) (.inr (by decide)) hl ?_ ?_ hw h5 h16
  · intro h hc
    have hnot := fun k hk hlt => Forced.not_has (h := h) (k := k) hk hlt
    have h2 := Forced.no_tally (n := 2) (hnot 3 (by decide) (by omega))
    refine ⟨hnot 4 (by decide) (by omega), fun v _ => ?_, fun hA v hv ha => h2 v hv⟩
    by_cases hv : v ∈ allValues
    · exact h2 v hv
    · have : (values h).count v = 0 := List.count_eq_zero.2 (fun hm => hv (Forced.values_all h v hm))
      omega
  · intro h hs hst hA hk hnd hl1
    obtain ⟨a, b, hp⟩ := List.length_eq_two.1 hl1
    rw [hp] at hA hk hnd
    obtain ⟨ha, ham⟩ := hA a (by simp)
    obtain ⟨hb, hbm⟩ := hA b (by simp)
    have hne : b ≠ a := by
      rintro rfl
      simp at hnd
    have h2 : ∀ v ∈ allValues, (values h).count v ≤ 2 := by
      intro v hv
      by_cases hv' : v ∈ [a, b]
      · exact Nat.le_of_eq (hA v hv').1
      · exact hk v hv hv'
    obtain ⟨p1, p2, p3⟩ := plain hs hst
    have q : hasQuads h = false := any_false h2 4 (by decide)
    have t : hasTrips h = false := any_false h2 3 (by decide)
    have f : hasFullHouse h = false := by
      rw [hasFullHouse, List.any_eq_false]
      intro v hv hc
      rw [List.any_eq_true] at hc
      obtain ⟨u, hu, hc⟩ := hc
      simp only [Bool.and_eq_true, decide_eq_true_eq] at hc
      have := h2 v hv
      omega
    have w2 : hasTwoPair h = true := by
      rw [hasTwoPair, List.any_eq_true]
      refine ⟨a, ham, ?_⟩
      rw [List.any_eq_true]
      exact ⟨b, hbm, by simp [hne, ha, hb]⟩
    simp [category, p1, p2, p3, q, f, t, w2]

/-! ## Fewer cards -/

/-- Cards outside the best five may be left out. -/
theorem shrink {w : Nat × List Nat} {h : List PCard} (hn : h.Nodup) (hw : IsBest w h) {n : Nat}
    (h5 : 5 ≤ n) (hl : n ≤ h.length) :
    ∃ h' : List PCard, h'.Nodup ∧ h'.length = n ∧ IsBest w h' := by
  obtain ⟨⟨c, hc, rfl⟩, hall⟩ := hw
  have hp : (h.filter (fun x => decide (x ∈ c))).Perm c := by
    rw [List.perm_ext_iff_of_nodup (hn.filter _) hc.1]
    intro x
    rw [List.mem_filter, decide_eq_true_eq]
    exact ⟨fun h => h.2, fun h => ⟨hc.2.2 x h, h⟩⟩
  have hlen : h.length = 5 + (h.filter (fun x => !decide (x ∈ c))).length := by
    rw [← hc.2.1, ← hp.length_eq]
    exact List.length_eq_length_filter_add _
  have hsub : ∀ x ∈ c ++ (h.filter (fun x => !decide (x ∈ c))).take (n - 5), x ∈ h := by
    intro x hx
    rcases List.mem_append.1 hx with hx | hx
    · exact hc.2.2 x hx
    · exact (List.mem_filter.1 (List.mem_of_mem_take hx)).1
  refine ⟨c ++ (h.filter (fun x => !decide (x ∈ c))).take (n - 5), ?_, ?_, ?_, ?_⟩
  · rw [List.nodup_append]
    refine ⟨hc.1, (hn.filter _).sublist (List.take_sublist _ _), ?_⟩
    rintro x hx y hy rfl
    have := (List.mem_filter.1 (List.mem_of_mem_take hy)).2
    simp [hx] at this
  · rw [List.length_append, List.length_take, hc.2.1]
    omega
  · exact ⟨c, ⟨hc.1, hc.2.1, fun x hx => List.mem_append.2 (.inl hx)⟩, rfl⟩
  · intro d hd
    exact hall d ⟨hd.1, hd.2.1, fun x hx => hsub x (hd.2.2 x hx)⟩

/-! ## Straights, full houses, four of a kind, straight flushes -/

theorem room_good {w : Nat × List Nat} {n N : Nat} (h : Good w n) (h5 : 5 ≤ N) (hN : N ≤ n) :
    ∃ h : List PCard, h.Nodup ∧ h.length = N ∧ IsBest w h := by
  obtain ⟨h1, h2, h3⟩ := h
  have := isBest_bestWorth h1 (by omega)
  rw [h3] at this
  exact shrink h1 this h5 (by omega)

theorem room_quads {w : List Nat} {N : Nat} (hw : (7, w) ∈ Kinds.sQuads.worths) (hl : w.length = 2)
    (h5 : 5 ≤ N) (h16 : N ≤ 16) : (∃ h : List PCard, h.Nodup ∧ h.length = N ∧ IsBest (7, w) h) ↔
      N ≤ quadRoom w := by
  constructor
  · rintro ⟨h, hn, rfl, hb⟩
    have hc : category h = 7 := (Cat.category_best hn h5 hb).symm
    have he := (isBest_bestWorth hn h5).unique hb
    rw [show bestWorth h = (7, highest 4 1 1 1 (values h)) by rw [bestWorth, hc]; rfl] at he
    have h4 : ∀ v, (values h).count v ≤ 4 := count_values_le hn
    have hin := within (k := 4) (Prod.ext_iff.1 he).2 hl (.inl rfl) (fun v _ => h4 v) (fun v _ _ => h4 v)
    rw [← Forced.length_values h, length_count Cat.allValues_nodup (Forced.values_all h)]
    exact sum_mono hin
  · intro hN
    exact room_good (good_quads _ hw) h5 (Nat.le_min.2 ⟨h16, hN⟩)

/-! ## Flushes -/

theorem room_flush {w : List Nat} {N : Nat} (hw : w ∈ Kinds.nonStraights) (h5 : 5 ≤ N) (h16 : N ≤ 16) :
    ∃ h : List PCard, h.Nodup ∧ h.length = N ∧ IsBest (5, w) h := by
  obtain ⟨hc, hns⟩ := List.mem_filter.1 hw
  obtain ⟨hsub, hl⟩ := mem_combos.1 hc
  have hd : w.Pairwise (· > ·) := allValues_desc.sublist hsub
  have hnd : w.Nodup := hsub.nodup Cat.allValues_nodup
  have hm : ∀ v ∈ w, v ∈ allValues := fun v hv => hsub.subset hv
  have hst : straightTop w = none := by
    have : ∀ c ∈ Kinds.nonStraights, straightTop c = none := by decide +kernel
    exact this w hw
  have hval : values (w.map (fun v => (rankOf v, Suit.Clubs))) = w := by
    rw [values, List.map_map]
    conv_rhs => rw [← List.map_id w]
    exact List.map_congr_left (fun v hv => pips_rankOf (hm v hv))
  have hclub : ofSuit .Clubs (w.map (fun v => (rankOf v, Suit.Clubs)) ++ others)
      = w.map (fun v => (rankOf v, Suit.Clubs)) := by
    rw [ofSuit, List.filter_append, show others.filter (fun c => c.2 == Suit.Clubs) = [] by decide,
      List.append_nil, List.filter_eq_self]
    intro x hx
    obtain ⟨v, -, rfl⟩ := List.mem_map.1 hx
    rfl
  have hrest : ∀ s, s ≠ .Clubs → ofSuit s (w.map (fun v => (rankOf v, Suit.Clubs)) ++ others)
      = ofSuit s others := by
    intro s hs
    rw [ofSuit, List.filter_append, ofSuit]
    rw [show (w.map (fun v => (rankOf v, Suit.Clubs))).filter (fun c => c.2 == s) = [] from ?_]
    · rfl
    · rw [List.filter_eq_nil_iff]
      intro x hx
      obtain ⟨v, -, rfl⟩ := List.mem_map.1 hx
      simpa using fun h => hs h.symm
  have hcnt : ∀ v ∈ allValues, (values (w.map (fun v => (rankOf v, Suit.Clubs)) ++ others)).count v ≤ 2 := by
    intro v hv
    rw [Cat.values_append, List.count_append, hval]
    have h1 := List.nodup_iff_count_le_one.1 hnd v
    have h2 : ∀ v ∈ allValues, (values others).count v ≤ 1 := by decide
    have := h2 v hv
    omega
  have hH := hrest .Hearts (by decide)
  have hS := hrest .Spades (by decide)
  have hD := hrest .Diamonds (by decide)
  have hlen : (w.map (fun v => (rankOf v, Suit.Clubs)) ++ others).length = 16 := by
    rw [List.length_append, List.length_map, hl]; rfl
  have hnodup : (w.map (fun v => (rankOf v, Suit.Clubs)) ++ others).Nodup := by
    rw [List.nodup_append]
    refine ⟨List.Nodup.of_map (fun c : PCard => pips c.1) ?_, by decide, ?_⟩
    · show (values _).Nodup
      rw [hval]; exact hnd
    · rintro x hx y hy rfl
      obtain ⟨v, -, rfl⟩ := List.mem_map.1 hx
      have : ∀ c ∈ others, c.2 ≠ .Clubs := by decide
      exact this _ hy rfl
  generalize w.map (fun v => (rankOf v, Suit.Clubs)) ++ others = h at *
  have hcl : (ofSuit .Clubs h).length = 5 := by rw [hclub, List.length_map, hl]
  have g1 : hasStraightFlush h = false := by
    simp only [hasStraightFlush, suits, List.any_cons, List.any_nil, hclub, hH, hS, hD, hval, hst]
    decide
  have g2 : hasQuads h = false := any_false hcnt 4 (by decide)
  have g3 : hasFullHouse h = false := by
    rw [hasFullHouse, List.any_eq_false]
    intro v hv hc
    rw [List.any_eq_true] at hc
    obtain ⟨u, hu, hc⟩ := hc
    simp only [Bool.and_eq_true, decide_eq_true_eq] at hc
    have := hcnt v hv
    omega
  have g4 : hasFlush h = true := by
    rw [hasFlush, List.any_eq_true]
    exact ⟨.Clubs, by decide, by simp [hcl]⟩
  have gc : category h = 5 := by simp [category, g1, g2, g3, g4]
  have gf : suits.filter (fun s => decide (5 ≤ (ofSuit s h).length)) = [.Clubs] := by
    simp only [suits, List.filter_cons, List.filter_nil, hcl, hH, hS, hD]
    decide
  have gh : highest 1 5 0 0 w = w := by
    have := highest_of (m := 1) (m' := 0) (B := []) (vs := w) hd List.Pairwise.nil hl rfl
      (fun v hv => ⟨hm v hv, List.one_le_count_iff.2 hv⟩) (by simp)
      (fun v _ hn hc => absurd (List.one_le_count_iff.1 hc) hn) (by simp)
    rwa [List.append_nil] at this
  have gb : bestWorth h = (5, w) := by
    rw [bestWorth, gc]
    show (5, _) = _
    rw [gf]
    simp only [List.map_cons, List.map_nil, List.foldl_cons, List.foldl_nil, hclub, hval, gh]
    obtain ⟨a, l, rfl⟩ : ∃ a l, w = a :: l := by
      cases w with
      | nil => simp at hl
      | cons a l => exact ⟨a, l, rfl⟩
    rfl
  have := isBest_bestWorth hnodup (by omega)
  rw [gb] at this
  exact shrink hnodup this h5 (by omega)

/-! ## All of them -/

theorem room_le (w : Nat × List Nat) : room w ≤ 16 := by
  unfold room
  split <;> omega

theorem cap {N a : Nat} (h : N ≤ 16) : N ≤ a ↔ N ≤ min 16 a := by omega

theorem key_lengths : (∀ c ∈ Kinds.sHigh.seg, (Kinds.sHigh.key c).length = 5) ∧
    (∀ c ∈ Kinds.sPair.seg, (Kinds.sPair.key c).length = 4) ∧
    (∀ c ∈ Kinds.sTwoPair.seg, (Kinds.sTwoPair.key c).length = 3) ∧
    (∀ c ∈ Kinds.sTrips.seg, (Kinds.sTrips.key c).length = 3) ∧
    (∀ c ∈ Kinds.sQuads.seg, (Kinds.sQuads.key c).length = 2) := by
  refine ⟨?_, ?_, ?_, ?_, ?_⟩ <;> decide +kernel

theorem room_iff {w : Nat × List Nat} (hw : w ∈ Kinds.ladder) {N : Nat} (h5 : 5 ≤ N) (h16 : N ≤ 16) :
    (∃ h : List PCard, h.Nodup ∧ h.length = N ∧ IsBest w h) ↔ N ≤ room w := by
  obtain ⟨s, hs, hsw⟩ := List.mem_flatMap.1 hw
  obtain ⟨k1, k2, k3, k4, k5⟩ := key_lengths
  simp only [Kinds.segments, List.mem_cons, List.not_mem_nil, or_false] at hs
  have triv : ∀ {P : Prop}, P → N ≤ 16 → (P ↔ N ≤ 16) := fun p q => ⟨fun _ => q, fun _ => p⟩
  rcases hs with rfl | rfl | rfl | rfl | rfl | rfl | rfl | rfl | rfl
  · have := room_good (good_straightFlushes w hsw) h5 h16
    obtain ⟨c, hc, rfl⟩ := List.mem_map.1 hsw
    exact triv this h16
  · obtain ⟨c, hc, rfl⟩ := List.mem_map.1 hsw
    refine (room_quads hsw (k5 c hc) h5 h16).trans ?_
    exact cap h16
  · have := room_good (good_fullHouses w hsw) h5 h16
    obtain ⟨c, hc, rfl⟩ := List.mem_map.1 hsw
    exact triv this h16
  · obtain ⟨c, hc, rfl⟩ := List.mem_map.1 hsw
    exact triv (room_flush hc h5 h16) h16
  · have := room_good (good_straights w hsw) h5 h16
    obtain ⟨c, hc, rfl⟩ := List.mem_map.1 hsw
    exact triv this h16
  · obtain ⟨c, hc, rfl⟩ := List.mem_map.1 hsw
    refine (room_trips hw (k4 c hc) h5 h16).trans ?_
    exact cap h16
  · obtain ⟨c, hc, rfl⟩ := List.mem_map.1 hsw
    refine (room_two hw (k3 c hc) h5 h16).trans ?_
    exact cap h16
  · obtain ⟨c, hc, rfl⟩ := List.mem_map.1 hsw
    refine (room_pair hw (k2 c hc) h5 h16).trans ?_
    exact cap h16
  · obtain ⟨c, hc, rfl⟩ := List.mem_map.1 hsw
    refine (room_high hw (k1 c hc) h5 h16).trans ?_
    exact cap h16

end Poker.Room

import Verif.Props.Board
import Verif.Proofs.Outs
import Verif.Props.Counts

/-! # One more card: C71 -/

namespace Poker
open Rules Tab

/-- C71: what a result can turn into when one card is added to any number of cards. -/
theorem c71_step (h : List PCard) (c : PCard) (e e' : Eval) (he : evaluateHand h = .ok (.ok e))
    (he' : evaluateHand (c :: h) = .ok (.ok e')) :
    classNumber e'.class' ∈ becomes h.length (classNumber e.class') := by
  rw [c31_class h e he, c31_class _ e' he']
  exact Outs.step (ok_iff.1 he').1

/-- C71: for five, six and seven cards each of these steps happens, so nothing can be left out. -/
theorem c71_attained (n k k' : Nat) (hn : n = 5 ∨ n = 6 ∨ n = 7) (hk : k' ∈ becomes n k) :
    ∃ h c e e', h.length = n ∧ evaluateHand h = .ok (.ok e) ∧ evaluateHand (c :: h) = .ok (.ok e') ∧
      classNumber e.class' = k ∧ classNumber e'.class' = k' := by
  obtain ⟨c, h, hd, hl, h1, h2⟩ := Outs.attained hn hk
  obtain ⟨e, he⟩ := (c04_iff h).2.2.2 ⟨(List.nodup_cons.1 hd).2, by omega⟩
  obtain ⟨e', he'⟩ := (c04_iff (c :: h)).2.2.2 ⟨hd, by rw [List.length_cons]; omega⟩
  exact ⟨h, c, e, e', hl, he, he', by rw [c31_class _ e he, h1], by rw [c31_class _ e' he', h2]⟩

/-- Five cards with two pairs stay two pairs or become a full house. -/
example (h : List PCard) (c : PCard) (e e' : Eval) (h5 : h.length = 5)
    (he : evaluateHand h = .ok (.ok e)) (hp : e.is_two_pair = true)
    (he' : evaluateHand (c :: h) = .ok (.ok e')) : e'.is_two_pair = true ∨ e'.is_full_house = true := by
  have h1 := c71_step h c e e' he he'
  rw [(predicate_number e).2.2.2.2.2.2.1.1 hp, h5] at h1
  rw [(predicate_number e').2.2.2.2.2.2.1, (predicate_number e').2.2.1]
  simpa [becomes] using h1

/-- There are such cards: two pairs that become a full house. -/
example : ∃ h c e e', h.length = 5 ∧ evaluateHand h = .ok (.ok e) ∧ evaluateHand (c :: h) = .ok (.ok e') ∧
    classNumber e.class' = 2 ∧ classNumber e'.class' = 6 :=
  c71_attained 5 2 6 (.inl rfl) (by decide)

theorem further_of {h : List PCard} {k n : Nat} (hn : h.Nodup) (h4 : 4 ≤ h.length) {p : Eval → Prop}
    (hp : ∀ e, p e ↔ classNumber e.class' = k) (hc : Outs.Count h k n) : further h p = n := by
  classical
  obtain ⟨L, h1, h2, h3⟩ := hc
  rw [further, ← h2, ← List.toFinset_card_of_nodup h1]
  congr 1
  ext c
  rw [Finset.mem_filter, List.mem_toFinset, h3]
  constructor
  · rintro ⟨_, e, he, h5⟩
    refine ⟨(List.nodup_cons.1 (ok_iff.1 he).1).1, ?_⟩
    rw [← c31_class _ e he]
    exact (hp e).1 h5
  · rintro ⟨h5, h6⟩
    obtain ⟨e, he⟩ := (c04_iff (c :: h)).2.2.2 ⟨List.nodup_cons.2 ⟨h5, hn⟩, by
      rw [List.length_cons]; omega⟩
    exact ⟨pack_complete c, e, he, (hp e).2 (by rw [c31_class _ e he, h6])⟩

/-- C71: how many of the other cards turn five or six cards into a better category. -/
theorem c71_outs (h : List PCard) (e : Eval) (he : evaluateHand h = .ok (.ok e)) (h6 : h.length ≤ 6) :
    (classNumber e.class' < 8 → further h (·.is_straight_flush = true) = outs h 8) ∧
    (classNumber e.class' < 7 → further h (·.is_four_of_a_kind = true) = outs h 7) ∧
    (classNumber e.class' < 6 → further h (·.is_full_house = true) = outs h 6) ∧
    (classNumber e.class' < 5 → further h (·.is_flush = true) = outs h 5) ∧
    (classNumber e.class' < 4 → further h (·.is_straight = true) = outs h 4) ∧
    (classNumber e.class' < 3 → further h (·.is_three_of_a_kind = true) = outs h 3) ∧
    (classNumber e.class' < 2 → further h (·.is_two_pair = true) = outs h 2) ∧
    (classNumber e.class' < 1 → further h (·.is_pair = true) = outs h 1) := by
  obtain ⟨hn, h5⟩ := ok_iff.1 he
  rw [c31_class h e he]
  have h4 : 4 ≤ h.length := by omega
  refine ⟨fun hk => ?_, fun hk => ?_, fun hk => ?_, fun hk => ?_, fun hk => ?_,
    fun hk => ?_, fun hk => ?_, fun hk => ?_⟩
  · exact further_of hn h4 (fun e => (predicate_number e).1) (Outs.count8 hk)
  · exact further_of hn h4 (fun e => (predicate_number e).2.1) (Outs.count7 hn h6 hk)
  · exact further_of hn h4 (fun e => (predicate_number e).2.2.1) (Outs.count6 hn h6 hk)
  · exact further_of hn h4 (fun e => (predicate_number e).2.2.2.1) (Outs.count5 hn h6 hk)
  · exact further_of hn h4 (fun e => (predicate_number e).2.2.2.2.1) (Outs.count4 hn h6 hk)
  · exact further_of hn h4 (fun e => (predicate_number e).2.2.2.2.2.1) (Outs.count3 hn h6 hk)
  · exact further_of hn h4 (fun e => (predicate_number e).2.2.2.2.2.2.1) (Outs.count2 hn h6 hk)
  · exact further_of hn h4 (fun e => (predicate_number e).2.2.2.2.2.2.2.1) (Outs.count1 hn h6 hk)

/-- Four hearts: nine cards make a flush, and fourteen a pair: three of each heart and two of the seven. -/
example : (List.range 9).map (outs [(.Two, .Hearts), (.Nine, .Hearts), (.Jack, .Hearts), (.King, .Hearts),
    (.Seven, .Clubs)]) = [0, 14, 0, 0, 0, 9, 0, 0, 0] := by decide

/-- Four in a row, open at both ends: eight cards make a straight, fifteen a pair. -/
example : (List.range 9).map (outs [(.Six, .Hearts), (.Seven, .Clubs), (.Eight, .Hearts), (.Nine, .Spades),
    (.King, .Clubs)]) = [0, 15, 0, 0, 8, 0, 0, 0, 0] := by decide

/-- Four in a row of one suit, after the turn: two cards make a straight flush, seven a flush, six a straight. -/
example : (List.range' 4 5).map (outs [(.Six, .Hearts), (.Seven, .Hearts), (.Eight, .Hearts),
    (.Nine, .Hearts), (.King, .Clubs), (.Two, .Spades)]) = [6, 7, 0, 0, 2] := by decide

/-- Three of a kind and three others: nine cards make a full house, one makes four of a kind. -/
example : (List.range' 6 2).map (outs [(.Six, .Hearts), (.Six, .Clubs), (.Six, .Spades),
    (.Nine, .Hearts), (.King, .Clubs), (.Two, .Spades)]) = [9, 1] := by decide

/-- So the results say: of the 47 other cards nine make a flush of these five. -/
example : further [(.Two, .Hearts), (.Nine, .Hearts), (.Jack, .Hearts), (.King, .Hearts), (.Seven, .Clubs)]
    (·.is_flush = true) = 9 := by
  obtain ⟨e, he⟩ := (c04_iff [(.Two, .Hearts), (.Nine, .Hearts), (.Jack, .Hearts), (.King, .Hearts),
    (.Seven, .Clubs)]).2.2.2 ⟨by decide, by decide⟩
  refine ((c71_outs _ e he (by decide)).2.2.2.1 ?_).trans (by decide)
  rw [c31_class _ e he]
  decide

end Poker

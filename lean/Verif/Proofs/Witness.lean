import Verif.Proofs.Best

/-! # Hands for every kind, and injectivity of worth (helper lemmas) -/

namespace Poker
open Rules Comb

namespace Tab

attribute [local irreducible] Kinds.straights Kinds.nonStraights Kinds.quads Kinds.fullHouses
  Kinds.trips Kinds.twoPairs Kinds.pairs

/-! ## Hands of a kind -/

def suitsOf (fl : Bool) : List Suit :=
  if fl then [.Clubs, .Clubs, .Clubs, .Clubs, .Clubs]
  else [.Clubs, .Diamonds, .Hearts, .Spades, .Clubs]

/-- Five cards of the given values, all of one suit or not. -/
def handOf (fl : Bool) (c : List Nat) : List PCard := (c.zip (suitsOf fl)).map (fun p => (rankOf p.1, p.2))

set_option maxRecDepth 100000 in
theorem check_ends : unsuitedKinds.all (fun c => c.getD 0 0 != c.getD 4 0) = true := by
  decide +kernel

theorem pips_rankOf {v : Nat} (h : v ∈ allValues) : pips (rankOf v) = v := by
  have : ∀ v ∈ allValues, pips (rankOf v) = v := by decide
  exact this v h

theorem handOf_values {fl : Bool} {c : List Nat} (h5 : c.length = 5)
    (hv : ∀ v ∈ c, v ∈ allValues) : values (handOf fl c) = c ∧ (handOf fl c).length = 5 := by
  obtain ⟨a, b, d, e, f, rfl⟩ := idx5 h5
  simp only [List.mem_cons, List.not_mem_nil, or_false, forall_eq_or_imp, forall_eq] at hv
  obtain ⟨ha, hb, hd, he, hf⟩ := hv
  cases fl <;>
    simp [handOf, suitsOf, values, pips_rankOf ha, pips_rankOf hb, pips_rankOf hd, pips_rankOf he,
      pips_rankOf hf]

theorem handOf_flush {fl : Bool} {c : List Nat} (h5 : c.length = 5) :
    Rules.flush (handOf fl c) = fl := by
  obtain ⟨a, b, d, e, f, rfl⟩ := idx5 h5
  cases fl <;> simp [handOf, suitsOf, Rules.flush]

theorem rankOf_ne {v w : Nat} (hv : v ∈ allValues) (hw : w ∈ allValues) (h : v ≠ w) :
    rankOf v ≠ rankOf w := by
  intro e
  apply h
  rw [← pips_rankOf hv, e, pips_rankOf hw]

theorem handOf_nodup_unsuited {c : List Nat} (h : c ∈ unsuitedKinds) : (handOf false c).Nodup := by
  have h5 := kind_length h
  have hv := kind_values h
  have he := List.all_eq_true.1 check_ends c h
  obtain ⟨a, b, d, e, f, rfl⟩ := idx5 h5
  simp only [List.getD_cons_zero, List.getD_cons_succ, bne_iff_ne, ne_eq] at he
  have := rankOf_ne (hv a (by simp)) (hv f (by simp)) he
  simp [handOf, suitsOf, this]

theorem nodup_of_five {c : List Nat} (h : c ∈ five) : c.Nodup :=
  (mem_combos.1 h).1.nodup (by decide)

theorem handOf_nodup_flush {c : List Nat} (h : c ∈ five) : (handOf true c).Nodup := by
  have hk := flushKinds_sub (mem_flushKinds.2 h)
  have := nodup_of_five h
  rw [← (handOf_values (fl := true) (kind_length hk) (kind_values hk)).1] at this
  exact List.Nodup.of_map _ this

theorem strength_handOf {fl : Bool} {c : List Nat} (h : c ∈ unsuitedKinds) :
    strength (handOf fl c) = worth fl c := by
  rw [strength, handOf_flush (kind_length h), (handOf_values (kind_length h) (kind_values h)).1]

/-- Every entry of the ladder is the strength of a hand. -/
theorem ladder_hand {w : Nat × List Nat} (h : w ∈ Kinds.ladder) :
    ∃ d : List PCard, d.Nodup ∧ d.length = 5 ∧ strength d = w := by
  obtain ⟨s, hs, hw⟩ := List.mem_flatMap.1 h
  obtain ⟨c, hc, rfl⟩ := List.mem_map.1 hw
  rw [← Kinds.worth_seg hs hc]
  have flush_case : c ∈ flushKinds → ∃ d : List PCard, d.Nodup ∧ d.length = 5 ∧
      strength d = worth true c := fun hk =>
    have hk' := flushKinds_sub hk
    ⟨handOf true c, handOf_nodup_flush (mem_flushKinds.1 hk),
      (handOf_values (kind_length hk') (kind_values hk')).2, strength_handOf hk'⟩
  have unsuited_case : c ∈ unsuitedKinds → ∃ d : List PCard, d.Nodup ∧ d.length = 5 ∧
      strength d = worth false c := fun hk =>
    ⟨handOf false c, handOf_nodup_unsuited hk,
      (handOf_values (kind_length hk) (kind_values hk)).2, strength_handOf hk⟩
  simp only [Kinds.segments, List.mem_cons, List.not_mem_nil, or_false] at hs
  rcases hs with rfl | rfl | rfl | rfl | rfl | rfl | rfl | rfl | rfl
  · exact flush_case (List.mem_append.2 (.inl hc))
  · exact unsuited_case (by simp only [unsuitedKinds, List.mem_append]; exact .inl (.inl (.inl (.inl (.inr hc)))))
  · exact unsuited_case (by simp only [unsuitedKinds, List.mem_append]; exact .inl (.inl (.inl (.inr hc))))
  · exact flush_case (List.mem_append.2 (.inr hc))
  · exact unsuited_case (by simp only [unsuitedKinds, List.mem_append]; exact .inl (.inl (.inl (.inl (.inl (.inl hc))))))
  · exact unsuited_case (by simp only [unsuitedKinds, List.mem_append]; exact .inl (.inl (.inr hc)))
  · exact unsuited_case (by simp only [unsuitedKinds, List.mem_append]; exact .inl (.inr hc))
  · exact unsuited_case (by simp only [unsuitedKinds, List.mem_append]; exact .inr hc)
  · exact unsuited_case (by simp only [unsuitedKinds, List.mem_append]; exact .inl (.inl (.inl (.inl (.inl (.inr hc))))))

/-! ## Worth determines flushness and values -/

/-- All kinds with their flag, best first. -/
def allKinds : List (Bool × List Nat) :=
  Kinds.segments.flatMap (fun s => s.seg.map (fun c => (s.fl, c)))

theorem ladder_allKinds : allKinds.map (fun k => worth k.1 k.2) = Kinds.ladder := by
  unfold allKinds Kinds.ladder
  rw [List.map_flatMap]
  refine List.flatMap_congr ?_
  intro s hs
  rw [List.map_map]
  exact List.map_congr_left (fun c hc => Kinds.worth_seg hs hc)

theorem worth_inj_kinds {k k' : Bool × List Nat} (h : k ∈ allKinds) (h' : k' ∈ allKinds)
    (e : worth k.1 k.2 = worth k'.1 k'.2) : k = k' := by
  have hn := Kinds.nodup_ladder
  rw [← ladder_allKinds] at hn
  exact List.inj_on_of_nodup_map hn h h' e

theorem mem_allKinds {s : Kinds.Segment} (hs : s ∈ Kinds.segments) {c : List Nat} (hc : c ∈ s.seg) :
    (s.fl, c) ∈ allKinds :=
  List.mem_flatMap.2 ⟨s, hs, List.mem_map.2 ⟨c, hc, rfl⟩⟩

theorem flush_allKinds {c : List Nat} (h : c ∈ five) : (true, c) ∈ allKinds := by
  rcases five_split h with h | h
  · exact mem_allKinds (s := Kinds.sStraightFlush) (by simp [Kinds.segments]) h
  · exact mem_allKinds (s := Kinds.sFlush) (by simp [Kinds.segments]) h

theorem unsuited_allKinds {c : List Nat} (h : c ∈ unsuitedKinds) : (false, c) ∈ allKinds := by
  simp only [unsuitedKinds, List.mem_append] at h
  rcases h with (((((h | h) | h) | h) | h) | h) | h
  · exact mem_allKinds (s := Kinds.sStraight) (by simp [Kinds.segments]) h
  · exact mem_allKinds (s := Kinds.sHigh) (by simp [Kinds.segments]) h
  · exact mem_allKinds (s := Kinds.sQuads) (by simp [Kinds.segments]) h
  · exact mem_allKinds (s := Kinds.sFullHouse) (by simp [Kinds.segments]) h
  · exact mem_allKinds (s := Kinds.sTrips) (by simp [Kinds.segments]) h
  · exact mem_allKinds (s := Kinds.sTwoPair) (by simp [Kinds.segments]) h
  · exact mem_allKinds (s := Kinds.sPair) (by simp [Kinds.segments]) h

theorem hand_kind {h : List PCard} (hn : h.Nodup) (h5 : h.length = 5) :
    ∃ c, (Rules.flush h, c) ∈ allKinds ∧ (values h).Perm c := by
  cases hf : Rules.flush h with
  | true =>
    obtain ⟨c, hc, hp⟩ := cover_flush ((values_length h).trans h5) (values_mem h)
      (values_nodup hn hf)
    exact ⟨c, flush_allKinds hc, hp⟩
  | false =>
    obtain ⟨c, hc, hp⟩ := cover_unsuited ((values_length h).trans h5) (values_mem h)
      (count_values_le hn)
    exact ⟨c, unsuited_allKinds hc, hp⟩

theorem strength_eq_iff {h h' : List PCard} (hn : h.Nodup) (h5 : h.length = 5) (hn' : h'.Nodup)
    (h5' : h'.length = 5) :
    strength h = strength h' ↔ (values h).Perm (values h') ∧ Rules.flush h = Rules.flush h' := by
  constructor
  · intro e
    obtain ⟨c, hc, hp⟩ := hand_kind hn h5
    obtain ⟨c', hc', hp'⟩ := hand_kind hn' h5'
    rw [strength, strength, worth_perm _ hp, worth_perm _ hp'] at e
    have := worth_inj_kinds hc hc' e
    simp only [Prod.mk.injEq] at this
    exact ⟨hp.trans (this.2 ▸ hp'.symm), this.1⟩
  · rintro ⟨hp, hf⟩
    rw [strength, strength, hf, worth_perm _ hp]

/-! ## The best and the worst hand -/

theorem best_getElem : Kinds.ladder[0]? = some (8, [14]) := by decide +kernel

theorem best_mem : (8, [14]) ∈ Kinds.ladder := List.mem_of_getElem? best_getElem

theorem best_rank : Kinds.rankNo (8, [14]) = 1 := by
  obtain ⟨h, e⟩ := List.getElem?_eq_some_iff.1 best_getElem
  have := Kinds.rankNo_getElem h
  rwa [e] at this

theorem best_eval : Eval.BEST = evalOf (8, [14]) := by
  rw [evalOf, metaFor, best_rank]
  decide

theorem le_best {w : Nat × List Nat} (h : w ∈ Kinds.ladder) : cmpWorth w (8, [14]) ≠ .gt := by
  intro hg
  have := Kinds.compare_rankNo h best_mem
  rw [hg, Nat.compare_eq_gt, best_rank] at this
  have := Kinds.rankNo_pos w
  omega

end Tab
end Poker

import Verif.Props.Odds
import Mathlib.Algebra.Order.BigOperators.Group.Finset

/-! Sums over all random choices of the shuffle of a deck of at most 52 cards. -/

namespace Poker.Shuffles
open Rules Nat

variable {α : Type}

/-- The shuffled deck. -/
def result (l : List α) (d : Draws) : List α :=
  match Deck.shuffle d.stream l with
  | .ok m => m
  | .error _ => l

theorem shuffle_result (l : List α) (d : Draws) :
    Deck.shuffle d.stream l = .ok (result l d) ∧ (result l d).Perm l := by
  have h : ∃ m, Deck.shuffle d.stream l = .ok m ∧ m.Perm l := by
    cases l with
    | nil => exact ⟨[], rfl, .refl _⟩
    | cons a l =>
      obtain ⟨m, h1, h2, -⟩ := shuffleAux_ok d.stream l.length (a :: l) (by simp) (stream_le d _)
      exact ⟨m, h1, h2⟩
  obtain ⟨m, h1, h2⟩ := h
  have e : result l d = m := by rw [result, h1]
  rw [e]
  exact ⟨h1, h2⟩

theorem shuffle_map {β : Type} (f : α → β) (draw : Nat → Nat) (l : List α) :
    Deck.shuffle draw (l.map f) = (Deck.shuffle draw l).map (List.map f) := by
  have swap : ∀ (l : List α) i j, Deck.swap (l.map f) i j = (Deck.swap l i j).map (List.map f) := by
    intro l i j
    unfold Deck.swap idx setIdx
    simp only [List.getElem?_map, List.length_map]
    cases hi : l[i]? with
    | none => rfl
    | some a =>
      cases hj : l[j]? with
      | none => rfl
      | some b =>
        have hi' : i < l.length := (List.getElem?_eq_some_iff.1 hi).1
        have hj' : j < l.length := (List.getElem?_eq_some_iff.1 hj).1
        simp only [Option.map_some, Comb.bind_ok, if_pos hi', List.length_map, List.length_set,
          if_pos hj', Except.map, List.map_set]
  have aux : ∀ k (l : List α), Deck.shuffleAux draw k (l.map f)
      = (Deck.shuffleAux draw k l).map (List.map f) := by
    intro k
    induction k with
    | zero => intro l; rfl
    | succ k ih =>
      intro l
      rw [Deck.shuffleAux, Deck.shuffleAux, swap]
      cases Deck.swap l (k + 1) (draw (k + 1)) with
      | error p => rfl
      | ok m => exact ih m
  rw [Deck.shuffle, Deck.shuffle, List.length_map, aux]

theorem result_map {β : Type} (f : α → β) (l : List α) (d : Draws) :
    result (l.map f) d = (result l d).map f := by
  have h := (shuffle_result (l.map f) d).1
  rw [shuffle_map, (shuffle_result l d).1] at h
  exact (Except.ok.inj h).symm

/-- The functions with given values in some places are as many as those with other values there. -/
theorem agree_card {ι : Type} {β : ι → Type} [Fintype ((i : ι) → β i)] (P : ι → Prop)
    [DecidablePred P] (b c : (i : ι) → β i) (p q : ((i : ι) → β i) → Prop) [DecidablePred p]
    [DecidablePred q] (hp : ∀ d, p d ↔ ∀ i, P i → d i = b i) (hq : ∀ d, q d ↔ ∀ i, P i → d i = c i) :
    (Finset.univ.filter p).card = (Finset.univ.filter q).card := by
  refine Finset.card_bij' (fun d _ i => if P i then c i else d i)
    (fun d _ i => if P i then b i else d i) ?_ ?_ ?_ ?_
  · intro d _
    rw [Finset.mem_filter]
    exact ⟨Finset.mem_univ _, (hq _).2 (fun i hi => if_pos hi)⟩
  · intro d _
    rw [Finset.mem_filter]
    exact ⟨Finset.mem_univ _, (hp _).2 (fun i hi => if_pos hi)⟩
  · intro d hd
    have := (hp d).1 (Finset.mem_filter.1 hd).2
    funext i
    by_cases hi : P i
    · simp only [hi, if_true]
      exact (this i hi).symm
    · simp only [hi, if_false]
  · intro d hd
    have := (hq d).1 (Finset.mem_filter.1 hd).2
    funext i
    by_cases hi : P i
    · simp only [hi, if_true]
      exact (this i hi).symm
    · simp only [hi, if_false]

/-- A sum over a function that takes each value equally often. -/
theorem uniform_sum {ι β : Type} [Fintype ι] [DecidableEq β] (f : ι → β) (t : Finset β) (N : Nat)
    (hf : ∀ i, f i ∈ t) (hN : ∀ a ∈ t, (Finset.univ.filter (fun i => f i = a)).card = N)
    (F : β → Nat) : ∑ i, F (f i) = N * ∑ a ∈ t, F a := by
  rw [← Finset.sum_fiberwise_of_maps_to (s := Finset.univ) (t := t) (g := f) (fun i _ => hf i),
    Finset.mul_sum]
  refine Finset.sum_congr rfl (fun a ha => ?_)
  rw [Finset.sum_congr rfl (g := fun _ => F a)
    (fun i hi => by rw [(Finset.mem_filter.1 hi).2]), Finset.sum_const, hN a ha, smul_eq_mul]

theorem uniform_total {ι β : Type} [Fintype ι] [DecidableEq β] (f : ι → β) (t : Finset β) (N : Nat)
    (hf : ∀ i, f i ∈ t) (hN : ∀ a ∈ t, (Finset.univ.filter (fun i => f i = a)).card = N)
    (F : β → Nat) : (∑ i, F (f i)) * t.card = Fintype.card ι * ∑ a ∈ t, F a := by
  have h1 := uniform_sum f t N hf hN (fun _ => 1)
  rw [Finset.sum_const, Finset.sum_const, smul_eq_mul, smul_eq_mul, Nat.mul_one, Nat.mul_one,
    Finset.card_univ] at h1
  rw [uniform_sum f t N hf hN F, h1]
  ring

variable [DecidableEq α]

/-- Every order of the deck comes from the same number of choices. -/
theorem fiber {l m : List α} (hn : l.Nodup) (h52 : l.length ≤ 52) (hm : m.Perm l) :
    (Finset.univ.filter (fun d : Draws => result l d = m)).card
      = (Finset.univ.filter (fun d : Draws => result l d = l)).card := by
  cases hl : l with
  | nil =>
    subst hl
    rw [List.perm_nil.1 hm]
  | cons a t =>
    rw [← hl]
    have hlen : l.length = t.length + 1 := by rw [hl]; rfl
    have ex : ∀ m : List α, m.Perm l → ∃ b : Draws, ∀ d : Draws, result l d = m ↔
        ∀ i : Fin 51, i.val < t.length → d i = b i := by
      intro m hm
      obtain ⟨draw, h1, h2⟩ := shuffleAux_exists t.length l m (by omega) hm (by
        rw [List.drop_of_length_le (by rw [hm.length_eq, hlen]),
          List.drop_of_length_le (by rw [hlen])])
      have hlt : ∀ i : Fin 51, min (draw (i.val + 1)) (i.val + 1) < i.val + 2 := fun i => by omega
      refine ⟨fun i => ⟨min (draw (i.val + 1)) (i.val + 1), hlt i⟩, fun d => ?_⟩
      have hs : Deck.shuffleAux d.stream t.length l = .ok (result l d) := by
        have := (shuffle_result l d).1
        rwa [Deck.shuffle, hlen] at this
      constructor
      · intro h i hi
        rw [h] at hs
        have := shuffleAux_unique t.length l m (by omega) hn draw d.stream h1 (stream_le d _) h2 hs
          (i.val + 1) (by omega) (by omega)
        apply Fin.ext
        rw [← stream_at d i, ← this]
        have := h1 (i.val + 1) (by omega) (by omega)
        simp only
        omega
      · intro h
        have : Deck.shuffleAux d.stream t.length l = Deck.shuffleAux draw t.length l := by
          apply shuffleAux_congr
          intro i a b
          obtain ⟨j, rfl⟩ : ∃ j, i = j + 1 := ⟨i - 1, by omega⟩
          have hj := stream_at d ⟨j, by omega⟩
          rw [hj, h ⟨j, by omega⟩ (by simp only; omega)]
          have := h1 (j + 1) (by omega) (by omega)
          simp only
          omega
        rw [hs, h2] at this
        exact Except.ok.inj this
    obtain ⟨b, hb⟩ := ex m hm
    obtain ⟨c, hc⟩ := ex l (.refl l)
    exact agree_card (fun i : Fin 51 => i.val < t.length) b c _ _ hb hc

theorem mem_orders {l m : List α} : m ∈ l.permutations.toFinset ↔ m.Perm l := by
  rw [List.mem_toFinset, List.mem_permutations]

theorem orders_card {l : List α} (hn : l.Nodup) : l.permutations.toFinset.card = l.length ! := by
  rw [List.toFinset_card_of_nodup (List.nodup_permutations _ hn), List.length_permutations]

/-- A sum over the choices is a sum over the orders of the deck. -/
theorem sum_orders {l : List α} (hn : l.Nodup) (h52 : l.length ≤ 52) (f : List α → Nat) :
    (∑ d : Draws, f (result l d)) * l.length ! = Fintype.card Draws * ∑ m ∈ l.permutations.toFinset, f m := by
  rw [← orders_card hn]
  exact uniform_total (fun d => result l d) _ _ (fun d => mem_orders.2 (shuffle_result l d).2)
    (fun m hm => fiber hn h52 (mem_orders.1 hm)) f

theorem mem_arrangements {s : Finset α} {a : List α} :
    a ∈ s.toList.permutations.toFinset ↔ a.Nodup ∧ a.toFinset = s := by
  rw [mem_orders]
  constructor
  · intro h
    refine ⟨h.nodup_iff.2 s.nodup_toList, ?_⟩
    rw [List.toFinset_eq_of_perm _ _ h, Finset.toList_toFinset]
  · rintro ⟨hn, rfl⟩
    exact (List.perm_ext_iff_of_nodup hn (Finset.nodup_toList _)).2 (by simp)

/-- Every set of cards is on top in the same number of orders. -/
theorem tops {l : List α} (hn : l.Nodup) {x : Finset α} (hx : x ⊆ l.toFinset) :
    (l.permutations.toFinset.filter (fun m => (m.take x.card).toFinset = x)).card
      = x.card ! * (l.length - x.card)! := by
  have hp : ∀ m : List α, m.Perm l ↔ m.Nodup ∧ m.toFinset = l.toFinset := by
    intro m
    constructor
    · exact fun h => ⟨h.nodup_iff.2 hn, List.toFinset_eq_of_perm _ _ h⟩
    · rintro ⟨h1, h2⟩
      refine (List.perm_ext_iff_of_nodup h1 hn).2 (fun c => ?_)
      rw [← List.mem_toFinset, h2, List.mem_toFinset]
  have e : x.card ! * (l.length - x.card)! = (x.toList.permutations.toFinset ×ˢ
      (l.toFinset \ x).toList.permutations.toFinset).card := by
    rw [Finset.card_product, orders_card x.nodup_toList, orders_card (Finset.nodup_toList _),
      Finset.length_toList, Finset.length_toList, Finset.card_sdiff_of_subset hx,
      List.toFinset_card_of_nodup hn]
  rw [e]
  symm
  refine Finset.card_bij' (fun q _ => q.1 ++ q.2) (fun m _ => (m.take x.card, m.drop x.card))
    ?_ ?_ ?_ ?_
  · rintro ⟨a, b⟩ hq
    obtain ⟨ha, hb⟩ := Finset.mem_product.1 hq
    obtain ⟨han, hax⟩ := mem_arrangements.1 ha
    obtain ⟨hbn, hbx⟩ := mem_arrangements.1 hb
    have hal : a.length = x.card := by rw [← hax, List.toFinset_card_of_nodup han]
    simp only [Finset.mem_filter, mem_orders, hp]
    refine ⟨⟨List.nodup_append'.2 ⟨han, hbn, ?_⟩, ?_⟩, ?_⟩
    · intro c hca hcb
      have h1 : c ∈ x := hax ▸ List.mem_toFinset.2 hca
      have h2 : c ∈ l.toFinset \ x := hbx ▸ List.mem_toFinset.2 hcb
      exact (Finset.mem_sdiff.1 h2).2 h1
    · simp only at hax hbx ⊢
      rw [List.toFinset_append, hax, hbx, Finset.union_sdiff_of_subset hx]
    · rw [← hal, List.take_left]
      exact hax
  · intro m hm
    obtain ⟨hm1, hset⟩ := Finset.mem_filter.1 hm
    obtain ⟨hmn, hml⟩ := (hp m).1 (mem_orders.1 hm1)
    have hsplit := List.take_append_drop x.card m
    refine Finset.mem_product.2 ⟨mem_arrangements.2 ⟨hmn.sublist (List.take_sublist _ _), hset⟩,
      mem_arrangements.2 ⟨hmn.sublist (List.drop_sublist _ _), ?_⟩⟩
    have hdis : Disjoint x (m.drop x.card).toFinset := by
      rw [← hsplit] at hmn
      rw [Finset.disjoint_left]
      intro c hc hc'
      rw [← hset, List.mem_toFinset] at hc
      exact (List.nodup_append'.1 hmn).2.2 hc (List.mem_toFinset.1 hc')
    simp only
    rw [← hml, ← hsplit, List.toFinset_append, hset, hsplit, Finset.union_sdiff_cancel_left hdis]
  · rintro ⟨a, b⟩ hq
    obtain ⟨ha, -⟩ := Finset.mem_product.1 hq
    obtain ⟨han, hax⟩ := mem_arrangements.1 ha
    have hal : a.length = x.card := by rw [← hax, List.toFinset_card_of_nodup han]
    simp only
    rw [← hal, List.take_left, List.drop_left]
  · intro m _
    exact List.take_append_drop x.card m

/-- A sum over the choices of what depends on the set of the first `k` cards. -/
theorem sum_tops {l : List α} (hn : l.Nodup) (h52 : l.length ≤ 52) {k : Nat} (hk : k ≤ l.length)
    (F : Finset α → Nat) :
    (∑ d : Draws, F ((result l d).take k).toFinset) * l.length.choose k
      = Fintype.card Draws * ∑ x ∈ l.toFinset.powersetCard k, F x := by
  have h1 := sum_orders hn h52 (fun m => F (m.take k).toFinset)
  have h2 : ∑ m ∈ l.permutations.toFinset, F (m.take k).toFinset
      = (k ! * (l.length - k)!) * ∑ x ∈ l.toFinset.powersetCard k, F x := by
    rw [← Finset.sum_fiberwise_of_maps_to (s := l.permutations.toFinset)
      (t := l.toFinset.powersetCard k) (g := fun m => (m.take k).toFinset), Finset.mul_sum]
    · refine Finset.sum_congr rfl (fun x hx => ?_)
      obtain ⟨hxl, hxk⟩ := Finset.mem_powersetCard.1 hx
      rw [Finset.sum_congr rfl (g := fun _ => F x)
        (fun m hm => by rw [(Finset.mem_filter.1 hm).2]), Finset.sum_const, smul_eq_mul, ← hxk,
        tops hn hxl]
    · intro m hm
      have hm := mem_orders.1 hm
      rw [Finset.mem_powersetCard]
      refine ⟨fun c hc => ?_, ?_⟩
      · rw [List.mem_toFinset] at hc ⊢
        exact hm.mem_iff.1 (List.mem_of_mem_take hc)
      · rw [List.toFinset_card_of_nodup ((hm.nodup_iff.2 hn).sublist (List.take_sublist _ _)),
          List.length_take, hm.length_eq, Nat.min_eq_left hk]
  rw [h2, ← Nat.choose_mul_factorial_mul_factorial hk] at h1
  have hpos : 0 < k ! * (l.length - k)! := Nat.mul_pos (Nat.factorial_pos _) (Nat.factorial_pos _)
  apply Nat.eq_of_mul_eq_mul_right hpos
  calc _ = (∑ d : Draws, F ((result l d).take k).toFinset)
        * (l.length.choose k * k ! * (l.length - k)!) := by ring
    _ = _ := h1
    _ = _ := by ring

end Poker.Shuffles

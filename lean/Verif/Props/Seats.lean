import Verif.Props.Odds
import Verif.Spec.Seats
import Mathlib.Logic.Equiv.Fintype
import Mathlib.Data.Fintype.Perm
import Mathlib.Data.List.FinRange
import Mathlib.Data.Fintype.Sum
import Mathlib.Data.Fintype.Prod

/-! # No seat at the table is better than another: C68 -/

namespace Poker
open Rules Tab

/-- As many choices as there are orders of the deck. -/
theorem ways_orders {l : List Card} (hl : l.Perm Deck.generate) (q : List Card → Prop) :
    ways (Shuffled l q) = {m | m.Perm Deck.generate ∧ q m}.ncard := by
  obtain ⟨h1, h2⟩ := c46_orders hl
  choose f hf hp using h1
  refine Set.ncard_congr (fun d _ => f d) ?_ ?_ ?_
  · rintro d ⟨m, hm, hq⟩
    refine ⟨hp d, ?_⟩
    rw [hf d, Except.ok.injEq] at hm
    exact hm ▸ hq
  · intro d d' _ _ he
    obtain ⟨x, -, hx⟩ := h2 (f d) (hp d)
    rw [hx d (hf d), hx d' ((hf d').trans (by rw [he]))]
  · rintro m ⟨hm, hq⟩
    obtain ⟨d, hd, -⟩ := h2 m hm
    have : f d = m := by
      have := hf d
      rw [hd, Except.ok.injEq] at this
      exact this.symm
    exact ⟨d, ⟨m, hd, hq⟩, this⟩

theorem shuffled_congr (l : List Card) {q q' : List Card → Prop} (h : ∀ m, q m ↔ q' m) :
    ways (Shuffled l q) = ways (Shuffled l q') := by
  rw [show q = q' from funext fun m => propext (h m)]

/-- C68: how the deck lies before the shuffle does not matter, for any property of the shuffled deck. -/
theorem c68_before {l l' : List Card} (hl : l.Perm Deck.generate) (hl' : l'.Perm Deck.generate)
    (q : List Card → Prop) : ways (Shuffled l q) = ways (Shuffled l' q) := by
  rw [ways_orders hl, ways_orders hl']

/-- A change of the order that can be undone leaves all odds as they are. -/
theorem ways_move {l : List Card} (hl : l.Perm Deck.generate) (q : List Card → Prop) (g g' : List Card → List Card)
    (hg : ∀ m, m.Perm Deck.generate → (g m).Perm Deck.generate ∧ g' (g m) = m)
    (hg' : ∀ m, m.Perm Deck.generate → (g' m).Perm Deck.generate ∧ g (g' m) = m) :
    ways (Shuffled l (fun m => q (g m))) = ways (Shuffled l q) := by
  rw [ways_orders hl, ways_orders hl]
  refine Set.ncard_congr (fun m _ => g m) ?_ ?_ ?_
  · rintro m ⟨hm, hq⟩
    exact ⟨(hg m hm).1, hq⟩
  · rintro a b ⟨ha, -⟩ ⟨hb, -⟩ he
    rw [← (hg a ha).2, ← (hg b hb).2]
    exact congrArg g' he
  · rintro m ⟨hm, hq⟩
    refine ⟨g' m, ⟨(hg' m hm).1, ?_⟩, (hg' m hm).2⟩
    rw [(hg' m hm).2]
    exact hq

/-- Put the card at place `f i` to place `i`. -/
def moved (f : Fin 52 → Fin 52) (m : List Card) : List Card :=
  List.ofFn (fun i : Fin 52 => m.getD (f i).val (Card.new .Two .Clubs))

theorem moved_get (f : Fin 52 → Fin 52) {m : List Card} (hm : m.length = 52) (i : Fin 52) :
    (moved f m)[i.val]? = m[(f i).val]? := by
  have h1 : (f i).val < m.length := by rw [hm]; exact (f i).isLt
  rw [moved, List.getElem?_eq_getElem (by rw [List.length_ofFn]; exact i.isLt), List.getElem_ofFn,
    List.getD_eq_getElem?_getD, List.getElem?_eq_getElem h1]
  rfl

theorem moved_length (f : Fin 52 → Fin 52) (m : List Card) : (moved f m).length = 52 := List.length_ofFn

theorem ext52 {a b : List Card} (ha : a.length = 52) (hb : b.length = 52)
    (h : ∀ i : Fin 52, a[i.val]? = b[i.val]?) : a = b := by
  apply List.ext_getElem?
  intro i
  by_cases hi : i < 52
  · exact h ⟨i, hi⟩
  · rw [List.getElem?_eq_none (by omega), List.getElem?_eq_none (by omega)]

theorem moved_id {m : List Card} (hm : m.length = 52) : moved id m = m :=
  ext52 (moved_length _ _) hm (fun i => moved_get id hm i)

theorem moved_moved (f g : Fin 52 → Fin 52) {m : List Card} (hm : m.length = 52) :
    moved g (moved f m) = moved (f ∘ g) m :=
  ext52 (moved_length _ _) (moved_length _ _) (fun i => by
    rw [moved_get g (moved_length f m), moved_get f hm, moved_get _ hm]
    rfl)

theorem moved_perm (σ : Equiv.Perm (Fin 52)) {m : List Card} (hm : m.length = 52) : (moved σ m).Perm m := by
  have h := Equiv.Perm.ofFn_comp_perm σ (fun i : Fin 52 => m.getD i.val (Card.new .Two .Clubs))
  have h' : List.ofFn (fun i : Fin 52 => m.getD i.val (Card.new .Two .Clubs)) = m := moved_id hm
  rw [h'] at h
  exact h

theorem ways_moved {l : List Card} (hl : l.Perm Deck.generate) (q : List Card → Prop) (σ : Equiv.Perm (Fin 52)) :
    ways (Shuffled l (fun m => q (moved σ m))) = ways (Shuffled l q) := by
  have h52 : ∀ m : List Card, m.Perm Deck.generate → m.length = 52 := fun m hm => hm.length_eq.trans c21_deck.1
  refine ways_move hl q (moved σ) (moved σ.symm) (fun m hm => ⟨(moved_perm σ (h52 m hm)).trans hm, ?_⟩)
    (fun m hm => ⟨(moved_perm σ.symm (h52 m hm)).trans hm, ?_⟩)
  · rw [moved_moved _ _ (h52 m hm), Equiv.self_comp_symm, moved_id (h52 m hm)]
  · rw [moved_moved _ _ (h52 m hm), Equiv.symm_comp_self, moved_id (h52 m hm)]

/-- There is a way to move the places `f` to the places `g`. -/
theorem exists_move {α : Type} [Fintype α] (f g : α → Fin 52) (hf : Function.Injective f) (hg : Function.Injective g) :
    ∃ σ : Equiv.Perm (Fin 52), ∀ a, σ (f a) = g a := by
  classical
  refine ⟨((Equiv.ofInjective f hf).symm.trans (Equiv.ofInjective g hg)).extendSubtype, fun a => ?_⟩
  rw [Equiv.extendSubtype_apply_of_mem _ _ (Set.mem_range_self a), Equiv.trans_apply,
    show (⟨f a, Set.mem_range_self a⟩ : Set.range f) = Equiv.ofInjective f hf a from rfl,
    Equiv.symm_apply_apply]
  rfl

/-- C68: it does not matter from which places of the shuffled deck cards are taken, for anything that may be
asked about these cards. -/
theorem c68_places {l : List Card} (hl : l.Perm Deck.generate) {α : Type} [Fintype α] (f g : α → Fin 52)
    (hf : Function.Injective f) (hg : Function.Injective g) (q : (α → Option Card) → Prop) :
    ways (Shuffled l (fun m => q (fun a => m[(f a).val]?))) = ways (Shuffled l (fun m => q (fun a => m[(g a).val]?))) := by
  obtain ⟨σ, hσ⟩ := exists_move f g hf hg
  rw [← ways_moved hl _ σ, ways_orders hl, ways_orders hl]
  congr 1
  ext m
  refine and_congr_right (fun hm => ?_)
  have : (fun a => (moved σ m)[(f a).val]?) = fun a => m[(g a).val]? := funext fun a => by
    rw [moved_get _ (hm.length_eq.trans c21_deck.1), hσ]
  rw [this]

-- the first five cards, or five from the bottom of the deck
example : ways (Shuffled Deck.generate (fun m => ∃ c, m[0]? = some c ∧ c.rank = .Ace))
    = ways (Shuffled Deck.generate (fun m => ∃ c, m[51]? = some c ∧ c.rank = .Ace)) :=
  c68_places (.refl _) (fun _ : Unit => 0) (fun _ => 51) (fun _ _ _ => rfl) (fun _ _ _ => rfl)
    (fun h => ∃ c, h () = some c ∧ c.rank = .Ace)

/-- The result of player `i`, given the cards by their places at the table. -/
def atTable {p k b : Nat} (h : (Fin p × Fin k) ⊕ Fin b → Option Card) (i : Fin p) : Exec (Except EvalError Eval) := do
  let ev ← Evaluator.new
  ev.evaluate ((List.ofFn (fun j => (Sum.inl (i, j) : (Fin p × Fin k) ⊕ Fin b)) ++ List.ofFn Sum.inr).filterMap h)

theorem result_eq {p k b : Nat} (t : Dealing p k b) (m : List Card) :
    t.result m = atTable (fun a => m[(Sum.elim (fun x : Fin p × Fin k => t.own x.1 x.2) t.board a).val]?) := by
  funext i
  rw [Dealing.result, atTable, cardsAt]
  simp only [List.filterMap_append, List.ofFn_eq_map, List.filterMap_map]
  rfl

theorem result_moved {p k b : Nat} (t : Dealing p k b) (τ : Equiv.Perm (Fin p)) (m : List Card) :
    (fun i => t.result m (τ i))
      = atTable (fun a => m[(Sum.elim (fun x : Fin p × Fin k => t.own (τ x.1) x.2) t.board a).val]?) := by
  funext i
  rw [Dealing.result, atTable, cardsAt]
  simp only [List.filterMap_append, List.ofFn_eq_map, List.filterMap_map]
  rfl

/-- C68: the players may change seats: whatever is asked about the results of all of them, the odds do not
depend on who sits where. -/
theorem c68_seats {l : List Card} (hl : l.Perm Deck.generate) {p k b : Nat} (t : Dealing p k b)
    (τ : Equiv.Perm (Fin p)) (r : (Fin p → Exec (Except EvalError Eval)) → Prop) :
    ways (Shuffled l (fun m => r (t.result m))) = ways (Shuffled l (fun m => r (fun i => t.result m (τ i)))) := by
  refine (shuffled_congr l (fun m => by rw [result_eq])).trans (Eq.trans (c68_places hl
    (Sum.elim (fun x : Fin p × Fin k => t.own x.1 x.2) t.board)
    (Sum.elim (fun x : Fin p × Fin k => t.own (τ x.1) x.2) t.board) t.apart ?_ (fun h => r (atTable h)))
    (shuffled_congr l (fun m => by rw [result_moved])))
  have : Sum.elim (fun x : Fin p × Fin k => t.own (τ x.1) x.2) t.board
      = Sum.elim (fun x : Fin p × Fin k => t.own x.1 x.2) t.board ∘ Sum.map (Prod.map τ id) id := by
    funext a
    cases a <;> rfl
  rw [this]
  exact t.apart.comp (Sum.map_injective.2 ⟨τ.injective.prodMap Function.injective_id, Function.injective_id⟩)

/-- C68: the same with other places for the cards: dealt one by one or all at once, with or without cards that
are put aside. -/
theorem c68_dealings {l : List Card} (hl : l.Perm Deck.generate) {p k b : Nat} (t t' : Dealing p k b)
    (r : (Fin p → Exec (Except EvalError Eval)) → Prop) :
    ways (Shuffled l (fun m => r (t.result m))) = ways (Shuffled l (fun m => r (t'.result m))) := by
  simp only [result_eq]
  exact c68_places hl _ _ t.apart t'.apart (fun h => r (atTable h))

/-- C68: all players have the same odds to be among the best, and to be the only best one. -/
theorem c68_fair {l : List Card} (hl : l.Perm Deck.generate) {p k b : Nat} (t : Dealing p k b) (i j : Fin p) :
    ways (Shuffled l (t.Best i)) = ways (Shuffled l (t.Best j)) ∧
    ways (Shuffled l (t.Alone i)) = ways (Shuffled l (t.Alone j)) := by
  have hs : ∀ x : Fin p, Equiv.swap i j (Equiv.swap i j x) = x := fun x => Equiv.swap_apply_self i j x
  constructor
  · refine (c68_seats hl t (Equiv.swap i j) (fun r => ∃ e, r i = .ok (.ok e) ∧
      ∀ j e', r j = .ok (.ok e') → e.lt e' = false)).trans ?_
    refine shuffled_congr l fun m => ?_
    simp only [Equiv.swap_apply_left, Dealing.Best]
    refine exists_congr fun e => and_congr_right fun _ => ⟨fun h x e' he' => ?_, fun h x e' he' => h _ e' he'⟩
    exact h (Equiv.swap i j x) e' (by rw [hs]; exact he')
  · refine (c68_seats hl t (Equiv.swap i j) (fun r => ∃ e, r i = .ok (.ok e) ∧
      ∀ j, j ≠ i → ∀ e', r j = .ok (.ok e') → e.gt e' = true)).trans ?_
    refine shuffled_congr l fun m => ?_
    simp only [Equiv.swap_apply_left, Dealing.Alone]
    refine exists_congr fun e => and_congr_right fun _ => ⟨fun h x hx e' he' => ?_, fun h x hx e' he' => h _ ?_ e' he'⟩
    · refine h (Equiv.swap i j x) (fun hq => hx ?_) e' (by rw [hs]; exact he')
      rw [← hs x, hq, Equiv.swap_apply_left]
    · intro hq
      apply hx
      rw [← hs x, hq, Equiv.swap_apply_right]

/-! ## Everybody has a result -/

theorem cardsAt_perm {m : List Card} (hm : m.Perm Deck.generate) {places : List (Fin 52)} (hn : places.Nodup) :
    ∃ h : List PCard, h.Nodup ∧ h.length = places.length ∧ cardsAt m places = deal h := by
  have h52 : m.length = 52 := hm.length_eq.trans c21_deck.1
  have hmn : m.Nodup := hm.nodup_iff.2 c21_deck.2.1
  have he : cardsAt m places = places.map (fun i => m[i.val]'(by rw [h52]; exact i.isLt)) := by
    rw [cardsAt]
    induction places with
    | nil => rfl
    | cons i l ih =>
      have hi : i.val < m.length := by rw [h52]; exact i.isLt
      rw [List.filterMap_cons, List.getElem?_eq_getElem hi, List.map_cons, ih (List.nodup_cons.1 hn).2]
  have hd : (cardsAt m places).Nodup := by
    rw [he]
    refine hn.map (fun i j h => Fin.ext ?_)
    exact (List.Nodup.getElem_inj_iff hmn).1 h
  obtain ⟨h, hh, hq⟩ := exists_deal (l := cardsAt m places) (fun c hc => by
    rw [he, List.mem_map] at hc
    obtain ⟨i, -, rfl⟩ := hc
    exact hm.mem_iff.1 (List.getElem_mem _)) hd
  refine ⟨h, hh, ?_, hq.symm⟩
  rw [← deal_length, hq, he, List.length_map]

theorem places_nodup {p k b : Nat} (t : Dealing p k b) (i : Fin p) :
    (List.ofFn (t.own i) ++ List.ofFn t.board).Nodup := by
  rw [List.nodup_append]
  refine ⟨List.nodup_ofFn.2 fun a b h => ?_, List.nodup_ofFn.2 fun a b h => ?_, ?_⟩
  · have := t.apart (a₁ := Sum.inl (i, a)) (a₂ := Sum.inl (i, b)) h
    simpa using this
  · have := t.apart (a₁ := Sum.inr a) (a₂ := Sum.inr b) h
    simpa using this
  · intro x hx y hy he
    rw [List.mem_ofFn] at hx hy
    obtain ⟨a, rfl⟩ := hx
    obtain ⟨c, rfl⟩ := hy
    have := t.apart (a₁ := Sum.inl (i, a)) (a₂ := Sum.inr c) he
    simp at this

/-- C68: with five cards or more, own and shared, everybody has a result, however the deck is shuffled. -/
theorem c68_results {m : List Card} (hm : m.Perm Deck.generate) {p k b : Nat} (t : Dealing p k b) (h5 : 5 ≤ k + b)
    (i : Fin p) : ∃ e, t.result m i = .ok (.ok e) := by
  obtain ⟨h, hn, hl, hd⟩ := cardsAt_perm hm (places_nodup t i)
  obtain ⟨e, he⟩ := (c04_iff h).2.2.2 ⟨hn, by rw [hl]; simpa using h5⟩
  refine ⟨e, ?_⟩
  rw [Dealing.result, hd]
  exact he

/-- The results that are had are comparable, and equal if neither is better. -/
theorem c68_results_eq {m : List Card} (hm : m.Perm Deck.generate) {p k b : Nat} (t : Dealing p k b) {i j : Fin p}
    {e e' : Eval} (he : t.result m i = .ok (.ok e)) (he' : t.result m j = .ok (.ok e')) (hq : e.eq e' = true) :
    e = e' := by
  obtain ⟨h, -, -, hd⟩ := cardsAt_perm hm (places_nodup t i)
  obtain ⟨h', -, -, hd'⟩ := cardsAt_perm hm (places_nodup t j)
  rw [Dealing.result, hd] at he
  rw [Dealing.result, hd'] at he'
  exact (c12_equal h h' e e' he he' hq).1

theorem ways_le {ι : Type} [Fintype ι] (q : ι → Draws → Prop) (h : ∀ i j d, q i d → q j d → i = j) :
    ∑ i, ways (q i) ≤ ways (fun _ => True) := by
  classical
  have hfin : ∀ q : Draws → Prop, {d | q d}.Finite := fun q => Set.toFinite _
  have hways : ∀ q : Draws → Prop, ways q = (hfin q).toFinset.card := fun q => Set.ncard_eq_toFinset_card _ _
  rw [Finset.sum_congr rfl (fun i _ => hways (q i)), ← Finset.card_biUnion, hways]
  · exact Finset.card_le_card fun d _ => (Set.Finite.mem_toFinset _).2 trivial
  · intro i _ j _ hij
    refine Finset.disjoint_left.2 fun d hi hj => ?_
    exact hij (h i j d ((Set.Finite.mem_toFinset _).1 hi) ((Set.Finite.mem_toFinset _).1 hj))

theorem le_ways {ι : Type} [Fintype ι] (q : ι → Draws → Prop) (h : ∀ d, ∃ i, q i d) :
    ways (fun _ => True) ≤ ∑ i, ways (q i) := by
  classical
  have hfin : ∀ q : Draws → Prop, {d | q d}.Finite := fun q => Set.toFinite _
  have hways : ∀ q : Draws → Prop, ways q = (hfin q).toFinset.card := fun q => Set.ncard_eq_toFinset_card _ _
  rw [Finset.sum_congr rfl (fun i _ => hways (q i)), hways]
  refine le_trans (Finset.card_le_card fun d _ => ?_) Finset.card_biUnion_le
  obtain ⟨i, hi⟩ := h d
  exact Finset.mem_biUnion.2 ⟨i, Finset.mem_univ i, (Set.Finite.mem_toFinset _).2 hi⟩

theorem gt_cases (a b : Eval) : ¬ (a.gt b = true ∧ b.gt a = true) ∧
    (a.gt b = true ∨ b.gt a = true ∨ a.eq b = true) := by
  simp only [Eval.gt_iff, Eval.eq_iff_cmp, Eval.cmp_eq, Int.compare_eq_gt,
    Int.compare_eq_eq]
  exact ⟨by omega, by omega⟩

theorem shuffled_unique {l : List Card} {q q' : List Card → Prop} {d : Draws} (h : Shuffled l q d)
    (h' : Shuffled l q' d) : ∃ m, q m ∧ q' m := by
  obtain ⟨m, hm, hq⟩ := h
  obtain ⟨m', hm', hq'⟩ := h'
  rw [hm, Except.ok.injEq] at hm'
  exact ⟨m, hq, hm' ▸ hq'⟩

theorem alone_unique {p k b : Nat} (t : Dealing p k b) {m : List Card} {i j : Fin p} (hi : t.Alone i m)
    (hj : t.Alone j m) : i = j := by
  by_contra hij
  obtain ⟨e, he, h⟩ := hi
  obtain ⟨e', he', h'⟩ := hj
  exact (gt_cases e e').1 ⟨h j (Ne.symm hij) e' he', h' i hij e he⟩

theorem exists_best {m : List Card} (hm : m.Perm Deck.generate) {p k b : Nat} (t : Dealing p k b) (h5 : 5 ≤ k + b)
    (i : Fin p) : ∃ j, t.Best j m := by
  choose f hf using c68_results hm t h5
  obtain ⟨j, -, hj⟩ := Finset.exists_min_image Finset.univ (fun j => (f j).hand_rank.val.toInt)
    ⟨i, Finset.mem_univ i⟩
  refine ⟨j, f j, hf j, fun x e' he' => ?_⟩
  rw [hf x, Except.ok.injEq, Except.ok.injEq] at he'
  subst he'
  have := hj x (Finset.mem_univ x)
  rw [Bool.eq_false_iff, Ne, Eval.lt_iff, Eval.cmp_eq, Int.compare_eq_lt]
  simp only [Eval.rankInt]
  omega

/-- C68: somebody is among the best in every deal, so each of `p` players is in at least one deal of `p`, and
is the only best one in at most one of `p`. -/
theorem c68_share {l : List Card} (hl : l.Perm Deck.generate) {p k b : Nat} (t : Dealing p k b) (h5 : 5 ≤ k + b)
    (i : Fin p) :
    p * ways (Shuffled l (t.Alone i)) ≤ ways (fun _ => True) ∧
    ways (fun _ => True) ≤ p * ways (Shuffled l (t.Best i)) := by
  constructor
  · have h := ways_le (fun j => Shuffled l (t.Alone j)) (fun a b d ha hb => by
      obtain ⟨m, h1, h2⟩ := shuffled_unique ha hb
      exact alone_unique t h1 h2)
    rw [Finset.sum_congr rfl (fun j _ => (c68_fair hl t j i).2), Finset.sum_const, Finset.card_univ, Fintype.card_fin,
      smul_eq_mul] at h
    exact h
  · have h := le_ways (fun j => Shuffled l (t.Best j)) (fun d => by
      obtain ⟨m, hm, hp⟩ := shuffle_draws hl d
      obtain ⟨j, hj⟩ := exists_best hp t h5 i
      exact ⟨j, m, hm, hj⟩)
    rw [Finset.sum_congr rfl (fun j _ => (c68_fair hl t j i).1), Finset.sum_const, Finset.card_univ, Fintype.card_fin,
      smul_eq_mul] at h
    exact h

/-- C68: of two players, each wins as often as the other, and the remaining deals are ties. -/
theorem c68_two {l : List Card} (hl : l.Perm Deck.generate) {k b : Nat} (t : Dealing 2 k b) (h5 : 5 ≤ k + b) :
    2 * ways (Shuffled l (t.Alone 0)) + ways (Shuffled l (fun m => t.result m 0 = t.result m 1))
      = ways (fun _ => True) := by
  let q : Option (Fin 2) → Draws → Prop
    | some i => Shuffled l (t.Alone i)
    | none => Shuffled l (fun m => t.result m 0 = t.result m 1)
  have apart : ∀ (i : Fin 2) m, t.Alone i m → t.result m 0 ≠ t.result m 1 := by
    rintro i m ⟨e, he, h⟩ hq
    have key : ∀ j, j ≠ i → t.result m j = t.result m i → False := fun j hj hr => by
      have := h j hj e (hr.trans he)
      exact (gt_cases e e).1 ⟨this, this⟩
    by_cases hi : i = 0
    · exact key 1 (by omega) (by rw [hi]; exact hq.symm)
    · exact key 0 (by omega) (by rw [show i = 1 by omega]; exact hq)
  have h1 := ways_le q (fun a b d ha hb => by
    obtain ⟨m, x, y⟩ : ∃ m, (match a with | some i => t.Alone i m | none => t.result m 0 = t.result m 1) ∧
        (match b with | some i => t.Alone i m | none => t.result m 0 = t.result m 1) := by
      cases a <;> cases b <;> exact shuffled_unique ha hb
    match a, b with
    | none, none => rfl
    | some i, some j => rw [alone_unique t x y]
    | some i, none => exact absurd y (apart i m x)
    | none, some j => exact absurd x (apart j m y))
  have h2 := le_ways q (fun d => by
    obtain ⟨m, hm, hp⟩ := shuffle_draws hl d
    obtain ⟨e, he⟩ := c68_results hp t h5 0
    obtain ⟨e', he'⟩ := c68_results hp t h5 1
    have only : ∀ (i j : Fin 2) (e e' : Eval), i ≠ j → t.result m i = .ok (.ok e) → t.result m j = .ok (.ok e') →
        e.gt e' = true → q (some i) d := fun i j e e' hij he he' hg => by
      refine ⟨m, hm, e, he, fun x hx e'' he'' => ?_⟩
      obtain rfl : x = j := by omega
      rw [he', Except.ok.injEq, Except.ok.injEq] at he''
      exact he'' ▸ hg
    rcases (gt_cases e e').2 with h | h | h
    · exact ⟨some 0, only 0 1 e e' (by decide) he he' h⟩
    · exact ⟨some 1, only 1 0 e' e (by decide) he' he h⟩
    · exact ⟨none, m, hm, by show t.result m 0 = t.result m 1; rw [he, he', c68_results_eq hp t he he' h]⟩)
  have h := le_antisymm h1 h2
  rw [Fintype.sum_option, Fin.sum_univ_two] at h
  have hf := (c68_fair hl t 0 1).2
  have e0 : ways (q (some 0)) = ways (Shuffled l (t.Alone 0)) := rfl
  have e1 : ways (q (some 1)) = ways (Shuffled l (t.Alone 1)) := rfl
  have e2 : ways (q none) = ways (Shuffled l (fun m => t.result m 0 = t.result m 1)) := rfl
  rw [e0, e1, e2, ← hf] at h
  rw [← h]
  ring

/-- Three players with two cards each, dealt one by one, and five cards for all, each time after one card that
is put aside. -/
def holdem : Dealing 3 2 5 where
  own i j := ⟨3 * j.val + i.val, by omega⟩
  board := ![7, 8, 9, 11, 13]
  apart := by decide

example (i : Fin 3) : ways (fun _ => True) ≤ 3 * ways (Shuffled Deck.generate (holdem.Best i)) :=
  (c68_share (.refl _) holdem (by decide) i).2

/-- Two players with five cards each. -/
def draw5 : Dealing 2 5 0 where
  own i j := ⟨5 * i.val + j.val, by omega⟩
  board := ![]
  apart := by decide

example : 2 * ways (Shuffled Deck.generate (draw5.Alone 0))
    + ways (Shuffled Deck.generate (fun m => draw5.result m 0 = draw5.result m 1)) = ways (fun _ => True) :=
  c68_two (.refl _) draw5 (by decide)

end Poker

import Verif.Props.Cards
import Verif.Spec.Pulls

/-! # Parsing the strings of any iterator: C44 -/

namespace Poker

variable {σ : Type}

/-- C44: a pull of the parsing iterator pulls the given iterator once; it gives the parsed string, or
`None` if there was none. -/
theorem c44_next (src : Iter σ Str) (s : σ) :
    (Card.parse_iter src).next s = ((src.next s).1.map Card.from_str, (src.next s).2) := by
  simp only [ParseToIter.next, Card.parse_iter, Iter.map]
  split <;> rename_i h <;> rw [h] <;> rfl

/-- C44: the items are those of the given iterator, parsed one by one, wherever one looks. -/
theorem c44_items (src : Iter σ Str) (s t : σ) (rs : List (Except ParseCardError Card)) :
    Gives (Card.parse_iter src).inner s rs t ↔
      ∃ ts, Gives src s ts t ∧ rs = ts.map Card.from_str := by
  constructor
  · intro h
    induction h with
    | nil s => exact ⟨[], .nil s, rfl⟩
    | cons s t u a l hn _ ih =>
      obtain ⟨ts, hts, rfl⟩ := ih
      have h1 : (Card.parse_iter src).next s = (some a, t) := hn
      rw [c44_next, Prod.mk.injEq] at h1
      cases hs : src.next s with
      | mk o t' =>
        rw [hs] at h1
        obtain ⟨h1, rfl⟩ := h1
        cases o with
        | none => simp at h1
        | some b =>
          refine ⟨b :: ts, .cons s _ u b ts hs hts, ?_⟩
          rw [List.map_cons, List.cons.injEq]
          exact ⟨(Option.some.inj h1).symm, rfl⟩
  · rintro ⟨ts, h, rfl⟩
    induction h with
    | nil s => exact .nil s
    | cons s t u a l hn _ ih =>
      refine .cons s t u _ _ ?_ ih
      show (Card.parse_iter src).next s = _
      rw [c44_next, hn]
      rfl

/-- C44: it stops where the given iterator stops. -/
theorem c44_stops (src : Iter σ Str) (s t : σ) :
    Stops (Card.parse_iter src).inner s t ↔ Stops src s t := by
  show (Card.parse_iter src).next s = _ ↔ src.next s = _
  rw [c44_next]
  cases hs : src.next s with
  | mk o t' => cases o <;> simp

/-- C44: `size_hint` is right if the given iterator's is. -/
theorem c44_size_hint (src : Iter σ Str) (s : σ) (h : HintHolds src (src.size_hint s) s) :
    HintHolds (Card.parse_iter src).inner ((Card.parse_iter src).size_hint s) s := by
  intro l t u hg hs
  obtain ⟨ts, hts, rfl⟩ := (c44_items src s t l).1 hg
  rw [List.length_map]
  exact h ts t u hts ((c44_stops src t u).1 hs)

theorem fold_gives {ι β : Type} (it : Iter σ ι) (f : β → ι → β) {s t u : σ} {l : List ι}
    (h : Gives it s l t) (hs : Stops it t u) (init : β) (k : Nat) :
    it.fold (l.length + 1 + k) s init f = some (l.foldl f init, u) := by
  induction h generalizing init with
  | nil s =>
    rw [show ([] : List ι).length + 1 + k = k + 1 by simp; omega, Iter.fold, hs]
    rfl
  | cons s t u' a l hn _ ih =>
    rw [show (a :: l).length + 1 + k = (l.length + 1 + k) + 1 by simp; omega, Iter.fold, hn]
    exact ih hs (f init a)

theorem slice_gives {ι : Type} (l rest : List ι) : Gives (sliceIter ι) (l ++ rest) l rest := by
  induction l with
  | nil => exact .nil _
  | cons a l ih => exact .cons _ (l ++ rest) _ a l rfl ih

/-- C44: `fold` goes over the parsed strings in order, and ends when the given iterator does. -/
theorem c44_fold {β : Type} (src : Iter σ Str) (s t u : σ) (ts : List Str)
    (h : Gives src s ts t) (hs : Stops src t u) (init : β)
    (f : β → Except ParseCardError Card → β) (fuel : Nat) (hf : ts.length < fuel) :
    (Card.parse_iter src).fold fuel s init f = some ((ts.map Card.from_str).foldl f init, u) := by
  have := fold_gives (Card.parse_iter src).inner f ((c44_items src s t _).2 ⟨ts, h, rfl⟩)
    ((c44_stops src t u).2 hs) init (fuel - (ts.length + 1))
  rw [List.length_map, show ts.length + 1 + (fuel - (ts.length + 1)) = fuel by omega] at this
  exact this

example : (Card.parse_iter (sliceIter Str)).fold 3 ["As".toList, "??".toList] 0
    (fun n r => match r with | .ok _ => n + 1 | .error _ => n) = some (1, []) :=
  c44_fold _ _ _ _ _ (slice_gives ["As".toList, "??".toList] []) rfl _ _ _ (by decide)

theorem collect_go {ε α : Type} (it : Iter σ (Except ε α)) {s t : σ} {as : List α}
    (h : Gives it s (as.map .ok) t) (acc : List α) (k : Nat) :
    it.collectResult (as.length + k) s acc = it.collectResult k t (acc ++ as) := by
  induction as generalizing s acc with
  | nil => cases h; simp
  | cons a as ih =>
    cases h with
    | cons _ t' _ _ _ hn hg =>
      rw [show (a :: as).length + k = (as.length + k) + 1 by simp; omega, Iter.collectResult, hn]
      simp only
      rw [ih hg, List.append_assoc]
      rfl

theorem gives_ok (src : Iter σ Str) {s t : σ} {ts : List Str} {cs : List Card} (h : Gives src s ts t)
    (hc : List.Forall₂ (fun x c => Card.from_str x = .ok c) ts cs) :
    Gives (Card.parse_iter src).inner s (cs.map .ok) t := by
  refine (c44_items src s t _).2 ⟨ts, h, ?_⟩
  clear h
  induction hc with
  | nil => rfl
  | cons h1 _ ih => rw [List.map_cons, List.map_cons, ih, h1]

/-- C44: if every string up to the end of the given iterator parses, `try_collect` returns the cards in
order, having pulled to the end. -/
theorem c44_collect_ok (src : Iter σ Str) (s t u : σ) (ts : List Str) (cs : List Card)
    (h : Gives src s ts t) (hs : Stops src t u)
    (hc : List.Forall₂ (fun x c => Card.from_str x = .ok c) ts cs) (fuel : Nat)
    (hf : ts.length < fuel) :
    (Card.parse_iter src).try_collect fuel s = some (.ok cs, u) := by
  have hl := hc.length_eq
  rw [ParseToIter.try_collect, show fuel = cs.length + (fuel - cs.length - 1 + 1) by omega,
    collect_go _ (gives_ok src h hc), Iter.collectResult, (c44_stops src t u).2 hs]
  simp

example : (Card.parse_iter (sliceIter Str)).try_collect 3 ["As".toList, "Kd".toList]
    = some (.ok [Card.new .Ace .Spades, Card.new .King .Diamonds], []) :=
  c44_collect_ok _ _ _ _ _ _ (slice_gives ["As".toList, "Kd".toList] []) rfl (.cons rfl (.cons rfl .nil)) _
    (by decide)

/-- C44: at the first string that does not parse, `try_collect` returns its error and pulls no more:
the rest of the given iterator, be it endless, is not touched. -/
theorem c44_collect_error (src : Iter σ Str) (s t u : σ) (ts : List Str) (cs : List Card) (bad : Str)
    (e : ParseCardError) (h : Gives src s ts t) (hb : src.next t = (some bad, u))
    (hc : List.Forall₂ (fun x c => Card.from_str x = .ok c) ts cs)
    (he : Card.from_str bad = .error e) (fuel : Nat) (hf : ts.length < fuel) :
    (Card.parse_iter src).try_collect fuel s = some (.error e, u) := by
  have hl := hc.length_eq
  rw [ParseToIter.try_collect, show fuel = cs.length + (fuel - cs.length - 1 + 1) by omega,
    collect_go _ (gives_ok src h hc), Iter.collectResult]
  have : (Card.parse_iter src).inner.next t = (some (.error e), u) := by
    show (Card.parse_iter src).next t = _
    rw [c44_next, hb, ← he]
    rfl
  rw [this]

/-- C44: on an endless iterator of good strings, `try_collect` does not return. -/
theorem c44_collect_endless (src : Iter σ Str) (s : σ) (he : Endless src s)
    (hg : ∀ ts t, Gives src s ts t → ∀ x ∈ ts, ∃ c, Card.from_str x = .ok c) (fuel : Nat) :
    (Card.parse_iter src).try_collect fuel s = none := by
  have key : ∀ fuel s acc, Endless src s →
      (∀ ts t, Gives src s ts t → ∀ x ∈ ts, ∃ c, Card.from_str x = .ok c) →
      (Card.parse_iter src).inner.collectResult fuel s acc = none := by
    intro fuel
    induction fuel with
    | zero => intros; rfl
    | succ n ih =>
      intro s acc he hg
      cases hn : src.next s with
      | mk o t =>
        cases o with
        | none => exact absurd hn (he [] s (.nil s) t)
        | some x =>
          obtain ⟨c, hc⟩ := hg [x] t (.cons s t t x [] hn (.nil t)) x (by simp)
          have h1 : (Card.parse_iter src).inner.next s = (some (.ok c), t) := by
            show (Card.parse_iter src).next s = _
            rw [c44_next, hn, ← hc]
            rfl
          rw [Iter.collectResult, h1]
          refine ih t _ ?_ ?_
          · intro l u hl v
            exact he (x :: l) u (.cons s t u x l hn hl) v
          · intro ts u hts y hy
            exact hg (x :: ts) u (.cons s t u x ts hn hts) y (by simp [hy])
  exact key fuel s [] he hg

/-- C44: on a slice, whose iterator is its own list of items, pulling gives the items of `C18`, the
size hint is the number of strings left, and `try_collect` is that of `C18`. -/
theorem c44_slice (ts : List Str) :
    Gives (Card.parse_iter (sliceIter Str)).inner ts (Card.parse_to_iter ts) [] ∧
    Stops (Card.parse_iter (sliceIter Str)).inner [] [] ∧
    (Card.parse_iter (sliceIter Str)).size_hint ts = (ts.length, some ts.length) ∧
    ∃ rest, ∀ fuel, ts.length < fuel →
      (Card.parse_iter (sliceIter Str)).try_collect fuel ts
        = some (try_collect (Card.parse_to_iter ts), rest) := by
  have hg := slice_gives ts []
  rw [List.append_nil] at hg
  refine ⟨(c44_items _ _ _ _).2 ⟨ts, hg, rfl⟩, rfl, rfl, ?_⟩
  cases hc : try_collect (Card.parse_to_iter ts) with
  | ok cs =>
    exact ⟨[], fun fuel hf => c44_collect_ok _ ts [] [] ts cs hg rfl ((c18_ok ts cs).1 hc) fuel hf⟩
  | error e =>
    obtain ⟨as, post, h⟩ := (try_collect_error _ e).1 hc
    rw [Card.parse_to_iter, List.map_eq_append_iff] at h
    obtain ⟨l1, l2, rfl, h1, h2⟩ := h
    obtain ⟨bad, l3, rfl, h3, -⟩ := List.map_eq_cons_iff.1 h2
    refine ⟨l3, fun fuel hf => c44_collect_error _ _ (bad :: l3) l3 l1 as bad e
      (slice_gives l1 (bad :: l3)) rfl ?_ h3 fuel (by simp at hf; omega)⟩
    rw [← c18_ok, try_collect_ok]
    exact h1

/-- An endless iterator: it gives `As` and `Xx` in turn. -/
def flipping : Iter Bool Str where
  next := fun b => (some (if b then "As".toList else "Xx".toList), !b)
  size_hint := fun _ => (0, none)

/-- `try_collect` returns on it: one good string, then a bad one, and the third is not pulled. -/
example : (Card.parse_iter flipping).try_collect 2 true
    = some (.error (.InvalidRank "Xx".toList 'X'), true) :=
  c44_collect_error flipping true false true ["As".toList] [Card.new .Ace .Spades] "Xx".toList _
    (.cons true false false _ [] rfl (.nil false)) rfl (.cons rfl .nil) rfl 2 (by decide)

/-- An endless iterator of good strings meets the hypotheses of `c44_collect_endless`. -/
example : let aces : Iter Unit Str := ⟨fun _ => (some "As".toList, ()), fun _ => (0, none)⟩
    Endless aces () ∧ ∀ ts t, Gives aces () ts t → ∀ x ∈ ts, ∃ c, Card.from_str x = .ok c := by
  refine ⟨fun l t _ u h => by simp [Stops] at h, fun ts t h => ?_⟩
  generalize () = s at h
  induction h with
  | nil => simp
  | cons s t u a l hn _ ih =>
    intro x hx
    rcases List.mem_cons.1 hx with rfl | hx
    · simp only [Prod.mk.injEq, Option.some.injEq] at hn
      rw [← hn.1]
      exact ⟨Card.new .Ace .Spades, rfl⟩
    · exact ih x hx

/-- A slice meets the hypotheses of the others. -/
example : Gives (sliceIter Str) ["As".toList, "Kd".toList] ["As".toList, "Kd".toList] [] ∧
    Stops (sliceIter Str) [] [] ∧
    HintHolds (sliceIter Str) ((sliceIter Str).size_hint ["As".toList]) ["As".toList] := by
  refine ⟨slice_gives ["As".toList, "Kd".toList] [], rfl, ?_⟩
  intro l t u hg hs
  cases hg with
  | nil => simp [Stops, sliceIter] at hs
  | cons _ t' _ a l' hn hg' =>
    simp only [sliceIter, Prod.mk.injEq, Option.some.injEq] at hn
    obtain ⟨-, rfl⟩ := hn
    cases hg' with
    | nil => simp [sliceIter]
    | cons _ _ _ _ _ hn' _ => simp [sliceIter] at hn'

/-- C44: pulled at the back, it gives the parse of the last string. -/
theorem c44_next_back (src : Iter σ Str) (ends : Iter.Ends σ Str) (s : σ) :
    (Card.parse_iter src).next_back (Card.parse_ends ends) s
      = ((ends.next_back s).1.map Card.from_str, (ends.next_back s).2) := by
  simp only [ParseToIter.next_back, Card.parse_ends, Iter.Ends.map]
  split <;> rename_i h <;> rw [h] <;> rfl

/-- C44: if the given iterator can be pulled at both ends over the strings `ts`, however pulls at the
front and the back are mixed, so can the parsing iterator over their parses, and `len` counts them. -/
theorem c44_ends (src : Iter σ Str) (ends : Iter.Ends σ Str) (s : σ) (ts : List Str)
    (h : TwoEnded src.next ends.next_back ends.len s ts) :
    TwoEnded (Card.parse_iter src).next ((Card.parse_iter src).next_back (Card.parse_ends ends))
      ((Card.parse_iter src).len (Card.parse_ends ends)) s (ts.map Card.from_str) := by
  induction h with
  | nil s t u hn hb hl =>
    exact .nil s t u (by rw [c44_next, hn]; rfl) (by rw [c44_next_back, hb]; rfl) hl
  | some s t u a b l ha hb hn hnb hl _ _ ih1 ih2 =>
    refine .some s t u (Card.from_str a) (Card.from_str b) _ (by simp [ha]) (by simp [hb])
      (by rw [c44_next, hn]; rfl) (by rw [c44_next_back, hnb]; rfl) ?_ ?_ ?_
    · rw [List.length_map]
      exact hl
    · rw [← List.map_tail]
      exact ih1
    · rw [← List.map_dropLast]
      exact ih2

/-- A slice can be pulled at both ends. -/
theorem c44_slice_ends {ι : Type} : ∀ (n : Nat) (l : List ι), l.length = n →
    TwoEnded (sliceIter ι).next (sliceEnds ι).next_back (sliceEnds ι).len l l := by
  intro n
  induction n with
  | zero =>
    intro l hl
    rw [List.length_eq_zero_iff] at hl
    subst hl
    exact .nil _ _ _ rfl rfl rfl
  | succ n ih =>
    intro l hl
    cases l with
    | nil => cases hl
    | cons a l =>
      exact .some (a :: l) l (a :: l).dropLast a ((a :: l).getLast (by simp)) (a :: l) rfl
        (List.getLast?_eq_some_getLast _) rfl
        (by simp [sliceEnds, List.getLast?_eq_some_getLast]) rfl
        (ih l (by simpa using hl)) (ih _ (by simpa using hl))

/-- `c44_ends` on a slice of two strings. -/
example : TwoEnded (sliceIter Str).next (sliceEnds Str).next_back (sliceEnds Str).len
    ["As".toList, "Kd".toList] ["As".toList, "Kd".toList] := c44_slice_ends _ _ rfl

end Poker

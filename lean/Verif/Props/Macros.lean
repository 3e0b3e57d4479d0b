import Verif.Proofs.Macros

/-! C56: what `card!`, `cards!` and `box_cards!` accept and what they mean. -/

namespace Poker.Macros

open Poker.Written

variable {E : Type}

/-- C56: `card!` takes `r, s` and `r of s`, for two identifiers whatever they are, as the names of a
rank and a suit; else exactly one expression, which is parsed; nothing else compiles. -/
theorem c56_card (P : Exprs E) (ts : List Tok) (x : CardExp E) :
    card P ts = some x ↔
      (∃ p : Str × Str, (ts = pair .comma p ∨ ts = pair ofWord p) ∧ x = .new p.1 p.2) ∨
      ((∀ p, ts ≠ pair .comma p ∧ ts ≠ pair ofWord p) ∧ ∃ e, Begins P ts e [] ∧ x = .parse e) := by
  unfold card
  rcases run_single P .comma ts with ⟨r, s, rfl, h1⟩ | ⟨n1, h1⟩
  · simp only [arms, h1, Option.some.injEq]
    constructor
    · rintro rfl
      exact .inl ⟨(r, s), .inl rfl, rfl⟩
    · rintro (⟨p, h | h, rfl⟩ | ⟨h, _⟩)
      · cases h; rfl
      · simp [pair, ofWord] at h
      · exact absurd rfl (h (r, s)).1
  · rcases run_single P .of ts with ⟨r, s, rfl, h2⟩ | ⟨n2, h2⟩
    · have h3 : run P (starts [] [.one .ident, .one (.tok .comma), .one .ident])
          [.ident r, .comma, .ident s] = .matched [.ident r, .ident s] := by
        rcases run_single P .comma [.ident r, .comma, .ident s] with ⟨r', s', h, h'⟩ | ⟨h, _⟩
        · cases h; exact h'
        · exact absurd rfl (h r s)
      simp only [arms, h1, h2, h3, Option.some.injEq]
      constructor
      · rintro rfl
        exact .inl ⟨(r, s), .inr rfl, rfl⟩
      · rintro (⟨p, h | h, rfl⟩ | ⟨h, _⟩)
        · exact absurd h (n1 _ _)
        · cases h; rfl
        · exact absurd rfl (h (r, s)).2
    · simp only [arms, h1, h2]
      constructor
      · intro h
        right
        refine ⟨fun p => ⟨n1 _ _, n2 _ _⟩, ?_⟩
        cases h3 : run P (starts [] [.one .expr]) ts with
        | matched b =>
          obtain ⟨e, he, rfl⟩ := (run_one P ts b).1 h3
          rw [h3] at h
          cases h
          exact ⟨e, he, rfl⟩
        | no => rw [h3] at h; cases h
        | error => rw [h3] at h; cases h
      · rintro (⟨p, h | h, _⟩ | ⟨_, e, he, rfl⟩)
        · exact absurd h (n1 _ _)
        · exact absurd h (n2 _ _)
        · rw [(run_one P ts _).2 ⟨e, he, rfl⟩]

/-- The two ways to write pairs exclude each other. -/
theorem not_both {ts : List Tok} {l l' : List (Str × Str)} (h : Pairs .comma .semi ts l)
    (h' : Pairs ofWord .comma ts l') : False := by
  obtain ⟨r, s, u, rfl⟩ := Pairs.ne_nil h
  obtain ⟨r', s', u', h⟩ := Pairs.ne_nil h'
  simp [ofWord] at h

/-- Pairs can be read in one way only. -/
theorem pairs_unique {x sep : Tok} {ts : List Tok} {l l' : List (Str × Str)} (h : Pairs x sep ts l)
    (h' : Pairs x sep ts l') : l = l' := by
  induction l generalizing ts l' with
  | nil => exact absurd rfl h.1
  | cons p l ih =>
    obtain ⟨r, s, u, rfl⟩ := Pairs.ne_nil h
    obtain ⟨k, hk, hu⟩ := (pairs_step ..).1 h
    obtain ⟨k', hk', hu'⟩ := (pairs_step ..).1 h'
    cases hk
    subst hk'
    congr 1
    rcases hu with ⟨rfl, hu⟩ | ⟨v, rfl, hv⟩
    · rcases hu' with ⟨rfl, _⟩ | ⟨v, rfl, hv⟩
      · rfl
      · obtain ⟨_, _, _, rfl⟩ := Pairs.ne_nil hv
        rcases hu with hu | hu <;> simp at hu
    · rcases hu' with ⟨rfl, hu⟩ | ⟨v', hv', hu'⟩
      · obtain ⟨_, _, _, rfl⟩ := Pairs.ne_nil hv
        rcases hu with hu | hu <;> simp at hu
      · cases hv'
        exact ih hv hu'

/-- C56: a list of pairs of identifiers has one reading. -/
theorem c56_unique {ts : List Tok} {l l' : List (Str × Str)} (h : Names ts l) (h' : Names ts l') :
    l = l' := by
  rcases h with h | h <;> rcases h' with h' | h'
  · exact pairs_unique h h'
  · exact (not_both h h').elim
  · exact (not_both h' h).elim
  · exact pairs_unique h h'

example (l : List (Str × Str)) (h : Names [.ident "King".toList, .comma, .ident "Hearts".toList] l) :
    l = [("King".toList, "Hearts".toList)] :=
  c56_unique h (.inl ⟨by simp, .inl (by decide)⟩)

theorem card_pair (P : Exprs E) (p : Str × Str) :
    card P [.ident p.1, .comma, .ident p.2] = some (.new p.1 p.2) :=
  (c56_card P _ _).2 (.inl ⟨p, .inl rfl, rfl⟩)

theorem mapM_card (P : Exprs E) (l : List (Str × Str)) :
    l.mapM (fun p => card P [.ident p.1, .comma, .ident p.2]) =
      some (l.map (fun p => .new p.1 p.2)) := by
  induction l with
  | nil => rfl
  | cons p l ih => rw [List.mapM_cons, card_pair, ih]; rfl

theorem passOn_eq (l : List (Str × Str)) : passOn l = Written.pairs .comma .semi l := by
  induction l with
  | nil => rfl
  | cons p l ih =>
    cases l with
    | nil => rw [pairs_single]; rfl
    | cons q l => rw [pairs_cons _ _ _ (by simp), passOn, ih]; simp

/-- C56: `cards!` takes pairs of identifiers, whatever they are, as the names of ranks and suits, and
makes an array; else two expressions or more, perhaps with a comma at the end, to be parsed one by one;
else exactly one expression, the words of which are parsed; nothing else compiles. -/
theorem c56_cards (P : Exprs E) (ts : List Tok) (x : CardsExp E) :
    cards P ts = some x ↔
      (∃ l, Names ts l ∧ x = .array (l.map (fun p => .new p.1 p.2))) ∨
      ((∀ l, ¬ Names ts l) ∧
        ((∃ es tr, 2 ≤ es.length ∧ Listed P ts es tr ∧ x = .strings es) ∨
          ∃ e, Begins P ts e [] ∧ x = .words e)) := by
  unfold cards
  rcases run_arm P .comma .semi ts with ⟨l, hl, h1⟩ | ⟨n1, h1⟩
  · simp only [arms, h1, pairs_bounds, Option.bind_some, mapM_card, Option.map_some, Option.some.injEq]
    constructor
    · rintro rfl
      exact .inl ⟨l, .inl hl, rfl⟩
    · rintro (⟨l', h, rfl⟩ | ⟨h, _⟩)
      · rw [c56_unique (.inl hl) h]
      · exact absurd (.inl hl) (h l)
  · rcases run_arm P .of .comma ts with ⟨l, hl, h2⟩ | ⟨n2, h2⟩
    · have h3 : run P (starts [] [.plus [.ident, .tok .comma, .ident] .semi, .opt .semi]) (passOn l) =
          .matched (pairBounds l) := by
        have hp : Pairs .comma .semi (passOn l) l := ⟨hl.1, .inl (passOn_eq l)⟩
        rcases run_arm P .comma .semi (passOn l) with ⟨l', h, h'⟩ | ⟨h, _⟩
        · rw [h', pairs_unique h hp]
        · exact absurd hp (h l)
      simp only [arms, h1, h2, pairs_bounds, Option.bind_some, h3, mapM_card, Option.map_some,
        Option.some.injEq]
      constructor
      · rintro rfl
        exact .inl ⟨l, .inr hl, rfl⟩
      · rintro (⟨l', h, rfl⟩ | ⟨h, _⟩)
        · rw [c56_unique (.inr hl) h]
        · exact absurd (.inr hl) (h l)
    · have nn : ∀ l, ¬ Names ts l := fun l h => h.elim (n1 l) (n2 l)
      obtain ⟨h3, h3'⟩ := run_two P ts
      rw [twoPats] at h3 h3'
      simp only [arms, h1, h2]
      constructor
      · intro h
        refine .inr ⟨nn, ?_⟩
        cases hr : run P (starts [] [.one .expr, .one (.tok .comma), .plus [.expr] .comma, .opt .comma]) ts with
        | matched b =>
          obtain ⟨es, tr, h2', hes, rfl⟩ := (h3 b).1 hr
          rw [hr] at h
          simp only [exprs_bounds, Option.map_some, Option.some.injEq] at h
          exact .inl ⟨es, tr, h2', hes, h.symm⟩
        | no =>
          rw [hr] at h
          cases h4 : run P (starts [] [.one .expr]) ts with
          | matched b =>
            obtain ⟨e, he, rfl⟩ := (run_one P ts b).1 h4
            rw [h4] at h
            cases h
            exact .inr ⟨e, he, rfl⟩
          | no => rw [h4] at h; cases h
          | error => rw [h4] at h; cases h
        | error => rw [hr] at h; cases h
      · rintro (⟨l, h, _⟩ | ⟨_, ⟨es, tr, h2', hes, rfl⟩ | ⟨e, he, rfl⟩⟩)
        · exact absurd h (nn l)
        · rw [(h3 _).2 ⟨es, tr, h2', hes, rfl⟩]
          simp [exprs_bounds]
        · rw [h3' e he, (run_one P ts _).2 ⟨e, he, rfl⟩]

/-- C56: `box_cards!` takes two expressions or more, perhaps with a comma at the end, and nothing
else. -/
theorem c56_box (P : Exprs E) (ts : List Tok) (e : E) (es : List E) :
    box P ts = some (e, es) ↔ es ≠ [] ∧ ∃ tr, Listed P ts (e :: es) tr := by
  unfold box
  obtain ⟨h3, _⟩ := run_two P ts
  rw [twoPats] at h3
  simp only [arms]
  constructor
  · intro h
    cases hr : run P (starts [] [.one .expr, .one (.tok .comma), .plus [.expr] .comma, .opt .comma]) ts with
    | matched b =>
      obtain ⟨fs, tr, h2, hl, rfl⟩ := (h3 b).1 hr
      rw [hr] at h
      cases fs with
      | nil => simp at h2
      | cons f fs =>
        simp only [List.map_cons, exprs_bounds, Option.map_some, Option.some.injEq, Prod.mk.injEq] at h
        obtain ⟨rfl, rfl⟩ := h
        exact ⟨by rintro rfl; simp at h2, tr, hl⟩
    | no => rw [hr] at h; cases h
    | error => rw [hr] at h; cases h
  · rintro ⟨hne, tr, hl⟩
    rw [(h3 _).2 ⟨e :: es, tr, ?_, hl, rfl⟩]
    · simp [exprs_bounds]
    · have := List.length_pos_iff.2 hne
      simp
      omega

theorem rankNamed_iff (n : Str) (r : Rank) : rankNamed n = some r ↔ n = Text.rankName r := by
  constructor
  · intro h
    have := List.find?_some h
    simp only [decide_eq_true_eq] at this
    rw [← this]
    cases r <;> rfl
  · rintro rfl
    cases r <;> decide

theorem suitNamed_iff (n : Str) (s : Suit) : suitNamed n = some s ↔ n = Text.suitName s := by
  constructor
  · intro h
    have := List.find?_some h
    simp only [decide_eq_true_eq] at this
    rw [← this]
    cases s <;> rfl
  · rintro rfl
    cases s <;> decide

theorem new_value (str : E → Str) (p : Str × Str) (v : CardValue) :
    (CardExp.new p.1 p.2 : CardExp E).value str = some v ↔
      ∃ q : Rank × Suit, p = names q ∧ v = .card (Card.new q.1 q.2) := by
  constructor
  · intro h
    simp only [CardExp.value, Option.bind_eq_bind, Option.bind_eq_some_iff] at h
    obtain ⟨r, hr, s, hs, h⟩ := h
    cases h
    refine ⟨(r, s), ?_, rfl⟩
    rw [names, ← (rankNamed_iff _ _).1 hr, ← (suitNamed_iff _ _).1 hs]
  · rintro ⟨q, rfl, rfl⟩
    simp [CardExp.value, names, (rankNamed_iff _ _).2 rfl, (suitNamed_iff _ _).2 rfl]

theorem array_value (str : E → Str) (l : List (Str × Str)) (v : CardsValue) :
    (CardsExp.array (l.map (fun p => .new p.1 p.2)) : CardsExp E).value str = some v ↔
      ∃ k : List (Rank × Suit), l = k.map names ∧ v = .array (cardsOfIdents k) := by
  simp only [CardsExp.value, Option.map_eq_some_iff]
  induction l generalizing v with
  | nil =>
    constructor
    · rintro ⟨a, h, rfl⟩
      cases h
      exact ⟨[], rfl, rfl⟩
    · rintro ⟨k, h, rfl⟩
      cases k with
      | nil => exact ⟨[], rfl, rfl⟩
      | cons q k => simp at h
  | cons p l ih =>
    simp only [List.map_cons, List.mapM_cons, Option.bind_eq_bind, Option.bind_eq_some_iff, Option.pure_def,
      Option.some.injEq]
    constructor
    · rintro ⟨a, ⟨c, ⟨w, hw, hc⟩, as, has, rfl⟩, rfl⟩
      obtain ⟨q, rfl, rfl⟩ := (new_value str p w).1 hw
      cases hc
      obtain ⟨k, rfl, hk⟩ := (ih _).1 ⟨as, has, rfl⟩
      cases hk
      exact ⟨q :: k, rfl, rfl⟩
    · rintro ⟨k, h, rfl⟩
      cases k with
      | nil => simp at h
      | cons q k =>
        simp only [List.map_cons, List.cons.injEq] at h
        obtain ⟨rfl, rfl⟩ := h
        obtain ⟨as, has, h⟩ := (ih _).2 ⟨k, rfl, rfl⟩
        cases h
        exact ⟨_, ⟨_, ⟨_, (new_value str (names q) _).2 ⟨q, rfl, rfl⟩, rfl⟩, _, has, rfl⟩, rfl⟩

/-- C56: what a call of `card!` comes to: the card whose rank and suit are named, or what parsing the
expression gives. -/
theorem c56_card_value (P : Exprs E) (str : E → Str) (ts : List Tok) (v : CardValue) :
    (card P ts).bind (·.value str) = some v ↔
      (∃ q : Rank × Suit, (ts = pair .comma (names q) ∨ ts = pair ofWord (names q)) ∧
        v = .card (Card.new q.1 q.2)) ∨
      ((∀ p, ts ≠ pair .comma p ∧ ts ≠ pair ofWord p) ∧
        ∃ e, Begins P ts e [] ∧ v = .result (Card.from_str (str e))) := by
  rw [Option.bind_eq_some_iff]
  constructor
  · rintro ⟨x, hx, hv⟩
    rcases (c56_card P ts x).1 hx with ⟨p, hp, rfl⟩ | ⟨hn, e, he, rfl⟩
    · obtain ⟨q, rfl, rfl⟩ := (new_value str p v).1 hv
      exact .inl ⟨q, hp, rfl⟩
    · cases hv
      exact .inr ⟨hn, e, he, rfl⟩
  · rintro (⟨q, hq, rfl⟩ | ⟨hn, e, he, rfl⟩)
    · exact ⟨_, (c56_card P ts _).2 (.inl ⟨names q, hq, rfl⟩), (new_value str _ _).2 ⟨q, rfl, rfl⟩⟩
    · exact ⟨_, (c56_card P ts _).2 (.inr ⟨hn, e, he, rfl⟩), rfl⟩

/-- C56: what a call of `cards!` comes to: the array of the cards named, or the results of parsing the
expressions one by one, or the words of a single one. -/
theorem c56_cards_value (P : Exprs E) (str : E → Str) (ts : List Tok) (v : CardsValue) :
    (cards P ts).bind (·.value str) = some v ↔
      (∃ k : List (Rank × Suit), Names ts (k.map names) ∧ v = .array (cardsOfIdents k)) ∨
      ((∀ l, ¬ Names ts l) ∧
        ((∃ es tr, 2 ≤ es.length ∧ Listed P ts es tr ∧ v = .iter (cardsOfStrings (es.map str))) ∨
          ∃ e, Begins P ts e [] ∧ v = .iter (cardsOfString (str e)))) := by
  rw [Option.bind_eq_some_iff]
  constructor
  · rintro ⟨x, hx, hv⟩
    rcases (c56_cards P ts x).1 hx with ⟨l, hl, rfl⟩ | ⟨hn, ⟨es, tr, h2, he, rfl⟩ | ⟨e, he, rfl⟩⟩
    · obtain ⟨k, rfl, rfl⟩ := (array_value str l v).1 hv
      exact .inl ⟨k, hl, rfl⟩
    · cases hv
      exact .inr ⟨hn, .inl ⟨es, tr, h2, he, rfl⟩⟩
    · cases hv
      exact .inr ⟨hn, .inr ⟨e, he, rfl⟩⟩
  · rintro (⟨k, hk, rfl⟩ | ⟨hn, ⟨es, tr, h2, he, rfl⟩ | ⟨e, he, rfl⟩⟩)
    · exact ⟨_, (c56_cards P ts _).2 (.inl ⟨_, hk, rfl⟩), (array_value str _ _).2 ⟨k, rfl, rfl⟩⟩
    · exact ⟨_, (c56_cards P ts _).2 (.inr ⟨hn, .inl ⟨es, tr, h2, he, rfl⟩⟩), rfl⟩
    · exact ⟨_, (c56_cards P ts _).2 (.inr ⟨hn, .inr ⟨e, he, rfl⟩⟩), rfl⟩

/-- C56: a comma or a semicolon after a single expression, or after a single card in `card!`, is not
allowed, unless the expression itself takes it in. -/
theorem c56_trailing (P : Exprs E) (ts : List Tok) (e : E) (t : Tok) (h : Begins P ts e [t]) :
    ((∀ p, ts ≠ pair .comma p ∧ ts ≠ pair ofWord p) → card P ts = none) ∧
      ((∀ l, ¬ Names ts l) → cards P ts = none) ∧ box P ts = none := by
  have h2 : ∀ es tr, 2 ≤ es.length → ¬ Listed P ts es tr := by
    intro es tr hes hl
    cases hl with
    | last => simp at hes
    | trail => simp at hes
    | more h' h'' =>
      have := (begins_unique h h').2
      cases this
      exact not_listed_nil P _ _ h''
  refine ⟨fun hn => ?_, fun hn => ?_, ?_⟩
  · rw [Option.eq_none_iff_forall_ne_some]
    intro x hx
    rcases (c56_card P ts x).1 hx with ⟨p, hp, _⟩ | ⟨_, e', he', _⟩
    · exact hp.elim (hn p).1 (hn p).2
    · cases (begins_unique h he').2
  · rw [Option.eq_none_iff_forall_ne_some]
    intro x hx
    rcases (c56_cards P ts x).1 hx with ⟨l, hl, _⟩ | ⟨_, ⟨es, tr, hes, hl, _⟩ | ⟨e', he', _⟩⟩
    · exact hn l hl
    · exact h2 es tr hes hl
    · cases (begins_unique h he').2
  · rw [Option.eq_none_iff_forall_ne_some]
    rintro ⟨x, xs⟩ hx
    obtain ⟨hne, tr, hl⟩ := (c56_box P ts x xs).1 hx
    have := List.length_pos_iff.2 hne
    exact h2 _ tr (by simp; omega) hl

example : box (E := Tok) ⟨fun _ => true, fun ts => ts.head?.map (·, 0)⟩ [.other 1, .comma] = none :=
  (c56_trailing _ _ (.other 1) .comma ⟨_, _, 0, rfl, rfl, rfl, rfl⟩).2.2

/-- C56: two variables `a, b` given to `cards!` are never parsed: they are taken as names, and if they
are not those of a rank and a suit the call does not compile, however expressions are read.  With a comma
after them they are parsed, and so are three. -/
theorem c56_two_variables (P : Exprs E) (str : E → Str) (a b : Str) :
    cards P [.ident a, .comma, .ident b] = some (.array [.new a b]) ∧
      ((∀ q, (a, b) ≠ names q) →
        (cards P [.ident a, .comma, .ident b]).bind (·.value str) = none) ∧
      (∀ e f, Begins P [.ident a, .comma, .ident b, .comma] e [.comma, .ident b, .comma] →
        Begins P [.ident b, .comma] f [.comma] →
        cards P [.ident a, .comma, .ident b, .comma] = some (.strings [e, f])) ∧
      ∀ c e f g, Begins P [.ident a, .comma, .ident b, .comma, .ident c] e
          [.comma, .ident b, .comma, .ident c] →
        Begins P [.ident b, .comma, .ident c] f [.comma, .ident c] → Begins P [.ident c] g [] →
        cards P [.ident a, .comma, .ident b, .comma, .ident c] = some (.strings [e, f, g]) := by
  have hname : Names [.ident a, .comma, .ident b] [(a, b)] :=
    .inl ⟨by simp, .inl (by rw [pairs_single])⟩
  have hno : ∀ u l, ¬ Names (.ident a :: .comma :: .ident b :: .comma :: u) l := by
    rintro u l (h | h)
    · obtain ⟨l', _, ⟨_, h | h⟩ | ⟨v, h, _⟩⟩ := (pairs_step ..).1 h <;> cases h
    · obtain ⟨r, s, v, h⟩ := Pairs.ne_nil h
      simp [ofWord] at h
  refine ⟨(c56_cards P _ _).2 (.inl ⟨_, hname, rfl⟩), fun hq => ?_, fun e f he hf => ?_,
    fun c e f g he hf hg => ?_⟩
  · rw [Option.eq_none_iff_forall_ne_some]
    intro v hv
    rcases (c56_cards_value P str _ v).1 hv with ⟨k, hk, _⟩ | ⟨hn, _⟩
    · have := c56_unique hname hk
      cases k with
      | nil => cases this
      | cons q k => exact hq q (List.cons.inj this).1
    · exact hn _ hname
  · exact (c56_cards P _ _).2 (.inr ⟨hno _, .inl ⟨[e, f], true, by simp, .more he (.trail hf), rfl⟩⟩)
  · exact (c56_cards P _ _).2
      (.inr ⟨hno _, .inl ⟨[e, f, g], false, by simp, .more he (.more hf (.last hg)), rfl⟩⟩)

/-- Expressions that are single tokens: strings and variables. -/
def single : Exprs Tok where
  begins t := match t with
    | .ident _ | .other _ => true
    | _ => false
  parse ts := ts.head?.map (·, 0)

private def name (s : String) : Tok := .ident s.toList

/-- `cards!(King, Hearts; Queen, Hearts;)` and `cards!(King of Hearts, Queen of Hearts,)`. -/
example : Names [name "King", .comma, name "Hearts", .semi, name "Queen", .comma, name "Hearts", .semi]
      ([(.King, .Hearts), (.Queen, .Hearts)].map names) ∧
    Names [name "King", name "of", name "Hearts", .comma, name "Queen", name "of", name "Hearts", .comma]
      ([(.King, .Hearts), (.Queen, .Hearts)].map names) := by
  refine ⟨.inl ⟨by simp, .inr ?_⟩, .inr ⟨by simp, .inr ?_⟩⟩ <;> decide

/-- `cards!(a, b, c)` with variables. -/
example : Begins single [name "a", .comma, name "b", .comma, name "c"] (name "a")
      [.comma, name "b", .comma, name "c"] ∧
    Begins single [name "b", .comma, name "c"] (name "b") [.comma, name "c"] ∧
    Begins single [name "c"] (name "c") [] ∧ Begins single [name "b", .comma] (name "b") [.comma] ∧
    ∀ q, ("a".toList, "b".toList) ≠ names q := by
  refine ⟨⟨_, _, 0, rfl, rfl, rfl, rfl⟩, ⟨_, _, 0, rfl, rfl, rfl, rfl⟩, ⟨_, _, 0, rfl, rfl, rfl, rfl⟩,
    ⟨_, _, 0, rfl, rfl, rfl, rfl⟩, ?_⟩
  rintro ⟨r, s⟩
  cases r <;> cases s <;> decide

/-- `cards!("Kh", "Qh")` and `cards!("Kh Qh")`. -/
example : Listed single [.other 1, .comma, .other 2] [.other 1, .other 2] false ∧
    Begins single [.other 1] (.other 1) [] ∧ ∀ l, ¬ Names [.other 1] l := by
  refine ⟨.more ⟨_, _, 0, rfl, rfl, rfl, rfl⟩ (.last ⟨_, _, 0, rfl, rfl, rfl, rfl⟩),
    ⟨_, _, 0, rfl, rfl, rfl, rfl⟩, ?_⟩
  rintro l (h | h) <;> obtain ⟨_, _, _, h⟩ := Pairs.ne_nil h <;> cases h

end Poker.Macros

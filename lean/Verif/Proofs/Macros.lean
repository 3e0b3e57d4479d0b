import Verif.Spec.Macros

/-! The matcher of the macros on the patterns that occur. -/

namespace Poker.Macros

open Poker.Written

variable {E : Type}

theorem run_nil (P : Exprs E) (ps : List (Pos E)) : run P ps [] = match ps.filter finished with
    | [] => .no
    | [p] => .matched p.bound
    | _ => .error := by
  rw [run]
  rcases ps.filter finished with _ | ⟨p, _ | ⟨q, l⟩⟩ <;> rfl

/-- A token that is not what the fragments begin with moves on those that wait for it. -/
theorem run_tok (P : Exprs E) (ps : List (Pos E)) (t : Tok) (ts : List Tok)
    (h : ps.filter (begun P t) = []) :
    run P ps (t :: ts) = if (ps.flatMap (passed t)) = [] then .no else run P (ps.flatMap (passed t)) ts := by
  rw [run, h]
  rcases ps.flatMap (passed t) with _ | ⟨p, l⟩
  · rfl
  · rw [if_neg (by simp)]

theorem run_ident (P : Exprs E) (ps : List (Pos E)) (name : Str) (ts : List Tok) (b : List (Bound E))
    (r : List Pat) (h : ps.filter (begun P (.ident name)) = [⟨b, .one .ident :: r⟩])
    (h0 : ps.flatMap (passed (.ident name)) = []) :
    run P ps (.ident name :: ts) = run P (starts (b ++ [.ident name]) r) ts := by
  rw [run, h, h0]

theorem run_expr (P : Exprs E) (ps : List (Pos E)) (t : Tok) (ts : List Tok) (b : List (Bound E))
    (r : List Pat) (h : ps.filter (begun P t) = [⟨b, .one .expr :: r⟩])
    (h0 : ps.flatMap (passed t) = []) :
    run P ps (t :: ts) = match P.parse (t :: ts) with
      | none => .error
      | some (e, n) => run P (starts (b ++ [.expr e]) r) (ts.drop n) := by
  rw [run, h, h0]
  rcases P.parse (t :: ts) with _ | ⟨e, n⟩ <;> rfl

/-- The fragments of pairs. -/
def pairBounds (l : List (Str × Str)) : List (Bound E) := l.flatMap (fun p => [.ident p.1, .ident p.2])

theorem pairs_bounds (l : List (Str × Str)) : pairs (pairBounds l : List (Bound E)) = some l := by
  induction l with
  | nil => rfl
  | cons p l ih =>
    show pairs (Bound.ident p.1 :: Bound.ident p.2 :: pairBounds l) = _
    rw [pairs, ih]; rfl

theorem exprs_bounds (l : List E) : exprs (l.map Bound.expr) = some l := by
  induction l with
  | nil => rfl
  | cons e l ih => rw [List.map_cons, exprs, ih]; rfl

/-- What is to come before a pair. -/
def pairPats (x sep : Tok) : List Pat :=
  [.one .ident, .one (.tok x), .one .ident, .again [.ident, .tok x, .ident] sep, .opt sep]

/-- Reading a pair of identifiers with something between. -/
theorem run_pair (P : Exprs E) (x sep : Tok) (b : List (Bound E)) (r s : Str) (ts : List Tok)
    (qs : List (Pos E)) (hq : qs = [] ∨ qs = [⟨b, []⟩]) :
    run P (⟨b, pairPats x sep⟩ :: qs) (.ident r :: x :: .ident s :: ts) =
      run P [⟨b ++ [.ident r, .ident s], .one (.tok sep) :: pairPats x sep⟩,
        ⟨b ++ [.ident r, .ident s], [.one (.tok sep)]⟩, ⟨b ++ [.ident r, .ident s], []⟩] ts := by
  rw [run_ident P _ r _ b (.one (.tok x) :: .one .ident :: .again [.ident, .tok x, .ident] sep ::
      [.opt sep])]
  · rw [show starts (b ++ [Bound.ident r]) (.one (.tok x) :: .one .ident ::
        .again [.ident, .tok x, .ident] sep :: [.opt sep]) =
        [⟨b ++ [Bound.ident r], .one (.tok x) :: .one .ident ::
          .again [.ident, .tok x, .ident] sep :: [.opt sep]⟩] from rfl]
    rw [run_tok P _ x _ rfl]
    rw [show List.flatMap (passed x) [(⟨b ++ [Bound.ident r], .one (.tok x) :: .one .ident ::
          .again [.ident, .tok x, .ident] sep :: [.opt sep]⟩ : Pos E)] =
        [⟨b ++ [Bound.ident r], .one .ident :: .again [.ident, .tok x, .ident] sep :: [.opt sep]⟩] from by
      simp [passed, starts, ways]]
    rw [if_neg (by simp), run_ident P _ s _ (b ++ [.ident r])
      (.again [.ident, .tok x, .ident] sep :: [.opt sep]) rfl rfl]
    simp [starts, ways, pairPats, List.append_assoc]
  · rcases hq with rfl | rfl <;> rfl
  · rcases hq with rfl | rfl <;> rfl

/-- No identifier, so no pair. -/
theorem run_first (P : Exprs E) (x sep : Tok) (b : List (Bound E)) (t : Tok) (ts : List Tok)
    (qs : List (Pos E)) (hq : qs = [] ∨ qs = [⟨b, []⟩]) (ht : ∀ r, t ≠ .ident r) :
    run P (⟨b, pairPats x sep⟩ :: qs) (t :: ts) = .no := by
  rw [run_tok]
  · rw [if_pos]
    rcases hq with rfl | rfl <;> rfl
  · cases t with
    | ident r => exact absurd rfl (ht r)
    | _ => rcases hq with rfl | rfl <;> rfl

/-- An identifier that is not the first of a pair. -/
theorem run_second (P : Exprs E) (x sep : Tok) (b : List (Bound E)) (r : Str) (ts : List Tok)
    (qs : List (Pos E)) (hq : qs = [] ∨ qs = [⟨b, []⟩]) (ht : ∀ s u, ts ≠ x :: .ident s :: u) :
    run P (⟨b, pairPats x sep⟩ :: qs) (.ident r :: ts) = .no := by
  rw [run_ident P _ r _ b (.one (.tok x) :: .one .ident :: .again [.ident, .tok x, .ident] sep ::
      [.opt sep])]
  · rw [show starts (b ++ [Bound.ident r]) (.one (.tok x) :: .one .ident ::
        .again [.ident, .tok x, .ident] sep :: [.opt sep]) =
        [⟨b ++ [Bound.ident r], .one (.tok x) :: .one .ident ::
          .again [.ident, .tok x, .ident] sep :: [.opt sep]⟩] from rfl]
    cases ts with
    | nil => rw [run_nil]; rfl
    | cons t ts =>
      rw [run_tok P _ t _ rfl]
      by_cases hx : x = t
      · subst hx
        rw [show List.flatMap (passed x) [(⟨b ++ [Bound.ident r], .one (.tok x) :: .one .ident ::
          .again [.ident, .tok x, .ident] sep :: [.opt sep]⟩ : Pos E)] =
          [⟨b ++ [Bound.ident r], .one .ident :: .again [.ident, .tok x, .ident] sep :: [.opt sep]⟩] from by
          simp [passed, starts, ways]]
        rw [if_neg (by simp)]
        cases ts with
        | nil => rw [run_nil]; rfl
        | cons t ts =>
          cases t with
          | ident s => exact absurd rfl (ht s ts)
          | _ => rw [run_tok P _ _ _ rfl]; rfl
      · rw [if_pos]
        simp [passed, hx]
  · rcases hq with rfl | rfl <;> rfl
  · rcases hq with rfl | rfl <;> rfl

/-- The separator after a pair. -/
theorem run_sep (P : Exprs E) (x sep : Tok) (b : List (Bound E)) (ts : List Tok) :
    run P [⟨b, .one (.tok sep) :: pairPats x sep⟩, ⟨b, [.one (.tok sep)]⟩, ⟨b, []⟩] (sep :: ts) =
      run P [⟨b, pairPats x sep⟩, ⟨b, []⟩] ts := by
  rw [run_tok P _ sep _ rfl]
  simp [passed, starts, ways, pairPats]

theorem run_unsep (P : Exprs E) (x sep t : Tok) (b : List (Bound E)) (ts : List Tok) (h : sep ≠ t) :
    run P [⟨b, .one (.tok sep) :: pairPats x sep⟩, ⟨b, [.one (.tok sep)]⟩, ⟨b, []⟩] (t :: ts) = .no := by
  rw [run_tok P _ t _ rfl]
  simp [passed, h]

theorem pairs_single (x sep : Tok) (p : Str × Str) :
    Written.pairs x sep [p] = [.ident p.1, x, .ident p.2] := by
  simp [Written.pairs, pair]

theorem pairs_cons (x sep : Tok) (p : Str × Str) {l : List (Str × Str)} (hl : l ≠ []) :
    Written.pairs x sep (p :: l) = .ident p.1 :: x :: .ident p.2 :: sep :: Written.pairs x sep l := by
  cases l with
  | nil => exact absurd rfl hl
  | cons q l => simp [Written.pairs, pair, List.intercalate]

theorem Pairs.ne_nil {x sep : Tok} {ts : List Tok} {l : List (Str × Str)} (h : Pairs x sep ts l) :
    ∃ r s u, ts = .ident r :: x :: .ident s :: u := by
  obtain ⟨hl, h⟩ := h
  cases l with
  | nil => exact absurd rfl hl
  | cons p l =>
    by_cases hn : l = []
    · subst hn
      rw [pairs_single] at h
      rcases h with rfl | rfl
      · exact ⟨_, _, _, rfl⟩
      · exact ⟨_, _, _, rfl⟩
    · rw [pairs_cons x sep p hn] at h
      rcases h with rfl | rfl
      · exact ⟨_, _, _, rfl⟩
      · exact ⟨_, _, _, rfl⟩

/-- The first pair and what may follow. -/
theorem pairs_step (x sep : Tok) (r s : Str) (ts : List Tok) (l : List (Str × Str)) :
    Pairs x sep (.ident r :: x :: .ident s :: ts) l ↔
      ∃ l', l = (r, s) :: l' ∧ ((l' = [] ∧ (ts = [] ∨ ts = [sep])) ∨
        ∃ u, ts = sep :: u ∧ Pairs x sep u l') := by
  cases l with
  | nil => simp [Pairs]
  | cons p l =>
    by_cases hn : l = []
    · subst hn
      simp only [Pairs, pairs_single, ne_eq, List.cons_ne_nil, not_false_eq_true, true_and,
        List.cons.injEq, Tok.ident.injEq, List.cons_append, List.nil_append]
      constructor
      · rintro (⟨rfl, rfl, rfl⟩ | ⟨rfl, rfl, rfl⟩)
        · exact ⟨[], ⟨rfl, rfl⟩, .inl ⟨rfl, .inl rfl⟩⟩
        · exact ⟨[], ⟨rfl, rfl⟩, .inl ⟨rfl, .inr rfl⟩⟩
      · rintro ⟨l', ⟨rfl, rfl⟩, ⟨_, h | h⟩ | ⟨u, _, h, _⟩⟩
        · exact .inl ⟨rfl, rfl, h⟩
        · exact .inr ⟨rfl, rfl, h⟩
        · exact absurd rfl h
    · simp only [Pairs, pairs_cons x sep p hn, ne_eq, List.cons_ne_nil, not_false_eq_true, true_and,
        List.cons.injEq, Tok.ident.injEq, List.cons_append]
      constructor
      · rintro (⟨rfl, rfl, rfl⟩ | ⟨rfl, rfl, rfl⟩)
        · exact ⟨l, ⟨rfl, rfl⟩, .inr ⟨_, rfl, hn, .inl rfl⟩⟩
        · exact ⟨l, ⟨rfl, rfl⟩, .inr ⟨_, rfl, hn, .inr rfl⟩⟩
      · rintro ⟨l', ⟨rfl, rfl⟩, ⟨h, _⟩ | ⟨u, rfl, _, h⟩⟩
        · exact absurd h hn
        · rcases h with rfl | rfl
          · exact .inl ⟨rfl, rfl, rfl⟩
          · exact .inr ⟨rfl, rfl, rfl⟩

/-- The patterns for pairs: either the tokens are pairs, and they are what is bound, or the arm does not
match. -/
theorem run_pairs (P : Exprs E) (x sep : Tok) : ∀ (n : Nat) (ts : List Tok), ts.length = n →
    ∀ (b : List (Bound E)) (qs : List (Pos E)), qs = [] ∨ (qs = [⟨b, []⟩] ∧ ts ≠ []) →
    (∃ l, Pairs x sep ts l ∧ run P (⟨b, pairPats x sep⟩ :: qs) ts = .matched (b ++ pairBounds l)) ∨
      ((∀ l, ¬ Pairs x sep ts l) ∧ run P (⟨b, pairPats x sep⟩ :: qs) ts = .no) := by
  intro n
  induction n using Nat.strongRecOn with
  | ind n ih =>
    intro ts hn b qs hq'
    have hq : qs = [] ∨ qs = [⟨b, []⟩] := hq'.imp id And.left
    by_cases hts : ∃ r s u, ts = .ident r :: x :: .ident s :: u
    · obtain ⟨r, s, u, rfl⟩ := hts
      rw [run_pair P x sep b r s u qs hq]
      cases u with
      | nil =>
        left
        exact ⟨[(r, s)], (pairs_step ..).2 ⟨[], rfl, .inl ⟨rfl, .inl rfl⟩⟩, by rw [run_nil]; rfl⟩
      | cons t u =>
        by_cases ht : sep = t
        · subst ht
          rw [run_sep]
          cases u with
          | nil =>
            left
            exact ⟨[(r, s)], (pairs_step ..).2 ⟨[], rfl, .inl ⟨rfl, .inr rfl⟩⟩, by rw [run_nil]; rfl⟩
          | cons v u =>
            rcases ih (v :: u).length (by simp at hn ⊢; omega) (v :: u) rfl
                (b ++ [.ident r, .ident s]) [⟨b ++ [.ident r, .ident s], []⟩] (.inr ⟨rfl, by simp⟩) with
              ⟨l, hl, hr⟩ | ⟨hl, hr⟩
            · left
              refine ⟨(r, s) :: l, (pairs_step ..).2 ⟨l, rfl, .inr ⟨_, rfl, hl⟩⟩, ?_⟩
              rw [hr]
              simp [pairBounds]
            · right
              refine ⟨fun l h => ?_, hr⟩
              obtain ⟨l', _, ⟨_, h | h⟩ | ⟨w, h, hw⟩⟩ := (pairs_step ..).1 h
              · cases h
              · cases h
              · cases h
                exact hl l' hw
        · right
          refine ⟨fun l h => ?_, run_unsep P x sep t _ u ht⟩
          obtain ⟨l', _, ⟨_, h | h⟩ | ⟨w, h, hw⟩⟩ := (pairs_step ..).1 h
          · cases h
          · exact ht (List.cons.inj h).1.symm
          · exact ht (List.cons.inj h).1.symm
    · right
      refine ⟨fun l h => hts (Pairs.ne_nil h), ?_⟩
      cases ts with
      | nil =>
        rcases hq' with rfl | ⟨_, h⟩
        · rw [run_nil]; rfl
        · exact absurd rfl h
      | cons t ts =>
        by_cases ht : ∃ r, t = .ident r
        · obtain ⟨r, rfl⟩ := ht
          exact run_second P x sep b r ts qs hq (fun s u h => hts ⟨r, s, u, by rw [h]⟩)
        · exact run_first P x sep b t ts qs hq (fun r h => ht ⟨r, h⟩)

/-- An arm for pairs. -/
theorem run_arm (P : Exprs E) (x sep : Tok) (ts : List Tok) :
    (∃ l, Pairs x sep ts l ∧
      run P (starts [] [.plus [.ident, .tok x, .ident] sep, .opt sep]) ts = .matched (pairBounds l)) ∨
    ((∀ l, ¬ Pairs x sep ts l) ∧
      run P (starts [] [.plus [.ident, .tok x, .ident] sep, .opt sep]) ts = .no) :=
  run_pairs P x sep _ ts rfl [] [] (.inl rfl)

/-- What is to come before an expression of a list. -/
def exprPats : List Pat := [.one .expr, .again [.expr] .comma, .opt .comma]

theorem begins_iff (P : Exprs E) (t : Tok) (u : List Tok) (e : E) (rest : List Tok) :
    Begins P (t :: u) e rest ↔ P.begins t = true ∧ ∃ n, P.parse (t :: u) = some (e, n) ∧ rest = u.drop n := by
  constructor
  · rintro ⟨t', u', n, h, hb, hp, hr⟩
    cases h
    exact ⟨hb, n, hp, hr⟩
  · rintro ⟨hb, n, hp, hr⟩
    exact ⟨t, u, n, rfl, hb, hp, hr⟩

theorem begins_unique {P : Exprs E} {ts : List Tok} {e e' : E} {r r' : List Tok}
    (h : Begins P ts e r) (h' : Begins P ts e' r') : e = e' ∧ r = r' := by
  obtain ⟨t, u, n, rfl, _, hp, rfl⟩ := h
  obtain ⟨t', u', n', h, _, hp', rfl⟩ := h'
  cases h
  rw [hp] at hp'
  cases hp'
  exact ⟨rfl, rfl⟩

theorem begins_lt {P : Exprs E} {ts : List Tok} {e : E} {r : List Tok} (h : Begins P ts e r) :
    r.length < ts.length := by
  obtain ⟨t, u, n, rfl, _, _, rfl⟩ := h
  simp
  omega

theorem not_begins_nil (P : Exprs E) (e : E) (r : List Tok) : ¬ Begins P [] e r := by
  rintro ⟨t, u, n, h, _⟩
  cases h

theorem not_listed_nil (P : Exprs E) (es : List E) (tr : Bool) : ¬ Listed P [] es tr := by
  intro h
  cases h with
  | last h => exact not_begins_nil P _ _ h
  | trail h => exact not_begins_nil P _ _ h
  | more h => exact not_begins_nil P _ _ h

/-- If the tokens begin with an expression, it is read; otherwise nothing matches. -/
theorem run_begins (P : Exprs E) (b : List (Bound E)) (r : List Pat) (qs : List (Pos E)) (ts : List Tok)
    (hq : qs = [] ∨ (qs = [⟨b, []⟩] ∧ ts ≠ [])) :
    (∃ e rest, Begins P ts e rest ∧
      run P (⟨b, .one .expr :: r⟩ :: qs) ts = run P (starts (b ++ [.expr e]) r) rest) ∨
    ((∀ e rest, ¬ Begins P ts e rest) ∧
      (run P (⟨b, .one .expr :: r⟩ :: qs) ts = .no ∨ run P (⟨b, .one .expr :: r⟩ :: qs) ts = .error)) := by
  cases ts with
  | nil =>
    right
    refine ⟨fun e rest => not_begins_nil P e rest, .inl ?_⟩
    rcases hq with rfl | ⟨_, h⟩
    · rw [run_nil]; rfl
    · exact absurd rfl h
  | cons t u =>
    have hq : qs = [] ∨ qs = [⟨b, []⟩] := hq.imp id And.left
    have hp : (⟨b, .one .expr :: r⟩ :: qs).flatMap (passed t) = [] := by
      rcases hq with rfl | rfl <;> rfl
    by_cases hb : P.begins t = true
    · rw [run_expr P _ t u b r _ hp]
      · cases h : P.parse (t :: u) with
        | none =>
          right
          refine ⟨fun e rest h' => ?_, .inr rfl⟩
          obtain ⟨_, n, h', _⟩ := (begins_iff ..).1 h'
          rw [h] at h'
          cases h'
        | some en => exact .inl ⟨en.1, u.drop en.2, (begins_iff ..).2 ⟨hb, en.2, h, rfl⟩, rfl⟩
      · rcases hq with rfl | rfl <;> simp [begun, hb]
    · right
      refine ⟨fun e rest h' => hb ((begins_iff ..).1 h').1, .inl ?_⟩
      rw [run_tok]
      · rw [hp, if_pos rfl]
      · rcases hq with rfl | rfl <;> simp [begun, hb]

/-- The positions after an expression of a list. -/
theorem starts_again (b : List (Bound E)) : starts b [.again [.expr] .comma, .opt .comma] =
    [⟨b, .one (.tok .comma) :: exprPats⟩, ⟨b, [.one (.tok .comma)]⟩, ⟨b, []⟩] := rfl

theorem run_comma (P : Exprs E) (b : List (Bound E)) (ts : List Tok) :
    run P [⟨b, .one (.tok .comma) :: exprPats⟩, ⟨b, [.one (.tok .comma)]⟩, ⟨b, []⟩] (.comma :: ts) =
      run P [⟨b, exprPats⟩, ⟨b, []⟩] ts := by
  rw [run_tok P _ .comma _ rfl]
  rfl

theorem run_uncomma (P : Exprs E) (b : List (Bound E)) (t : Tok) (ts : List Tok) (h : Tok.comma ≠ t) :
    run P [⟨b, .one (.tok .comma) :: exprPats⟩, ⟨b, [.one (.tok .comma)]⟩, ⟨b, []⟩] (t :: ts) = .no := by
  rw [run_tok P _ t _ rfl]
  simp [passed, h]

/-- The pattern for a list of expressions. -/
theorem run_list (P : Exprs E) : ∀ (n : Nat) (ts : List Tok), ts.length = n →
    ∀ (b : List (Bound E)) (qs : List (Pos E)), qs = [] ∨ (qs = [⟨b, []⟩] ∧ ts ≠ []) →
    ∀ b', run P (⟨b, exprPats⟩ :: qs) ts = .matched b' ↔
      ∃ es tr, Listed P ts es tr ∧ b' = b ++ es.map .expr := by
  intro n
  induction n using Nat.strongRecOn with
  | ind n ih =>
    intro ts hn b qs hq b'
    rcases run_begins P b [.again [.expr] .comma, .opt .comma] qs ts hq with
      ⟨e, rest, hb, hr⟩ | ⟨hb, hr⟩
    · rw [exprPats, hr, starts_again]
      cases rest with
      | nil =>
        rw [run_nil]
        constructor
        · intro h
          cases h
          exact ⟨[e], false, .last hb, rfl⟩
        · rintro ⟨es, tr, h, rfl⟩
          cases h with
          | last h => obtain ⟨rfl, _⟩ := begins_unique hb h; rfl
          | trail h => cases (begins_unique hb h).2
          | more h => cases (begins_unique hb h).2
      | cons t u =>
        by_cases ht : Tok.comma = t
        · subst ht
          rw [run_comma]
          by_cases hu : u = []
          · subst hu
            rw [run_nil]
            constructor
            · intro h
              cases h
              exact ⟨[e], true, .trail hb, rfl⟩
            · rintro ⟨es, tr, h, rfl⟩
              cases h with
              | last h => cases (begins_unique hb h).2
              | trail h => obtain ⟨rfl, _⟩ := begins_unique hb h; rfl
              | more h h' =>
                have := (begins_unique hb h).2
                simp only [List.cons.injEq, true_and] at this
                subst this
                exact absurd h' (not_listed_nil P _ _)
          · have hlt := begins_lt hb
            rw [ih u.length (by simp at hlt; omega) u rfl _ _ (.inr ⟨rfl, hu⟩)]
            constructor
            · rintro ⟨es, tr, h, rfl⟩
              exact ⟨e :: es, tr, .more hb h, by simp⟩
            · rintro ⟨es, tr, h, rfl⟩
              cases h with
              | last h => cases (begins_unique hb h).2
              | trail h => cases (begins_unique hb h).2; exact absurd rfl hu
              | more h h' =>
                obtain ⟨rfl, h''⟩ := begins_unique hb h
                cases h''
                exact ⟨_, _, h', by simp⟩
        · rw [run_uncomma P _ t u ht]
          constructor
          · intro h; cases h
          · rintro ⟨es, tr, h, rfl⟩
            cases h with
            | last h => cases (begins_unique hb h).2
            | trail h => exact absurd (List.cons.inj (begins_unique hb h).2).1.symm ht
            | more h => exact absurd (List.cons.inj (begins_unique hb h).2).1.symm ht
    · constructor
      · intro h
        rw [exprPats] at h
        rcases hr with hr | hr <;> rw [hr] at h <;> cases h
      · rintro ⟨es, tr, h, rfl⟩
        cases h with
        | last h => exact absurd h (hb _ _)
        | trail h => exact absurd h (hb _ _)
        | more h => exact absurd h (hb _ _)

/-- The pattern `$e:expr, $($es:expr),+ $(,)?`. -/
def twoPats : List Pat := [.one .expr, .one (.tok .comma), .plus [.expr] .comma, .opt .comma]

theorem starts_comma (b : List (Bound E)) :
    starts b [.one (.tok .comma), .plus [.expr] .comma, .opt .comma] =
      [⟨b, [.one (.tok .comma), .plus [.expr] .comma, .opt .comma]⟩] := rfl

/-- It matches two expressions or more; after one alone the next arm is tried. -/
theorem run_two (P : Exprs E) (ts : List Tok) :
    (∀ b, run P (starts [] twoPats) ts = .matched b ↔
      ∃ es tr, 2 ≤ es.length ∧ Listed P ts es tr ∧ b = es.map .expr) ∧
    (∀ e, Begins P ts e [] → run P (starts [] twoPats) ts = .no) := by
  have h0 : starts ([] : List (Bound E)) twoPats = [⟨[], twoPats⟩] := rfl
  rw [h0, twoPats]
  rcases run_begins P [] [.one (.tok .comma), .plus [.expr] .comma, .opt .comma] [] ts (.inl rfl) with
    ⟨e, rest, hb, hr⟩ | ⟨hb, hr⟩
  · rw [hr, starts_comma]
    cases rest with
    | nil =>
      rw [run_nil]
      refine ⟨fun b => ⟨fun h => (by cases h), ?_⟩, fun _ _ => rfl⟩
      rintro ⟨es, tr, h2, h, rfl⟩
      cases h with
      | last h => simp at h2
      | trail h => simp at h2
      | more h => cases (begins_unique hb h).2
    | cons t u =>
      refine ⟨fun b => ?_, fun e' h => by cases (begins_unique hb h).2⟩
      rw [run_tok P _ t u rfl]
      by_cases ht : Tok.comma = t
      · subst ht
        rw [if_neg (by simp [passed, starts, ways])]
        rw [show List.flatMap (passed Tok.comma) [(⟨[] ++ [Bound.expr e],
            [.one (.tok .comma), .plus [.expr] .comma, .opt .comma]⟩ : Pos E)] =
          [⟨[.expr e], exprPats⟩] from rfl]
        rw [run_list P _ u rfl _ _ (.inl rfl)]
        constructor
        · rintro ⟨es, tr, h, rfl⟩
          refine ⟨e :: es, tr, ?_, .more hb h, rfl⟩
          cases h <;> simp
        · rintro ⟨es, tr, h2, h, rfl⟩
          cases h with
          | last h => simp at h2
          | trail h => simp at h2
          | more h h' =>
            obtain ⟨rfl, h''⟩ := begins_unique hb h
            cases h''
            exact ⟨_, _, h', rfl⟩
      · rw [if_pos (by simp [passed, ht])]
        refine ⟨fun h => (by cases h), ?_⟩
        rintro ⟨es, tr, h2, h, rfl⟩
        cases h with
        | last h => simp at h2
        | trail h => simp at h2
        | more h => exact absurd (List.cons.inj (begins_unique hb h).2).1.symm ht
  · refine ⟨fun b => ⟨fun h => ?_, ?_⟩, fun e h => absurd h (hb e [])⟩
    · rcases hr with hr | hr <;> rw [hr] at h <;> cases h
    · rintro ⟨es, tr, h2, h, rfl⟩
      cases h with
      | last h => exact absurd h (hb _ _)
      | trail h => exact absurd h (hb _ _)
      | more h => exact absurd h (hb _ _)

/-- The pattern `$e:expr`. -/
theorem run_one (P : Exprs E) (ts : List Tok) (b : List (Bound E)) :
    run P (starts [] [.one .expr]) ts = .matched b ↔ ∃ e, Begins P ts e [] ∧ b = [.expr e] := by
  have h0 : starts ([] : List (Bound E)) [.one .expr] = [⟨[], [.one .expr]⟩] := rfl
  rw [h0]
  rcases run_begins P [] [] [] ts (.inl rfl) with ⟨e, rest, hb, hr⟩ | ⟨hb, hr⟩
  · rw [hr, show starts ([] ++ [Bound.expr e]) [] = [⟨[.expr e], []⟩] from rfl]
    cases rest with
    | nil =>
      rw [run_nil]
      constructor
      · intro h
        cases h
        exact ⟨e, hb, rfl⟩
      · rintro ⟨e', h, rfl⟩
        obtain ⟨rfl, _⟩ := begins_unique hb h
        rfl
    | cons t u =>
      rw [run_tok P _ t u rfl, if_pos (by rfl)]
      refine ⟨fun h => (by cases h), ?_⟩
      rintro ⟨e', h, rfl⟩
      cases (begins_unique hb h).2
  · constructor
    · intro h
      rcases hr with hr | hr <;> rw [hr] at h <;> cases h
    · rintro ⟨e, h, rfl⟩
      exact absurd h (hb _ _)

/-- The pattern of one pair. -/
theorem run_single (P : Exprs E) (x : Tok) (ts : List Tok) :
    (∃ r s, ts = [.ident r, x, .ident s] ∧
      run P (starts [] [.one .ident, .one (.tok x), .one .ident]) ts = .matched [.ident r, .ident s]) ∨
    ((∀ r s, ts ≠ [.ident r, x, .ident s]) ∧
      run P (starts [] [.one .ident, .one (.tok x), .one .ident]) ts = .no) := by
  have h0 : starts ([] : List (Bound E)) [.one .ident, .one (.tok x), .one .ident] =
    [⟨[], [.one .ident, .one (.tok x), .one .ident]⟩] := rfl
  rw [h0]
  cases ts with
  | nil => exact .inr ⟨fun r s h => (by cases h), by rw [run_nil]; rfl⟩
  | cons t ts =>
    by_cases ht : ∃ r, t = .ident r
    · obtain ⟨r, rfl⟩ := ht
      rw [run_ident P _ r ts [] [.one (.tok x), .one .ident] rfl rfl]
      have h1 : starts ([] ++ [Bound.ident (E := E) r]) [.one (.tok x), .one .ident] =
        [⟨[.ident r], [.one (.tok x), .one .ident]⟩] := rfl
      rw [h1]
      cases ts with
      | nil => exact .inr ⟨fun r s h => (by cases h), by rw [run_nil]; rfl⟩
      | cons t ts =>
        rw [run_tok P _ t ts rfl]
        by_cases hx : x = t
        · subst hx
          have h2 : List.flatMap (passed x) [(⟨[.ident r], [.one (.tok x), .one .ident]⟩ : Pos E)] =
            [⟨[.ident r], [.one .ident]⟩] := by simp [passed, starts, ways]
          rw [h2, if_neg (by simp)]
          cases ts with
          | nil => exact .inr ⟨fun r s h => (by cases h), by rw [run_nil]; rfl⟩
          | cons t ts =>
            by_cases ht : ∃ s, t = .ident s
            · obtain ⟨s, rfl⟩ := ht
              rw [run_ident P _ s ts [.ident r] [] rfl rfl]
              cases ts with
              | nil => exact .inl ⟨r, s, rfl, by rw [run_nil]; rfl⟩
              | cons t ts =>
                refine .inr ⟨fun r s h => (by cases h), ?_⟩
                rw [run_tok P _ t ts rfl]
                rfl
            · refine .inr ⟨fun r s h => ht ⟨s, (by cases h; rfl)⟩, ?_⟩
              rw [run_tok P _ t ts]
              · rfl
              · cases t with
                | ident s => exact absurd ⟨s, rfl⟩ ht
                | _ => rfl
        · refine .inr ⟨fun r s h => hx (by cases h; rfl), ?_⟩
          rw [if_pos]
          simp [passed, hx]
    · refine .inr ⟨fun r s h => ht ⟨r, (by cases h; rfl)⟩, ?_⟩
      rw [run_tok P _ t ts]
      · rfl
      · cases t with
        | ident s => exact absurd ⟨s, rfl⟩ ht
        | _ => rfl

end Poker.Macros

import Verif.Model.Debug

/-! Texts from which their parts can be read off again. -/

namespace Poker.Dbg

/-- `f a` can be read off the front of a text, together with what follows it. -/
def Code {α : Type} (f : α → Str) : Prop :=
  ∀ a a' u u', f a ++ u = f a' ++ u' → a = a' ∧ u = u'

/-- A text without `d` ends at the first `d`. -/
theorem split_at (d : Char) (a a' u u' : Str) (ha : ∀ c ∈ a, c ≠ d) (ha' : ∀ c ∈ a', c ≠ d)
    (h : a ++ d :: u = a' ++ d :: u') : a = a' ∧ u = u' := by
  induction a generalizing a' with
  | nil =>
    cases a' with
    | nil => simpa using h
    | cons x a' =>
      rw [List.nil_append, List.cons_append, List.cons.injEq] at h
      exact absurd h.1.symm (ha' x (by simp))
  | cons x a ih =>
    cases a' with
    | nil =>
      rw [List.nil_append, List.cons_append, List.cons.injEq] at h
      exact absurd h.1 (ha x (by simp))
    | cons y a' =>
      rw [List.cons_append, List.cons_append, List.cons.injEq] at h
      obtain ⟨h1, h2⟩ := ih a' (fun c hc => ha c (by simp [hc])) (fun c hc => ha' c (by simp [hc])) h.2
      exact ⟨by rw [h.1, h1], h2⟩

theorem Code.word {α : Type} {w : α → Str} (d : Char) (hi : ∀ a a', w a = w a' → a = a')
    (hd : ∀ a, ∀ c ∈ w a, c ≠ d) (k : Str) : Code (fun a => w a ++ d :: k) := by
  intro a a' u u' h
  simp only [List.append_assoc, List.cons_append] at h
  obtain ⟨h1, h2⟩ := split_at d _ _ _ _ (hd a) (hd a') h
  exact ⟨hi _ _ h1, List.append_cancel_left h2⟩

theorem Code.after {α : Type} {f : α → Str} (k : Str) (hf : Code f) : Code (fun a => k ++ f a) := by
  intro a a' u u' h
  simp only [List.append_assoc] at h
  exact hf _ _ _ _ (List.append_cancel_left h)

theorem Code.inj {α : Type} {f : α → Str} (hf : Code f) {a a' : α} (h : f a = f a') : a = a' :=
  (hf a a' [] [] (by rw [h])).1

/-! ## Indentation -/

theorem padFrom_inj (on : Bool) (s t : Str) (h : padFrom on s = padFrom on t) : s = t := by
  induction s generalizing on t with
  | nil =>
    cases t with
    | nil => rfl
    | cons c t => cases on <;> simp [padFrom] at h
  | cons b s ih =>
    cases t with
    | nil => cases on <;> simp [padFrom] at h
    | cons c t =>
      simp only [padFrom] at h
      have h' := List.append_cancel_left h
      rw [List.cons.injEq] at h'
      obtain ⟨rfl, h'⟩ := h'
      rw [ih _ _ h']

theorem padFrom_line (on : Bool) (s t : Str) :
    padFrom on (s ++ '\n' :: t) = padFrom on (s ++ ['\n']) ++ padFrom true t := by
  induction s generalizing on with
  | nil => simp [padFrom]
  | cons c s ih => simp only [List.cons_append, padFrom, ih, List.append_assoc]

/-- A word goes through unchanged. -/
theorem padFrom_word (w t : Str) (hw : ∀ c ∈ w, c ≠ '\n') :
    padFrom false (w ++ t) = w ++ padFrom false t := by
  induction w with
  | nil => rfl
  | cons c w ih =>
    have hc : (c == '\n') = false := by simpa using hw c (by simp)
    simp only [List.cons_append, padFrom, hc, ih (fun c h => hw c (by simp [h]))]
    rfl

theorem flatMap_pad {α : Type} (l : List α) (f : α → Str) :
    l.flatMap (fun x => pad (f x ++ ",\n".toList)) = pad (l.flatMap (fun x => f x ++ ",\n".toList)) := by
  induction l with
  | nil => rfl
  | cons x l ih =>
    rw [List.flatMap_cons, List.flatMap_cons, ih]
    have h := padFrom_line true (f x ++ [',']) (l.flatMap (fun x => f x ++ ",\n".toList))
    simp only [List.append_assoc, List.cons_append, List.nil_append] at h
    exact ((congrArg (padFrom true) (by simp)).trans h).symm

/-! ## Numbers -/

theorem natStr_inj {m n : Nat} (h : natStr m = natStr n) : m = n := by
  have hm := Nat.ofDigitChars_toDigits (b := 10) (n := m) (by decide) (by decide)
  have hn := Nat.ofDigitChars_toDigits (b := 10) (n := n) (by decide) (by decide)
  unfold natStr at h
  rw [← hm, h, hn]

theorem natStr_digit {n : Nat} {c : Char} (h : c ∈ natStr n) : c.isDigit = true :=
  Nat.isDigit_of_mem_toDigits (by decide) (by decide) h

theorem intStr_char {x : Int} {c : Char} (h : c ∈ intStr x) : c = '-' ∨ c.isDigit = true := by
  unfold intStr at h
  split at h
  · rcases List.mem_cons.1 h with h | h
    · exact .inl h
    · exact .inr (natStr_digit h)
  · exact .inr (natStr_digit h)

theorem intStr_inj {x y : Int} (h : intStr x = intStr y) : x = y := by
  have key : ∀ (n : Nat) (t : Str), natStr n ≠ '-' :: t := by
    intro n t e
    have := natStr_digit (n := n) (c := '-') (by rw [e]; simp)
    revert this
    decide
  unfold intStr at h
  split at h <;> split at h
  · rw [List.cons.injEq] at h
    have := natStr_inj h.2
    omega
  · exact absurd h.symm (key _ _)
  · exact absurd h (key _ _)
  · have := natStr_inj h
    omega

theorem hex_mem {n : Nat} {c : Char} (h : c ∈ Nat.toDigits 16 n) : c ∈ "0123456789abcdef".toList := by
  have hd : ∀ k, k < 16 → Nat.digitChar k ∈ "0123456789abcdef".toList := by decide
  induction n using Nat.strongRecOn with
  | ind n ih =>
    by_cases hn : n < 16
    · rw [Nat.toDigits_of_lt_base hn, List.mem_singleton] at h
      rw [h]
      exact hd n hn
    · rw [Nat.toDigits_of_base_le (by decide) (by omega), List.mem_append, List.mem_singleton] at h
      rcases h with h | h
      · exact ih (n / 16) (by omega) h
      · rw [h]
        exact hd _ (Nat.mod_lt _ (by decide))

theorem hex_inj {m n : Nat} (h : Nat.toDigits 16 m = Nat.toDigits 16 n) : m = n := by
  have hd : ∀ j, j < 16 → ∀ k, k < 16 → Nat.digitChar j = Nat.digitChar k → j = k := by decide
  induction m using Nat.strongRecOn generalizing n with
  | ind m ih =>
    have hl : ∀ k, 16 ≤ k → ∀ c, Nat.toDigits 16 k ≠ [c] := by
      intro k hk c e
      rw [Nat.toDigits_of_base_le (by decide) hk] at e
      have hne : Nat.toDigits 16 (k / 16) ≠ [] := Nat.toDigits_ne_nil
      have := congrArg List.length e
      rw [List.length_append, List.length_singleton, List.length_singleton] at this
      exact hne (List.length_eq_zero_iff.1 (by omega))
    by_cases hm : m < 16 <;> by_cases hn : n < 16
    · rw [Nat.toDigits_of_lt_base hm, Nat.toDigits_of_lt_base hn, List.cons.injEq] at h
      exact hd _ hm _ hn h.1
    · rw [Nat.toDigits_of_lt_base hm] at h
      exact absurd h.symm (hl n (by omega) _)
    · rw [Nat.toDigits_of_lt_base hn] at h
      exact absurd h (hl m (by omega) _)
    · rw [Nat.toDigits_of_base_le (by decide) (Nat.not_lt.1 hm),
        Nat.toDigits_of_base_le (n := n) (by decide) (Nat.not_lt.1 hn)] at h
      obtain ⟨h1, h2⟩ := List.append_inj' h rfl
      rw [List.cons.injEq] at h2
      have := ih _ (by omega) h1
      have := hd _ (Nat.mod_lt _ (by decide)) _ (Nat.mod_lt _ (by decide)) h2.1
      omega

/-! ## Quoted text -/

theorem letter_inj {q c c' l : Char} (hq : q = '"' ∨ q = '\'') (h : escapeLetter q c = some l)
    (h' : escapeLetter q c' = some l) : c = c' := by
  unfold escapeLetter at h h'
  rcases hq with rfl | rfl <;>
  · repeat' split at h
    all_goals first | (cases h; done) | skip
    all_goals
      rw [Option.some.injEq] at h
      subst h
      repeat' split at h'
      all_goals first
        | (subst_vars; rfl)
        | exact absurd h' (by decide)
        | simp_all

theorem letter_u {q c : Char} (hq : q = '"' ∨ q = '\'') : escapeLetter q c ≠ some 'u' := by
  unfold escapeLetter
  rcases hq with rfl | rfl <;> repeat' split
  all_goals decide

theorem letter_none {q c : Char} (h : escapeLetter q c = none) : c ≠ '\\' ∧ c ≠ q ∧ c ≠ '\n' := by
  unfold escapeLetter at h
  repeat' split at h
  all_goals first | (cases h; done) | skip
  exact ⟨by assumption, by assumption, by assumption⟩

theorem code_escape (hexed : Char → Bool) {q : Char} (hq : q = '"' ∨ q = '\'') :
    Code (escapeChar hexed q) := by
  have hex : ∀ c : Char, ∀ x ∈ Nat.toDigits 16 c.toNat, x ≠ '}' := by
    intro c x hx e
    subst e
    have := hex_mem hx
    revert this
    decide
  intro c c' u u' h
  unfold escapeChar at h
  cases hc : escapeLetter q c with
  | some l =>
    rw [hc] at h
    cases hc' : escapeLetter q c' with
    | some l' =>
      rw [hc'] at h
      simp only [List.cons_append, List.nil_append, List.cons.injEq, true_and] at h
      obtain ⟨rfl, rfl⟩ := h
      exact ⟨letter_inj hq hc hc', rfl⟩
    | none =>
      rw [hc'] at h
      simp only at h
      split at h
      · simp only [List.cons_append, List.nil_append, List.append_assoc,
          show "\\u{".toList = ['\\', 'u', '{'] from rfl, List.cons.injEq, true_and] at h
        exact absurd (h.1 ▸ hc) (letter_u hq)
      · simp only [List.cons_append, List.nil_append, List.cons.injEq] at h
        exact absurd h.1.symm (letter_none hc').1
  | none =>
    rw [hc] at h
    cases hc' : escapeLetter q c' with
    | some l' =>
      rw [hc'] at h
      simp only at h
      split at h
      · simp only [List.cons_append, List.nil_append, List.append_assoc,
          show "\\u{".toList = ['\\', 'u', '{'] from rfl, List.cons.injEq, true_and] at h
        exact absurd (h.1 ▸ hc') (letter_u hq)
      · simp only [List.cons_append, List.nil_append, List.cons.injEq] at h
        exact absurd h.1 (letter_none hc).1
    | none =>
      rw [hc'] at h
      simp only at h
      split at h <;> split at h
      · simp only [List.append_assoc] at h
        have h' := List.append_cancel_left h
        obtain ⟨h1, h2⟩ := split_at '}' _ _ u u' (hex c) (hex c') h'
        exact ⟨Char.toNat_inj.1 (hex_inj h1), h2⟩
      · simp only [List.cons_append, List.nil_append, List.append_assoc,
          show "\\u{".toList = ['\\', 'u', '{'] from rfl, List.cons.injEq] at h
        exact absurd h.1.symm (letter_none hc').1
      · simp only [List.cons_append, List.nil_append, List.append_assoc,
          show "\\u{".toList = ['\\', 'u', '{'] from rfl, List.cons.injEq] at h
        exact absurd h.1 (letter_none hc).1
      · simp only [List.cons_append, List.nil_append, List.cons.injEq] at h
        exact h

theorem escape_head (hexed : Char → Bool) {q : Char} (hq : q = '"' ∨ q = '\'') (c : Char) (t : Str) :
    (escapeChar hexed q c ++ t).head? ≠ some q := by
  unfold escapeChar
  have hb : '\\' ≠ q := by rcases hq with rfl | rfl <;> decide
  split
  · simpa using hb
  · rename_i hn
    split
    · rw [show "\\u{".toList = ['\\', 'u', '{'] from rfl]
      simpa using hb
    · simpa using (letter_none hn).2.1

theorem code_str (hexed : Char → Bool) : Code (debugStr hexed) := by
  intro s s' u u' h
  simp only [debugStr, List.cons_append, List.append_assoc, List.nil_append, List.cons.injEq,
    true_and] at h
  induction s generalizing s' with
  | nil =>
    cases s' with
    | nil => simpa using h
    | cons c s' =>
      have := escape_head hexed (.inl rfl) c (s'.flatMap (escapeChar hexed '"') ++ '"' :: u')
      rw [List.flatMap_cons, List.append_assoc, List.flatMap_nil, List.nil_append] at h
      rw [← h] at this
      exact absurd rfl this
  | cons c s ih =>
    cases s' with
    | nil =>
      have := escape_head hexed (.inl rfl) c (s.flatMap (escapeChar hexed '"') ++ '"' :: u)
      rw [List.flatMap_cons, List.append_assoc, List.flatMap_nil, List.nil_append] at h
      rw [h] at this
      exact absurd rfl this
    | cons c' s' =>
      simp only [List.flatMap_cons, List.append_assoc] at h
      obtain ⟨rfl, h'⟩ := code_escape hexed (.inl rfl) _ _ _ _ h
      obtain ⟨rfl, rfl⟩ := ih s' h'
      exact ⟨rfl, rfl⟩

theorem code_char (hexed : Char → Bool) : Code (debugChar hexed) := by
  intro c c' u u' h
  simp only [debugChar, List.cons_append, List.append_assoc, List.nil_append, List.cons.injEq,
    true_and] at h
  obtain ⟨rfl, h'⟩ := code_escape hexed (.inr rfl) _ _ _ _ h
  exact ⟨rfl, by simpa using h'⟩

theorem escape_line (hexed : Char → Bool) {q c x : Char} (hq : q = '"' ∨ q = '\'')
    (hx : x ∈ escapeChar hexed q c) : x ≠ '\n' := by
  unfold escapeChar at hx
  split at hx
  · rename_i l hl
    simp only [List.mem_cons, List.not_mem_nil, or_false] at hx
    rcases hx with rfl | rfl
    · decide
    · unfold escapeLetter at hl
      rcases hq with rfl | rfl <;>
      · repeat' split at hl
        all_goals first | (cases hl; done) | skip
        all_goals
          rw [Option.some.injEq] at hl
          subst hl
          decide
  · rename_i hn
    split at hx
    · simp only [List.mem_append] at hx
      rcases hx with (hx | hx) | hx
      · revert hx x; decide
      · have := hex_mem hx
        clear hx
        revert this x
        decide
      · revert hx x; decide
    · rw [List.mem_singleton] at hx
      rw [hx]
      exact (letter_none hn).2.2

theorem str_line (hexed : Char → Bool) (s : Str) : ∀ c ∈ debugStr hexed s, c ≠ '\n' := by
  intro c hc
  simp only [debugStr, List.cons_append, List.mem_cons, List.mem_append, List.mem_flatMap,
    List.not_mem_nil, or_false] at hc
  rcases hc with rfl | ⟨x, -, hx⟩ | rfl
  · decide
  · exact escape_line hexed (.inl rfl) hx
  · decide

theorem char_line (hexed : Char → Bool) (s : Char) : ∀ c ∈ debugChar hexed s, c ≠ '\n' := by
  intro c hc
  simp only [debugChar, List.cons_append, List.mem_cons, List.mem_append, List.not_mem_nil,
    or_false] at hc
  rcases hc with rfl | hx | rfl
  · decide
  · exact escape_line hexed (.inr rfl) hx
  · decide

end Poker.Dbg

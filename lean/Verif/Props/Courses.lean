import Verif.Props.Words

/-! # C78: several shuffles with one stream of words -/

namespace Poker.Rand
open Poker

/-- The words make `gen_index` return `draw k`, ..., `draw 1`, and leave words with the property. -/
def FollowsTo (draw : Nat → Nat) (q : Words → Prop) : Nat → Words → Prop
  | 0, ws => q ws
  | k + 1, ws => ∃ i rest, sample (BitVec.ofNat 32 (k + 2)) ws = some (i, rest) ∧ i.toNat = draw (k + 1) ∧
    FollowsTo draw q k rest

theorem followsTo_count (k : Nat) (hk : k < 2 ^ 31) {draw draw' : Nat → Nat} (hd : InRange draw k)
    (hd' : InRange draw' k) {q q' : Words → Prop} (hq : ∀ n, sequences n q = sequences n q') (n : Nat) :
    sequences n (FollowsTo draw q k) = sequences n (FollowsTo draw' q' k) := by
  induction k generalizing n with
  | zero => exact hq n
  | succ k ih =>
    have e := range_toNat hk
    have b := hd (k + 1) (by omega) (by omega)
    have b' := hd' (k + 1) (by omega) (by omega)
    exact giving_eq (range_pos hk) (by rw [e]; omega) (by rw [e]; omega)
      (ih (by omega) (fun i h1 h2 => hd i h1 (by omega)) (fun i h1 h2 => hd' i h1 (by omega))) n

theorem followsTo_congr {draw draw' : Nat → Nat} {q q' : Words → Prop} (hq : ∀ ws, q ws → q' ws) :
    ∀ {k : Nat} {ws : Words}, (∀ i, 1 ≤ i → i ≤ k → draw i = draw' i) → FollowsTo draw q k ws →
      FollowsTo draw' q' k ws
  | 0, _, _, h => hq _ h
  | k + 1, _, h, ⟨i, rest, h1, h2, h3⟩ =>
    ⟨i, rest, h1, h2.trans (h _ (by omega) (by omega)), followsTo_congr hq (fun j h1 h2 => h j h1 (by omega)) h3⟩

theorem followsTo_shuffle {α : Type} {draw : Nat → Nat} {q : Words → Prop} {m : List α} :
    ∀ {k : Nat} {ws : Words} {l : List α}, FollowsTo draw q k ws → Deck.shuffleAux draw k l = .ok m →
      ∃ rest, shuffleAux k l ws = .ok (some (m, rest)) ∧ q rest
  | 0, ws, l, h, hm => by
    rw [Deck.shuffleAux, Except.ok.injEq] at hm
    exact ⟨ws, by rw [shuffleAux, hm], h⟩
  | k + 1, ws, l, ⟨i, rest, h1, h2, h3⟩, hm => by
    rw [Deck.shuffleAux] at hm
    unfold shuffleAux gen_index
    rw [h1]
    simp only [h2]
    cases hs : Deck.swap l (k + 1) (draw (k + 1)) with
    | error e => rw [hs] at hm; cases hm
    | ok l' =>
      rw [hs] at hm
      exact followsTo_shuffle h3 hm

theorem shuffle_followsTo {α : Type} {m : List α} {rest : Words} : ∀ {k : Nat} {ws : Words} {l : List α},
    k < 2 ^ 31 → k < l.length → shuffleAux k l ws = .ok (some (m, rest)) →
    ∃ draw, InRange draw k ∧ Deck.shuffleAux draw k l = .ok m ∧ FollowsTo draw (· = rest) k ws
  | 0, ws, l, _, _, h => by
    simp only [shuffleAux, Except.ok.injEq, Option.some.injEq, Prod.mk.injEq] at h
    exact ⟨fun _ => 0, fun _ _ _ => Nat.zero_le _, by rw [Deck.shuffleAux, h.1], h.2⟩
  | k + 1, ws, l, hk, hl, h => by
    unfold shuffleAux gen_index at h
    cases hs : sample (BitVec.ofNat 32 (k + 2)) ws with
    | none => rw [hs] at h; simp at h
    | some x =>
      obtain ⟨i, ws'⟩ := x
      rw [hs] at h
      simp only at h
      have hi := sample_lt (range_pos hk) hs
      rw [range_toNat hk] at hi
      rw [swap_eq l _ _ hl (by omega)] at h
      obtain ⟨draw, hd, hm, hf⟩ := shuffle_followsTo (by omega) (by rw [length_sw]; omega) h
      have same : ∀ j, 1 ≤ j → j ≤ k → draw j = if j = k + 1 then i.toNat else draw j :=
        fun j _ h2 => by rw [if_neg (by omega)]
      refine ⟨fun j => if j = k + 1 then i.toNat else draw j, ?_, ?_, i, ws', hs, by simp,
        followsTo_congr (fun _ h => h) same hf⟩
      · intro j h1 h2
        simp only
        split
        · omega
        · exact hd j h1 (by omega)
      · rw [Deck.shuffleAux, if_pos rfl, swap_eq l _ _ hl (by omega)]
        rw [Poker.shuffleAux_congr draw _ k _ same] at hm
        exact hm

/-- One shuffle, told by the numbers drawn. -/
theorem shuffle_iff {α : Type} {l m : List α} (hn : l.Nodup) (h0 : 0 < l.length) (hl : l.length ≤ 2 ^ 31)
    {draw : Nat → Nat} (hd : InRange draw (l.length - 1)) (hm : Deck.shuffleAux draw (l.length - 1) l = .ok m)
    (q : Words → Prop) (ws : Words) :
    (∃ rest, shuffle l ws = .ok (some (m, rest)) ∧ q rest) ↔ FollowsTo draw q (l.length - 1) ws := by
  constructor
  · rintro ⟨rest, h, hq⟩
    obtain ⟨draw', hd', hm', hf⟩ := shuffle_followsTo (by omega) (by omega) h
    have := shuffleAux_unique _ l m (by omega) hn draw' draw hd' hd hm' hm
    exact followsTo_congr (fun _ h => h ▸ hq) this hf
  · intro h
    exact followsTo_shuffle h hm

theorem shuffles_prefix {α : Type} {next : List (List α) → List α} {h : List (List α)} {rest : Words} :
    ∀ {k : Nat} {b : List (List α)} {ws : Words}, shuffles next k b ws = .ok (some (h, rest)) → b <+: h
  | 0, b, ws, e => by
    simp only [shuffles, Except.ok.injEq, Option.some.injEq, Prod.mk.injEq] at e
    exact e.1 ▸ List.prefix_refl _
  | k + 1, b, ws, e => by
    unfold shuffles at e
    cases hs : shuffle (next b) ws with
    | error p => rw [hs] at e; cases e
    | ok x =>
      rw [hs] at e
      cases x with
      | none => cases e
      | some x => exact (List.prefix_append b [x.1]).trans (shuffles_prefix e)

theorem course_left {α : Type} {next : List (List α) → List α} {b r : List (List α)} (h : Course next (b ++ r)) :
    Course next b := by
  intro i m hm
  obtain ⟨hi, _⟩ := List.getElem?_eq_some_iff.1 hm
  have := h i m (by rw [List.getElem?_append_left hi]; exact hm)
  rwa [List.take_append_of_le_length (by omega)] at this

theorem course_at {α : Type} {next : List (List α) → List α} {b r : List (List α)} {m : List α}
    (h : Course next (b ++ m :: r)) : m.Perm (next b) := by
  have := h b.length m (by simp)
  rwa [List.take_append_of_le_length (Nat.le_refl _), List.take_length] at this

/-- The first of several shuffles, told by the numbers drawn. -/
theorem course_step {α : Type} {next : List (List α) → List α}
    (hnext : ∀ b, Course next b → (next b).Nodup ∧ 0 < (next b).length ∧ (next b).length ≤ 2 ^ 31)
    (k : Nat) {b r : List (List α)} {m : List α} (hc : Course next (b ++ m :: r)) :
    ∃ draw, InRange draw ((next b).length - 1) ∧
      ∀ ws, (∃ rest, shuffles next (k + 1) b ws = .ok (some (b ++ m :: r, rest))) ↔
        FollowsTo draw (fun ws => ∃ rest, shuffles next k (b ++ [m]) ws = .ok (some ((b ++ [m]) ++ r, rest)))
          ((next b).length - 1) ws := by
  have hm := course_at hc
  obtain ⟨hn, h0, hl⟩ := hnext b (course_left hc)
  obtain ⟨draw, hd, hdraw⟩ := shuffleAux_exists ((next b).length - 1) (next b) m (by omega) hm (by
    rw [List.drop_of_length_le (by rw [hm.length_eq]; omega), List.drop_of_length_le (by omega)])
  refine ⟨draw, hd, fun ws => ?_⟩
  rw [← shuffle_iff hn h0 hl hd hdraw]
  constructor
  · rintro ⟨rest, e⟩
    unfold shuffles at e
    cases hs : shuffle (next b) ws with
    | error p => rw [hs] at e; cases e
    | ok x =>
      rw [hs] at e
      cases x with
      | none => cases e
      | some x =>
        obtain ⟨m', ws'⟩ := x
        have e : shuffles next k (b ++ [m']) ws' = .ok (some (b ++ m :: r, rest)) := e
        have hp := shuffles_prefix e
        rw [List.prefix_append_right_inj, List.cons_prefix_cons] at hp
        obtain ⟨rfl, _⟩ := hp
        exact ⟨ws', rfl, rest, by simpa using e⟩
  · rintro ⟨ws', hs, rest, e⟩
    refine ⟨rest, ?_⟩
    unfold shuffles
    rw [hs]
    simpa using e

theorem courses_count {α : Type} {next : List (List α) → List α}
    (hnext : ∀ b, Course next b → (next b).Nodup ∧ 0 < (next b).length ∧ (next b).length ≤ 2 ^ 31) :
    ∀ (k : Nat) (b b' r r' : List (List α)), r.length = k → r'.length = k →
    (∀ i < k, (next (b ++ r.take i)).length = (next (b' ++ r'.take i)).length) →
    Course next (b ++ r) → Course next (b' ++ r') → ∀ n,
    sequences n (fun ws => ∃ rest, shuffles next k b ws = .ok (some (b ++ r, rest))) =
      sequences n (fun ws => ∃ rest, shuffles next k b' ws = .ok (some (b' ++ r', rest)))
  | 0, b, b', r, r', hr, hr', _, _, _, n => by
    rw [List.length_eq_zero_iff] at hr hr'
    subst hr hr'
    refine sequences_congr fun ws => ?_
    simp [shuffles]
  | k + 1, b, b', m :: r, m' :: r', hr, hr', hs, hc, hc', n => by
    obtain ⟨draw, hd, h⟩ := course_step hnext k hc
    obtain ⟨draw', hd', h'⟩ := course_step hnext k hc'
    rw [sequences_congr h, sequences_congr h']
    have h0 : (next b).length = (next b').length := by simpa using hs 0 (by omega)
    obtain ⟨_, hp, hl⟩ := hnext b (course_left hc)
    rw [← h0] at hd' ⊢
    refine followsTo_count _ (by omega) hd hd' ?_ n
    refine courses_count hnext k (b ++ [m]) (b' ++ [m']) r r' (by simpa using hr) (by simpa using hr') ?_
      (by simpa using hc) (by simpa using hc')
    intro i hi
    simpa using hs (i + 1) (by omega)

end Poker.Rand

namespace Poker
open Rand

/-- C78: several shuffles in turn, of cards that may depend on what came before: any two courses in which as many
cards are shuffled each time come from equally many sequences of words. -/
theorem c78_rounds {α : Type} {next : List (List α) → List α}
    (hnext : ∀ b, Course next b → (next b).Nodup ∧ 0 < (next b).length ∧ (next b).length ≤ 2 ^ 31)
    {h h' : List (List α)} (hc : Course next h) (hc' : Course next h') (hh : h.length = h'.length)
    (hs : ∀ i < h.length, (next (h.take i)).length = (next (h'.take i)).length) (n : Nat) :
    sequences n (fun ws => ∃ rest, shuffles next h.length [] ws = .ok (some (h, rest))) =
      sequences n (fun ws => ∃ rest, shuffles next h.length [] ws = .ok (some (h', rest))) :=
  courses_count hnext h.length [] [] h h' rfl hh.symm hs hc hc' n

/-- Shuffling again what came out the last time. -/
def again (b : List (List Card)) : List Card := b.getLast?.getD Deck.generate

theorem again_perm {b : List (List Card)} (h : Course again b) : (again b).Perm Deck.generate := by
  induction b using List.reverseRecOn with
  | nil => exact .refl _
  | append_singleton b m ih =>
    have h1 : m.Perm (again b) := course_at (r := []) h
    have e : again (b ++ [m]) = m := by simp [again]
    rw [e]
    exact h1.trans (ih (course_left h))

/-- C78: for instance, a deck shuffled again and again. -/
theorem c78_again {h h' : List (List Card)} (hh : h.length = h'.length) (hp : ∀ m ∈ h, m.Perm Deck.generate)
    (hp' : ∀ m ∈ h', m.Perm Deck.generate) (n : Nat) :
    sequences n (fun ws => ∃ rest, shuffles again h.length [] ws = .ok (some (h, rest))) =
      sequences n (fun ws => ∃ rest, shuffles again h.length [] ws = .ok (some (h', rest))) := by
  have course : ∀ h : List (List Card), (∀ m ∈ h, m.Perm Deck.generate) → Course again h := by
    intro h hp i m hm
    have hg : (again (h.take i)).Perm Deck.generate := by
      unfold again
      cases hl : (h.take i).getLast? with
      | none => exact .refl _
      | some x => exact hp x (List.mem_of_mem_take (List.mem_of_getLast? hl))
    exact (hp m (List.mem_of_getElem? hm)).trans hg.symm
  have size : ∀ b, Course again b → (again b).length = 52 := fun b hb =>
    (again_perm hb).length_eq.trans c21_deck.1
  have part : ∀ (h : List (List Card)) (i : Nat), (∀ m ∈ h, m.Perm Deck.generate) → Course again (h.take i) :=
    fun h i hp => course _ fun m hm => hp m (List.mem_of_mem_take hm)
  refine c78_rounds (fun b hb => ⟨(again_perm hb).nodup_iff.2 c21_deck.2.1, ?_⟩) (course h hp) (course h' hp') hh
    (fun i _ => by rw [size _ (part h i hp), size _ (part h' i hp')]) n
  rw [size b hb]
  norm_num

example (n : Nat) : sequences n (fun ws => ∃ rest, shuffles again 2 [] ws =
      .ok (some ([Deck.generate, Deck.generate.reverse], rest))) =
    sequences n (fun ws => ∃ rest, shuffles again 2 [] ws =
      .ok (some ([Deck.generate.reverse, Deck.generate.reverse], rest))) :=
  c78_again (h := [Deck.generate, Deck.generate.reverse]) (h' := [Deck.generate.reverse, Deck.generate.reverse]) rfl
    (by simp) (by simp) n

/-- The course of two shuffles with words that are all zero. -/
example : ∃ rest, shuffles again 2 [] (List.replicate 102 0) =
    .ok (some ([Deck.generate.rotate 1, Deck.generate.rotate 2], rest)) := ⟨[], by decide +kernel⟩

end Poker

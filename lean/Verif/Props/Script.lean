import Verif.Model.Script
import Verif.Props.Static

/-! # The build script (C54) -/

namespace Poker.Script
open Poker Rules Tab

/-- The script has nothing to do: the feature is off, or `DOCS_RS` is `1`. -/
def Idle (o : Outside) : Prop := o.feature = false ∨ o.var "DOCS_RS".toList = some "1".toList

theorem idle_var {o : Outside} (h : ¬ Idle o) :
    o.feature = true ∧ (o.var "DOCS_RS".toList).getD [] ≠ "1".toList := by
  rw [Idle, not_or, Bool.not_eq_false] at h
  refine ⟨h.1, fun e => h.2 ?_⟩
  cases hv : o.var "DOCS_RS".toList with
  | none => rw [hv] at e; cases e
  | some s => rw [hv] at e; exact congrArg some e

/-- C54: without the feature, or for docs.rs, the script succeeds and does nothing at all: no request, no
file, whatever the rest of the world is like. -/
theorem c54_idle (o : Outside) (w : World) (h : Idle o) : main o w = (.ok, w) := by
  rcases h with h | h
  · rw [main, h]
    rfl
  · rw [main, h]
    cases o.feature <;> rfl

theorem busy {o : Outside} (w : World) (hi : ¬ Idle o) : main o w =
    match o.var "OUT_DIR".toList with
    | none => (.err, w)
    | some dir => fetch o w (join dir "codegen.rs".toList) URL noConnection := by
  obtain ⟨hf, hd⟩ := idle_var hi
  simp only [main, hf, Bool.not_true, Bool.false_eq_true, if_false, if_neg hd]
  cases o.var "OUT_DIR".toList <;> rfl

theorem fetch_frame (o : Outside) (w : World) (path url m : Str) :
    (∀ p, p ≠ path → (fetch o w path url m).2.files p = w.files p) ∧
    ((fetch o w path url m).2.requests = w.requests ∨
      (fetch o w path url m).2.requests = w.requests ++ [url]) := by
  unfold fetch
  cases o.create path with
  | false => exact ⟨fun _ _ => rfl, .inl rfl⟩
  | true =>
    cases o.get url with
    | none => exact ⟨fun p hp => by simp [World.put, hp], .inr rfl⟩
    | some r =>
      obtain ⟨st, b⟩ := r
      cases b with
      | none => exact ⟨fun p hp => by simp [World.put, hp], .inr rfl⟩
      | some b =>
        cases hw : o.write b <;> exact ⟨fun p hp => by simp [World.put, hp, hw], .inr (by simp [World.put, hw])⟩

theorem fetch_ok (o : Outside) (w : World) (path url m : Str) :
    (fetch o w path url m).1 = .ok ↔ ∃ status body, o.create path = true ∧
      o.get url = some ⟨status, some body⟩ ∧ o.write body = none ∧
      (fetch o w path url m).2.files path = some body ∧
      (fetch o w path url m).2.requests = w.requests ++ [url] := by
  unfold fetch
  cases o.create path with
  | false => simp
  | true =>
    cases o.get url with
    | none => simp
    | some r =>
      obtain ⟨st, b⟩ := r
      cases b with
      | none => simp
      | some b =>
        cases hw : o.write b with
        | some n => simp [hw]
        | none => simp [hw, World.put]

theorem fetch_panic (o : Outside) (w : World) (path url m message : Str) :
    (fetch o w path url m).1 = .panic message ↔ o.get url = none ∧ message = m ∧ o.create path = true ∧
      (fetch o w path url m).2.files path = some [] := by
  unfold fetch
  cases o.create path with
  | false => simp
  | true =>
    cases o.get url with
    | none => simp [World.put, eq_comm]
    | some r =>
      obtain ⟨st, b⟩ := r
      cases b with
      | none => simp
      | some b => cases hw : o.write b <;> simp [hw]

/-- C54: no file but `codegen.rs` in `OUT_DIR` is touched, and at most one request is sent: to the
pinned address. -/
theorem c54_frame (o : Outside) (w : World) :
    (∀ p, (∀ dir, o.var "OUT_DIR".toList = some dir → p ≠ join dir "codegen.rs".toList) →
      (main o w).2.files p = w.files p) ∧
    ((main o w).2.requests = w.requests ∨ (main o w).2.requests = w.requests ++ [URL]) := by
  by_cases hi : Idle o
  · rw [c54_idle o w hi]
    exact ⟨fun _ _ => rfl, .inl rfl⟩
  · rw [busy w hi]
    cases hv : o.var "OUT_DIR".toList with
    | none => exact ⟨fun _ _ => rfl, .inl rfl⟩
    | some dir =>
      have := fetch_frame o w (join dir "codegen.rs".toList) URL noConnection
      exact ⟨fun p hp => this.1 p (hp dir rfl), this.2⟩

/-- C54: a request goes to a file of one commit of the repository of the tables, named by its full hash of
40 hexadecimal digits and asked for over an encrypted connection. -/
theorem c54_pinned (o : Outside) (w : World) (r : Str) (hr : r ∈ (main o w).2.requests) :
    r ∈ w.requests ∨ ∃ commit : Str, commit.length = 40 ∧
      (∀ c ∈ commit, c ∈ "0123456789abcdef".toList) ∧
      r = "https://raw.githubusercontent.com/deus-x-mackina/poker-lookup-table/".toList ++ commit
        ++ "/codegen.txt".toList := by
  rcases (c54_frame o w).2 with h | h <;> rw [h] at hr
  · exact .inl hr
  · rcases List.mem_append.1 hr with hr | hr
    · exact .inl hr
    · rw [List.mem_singleton.1 hr]
      exact .inr ⟨"8e22032a6280eb790a13cc16b26efe4e16d1f43a".toList, by decide +kernel, by decide +kernel,
        by decide +kernel⟩

/-- C54: when there is something to do, the script succeeds exactly if every step does: `OUT_DIR` is set,
the file can be created, the server answers with a body, and all of it can be written.  Then the
file holds that body, whatever the status of the answer, and the address was asked once. -/
theorem c54_success (o : Outside) (w : World) (hi : ¬ Idle o) :
    (main o w).1 = .ok ↔ ∃ dir status body, o.var "OUT_DIR".toList = some dir ∧
      o.create (join dir "codegen.rs".toList) = true ∧ o.get URL = some ⟨status, some body⟩ ∧
      o.write body = none ∧ (main o w).2.files (join dir "codegen.rs".toList) = some body ∧
      (main o w).2.requests = w.requests ++ [URL] := by
  rw [busy w hi]
  cases hv : o.var "OUT_DIR".toList with
  | none =>
    constructor
    · intro h; cases h
    · rintro ⟨dir, _, _, h, _⟩; cases h
  | some dir =>
    rw [fetch_ok]
    constructor
    · rintro ⟨st, body, h⟩
      exact ⟨dir, st, body, rfl, h⟩
    · rintro ⟨dir', st, body, h, h'⟩
      obtain rfl := Option.some.inj h
      exact ⟨st, body, h'⟩

/-- C54: the script panics exactly if it gets as far as asking and there is no answer, and then with the advice to
connect to the internet.  The file has been created by then: it is empty, and what an earlier build
left in it is lost. -/
theorem c54_panic (o : Outside) (w : World) (message : Str) :
    (main o w).1 = .panic message ↔ ¬ Idle o ∧ o.get URL = none ∧
      message = "You need to be connected to the internet in order to build `poker` with `static_lookup`".toList ∧
      ∃ dir, o.var "OUT_DIR".toList = some dir ∧ o.create (join dir "codegen.rs".toList) = true ∧
        (main o w).2.files (join dir "codegen.rs".toList) = some [] := by
  have hm : "You need to be connected to the internet in order to build `poker` with `static_lookup`".toList
      = noConnection := by decide +kernel
  rw [hm]
  by_cases hi : Idle o
  · rw [c54_idle o w hi]
    constructor
    · intro h; cases h
    · intro h; exact absurd hi h.1
  · rw [busy w hi]
    cases hv : o.var "OUT_DIR".toList with
    | none =>
      constructor
      · intro h; cases h
      · rintro ⟨_, _, _, dir, h, _⟩; cases h
    | some dir =>
      rw [fetch_panic]
      constructor
      · rintro ⟨h1, h2, h3⟩
        exact ⟨hi, h1, h2, dir, rfl, h3⟩
      · rintro ⟨-, h1, h2, dir', h, h3⟩
        obtain rfl := Option.some.inj h
        exact ⟨h1, h2, h3⟩

theorem fetch_err (o : Outside) (w : World) (path url m : Str) :
    (fetch o w path url m).1 = .err ↔
      (o.create path = false ∧ (fetch o w path url m).2 = w) ∨
      (o.create path = true ∧ (∃ status, o.get url = some ⟨status, none⟩) ∧
        (fetch o w path url m).2.files path = some []) ∨
      (o.create path = true ∧ ∃ status body n, o.get url = some ⟨status, some body⟩ ∧
        o.write body = some n ∧ (fetch o w path url m).2.files path = some (body.take n)) := by
  unfold fetch
  cases o.create path with
  | false => simp
  | true =>
    cases o.get url with
    | none => simp
    | some r =>
      obtain ⟨st, b⟩ := r
      cases b with
      | none => simp [World.put]
      | some b => cases hw : o.write b <;> simp [hw, World.put]

/-- C54: the script fails without a panic in four cases: `OUT_DIR` is not set or the file cannot be
created, and then nothing has changed; the body does not come, and then the file is empty; or it cannot
be written, and then the file holds the part that was. -/
theorem c54_error (o : Outside) (w : World) (hi : ¬ Idle o) :
    (main o w).1 = .err ↔
      (o.var "OUT_DIR".toList = none ∧ (main o w).2 = w) ∨
      ∃ dir, o.var "OUT_DIR".toList = some dir ∧
        ((o.create (join dir "codegen.rs".toList) = false ∧ (main o w).2 = w) ∨
        (o.create (join dir "codegen.rs".toList) = true ∧ (∃ status, o.get URL = some ⟨status, none⟩) ∧
          (main o w).2.files (join dir "codegen.rs".toList) = some []) ∨
        (o.create (join dir "codegen.rs".toList) = true ∧ ∃ status body n,
          o.get URL = some ⟨status, some body⟩ ∧ o.write body = some n ∧
          (main o w).2.files (join dir "codegen.rs".toList) = some (body.take n))) := by
  rw [busy w hi]
  cases hv : o.var "OUT_DIR".toList with
  | none => simp
  | some dir =>
    simp only [reduceCtorEq, false_and, false_or]
    rw [fetch_err]
    constructor
    · intro h
      exact ⟨dir, rfl, h⟩
    · rintro ⟨dir', h, h'⟩
      obtain rfl := Option.some.inj h
      exact h'

/-- C54: the path is the directory, a separator and the name; a separator that is there already is not
doubled, though it is in the path that the library includes, and with an empty directory the script
writes to the working directory while the library reads from the root. -/
theorem c54_join (dir : Str) :
    join [] "codegen.rs".toList = "codegen.rs".toList ∧ included [] = "/codegen.rs".toList ∧
    join (dir ++ ['/']) "codegen.rs".toList = dir ++ "/codegen.rs".toList ∧
    included (dir ++ ['/']) = dir ++ "//codegen.rs".toList := by
  refine ⟨rfl, rfl, ?_, ?_⟩
  · rw [join, List.getLast?_append]
    simp
  · rw [included]
    simp

/-- C54: the file that the script writes is the one that the library includes, for a directory as Cargo
names it: not empty and without a separator at the end. -/
theorem c54_path (dir : Str) (h0 : dir ≠ []) (h : dir.getLast? ≠ some '/') :
    join dir "codegen.rs".toList = included dir := by
  rw [join, included]
  cases hl : dir.getLast? with
  | none => exact absurd (List.getLast?_eq_none_iff.1 hl) h0
  | some c =>
    have hc : c ≠ '/' := by
      rintro rfl
      exact h hl
    simp only [if_neg hc]
    rfl

example : join "/out".toList "codegen.rs".toList = included "/out".toList :=
  c54_path _ (by decide) (by decide)

/-- C54: from the download to the result.  If the script had something to do and succeeded, the library is not
built for docs.rs, and the body that came is one that compiles to the entries of `LookupTable::new`, then
`static_lookup::evaluate` gives what `Evaluator::evaluate` gives. -/
theorem c54_download (o : Outside) (w : World) (hi : ¬ Idle o) (hok : (main o w).1 = .ok)
    (dir : Str) (hv : o.var "OUT_DIR".toList = some dir) (h0 : dir ≠ []) (hl : dir.getLast? ≠ some '/')
    (compile : Bytes → Option StaticLookup.Statics) (ev : Evaluator) (hev : Evaluator.new = .ok ev)
    (hbody : ∀ r body, o.get URL = some r → r.bytes = some body → ∃ s, compile body = some s ∧
      (∀ k, s.FLUSH_LOOKUP.get? k = ev.table.flush_lookup.get? k) ∧
      ∀ k, s.UNSUITED_LOOKUP.get? k = ev.table.unsuited_lookup.get? k) :
    ∃ s, statics false compile dir (main o w).2 = some s ∧
      ∀ cards, StaticLookup.evaluate s cards = ev.evaluate cards := by
  obtain ⟨dir', st, body, hv', -, hg, -, hfile, -⟩ := (c54_success o w hi).1 hok
  obtain rfl : dir = dir' := Option.some.inj (hv.symm.trans hv')
  obtain ⟨s, hs, hf, hu⟩ := hbody _ body hg rfl
  refine ⟨s, ?_, c25_same_entries s ev hev hf hu⟩
  rw [statics, ← c54_path dir h0 hl, hfile]
  exact hs

/-- C54: built with `--cfg docsrs` the static tables are empty, whatever was downloaded: evaluating any
five or more different cards panics. -/
theorem c54_docs (compile : Bytes → Option StaticLookup.Statics) (dir : Str) (w : World) :
    ∃ s, statics true compile dir w = some s ∧ ∀ h : List PCard, h.Nodup → 5 ≤ h.length →
      StaticLookup.evaluate s (deal h) = .error .missingKey :=
  ⟨_, rfl, fun h hn h5 => c26_default_panics h hn h5⟩

example : ∃ s, statics true (fun _ => none) [] ⟨fun _ => none, []⟩ = some s ∧
    StaticLookup.evaluate s (deal wheelHand) = .error .missingKey :=
  have ⟨s, hs, h⟩ := c54_docs (fun _ => none) [] ⟨fun _ => none, []⟩
  ⟨s, hs, h _ (by decide) (by decide)⟩

/-- C54: the script goes by `DOCS_RS`, the library by `--cfg docsrs`.  With only the first, the library is
built from the file of an earlier build, if there is one, and does not compile if there is none. -/
theorem c54_mismatch (o : Outside) (w : World) (h : o.var "DOCS_RS".toList = some "1".toList)
    (compile : Bytes → Option StaticLookup.Statics) (dir : Str) :
    statics false compile dir (main o w).2 = (w.files (included dir)).bind compile := by
  rw [c54_idle o w (.inr h)]
  rfl

/-! ## Runs -/

/-- A world where everything works, with a given answer. -/
def fine (answer : Option Response) : Outside where
  feature := true
  var := fun v => if v = "OUT_DIR".toList then some "/out".toList else none
  create := fun _ => true
  get := fun _ => answer
  write := fun _ => none

/-- No files. -/
def empty : World := { files := fun _ => none, requests := [] }

/-- An error of each kind that touches the file. -/
example : (main (fine (some ⟨200, none⟩)) empty).1 = .err ∧
    (main { fine (some ⟨200, some [1, 2, 3]⟩) with write := fun _ => some 2 } empty).1 = .err ∧
    (main { fine (some ⟨200, some [1, 2, 3]⟩) with write := fun _ => some 2 } empty).2.files
      "/out/codegen.rs".toList = some [1, 2] := by
  decide +kernel

example : ¬ Idle (fine none) := by
  rw [Idle, not_or]
  exact ⟨by decide, by decide⟩

/-- The body of a page that says "not found" is taken for the tables. -/
example : (main (fine (some ⟨404, some [0x34#8, 0x30#8, 0x34#8]⟩)) empty).1 = .ok ∧
    (main (fine (some ⟨404, some [0x34#8, 0x30#8, 0x34#8]⟩)) empty).2.files "/out/codegen.rs".toList
      = some [0x34#8, 0x30#8, 0x34#8] := by decide

/-- Without a connection. -/
example : (main (fine none) empty).1 = .panic
    "You need to be connected to the internet in order to build `poker` with `static_lookup`".toList ∧
    (main (fine none) (empty.put "/out/codegen.rs".toList [0#8])).2.files "/out/codegen.rs".toList
      = some [] := by decide

/-- A request is sent. -/
example : (main (fine none) empty).2.requests.length = 1 := by decide

/-- The directories that Cargo makes. -/
example : "/out".toList ≠ [] ∧ "/out".toList.getLast? ≠ some '/' := by decide

/-- A download that meets the hypotheses of `c54_download`. -/
example (ev : Evaluator) (hev : Evaluator.new = .ok ev) :
    ∃ s, statics false (fun _ => some ⟨ev.table.flush_lookup, ev.table.unsuited_lookup⟩) "/out".toList
      (main (fine (some ⟨200, some []⟩)) empty).2 = some s ∧
      ∀ cards, StaticLookup.evaluate s cards = ev.evaluate cards :=
  c54_download _ _ (by rw [Idle, not_or]; exact ⟨by decide, by decide⟩) (by decide) _ (by decide)
    (by decide) (by decide) _ ev hev (fun _ _ _ _ => ⟨_, rfl, fun _ => rfl, fun _ => rfl⟩)

end Poker.Script

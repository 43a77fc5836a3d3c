import Verif.Spec.Many
import Verif.Props.PartsTools
import Verif.Props.CheckParts

/-!
# Property C95: `warcio check` and `warcio index` on any uncompressed files

`CheckedAll` and `IndexedAll` (`Verif/Spec/Many.lean`) say what is to be printed for a list of files.
-/

set_option linter.unusedSectionVars false

namespace Warcio.Props

open Warcio ArchiveIter BufReader Checker

section
variable [Zlib] [TameZlib] [Hashlib] [PyUni] {IsMember : Bytes → Bytes → Prop}

/-- C95: `warcio check` on any uncompressed files, whatever they hold: the files are checked one after the other as
each is on its own (C93); the exit value is 1 if one of them cannot be read or has a record that fails. -/
theorem C95_check (L : LawfulGzip IsMember) (verbose : Bool) {m : Nat} : ∀ (inputs : List (Str × FileObj)), (∀ i ∈ inputs, Uncompressed i.2 16384 ∧ Lined i.2 16384 m) →
    ∃ y out, CheckedAll m verbose inputs y out ∧ processAll verbose inputs 0 = (y.map (fun b => if b then 1 else 0), out) := by
  have key : ∀ (inputs : List (Str × FileObj)), (∀ i ∈ inputs, Uncompressed i.2 16384 ∧ Lined i.2 16384 m) →
      ∃ y out, CheckedAll m verbose inputs y out ∧ ∀ n, processAll verbose inputs n = (y.map (fun b => if b then 1 else n), out) := by
    intro inputs
    induction inputs with
    | nil => exact fun _ => ⟨_, _, .nil, fun n => rfl⟩
    | cons i t ih =>
      obtain ⟨name, f⟩ := i
      intro h
      obtain ⟨h1, h2⟩ := h (name, f) (by simp)
      obtain ⟨y, out, k1, k2⟩ := ih (fun i hi => h i (by simp [hi]))
      obtain ⟨x, vs, lines, m1, m2⟩ := C93_check L h1 h2 verbose name
      have e : vs.any (· == some false) = decide (some false ∈ vs) := by
        rw [Bool.eq_iff_iff]; simp
      rw [e] at m2
      cases x with
      | ok u =>
        refine ⟨_, _, .read name f vs lines t y out m1 k1, fun n => ?_⟩
        unfold processAll
        rw [m2]
        dsimp only
        rw [k2]
        cases y with
        | error e => rfl
        | ok b =>
          simp only [Except.map, behindName]
          by_cases hv : some false ∈ vs <;> cases b <;> simp [hv]
      | error e =>
        by_cases he : e.isArchiveLoadFailed = true
        · refine ⟨_, _, .failed name f e vs lines t y out m1 he k1, fun n => ?_⟩
          unfold processAll
          rw [m2]
          dsimp only
          rw [if_pos he, k2]
          cases y with
          | error e => rfl
          | ok b => cases b <;> rfl
        · refine ⟨_, _, .crashed name f e vs lines t m1 (by simpa using he), fun n => ?_⟩
          unfold processAll
          rw [m2]
          dsimp only
          rw [if_neg he]
          rfl
  intro inputs h
  obtain ⟨y, out, k1, k2⟩ := key inputs h
  exact ⟨y, out, k1, k2 0⟩

/-- C95, what the exit value means: 0 that every file was read to its end and no record fails, 1 that in one of them there is a failure or an end
that is none. -/
theorem C95_exit (L : LawfulGzip IsMember) (verbose : Bool) {m : Nat} {inputs : List (Str × FileObj)} (h : ∀ i ∈ inputs, Uncompressed i.2 16384 ∧ Lined i.2 16384 m) :
    ((processAll verbose inputs 0).1 = .ok 0 → ∀ i ∈ inputs, ∃ vs lines, CheckedParts { checkDigests := some .other } m verbose 0 none i.2.origin i.2.rest (.ok ()) vs lines ∧ some false ∉ vs) ∧
    ((processAll verbose inputs 0).1 = .ok 1 → ∃ i ∈ inputs, ∃ x vs lines, CheckedParts { checkDigests := some .other } m verbose 0 none i.2.origin i.2.rest x vs lines ∧
      (some false ∈ vs ∨ ∃ e, x = .error e ∧ e.isArchiveLoadFailed = true)) ∧
    (∀ n, (processAll verbose inputs 0).1 = .ok n → n = 0 ∨ n = 1) ∧
    (∀ e, (processAll verbose inputs 0).1 = .error e → ∃ i ∈ inputs, ∃ vs lines, CheckedParts { checkDigests := some .other } m verbose 0 none i.2.origin i.2.rest (.error e) vs lines) := by
  obtain ⟨y, out, k1, k2⟩ := C95_check L verbose inputs h
  rw [k2]
  clear k2 h
  have good : y = .ok false → ∀ i ∈ inputs, ∃ vs lines, CheckedParts { checkDigests := some .other } m verbose 0 none i.2.origin i.2.rest (.ok ()) vs lines ∧ some false ∉ vs := by
    induction k1 with
    | nil => intro _ i hi; cases hi
    | read name f vs lines t y out h1 h2 ih =>
      intro h
      cases y with
      | error e => cases h
      | ok b =>
        simp only [Except.map, Except.ok.injEq, Bool.or_eq_false_iff, decide_eq_false_iff_not] at h
        intro i hi
        rcases List.mem_cons.1 hi with rfl | hi
        · exact ⟨vs, lines, h1, h.1⟩
        · exact ih (by rw [h.2]) i hi
    | failed name f e vs lines t y out h1 h2 h3 ih => intro h; cases y <;> cases h
    | crashed => intro h; cases h
  have bad : y = .ok true → ∃ i ∈ inputs, ∃ x vs lines, CheckedParts { checkDigests := some .other } m verbose 0 none i.2.origin i.2.rest x vs lines ∧
      (some false ∈ vs ∨ ∃ e, x = .error e ∧ e.isArchiveLoadFailed = true) := by
    induction k1 with
    | nil => intro h; cases h
    | read name f vs lines t y out h1 h2 ih =>
      intro h
      cases y with
      | error e => cases h
      | ok b =>
        simp only [Except.map, Except.ok.injEq, Bool.or_eq_true, decide_eq_true_eq] at h
        rcases h with h | h
        · exact ⟨(name, f), by simp, _, vs, lines, h1, .inl h⟩
        · obtain ⟨i, hi, j⟩ := ih (by intro h0; cases h.symm.trans (Except.ok.inj h0)) (by rw [h])
          exact ⟨i, by simp [hi], j⟩
    | failed name f e vs lines t y out h1 h2 h3 ih => intro h; exact ⟨(name, f), by simp, _, vs, lines, h1, .inr ⟨e, rfl, h2⟩⟩
    | crashed => intro h; cases h
  refine ⟨fun h => ?_, fun h => ?_, fun n h => ?_, fun e h => ?_⟩
  · cases y with
    | error e => cases h
    | ok b => cases b <;> first | exact good rfl | cases h
  · cases y with
    | error e => cases h
    | ok b => cases b <;> first | exact bad rfl | cases h
  · cases y with
    | error e => cases h
    | ok b => cases b <;> cases h <;> simp
  · cases y with
    | ok b => cases h
    | error e' =>
      cases h
      clear good bad
      generalize hy : (Except.error e : Except PyErr Bool) = y at k1
      induction k1 with
      | nil => cases hy
      | read name f vs lines t y out h1 h2 ih =>
        cases y with
        | ok b => cases hy
        | error e' => cases hy; obtain ⟨i, hi, j⟩ := ih rfl; exact ⟨i, by simp [hi], j⟩
      | failed name f e vs lines t y out h1 h2 h3 ih =>
        cases y with
        | ok b => cases hy
        | error e' => cases hy; obtain ⟨i, hi, j⟩ := ih rfl; exact ⟨i, by simp [hi], j⟩
      | crashed name f e vs lines t h1 h2 => cases hy; exact ⟨(name, f), by simp, vs, lines, h1⟩

/-- Every path has a last part. -/
theorem has_basename : ∀ path : Str, ∃ base, IsBasename path base
  | [] => ⟨[], by simp, .inl rfl⟩
  | c :: t => by
    obtain ⟨base, h1, h2⟩ := has_basename t
    rcases h2 with rfl | ⟨dir, rfl⟩
    · by_cases hc : c = '/'
      · exact ⟨t, h1, .inr ⟨[], by rw [hc]; rfl⟩⟩
      · exact ⟨c :: t, by simp only [List.mem_cons, not_or]; exact ⟨fun h => hc h.symm, h1⟩, .inl rfl⟩
    · exact ⟨base, h1, .inr ⟨c :: dir, rfl⟩⟩

/-- C95: `warcio index` on any uncompressed files, whatever they hold and whatever fields are asked for: the entries of the files one after the other, as each
has them on its own (C89), one JSON object on each line; it ends with the first file that cannot be read. -/
theorem C95_index (L : LawfulGzip IsMember) (fields : List Str) (v : Bool) (ids : Nat → Str) {m : Nat} : ∀ (inputs : List (Str × FileObj)), (∀ i ∈ inputs, Uncompressed i.2 16384 ∧ Lined i.2 16384 m) →
    ∃ y es, ∃ lines : List Str, IndexedAll { noRecordParse := !fields.any (startsWith (lit "http:")), arc2warc := true, verifyHttp := v, ids := ids } m fields inputs y es ∧
      Each (fun entry line => '\n' ∉ line ∧ Json.object line = some (entry, [])) es lines ∧ Indexer.index fields v ids inputs = (y, lines.flatMap (fun l => l ++ ['\n'])) := by
  have text : ∀ entries : List (List (Str × Str)), ∃ ls : List Str, Each (fun entry line => '\n' ∉ line ∧ Json.object line = some (entry, [])) entries ls ∧ entries.flatMap Indexer.jsonLine = ls.flatMap (fun l => l ++ ['\n']) := by
    intro entries
    induction entries with
    | nil => exact ⟨[], .nil, rfl⟩
    | cons e es ih =>
      obtain ⟨ls, q1, q2⟩ := ih
      obtain ⟨l, r1, r2⟩ := Json.object_line e
      exact ⟨l :: ls, .cons ⟨Json.line_one e r1, r2⟩ q1, by rw [List.flatMap_cons, List.flatMap_cons, q2, r1]⟩
  intro inputs
  induction inputs with
  | nil => exact fun _ => ⟨_, _, [], .nil, .nil, rfl⟩
  | cons i t ih =>
    obtain ⟨name, f⟩ := i
    intro h
    obtain ⟨h1, h2⟩ := h (name, f) (by simp)
    obtain ⟨base, hb⟩ := has_basename name
    obtain ⟨x, es, m1, m2⟩ := C89_index L h1 h2 fields v ids hb
    obtain ⟨ls, q1, q2⟩ := text es
    cases x with
    | error e =>
      refine ⟨_, es, ls, .crashed name base f e es t hb m2, q1, ?_⟩
      rw [Indexer.index, m1]
      dsimp only
      rw [q2]
    | ok u =>
      obtain ⟨y, es', lines, k1, k2, k3⟩ := ih (fun i hi => h i (by simp [hi]))
      refine ⟨y, es ++ es', ls ++ lines, .read name base f es t y es' hb m2 k1, each_append q1 k2, ?_⟩
      rw [Indexer.index, m1]
      dsimp only
      rw [k3]
      dsimp only
      rw [q2, List.flatMap_append]

end

open Toy in
/-- The hypotheses of `C95_check`, `C95_exit` and `C95_index`: a file with junk behind its records, one that is no archive, and an empty one. -/
example : ∀ i ∈ ([(lit "a.warc", exParts), (lit "d/b", { content := [0, 255, 10] }), (lit "c", { content := [] })] : List (Str × FileObj)), Uncompressed i.2 16384 ∧ Lined i.2 16384 16384 := by
  intro i hi
  simp only [List.mem_cons, List.not_mem_nil, or_false] at hi
  rcases hi with rfl | rfl | rfl
  · exact ⟨⟨by decide, by simp [exParts], fun _ => by decide +kernel, by decide +kernel⟩, .inr ⟨rfl, by decide⟩⟩
  · exact ⟨⟨by decide, by simp, fun _ => by decide +kernel, by decide +kernel⟩, .inr ⟨rfl, by decide⟩⟩
  · exact ⟨⟨by decide, by simp, fun h => absurd rfl h, by decide +kernel⟩, .inr ⟨rfl, by decide⟩⟩

open Toy in
/-- What is printed for them: two of them cannot be read to their ends. -/
example : processAll false [(lit "a.warc", exParts), (lit "c", { content := [] }), (lit "d/b", { content := [0, 255, 10] })] 0 = (.ok 1, [.failure (lit "a.warc"), .failure (lit "d/b")]) ∧
    Indexer.index [lit "offset", lit "filename"] false (fun _ => []) [(lit "c", { content := [] }), (lit "d/b.warc", { content := exInfo.bytes }), (lit "d/b", { content := [0, 255, 10] }), (lit "a.warc", exParts)] =
      (.error .unknownFormat, lit "{\"offset\": \"0\", \"filename\": \"b.warc\"}\n") := by decide +kernel

end Warcio.Props

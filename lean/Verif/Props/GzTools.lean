import Verif.Proofs.GzTools
import Verif.Props.GzParts
import Verif.Props.Many

/-!
# Property C97: index and check for any file of gzip members

Specification: `GzIndexed`, `GzChecked`, `IndexedFiles`, `CheckedFiles` in `Verif/Spec/GzTools.lean`.
-/

set_option linter.unusedSectionVars false

namespace Warcio.Props

open Warcio ArchiveIter BufReader Checker

section
variable [Zlib] [TameZlib] [Hashlib] [PyUni] {IsMember : Bytes → Bytes → Prop}

omit [TameZlib] [Hashlib] [PyUni] in
theorem members_le (L : LawfulGzip IsMember) : ∀ {ms : List (Bytes × Bytes)}, (∀ x ∈ ms, IsMember x.1 x.2) → 2 * ms.length ≤ (ms.flatMap (·.1)).length
  | [], _ => by simp
  | x :: ms, h => by
    have h1 := (L.magic (h x (by simp))).length_le
    have h2 := members_le L (fun x hx => h x (List.mem_cons_of_mem _ hx) : ∀ x ∈ ms, IsMember x.1 x.2)
    simp only [List.flatMap_cons, List.length_append, List.length_cons, List.length_nil] at h1 ⊢
    omega

/-- C97: `warcio index` on any file of gzip members, whatever they hold and whatever fields are asked for: one line for each
member, with the position and the size of the member, and the fields of the record that the loader makes of what the member holds. -/
theorem C97_index (L : LawfulGzip IsMember) {f : FileObj} {m : Nat} {ms : List (Bytes × Bytes)} (hne : ms ≠ []) (hz : ∀ x ∈ ms, IsMember x.1 x.2) (hf : f.rest = ms.flatMap (·.1))
    (hr : ReadsGz f 16384 m (ms.map (·.1))) (fields : List Str) (v : Bool) (ids : Nat → Str) {file base : Str} (hb : IsBasename file base) :
    ∃ x es, Indexer.indexFile fields v ids file f = (x, es) ∧
      GzIndexed { noRecordParse := !fields.any (startsWith (lit "http:")), arc2warc := true, verifyHttp := v, ids := ids } m base fields 0 f.origin ms x es := by
  have hlen := members_le L hz
  rw [← hf] at hlen
  cases ms with
  | nil => exact absurd rfl hne
  | cons x ms =>
    obtain ⟨z, data⟩ := x
    obtain ⟨V, Q, it, hV, hX, k1, k2, k3⟩ := open_gz_any L hr.block (hr.lines.imp id (fun h => ⟨h.1, fun x hx => h.2 _ (List.mem_map.2 ⟨x, hx, rfl⟩)⟩)) hz hf (Indexer.opts fields v ids) none
    obtain ⟨x, es, m1, m2⟩ := indexLoop_gz hV hX rfl rfl hb (fields := fields) (PyStream.bound it.reader + 2) (next_start k2) k3 (by have := open_bound k1; simp only [List.length_cons] at hlen; omega)
    refine ⟨x, es, ?_, m2⟩
    unfold Indexer.indexFile
    rw [k1]
    exact m1

/-- C97: `warcio check` on any file of gzip members, whatever they hold. -/
theorem C97_check (L : LawfulGzip IsMember) {f : FileObj} {m : Nat} {ms : List (Bytes × Bytes)} (hne : ms ≠ []) (hz : ∀ x ∈ ms, IsMember x.1 x.2) (hf : f.rest = ms.flatMap (·.1))
    (hr : ReadsGz f 16384 m (ms.map (·.1))) (verbose : Bool) (name : Str) :
    ∃ x vs lines, GzChecked { checkDigests := some .other } m verbose 0 none f.origin ms x vs lines ∧
      processOne verbose name f = (x, vs.any (· == some false), if lines = [] then [] else .file name :: lines) := by
  have hlen := members_le L hz
  rw [← hf] at hlen
  cases ms with
  | nil => exact absurd rfl hne
  | cons x ms =>
    obtain ⟨z, data⟩ := x
    obtain ⟨V, Q, it, hV, hX, k1, k2, k3⟩ := open_gz_any L hr.block (hr.lines.imp id (fun h => ⟨h.1, fun x hx => h.2 _ (List.mem_map.2 ⟨x, hx, rfl⟩)⟩)) hz hf { checkDigests := some .other } none
    obtain ⟨x, vs, lines, m1, m2⟩ := checkLoop_gz hV hX rfl verbose name (PyStream.bound it.reader + 2) false (next_start k2) k3 (by have := open_bound k1; simp only [List.length_cons] at hlen; omega)
    refine ⟨x, vs, lines, m1, ?_⟩
    unfold processOne
    rw [k1]
    dsimp only
    rw [m2]
    cases lines <;> rfl

/-- C97, one line for each member: if in each member there is a record and nothing behind it but what is skipped, then the
index is read to its end, and its lines are those of the records in the members, with positions and sizes of the members. -/
theorem C97_places {io : IterOpts} {m : Nat} {base : Str} {fields : List Str} {n : Nat} {off : Int} {ms : List (Bytes × Bytes)} {x : Except PyErr Unit} {es : List (List (Str × Str))} (h : GzIndexed io m base fields n off ms x es)
    (hone : ∀ x ∈ ms, ∀ n, (∀ e, ¬ Over (io.load none (io.ids n)) m x.2 e) ∧ ∀ (p : Portion) rec, x.2 = p.all → p.Shows (io.load none (io.ids n)) rec → resumed p.tail = []) :
    x = .ok () ∧ Each (fun (i : (Int × Int) × Bytes) e => ∃ (p : Portion) (rec : Record Unit) (n : Nat), i.2 = p.all ∧ p.Shows (io.load none (io.ids n)) rec ∧ e = rec.entry i.1.1 i.1.2 base fields)
      ((memberPlaces off (ms.map (·.1))).zip (ms.map (·.2))) es := by
  induction h with
  | nil => exact ⟨rfl, .nil⟩
  | over n off z data ms e h1 => exact absurd h1 ((hone (z, data) (by simp) n).1 e)
  | record n off z p ms rec left x es h1 h2 h3 h4 ih =>
    obtain ⟨i1, i2⟩ := ih (fun x hx => hone x (by simp [hx]))
    exact ⟨i1, .cons ⟨p, rec, n, rfl, h1, rfl⟩ i2⟩
  | several n off z p ms rec left size x es h1 h2 h3 => exact absurd ((hone (z, p.all) (by simp) n).2 p rec rfl h1) h3
  | hollow n off z data ms x es h1 h2 => exact absurd h2 ((hone (z, data) (by simp) n).1 _)

/-- The files of which C97 speaks. -/
def Readable (IsMember : Bytes → Bytes → Prop) (m : Nat) (i : Kept) : Prop :=
  match i with
  | (f, none) => Uncompressed f 16384 ∧ Lined f 16384 m
  | (f, some ms) => ms ≠ [] ∧ (∀ x ∈ ms, IsMember x.1 x.2) ∧ f.rest = ms.flatMap (·.1) ∧ ReadsGz f 16384 m (ms.map (·.1))

/-- C97: `warcio check` on any files, compressed or not. -/
theorem C97_files_check (L : LawfulGzip IsMember) (verbose : Bool) {m : Nat} : ∀ (inputs : List (Str × Kept)), (∀ i ∈ inputs, Readable IsMember m i.2) →
    ∃ y out, CheckedFiles m verbose inputs y out ∧ processAll verbose (inputs.map (fun i => (i.1, i.2.1))) 0 = (y.map (fun b => if b then 1 else 0), out) := by
  have key : ∀ (inputs : List (Str × Kept)), (∀ i ∈ inputs, Readable IsMember m i.2) →
      ∃ y out, CheckedFiles m verbose inputs y out ∧ ∀ n, processAll verbose (inputs.map (fun i => (i.1, i.2.1))) n = (y.map (fun b => if b then 1 else n), out) := by
    intro inputs
    induction inputs with
    | nil => exact fun _ => ⟨_, _, .nil, fun n => rfl⟩
    | cons i t ih =>
      obtain ⟨name, i⟩ := i
      intro h
      obtain ⟨y, out, k1, k2⟩ := ih (fun i hi => h i (by simp [hi]))
      have hi := h (name, i) (by simp)
      obtain ⟨x, vs, lines, m1, m2⟩ : ∃ x vs lines, Kept.Checked m verbose i x vs lines ∧ processOne verbose name i.1 = (x, vs.any (· == some false), if lines = [] then [] else .file name :: lines) := by
        obtain ⟨f, ms⟩ := i
        cases ms with
        | none => exact C93_check L hi.1 hi.2 verbose name
        | some ms => exact C97_check L hi.1 hi.2.1 hi.2.2.1 hi.2.2.2 verbose name
      have e : vs.any (· == some false) = decide (some false ∈ vs) := by
        rw [Bool.eq_iff_iff]; simp
      rw [e] at m2
      cases x with
      | ok u =>
        refine ⟨_, _, .read name i vs lines t y out m1 k1, fun n => ?_⟩
        rw [List.map_cons]
        unfold processAll
        rw [m2]
        dsimp only
        rw [k2]
        cases y with
        | error e => rfl
        | ok b =>
          simp only [Except.map, behindName]
          by_cases hv : some false ∈ vs <;> cases b <;> simp [hv]
      | error e =>
        by_cases he : e.isArchiveLoadFailed = true
        · refine ⟨_, _, .failed name i e vs lines t y out m1 he k1, fun n => ?_⟩
          rw [List.map_cons]
          unfold processAll
          rw [m2]
          dsimp only
          rw [if_pos he, k2]
          cases y with
          | error e => rfl
          | ok b => cases b <;> rfl
        · refine ⟨_, _, .crashed name i e vs lines t m1 (by simpa using he), fun n => ?_⟩
          rw [List.map_cons]
          unfold processAll
          rw [m2]
          dsimp only
          rw [if_neg he]
          rfl
  intro inputs h
  obtain ⟨y, out, k1, k2⟩ := key inputs h
  exact ⟨y, out, k1, k2 0⟩

/-- C97: `warcio index` on any files, compressed or not: one JSON object on each line. -/
theorem C97_files_index (L : LawfulGzip IsMember) (fields : List Str) (v : Bool) (ids : Nat → Str) {m : Nat} : ∀ (inputs : List (Str × Kept)), (∀ i ∈ inputs, Readable IsMember m i.2) →
    ∃ y es, ∃ lines : List Str, IndexedFiles { noRecordParse := !fields.any (startsWith (lit "http:")), arc2warc := true, verifyHttp := v, ids := ids } m fields inputs y es ∧
      Each (fun entry line => '\n' ∉ line ∧ Json.object line = some (entry, [])) es lines ∧ Indexer.index fields v ids (inputs.map (fun i => (i.1, i.2.1))) = (y, lines.flatMap (fun l => l ++ ['\n'])) := by
  have text : ∀ entries : List (List (Str × Str)), ∃ ls : List Str, Each (fun entry line => '\n' ∉ line ∧ Json.object line = some (entry, [])) entries ls ∧ entries.flatMap Indexer.jsonLine = ls.flatMap (fun l => l ++ ['\n']) := by
    intro entries
    induction entries with
    | nil => exact ⟨[], .nil, rfl⟩
    | cons e es ih =>
      obtain ⟨ls, q1, q2⟩ := ih
      obtain ⟨l, r1, r2⟩ := Json.object_line e
      exact ⟨l :: ls, .cons ⟨Json.line_one e r1, r2⟩ q1, by rw [List.flatMap_cons, List.flatMap_cons, q2, r1]⟩
  intro inputs
  induction inputs with
  | nil => exact fun _ => ⟨_, _, [], .nil, .nil, rfl⟩
  | cons i t ih =>
    obtain ⟨name, i⟩ := i
    intro h
    obtain ⟨base, hb⟩ := has_basename name
    have hi := h (name, i) (by simp)
    obtain ⟨x, es, m1, m2⟩ : ∃ x es, Indexer.indexFile fields v ids name i.1 = (x, es) ∧
        Kept.Indexed { noRecordParse := !fields.any (startsWith (lit "http:")), arc2warc := true, verifyHttp := v, ids := ids } m base fields i x es := by
      obtain ⟨f, ms⟩ := i
      cases ms with
      | none => exact C89_index L hi.1 hi.2 fields v ids hb
      | some ms => exact C97_index L hi.1 hi.2.1 hi.2.2.1 hi.2.2.2 fields v ids hb
    obtain ⟨ls, q1, q2⟩ := text es
    rw [List.map_cons]
    cases x with
    | error e =>
      refine ⟨_, es, ls, .crashed name base i e es t hb m2, q1, ?_⟩
      rw [Indexer.index, m1]
      dsimp only
      rw [q2]
    | ok u =>
      obtain ⟨y, es', lines, k1, k2, k3⟩ := ih (fun i hi => h i (by simp [hi]))
      refine ⟨y, es ++ es', ls ++ lines, .read name base i es t y es' hb m2 k1, each_append q1 k2, ?_⟩
      rw [Indexer.index, m1]
      dsimp only
      rw [k3]
      dsimp only
      rw [q2, List.flatMap_append]

end

section
open Toy

/-- A record with a right digest, one with a wrong digest and a line behind it, and one that is cut off. -/
def exJudged : List Bytes := [(exSum exRight).bytes, (exSum exWrong).bytes.dropLast.dropLast.dropLast.dropLast ++ utf8Encode (lit "junk\r\n"), (exSum exRight).bytes.dropLast.dropLast.dropLast.dropLast.dropLast]

/-- The hypotheses of `C97_files_check` and `C97_files_index`, and of `C97_check` and `C97_index`: three members, a file that is not compressed, and members
of which the last one has two records. -/
example : ∀ i ∈ ([(lit "a.warc.gz", ({ content := exJudged.flatMap compress }, some (exJudged.map (fun d => (compress d, d))))), (lit "d/b", ({ content := [0, 255, 10] }, none)),
    (lit "c", (exMany, some (exMembers.map (fun d => (compress d, d)))))] : List (Str × Kept)), Readable IsMember 100 i.2 := by
  intro i hi
  simp only [List.mem_cons, List.not_mem_nil, or_false] at hi
  rcases hi with rfl | rfl | rfl
  · refine ⟨by simp [exJudged], ?_, rfl, .fit (by decide) rfl (by decide +kernel)⟩
    intro x hx
    obtain ⟨d, _, rfl⟩ := List.mem_map.1 hx
    rfl
  · exact ⟨⟨by decide, by simp, fun _ => by decide +kernel, by decide +kernel⟩, .inr ⟨rfl, by decide⟩⟩
  · refine ⟨by simp [exMembers], ?_, rfl, .fit (by decide) rfl (by decide +kernel)⟩
    intro x hx
    obtain ⟨d, _, rfl⟩ := List.mem_map.1 hx
    rfl

/-- The hypotheses of `C97_places`: members with one record each. -/
example : ∀ x ∈ List.replicate 3 (compress exInfo.bytes, exInfo.bytes), ∀ n, (∀ e, ¬ Over (exIo.load none (exIo.ids n)) 0 x.2 e) ∧
    ∀ (p : Portion) rec, x.2 = p.all → p.Shows (exIo.load none (exIo.ids n)) rec → resumed p.tail = [] := by
  intro x hx n
  obtain rfl := (List.mem_replicate.1 hx).2
  exact ⟨(exInfo_one.2 n).1, fun p rec h1 h2 => ((exInfo_one.2 n).2 p rec h1 h2).1⟩

/-- What is printed for the three members: a pass, a failure, and a digest that is not checked. -/
example : processOne true (lit "a") { content := exJudged.flatMap compress } = (.ok (), true, [.file (lit "a"), .record 0 none (some (lit "metadata")) (some (lit "digest pass")) [],
    .record 251 none (some (lit "metadata")) none [.blockFailed exWrong], .record 506 none (some (lit "metadata")) (some (lit "digest present but not checked")) []]) := by
  decide +kernel

/-- The index of the members of which the last one has two records. -/
example : Indexer.indexFile [lit "offset", lit "length", lit "warc-type"] false (fun _ => []) (lit "/d/a.warc") exMany =
    (.error .nonChunkedGzip, [[(lit "offset", lit "0"), (lit "length", lit "235"), (lit "warc-type", lit "response")], [(lit "offset", lit "235"), (lit "length", lit "161"), (lit "warc-type", lit "metadata")],
      [(lit "offset", lit "396"), (lit "length", lit "269"), (lit "warc-type", lit "metadata")]]) := by
  decide +kernel

end
end Warcio.Props

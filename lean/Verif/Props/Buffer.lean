import Verif.Spec.Buffer
import Verif.Props.ReadBack
import Verif.ToyWriter

/-!
# Property C71: `BufferWARCWriter`

Specification: `Verif/Spec/Buffer.lean`.
-/

set_option linter.unusedSectionVars false

namespace Warcio.Props

open Warcio Writer BufferWriter

section
variable {σ : Type} [PyUni] [Hashlib] [PyFile σ] [Deflater]

/-- What is written does not depend on what is in the file. -/
theorem write_appends (c : BuilderCfg) (r : OutRecord σ) : ∃ (x : Except PyErr Unit) (r' : OutRecord σ) (b : Bytes), ∀ o : OutFile, o.AtEnd → write c r o = (x, r', o.extended b) := by
  obtain ⟨ws, x, r', h⟩ := writeTo_calls c r
  by_cases hg : c.gzip = true
  · refine ⟨x, r', if x = .ok () then Deflater.outFrom [] ws ++ Deflater.flush ws else Deflater.outFrom [] ws, fun o ho => ?_⟩
    unfold write
    simp only [h, hg, if_true]
    rw [foldl_write_gz ws [] o ho]
    split
    · simp only [Sink.flush, List.nil_append]
      rw [OutFile.write_end rfl]
      simp [OutFile.extended]
    · rfl
  · refine ⟨x, r', ws.flatten, fun o ho => ?_⟩
    unfold write
    simp only [h, hg, if_false]
    rw [show (if false = true then some [] else none : Option (List Bytes)) = none from rfl, foldl_write_plain ws o ho]
    split <;> rfl

theorem pair_appends (c : BuilderCfg) (req resp : OutRecord σ) : ∃ (x : Except PyErr Unit) (req' resp' : OutRecord σ) (b : Bytes), ∀ o : OutFile, o.AtEnd →
    writePair c req resp o = (x, req', resp', o.extended b) := by
  obtain ⟨x, r', b, h⟩ := write_appends c resp
  unfold writePair
  cases x with
  | error e => exact ⟨.error e, (linkRequest req resp).getD req, r', b, fun o ho => by simp only [h o ho]⟩
  | ok u =>
    cases hl : linkRequest req resp with
    | none => exact ⟨.error .typeError, req, r', b, fun o ho => by simp only [h o ho]⟩
    | some q =>
      obtain ⟨y, q', b', h'⟩ := write_appends c q
      refine ⟨y, q', r', b ++ b', fun o ho => ?_⟩
      simp only [h o ho, h' _ (extended_atEnd _ _), extended_extended]

theorem run_append (c : BuilderCfg) : ∀ (xs ys : List (BufCall σ)) (o : OutFile),
    run c o (xs ++ ys) = ((run c o xs).1 ++ (run c (run c o xs).2 ys).1, (run c (run c o xs).2 ys).2)
  | [], _, _ => rfl
  | x :: xs, ys, o => by
    simp only [List.cons_append, run, run_append c xs ys]

/-- Reading the rest of the file. -/
theorem run_reads (c : BuilderCfg) : ∀ (ns : List Nat) (o : OutFile), o.pos ≤ o.content.length →
    ∃ pieces : List Bytes, pieces.length = ns.length + 1 ∧ pieces.flatten = o.content.drop o.pos ∧
      run (σ := σ) c o (ns.map (fun n => .read (some n)) ++ [.read none]) = (pieces.map .bytes, { o with pos := o.content.length })
  | [], o, h => by
    refine ⟨[o.content.drop o.pos], rfl, by simp, ?_⟩
    simp only [List.map_nil, List.nil_append, run, call, OutFile.read, List.map_cons, List.length_drop, Prod.mk.injEq, true_and]
    congr 1
    omega
  | n :: ns, o, h => by
    have hp : (o.read (some n)).2.pos ≤ (o.read (some n)).2.content.length := by
      show o.pos + ((o.content.drop o.pos).take n).length ≤ o.content.length
      rw [List.length_take, List.length_drop]; omega
    obtain ⟨ps, p1, p2, p3⟩ := run_reads c ns (o.read (some n)).2 hp
    refine ⟨(o.content.drop o.pos).take n :: ps, by simp [p1], ?_, ?_⟩
    · rw [List.flatten_cons, p2]
      show (o.content.drop o.pos).take n ++ o.content.drop (o.pos + ((o.content.drop o.pos).take n).length) = _
      rw [← List.drop_drop, List.length_take]
      by_cases hn : n ≤ (o.content.drop o.pos).length
      · rw [Nat.min_eq_left hn, List.take_append_drop]
      · rw [Nat.min_eq_right (by omega), List.drop_length, List.take_of_length_le (by omega), List.append_nil]
    · rw [List.map_cons, List.cons_append, run]
      simp only [call]
      rw [show (o.read (some n)).2 = (o.read (some n)).2 from rfl, p3]
      rfl

/-- C71: whatever is written and looked at, in any order, the contents and the stream, read to its end,
give all that was written so far, and looking at them changes nothing. -/
theorem C71_contents_partial (c : BuilderCfg) (steps : List (BufStep σ)) :
    Keeps c [] steps (run c {} (steps.flatMap BufStep.calls)).1 (run c {} (steps.flatMap BufStep.calls)).2.content := by
  have key : ∀ (steps : List (BufStep σ)) (o : OutFile), o.AtEnd → Keeps c o.content steps (run c o (steps.flatMap BufStep.calls)).1 (run c o (steps.flatMap BufStep.calls)).2.content := by
    intro steps
    induction steps with
    | nil => exact fun o _ => .nil _
    | cons s steps ih =>
      intro o ho
      rw [List.flatMap_cons, run_append]
      cases s with
      | record r =>
        obtain ⟨x, r', b, h⟩ := write_appends c r
        have e : run c o (BufStep.record r).calls = ([.done x], o.extended b) := by
          simp only [BufStep.calls, run, call, h o ho]
        rw [e]
        refine .record (h {} rfl) ?_
        exact ih _ (extended_atEnd _ _)
      | pair req resp =>
        obtain ⟨x, q, r', b, h⟩ := pair_appends c req resp
        have e : run c o (BufStep.pair req resp).calls = ([.done x], o.extended b) := by
          simp only [BufStep.calls, run, call, h o ho]
        rw [e]
        refine .pair (h {} rfl) ?_
        exact ih _ (extended_atEnd _ _)
      | contents =>
        have e : run (σ := σ) c o BufStep.contents.calls = ([.bytes o.content], o) := by
          simp [BufStep.calls, run, call, OutFile.getContents, OutFile.seek, OutFile.read]
        rw [e]
        exact .contents (ih o ho)
      | readAll ns =>
        obtain ⟨ps, p1, p2, p3⟩ := run_reads (σ := σ) c ns (o.seek 0) (Nat.zero_le _)
        have e : run (σ := σ) c o (BufStep.readAll ns).calls = (.done (.ok ()) :: ps.map .bytes, o) := by
          rw [BufStep.calls, run]
          simp only [call, OutFile.getStream]
          rw [p3]
          obtain ⟨b, p⟩ := o
          have ho : p = b.length := ho
          simp [OutFile.seek, ho]
        rw [e]
        exact .readAll ns ps p1 (by simpa [OutFile.seek] using p2) (ih o ho)
  exact key steps {} rfl

end

/-! ## The hypotheses are met, and the claim that fails -/

/-- A small record. -/
def bInfo : OutRecord FileObj :=
  { recType := some (lit "warcinfo"), recHeaders := { protocol := lit "WARC/1.0", statusline := [], headers := [(lit "WARC-Type", lit "warcinfo")] },
    raw := .own { content := [97, 98, 99] }, httpHeaders := none, contentType := none, length := some 3, payloadLength := some 3 }

open Toy in
/-- What `C71_contents_partial` says of two records: the contents after the first, the stream after the second. -/
example : (run (σ := FileObj) { gzip := false } {} ([BufStep.record bInfo, .contents, .record wResponse, .readAll [7]].flatMap BufStep.calls)).1 =
    let p := (write { gzip := false } bInfo {}).2.2.content
    let q := (write { gzip := false } wResponse {}).2.2.content
    [.done (.ok ()), .bytes p, .done (.ok ()), .done (.ok ()), .bytes (lit "WARC/1." |> utf8Encode), .bytes ((p ++ q).drop 7)] := by decide +kernel

open Toy in
/-- C71 fails if something is written after `get_stream()` and before the stream is read to its end:
it is written over the first records. -/
theorem C71_overwrites : ∃ p q : Bytes, p ≠ [] ∧ p.length < q.length ∧ write { gzip := false } bInfo {} = (.ok (), (write { gzip := false } bInfo {}).2.1, ({} : OutFile).extended p) ∧
    write { gzip := false } wResponse {} = (.ok (), (write { gzip := false } wResponse {}).2.1, ({} : OutFile).extended q) ∧
    (run (σ := FileObj) { gzip := false } {} [.record wResponse, .stream, .record bInfo, .contents]).1 =
      [.done (.ok ()), .done (.ok ()), .done (.ok ()), .bytes (p ++ q.drop p.length)] := by
  refine ⟨(write { gzip := false } bInfo {}).2.2.content, (write { gzip := false } wResponse {}).2.2.content, by decide +kernel, by decide +kernel, ?_, ?_, by decide +kernel⟩
  · refine Prod.ext (by decide +kernel) (Prod.ext rfl (by decide +kernel))
  · refine Prod.ext (by decide +kernel) (Prod.ext rfl (by decide +kernel))

end Warcio.Props

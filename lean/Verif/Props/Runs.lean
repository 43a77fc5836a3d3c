import Verif.Spec.Runs
import Verif.Proofs.Runs
import Verif.Props.GzCopy

/-!
# Property C100: the second attempt of recompress reads all members

Specification: `NoRun` in `Verif/Spec/Runs.lean`, `CopiedParts` in `Verif/Spec/CopyParts.lean`, `Copied` in `Verif/Props/Recompress.lean`.
-/

set_option linter.unusedSectionVars false

namespace Warcio.Props

open Warcio ArchiveIter BufReader Recompressor

section
variable [Zlib] [Hashlib] [PyUni] {IsMember : Bytes → Bytes → Prop}

/-- C100: read with `read_all_members` in blocks of `n` bytes, up to the first empty block, any gzip members give their data: all of it, however the file
is cut into short reads, if no run of members before the last one holds a multiple of `n` bytes. -/
theorem C100_blocks (L : LawfulGzip IsMember) {n : Nat} (hn : 0 < n) {ms : List (Bytes × Bytes)} (hne : ms ≠ []) (hz : ∀ x ∈ ms, IsMember x.1 x.2) (hN : NoRun n (ms.map (·.2)))
    {f : FileObj} (hf : f.rest = ms.flatMap (·.1)) {bs : Nat} (hb : 0 < bs) :
    ∃ r bufs r', BufReader.new f bs (some .gzip) true = .ok r ∧ readAllBlocks (n : Int) r = (bufs, .ok (), r') ∧ bufs.flatten = ms.flatMap (·.2) := by
  match ms, hne with
  | m :: ms, _ =>
    have h : GzRun L FileObj.View m.2 (ms.map (·.2)) ({ stream := f, blockSize := bs, decompType := some .gzip, decompressor := some { kind := .gzip }, readAllMembers := true } : BufReader FileObj) := by
      refine ⟨f.rest, rfl, rfl, rfl, hb, rfl, [], m.1, m.2, [], m.2, ms, rfl, by simp, hz m (by simp), rfl, rfl, fun x hx => hz x (by simp [hx]), ?_, rfl, Or.inl rfl, rfl⟩
      simp [hf, List.flatMap_def]
    have hlen : (m.2 ++ (ms.map (·.2)).flatten).length < PyStream.bound ({ stream := f, blockSize := bs, decompType := some .gzip, decompressor := some { kind := .gzip }, readAllMembers := true } : BufReader FileObj) + 2 := by
      obtain ⟨srem, hs, h⟩ := h
      have h1 := (gzAll_weakFill L FileObj.shortRead).bound ⟨srem, hs, h.forget⟩
      have h2 : (m.2 ++ (ms.map (·.2)).flatten).length ≤ PyStream.bound ({ stream := f, blockSize := bs, decompType := some .gzip, decompressor := some { kind := .gzip }, readAllMembers := true } : BufReader FileObj) := h1
      omega
    obtain ⟨bufs, r', b1, b2⟩ := run_readBlocks L FileObj.shortRead hn _ h hN hlen
    exact ⟨_, bufs, r', by simp [BufReader.new, L.codec_eq], b1, by rw [b2, List.flatMap_cons, List.flatMap_def]⟩

variable [Deflater]

/-- C100: the second attempt of `recompress` on any gzip members is the first attempt on their data. -/
theorem C100_second (L : LawfulGzip IsMember) {f : FileObj} (hp : f.pos = 0) (hs : f.seekable = true) {ms : List (Bytes × Bytes)} (hne : ms ≠ []) (hz : ∀ x ∈ ms, IsMember x.1 x.2)
    (hf : f.rest = ms.flatMap (·.1)) (hN : NoRun 65536 (ms.map (·.2))) (c : BuilderCfg) (ids : Nat → Str) (again : List Nat) :
    decompressAndRecompress c ids f again = loadAndWrite c ids { content := ms.flatMap (·.2) } := by
  obtain ⟨r, bufs, r', r1, r2, r3⟩ := C100_blocks L (n := 65536) (by omega) hne hz hN (f := { f with caps := again }) (by rw [← hf]; rfl) (bs := 16384) (by omega)
  have e2 : ∃ r0, BufReader.new f 16384 (some .gzip) true = .ok r0 ∧ r = { r0 with stream := { f with caps := again } } := by
    simp only [BufReader.new, L.codec_eq] at r1 ⊢
    cases r1
    exact ⟨_, rfl, rfl⟩
  obtain ⟨r0, e2, e3⟩ := e2
  have hseek : f.seek 0 = .ok f := by
    unfold FileObj.seek
    rw [if_pos hs, ← hp]
  have r2' : readAllBlocks 65536 r = (bufs, .ok (), r') := r2
  unfold decompressAndRecompress
  rw [e2]
  dsimp only
  rw [hseek]
  dsimp only
  rw [← e3, r2']
  dsimp only
  rw [r3]

/-- C100: whenever `recompress` finds errors in a file of gzip members, whatever the members hold, it fixes the file as
a whole: the output holds the copies of the records in the data of all members, up to the first error. -/
theorem C100_fixed (L : LawfulGzip IsMember) (D : LawfulDeflater IsMember) {sha : Bytes → Bytes} (H : Hashlib.hash (lit "sha1") = some sha) {f : FileObj} (hp : f.pos = 0) (hs : f.seekable = true)
    {ms : List (Bytes × Bytes)} (hne : ms ≠ []) (hz : ∀ x ∈ ms, IsMember x.1 x.2) (hf : f.rest = ms.flatMap (·.1)) (hN : NoRun 65536 (ms.map (·.2)))
    (h2 : (ms.flatMap (·.2)).length ≠ 1) (hd : ¬ (([31, 139] : Bytes) <+: ms.flatMap (·.2))) (c : BuilderCfg) (ids : Nat → Str) (again : List Nat) :
    (∃ n, (recompress c ids f again).1 = .noErrors n) ∨
    ∃ x rs z, recompress c ids f again = (match (generalizing := false) x with | .ok _ => .fixed rs.length | .error _ => .failed, ({} : OutFile).extended z) ∧
      CopiedParts { noRecordParse := false, arc2warc := true, verifyHttp := false, ids := ids } sha c.filter 16384 0 (ms.flatMap (·.2)) x rs ∧
      (if c.gzip then ∃ zs, Each IsMember zs rs ∧ z = zs.flatten else z = rs.flatten) := by
  have e := C100_second L hp hs hne hz hf hN c ids again
  have hr' : ({ content := ms.flatMap (·.2) } : FileObj).rest = ms.flatMap (·.2) := by simp [FileObj.rest]
  obtain ⟨y, rs', z', c1, c2, c3⟩ := C91_copy L D H (f := { content := ms.flatMap (·.2) }) ⟨by omega, by simp, by rw [hr']; exact fun h => (by have := List.length_pos_iff.2 h; omega), by rw [hr']; exact hd⟩ (m := 16384) (.inr ⟨rfl, Nat.le_refl _⟩) c ids
  rw [hr'] at c2
  unfold recompress
  rw [e, c1]
  generalize loadAndWrite c ids f = w
  obtain ⟨w, out⟩ := w
  cases w with
  | ok n => exact .inl ⟨n, rfl⟩
  | error e =>
    refine .inr ⟨y, rs', z', ?_, c2, c3⟩
    cases y <;> rfl

/-- C100: proper records in gzip members, however they are put into them, several in a member or one in several: if `recompress` finds errors,
it fixes them and all records are in the output. -/
theorem C100_records {IsOut : Bytes → Bytes → Prop} (L : LawfulGzip IsMember) (D : LawfulDeflater IsOut) {sha : Bytes → Bytes} (H : Hashlib.hash (lit "sha1") = some sha) {f : FileObj} (hp : f.pos = 0) (hs : f.seekable = true)
    {ms : List (Bytes × Bytes)} (hne : ms ≠ []) (hz : ∀ x ∈ ms, IsMember x.1 x.2) (hf : f.rest = ms.flatMap (·.1)) (hN : NoRun 65536 (ms.map (·.2)))
    {m : Nat} (hm : m ≤ 16384) {xs : List (WarcRecord × Bytes)} (hw : ∀ x ∈ xs, x.1.Rewritable m x.2) (hx : ms.flatMap (·.2) = xs.flatMap (·.1.bytes))
    {c : BuilderCfg} (hc : c.filter = some) (ids : Nat → Str) (again : List Nat) :
    (∃ n, (recompress c ids f again).1 = .noErrors n) ∨
    ∃ out, Copied IsOut sha c.gzip xs out ∧ recompress c ids f again = (.fixed xs.length, ({} : OutFile).extended (out.flatMap (·.1))) := by
  have e := C100_second L hp hs hne hz hf hN c ids again
  have hr' : ({ content := ms.flatMap (·.2) } : FileObj).rest = ms.flatMap (·.2) := by simp [FileObj.rest]
  obtain ⟨out, o1, o2⟩ := C44_rewrite_partial L D H hc hw (g := { content := ms.flatMap (·.2) }) (by rw [hr', hx]) ⟨by omega, by simp, .inr ⟨rfl, hm⟩⟩ ids
  unfold recompress
  rw [e, o2]
  generalize loadAndWrite c ids f = w
  obtain ⟨w, o⟩ := w
  cases w with
  | ok n => exact .inl ⟨n, rfl⟩
  | error e => exact .inr ⟨out, o1, rfl⟩

end
open Toy

/-- The third of five records starts in the second member and goes on in the third one. -/
def exScattered : List Bytes := [exNumbered "1", exNumbered "2" ++ (exNumbered "3").take 10, (exNumbered "3").drop 10 ++ exNumbered "4", exNumbered "5"]

/-- The hypotheses of `C100_second` and `C100_fixed`. -/
example : (∀ x ∈ exScattered.map (fun d => (compress d, d)), IsMember x.1 x.2) ∧ NoRun 65536 ((exScattered.map (fun d => (compress d, d))).map (·.2)) ∧
    ((exScattered.map (fun d => (compress d, d))).flatMap (·.2)).length ≠ 1 ∧ ¬ (([31, 139] : Bytes) <+: (exScattered.map (fun d => (compress d, d))).flatMap (·.2)) := by
  refine ⟨fun x hx => ?_, by decide +kernel, by decide +kernel, by decide +kernel⟩
  obtain ⟨d, _, rfl⟩ := List.mem_map.1 hx
  rfl

/-- All five records are found. -/
example : (recompress { gzip := true } (fun _ => []) { content := exScattered.flatMap compress } []).1 = .fixed 5 := by
  decide +kernel

/-- The hypotheses of `C100_records`: both records in one member, the second one going on in another. -/
example : (∀ x ∈ exRecords, x.1.Rewritable 17 x.2) ∧ NoRun 65536 [(exRecords.flatMap (·.1.bytes)).take 250, (exRecords.flatMap (·.1.bytes)).drop 250] ∧
    [(exRecords.flatMap (·.1.bytes)).take 250, (exRecords.flatMap (·.1.bytes)).drop 250].flatten = exRecords.flatMap (·.1.bytes) :=
  ⟨exRecords_rewritable, by decide +kernel, by simp⟩

/-- C100 needs `NoRun`: the data of two members read in blocks of two bytes, the trailer of the first member being in another block than its data.  The second one is not reached. -/
theorem C100_run : ∃ r, BufReader.new ({ content := compress [1, 2] ++ compress [3] } : FileObj) 6 (some .gzip) true = .ok r ∧ (readAllBlocks 2 r).1.flatten = [1, 2] := by
  refine ⟨{ stream := { content := compress [1, 2] ++ compress [3] }, blockSize := 6, decompType := some .gzip, decompressor := some { kind := .gzip }, readAllMembers := true }, rfl, ?_⟩
  decide +kernel

/-- In blocks of another size all is read. -/
example : ((readAllBlocks 3 ({ stream := { content := compress [1, 2] ++ compress [3] }, blockSize := 6, decompType := some .gzip, decompressor := some { kind := .gzip }, readAllMembers := true } : BufReader FileObj)).1.flatten = [1, 2, 3]) ∧
    NoRun 3 [[1, 2], [3]] ∧ ¬ NoRun 2 [[1, 2], [3]] := by
  decide +kernel

end Warcio.Props

import Verif.Proofs.GzCopy
import Verif.Props.GzTools
import Verif.Props.PartsTools
import Verif.Props.CopyParts

/-!
# Property C98: extract and recompress for any file of gzip members

Specification: `GzCopied`, `Murky` in `Verif/Spec/GzCopy.lean`.
-/

set_option linter.unusedSectionVars false

namespace Warcio.Props

open Warcio ArchiveIter BufReader Recompressor

section
variable [Zlib] [Hashlib] [PyUni] {IsMember : Bytes → Bytes → Prop}

/-- C98: `warcio extract` at the start of any member in any file, if there are only members from there on: it fails with the exception of the
loader, or prints the headers and the end of the block of the first record in the member.  Nothing is said of a member that holds no record but is
no error, and is not the last one. -/
theorem C98_extract (L : LawfulGzip IsMember) {f : FileObj} (hs : f.seekable = true) {off : Nat} {m : Nat} {z data : Bytes} {ms : List (Bytes × Bytes)} (hz : ∀ x ∈ (z, data) :: ms, IsMember x.1 x.2)
    (hf : f.content.drop off = ((z, data) :: ms).flatMap (·.1)) (hr : ReadsGz { f with pos := off } 16384 m (((z, data) :: ms).map (·.1))) (payloadOnly headersOnly : Bool) :
    (∃ e, (e ≠ .stopIteration ∨ ms = []) ∧ Over (({} : IterOpts).load none (({} : IterOpts).ids 0)) m data e ∧ Extractor.extract f off payloadOnly headersOnly = (.error e, [])) ∨
    (∃ (p : Portion) (rec : Record Unit) (left : Bytes), data = p.all ∧ p.Shows (({} : IterOpts).load none (({} : IterOpts).ids 0)) rec ∧
      p.Parsed (({} : IterOpts).load none (({} : IterOpts).ids 0)) m rec left ∧ left <:+ p.block ∧ (¬ HttpType rec.recType → left = p.block) ∧
      (payloadOnly = false ∨ ¬ HttpType rec.recType → Extractor.extract f off payloadOnly headersOnly = (.ok (), printed rec left payloadOnly headersOnly))) ∨
    (ms ≠ [] ∧ Over (({} : IterOpts).load none (({} : IterOpts).ids 0)) m data .stopIteration) := by
  obtain ⟨V, Q, it, hV, hX, k1, k2, k3⟩ := open_gz_any L (f := { f with pos := off }) hr.block (hr.lines.imp id (fun h => ⟨h.1, fun x hx => h.2 _ (List.mem_map.2 ⟨x, hx, rfl⟩)⟩)) hz hf {} none
  have hseek : f.seek off = .ok { f with pos := off } := by unfold FileObj.seek; rw [if_pos hs]
  have hneg : ¬ (off : Int) < 0 := by omega
  · unfold Extractor.extract
    rw [if_neg hneg, Int.toNat_natCast, hseek]
    dsimp only
    rw [k1]
    dsimp only
    rw [next_start k2]
    rcases k3.load hV hX _ with ⟨p, rec, left, it1, m1, m2, m3, m4, m4', m5, m6, m7, -⟩ | ⟨e, it1, m1, m2, m3', m3⟩ | ⟨m1, m2⟩
    · refine .inr (.inl ?_)
      refine ⟨p, rec, left, m3, m4, m4', m5, fun h => m6 (.inr h), fun hp => ?_⟩
      rw [m1]
      dsimp only
      have hcur : it1.current = some { format := rec.format, recType := rec.recType, recHeaders := rec.recHeaders, rawStream := it1.raw, httpHeaders := rec.httpHeaders, contentType := rec.contentType, length := rec.length, payloadLength := rec.payloadLength, checker := rec.checker } := by
        unfold ArchiveIter.current
        rw [m2]
        rfl
      rw [hcur]
      dsimp only
      obtain ⟨bufs, raw', r1, r2, -⟩ := readAll_gz hV rfl (m := Extractor.readSize) (by decide) m7
      unfold Extractor.output printed
      have hhead : (match rec.httpHeaders with | some h => if h.truthy then h.toBytes else [] | none => []) = (rec.httpShown.map StatusAndHeaders.toBytes).getD [] := by
        cases hr : rec.httpHeaders with
        | none => simp [Record.httpShown, hr]
        | some hd =>
          rw [httpShown_some hr]
          cases ht : hd.truthy <;> simp [ht]
      cases payloadOnly with
      | false =>
        simp only [Bool.false_eq_true, if_false, Bool.not_false, Bool.and_true]
        cases headersOnly with
        | true =>
          simp only [if_true, List.append_nil]
          exact congrArg (fun z => (Except.ok (), rec.recHeaders.toBytes ++ z)) hhead
        | false =>
          simp only [Bool.false_eq_true, if_false]
          rw [r1]
          simp only [r2]
          exact congrArg (fun z => (Except.ok (), rec.recHeaders.toBytes ++ z ++ left)) hhead
      | true =>
        have hp : ¬ HttpType rec.recType := hp.resolve_left (fun h => by cases h)
        have hno : rec.httpHeaders = none := (m4.bare (.inr hp)).2
        simp only [if_true, Bool.not_true, Bool.and_false, Bool.false_eq_true, if_false, List.nil_append]
        have hcs : (Record.contentStream { format := rec.format, recType := rec.recType, recHeaders := rec.recHeaders, rawStream := it1.raw, httpHeaders := rec.httpHeaders, contentType := rec.contentType, length := rec.length, payloadLength := rec.payloadLength, checker := rec.checker } : Except PyErr (ContentStream (RawStream (BufReader Source)))) = .ok (.raw it1.raw) := by
          unfold Record.contentStream
          rw [hno]
        rw [hcs]
        dsimp only
        have hraw := readAllBlocks_raw Extractor.readSize it1.raw
        rw [r1] at hraw
        rw [hraw]
        dsimp only
        rw [r2]
    · left
      refine ⟨e, m3', m3, ?_⟩
      rw [m1]
    · exact .inr (.inr ⟨m1, m2⟩)

/-- C98: where all members but the last one hold one record each, and nothing behind it, there is nothing that the copy leaves open. -/
theorem C98_clear {io : IterOpts} {m : Nat} : ∀ {n : Nat} {ms : List (Bytes × Bytes)}, (∀ x ∈ ms.dropLast, ∀ n, ¬ Over (io.load none (io.ids n)) m x.2 .stopIteration ∧
    ∀ (p : Portion) rec, x.2 = p.all → p.Shows (io.load none (io.ids n)) rec → resumed p.tail = []) → ¬ Murky io m n ms := by
  intro n ms h hk
  induction hk with
  | several n z p ms rec h1 h2 h3 =>
    obtain ⟨y, ms, rfl⟩ := List.exists_cons_of_ne_nil h3
    exact h2 ((h (z, p.all) (by simp) n).2 p rec rfl h1)
  | hollow n z data ms h1 h2 =>
    obtain ⟨y, ms, rfl⟩ := List.exists_cons_of_ne_nil h1
    exact (h (z, data) (by simp) n).1 h2
  | later n z p ms rec h1 h2 h3 ih =>
    refine ih (fun x hx => ?_)
    cases ms with
    | nil => cases h3
    | cons y ms => exact h x (by rw [List.dropLast_cons_cons]; exact List.mem_cons_of_mem _ hx)

end

section
variable [Zlib] [Hashlib] [PyUni] [Deflater] {IsMember : Bytes → Bytes → Prop}

/-- C98: the first attempt of `warcio recompress` on any file of gzip members, whatever they hold: for each member there is one member (without
`gzip`, just the record) in the output, which holds the same headers and the same block.  It ends behind the last member, with the exception of the loader, at HTTP headers that cannot
be encoded, or at the second record of the last member. -/
theorem C98_copy (L : LawfulGzip IsMember) (D : LawfulDeflater IsMember) {sha : Bytes → Bytes} (H : Hashlib.hash (lit "sha1") = some sha) {f : FileObj} {m : Nat} {ms : List (Bytes × Bytes)} (hne : ms ≠ []) (hz : ∀ x ∈ ms, IsMember x.1 x.2)
    (hf : f.rest = ms.flatMap (·.1)) (hr : ReadsGz f 16384 m (ms.map (·.1))) (c : BuilderCfg) (ids : Nat → Str)
    (hk : ¬ Murky { noRecordParse := false, arc2warc := true, verifyHttp := false, ids := ids } m 0 ms) :
    ∃ x rs z, loadAndWrite c ids f = (x.map (fun _ => rs.length), ({} : OutFile).extended z) ∧
      GzCopied { noRecordParse := false, arc2warc := true, verifyHttp := false, ids := ids } sha c.filter m 0 ms x rs ∧
      (if c.gzip then ∃ zs, Each IsMember zs rs ∧ z = zs.flatten else z = rs.flatten) := by
  have hlen := members_le L hz
  rw [← hf] at hlen
  cases ms with
  | nil => exact absurd rfl hne
  | cons x ms =>
    obtain ⟨z, data⟩ := x
    obtain ⟨V, Q, it, hV, hX, k1, k2, k3⟩ := open_gz_any L hr.block (hr.lines.imp id (fun h => ⟨h.1, fun x hx => h.2 _ (List.mem_map.2 ⟨x, hx, rfl⟩)⟩)) hz hf (Recompressor.opts ids) none
    obtain ⟨x, rs, y, m1, m2, m3⟩ := copyLoop_gz H D hV hX c rfl rfl (PyStream.bound it.reader + 2) (o := {}) 0 (next_start k2) k3 (by have := open_bound k1; simp only [List.length_cons] at hlen; omega) rfl hk
    refine ⟨x, rs, y, ?_, m2, m3⟩
    unfold loadAndWrite
    rw [k1]
    simp only [Nat.zero_add] at m1
    exact m1

/-- C98: "No Errors Found!" on any file of gzip members tells that the output holds the copies of the records up to the last member. -/
theorem C98_no_errors (L : LawfulGzip IsMember) (D : LawfulDeflater IsMember) {sha : Bytes → Bytes} (H : Hashlib.hash (lit "sha1") = some sha) {f : FileObj} {m : Nat} {ms : List (Bytes × Bytes)} (hne : ms ≠ []) (hz : ∀ x ∈ ms, IsMember x.1 x.2)
    (hf : f.rest = ms.flatMap (·.1)) (hr : ReadsGz f 16384 m (ms.map (·.1))) (c : BuilderCfg) (ids : Nat → Str) (again : List Nat)
    (hk : ¬ Murky { noRecordParse := false, arc2warc := true, verifyHttp := false, ids := ids } m 0 ms) {n : Nat} {out : OutFile} (h : recompress c ids f again = (.noErrors n, out)) :
    ∃ rs z, out = ({} : OutFile).extended z ∧ n = rs.length ∧ GzCopied { noRecordParse := false, arc2warc := true, verifyHttp := false, ids := ids } sha c.filter m 0 ms (.ok ()) rs ∧
      (if c.gzip then ∃ zs, Each IsMember zs rs ∧ z = zs.flatten else z = rs.flatten) := by
  obtain ⟨x, rs, z, a1, a2, a3⟩ := C98_copy L D H hne hz hf hr c ids hk
  unfold recompress at h
  rw [a1] at h
  cases x with
  | ok u => cases h; exact ⟨rs, z, rfl, rfl, a2, a3⟩
  | error e =>
    dsimp only [Except.map] at h
    split at h <;> cases h

/-- C98: `warcio recompress` on any file that is one gzip member, whatever it holds: if there is more than one record in it, or junk behind the record, the copies are those of
the records into which all of what it holds is cut, as for a file that is not compressed. -/
theorem C98_one (L : LawfulGzip IsMember) (D : LawfulDeflater IsMember) {sha : Bytes → Bytes} (H : Hashlib.hash (lit "sha1") = some sha) {f : FileObj} {m : Nat} (hm : m ≤ 16384) (hp : f.pos = 0) (hs : f.seekable = true) {data : Bytes} (hz : IsMember f.rest data)
    (hr : ReadsGz f 16384 m [f.rest]) (h2 : data.length ≠ 1) (hd : ¬ (([31, 139] : Bytes) <+: data)) (c : BuilderCfg) (ids : Nat → Str) (again : List Nat) :
    ∃ rep x rs z, recompress c ids f again = (rep, ({} : OutFile).extended z) ∧ (if c.gzip then ∃ zs, Each IsMember zs rs ∧ z = zs.flatten else z = rs.flatten) ∧
      (rep = .noErrors rs.length ∧ GzCopied { noRecordParse := false, arc2warc := true, verifyHttp := false, ids := ids } sha c.filter m 0 [(f.rest, data)] (.ok ()) rs ∨
       (∃ e rs', GzCopied { noRecordParse := false, arc2warc := true, verifyHttp := false, ids := ids } sha c.filter m 0 [(f.rest, data)] (.error e) rs') ∧
       CopiedParts { noRecordParse := false, arc2warc := true, verifyHttp := false, ids := ids } sha c.filter m 0 data x rs ∧
       (rep = .fixed rs.length ∧ x = .ok () ∨ rep = .failed ∧ ∃ e, x = .error e)) := by
  have hk : ¬ Murky { noRecordParse := false, arc2warc := true, verifyHttp := false, ids := ids } m 0 [(f.rest, data)] := by
    generalize hx : [(f.rest, data)] = xs
    intro h
    cases h with
    | several => cases hx; contradiction
    | hollow => cases hx; contradiction
    | later _ _ _ _ _ _ _ h => cases hx; cases h
  obtain ⟨x, rs, z, a1, a2, a3⟩ := C98_copy L D H (f := f) (ms := [(f.rest, data)]) (by simp) (by simpa using hz) (by simp) hr c ids hk
  cases x with
  | ok u =>
    refine ⟨.noErrors rs.length, .ok (), rs, z, ?_, a3, .inl ⟨rfl, a2⟩⟩
    unfold recompress
    rw [a1]
    rfl
  | error e =>
    obtain ⟨r, r1, r2⟩ := allNew L (f.rest, data) [] (fun z hz' => by rw [List.mem_singleton.1 hz']; exact hz)
      { f with caps := again } (by simp [FileObj.rest]) 16384 (by omega)
    have e2 : ∃ r0, BufReader.new f 16384 (some .gzip) true = .ok r0 ∧ r = { r0 with stream := { f with caps := again } } := by
      simp only [BufReader.new, L.codec_eq] at r1 ⊢
      cases r1
      exact ⟨_, rfl, rfl⟩
    obtain ⟨r0, e2, e3⟩ := e2
    have hseek : f.seek 0 = .ok f := by
      unfold FileObj.seek
      rw [if_pos hs, ← hp]
    obtain ⟨bufs, r', b1, b2⟩ := readBlocks_exact (BufReader.gzAll_weakFill L FileObj.shortRead) (n := 65536) (by omega) (r.bound + 2) r2
      (by have := (BufReader.gzAll_weakFill L FileObj.shortRead).bound r2; omega)
    have b2 : bufs.flatten = data := by simpa using b2
    have hr' : ({ content := data } : FileObj).rest = data := by simp [FileObj.rest]
    obtain ⟨y, rs', z', c1, c2, c3⟩ := C91_copy L D H (f := { content := data }) ⟨by omega, by simp, by rw [hr']; exact fun h => (by have := List.length_pos_iff.2 h; omega), by rw [hr']; exact hd⟩ (m := m) (.inr ⟨rfl, hm⟩) c ids
    rw [hr'] at c2
    have b1' : readAllBlocks 65536 r = (bufs, .ok (), r') := b1
    have e4 : decompressAndRecompress c ids f again = loadAndWrite c ids { content := data } := by
      unfold decompressAndRecompress
      rw [e2]
      dsimp only
      rw [hseek]
      dsimp only
      rw [← e3, b1']
      dsimp only
      rw [b2]
    have e5 : recompress c ids f again = (match y.map (fun _ => rs'.length) with | .ok n => .fixed n | .error _ => .failed, ({} : OutFile).extended z') := by
      unfold recompress
      rw [a1]
      dsimp only [Except.map]
      rw [e4, c1]
      cases y <;> rfl
    refine ⟨_, y, rs', z', e5, c3, .inr ⟨⟨e, rs, a2⟩, c2, ?_⟩⟩
    cases y with
    | ok u => exact .inl ⟨rfl, rfl⟩
    | error e' => exact .inr ⟨rfl, e', rfl⟩

end
open Toy

/-- Two members with a record each, and one with two. -/
def exGroups : List Bytes := [exInfo.bytes, exInfo.bytes, exInfo.bytes ++ exLong.bytes]

def exGrouped : FileObj := { content := exGroups.flatMap compress }

theorem exInfo_copied : (Loader.detectType ((Recompressor.opts (fun _ => [])).load none []) exInfo.bytes none).2 = exInfo.block ++ exInfo.sep ∧
    (match (Loader.detectType ((Recompressor.opts (fun _ => [])).load none []) exInfo.bytes none).1 with | .ok (f, h) => Loader.blockLength (Loader.fields f h).length (Loader.fields f h).subLen | .error _ => none) = some 18 := by
  decide +kernel

/-- The hypotheses of `C98_copy` and `C98_no_errors`, and of `C98_clear`. -/
example : (∀ x ∈ exGroups.map (fun d => (compress d, d)), IsMember x.1 x.2) ∧ exGrouped.rest = (exGroups.map (fun d => (compress d, d))).flatMap (·.1) ∧
    ReadsGz exGrouped 16384 100 ((exGroups.map (fun d => (compress d, d))).map (·.1)) ∧
    ¬ Murky { noRecordParse := false, arc2warc := true, verifyHttp := false, ids := fun _ => [] } 100 0 (exGroups.map (fun d => (compress d, d))) := by
  refine ⟨?_, rfl, .fit (by decide) rfl (by decide +kernel), C98_clear ?_⟩
  · intro x hx
    obtain ⟨d, _, rfl⟩ := List.mem_map.1 hx
    rfl
  obtain ⟨d1, d2⟩ := exInfo_copied
  intro x hx n
  have hx : x.2 = exInfo.bytes := by
    simp only [exGroups, List.map_cons, List.map_nil, List.dropLast_cons_cons, List.dropLast_singleton, List.mem_cons, List.not_mem_nil, or_false] at hx
    rcases hx with rfl | rfl <;> rfl
  rw [hx]
  change ¬ Over ((Recompressor.opts (fun _ => [])).load none []) 100 exInfo.bytes _ ∧ ∀ (p : Portion) rec, exInfo.bytes = p.all → p.Shows ((Recompressor.opts (fun _ => [])).load none []) rec → _
  constructor
  · intro h
    cases h with
    | empty h => revert h; decide +kernel
    | head _ left _ h h' => exact h' rfl
    | bare f h _ h1 h2 =>
      rw [h1] at d1
      have d1 : [] = exInfo.block ++ exInfo.sep := d1
      revert d1
      decide +kernel
    | digest _ f h left _ _ h => exact h rfl
  · intro p rec hp h
    obtain ⟨⟨f, hd, q1, -, -, -, -, q2⟩, -, -, -, q3⟩ := h
    rw [← hp] at q1
    rw [q1] at d1 d2
    dsimp only at d1 d2
    rw [d2] at q2
    rw [d1, q2] at q3
    have q3 : p.block = exInfo.block := q3
    rw [q3] at d1
    rw [List.append_cancel_left d1]
    decide +kernel

/-- The first attempt stops at the second record of the last member, behind three copies; the second attempt has all four. -/
example : (loadAndWrite { gzip := true } (fun _ => []) exGrouped).1 = .error .nonChunkedGzip ∧ (recompress { gzip := true } (fun _ => []) exGrouped []).1 = .fixed 4 ∧
    (recompress { gzip := true } (fun _ => []) { content := compress exInfo.bytes ++ compress exLong.bytes } []).1 = .noErrors 2 := by
  decide +kernel

/-- The hypotheses of `C98_extract`: the second and the third member. -/
example : exGrouped.seekable = true ∧ exGrouped.content.drop (compress exInfo.bytes).length = ((exGroups.drop 1).map (fun d => (compress d, d))).flatMap (·.1) ∧
    ReadsGz { exGrouped with pos := (compress exInfo.bytes).length } 16384 100 (((exGroups.drop 1).map (fun d => (compress d, d))).map (·.1)) :=
  ⟨rfl, by decide +kernel, .fit (by decide) rfl (by decide +kernel)⟩

/-- What is printed for the third member is its first record. -/
example : Extractor.extract exGrouped (2 * (compress exInfo.bytes).length) false false = Extractor.extract { content := exInfo.bytes } 0 false false ∧
    Extractor.extract exGrouped (2 * (compress exInfo.bytes).length) true false = (.ok (), exInfo.block) := by
  decide +kernel

/-- The hypotheses of `C98_one`: one member with two records and junk behind them. -/
example : IsMember ({ content := compress (exInfo.bytes ++ exLong.bytes ++ [7, 7]) } : FileObj).rest (exInfo.bytes ++ exLong.bytes ++ [7, 7]) ∧
    ReadsGz { content := compress (exInfo.bytes ++ exLong.bytes ++ [7, 7]) } 16384 100 [({ content := compress (exInfo.bytes ++ exLong.bytes ++ [7, 7]) } : FileObj).rest] ∧
    (exInfo.bytes ++ exLong.bytes ++ [7, 7]).length ≠ 1 ∧ ¬ (([31, 139] : Bytes) <+: exInfo.bytes ++ exLong.bytes ++ [7, 7]) :=
  ⟨rfl, .fit (by decide) rfl (by decide +kernel), by decide +kernel, by decide +kernel⟩

end Warcio.Props

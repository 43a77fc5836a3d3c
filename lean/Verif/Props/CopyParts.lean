import Verif.Proofs.PlainAll
import Verif.Props.Parts
import Verif.Props.Recompress

/-!
# Property C91: recompressing any uncompressed file

Specification: `CopiedParts`, `CopiedRecord` in `Verif/Spec/CopyParts.lean`.
-/

set_option linter.unusedSectionVars false

namespace Warcio.Props

open Warcio ArchiveIter BufReader Recompressor

section
variable [Zlib] [Hashlib] [PyUni] [Deflater] {IsMember : Bytes → Bytes → Prop}

/-- C91: the first attempt of `warcio recompress` on any uncompressed file, whatever it holds: for each
record into which the file is cut, in order, there is one gzip member (without `gzip`, just the record) in
the output, which holds the same headers and the same block.  It ends at the end of the file, with the
exception of the loader, or at HTTP headers that cannot be encoded. -/
theorem C91_copy (L : LawfulGzip IsMember) (D : LawfulDeflater IsMember) {sha : Bytes → Bytes} (H : Hashlib.hash (lit "sha1") = some sha) {f : FileObj} (h : Uncompressed f 16384) {m : Nat} (hl : Lined f 16384 m) (c : BuilderCfg) (ids : Nat → Str) :
    ∃ x rs z, loadAndWrite c ids f = (x.map (fun _ => rs.length), ({} : OutFile).extended z) ∧
      CopiedParts { noRecordParse := false, arc2warc := true, verifyHttp := false, ids := ids } sha c.filter m 0 f.rest x rs ∧
      (if c.gzip then ∃ zs, Each IsMember zs rs ∧ z = zs.flatten else z = rs.flatten) := by
  obtain ⟨V, it, hV, hX, k1, k2, k3⟩ := open_any L hl h.block h.first h.two h.magic (Recompressor.opts ids) none
  obtain ⟨x, rs, z, m1, m2, m3⟩ := copyLoop_parts H D L hV hX c rfl rfl (PyStream.bound it.reader + 2) (o := {}) 0 (next_start k2) k3 (by have := open_bound k1; omega) rfl
  refine ⟨x, rs, z, ?_, m2, m3⟩
  unfold loadAndWrite
  rw [k1]
  simp only [Nat.zero_add] at m1
  exact m1

/-- C91: `warcio recompress` on any uncompressed file, whatever it holds: what is left in the output file are
the copies of the records, and "No Errors Found!" or "Errors Found and Fixed" tell that these are the records up
to the end of the file.  With full reads nothing is ever fixed: the second attempt ends as the first. -/
theorem C91_recompress (L : LawfulGzip IsMember) (D : LawfulDeflater IsMember) {sha : Bytes → Bytes} (H : Hashlib.hash (lit "sha1") = some sha) {f : FileObj} (hs : f.seekable = true) (hp : f.pos = 0) {again : List Nat} (h : Uncompressed f 16384) (h' : ∀ k, again.head? = some k → 2 ≤ k)
    {m : Nat} (hm : m ≤ 16384) (hl : Lined f 16384 m) (c : BuilderCfg) (ids : Nat → Str) :
    ∃ rep x rs z, recompress c ids f again = (rep, ({} : OutFile).extended z) ∧
      CopiedParts { noRecordParse := false, arc2warc := true, verifyHttp := false, ids := ids } sha c.filter m 0 f.content x rs ∧
      (if c.gzip then ∃ zs, Each IsMember zs rs ∧ z = zs.flatten else z = rs.flatten) ∧
      ((rep = .noErrors rs.length ∨ rep = .fixed rs.length) ∧ x = .ok () ∨ rep = .failed ∧ ∃ e, x = .error e) ∧
      (f.caps = [] → ∀ n, rep ≠ .fixed n) := by
  have hr : f.rest = f.content := by simp [FileObj.rest, hp]
  obtain ⟨x, rs, z, a1, a2, a3⟩ := C91_copy L D H h hl c ids
  rw [hr] at a2
  unfold recompress
  rw [a1]
  cases x with
  | ok u => exact ⟨_, _, rs, z, rfl, a2, a3, .inl ⟨.inl rfl, rfl⟩, fun _ n h => by cases h⟩
  | error e =>
    have e1 := Recompressor.decompress_plain L c ids hs h' (by rw [← hr]; exact h.two) (by rw [← hr]; exact h.magic)
    have hr' : ({ content := f.content } : FileObj).rest = f.content := by simp [FileObj.rest]
    obtain ⟨y, rs', z', b1, b2, b3⟩ := C91_copy L D H (f := { content := f.content }) ⟨h.block, by simp, by rw [hr', ← hr]; exact h.two, by rw [hr', ← hr]; exact h.magic⟩ (m := m) (.inr ⟨rfl, hm⟩) c ids
    rw [hr'] at b2
    have same : f.caps = [] → y.map (fun _ => rs'.length) = .error e := by
      intro hc
      have : f = { content := f.content } := by
        obtain ⟨a, b, d, s⟩ := f
        simp_all
      rw [← this, a1] at b1
      exact (Prod.mk.inj b1).1.symm
    rw [e1, b1]
    cases y with
    | ok u => exact ⟨_, _, rs', z', rfl, b2, b3, .inl ⟨.inr rfl, rfl⟩, fun hc => absurd (same hc) (fun h => by cases h)⟩
    | error e' => exact ⟨_, _, rs', z', rfl, b2, b3, .inr ⟨rfl, _, rfl⟩, fun _ n h => by cases h⟩

/-- C91, the block of a record that holds no HTTP message: all of what there is, and the length is the one
that was declared, also if there is less. -/
theorem C91_block {ids : Nat → Str} {sha : Bytes → Bytes} {flt : Str × Str → Option (Str × Str)} {m k : Nat} {p : Portion} {rec : Record Unit} {left hb : Bytes} {hs : List (Str × Str)} {b : Bytes}
    (h1 : p.Shows (({ noRecordParse := false, arc2warc := true, verifyHttp := false, ids := ids } : IterOpts).load none (ids k)) rec) (h2 : ¬ HttpType rec.recType → left = p.block) (h3 : CopiedRecord sha flt rec left hb hs b) (h : ¬ HttpType rec.recType) (hr : rec.recType ≠ some (lit "revisit")) :
    hb = [] ∧ blockOf (OutRecord.ofRead rec) hb left = p.block ∧ ∀ n, rec.length = some n → lastValue (lit "Content-Length") hs = some (intToStr n) := by
  have hno : rec.httpHeaders = none := (h1.bare (.inr h)).2
  have e : hb = [] := by
    cases h3.http with
    | none _ => rfl
    | empty => rfl
    | some x _ hx => have hx : rec.httpHeaders = some x := hx; rw [hno] at hx; cases hx
  refine ⟨e, ?_, fun n hn => h3.declared n hn e⟩
  have hr : (OutRecord.ofRead rec).recType ≠ some (lit "revisit") := hr
  rw [e, h2 h]
  unfold Warcio.blockOf
  rw [if_neg hr]
  rfl

end

open Toy in
/-- Three records and junk behind them: their copies, and the exception of the loader. -/
example : loadAndWrite { gzip := false } (fun _ => []) exParts = (.error .unknownFormat, ({} : OutFile).extended (utf8Encode (lit
    "WARC/1.0\r\nWARC-Type: response\r\nWARC-Target-URI: http://x/\r\nContent-Length: 27\r\nWARC-Payload-Digest: sha1:ALY7D4PR6HY7D4PR6HY7D4PR6HY7D4PR\r\nWARC-Block-Digest: sha1:DOPJ5HU6T2PJ5HU6T2PJ5HU6T2PJ5HU6\r\n\r\nHTTP/1.1 200 OK\r\nA: b\r\n\r\nxy\r\n\r\nWARC/1.1\r\nWARC-Type: metadata\r\nContent-Length: 18\r\nWARC-Payload-Digest: sha1:CJPF4XS6LZPF4XS6LZPF4XS6LZPF4XS6\r\nWARC-Block-Digest: sha1:CJPF4XS6LZPF4XS6LZPF4XS6LZPF4XS6\r\n\r\n\r\n\r\nWARC/1.0\r\n\r\n\r\n\r\n\r\nWARC/1.0\r\nWARC-Type: response\r\nWARC-Target-URI: http://x/\r\nContent-Length: 27\r\nWARC-Payload-Digest: sha1:ALY7D4PR6HY7D4PR6HY7D4PR6HY7D4PR\r\nWARC-Block-Digest: sha1:DOPJ5HU6T2PJ5HU6T2PJ5HU6T2PJ5HU6\r\n\r\nHTTP/1.1 200 OK\r\nA: b\r\n\r\nxy\r\n\r\n"))) := by
  decide +kernel

open Toy in
/-- The file meets the hypotheses. -/
example : Uncompressed exParts 16384 ∧ Lined exParts 16384 17 ∧ exParts.seekable = true ∧ exParts.pos = 0 ∧ (∀ k, ([2, 1] : List Nat).head? = some k → 2 ≤ k) ∧ Hashlib.hash (lit "sha1") = some sha1 ∧ LawfulDeflater IsMember :=
  ⟨⟨by decide, by simp [exParts], fun _ => by decide +kernel, by decide +kernel⟩, .inr ⟨rfl, by decide⟩, rfl, rfl, by simp, sha1_eq, lawfulDeflater⟩

/-- A record that is cut off. -/
def exHello : Bytes := utf8Encode (lit "WARC/1.0\r\nWARC-Type: resource\r\nContent-Length: 10\r\n\r\nhello")

open Toy in
/-- The copy of a record that is cut off declares the length of the whole one: "No Errors Found!", but the
block that is read from the copy is another one than that of the original, with the blank lines behind it in it. -/
theorem C91_cut : (recompress { gzip := true } (fun _ => []) { content := exHello } []).1 = .noErrors 1 ∧
    Extractor.extract { content := exHello } 0 true false = (.ok (), utf8Encode (lit "hello")) ∧
    Extractor.extract { content := (recompress { gzip := true } (fun _ => []) { content := exHello } []).2.content } 0 true false = (.ok (), utf8Encode (lit "hello\r\n\r\n")) := by
  decide +kernel

end Warcio.Props

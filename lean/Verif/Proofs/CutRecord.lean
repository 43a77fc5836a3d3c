import Verif.Proofs.IterCut
import Verif.Proofs.OpenArchive

/-! # Loading a record that is cut off in its block -/

set_option linter.unusedSectionVars false

namespace Warcio

open Loader BufReader ArchiveIter

namespace WarcRecord
variable [PyUni] [Hashlib]

/-- The record, cut off: `part` of its block, and `tail` behind it. -/
def cutItem (w : WarcRecord) (part tail : Bytes) : Item := ⟨w.head, part, tail⟩

/-- What the loader finds in the header block, whatever follows it. -/
theorem Whole.found {w : WarcRecord} (h : w.Whole) {io : IterOpts} (hq : Props.Quiet { checkDigests := io.checkDigests } w.headers) {kf : Option Format} (hk : kf ≠ some .arc) (id : Str) (rest : Bytes) :
    ∃ hd, (∃ ls, detectLines (io.load kf id) (decodeHeader (takeLine (w.head ++ rest))) (splitLines (dropLine (w.head ++ rest))) = (.ok (.warc, hd), ls) ∧ ls.flatten = rest) ∧
      blockLength (fields .warc hd).length (fields .warc hd).subLen = some (len w.block) ∧
      (HttpType (fields .warc hd).recType → (fields .warc hd).uri ≠ none) ∧
      (HttpRecord (fields .warc hd).recType (fields .warc hd).uri ↔ w.Http) ∧
      ChecksFine (io.load kf id) (fields .warc hd) ∧
      VersionLine w.head hd.protocol hd.statusline ∧ hd.headers = w.headers ∧ ∀ n, w.value n = hd.getHeader n := by
  have hh := h.head rest
  obtain ⟨hd, d1, d2, d3⟩ := detect_warc (o := io.load kf id) hk hh.version
  have hhd : hd.headers = w.headers := by rw [d2, ← hh.headers]
  obtain ⟨f1, f2, f3, f4, f5, f6, f7⟩ := fields_warc hd
  have hval : ∀ n, w.value n = hd.getHeader n := by
    intro n
    unfold value
    rw [← hhd]
    exact firstValue_eq _ _
  refine ⟨hd, ⟨_, d1, hh.rest.symm⟩, ?_, ?_, ?_, ?_, ?_, hhd, hval⟩
  · obtain ⟨x, l1, l2⟩ := h.length
    rw [f4, f6, ← hval, l1]
    exact Props.declared_block l2
  · intro ht
    rw [f2, ← hval] at ht
    have := h.uri ht
    rw [hval] at this
    obtain ⟨u, hu⟩ := Option.ne_none_iff_exists'.1 this
    obtain ⟨v, _, q2⟩ := ensureTargetUri_uri hu
    rw [f3, q2]
    simp
  · rw [f2, f3]
    constructor
    · rintro ⟨g1, v, g2, g3⟩
      cases hu : hd.getHeader (lit "WARC-Target-URI") with
      | none => rw [ensureTargetUri_none hu] at g2; cases g2
      | some u =>
        obtain ⟨v', q1, q2⟩ := ensureTargetUri_uri hu
        rw [q2] at g2
        cases g2
        exact ⟨u, v, by rw [hval, hu], q1, by rw [hval]; exact g1, v, rfl, g3⟩
    · rintro ⟨u, v, g1, g2, g3⟩
      rw [hval] at g1
      obtain ⟨v', q1, q2⟩ := ensureTargetUri_uri g1
      rw [q2, clean_unique q1 g2, ← hval]
      exact g3
  · rw [← hhd] at hq
    exact Props.checksFine (o := io.load kf id) hq
  · unfold VersionLine at d3
    rw [takeLine_append_of_nl h.nl] at d3
    exact d3

theorem Whole.cut {w : WarcRecord} (h : w.Whole) {io : IterOpts} (hv : io.verifyHttp = false)
    (hq : Props.Quiet { checkDigests := io.checkDigests } w.headers) (m : Nat) {part tail : Bytes} (hp : part <+: w.block) (ht : White tail) (hc : part ≠ w.block → tail = [])
    (he : part = [] → w.block = [] ∨ io.noRecordParse = true ∨ ¬ w.Http ∨ w.value (lit "WARC-Type") = some (lit "revisit")) :
    CutOk io m (· ≠ some .arc) (w.cutItem part tail) (len w.block) (w.ShowsPart part io m) (w.JudgedPart part io) := by
  have hle : part.length ≤ w.block.length := hp.length_le
  have hpart : part.length = w.block.length → part = w.block := fun h => hp.eq_of_length h
  refine ⟨by simp only [len, cutItem]; omega, ?_, ht, ?_, ?_⟩
  · intro h0
    have h1 : w.head = [] := h0
    have := h.nl
    rw [h1] at this
    cases this
  · intro hlt
    refine hc ?_
    intro h0
    rw [h0] at hlt
    exact absurd hlt (Int.lt_irrefl _)
  intro kf n hk
  generalize io.ids n = id
  obtain ⟨hd, g1, g2, g3, hhttp, g5, g6, hhd, hval⟩ := h.found hq hk id (part ++ tail)
  obtain ⟨f1, f2, f3, f4, f5, f6, f7⟩ := fields_warc hd
  refine ⟨.warc, hd, g1, g2, .inr (.inr g3), ?_, g5, hv, ?_, ?_, ?_⟩
  · intro h0
    rcases he h0 with h1 | h1 | h1 | h1
    · left; rw [h1]; rfl
    · exact .inr (.inl h1)
    · exact .inr (.inr (.inl (fun h2 => h1 (hhttp.1 h2))))
    · exact .inr (.inr (.inr (by rw [f2, ← hval]; exact h1)))
  · intro _ hc; rw [f1] at hc; cases hc
  · intro rec left hs
    refine ⟨by rw [hs.loaded.format, f1], ?_, by rw [hs.loaded.recType, f2, hval], by rw [hs.loaded.contentType, f5, hval], hs.loaded.length, ?_, ?_, ?_,
      hs.payload, ?_, hs.loaded.checker⟩
    · rw [hs.loaded.recHeaders, f7, (ensureTargetUri_first hd).1, (ensureTargetUri_first hd).2]
      exact g6
    · rw [hs.loaded.recHeaders, f7, ← hhd]; exact cleaned_of hd
    · intro hc
      have hc' : io.noRecordParse = true ∨ ¬ HttpRecord (fields .warc hd).recType (fields .warc hd).uri ∨ (w.cutItem part tail).block = [] := by rwa [hhttp]
      obtain ⟨pre, p1, p2⟩ := hs.part
      obtain ⟨p3, p4⟩ := hs.http hc'
      refine ⟨?_, p3, ?_⟩
      · rw [p2 hc', List.nil_append] at p1; exact p1.symm
      · intro he
        have he' : (io.load kf id).ensureHttpHeaders = false := he
        rw [p4, he']; rfl
    · obtain ⟨pre, p1, _⟩ := hs.part
      exact ⟨pre, p1⟩
    · intro q1 q2 q3 q4
      exact hs.head q1 (hhttp.2 q2) q3 q4
  · intro left c hj hcut hl
    have hg : ∀ n, n ∈ [lit "WARC-Segment-Number", lit "WARC-Block-Digest", lit "WARC-Payload-Digest"] → (fields .warc hd).headers.getHeader n = w.value n := by
      intro n hn
      rw [f7, hval]
      refine ensureTargetUri_other hd ?_
      simp only [List.mem_cons, List.not_mem_nil, or_false] at hn
      rcases hn with rfl | rfl | rfl <;> exact lower_ne (by decide) (by decide) (by decide)
    rw [f2, hg _ (by simp), hg _ (by simp), hg _ (by simp), ← hval] at hj hcut
    constructor
    · intro h0
      have := hj (by rw [← h0]; rfl)
      unfold Judged
      rw [← h0]
      exact ⟨this, hl⟩
    · intro h0
      have := hcut (by
        have : part.length ≠ w.block.length := fun h => h0 (hpart h)
        simp only [len, cutItem]; omega)
      unfold CutVerdict at this
      rw [DigestReader.lookedAt_eq, ← unknownAlgo_iff, ← unknownAlgo_iff]
      refine ⟨?_, hl.2, ?_⟩
      · rw [this]; split <;> simp
      · rw [this, ← Bool.or_eq_true, ← Bool.and_eq_true]
        split <;> simp_all

end WarcRecord
end Warcio

import Verif.Proofs.IterStep
import Verif.Proofs.Exact

/-! # Iterating over an uncompressed archive -/

set_option linter.unusedSectionVars false

namespace Warcio

open Loader

section
variable {σ : Type} [Zlib] [PyStream σ] {V : σ → Bytes → Prop} {IsMember : Bytes → Bytes → Prop} {T : Int} {N bs : Nat}

namespace BufReader

/-- The underlying stream holds `rem` and its position counts from the end. -/
def Tells (V : σ → Bytes → Prop) (T : Int) (s : σ) (rem : Bytes) : Prop := V s rem ∧ PyStream.tell s + len rem = T

theorem Tells.shortRead (hV : ShortRead V) : ShortRead (Tells V T) := hV.withTell T

theorem Tells.short (hV : ShortRead V) : Short (Tells V T) := (hV.withTell T).short

theorem Tells.fullRead (hV : ShortRead V) (hF : FullRead V) : FullRead (Tells V T (σ := σ)) := by
  intro s rem hs n hn
  obtain ⟨s', k1, k2⟩ := hF hs.1 n hn
  obtain ⟨p, rem', s2, m1, m2, m3, m4, m5, m6⟩ := (Tells.shortRead (T := T) hV).read hs n hn
  rw [k1] at m4
  simp only [Prod.mk.injEq, Except.ok.injEq] at m4
  obtain ⟨rfl, rfl⟩ := m4
  have : rem' = rem.drop n := by
    have := m1.symm.trans (List.take_append_drop n rem).symm
    exact List.append_cancel_left this
  subst this
  exact ⟨s', k1, m5⟩

/-- A reader of uncompressed data: undecided before its first read (`N` bytes are then to come),
plain afterwards. -/
def PlainAt (V : σ → Bytes → Prop) (T : Int) (N bs : Nat) (r : BufReader σ) (rem : Bytes) : Prop :=
  (Fresh (Tells V T) (· = bs) r rem ∧ rem.length = N) ∨ Plain (Tells V T) (· = bs) r rem

theorem plainAt_fillLaw (L : LawfulGzip IsMember) (hV : ShortRead V) : FillLaw (PlainAt V T N bs (σ := σ)) where
  pre := by
    rintro r rem (⟨h, _⟩ | h)
    · exact (freshPlain_fillLaw L (Tells.short hV)).pre (.inl h)
    · exact (plain_fillLaw (Tells.short hV)).pre h
  fill := by
    rintro r rem (⟨h, hn⟩ | h)
    · obtain ⟨r', h1, h2, h3⟩ := fresh_fill L (Tells.short hV) h
      refine ⟨r', h1, ?_, h3⟩
      rcases h2 with h2 | h2
      · exact .inl ⟨h2, hn⟩
      · exact .inr h2
    · obtain ⟨r', h1, h2, h3⟩ := plain_fill (Tells.short hV) h
      exact ⟨r', h1, Or.inr h2, h3⟩
  empty := by
    rintro r rem (⟨h, hn⟩ | h)
    · rw [empty_one h.one]; exact Or.inl ⟨h, hn⟩
    · exact Or.inr ((plain_fillLaw (Tells.short hV)).empty h)
  take := by
    rintro r rem (⟨h, hn⟩ | h) k hk
    · rcases (freshPlain_fillLaw L (Tells.short hV)).take (.inl h) k hk with h' | h'
      · rw [h.buff] at hk; simp at hk; subst hk
        exact .inl ⟨h', by simpa using hn⟩
      · exact .inr h'
    · exact Or.inr ((plain_fillLaw (Tells.short hV)).take h k hk)
  bound := by
    rintro r rem (⟨h, _⟩ | h)
    · exact (freshPlain_fillLaw L (Tells.short hV)).bound (.inl h)
    · exact (plain_fillLaw (Tells.short hV)).bound h

theorem plainAt_exact (L : LawfulGzip IsMember) (hV : ShortRead V) : ExactRead (PlainAt V T N bs (σ := σ)) :=
  BufReader.exactRead (plainAt_fillLaw L hV)

/-- Lines that fit a block, if reads are full. -/
theorem plainAt_lineLaw (L : LawfulGzip IsMember) (hV : ShortRead V) (hF : FullRead V) : LineLaw (PlainAt V T N bs (σ := σ)) bs := by
  intro r rem h _ hl n
  have hF' : FullRead (Tells V T (σ := σ)) := Tells.fullRead hV hF
  have hT : TwoBuf r rem := by
    rcases h with ⟨h, _⟩ | h
    · exact freshPlain_twoBuf L (Tells.short hV) hF' (.inl h) (by rw [h.cond]; exact hl)
    · exact plain_twoBuf (Tells.short hV) hF' h (by rw [h.cond]; exact hl)
  exact readline_some_exact (plainAt_fillLaw L hV) h hT n

theorem PlainAt.position (L : LawfulGzip IsMember) {r : BufReader σ} {rem : Bytes} (h : PlainAt V T N bs r rem) :
    PyStream.tell r.stream - r.remLength = T - len rem := by
  rcases h with ⟨h, _⟩ | h
  · rw [remLength_noBuff (noBuff_iff.2 h.buff), unused_gz L h.decomp, L.unused_nil]
    have := h.view.2
    simp only [len, List.length_nil] at this ⊢
    omega
  · obtain ⟨srem, ⟨_, hs⟩, hrem⟩ := h.split
    have hu : r.unused = [] := by simp [BufReader.unused, h.decomp]
    have hl := congrArg List.length hrem
    simp only [List.length_append] at hl
    unfold remLength
    rw [hu]
    cases hb : r.buff with
    | none => rw [hb] at hl; simp [len] at hl hs ⊢; omega
    | some b => rw [hb] at hl; simp [len] at hl hs ⊢; omega

theorem PlainAt.plain {r : BufReader σ} {rem : Bytes} (h : PlainAt V T N bs r rem) (hn : rem.length < N) : r.decompressor = none := by
  rcases h with ⟨_, h⟩ | h
  · omega
  · exact h.decomp

end BufReader
end

namespace ArchiveIter
open BufReader

section
variable {σ : Type} [Zlib] [PyStream σ] [Hashlib] {V : σ → Bytes → Prop} {IsMember : Bytes → Bytes → Prop} {T : Int} {N bs : Nat}

/-- The next record's first line is no blank line. -/
def Starts (rest : Bytes) : Prop := rest = [] ∨ rstripBytes (takeLine rest) ≠ []

/-- Behind the blank lines there is the next record or nothing. -/
theorem blank_last {W : BufReader σ → Bytes → Prop} (hW : ExactRead W) {it : ArchiveIter σ} {rest : Bytes} (h : W it.reader rest)
    (hs : Starts rest) (fuel : Nat) (n : Int) :
    ∃ next r', blankLoop (fuel + 1) false n it = (.ok (next, n), it.setReader r') ∧ ReadyAt W r' next rest ∧ W r' (dropLine rest) ∧
      len (next.getD []) = len (takeLine rest) := by
  obtain ⟨r', k1, k2⟩ := hW.readline_none h
  rw [blankLoop, k1]
  simp only
  by_cases hr : rest = []
  · subst hr
    exact ⟨none, r', by simp [takeLine], .inl ⟨rfl, k2⟩, k2, rfl⟩
  · have h1 : (takeLine rest).isEmpty = false := by simpa using takeLine_ne_nil hr
    have h2 : (rstripBytes (takeLine rest)).isEmpty = false := by simpa using hs.resolve_left hr
    rw [h1, h2]
    exact ⟨some (takeLine rest), r', by simp, .inr ⟨rfl, hr, k2⟩, k2, rfl⟩

theorem _root_.Warcio.Gap.ne_nil {sep : Bytes} {ls : List Bytes} (h : Gap sep ls) : sep ≠ [] := by
  cases h with
  | blank _ h => exact h.1
  | stray line sep h _ => obtain ⟨⟨l, rfl, -⟩, -⟩ := h; simp

/-- The first line behind the block is not blank: a warning. -/
theorem stray_spec {W : BufReader σ → Bytes → Prop} (hW : ExactRead W) (hpos : ∀ {r rem}, W r rem → PyStream.tell r.stream - r.remLength = T - len rem)
    {it : ArchiveIter σ} {line data : Bytes} (h : W it.reader (line ++ data)) (hl : StrayLine line) (fuel : Nat) :
    ∃ r', W r' data ∧ blankLoop (fuel + 1) true 0 it =
      blankLoop fuel false (len line) { it.setReader r' with warnings := it.warnings ++ [(T - len data - len line, line)] } := by
  obtain ⟨⟨l, rfl, hn⟩, b, hb, hw⟩ := hl
  have ht : takeLine (l ++ [10] ++ data) = l ++ [10] := by
    rw [List.append_assoc, takeLine_append, if_neg hn]
    rfl
  have hd : dropLine (l ++ [10] ++ data) = data := by
    rw [← drop_takeLine_length, ht, List.drop_left]
  obtain ⟨r', k1, k2⟩ := hW.readline_none h
  rw [ht] at k1
  rw [hd] at k2
  refine ⟨r', k2, ?_⟩
  rw [blankLoop, k1]
  have h1 : (l ++ [(10 : UInt8)]).isEmpty = false := by simp
  have h2 : (rstripBytes (l ++ [10])).isEmpty = false := by
    rw [Bool.eq_false_iff]
    intro h0
    have := rstripBytes_nil.1 (List.isEmpty_iff.1 h0) b hb
    have key : ∀ n < 256, isByteSpace (UInt8.ofNat n) = true → UInt8.ofNat n ∈ ([9, 10, 11, 12, 13, 32] : Bytes) := by decide +kernel
    have := key b.toNat b.toNat_lt (by rwa [UInt8.ofNat_toNat])
    rw [UInt8.ofNat_toNat] at this
    exact hw this
  have h3 := hpos k2
  have h4 : (it.setReader r').position = T - len data := by
    unfold position
    rw [reader_setReader]
    exact h3
  simp only [h1, h2, h4, Bool.false_eq_true, if_false, if_true, Int.zero_add]
  rfl

/-- What is behind a block is skipped, with a warning if it is not blank. -/
theorem gap_spec {W : BufReader σ → Bytes → Prop} (hW : ExactRead W) (hpos : ∀ {r rem}, W r rem → PyStream.tell r.stream - r.remLength = T - len rem)
    {it : ArchiveIter σ} {sep rest : Bytes} {ls : List Bytes} (h : W it.reader (sep ++ rest)) (hg : Gap sep ls) (hs : Starts rest) :
    ∃ next r', it.consumeBlanklines = (.ok (next, len sep), { it.setReader r' with warnings := it.warnings ++ ls.map (fun l => (T - len rest - len sep, l)) }) ∧
      ReadyAt W r' next rest ∧ W r' (dropLine rest) ∧ len (next.getD []) = len (takeLine rest) := by
  have hb := hW.bound h
  cases hg with
  | blank _ hsep =>
    obtain ⟨fuel', r1, b1, b2, b3⟩ := blank_spec hW rest (PyStream.bound it.reader + 2) sep true 0 h (white_of_blankLines hsep) (.inr hsep.2.1) (by omega)
    obtain ⟨fuel', rfl⟩ : ∃ k, fuel' = k + 1 := ⟨fuel' - 1, by omega⟩
    obtain ⟨next, r2, e1, e2, e3, e4⟩ := blank_last hW (it := it.setReader r1) (rest := rest) (by rw [reader_setReader]; exact b2) hs fuel' (0 + len sep)
    refine ⟨next, r2, ?_, e2, e3, e4⟩
    unfold consumeBlanklines
    rw [b3]
    have : (true && decide (sep = [])) = false := by simp [hsep.1]
    rw [this, e1, setReader_setReader]
    simp only [Int.zero_add, List.map_nil, List.append_nil]
    rfl
  | stray line sep hl hsep =>
    rw [List.append_assoc] at h
    obtain ⟨r0, a1, a2⟩ := stray_spec hW hpos h hl (PyStream.bound it.reader + 1)
    have hw : White sep := by
      rcases hsep with rfl | hsep
      · intro b hb; cases hb
      · exact white_of_blankLines hsep
    have hpos0 : 0 < line.length := by
      obtain ⟨⟨l, rfl, -⟩, -⟩ := hl; simp
    obtain ⟨fuel', r1, b1, b2, b3⟩ := blank_spec hW rest (PyStream.bound it.reader + 1) sep false (len line)
      (it := { it.setReader r0 with warnings := it.warnings ++ [(T - len (sep ++ rest) - len line, line)] })
      (by show W (it.setReader r0).reader _; rw [reader_setReader]; exact a1) hw (hsep.imp id (·.2.1)) (by simp only [List.length_append] at hb ⊢; omega)
    obtain ⟨fuel', rfl⟩ : ∃ k, fuel' = k + 1 := ⟨fuel' - 1, by omega⟩
    obtain ⟨next, r2, e1, e2, e3, e4⟩ := blank_last hW (it := ({ it.setReader r0 with warnings := it.warnings ++ [(T - len (sep ++ rest) - len line, line)] } : ArchiveIter σ).setReader r1) (rest := rest)
      (by rw [reader_setReader]; exact b2) hs fuel' (len line + len sep)
    refine ⟨next, r2, ?_, e2, e3, e4⟩
    unfold consumeBlanklines
    rw [a2, b3, Bool.false_and, e1, setReader_setReader]
    have e5 : len line + len sep = len (line ++ sep) := by simp only [len, List.length_append]; omega
    have e6 : T - len (sep ++ rest) - len line = T - len rest - len (line ++ sep) := by simp only [len, List.length_append]; omega
    rw [e5, e6]
    simp only [setReader, reader, RawStream.setUnder_setUnder, List.map_cons, List.map_nil]

/-- `read_to_end` in an uncompressed archive. -/
theorem readToEnd_plain (L : LawfulGzip IsMember) (hV : ShortRead V) {it : ArchiveIter σ} {left sep rest : Bytes} {ls : List Bytes}
    (hr : it.record.isSome = true) (hm : it.memberInfo = none) (hv : it.raw.View (PlainAt V T N bs) left (sep ++ rest))
    (hsep : Gap sep ls) (hrest : Starts rest) (hN : (sep ++ rest).length < N) :
    ∃ raw' next, it.readToEnd = (.ok (), ({ it with raw := raw', nextLine := next, offset := T - len rest, memberInfo := some (it.offset, T - len rest - len sep - it.offset), warnings := it.warnings ++ ls.map (fun l => (T - len rest - len sep, l)) } : ArchiveIter σ)) ∧
      raw'.Spent ∧ ReadyAt (PlainAt V T N bs) raw'.under next rest ∧ raw'.under.decompressor = none ∧ raw'.checkerAt [] = it.raw.checkerAt left := by
  have hW := plainAt_exact (T := T) (N := N) (bs := bs) L hV
  have hne : sep ++ rest ≠ [] := by
    intro h; exact hsep.ne_nil (List.append_eq_nil_iff.1 h).1
  obtain ⟨raw1, d1, d2, d3⟩ := drain_spec hW (PyStream.bound it.raw + 2) hv (by have := hv.bound hW; omega)
  have hu := d2.under
  rw [List.nil_append] at hu
  obtain ⟨next, r2, hc, e2, e3, e4⟩ := gap_spec hW (PlainAt.position L) (it := { it with raw := raw1 }) hu hsep hrest
  have hlen : (takeLine rest).length + (dropLine rest).length = rest.length := by
    rw [← List.length_append, takeLine_append_dropLine]
  have hpl : r2.decompressor = none := e3.plain (by rw [List.length_append] at hN; omega)
  refine ⟨raw1.setUnder r2, next, ?_, RawStream.spent_setUnder (RawStream.spent_of_view d2 hne) _, ?_, ?_, (RawStream.checkerAt_setUnder _ _ _).trans d3⟩
  · unfold readToEnd
    have h1 : it.record.isNone = false := by cases h : it.record <;> simp_all
    rw [h1, hm, d1]
    simp only [Option.isSome_none, Bool.false_eq_true, if_false]
    rw [hc]
    simp only [position, reader, setReader, RawStream.under_setUnder, hpl, Option.isNone_none, if_true]
    have hp := e3.position L
    rw [hp, e4]
    have e5 : T - len (dropLine rest) - len (takeLine rest) = T - len rest := by simp only [len]; omega
    have e6 : T - len rest - it.offset - len sep = T - len rest - len sep - it.offset := by omega
    rw [e5, e6]
  · rw [RawStream.under_setUnder]; exact e2
  · rw [RawStream.under_setUnder]; exact hpl

theorem setReader_self (it : ArchiveIter σ) : it.setReader it.reader = it := by
  unfold ArchiveIter.setReader ArchiveIter.reader
  have : it.raw.setUnder it.raw.under = it.raw := by cases it.raw <;> rfl
  rw [this]

end

section
variable {σ : Type} [Zlib] [PyStream σ] [Hashlib] [PyUni]

/-- What a loaded record shows. -/
structure Shown (o : LoadOpts) (m : Nat) (fl : Fields) (block : Bytes) {τ : Type} (rec : Record τ) (left : Bytes) : Prop where
  loaded : Loaded o fl (some (len block)) rec
  part : ∃ pre, block = pre ++ left ∧ (o.noRecordParse = true ∨ ¬ HttpRecord fl.recType fl.uri ∨ block = [] → pre = [])
  payload : rec.payloadLength = some (-1) ∨ rec.payloadLength = some (len left)
  http : o.noRecordParse = true ∨ ¬ HttpRecord fl.recType fl.uri ∨ block = [] → rec.payloadLength = some (-1) ∧
    rec.httpHeaders = if o.ensureHttpHeaders then some (defaultHttpHeaders (some (len block)) fl.contentType) else none
  head : o.noRecordParse = false → HttpRecord fl.recType fl.uri → HeadWithin m block → lineText (takeLine block) ≠ [] →
    ∃ hd, HttpHead block hd left ∧ (hd.statusline ≠ [] ∨ hd.headers ≠ [] → rec.httpHeaders = some hd ∧ rec.payloadLength = some (len left))

/-- `i` can be loaded whenever the known format is in `K`, and then shows `S`; verdicts on it are as in `J`. -/
def ItemOk (io : IterOpts) (m : Nat) (K : Option Format → Prop) (i : Item) (S : Record Unit → Bytes → Prop) (J : Bytes → DigestChecker → Prop) : Prop :=
  ∀ kf n t, K kf → ∃ f h, Loads (io.load kf (io.ids n)) i t f h ∧ (io.arc2warc = false → K (some (fields f h).format)) ∧
    (∀ rec left, Shown (io.load kf (io.ids n)) m (fields f h) i.block rec left → S rec left) ∧
    ∀ left (c : DigestChecker), Judged io.checkDigests.isSome (fields f h).recType ((fields f h).headers.getHeader (lit "WARC-Segment-Number"))
        ((fields f h).headers.getHeader (lit "WARC-Block-Digest")) ((fields f h).headers.getHeader (lit "WARC-Payload-Digest")) i.block left c.passed → c.Loud → J left c

theorem nextRecord_item {W : BufReader σ → Bytes → Prop} (hW : ExactRead W) {m : Nat} (hX : LineLaw W m) {it : ArchiveIter σ} {io : IterOpts} {K : Option Format → Prop}
    {i : Item} {S : Record Unit → Bytes → Prop} {J : Bytes → DigestChecker → Prop} (hi : ItemOk io m K i S J) (hio : it.opts = io) (hk : K it.knownFormat) (hc : it.closed = false)
    {t : Bytes} (hs : ReadyAt W it.reader it.nextLine (i.head ++ (i.block ++ t))) :
    ∃ raw rec kf left, it.nextRecord = (.ok (), ({ it with raw := raw, record := some rec, memberInfo := none, knownFormat := kf, loads := it.loads + 1 } : ArchiveIter σ)) ∧
      K kf ∧ S rec left ∧ raw.View W left t ∧ (io.noRecordParse = true → left = i.block) ∧ (t ≠ [] → J left (raw.checkerAt left)) ∧ (io.arc2warc = false → kf = some rec.format) := by
  subst hio
  obtain ⟨f, h, h1, h2, h3, h4⟩ := hi it.knownFormat it.loads t hk
  obtain ⟨rec, pre, left, k1, k2, k3, k4, k5, k6, k7, k8⟩ := load_item hW hX h1 hs
  have e : it.loadOpts = it.opts.load it.knownFormat (it.opts.ids it.loads) := rfl
  refine ⟨rec.rawStream, { format := rec.format, recType := rec.recType, recHeaders := rec.recHeaders, rawStream := (), httpHeaders := rec.httpHeaders, contentType := rec.contentType, length := rec.length, payloadLength := rec.payloadLength, checker := rec.checker },
    if it.opts.arc2warc then it.knownFormat else some rec.format, left, ?_, ?_, h3 _ left ⟨⟨k2.format, k2.recType, k2.recHeaders, k2.contentType, k2.length, k2.checker⟩,
    ⟨pre, k3, fun h => (k6 h).1⟩, k5, fun h => ⟨(k6 h).2.1, (k6 h).2.2⟩, k7⟩, k4, ?_, fun ht => h4 left _ (k8 ht).1 (k8 ht).2, fun ha => by rw [ha]; rfl⟩
  · unfold nextRecord
    rw [hc, e, k1]
    rfl
  · show K (if it.opts.arc2warc then it.knownFormat else some rec.format)
    split
    · exact hk
    · rename_i ha; rw [k2.format]; exact h2 (by simpa using ha)
  · intro hn
    rw [k3, (k6 (.inl hn)).1]; rfl

variable {V : σ → Bytes → Prop} {IsMember : Bytes → Bytes → Prop} {T : Int} {N bs : Nat}

/-- The expected records of an uncompressed archive, from a position on; `ws` are the warnings
before. -/
def Layout (io : IterOpts) (m : Nat) (K : Option Format → Prop) : Int → List (Int × Bytes) → List Item → List Expected → Prop
  | _, _, [], [] => True
  | off, ws, i :: is, e :: es => ItemOk io m K i e.shows e.judged ∧ e.off = off ∧ e.size = len i.head + len i.block ∧ e.line = m ∧ (e.before = ws ∧ ∃ ls, Gap i.sep ls ∧ e.behind = ws ++ ls.map (fun l => (off + len i.head + len i.block, l))) ∧
    Layout io m K (off + len i.bytes) e.behind is es
  | _, _, _, _ => False

/-- All the bytes: the records, and behind them `tl`. -/
def bytesOf (tl : Bytes) (is : List Item) : Bytes := is.flatMap Item.bytes ++ tl

theorem starts_of_layout {io : IterOpts} {m : Nat} {K : Option Format → Prop} {kf : Option Format} (hk : K kf) {tl : Bytes} (ht : Starts tl) {off : Int} {ws : List (Int × Bytes)} {is : List Item} {es : List Expected}
    (h : Layout io m K off ws is es) : Starts (bytesOf tl is) := by
  cases is with
  | nil => exact ht
  | cons i is =>
    cases es with
    | nil => exact h.elim
    | cons e es =>
      right
      obtain ⟨f, hd, h1, _⟩ := h.1 kf 0 [] hk
      have : bytesOf tl (i :: is) = i.head ++ ((i.block ++ i.sep) ++ bytesOf tl is) := by simp [bytesOf, Item.bytes]
      rw [this, takeLine_append_of_nl h1.nl]
      exact h1.notBlank

/-- The state of an iterator that has met nothing unusual but for the warnings `ws`; `raise`: no
further gzip member. -/
structure Calm (io : IterOpts) (K : Option Format → Prop) (raise : Bool) (ws : List (Int × Bytes)) (it : ArchiveIter σ) : Prop where
  opts : it.opts = io
  known : K it.knownFormat
  closed : it.closed = false
  calm : it.raiseInvalidGzip = raise
  more : it.emptyRecord = false
  quiet : it.warnings = ws
  fmt : io.arc2warc = false → ∀ rec, it.record = some rec → it.knownFormat = some rec.format

structure PlainTop (V : σ → Bytes → Prop) (T : Int) (N bs : Nat) (io : IterOpts) (m : Nat) (K : Option Format → Prop) (tl : Bytes) (it : ArchiveIter σ) (es : List Expected) : Prop where
  base : Calm io K false it.warnings it
  offered : it.record = none ∨ it.memberInfo.isSome = true
  view : ∃ is, Layout io m K it.offset it.warnings is es ∧ ReadyAt (PlainAt V T N bs) it.reader it.nextLine (bytesOf tl is) ∧ it.offset = T - len (bytesOf tl is) ∧
    (bytesOf tl is).length ≤ N

structure PlainAfter (V : σ → Bytes → Prop) (T : Int) (N bs : Nat) (io : IterOpts) (m : Nat) (K : Option Format → Prop) (tl : Bytes) (it : ArchiveIter σ) (e : Expected) (left : Bytes)
    (es : List Expected) : Prop where
  base : Calm io K false (if it.ended then e.behind else e.before) it
  offered : it.record.isSome = true
  line : e.line = m
  view : ∃ is sep ls, Layout io m K (T - len (bytesOf tl is)) e.behind is es ∧ (sep ++ bytesOf tl is).length < N ∧ e.size = T - len (bytesOf tl is) - len sep - e.off ∧
    ((Gap sep ls ∧ e.behind = e.before ++ ls.map (fun l => (T - len (bytesOf tl is) - len sep, l)) ∧ it.memberInfo = none ∧ it.raw.View (PlainAt V T N bs) left (sep ++ bytesOf tl is) ∧ it.offset = e.off) ∨
     (left = [] ∧ it.memberInfo = some (e.off, e.size) ∧ it.raw.Spent ∧ ReadyAt (PlainAt V T N bs) it.reader it.nextLine (bytesOf tl is) ∧
        it.reader.decompressor = none ∧ it.offset = T - len (bytesOf tl is)))

variable {io : IterOpts} {bs m : Nat} {K : Option Format → Prop} {tl : Bytes}

/-- `read_to_end`, from any point of a record. -/
theorem PlainAfter.toEnd (L : LawfulGzip IsMember) (hV : ShortRead V) (ht : Starts tl) {it : ArchiveIter σ} {e : Expected} {left : Bytes} {es : List Expected}
    (h : PlainAfter V T N bs io m K tl it e left es) :
    ∃ it', it.readToEnd = (.ok (), it') ∧ PlainAfter V T N bs io m K tl it' e [] es ∧ it'.memberInfo = some (e.off, e.size) ∧ it'.gen = it.gen ∧
      it'.reader.decompressor = none ∧ it'.raw.checkerAt [] = it.raw.checkerAt left := by
  obtain ⟨is, sep, ls, h1, h2, h3, h4⟩ := h.view
  rcases h4 with ⟨hs, hw, h4, h5, h6⟩ | ⟨rfl, h4, h5, h6, h7, h8⟩
  · obtain ⟨raw', next, k1, k2, k3, k4, k5⟩ := readToEnd_plain L hV h.offered h4 h5 hs (starts_of_layout h.base.known ht h1) h2
    have e1 : ((it.offset, T - len (bytesOf tl is) - len sep - it.offset) : Int × Int) = (e.off, e.size) := by rw [h6, h3]
    rw [e1] at k1
    have hq := h.base.quiet
    rw [show it.ended = false by unfold ended; rw [h4]; rfl, if_neg (by decide)] at hq
    rw [hq, ← hw] at k1
    exact ⟨_, k1, ⟨⟨h.base.opts, h.base.known, h.base.closed, h.base.calm, h.base.more, rfl, h.base.fmt⟩, h.offered, h.line, is, sep, ls, h1, h2, h3,
      .inr ⟨rfl, rfl, k2, k3, k4, rfl⟩⟩, rfl, rfl, k4, k5⟩
  · refine ⟨it, ?_, h, h4, rfl, h7, rfl⟩
    unfold readToEnd
    have h1 : it.record.isNone = false := by have := h.offered; cases h : it.record <;> simp_all
    rw [h1, h4]
    rfl

theorem plain_machine (L : LawfulGzip IsMember) (hV : ShortRead V) (ht : Starts tl) (hX : LineLaw (PlainAt V T N bs (σ := σ)) m) :
    Machine UserOp.nonneg (PlainTop V T N bs io m K tl) (PlainAfter V T N bs io m K tl (σ := σ)) where
  load := by
    intro it e es h fuel
    obtain ⟨is, h1, h2, h3, h4⟩ := h.view
    cases is with
    | nil => exact h1.elim
    | cons i is =>
      obtain ⟨q1, q2, q3, q5, ⟨q6, ls, q7, q8⟩, q4⟩ := h1
      have hb : bytesOf tl (i :: is) = i.head ++ (i.block ++ (i.sep ++ bytesOf tl is)) := by simp [bytesOf, Item.bytes]
      rw [hb] at h2 h3 h4
      obtain ⟨raw, rec, kf, left, k1, k2, k3, k4, _, k6, k7⟩ := nextRecord_item (plainAt_exact L hV) hX q1 h.base.opts h.base.known h.base.closed h2
      refine ⟨({ it with raw := raw, record := some rec, memberInfo := none, knownFormat := kf, loads := it.loads + 1, gen := .yielded } : ArchiveIter σ),
        rec, left, ?_, ?_, k3, ?_, ?_, k6 (by intro h0; exact q7.ne_nil (List.append_eq_nil_iff.1 h0).1), rfl⟩
      · unfold genLoop
        rw [k1]
        simp only [h.base.calm, Bool.false_eq_true, if_false]
      · rfl
      · refine ⟨⟨h.base.opts, k2, h.base.closed, h.base.calm, h.base.more, q6.symm, fun ha _ h => by cases h; exact k7 ha⟩, rfl, q5, is, i.sep, ls, ?_, ?_, ?_, .inl ⟨q7, ?_, rfl, k4, q2.symm⟩⟩
        · have : it.offset + len i.bytes = T - len (bytesOf tl is) := by
            rw [h3]; simp only [len, Item.bytes, List.length_append]; omega
          rw [← this]; exact q4
        · obtain ⟨f, hd, l1, _⟩ := q1 it.knownFormat 0 [] h.base.known
          have : 0 < i.head.length := by
            apply List.length_pos_iff.2; intro h0; have := l1.nl; rw [h0] at this; simp at this
          simp only [List.length_append] at h4 ⊢
          omega
        · rw [q3, q2, h3]; simp only [len, List.length_append]; omega
        · have : it.offset + len i.head + len i.block = T - len (bytesOf tl is) - len i.sep := by
            rw [h3]; simp only [len, List.length_append]; omega
          rw [q8, q6, this]
      · rfl
  bound := by
    intro it e left es h
    obtain ⟨is, sep, ls, h1, h2, h3, h4⟩ := h.view
    rcases h4 with ⟨hs, hw, h4, h5, h6⟩ | ⟨rfl, _⟩
    · exact h5.bound (plainAt_exact L hV)
    · exact Nat.zero_le _
  op := by
    intro it e left es h op hop
    cases op with
    | call c =>
      obtain ⟨is, sep, ls, h1, h2, h3, h4⟩ := h.view
      rcases h4 with ⟨hs, hw, h4, h5, h6⟩ | ⟨rfl, h4, h5, h6, h7, h8⟩
      · obtain ⟨p, b', raw', k1, k2, k3, _, _, k5, k6⟩ := h5.call (plainAt_exact L hV) hop
        refine ⟨.bytes p, { it with raw := raw' }, b', by simp only [UserOp.run, k1]; rfl, ⟨p, rfl, k2, k6, ?_, ?_⟩, ?_, rfl, h5.checkerAt hop k1 k2, rfl⟩
        · rintro n rfl hm0 hle
          rw [h.line] at hle
          exact h5.lineAny (plainAt_exact L hV) hX hm0 hle hop k1
        · intro hp
          rcases k5 hp with h0 | h0
          · left; rw [h0] at k2; exact (List.append_eq_nil_iff.1 k2.symm).2
          · exact .inr h0
        · exact ⟨⟨h.base.opts, h.base.known, h.base.closed, h.base.calm, h.base.more, h.base.quiet, h.base.fmt⟩, h.offered, h.line, is, sep, ls, h1, h2, h3, .inl ⟨hs, hw, h4, k3, h6⟩⟩
      · obtain ⟨raw', k1, k2, k3, k4⟩ := RawStream.spent_call h5 hop
        refine ⟨.bytes [], { it with raw := raw' }, [], by simp only [UserOp.run, k1]; rfl, ⟨[], rfl, rfl, ?_, fun _ _ h0 => (nomatch h0), fun _ => .inl rfl⟩, ?_, rfl, k4, rfl⟩
        · rintro n rfl; cases n <;> simp [Call.expect]
        · refine ⟨⟨h.base.opts, h.base.known, h.base.closed, h.base.calm, h.base.more, h.base.quiet, h.base.fmt⟩, h.offered, h.line, is, sep, ls, h1, h2, h3, .inr ⟨rfl, h4, k2, ?_, ?_, h8⟩⟩
          · show ReadyAt _ raw'.under _ _; rw [k3]; exact h6
          · show raw'.under.decompressor = none; rw [k3]; exact h7
    | errors =>
      refine ⟨e.warned it.ended, it, left, ?_, ⟨rfl, rfl⟩, h, rfl, rfl, rfl⟩
      simp only [UserOp.run, errCount, h.base.quiet]
      rfl
    | toEnd =>
      obtain ⟨it', k1, k2, k3, k4, _, k6⟩ := h.toEnd L hV ht
      exact ⟨.unit, it', [], by simp only [UserOp.run, k1]; rfl, ⟨rfl, rfl⟩, k2, k4, k6, by unfold ended; rw [k3]; rfl⟩
    | offset =>
      obtain ⟨it', k1, k2, k3, k4, _, k6⟩ := h.toEnd L hV ht
      obtain ⟨it2, m1, m2⟩ : ∃ it2, it.getRecordOffset = (.ok e.off, it2) ∧ it2 = it' := by
        unfold getRecordOffset getMember
        by_cases hm : it.memberInfo.isNone = true
        · rw [if_pos hm, k1]; exact ⟨it', by simp [memberField, k3], rfl⟩
        · rw [if_neg hm]
          have hsome : it.memberInfo.isSome = true := by cases h : it.memberInfo <;> simp_all
          have hr : it.record.isNone = false := by have := h.offered; cases h : it.record <;> simp_all
          have : it.readToEnd = (.ok (), it) := by unfold readToEnd; rw [hr, hsome]; rfl
          rw [this] at k1
          cases k1
          exact ⟨it, by simp [memberField, k3], rfl⟩
      subst m2
      exact ⟨.int e.off, it2, [], by simp only [UserOp.run, m1]; rfl, ⟨rfl, rfl⟩, k2, k4, k6, by unfold ended; rw [k3]; rfl⟩
    | size =>
      obtain ⟨it', k1, k2, k3, k4, _, k6⟩ := h.toEnd L hV ht
      obtain ⟨it2, m1, m2⟩ : ∃ it2, it.getRecordLength = (.ok e.size, it2) ∧ it2 = it' := by
        unfold getRecordLength getMember
        by_cases hm : it.memberInfo.isNone = true
        · rw [if_pos hm, k1]; exact ⟨it', by simp [memberField, k3], rfl⟩
        · rw [if_neg hm]
          have hsome : it.memberInfo.isSome = true := by cases h : it.memberInfo <;> simp_all
          have hr : it.record.isNone = false := by have := h.offered; cases h : it.record <;> simp_all
          have : it.readToEnd = (.ok (), it) := by unfold readToEnd; rw [hr, hsome]; rfl
          rw [this] at k1
          cases k1
          exact ⟨it, by simp [memberField, k3], rfl⟩
      subst m2
      exact ⟨.int e.size, it2, [], by simp only [UserOp.run, m1]; rfl, ⟨rfl, rfl⟩, k2, k4, k6, by unfold ended; rw [k3]; rfl⟩
  after := by
    intro it e left es h
    obtain ⟨it', k1, k2, k3, k4, k5, _⟩ := h.toEnd L hV ht
    obtain ⟨is, sep, ls, h1, h2, h3, h4⟩ := k2.view
    rcases h4 with ⟨_, _, h4, _⟩ | ⟨_, h4, h5, h6, h7, h8⟩
    · rw [h4] at k3; cases k3
    · have hq := k2.base.quiet
      rw [show it'.ended = true by unfold ended; rw [k3]; rfl, if_pos rfl] at hq
      refine ⟨it', ?_, ⟨⟨k2.base.opts, k2.base.known, k2.base.closed, k2.base.calm, k2.base.more, rfl, k2.base.fmt⟩, .inr (by rw [h4]; rfl), is, by rw [h8, hq]; exact h1, h6, h8, by simp only [List.length_append] at h2; omega⟩, k2.offered⟩
      unfold afterRecord
      rw [k1]
      simp only [k2.base.closed, Bool.false_eq_true, if_false, k5, Option.isSome_none, k2.base.more, Bool.not_false]

/-- The file ends where the next record should be. -/
theorem stop_eof {it : ArchiveIter σ} (hcl0 : it.closed = false) (hoff : it.record = none ∨ it.memberInfo.isSome = true) {s1 : BufReader σ}
    (hp : parseRecordStream it.loadOpts it.reader (it.nextLine.map .bytes) = (.error .eofError, s1)) (hu : s1.decompressor.isSome = true → s1.readNextMember = (false, s1)) (fuel : Nat) :
    ∃ it', genLoop (fuel + 1) it = (.error .stopIteration, it') ∧ it'.gen = .finished := by
  have hn : it.nextRecord = (.error .eofError, { it.setReader s1 with loads := it.loads + 1 }) := by
    unfold nextRecord
    rw [hcl0, hp]
    rfl
  generalize hit : ({ it.setReader s1 with loads := it.loads + 1, emptyRecord := true } : ArchiveIter σ) = it1
  have hrd : it1.reader = s1 := by subst hit; exact RawStream.under_setUnder _ _
  have hcl : it1.closed = false := by subst hit; exact hcl0
  have hem : it1.emptyRecord = true := by subst hit; rfl
  have hre : it1.readToEnd = (.ok (), it1) := by
    have : it1.record = none ∨ it1.memberInfo.isSome = true := by subst hit; exact hoff
    unfold readToEnd
    rcases this with h | h
    · simp [h]
    · simp only [h, if_true]; split <;> rfl
  have ha : ∃ it2, it1.afterRecord = (.ok false, it2) := by
    unfold afterRecord
    rw [hre]
    simp only [hcl, Bool.false_eq_true, if_false, hrd]
    by_cases hd : s1.decompressor.isSome = true
    · rw [if_pos hd, hu hd]
      simp only [Bool.false_eq_true, if_false]
      have : (it1.setReader s1).emptyRecord = true := hem
      rw [this]
      exact ⟨_, rfl⟩
    · rw [if_neg hd, hem]; exact ⟨_, rfl⟩
  obtain ⟨it2, ha⟩ := ha
  refine ⟨{ it2.close with gen := .finished }, ?_, rfl⟩
  unfold genLoop
  rw [hn]
  simp only
  rw [hit, ha]

/-- Behind the last record. -/
theorem plain_stops (L : LawfulGzip IsMember) (hV : ShortRead V) : Stops .stopIteration (PlainTop V T N bs io m K [] (σ := σ)) := by
  intro it h fuel
  obtain ⟨is, h1, h2, h3, h4⟩ := h.view
  cases is with
  | cons i is => exact h1.elim
  | nil =>
    obtain ⟨s1, k1, k2⟩ := detect_at (plainAt_exact (T := T) (N := N) (bs := bs) L hV).lineRead it.loadOpts h2
    have e : bytesOf [] [] = [] := rfl
    rw [e] at k1 k2
    rw [detect_eof] at k1 k2
    refine stop_eof h.base.closed h.offered (load_error k1) ?_ fuel
    intro hd
    rcases k2 with ⟨k2, _⟩ | k2
    · have := unused_gz L k2.decomp
      rw [L.unused_nil] at this
      unfold BufReader.unused at this
      rw [k2.decomp] at this
      simp only [readNextMember, k2.decomp, this, if_true]
    · rw [k2.decomp] at hd; cases hd

/-- Something that is no record, behind at least one record. -/
structure PlainBehind (V : σ → Bytes → Prop) (T : Int) (N bs : Nat) (io : IterOpts) (m : Nat) (K : Option Format → Prop) (tl : Bytes) (it : ArchiveIter σ) (es : List Expected) : Prop where
  top : PlainTop V T N bs io m K tl it es
  some : es = [] → it.record.isSome = true

theorem garbage_machine (L : LawfulGzip IsMember) (hV : ShortRead V) (ht : Starts tl) (hX : LineLaw (PlainAt V T N bs (σ := σ)) m) :
    Machine UserOp.nonneg (PlainBehind V T N bs io m K tl) (PlainAfter V T N bs io m K tl (σ := σ)) where
  load := fun h => (plain_machine L hV ht hX).load h.top
  op := (plain_machine L hV ht hX).op
  after := fun h => by
    obtain ⟨it', k1, k2, k3⟩ := (plain_machine L hV ht hX).after h
    exact ⟨it', k1, ⟨k2, fun _ => k3⟩, k3⟩
  bound := (plain_machine L hV ht hX).bound

theorem garbage_stops (L : LawfulGzip IsMember) (hV : ShortRead V) (ha : io.arc2warc = false) (hK : ¬ K (some .arc)) (hl : lineText (takeLine tl) ≠ []) (hw : ¬ StartsWarc tl) :
    Stops .invalidWarc (PlainBehind V T N bs io m K tl (σ := σ)) := by
  intro it h fuel
  obtain ⟨is, h1, h2, h3, h4⟩ := h.top.view
  cases is with
  | cons i is => exact h1.elim
  | nil =>
    obtain ⟨rec, hr⟩ := Option.isSome_iff_exists.1 (h.some rfl)
    have hf := h.top.base.fmt ha rec hr
    have hkf : it.knownFormat = some .warc := by
      have hk := h.top.base.known
      rw [hf] at hk ⊢
      cases hx : rec.format with
      | warc => rfl
      | arc => rw [hx] at hk; exact absurd hk hK
    obtain ⟨s1, k1, k2⟩ := detect_at (plainAt_exact (T := T) (N := N) (bs := bs) L hV).lineRead it.loadOpts h2
    have e : bytesOf tl [] = tl := rfl
    rw [e, detect_refused (o := it.loadOpts) hkf hl hw] at k1
    have k3 := load_error k1
    have hn : it.nextRecord = (.error .invalidWarc, { it.setReader s1 with loads := it.loads + 1 }) := by
      unfold nextRecord
      rw [h.top.base.closed, k3]
      rfl
    refine ⟨{ ({ it.setReader s1 with loads := it.loads + 1 } : ArchiveIter σ) with gen := .finished }, ?_, rfl⟩
    unfold genLoop
    rw [hn]

/-- What is there instead of a first record has a first line that is neither a version of WARC nor that of an ARC record. -/
theorem unknown_stops (L : LawfulGzip IsMember) (hV : ShortRead V) (hK : ∀ kf, K kf → kf = none) (hl : lineText (takeLine tl) ≠ []) (hw : ¬ StartsWarc tl)
    (h4 : (lineText (takeLine tl)).count ' ' < 4) : Stops .unknownFormat (PlainTop V T N bs io m K tl (σ := σ)) := by
  intro it h fuel
  obtain ⟨is, h1, h2, h3, h4'⟩ := h.view
  cases is with
  | cons i is => exact h1.elim
  | nil =>
    have hkf : it.knownFormat = none := hK _ h.base.known
    obtain ⟨s1, k1, k2⟩ := detect_at (plainAt_exact (T := T) (N := N) (bs := bs) L hV).lineRead it.loadOpts h2
    have e : bytesOf tl [] = tl := rfl
    have hd : tl ≠ [] := by rintro rfl; exact hl rfl
    obtain ⟨ls', a1⟩ := detect_arc_bad (o := it.loadOpts) hd (by omega) (splitLines (dropLine tl))
    rw [e, detect_tries (o := it.loadOpts) (.inr ⟨hkf, hl, hw⟩), a1, show it.loadOpts.knownFormat = none from hkf] at k1
    have k3 := load_error k1
    have hn : it.nextRecord = (.error .unknownFormat, { it.setReader s1 with loads := it.loads + 1 }) := by
      unfold nextRecord
      rw [h.base.closed, k3]
      rfl
    refine ⟨{ ({ it.setReader s1 with loads := it.loads + 1 } : ArchiveIter σ) with gen := .finished }, ?_, rfl⟩
    unfold genLoop
    rw [hn]

end
end ArchiveIter
end Warcio

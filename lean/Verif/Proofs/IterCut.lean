import Verif.Proofs.IterPlain

/-! # An uncompressed archive that ends inside or right behind the block of its last record -/

set_option linter.unusedSectionVars false

namespace Warcio

open Loader BufReader

namespace ArchiveIter

section
variable {σ : Type} [Zlib] [PyStream σ] [Hashlib] [PyUni]

/-- What a loaded record shows when `block` is what there is of its block of `n` bytes. -/
structure ShownCut (o : LoadOpts) (m : Nat) (fl : Fields) (block : Bytes) (n : Int) {τ : Type} (rec : Record τ) (left : Bytes) : Prop where
  loaded : Loaded o fl (some n) rec
  part : ∃ pre, block = pre ++ left ∧ (o.noRecordParse = true ∨ ¬ HttpRecord fl.recType fl.uri ∨ block = [] → pre = [])
  payload : rec.payloadLength = some (-1) ∨ rec.payloadLength = some (len left + (n - len block))
  http : o.noRecordParse = true ∨ ¬ HttpRecord fl.recType fl.uri ∨ block = [] → rec.payloadLength = some (-1) ∧
    rec.httpHeaders = if o.ensureHttpHeaders then some (defaultHttpHeaders (some n) fl.contentType) else none
  head : o.noRecordParse = false → HttpRecord fl.recType fl.uri → HeadWithin m block → lineText (takeLine block) ≠ [] →
    ∃ hd, HttpHead block hd left ∧ (hd.statusline ≠ [] ∨ hd.headers ≠ [] → rec.httpHeaders = some hd ∧ rec.payloadLength = some (len left + (n - len block)))

/-- The last record: `i` can be loaded whenever the known format is in `K`, though only a part of its block of `n` bytes is there, and then shows `S`;
verdicts on it, if it is complete, are as in `J`. -/
def CutOk (io : IterOpts) (m : Nat) (K : Option Format → Prop) (i : Item) (n : Int) (S : Record Unit → Bytes → Prop) (J : Bytes → DigestChecker → Prop) : Prop :=
  len i.block ≤ n ∧ i.head ≠ [] ∧ White i.sep ∧ (len i.block < n → i.sep = []) ∧
  ∀ kf k, K kf → ∃ f h, (∃ ls, detectLines (io.load kf (io.ids k)) (decodeHeader (takeLine (i.head ++ (i.block ++ i.sep)))) (splitLines (dropLine (i.head ++ (i.block ++ i.sep)))) = (.ok (f, h), ls) ∧ ls.flatten = i.block ++ i.sep) ∧
    blockLength (fields f h).length (fields f h).subLen = some n ∧
    (n = 0 ∨ io.noRecordParse = true ∨ (HttpType (fields f h).recType → (fields f h).uri ≠ none)) ∧
    (i.block = [] → n = 0 ∨ io.noRecordParse = true ∨ ¬ HttpRecord (fields f h).recType (fields f h).uri ∨ (fields f h).recType = some (lit "revisit")) ∧
    ChecksFine (io.load kf (io.ids k)) (fields f h) ∧ io.verifyHttp = false ∧
    (io.arc2warc = false → K (some (fields f h).format)) ∧
    (∀ rec left, ShownCut (io.load kf (io.ids k)) m (fields f h) i.block n rec left → S rec left) ∧
    ∀ left (c : DigestChecker), (n = len i.block → Judged io.checkDigests.isSome (fields f h).recType ((fields f h).headers.getHeader (lit "WARC-Segment-Number"))
        ((fields f h).headers.getHeader (lit "WARC-Block-Digest")) ((fields f h).headers.getHeader (lit "WARC-Payload-Digest")) i.block left c.passed) →
      (len i.block < n → CutVerdict io.checkDigests.isSome (fields f h).recType ((fields f h).headers.getHeader (lit "WARC-Segment-Number"))
        ((fields f h).headers.getHeader (lit "WARC-Block-Digest")) ((fields f h).headers.getHeader (lit "WARC-Payload-Digest")) c.passed) → c.Loud → J left c

theorem nextRecord_cut {W : BufReader σ → Bytes → Prop} (hW : ExactRead W) {m : Nat} (hX : LineLaw W m) {it : ArchiveIter σ} {io : IterOpts} {K : Option Format → Prop}
    {i : Item} {n : Int} {S : Record Unit → Bytes → Prop} {J : Bytes → DigestChecker → Prop} (hi : CutOk io m K i n S J) (hio : it.opts = io) (hk : K it.knownFormat) (hc : it.closed = false)
    (hs : ReadyAt W it.reader it.nextLine (i.head ++ (i.block ++ i.sep))) :
    ∃ raw rec kf left, it.nextRecord = (.ok (), ({ it with raw := raw, record := some rec, memberInfo := none, knownFormat := kf, loads := it.loads + 1 } : ArchiveIter σ)) ∧
      K kf ∧ S rec left ∧ raw.View W left i.sep ∧ left.length ≤ i.block.length ∧ J left (raw.checkerAt left) ∧ (io.arc2warc = false → kf = some rec.format) := by
  subst hio
  obtain ⟨c1, _, _, c2, c3⟩ := hi
  obtain ⟨f, h, h1, h2, h3, h4, h5, h6, h7, h8, h9⟩ := c3 it.knownFormat it.loads hk
  obtain ⟨rec, pre, left, k1, k2, k3, k4, k5, k6, k7, k8, k9, k10⟩ := load_part hW hX h1 h2 c1 c2 h3 h4 h5 h6 hs
  have e : it.loadOpts = it.opts.load it.knownFormat (it.opts.ids it.loads) := rfl
  refine ⟨rec.rawStream, { format := rec.format, recType := rec.recType, recHeaders := rec.recHeaders, rawStream := (), httpHeaders := rec.httpHeaders, contentType := rec.contentType, length := rec.length, payloadLength := rec.payloadLength, checker := rec.checker },
    if it.opts.arc2warc then it.knownFormat else some rec.format, left, ?_, ?_, h8 _ left ⟨⟨k2.format, k2.recType, k2.recHeaders, k2.contentType, k2.length, k2.checker⟩,
    ⟨pre, k3, fun h => (k6 h).1⟩, k5, fun h => ⟨(k6 h).2.1, (k6 h).2.2⟩, k7⟩, k4, ?_, h9 left _ k8 k9 k10, fun ha => by rw [ha]; rfl⟩
  · unfold nextRecord
    rw [hc, e, k1]
    rfl
  · show K (if it.opts.arc2warc then it.knownFormat else some rec.format)
    split
    · exact hk
    · rename_i ha; rw [k2.format]; exact h7 (by simpa using ha)
  · rw [k3, List.length_append]; omega

variable {V : σ → Bytes → Prop} {IsMember : Bytes → Bytes → Prop} {T : Int} {N bs : Nat}

theorem view_setUnder {W : BufReader σ → Bytes → Prop} {raw : RawStream (BufReader σ)} {b t : Bytes} (h : raw.View W b t) {s : BufReader σ} (hs : W s (b ++ t)) : (raw.setUnder s).View W b t := by
  cases raw with
  | bare r => obtain ⟨_, rfl⟩ := h; rw [List.append_nil] at hs; exact ⟨hs, rfl⟩
  | limited r => exact ⟨hs, h.le, h.short⟩
  | verifying d =>
    obtain ⟨h1, h2, h3, h4⟩ := h
    exact ⟨⟨h1.kind, h1.block, h1.payload, h1.blockDig, h1.payDig⟩, h2, h3, ⟨hs, h4.le, h4.short⟩⟩

/-- Nothing but white space is left behind the block. -/
theorem blank_white {W : BufReader σ → Bytes → Prop} (hW : ExactRead W) : ∀ (fuel : Nat) (sep : Bytes) (first : Bool) (n : Int) {it : ArchiveIter σ},
    W it.reader sep → White sep → sep.length < fuel → ∃ r', blankLoop fuel first n it = (.ok (none, n + len sep), it.setReader r') ∧ W r' [] ∧
      ∃ r1, W r1 [] ∧ PyStream.readline r1 none = (.ok [], r') := by
  intro fuel
  induction fuel with
  | zero => intro sep first n it _ _ h; omega
  | succ fuel ih =>
    intro sep first n it h hw hf
    obtain ⟨r1, k1, k2⟩ := hW.readline_none h
    by_cases hs : sep = []
    · subst hs
      refine ⟨r1, ?_, k2, _, h, k1⟩
      unfold blankLoop
      rw [k1]
      simp [takeLine, len]
    · have htl : takeLine sep ≠ [] := takeLine_ne_nil hs
      have hcat := takeLine_append_dropLine sep
      have hlen := congrArg List.length hcat
      rw [List.length_append] at hlen
      have hpos := List.length_pos_iff.2 htl
      have hwl : White (takeLine sep) := fun b hb => hw b (by rw [← hcat]; simp [hb])
      have hwd : White (dropLine sep) := fun b hb => hw b (by rw [← hcat]; simp [hb])
      obtain ⟨r', m1, m2, m3⟩ := ih (dropLine sep) false (n + len (takeLine sep)) (it := it.setReader r1) (by rw [reader_setReader]; exact k2) hwd (by omega)
      refine ⟨r', ?_, m2, m3⟩
      unfold blankLoop
      rw [k1]
      simp only [List.isEmpty_eq_false_iff.2 htl, rstripBytes_nil.2 hwl, List.isEmpty_nil, Bool.false_eq_true, if_false, if_true]
      rw [m1, setReader_setReader]
      have : n + len (takeLine sep) + len (dropLine sep) = n + len sep := by simp only [len]; omega
      rw [this]

/-- `read_to_end` in the last record. -/
theorem readToEnd_cut (L : LawfulGzip IsMember) (hV : ShortRead V) {it : ArchiveIter σ} {left sep : Bytes}
    (hr : it.record.isSome = true) (hm : it.memberInfo = none) (hv : it.raw.View (PlainAt V T N bs) left sep) (hsep : White sep) (hN : 0 < N) :
    ∃ raw', it.readToEnd = (.ok (), ({ it with raw := raw', nextLine := none, offset := T, memberInfo := some (it.offset, T - len sep - it.offset) } : ArchiveIter σ)) ∧
      PlainAt V T N bs raw'.under [] ∧ raw'.under.decompressor = none ∧ raw'.checkerAt [] = it.raw.checkerAt left ∧ (raw'.Spent ∨ raw'.View (PlainAt V T N bs) [] []) := by
  have hW := plainAt_exact (T := T) (N := N) (bs := bs) L hV
  obtain ⟨raw1, d1, d2, d3⟩ := drain_spec hW (PyStream.bound it.raw + 2) hv (by have := hv.bound hW; omega)
  have hu := d2.under
  rw [List.nil_append] at hu
  obtain ⟨r2, hc, e2, -⟩ := blank_white hW (PyStream.bound raw1.under + 2) sep true 0 (it := { it with raw := raw1 }) hu hsep (by have := hW.bound hu; omega)
  rw [Int.zero_add] at hc
  have hpl : r2.decompressor = none := e2.plain hN
  refine ⟨raw1.setUnder r2, ?_, by rw [RawStream.under_setUnder]; exact e2, by rw [RawStream.under_setUnder]; exact hpl, (RawStream.checkerAt_setUnder _ _ _).trans d3, ?_⟩
  rotate_left
  · by_cases hs : sep = []
    · subst hs; exact .inr (view_setUnder d2 e2)
    · exact .inl (RawStream.spent_setUnder (RawStream.spent_of_view d2 hs) _)
  unfold readToEnd
  have h1 : it.record.isNone = false := by cases h : it.record <;> simp_all
  rw [h1, hm, d1]
  simp only [Option.isSome_none, Bool.false_eq_true, if_false]
  unfold consumeBlanklines
  rw [show ({ it with raw := raw1 } : ArchiveIter σ).reader = raw1.under from rfl, hc]
  simp only [position, reader, setReader, RawStream.under_setUnder, hpl, Option.isNone_none, if_true]
  have hp := e2.position L
  rw [hp]
  simp [len]
  omega

/-- The last record has been handed out. -/
structure CutAfter (V : σ → Bytes → Prop) (T : Int) (N bs : Nat) (io : IterOpts) (m : Nat) (K : Option Format → Prop) (sep : Bytes) (it : ArchiveIter σ) (e : Expected) (left : Bytes) : Prop where
  base : Calm io K false it.warnings it
  before : e.before = it.warnings
  behind : e.behind = it.warnings
  offered : it.record.isSome = true
  line : e.line = m
  size : e.size = T - len sep - e.off
  white : White sep
  pos : 0 < N
  ended : (it.memberInfo = none ∧ it.raw.View (PlainAt V T N bs) left sep ∧ it.offset = e.off) ∨
    (left = [] ∧ it.memberInfo = some (e.off, e.size) ∧ it.nextLine = none ∧ it.offset = T ∧ PlainAt V T N bs it.reader [] ∧ (it.raw.Spent ∨ it.raw.View (PlainAt V T N bs) [] []))

variable {io : IterOpts} {m : Nat} {K : Option Format → Prop} {sep : Bytes}

theorem CutAfter.toEnd (L : LawfulGzip IsMember) (hV : ShortRead V) {it : ArchiveIter σ} {e : Expected} {left : Bytes} (h : CutAfter V T N bs io m K sep it e left) :
    ∃ it', it.readToEnd = (.ok (), it') ∧ CutAfter V T N bs io m K sep it' e [] ∧ it'.memberInfo = some (e.off, e.size) ∧ it'.gen = it.gen ∧
      it'.raw.checkerAt [] = it.raw.checkerAt left := by
  rcases h.ended with ⟨h4, h5, h6⟩ | ⟨rfl, h4, _⟩
  · obtain ⟨raw', k1, k2, k4, k5, k6⟩ := readToEnd_cut L hV h.offered h4 h5 h.white h.pos
    have e1 : ((it.offset, T - len sep - it.offset) : Int × Int) = (e.off, e.size) := by rw [h6, h.size]
    rw [e1] at k1
    exact ⟨_, k1, ⟨⟨h.base.opts, h.base.known, h.base.closed, h.base.calm, h.base.more, rfl, h.base.fmt⟩, h.before, h.behind, h.offered, h.line, h.size, h.white, h.pos,
      .inr ⟨rfl, rfl, rfl, rfl, k2, k6⟩⟩, rfl, rfl, k5⟩
  · refine ⟨it, ?_, h, h4, rfl, rfl⟩
    unfold readToEnd
    have h1 : it.record.isNone = false := by have := h.offered; cases h : it.record <;> simp_all
    rw [h1, h4]
    rfl

/-- Reading it. -/
theorem CutAfter.op (L : LawfulGzip IsMember) (hV : ShortRead V) (hX : LineLaw (PlainAt V T N bs (σ := σ)) m) {it : ArchiveIter σ} {e : Expected} {left : Bytes} (h : CutAfter V T N bs io m K sep it e left)
    {op : UserOp} (hop : op.nonneg) : ∃ v it' left', op.run it = (.ok v, it') ∧ OpOk e it.ended left op v left' ∧ CutAfter V T N bs io m K sep it' e left' ∧ it'.gen = it.gen ∧
      it'.raw.checkerAt left' = it.raw.checkerAt left ∧ it'.ended = (op.ends || it.ended) := by
  have hW := plainAt_exact (T := T) (N := N) (bs := bs) L hV
  cases op with
  | call c =>
    rcases h.ended with ⟨h4, h5, h6⟩ | ⟨rfl, h4, h5, h6, h7, h8 | h8⟩
    · obtain ⟨p, b', raw', k1, k2, k3, _, _, k5, k6⟩ := h5.call hW hop
      refine ⟨.bytes p, { it with raw := raw' }, b', by simp only [UserOp.run, k1]; rfl, ⟨p, rfl, k2, k6, ?_, ?_⟩,
        ⟨⟨h.base.opts, h.base.known, h.base.closed, h.base.calm, h.base.more, rfl, h.base.fmt⟩, h.before, h.behind, h.offered, h.line, h.size, h.white, h.pos, .inl ⟨h4, k3, h6⟩⟩, rfl, h5.checkerAt hop k1 k2, rfl⟩
      · rintro n rfl hm0 hle
        rw [h.line] at hle
        exact h5.lineAny hW hX hm0 hle hop k1
      · intro hp
        rcases k5 hp with h0 | h0
        · left; rw [h0] at k2; exact (List.append_eq_nil_iff.1 k2.symm).2
        · exact .inr h0
    · obtain ⟨raw', k1, k2, k3, k4⟩ := RawStream.spent_call h8 hop
      refine ⟨.bytes [], { it with raw := raw' }, [], by simp only [UserOp.run, k1]; rfl, ⟨[], rfl, rfl, ?_, ?_, fun _ => .inl rfl⟩,
        ⟨⟨h.base.opts, h.base.known, h.base.closed, h.base.calm, h.base.more, rfl, h.base.fmt⟩, h.before, h.behind, h.offered, h.line, h.size, h.white, h.pos,
          .inr ⟨rfl, h4, h5, h6, by show PlainAt V T N bs raw'.under []; rw [k3]; exact h7, .inl k2⟩⟩, rfl, k4, rfl⟩
      · rintro n rfl
        cases n <;> simp [Call.expect]
      · rintro n rfl hm0
        cases hm0
    · obtain ⟨p, b', raw', k1, k2, k3, _, _, k5, k6⟩ := h8.call hW hop
      obtain ⟨rfl, rfl⟩ := List.append_eq_nil_iff.1 k2.symm
      have hu := k3.under
      refine ⟨.bytes [], { it with raw := raw' }, [], by simp only [UserOp.run, k1]; rfl, ⟨[], rfl, rfl, k6, ?_, fun _ => .inl rfl⟩,
        ⟨⟨h.base.opts, h.base.known, h.base.closed, h.base.calm, h.base.more, rfl, h.base.fmt⟩, h.before, h.behind, h.offered, h.line, h.size, h.white, h.pos,
          .inr ⟨rfl, h4, h5, h6, hu, .inr k3⟩⟩, rfl, h8.checkerAt hop k1 k2, rfl⟩
      rintro n rfl hm0
      cases hm0
  | errors =>
    refine ⟨e.warned it.ended, it, left, ?_, ⟨rfl, rfl⟩, h, rfl, rfl, rfl⟩
    simp only [UserOp.run, errCount, Expected.warned, h.before, h.behind, ite_self]
  | toEnd =>
    obtain ⟨it', k1, k2, k3, k4, k6⟩ := h.toEnd L hV
    exact ⟨.unit, it', [], by simp only [UserOp.run, k1]; rfl, ⟨rfl, rfl⟩, k2, k4, k6, by unfold ArchiveIter.ended; rw [k3]; rfl⟩
  | offset =>
    obtain ⟨it', k1, k2, k3, k4, k6⟩ := h.toEnd L hV
    obtain ⟨it2, m1, m2⟩ : ∃ it2, it.getRecordOffset = (.ok e.off, it2) ∧ it2 = it' := by
      unfold getRecordOffset getMember
      by_cases hm : it.memberInfo.isNone = true
      · rw [if_pos hm, k1]; exact ⟨it', by simp [memberField, k3], rfl⟩
      · rw [if_neg hm]
        have hsome : it.memberInfo.isSome = true := by cases h : it.memberInfo <;> simp_all
        have hr : it.record.isNone = false := by have := h.offered; cases h : it.record <;> simp_all
        have : it.readToEnd = (.ok (), it) := by unfold readToEnd; rw [hr, hsome]; rfl
        rw [this] at k1
        cases k1
        exact ⟨it, by simp [memberField, k3], rfl⟩
    subst m2
    exact ⟨.int e.off, it2, [], by simp only [UserOp.run, m1]; rfl, ⟨rfl, rfl⟩, k2, k4, k6, by unfold ArchiveIter.ended; rw [k3]; rfl⟩
  | size =>
    obtain ⟨it', k1, k2, k3, k4, k6⟩ := h.toEnd L hV
    obtain ⟨it2, m1, m2⟩ : ∃ it2, it.getRecordLength = (.ok e.size, it2) ∧ it2 = it' := by
      unfold getRecordLength getMember
      by_cases hm : it.memberInfo.isNone = true
      · rw [if_pos hm, k1]; exact ⟨it', by simp [memberField, k3], rfl⟩
      · rw [if_neg hm]
        have hsome : it.memberInfo.isSome = true := by cases h : it.memberInfo <;> simp_all
        have hr : it.record.isNone = false := by have := h.offered; cases h : it.record <;> simp_all
        have : it.readToEnd = (.ok (), it) := by unfold readToEnd; rw [hr, hsome]; rfl
        rw [this] at k1
        cases k1
        exact ⟨it, by simp [memberField, k3], rfl⟩
    subst m2
    exact ⟨.int e.size, it2, [], by simp only [UserOp.run, m1]; rfl, ⟨rfl, rfl⟩, k2, k4, k6, by unfold ArchiveIter.ended; rw [k3]; rfl⟩

/-- The warnings there are when these records have ended. -/
def lastWarned : List (Int × Bytes) → List Expected → List (Int × Bytes)
  | ws, [] => ws
  | _, e :: es => lastWarned e.behind es

/-- Records, the last one `c` perhaps cut off. -/
def CutTop (V : σ → Bytes → Prop) (T : Int) (N bs : Nat) (io : IterOpts) (m : Nat) (K : Option Format → Prop) (tl : Bytes) (c : Expected) (it : ArchiveIter σ) (es : List Expected) : Prop :=
  (∃ es0, es = es0 ++ [c] ∧ PlainTop V T N bs io m K tl it es0 ∧ lastWarned it.warnings es0 = c.before) ∨ (es = [] ∧ PlainTop V T N bs io m K [] it [])

def CutStep (V : σ → Bytes → Prop) (T : Int) (N bs : Nat) (io : IterOpts) (m : Nat) (K : Option Format → Prop) (tl sep : Bytes) (c : Expected) (it : ArchiveIter σ) (e : Expected) (left : Bytes) (es : List Expected) : Prop :=
  (∃ es0, es = es0 ++ [c] ∧ PlainAfter V T N bs io m K tl it e left es0 ∧ lastWarned e.behind es0 = c.before) ∨ (es = [] ∧ CutAfter V T N bs io m K sep it e left)

theorem cut_machine (L : LawfulGzip IsMember) (hV : ShortRead V) (hX : LineLaw (PlainAt V T N bs (σ := σ)) m) {i : Item} {n : Int} {c : Expected}
    (hi : CutOk io m K i n c.shows c.judged) (ht : Starts i.bytes) (hc : c.off = T - len i.bytes) (hz : c.size = len (i.head ++ i.block)) (hl : c.line = m) (hw : c.behind = c.before) :
    Machine UserOp.nonneg (CutTop V T N bs io m K i.bytes c) (CutStep V T N bs io m K i.bytes i.sep c (σ := σ)) where
  load := by
    rintro it e es (⟨es0, h1, h2, h3⟩ | ⟨h1, _⟩) fuel
    · cases es0 with
      | cons e0 es0 =>
        rw [List.cons_append] at h1
        obtain ⟨rfl, rfl⟩ := List.cons.inj h1
        obtain ⟨it', rec, left, k1, k2, k3, k4, k5, k6, k7⟩ := (plain_machine L hV ht hX).load h2 fuel
        exact ⟨it', rec, left, k1, k2, k3, .inl ⟨es0, rfl, k4, h3⟩, k5, k6, k7⟩
      | nil =>
        obtain ⟨rfl, rfl⟩ := List.cons.inj h1
        obtain ⟨is, v1, v2, v3, v4⟩ := h2.view
        cases is with
        | cons i is => exact v1.elim
        | nil =>
          have eb : bytesOf i.bytes [] = i.head ++ (i.block ++ i.sep) := rfl
          rw [eb] at v2 v3 v4
          have hpos := List.length_pos_iff.2 hi.2.1
          obtain ⟨raw, rec, kf, left, k1, k2, k3, k4, k5, k6, k8⟩ := nextRecord_cut (plainAt_exact L hV) hX hi h2.base.opts h2.base.known h2.base.closed v2
          refine ⟨({ it with raw := raw, record := some rec, memberInfo := none, knownFormat := kf, loads := it.loads + 1, gen := .yielded } : ArchiveIter σ),
            rec, left, ?_, rfl, k3, .inr ⟨rfl, ?_⟩, rfl, k6, rfl⟩
          · unfold genLoop
            rw [k1]
            simp only [h2.base.calm, Bool.false_eq_true, if_false]
          · refine ⟨⟨h2.base.opts, k2, h2.base.closed, h2.base.calm, h2.base.more, rfl, fun ha _ h => by cases h; exact k8 ha⟩, h3.symm, by rw [hw]; exact h3.symm, rfl, hl, by rw [hz, hc]; simp only [len, Item.bytes, List.length_append]; omega, hi.2.2.1, ?_, .inl ⟨rfl, k4, ?_⟩⟩
            · simp only [List.length_append] at v4; omega
            · show it.offset = _; rw [v3, hc]; rfl
    · cases h1
  op := by
    rintro it e left es (⟨es0, h1, h2, h3⟩ | ⟨h1, h2⟩) op hop
    · obtain ⟨v, it', left', k1, k2, k3, k4, k5, k6⟩ := (plain_machine L hV ht hX).op h2 hop
      exact ⟨v, it', left', k1, k2, .inl ⟨es0, h1, k3, h3⟩, k4, k5, k6⟩
    · obtain ⟨v, it', left', k1, k2, k3, k4, k5, k6⟩ := h2.op L hV hX hop
      exact ⟨v, it', left', k1, k2, .inr ⟨h1, k3⟩, k4, k5, k6⟩
  after := by
    rintro it e left es (⟨es0, h1, h2, h3⟩ | ⟨h1, h2⟩)
    · obtain ⟨it', k1, k2, k3, k4, k5, _⟩ := h2.toEnd L hV ht
      obtain ⟨it2, j1, j2, j3⟩ := (plain_machine L hV ht hX).after h2
      have e1 : it.afterRecord = (.ok true, it') := by
        unfold afterRecord
        rw [k1]
        simp only [k2.base.closed, Bool.false_eq_true, if_false, k5, Option.isSome_none, k2.base.more, Bool.not_false]
      rw [e1] at j1
      cases j1
      have hq := k2.base.quiet
      rw [show it'.ended = true by unfold ArchiveIter.ended; rw [k3]; rfl, if_pos rfl] at hq
      exact ⟨it', e1, .inl ⟨es0, h1, j2, by rw [hq]; exact h3⟩, j3⟩
    · obtain ⟨it', k1, k2, k3, k4, _⟩ := h2.toEnd L hV
      rcases k2.ended with ⟨h4, _⟩ | ⟨_, h4, h5, h6, hu, _⟩
      · rw [h4] at k3; cases k3
      · have hd : it'.reader.decompressor = none := PlainAt.plain hu k2.pos
        refine ⟨it', ?_, .inr ⟨h1, ⟨⟨k2.base.opts, k2.base.known, k2.base.closed, k2.base.calm, k2.base.more, rfl, k2.base.fmt⟩, .inr (by rw [h4]; rfl), [], trivial, .inl ⟨h5, hu⟩, by rw [h6]; simp [bytesOf, len], Nat.zero_le _⟩⟩, k2.offered⟩
        unfold afterRecord
        rw [k1]
        simp only [k2.base.closed, Bool.false_eq_true, if_false, hd, Option.isSome_none, k2.base.more, Bool.not_false]
  bound := by
    rintro it e left es (⟨es0, h1, h2, h3⟩ | ⟨h1, h2⟩)
    · exact (plain_machine L hV ht hX).bound h2
    · rcases h2.ended with ⟨_, h5, _⟩ | ⟨rfl, _⟩
      · exact h5.bound (plainAt_exact L hV)
      · exact Nat.zero_le _

theorem cut_stops (L : LawfulGzip IsMember) (hV : ShortRead V) {tl : Bytes} {c : Expected} : Stops .stopIteration (CutTop V T N bs io m K tl c (σ := σ)) := by
  rintro it (⟨es0, h1, _⟩ | ⟨_, h⟩) fuel
  · cases es0 <;> cases h1
  · exact plain_stops L hV it h fuel

/-- Nothing is left of a block with an HTTP message: the loader takes that for the end of the file. -/
theorem load_gone {τ : Type} [PyStream τ] {W : τ → Bytes → Prop} (hW : ExactRead W) {o : LoadOpts} {tl : Bytes} {f : HeadFormat} {h : StatusAndHeaders}
    (hd : ∃ ls, detectLines o (decodeHeader (takeLine tl)) (splitLines (dropLine tl)) = (.ok (f, h), ls) ∧ ls.flatten = []) {n : Int}
    (hlen : blockLength (fields f h).length (fields f h).subLen = some n) (hn : n ≠ 0) (hp : o.noRecordParse = false) (hh : HttpRecord (fields f h).recType (fields f h).uri)
    (hr : (fields f h).recType ≠ some (lit "revisit")) (hc : ChecksFine o (fields f h)) (hv : o.verifyHttp = false) {s : τ} {st : Option Bytes} (hs : ReadyAt W s st tl) :
    ∃ s', parseRecordStream o s (st.map .bytes) = (.error .eofError, s') ∧ W s' [] := by
  obtain ⟨ls, hd1, hd2⟩ := hd
  obtain ⟨s1, k1, k2⟩ := detect_at hW.lineRead o hs
  rw [hd1] at k1 k2
  simp only [hd2] at k2
  have e1 : (blockOf (some n) []).1 = [] := by simp [blockOf]
  have e2 : (blockOf (some n) []).2 = [] := by simp [blockOf]
  obtain ⟨x, p, b', raw0, raw', raw'', w1, w2, w3, w4, w5, w6⟩ := load_http hW k1 k2 hc hlen hp hh (by simpa using hn)
  rcases w6 with ⟨hd, hx, _⟩ | ⟨_, _, w7⟩ | ⟨hv', _⟩
  · exfalso
    rw [e1, e2] at w2
    have hU : ShortLine (fun (raw : RawStream τ) b => raw.View W b []) := by
      refine ⟨?_, fun h => h.bound hW⟩
      intro raw b h1
      obtain ⟨p, b', raw', q1, q2, q3, _, _, q6, _⟩ := h1.call hW (c := .readline none) (by intro n hn; cases hn)
      exact ⟨p, b', raw', q2, fun hp => (q6 hp).resolve_right (fun h => by cases h), q1, q3⟩
    have := HeaderParser.parse_empty hU (parserFor o.verifyHttp (fields f h).recType) w2
    rw [w3, hx] at this
    cases this
  · rw [if_neg hr, e2] at w7
    exact ⟨_, w7⟩
  · rw [hv] at hv'; cases hv'

theorem gone_stops (L : LawfulGzip IsMember) (hV : ShortRead V) {tl : Bytes} (h0 : tl ≠ [])
    (hload : ∀ kf id, K kf → ∀ {s : BufReader σ} {st : Option Bytes}, ReadyAt (PlainAt V T N bs) s st tl → ∃ s', parseRecordStream (io.load kf id) s (st.map .bytes) = (.error .eofError, s') ∧ PlainAt V T N bs s' []) :
    Stops .stopIteration (PlainTop V T N bs io m K tl (σ := σ)) := by
  intro it h fuel
  obtain ⟨is, h1, h2, h3, h4⟩ := h.view
  cases is with
  | cons i is => exact h1.elim
  | nil =>
    have hN : 0 < N := by have := List.length_pos_iff.2 h0; have e : bytesOf tl [] = tl := rfl; rw [e] at h4; omega
    have e : it.loadOpts = io.load it.knownFormat (it.opts.ids it.loads) := by rw [← h.base.opts]; rfl
    obtain ⟨s1, k1, k2⟩ := hload it.knownFormat (it.opts.ids it.loads) h.base.known h2
    rw [← e] at k1
    refine stop_eof h.base.closed h.offered k1 ?_ fuel
    intro hd
    rw [PlainAt.plain k2 hN] at hd
    cases hd

end
end ArchiveIter
end Warcio

import Verif.Spec.GzParts
import Verif.Proofs.Parts

/-! # Iterating over any file of gzip members -/

set_option linter.unusedSectionVars false

namespace Warcio

open Loader BufReader

namespace ArchiveIter

/-! ## Behind a block -/

section
variable {σ : Type} [Zlib] [PyStream σ] [Hashlib] {W : BufReader σ → Bytes → Prop} {E : BufReader σ → Prop} {q : Prop}

theorem blank_to (hW : ExactRead W) (hE : ∀ {r r'}, W r [] → PyStream.readline r none = (.ok [], r') → E r') : ∀ (fuel : Nat) (tl : Bytes) (n : Int) {it : ArchiveIter σ}, W it.reader tl → tl.length < fuel →
    ∃ next k r', blankLoop fuel false n it = (.ok (next, k), it.setReader r') ∧
      ReadyAt W r' next ((splitLines tl).dropWhile blankLine).flatten ∧ (((splitLines tl).dropWhile blankLine).flatten = [] → next = none ∧ E r') := by
  intro fuel
  induction fuel with
  | zero => intro tl n it _ h; omega
  | succ fuel ih =>
    intro tl n it h hf
    obtain ⟨r', k1, k2⟩ := hW.readline_none h
    rw [blankLoop, k1]
    dsimp only
    by_cases hr : tl = []
    · subst hr
      exact ⟨none, _, r', rfl, .inl ⟨rfl, k2⟩, fun _ => ⟨rfl, hE h k1⟩⟩
    · rw [splitLines_cons hr]
      have h1 : (takeLine tl).isEmpty = false := by simpa using takeLine_ne_nil hr
      rw [h1, ← blankLine_eq]
      simp only [Bool.false_eq_true, if_false]
      cases hb : blankLine (takeLine tl) with
      | true =>
        simp only [if_true, List.dropWhile_cons, hb]
        have hlen : (dropLine tl).length < fuel := by
          have := congrArg List.length (takeLine_append_dropLine tl)
          have h2 := List.length_pos_iff.2 (takeLine_ne_nil hr)
          simp only [List.length_append] at this
          omega
        obtain ⟨next, k, r2, m1, m2, m3⟩ := ih (dropLine tl) (n + len (takeLine tl)) (it := it.setReader r') (by rw [reader_setReader]; exact k2) hlen
        exact ⟨next, k, r2, by rw [m1, setReader_setReader], m2, m3⟩
      | false =>
        simp only [Bool.false_eq_true, if_false, List.dropWhile_cons, hb]
        have e : (takeLine tl :: splitLines (dropLine tl)).flatten = tl := by rw [← splitLines_cons hr, splitLines_flatten]
        rw [e]
        exact ⟨some (takeLine tl), _, r', rfl, .inr ⟨rfl, hr, k2⟩, fun h0 => absurd h0 hr⟩

theorem consume_to (hW : ExactRead W) (hE : ∀ {r r'}, W r [] → PyStream.readline r none = (.ok [], r') → E r') {it : ArchiveIter σ} {tl : Bytes} (h : W it.reader tl) :
    ∃ next k r' ws, it.consumeBlanklines = (.ok (next, k), { it.setReader r' with warnings := it.warnings ++ ws }) ∧ ws.map (·.2) = strayLines tl ∧
      ReadyAt W r' next (resumed tl) ∧ (resumed tl = [] → next = none ∧ E r') := by
  have hb := hW.bound h
  unfold consumeBlanklines
  obtain ⟨r', k1, k2⟩ := hW.readline_none h
  rw [blankLoop, k1]
  dsimp only
  by_cases hr : tl = []
  · subst hr
    refine ⟨none, 0, r', [], ?_, rfl, .inl ⟨rfl, k2⟩, fun _ => ⟨rfl, hE h k1⟩⟩
    simp [takeLine, setReader]
  · have h1 : (takeLine tl).isEmpty = false := by simpa using takeLine_ne_nil hr
    have hlen := congrArg List.length (takeLine_append_dropLine tl)
    have hpo := List.length_pos_iff.2 (takeLine_ne_nil hr)
    simp only [List.length_append] at hlen
    have e2 : resumed tl = ((splitLines (dropLine tl)).dropWhile blankLine).flatten := by
      unfold resumed
      rw [splitLines_cons hr]
      rfl
    rw [h1, ← blankLine_eq, e2]
    simp only [Bool.false_eq_true, if_false, if_true]
    cases hbl : blankLine (takeLine tl) with
    | true =>
      have e3 : strayLines tl = [] := by
        unfold strayLines
        rw [splitLines_cons hr]
        simp [hbl]
      simp only [if_true]
      obtain ⟨next, k, r2, m1, m2, m3⟩ := blank_to hW hE (PyStream.bound it.reader + 1) (dropLine tl) (0 + len (takeLine tl)) (it := it.setReader r') (by rw [reader_setReader]; exact k2) (by omega)
      refine ⟨next, k, r2, [], ?_, by rw [e3]; rfl, m2, m3⟩
      rw [m1, setReader_setReader]
      simp [setReader]
    | false =>
      have e3 : strayLines tl = [takeLine tl] := by
        unfold strayLines
        rw [splitLines_cons hr]
        simp [hbl]
      simp only [Bool.false_eq_true, if_false]
      obtain ⟨next, k, r2, m1, m2, m3⟩ := blank_to hW hE (PyStream.bound it.reader + 1) (dropLine tl) (0 + len (takeLine tl))
        (it := { it.setReader r' with warnings := (it.setReader r').warnings ++ [((it.setReader r').position - (0 + len (takeLine tl)), takeLine tl)] }) (by show W (it.setReader r').reader _; rw [reader_setReader]; exact k2) (by omega)
      refine ⟨next, k, r2, [((it.setReader r').position - (0 + len (takeLine tl)), takeLine tl)], ?_, by rw [e3]; rfl, m2, m3⟩
      rw [m1]
      simp only [setReader, RawStream.setUnder_setUnder]

end

section
variable {σ : Type} [Zlib] [PyStream σ] [Hashlib] {V : σ → Bytes → Prop} {IsMember : Bytes → Bytes → Prop} {T : Int} {bs : Nat} {Q : Bytes → Prop} {q : Prop}

/-- At the end of a member. -/
def MemberEnd (L : LawfulGzip IsMember) (V : σ → Bytes → Prop) (T : Int) (bs : Nat) (Q : Bytes → Prop) (rest : Bytes) (r : BufReader σ) (rem : Bytes) : Prop :=
  rem = [] ∧ GzAt L V T bs Q rest r [] ∧ GzEnd L (Tells V T) (Sizes bs Q) rest r

theorem memberEnd_exact (L : LawfulGzip IsMember) (hV : ShortRead V) (rest : Bytes) : ExactRead (MemberEnd L V T bs Q rest (σ := σ)) := by
  have hF := gz_fillLaw (P := Sizes bs Q) L (Tells.short (T := T) hV) rest
  refine BufReader.exactRead ⟨?_, ?_, ?_, ?_, ?_⟩
  · rintro r rem ⟨rfl, h1, -⟩; exact hF.pre h1
  · rintro r rem ⟨rfl, h1, -⟩
    obtain ⟨r', k1, k2, -, k4⟩ := gz_fill L (Tells.short hV) h1
    exact ⟨r', k1, ⟨rfl, k2, k4 rfl⟩, fun h => absurd rfl h⟩
  · rintro r rem ⟨rfl, h1, h2⟩; rw [empty_one h2.one]; exact ⟨rfl, h1, h2⟩
  · rintro r rem ⟨rfl, h1, h2⟩ k hk
    refine ⟨by simp, by simpa using hF.take h1 k hk, ?_⟩
    have hb := noBuff_iff.1 h2.buff
    refine ⟨h2.dtype, h2.chunk, h2.block, h2.one, h2.decomp, noBuff_iff.2 (by simp [hb]), h2.sd, h2.split, h2.fin, h2.prev⟩
  · rintro r rem ⟨rfl, -, -⟩; exact Nat.zero_le _

/-- The record has been read to its end, and so have the lines behind it; `data` is next in the
member. -/
def GzDone (L : LawfulGzip IsMember) (V : σ → Bytes → Prop) (T : Int) (bs : Nat) (Q : Bytes → Prop) (q : Prop) (rest : Bytes) (raw : RawStream (BufReader σ)) (next : Option Bytes) (data : Bytes) : Prop :=
  ReadyAt (GzAt L V T bs Q rest) raw.under next data ∧ (data = [] → next = none ∧ GzEnd L (Tells V T) (Sizes bs Q) rest raw.under) ∧
    (raw.Idle ∨ (data = [] ∧ raw.Lies (MemberEnd L V T bs Q rest) q [] []))

theorem lies_end {L : LawfulGzip IsMember} {rest : Bytes} {raw : RawStream (BufReader σ)} (h : raw.Lies (GzAt L V T bs Q rest) q [] []) {r : BufReader σ} (hr : MemberEnd L V T bs Q rest r []) :
    (raw.setUnder r).Lies (MemberEnd L V T bs Q rest) q [] [] := by
  cases raw with
  | bare s => exact ⟨hr, rfl⟩
  | limited s => exact ⟨hr, h.le, fun _ => rfl⟩
  | verifying d => exact ⟨h.1, h.2.1, hr, h.2.2.le, fun _ => rfl⟩

theorem gz_isSome {L : LawfulGzip IsMember} {rest : Bytes} {r : BufReader σ} {next : Option Bytes} {data : Bytes} (h : ReadyAt (GzAt L V T bs Q rest) r next data) : r.decompressor.isSome = true := by
  rcases h with ⟨_, h⟩ | ⟨_, _, h⟩ <;> (obtain ⟨hist, _, _, _, _, _, hd, _⟩ := h.split; rw [hd]; rfl)

theorem readToEnd_to (L : LawfulGzip IsMember) (hV : ShortRead V) {it : ArchiveIter σ} {left tl rest : Bytes}
    (hr : it.record.isSome = true) (hm : it.memberInfo = none) (hv : it.raw.Lies (GzAt L V T bs Q rest) q left tl) :
    (∃ raw' next off size ws, it.readToEnd = (.ok (), ({ it with raw := raw', nextLine := next, offset := off, memberInfo := some (it.offset, size), warnings := it.warnings ++ ws } : ArchiveIter σ)) ∧
      ws.map (·.2) = strayLines tl ∧ (resumed tl = [] → off = T - len rest ∧ size = T - len rest - it.offset) ∧
      GzDone L V T bs Q q rest raw' next (resumed tl) ∧ raw'.checkerAt [] = it.raw.checkerAt left) ∨
    (q ∧ ∃ e raw' left', it.readToEnd = (.error e, { it with raw := raw' }) ∧ Odd e ∧ left' <:+ left ∧ raw'.Lies (GzAt L V T bs Q rest) q left' tl) := by
  have hW := gzAt_exact (T := T) (bs := bs) (Q := Q) L hV rest
  have h1 : it.record.isNone = false := by cases h : it.record <;> simp_all
  obtain ⟨x, raw1, b', d1, d2, d3, d4⟩ := drain_any hW (PyStream.bound it.raw + 2) hv (by have := hv.bound hW; omega)
  rcases d4 with ⟨rfl, rfl, d5⟩ | ⟨hq, e, rfl, he⟩
  · left
    have hu := d2.under
    rw [List.nil_append] at hu
    have hE : ∀ {r r' : BufReader σ}, GzAt L V T bs Q rest r [] → PyStream.readline r none = (.ok [], r') → MemberEnd L V T bs Q rest r' [] := by
      intro r r' h h'
      obtain ⟨r2, k1, k2, k3⟩ := gz_readline_last L (Tells.short hV) h
      have h' : r.readline none = (.ok [], r') := h'
      rw [k1] at h'
      cases h'
      exact ⟨rfl, k3, k2⟩
    obtain ⟨next, k, r2, ws, hc, e1, e2, e3⟩ := consume_to hW hE (it := { it with raw := raw1 }) hu
    have hdn : r2.decompressor.isNone = false := by have := gz_isSome e2; cases h : r2.decompressor <;> simp_all
    refine ⟨raw1.setUnder r2, next, PyStream.tell r2.stream - r2.remLength - len (next.getD []), PyStream.tell r2.stream - r2.remLength - len (next.getD []) - it.offset, ws, ?_, e1, ?_, ⟨?_, ?_, ?_⟩, (RawStream.checkerAt_setUnder _ _ _).trans d5⟩
    · unfold readToEnd
      rw [h1, hm, d1]
      simp only [Option.isSome_none, Bool.false_eq_true, if_false]
      rw [hc]
      simp only [position, reader, setReader, RawStream.under_setUnder, hdn, Bool.false_eq_true, if_false, Int.sub_zero]
    · intro h0
      obtain ⟨rfl, -, -, e4⟩ := e3 h0
      rw [gzEnd_position e4]
      constructor <;> simp [len]
    · rw [RawStream.under_setUnder]; exact e2
    · intro h0
      obtain ⟨e4, -, -, e5⟩ := e3 h0
      rw [RawStream.under_setUnder]; exact ⟨e4, e5⟩
    · by_cases ht : tl = []
      · right
        subst ht
        obtain ⟨-, e5⟩ := e3 rfl
        exact ⟨rfl, lies_end d2 e5⟩
      · exact .inl ((d2.idle ht).setUnder _)
  · right
    refine ⟨hq, e, raw1, b', ?_, he, d3, d2⟩
    unfold readToEnd
    rw [h1, d1, hm]
    simp only [Option.isSome_none, Bool.false_eq_true, if_false]

end

/-! ## The iteration -/

section
variable {σ : Type} [Zlib] [PyStream σ] [Hashlib] [PyUni] {V : σ → Bytes → Prop} {IsMember : Bytes → Bytes → Prop} {T : Int} {bs : Nat} {Q : Bytes → Prop} {io : IterOpts}

/-- All of the members. -/
abbrev membersOf (ms : List (Bytes × Bytes)) : Bytes := ms.flatMap (·.1)

/-- Before the member `z`, which holds `data`. -/
structure GTop (L : LawfulGzip IsMember) (V : σ → Bytes → Prop) (T : Int) (bs : Nat) (Q : Bytes → Prop) (io : IterOpts) (n : Nat) (kf : Option Format) (off : Int) (ws : List Bytes) (z data : Bytes) (ms : List (Bytes × Bytes))
    (it : ArchiveIter σ) : Prop where
  opts : it.opts = io
  known : it.knownFormat = kf
  loads : it.loads = n
  closed : it.closed = false
  calm : it.raiseInvalidGzip = false
  more : it.emptyRecord = false
  quiet : it.warnings.map (·.2) = ws
  offered : it.record = none ∨ it.memberInfo.isSome = true
  offset : it.offset = off
  total : off + len z + len (membersOf ms) = T
  mem : ∀ x ∈ ms, IsMember x.1 x.2 ∧ Q x.1
  line : it.nextLine = none
  view : GzAt L V T bs Q (membersOf ms) it.reader data

/-- Behind the first record of the last member; `data` is left. -/
structure GLast (L : LawfulGzip IsMember) (V : σ → Bytes → Prop) (T : Int) (bs : Nat) (Q : Bytes → Prop) (io : IterOpts) (n : Nat) (kf : Option Format) (data : Bytes)
    (it : ArchiveIter σ) : Prop where
  opts : it.opts = io
  known : it.knownFormat = kf
  loads : it.loads = n
  closed : it.closed = false
  raises : it.raiseInvalidGzip = true
  offered : it.record = none ∨ it.memberInfo.isSome = true
  ready : ReadyAt (GzAt L V T bs Q []) it.reader it.nextLine data

/-- While the record `p` is used; its stream holds `left`. -/
structure GAfter (L : LawfulGzip IsMember) (V : σ → Bytes → Prop) (T : Int) (bs : Nat) (Q : Bytes → Prop) (io : IterOpts) (n : Nat) (kf : Option Format) (off : Int) (ws : List Bytes) (z : Bytes) (p : Portion) (ms : List (Bytes × Bytes)) (left : Bytes)
    (it : ArchiveIter σ) : Prop where
  opts : it.opts = io
  known : it.knownFormat = kf
  loads : it.loads = n
  closed : it.closed = false
  calm : it.raiseInvalidGzip = false
  more : it.emptyRecord = false
  gen : it.gen = .yielded
  offered : it.record.isSome = true
  total : off + len z + len (membersOf ms) = T
  mem : ∀ x ∈ ms, IsMember x.1 x.2 ∧ Q x.1
  state : (it.memberInfo = none ∧ it.offset = off ∧ it.warnings.map (·.2) = ws ∧ it.raw.Lies (GzAt L V T bs Q (membersOf ms)) (io.checkDigests.isSome = true) left p.tail) ∨
    (left = [] ∧ (∃ size, it.memberInfo = some (off, size) ∧ (resumed p.tail = [] → size = len z ∧ it.offset = off + len z)) ∧
      it.warnings.map (·.2) = ws ++ strayLines p.tail ∧ GzDone L V T bs Q (io.checkDigests.isSome = true) (membersOf ms) it.raw it.nextLine (resumed p.tail))

variable {L : LawfulGzip IsMember} {n : Nat} {kf : Option Format} {off : Int} {ws : List Bytes} {z : Bytes} {p : Portion} {ms : List (Bytes × Bytes)} {left : Bytes} {it : ArchiveIter σ}

theorem GAfter.toEnd (hV : ShortRead V) (h : GAfter L V T bs Q io n kf off ws z p ms left it) :
    ∃ x it', it.readToEnd = (x, it') ∧
      ((x = .ok () ∧ (∃ size, it'.memberInfo = some (off, size) ∧ (resumed p.tail = [] → size = len z)) ∧ GAfter L V T bs Q io n kf off ws z p ms [] it' ∧ it'.raw.checkerAt [] = it.raw.checkerAt left) ∨
       (io.checkDigests.isSome = true ∧ ∃ e left', x = .error e ∧ Odd e ∧ it.memberInfo = none ∧ left' <:+ left ∧ GAfter L V T bs Q io n kf off ws z p ms left' it')) := by
  rcases h.state with ⟨h1, h2, h3, h4⟩ | ⟨rfl, ⟨size, h1, h2⟩, h3, h4⟩
  · rcases readToEnd_to L hV h.offered h1 h4 with ⟨raw', next, off', size, ws', k1, k2, k3, k4, k5⟩ | ⟨hq, e, raw', left', k1, k2, k3, k4⟩
    · rw [h2] at k1 k3
      have hs : resumed p.tail = [] → size = len z ∧ off' = off + len z := by
        intro h0
        obtain ⟨a, b⟩ := k3 h0
        have := h.total
        omega
      refine ⟨_, _, k1, .inl ⟨rfl, ⟨size, rfl, fun h0 => (hs h0).1⟩, ⟨h.opts, h.known, h.loads, h.closed, h.calm, h.more, h.gen, h.offered, h.total, h.mem, .inr ⟨rfl, ⟨size, rfl, hs⟩, ?_, k4⟩⟩, k5⟩⟩
      show (it.warnings ++ ws').map (·.2) = _
      rw [List.map_append, h3, k2]
    · exact ⟨_, _, k1, .inr ⟨hq, e, left', rfl, k2, h1, k3, ⟨h.opts, h.known, h.loads, h.closed, h.calm, h.more, h.gen, h.offered, h.total, h.mem, .inl ⟨h1, h2, h3, k4⟩⟩⟩⟩
  · refine ⟨.ok (), it, ?_, .inl ⟨rfl, ⟨size, h1, fun h0 => (h2 h0).1⟩, h, rfl⟩⟩
    unfold readToEnd
    have hr : it.record.isNone = false := by have := h.offered; cases h : it.record <;> simp_all
    rw [hr, h1]
    rfl

theorem GAfter.getMember (hV : ShortRead V) (h : GAfter L V T bs Q io n kf off ws z p ms left it) (f : Int × Int → Int) :
    ∃ x it' left', it.getMember f = (x, it') ∧ GAfter L V T bs Q io n kf off ws z p ms left' it' ∧
      ((∃ size, x = .ok (f (off, size)) ∧ left' = [] ∧ (resumed p.tail = [] → size = len z)) ∨ (io.checkDigests.isSome = true ∧ (∃ e, x = .error e) ∧ left' <:+ left)) := by
  obtain ⟨x, it', k1, k2⟩ := h.toEnd hV
  unfold ArchiveIter.getMember
  by_cases hm : it.memberInfo.isNone = true
  · rw [if_pos hm, k1]
    rcases k2 with ⟨rfl, ⟨size, k2, k2'⟩, k3, -⟩ | ⟨hq, e, left', rfl, _, _, k4, k5⟩
    · exact ⟨_, it', [], rfl, k3, .inl ⟨size, by simp [memberField, k2], rfl, k2'⟩⟩
    · exact ⟨_, it', left', rfl, k5, .inr ⟨hq, ⟨e, rfl⟩, k4⟩⟩
  · rw [if_neg hm]
    rcases h.state with ⟨h1, _⟩ | ⟨rfl, ⟨size, h1, h2⟩, _⟩
    · rw [h1] at hm; exact absurd rfl hm
    · exact ⟨_, it, [], rfl, h, .inl ⟨size, by simp [memberField, h1], rfl, fun h0 => (h2 h0).1⟩⟩

theorem GAfter.op (hV : ShortRead V) (h : GAfter L V T bs Q io n kf off ws z p ms left it) {op : UserOp} (hop : op.nonneg) :
    ∃ v it' left', op.run it = (v, it') ∧ p.GzAnswer io off (len z) ws left op v left' ∧ GAfter L V T bs Q io n kf off ws z p ms left' it' := by
  cases op with
  | call c =>
    have again : ∀ {raw' : RawStream (BufReader σ)} {left' : Bytes}, ((it.memberInfo = none ∧ it.offset = off ∧ it.warnings.map (·.2) = ws ∧ raw'.Lies (GzAt L V T bs Q (membersOf ms)) (io.checkDigests.isSome = true) left' p.tail) ∨
        (left' = [] ∧ (∃ size, it.memberInfo = some (off, size) ∧ (resumed p.tail = [] → size = len z ∧ it.offset = off + len z)) ∧
          it.warnings.map (·.2) = ws ++ strayLines p.tail ∧ GzDone L V T bs Q (io.checkDigests.isSome = true) (membersOf ms) raw' it.nextLine (resumed p.tail))) →
        GAfter L V T bs Q io n kf off ws z p ms left' { it with raw := raw' } := fun hs =>
      ⟨h.opts, h.known, h.loads, h.closed, h.calm, h.more, h.gen, h.offered, h.total, h.mem, hs⟩
    rcases h.state with ⟨h1, h2, h3, h4⟩ | ⟨rfl, h1, h3, h4, h4', h5⟩
    · obtain ⟨b, b', raw', x, k1, k2, k3, k4⟩ := h4.call (gzAt_exact L hV _) hop
      refine ⟨_, _, b', by simp only [UserOp.run, k1]; rfl, ?_, again (.inl ⟨h1, h2, h3, k3⟩)⟩
      rcases k4 with ⟨rfl, k4, k5⟩ | ⟨hq, e, rfl, _⟩
      · exact .inr ⟨b, rfl, k2, k4, k5⟩
      · exact .inl ⟨hq, ⟨e, rfl⟩, (fun h => by cases h), ⟨b, k2.symm⟩⟩
    · rcases h5 with h5 | ⟨h5, h7⟩
      · have k1 := h5.call hop
        refine ⟨_, _, [], by simp only [UserOp.run, k1]; rfl, ?_, again (.inr ⟨rfl, h1, h3, h4, h4', .inl h5⟩)⟩
        refine .inr ⟨[], rfl, rfl, fun _ => .inl rfl, ?_⟩
        rintro k rfl
        cases k <;> simp [Call.expect]
      · obtain ⟨b, b', raw', x, k1, k2, k3, k4⟩ := h7.call (memberEnd_exact L hV _) hop
        obtain ⟨rfl, rfl⟩ := List.append_eq_nil_iff.1 k2.symm
        obtain ⟨-, u1, u2⟩ := k3.under
        have hn := (h4' h5).1
        refine ⟨_, _, [], by simp only [UserOp.run, k1]; rfl, ?_, again (.inr ⟨rfl, h1, h3, .inl ⟨hn, by rw [h5]; exact u1⟩, fun _ => ⟨hn, u2⟩, .inr ⟨h5, k3⟩⟩)⟩
        rcases k4 with ⟨rfl, k4, k5⟩ | ⟨hq, e, rfl, _⟩
        · exact .inr ⟨[], rfl, rfl, k4, k5⟩
        · exact .inl ⟨hq, ⟨e, rfl⟩, (fun h => by cases h), List.suffix_rfl⟩
  | errors =>
    refine ⟨_, it, left, rfl, .inr ⟨rfl, it.warnings, rfl, ?_⟩, h⟩
    rcases h.state with ⟨_, _, h3, _⟩ | ⟨_, _, h3, _⟩
    · exact .inl h3
    · exact .inr h3
  | toEnd =>
    obtain ⟨x, it', k1, k2⟩ := h.toEnd hV
    rcases k2 with ⟨rfl, _, k3, -⟩ | ⟨hq, e, left', rfl, _, _, k4, k5⟩
    · exact ⟨_, it', [], by simp only [UserOp.run, k1]; rfl, .inr ⟨rfl, rfl⟩, k3⟩
    · exact ⟨_, it', left', by simp only [UserOp.run, k1]; rfl, .inl ⟨hq, ⟨e, rfl⟩, (fun h => by cases h), k4⟩, k5⟩
  | offset =>
    obtain ⟨x, it', left', k1, k2, k3⟩ := h.getMember hV (·.1)
    refine ⟨_, it', left', by simp only [UserOp.run, getRecordOffset, k1]; rfl, ?_, k2⟩
    rcases k3 with ⟨size, rfl, rfl, -⟩ | ⟨hq, ⟨e, rfl⟩, k3⟩
    · exact .inr ⟨rfl, rfl⟩
    · exact .inl ⟨hq, ⟨e, rfl⟩, (fun h => by cases h), k3⟩
  | size =>
    obtain ⟨x, it', left', k1, k2, k3⟩ := h.getMember hV (·.2)
    refine ⟨_, it', left', by simp only [UserOp.run, getRecordLength, k1]; rfl, ?_, k2⟩
    rcases k3 with ⟨size, rfl, rfl, k4⟩ | ⟨hq, ⟨e, rfl⟩, k3⟩
    · exact .inr ⟨size, rfl, rfl, k4⟩
    · exact .inl ⟨hq, ⟨e, rfl⟩, (fun h => by cases h), k3⟩

theorem GAfter.ops (hV : ShortRead V) : ∀ (ops : List UserOp) {left : Bytes} {it : ArchiveIter σ}, GAfter L V T bs Q io n kf off ws z p ms left it →
    (∀ o ∈ ops, o.nonneg) → ∃ vs it' left', runOps it ops = (vs, it') ∧ p.GzAnswers io off (len z) ws left ops vs ∧ GAfter L V T bs Q io n kf off ws z p ms left' it' := by
  intro ops
  induction ops with
  | nil => intro left it h _; exact ⟨[], it, left, rfl, .nil _, h⟩
  | cons o ops ih =>
    intro left it h ho
    obtain ⟨v, it1, left1, k1, k2, k3⟩ := h.op hV (ho o (by simp))
    obtain ⟨vs, it2, left2, m1, m2, m3⟩ := ih k3 (fun o h => ho o (by simp [h]))
    exact ⟨v :: vs, it2, left2, by simp only [runOps, k1, m1], .cons _ _ _ _ _ _ k2 m2, m3⟩

/-- One turn of the generator, in a member that is read from its beginning. -/
theorem GTop.load (hV : ShortRead V) {m : Nat} (hX : ∀ rest, LineLaw (GzAt L V T bs Q rest (σ := σ)) m) {data : Bytes} (h : GTop L V T bs Q io n kf off ws z data ms it) (fuel : Nat) :
    (∃ (p : Portion) (rec : Record Unit) (left : Bytes) (it' : ArchiveIter σ), genLoop (fuel + 1) it = (.ok (), it') ∧ it'.record = some rec ∧ data = p.all ∧ p.Shows (io.load kf (io.ids n)) rec ∧ p.Parsed (io.load kf (io.ids n)) m rec left ∧ left <:+ p.block ∧
      (io.noRecordParse = true ∨ ¬ HttpType rec.recType → left = p.block) ∧
      GAfter L V T bs Q io (n + 1) (if io.arc2warc then kf else some rec.format) off ws z p ms left it' ∧ it'.memberInfo = none ∧ it'.raw.Lies (GzAt L V T bs Q (membersOf ms)) (io.checkDigests.isSome = true) left p.tail ∧
      (io.checkDigests.isSome = true → io.checkDigests ≠ some .raise → rec.Usable → it'.raw.View (GzAt L V T bs Q (membersOf ms)) left p.tail ∧ p.Verdict rec left (it'.raw.checkerAt left).passed ∧ (it'.raw.checkerAt left).Loud)) ∨
    (∃ e it', genLoop (fuel + 1) it = (.error e, it') ∧ it'.gen = .finished ∧ (e ≠ .stopIteration ∨ ms = []) ∧ Over (io.load kf (io.ids n)) m data e) ∨
    (ms ≠ [] ∧ Over (io.load kf (io.ids n)) m data .stopIteration) := by
  have hW := gzAt_exact (T := T) (bs := bs) (Q := Q) L hV (membersOf ms)
  have eo : it.loadOpts = io.load kf (io.ids n) := by
    unfold loadOpts
    rw [h.opts, h.known, h.loads]
    rfl
  rcases load_any' hW (hX _) (io.load kf (io.ids n)) (.inl ⟨h.line, h.view⟩ : ReadyAt _ it.reader it.nextLine data) with ⟨p, rec, left, k1, k2, k3, k3', k4, k5, k6, k8⟩ | ⟨e, s1, rest, k1, k2, k3⟩
  · left
    have hn : it.nextRecord = (.ok (), ({ it with raw := rec.rawStream, record := some rec.plain, memberInfo := none, knownFormat := if it.opts.arc2warc then it.knownFormat else some rec.format, loads := it.loads + 1 } : ArchiveIter σ)) := by
      unfold nextRecord
      rw [h.closed, eo, k2]
      rfl
    refine ⟨p, rec.plain, left, ({ it with raw := rec.rawStream, record := some rec.plain, memberInfo := none, knownFormat := if it.opts.arc2warc then it.knownFormat else some rec.format, loads := it.loads + 1, gen := .yielded } : ArchiveIter σ), ?_, rfl, k1, k3, k3', k4, k5, ?_, rfl, k6, k8⟩
    · unfold genLoop
      rw [hn]
      simp only [h.calm, Bool.false_eq_true, if_false]
    · refine ⟨h.opts, ?_, ?_, h.closed, h.calm, h.more, rfl, rfl, h.total, h.mem, .inl ⟨rfl, h.offset, h.quiet, k6⟩⟩
      · show (if it.opts.arc2warc then it.knownFormat else some rec.format) = _
        rw [h.opts, h.known]; rfl
      · show it.loads + 1 = _; rw [h.loads]
  · right
    rcases k3 with ⟨rfl, k3⟩ | ⟨h1, k3⟩
    · by_cases hms : ms = []
      · left
        subst hms
        obtain ⟨it', m1, m2⟩ := stop_eof h.closed h.offered (by rw [eo]; exact k1) (fun _ => (gz_unused_nil L k2).2.2) fuel
        exact ⟨_, it', m1, m2, .inr rfl, k3⟩
      · exact .inr ⟨hms, k3⟩
    · left
      have hn : it.nextRecord = (.error e, { it.setReader s1 with loads := it.loads + 1 }) := by
        unfold nextRecord
        rw [h.closed, eo, k1]
        rfl
      refine ⟨e, ({ it.setReader s1 with loads := it.loads + 1, gen := .finished } : ArchiveIter σ), ?_, rfl, .inl h1.2, k3⟩
      unfold genLoop
      rw [hn]
      cases e <;> first | rfl | exact absurd rfl h1.1

/-- One turn of the generator, behind the first record of the last member. -/
theorem GLast.load (hV : ShortRead V) {m : Nat} (hX : ∀ rest, LineLaw (GzAt L V T bs Q rest (σ := σ)) m) {data : Bytes} (h : GLast L V T bs Q io n kf data it) (fuel : Nat) :
    ∃ e it', genLoop (fuel + 1) it = (.error e, it') ∧ it'.gen = .finished ∧
      (Over (io.load kf (io.ids n)) m data e ∨ (e = .nonChunkedGzip ∧ ∃ (p : Portion) (rec : Record Unit), data = p.all ∧ p.Shows (io.load kf (io.ids n)) rec)) := by
  have hW := gzAt_exact (T := T) (bs := bs) (Q := Q) L hV []
  have eo : it.loadOpts = io.load kf (io.ids n) := by
    unfold loadOpts
    rw [h.opts, h.known, h.loads]
    rfl
  rcases load_any' hW (hX _) (io.load kf (io.ids n)) h.ready with ⟨p, rec, left, k1, k2, k3, -⟩ | ⟨e, s1, rest, k1, k2, k3⟩
  · have hn : it.nextRecord = (.ok (), ({ it with raw := rec.rawStream, record := some rec.plain, memberInfo := none, knownFormat := if it.opts.arc2warc then it.knownFormat else some rec.format, loads := it.loads + 1 } : ArchiveIter σ)) := by
      unfold nextRecord
      rw [h.closed, eo, k2]
      rfl
    refine ⟨_, ({ it with raw := rec.rawStream, record := some rec.plain, memberInfo := none, knownFormat := if it.opts.arc2warc then it.knownFormat else some rec.format, loads := it.loads + 1, gen := .finished } : ArchiveIter σ), ?_, rfl, .inr ⟨rfl, p, rec.plain, k1, k3⟩⟩
    unfold genLoop
    rw [hn]
    simp only [h.raises, if_true]
  · rcases k3 with ⟨rfl, k3⟩ | ⟨h1, k3⟩
    · obtain ⟨it', m1, m2⟩ := stop_eof h.closed h.offered (by rw [eo]; exact k1) (fun _ => (gz_unused_nil L k2).2.2) fuel
      exact ⟨_, it', m1, m2, .inl k3⟩
    · have hn : it.nextRecord = (.error e, { it.setReader s1 with loads := it.loads + 1 }) := by
        unfold nextRecord
        rw [h.closed, eo, k1]
        rfl
      refine ⟨e, ({ it.setReader s1 with loads := it.loads + 1, gen := .finished } : ArchiveIter σ), ?_, rfl, .inl k3⟩
      unfold genLoop
      rw [hn]
      cases e <;> first | rfl | exact absurd rfl h1.1

/-- Behind a record. -/
theorem GAfter.next (hV : ShortRead V) (h : GAfter L V T bs Q io n kf off ws z p ms left it) :
    (∃ z' data' ms' it' k, ms = (z', data') :: ms' ∧ resumed p.tail = [] ∧ it.next = genLoop (k + 1) it' ∧ GTop L V T bs Q io n kf (off + len z) (ws ++ strayLines p.tail) z' data' ms' it') ∨
    (∃ it' k, ms = [] ∧ it.next = genLoop (k + 1) it' ∧ GLast L V T bs Q io n kf (resumed p.tail) it') ∨
    (ms ≠ [] ∧ resumed p.tail ≠ []) ∨
    (it.memberInfo = none ∧ io.checkDigests.isSome = true ∧ ∃ e it', it.next = (.error e, it') ∧ it'.gen = .finished ∧ e ≠ .stopIteration) := by
  obtain ⟨x, it', k1, k2⟩ := h.toEnd hV
  rcases k2 with ⟨rfl, ⟨size, k2, k2'⟩, k3, -⟩ | ⟨hq, e, left', rfl, k2, hm, _⟩
  · rcases k3.state with ⟨h1, _⟩ | ⟨_, ⟨size', h1, h2⟩, h3, h4, h4', h5⟩
    · rw [h1] at k2; cases k2
    · have hoff : it'.memberInfo.isSome = true := by rw [k2]; rfl
      have hmain : it.afterRecord = (let (more, r) := it'.reader.readNextMember
          let it := it'.setReader r
          if more then (.ok true, it)
          else if it.emptyRecord then (.ok false, it)
          else (.ok true, { it with raiseInvalidGzip := true })) := by
        unfold afterRecord
        rw [k1]
        have hdec : it'.reader.decompressor.isSome = true := gz_isSome h4
        simp only [k3.closed, Bool.false_eq_true, if_false, hdec, if_true]
      cases ms with
      | nil =>
        right; left
        have hn : it'.reader.readNextMember = (false, it'.reader) := by
          rcases h4 with ⟨_, h4⟩ | ⟨_, _, h4⟩ <;> exact (gz_unused_nil L h4).2.2
        have ha : it.afterRecord = (.ok true, { it' with raiseInvalidGzip := true }) := by
          rw [hmain, hn]
          simp only [setReader_self, k3.more, Bool.false_eq_true, if_false]
        exact ⟨{ it' with raiseInvalidGzip := true }, _, rfl, next_yielded h.gen ha, ⟨k3.opts, k3.known, k3.loads, k3.closed, rfl, .inr hoff, h4⟩⟩
      | cons x ms' =>
        obtain ⟨z', data'⟩ := x
        by_cases hrs : resumed p.tail = []
        · left
          obtain ⟨g1, g2⟩ := h4' hrs
          obtain ⟨hz, hQ⟩ := k3.mem (z', data') (by simp)
          have ez : membersOf ((z', data') :: ms') = z' ++ membersOf ms' := by simp [membersOf]
          rcases gzEnd_next L g2 with ⟨w1, w2⟩ | ⟨w1, r', w2, w3⟩
          · exfalso
            have hmag := (L.magic hz).length_le
            have := congrArg List.length w1
            rw [ez] at this
            simp only [List.length_append, List.length_nil, List.length_cons] at this hmag
            omega
          · obtain ⟨nprev, hbs, _⟩ := g2.prev
            have hg := w3 z' data' (membersOf ms') ez (L.holds hz _) ⟨hbs, hQ⟩
            have ha : it.afterRecord = (.ok true, it'.setReader r') := by
              rw [hmain]
              have w2 : it'.reader.readNextMember = (true, r') := w2
              rw [w2]; rfl
            refine ⟨z', data', ms', it'.setReader r', _, rfl, hrs, next_yielded h.gen ha, ⟨k3.opts, k3.known, k3.loads, k3.closed, k3.calm, k3.more, h3, .inr hoff, (h2 hrs).2, ?_, fun x hx => k3.mem x (by simp [hx]), g1, ?_⟩⟩
            · have := k3.total
              rw [ez] at this
              simp only [len, List.length_append] at this ⊢
              omega
            · rw [reader_setReader]; exact hg
        · right; right; left
          exact ⟨by simp, hrs⟩
  · right; right; right
    have ha : it.afterRecord = (.error e, it') := by
      unfold afterRecord
      rw [k1]
    refine ⟨hm, hq, e, { it' with gen := .finished }, ?_, rfl, k2.2⟩
    unfold ArchiveIter.next
    rw [h.gen]
    simp only
    rw [ha]

theorem gz_parts (hV : ShortRead V) {m : Nat} (hX : ∀ rest, LineLaw (GzAt L V T bs Q rest (σ := σ)) m) : ∀ (plan : List (List UserOp)) {n : Nat} {kf : Option Format} {off : Int} {ws : List Bytes} {z data : Bytes} {ms : List (Bytes × Bytes)} {it it0 : ArchiveIter σ} {k : Nat},
    it.next = genLoop (k + 1) it0 → GTop L V T bs Q io n kf off ws z data ms it0 → (∀ ops ∈ plan, ∀ o ∈ ops, o.nonneg) → GzParts io m n kf off ws ((z, data) :: ms) plan (iterate it plan) := by
  intro plan
  induction plan with
  | nil => intro n kf off ws z data ms it it0 k _ _ _; exact .enough _ _ _ _ _
  | cons ops plan ih =>
    intro n kf off ws z data ms it it0 k hn ht ho
    rcases ht.load hV hX k with ⟨p, rec, left, it1, k1, k2, rfl, k4, k4', k5, k6, k7, -⟩ | ⟨e, it1, k1, k2, k3, k4⟩ | ⟨k1, k2⟩
    · obtain ⟨vs, it2, left2, m1, m2, m3⟩ := k7.ops hV ops (ho ops (by simp))
      simp only [iterate, hn, k1, m1, k2]
      by_cases hrs : resumed p.tail = []
      · refine .record n kf off ws z p ms ops plan rec left vs _ k4 k4' k5 k6 m2 hrs ?_
        cases plan with
        | nil => exact .enough _ _ _ _ _
        | cons ops' plan =>
          rcases m3.next hV with ⟨z', data', ms', it3, k', rfl, q0, q1, q2⟩ | ⟨it3, k', rfl, q1, q2⟩ | ⟨_, q1⟩ | ⟨_, hq, e, it3, q1, q2, q3⟩
          · exact ih q1 q2 (fun ops h => ho ops (by simp [h]))
          · obtain ⟨e, it4, r1, r2, r3⟩ := q2.load hV hX k'
            rw [hrs] at r3
            simp only [iterate, q1, r1]
            rw [finished_iterate plan r2]
            rcases r3 with r3 | ⟨_, p', rec', r3, r4⟩
            · have he : e = .stopIteration := by
                cases r3 <;> first | rfl | (rename_i h0 _; exact absurd rfl h0) | (rename_i h0 _ _; exact absurd rfl h0) | contradiction
              subst he
              exact .nil _ _ _ _ _ _
            · exfalso
              have := r4.some
              unfold Portion.all at r3
              exact this (List.append_eq_nil_iff.1 (List.append_eq_nil_iff.1 r3.symm).1).1
          · exact absurd hrs q1
          · simp only [iterate, q1]
            rw [finished_iterate plan q2]
            exact .broken _ _ _ _ _ _ _ e (Nat.succ_pos _) hq q3
      · refine .several n kf off ws z p ms ops plan rec left vs _ k4 k4' k5 k6 m2 hrs ?_
        rintro rfl
        cases plan with
        | nil => exact .enough
        | cons ops' plan =>
          rcases m3.next hV with ⟨z', data', ms', it3, k', h0, _⟩ | ⟨it3, k', _, q1, q2⟩ | ⟨q1, _⟩ | ⟨_, hq, e, it3, q1, q2, q3⟩
          · cases h0
          · obtain ⟨e, it4, r1, r2, r3⟩ := q2.load hV hX k'
            simp only [iterate, q1, r1]
            rw [finished_iterate plan r2]
            rcases r3 with r3 | ⟨rfl, p', rec', r3, r4⟩
            · exact .over _ _ e r3
            · exact .multi _ _ p' rec' r3 r4
          · exact absurd rfl q1
          · simp only [iterate, q1]
            rw [finished_iterate plan q2]
            exact .broken _ _ e hq q3
    · simp only [iterate, hn, k1]
      rw [finished_iterate plan k2]
      exact .over _ _ _ _ _ _ _ _ _ e k4 k3
    · exact .hollow _ _ _ _ _ _ _ _ _ k1 k2

end
end ArchiveIter

/-- Opening any file of gzip members. -/
theorem open_gz_any [Zlib] [Hashlib] [PyUni] {IsMember : Bytes → Bytes → Prop} (L : LawfulGzip IsMember) {f : FileObj} {bs m : Nat} (hb : 0 < bs) {z data : Bytes} {ms : List (Bytes × Bytes)}
    (hl : m = 0 ∨ (f.caps = [] ∧ ∀ x ∈ (z, data) :: ms, Steady bs m x.1)) (hz : ∀ x ∈ (z, data) :: ms, IsMember x.1 x.2) (hf : f.rest = ((z, data) :: ms).flatMap (·.1)) (io : IterOpts) (kf : Option Format) :
    ∃ V Q it, ShortRead V ∧ (∀ rest, LineLaw (ArchiveIter.GzAt L V (f.origin + len f.rest) bs Q rest) m) ∧ openArchive f io bs kf = .ok it ∧ it.gen = .start ∧
      ArchiveIter.GTop L V (f.origin + len f.rest) bs Q io 0 kf f.origin [] z data ms it := by
  have hf' : f.rest = z ++ ArchiveIter.membersOf ms := by rw [hf]; rfl
  obtain ⟨_, v2⟩ := Source.of_view f
  have go : ∀ {V : Source → Bytes → Prop} {Q : Bytes → Prop}, V (Source.of f) f.rest → (∀ x ∈ (z, data) :: ms, Q x.1) → ∃ it, openArchive f io bs kf = .ok it ∧ it.gen = .start ∧
      ArchiveIter.GTop L V (f.origin + len f.rest) bs Q io 0 kf f.origin [] z data ms it := by
    intro V Q v1 hQ
    obtain ⟨r, k1, k2⟩ := gz_new (V := Tells V (f.origin + len f.rest)) (P := ArchiveIter.Sizes bs Q) L (Source.of f) (rest := ArchiveIter.membersOf ms) (L.holds (hz (z, data) (by simp)) _)
      ⟨by rw [← hf']; exact v1, by rw [v2, ← hf']⟩ hb ⟨rfl, hQ (z, data) (by simp)⟩
    refine ⟨{ opts := io, raw := .bare r, offset := PyStream.tell (Source.of f), knownFormat := kf }, ?_, rfl, ?_⟩
    · simp only [openArchive, ArchiveIter.new, k1]
    · refine ⟨rfl, rfl, rfl, rfl, rfl, rfl, rfl, .inl rfl, v2, ?_, fun x hx => ⟨hz x (by simp [hx]), hQ x (by simp [hx])⟩, rfl, k2⟩
      rw [hf']
      simp only [len, List.length_append]; omega
  rcases hl with rfl | ⟨hcaps, hmb⟩
  · obtain ⟨it, k1, k2, k3⟩ := go (Q := fun _ => True) (Source.of_view f).1 (fun _ _ => trivial)
    exact ⟨_, _, it, Source.shortRead, fun _ => lineLaw_zero, k1, k2, k3⟩
  · obtain ⟨it, k1, k2, k3⟩ := go (Q := Steady bs m) (Source.of_full hcaps) hmb
    exact ⟨_, _, it, Source.fullShort, fun rest => ArchiveIter.gzAt_lineLaw L Source.fullShort Source.fullRead (fun _ h => h) rest, k1, k2, k3⟩

end Warcio

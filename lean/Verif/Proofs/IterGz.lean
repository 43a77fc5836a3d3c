import Verif.Proofs.IterPlain

/-! # Iterating over an archive of gzip members -/

set_option linter.unusedSectionVars false

namespace Warcio

open Loader BufReader

namespace ArchiveIter

section
variable {σ : Type} [Zlib] [PyStream σ] [Hashlib] {V : σ → Bytes → Prop} {IsMember : Bytes → Bytes → Prop} {T : Int} {bs : Nat} {Q : Bytes → Prop}

/-- The block size, and a condition on the sizes of members. -/
abbrev Sizes (bs : Nat) (Q : Bytes → Prop) : Bytes → Nat → Prop := fun z b => b = bs ∧ Q z

/-- A reader in a member that is followed by `rest`; positions count from the end. -/
abbrev GzAt (L : LawfulGzip IsMember) (V : σ → Bytes → Prop) (T : Int) (bs : Nat) (Q : Bytes → Prop) (rest : Bytes) : BufReader σ → Bytes → Prop :=
  Gz L (Tells V T) (Sizes bs Q) rest

theorem gzAt_exact (L : LawfulGzip IsMember) (hV : ShortRead V) (rest : Bytes) : ExactRead (GzAt L V T bs Q rest (σ := σ)) :=
  BufReader.exactRead (gz_fillLaw L (Tells.short hV) _ rest)

/-- Members that are decompressed steadily, if reads are full: lines of at most `m` bytes. -/
theorem gzAt_lineLaw (L : LawfulGzip IsMember) (hV : ShortRead V) (hF : FullRead V) {m : Nat} (hQ : ∀ z, Q z → Steady bs m z) (rest : Bytes) :
    LineLaw (GzAt L V T bs Q rest (σ := σ)) m := by
  intro r rem h _ hl n
  have h' : Gz L (Tells V T) (SteadyAt m) rest r rem := h.weaken (fun z b hz => by rw [SteadyAt, hz.1]; exact hQ z hz.2)
  exact readline_some_exact (gz_fillLaw L (Tells.short hV) _ rest) h
    (gz_twoBuf L (Tells.short hV) (Tells.fullRead hV hF) h' hl) n

theorem gzEnd_position {L : LawfulGzip IsMember} {rest : Bytes} {r : BufReader σ} (h : GzEnd L (Tells V T) (Sizes bs Q) rest r) :
    PyStream.tell r.stream - r.remLength = T - len rest := by
  obtain ⟨srem, ⟨_, h1⟩, h2⟩ := h.split
  rw [remLength_noBuff h.buff, h2]
  simp only [len, List.length_append] at h1 ⊢
  omega

/-- `read_to_end` in a member that holds `more` behind the record and its blank lines. -/
theorem readToEnd_gz (L : LawfulGzip IsMember) (hV : ShortRead V) {it : ArchiveIter σ} {left sep more rest : Bytes}
    (hr : it.record.isSome = true) (hm : it.memberInfo = none) (hv : it.raw.View (GzAt L V T bs Q rest) left (sep ++ more))
    (hsep : BlankLines sep) (hmore : Starts more) :
    ∃ raw' next off size, it.readToEnd = (.ok (), ({ it with raw := raw', nextLine := next, offset := off, memberInfo := some (it.offset, size) } : ArchiveIter σ)) ∧
      raw'.Spent ∧ ReadyAt (GzAt L V T bs Q rest) raw'.under next more ∧ raw'.checkerAt [] = it.raw.checkerAt left ∧
      (more = [] → GzEnd L (Tells V T) (Sizes bs Q) rest raw'.under ∧ off = T - len rest ∧ size = T - len rest - it.offset) := by
  have hW := gzAt_exact (T := T) (bs := bs) (Q := Q) L hV rest
  have hne : sep ++ more ≠ [] := by
    intro h; exact hsep.1 (List.append_eq_nil_iff.1 h).1
  obtain ⟨raw1, d1, d2, d3⟩ := drain_spec hW (PyStream.bound it.raw + 2) hv (by have := hv.bound hW; omega)
  have hu := d2.under
  rw [List.nil_append] at hu
  have hb := hW.bound hu
  obtain ⟨fuel', r1, b1, b2, b3⟩ := blank_spec hW more (PyStream.bound raw1.under + 2) sep true 0 (it := { it with raw := raw1 })
    hu (white_of_blankLines hsep) (.inr hsep.2.1) (by omega)
  obtain ⟨fuel', rfl⟩ : ∃ k, fuel' = k + 1 := ⟨fuel' - 1, by omega⟩
  have hlast : ∃ next r2, blankLoop (fuel' + 1) false (0 + len sep) (({ it with raw := raw1 } : ArchiveIter σ).setReader r1) =
      (.ok (next, 0 + len sep), (({ it with raw := raw1 } : ArchiveIter σ).setReader r1).setReader r2) ∧
      ReadyAt (GzAt L V T bs Q rest) r2 next more ∧ (more = [] → GzEnd L (Tells V T) (Sizes bs Q) rest r2 ∧ next = none) ∧
      r2.decompressor.isSome = true := by
    by_cases hm0 : more = []
    · subst hm0
      obtain ⟨r2, k1, k2, k3⟩ := gz_readline_last L (Tells.short hV) b2
      obtain ⟨hist, hd⟩ := k2.decomp
      refine ⟨none, r2, ?_, .inl ⟨rfl, k3⟩, fun _ => ⟨k2, rfl⟩, by rw [hd]; rfl⟩
      rw [blankLoop, reader_setReader]
      simp only [PyStream.readline]
      rw [k1]
      rfl
    · obtain ⟨next, r2, e1, e2, e3, _⟩ := blank_last hW (it := ({ it with raw := raw1 } : ArchiveIter σ).setReader r1) (rest := more)
        (by rw [reader_setReader]; exact b2) hmore fuel' (0 + len sep)
      refine ⟨next, r2, e1, e2, fun h => absurd h hm0, ?_⟩
      obtain ⟨hist, _, _, _, _, _, hd, _⟩ := e3.split
      rw [hd]; rfl
  obtain ⟨next, r2, e1, e2, e3, e4⟩ := hlast
  have hc : consumeBlanklines { it with raw := raw1 } = (.ok (next, len sep), { it with raw := raw1.setUnder r2 }) := by
    unfold consumeBlanklines
    show blankLoop (PyStream.bound raw1.under + 2) true 0 _ = _
    rw [b3]
    have : (true && decide (sep = [])) = false := by simp [hsep.1]
    rw [this, e1, setReader_setReader]
    simp only [Int.zero_add]
    rfl
  have hdn : r2.decompressor.isNone = false := by cases h : r2.decompressor <;> simp_all
  refine ⟨raw1.setUnder r2, next, PyStream.tell r2.stream - r2.remLength - len (next.getD []),
    PyStream.tell r2.stream - r2.remLength - len (next.getD []) - it.offset, ?_, RawStream.spent_setUnder (RawStream.spent_of_view d2 hne) _, ?_, (RawStream.checkerAt_setUnder _ _ _).trans d3, ?_⟩
  · unfold readToEnd
    have h1 : it.record.isNone = false := by cases h : it.record <;> simp_all
    rw [h1, hm, d1]
    simp only [Option.isSome_none, Bool.false_eq_true, if_false]
    rw [hc]
    simp only [position, reader, RawStream.under_setUnder, hdn, Bool.false_eq_true, if_false, Int.sub_zero]
  · rw [RawStream.under_setUnder]; exact e2
  · intro h
    obtain ⟨h1, h2⟩ := e3 h
    rw [RawStream.under_setUnder, h2, gzEnd_position h1]
    refine ⟨h1, ?_, ?_⟩ <;> simp [len]

end

section
variable {σ : Type} [Zlib] [PyStream σ] [Hashlib] [PyUni]
variable {V : σ → Bytes → Prop} {IsMember : Bytes → Bytes → Prop} {T : Int} {bs : Nat} {Q : Bytes → Prop}

/-- The expected records of an archive with one member per record, from a position on. -/
def GzLayout (IsMember : Bytes → Bytes → Prop) (Q : Bytes → Prop) (io : IterOpts) (m : Nat) (K : Option Format → Prop) : Int → List (Bytes × Item) → List Expected → Prop
  | _, [], [] => True
  | off, (z, i) :: ms, e :: es => IsMember z i.bytes ∧ Q z ∧ (BlankLines i.sep ∧ e.before = [] ∧ e.behind = [] ∧ ItemOk io m K i e.shows e.judged) ∧ e.off = off ∧ e.size = len z ∧ e.line = m ∧
      GzLayout IsMember Q io m K (off + len z) ms es
  | _, _, _ => False

/-- All the bytes: the members, and behind them `tl`. -/
def zipped (tl : Bytes) (ms : List (Bytes × Item)) : Bytes := ms.flatMap (·.1) ++ tl

/-- What is in the member behind the record: nothing, or (`multi`) another record; then the
member is the last one. -/
def MoreOk (io : IterOpts) (K : Option Format → Prop) (multi : Bool) (tl : Bytes) (more : Bytes) (ms : List (Bytes × Item)) : Prop :=
  (multi = false ∧ more = []) ∨
  (multi = true ∧ (ms = [] ∧ tl = []) ∧ ∃ i t, more = i.head ++ (i.block ++ t) ∧ ItemOk io 0 K i (fun _ _ => True) (fun _ _ => True))

theorem MoreOk.starts {io : IterOpts} {K : Option Format → Prop} {kf : Option Format} (hk : K kf) {multi : Bool} {tl more : Bytes}
    {ms : List (Bytes × Item)} (h : MoreOk io K multi tl more ms) : Starts more := by
  rcases h with ⟨_, h⟩ | ⟨_, _, i, t, h, hi⟩
  · exact .inl h
  · right
    obtain ⟨f, hd, h1, _⟩ := hi kf 0 [] hk
    rw [h, takeLine_append_of_nl h1.nl]
    exact h1.notBlank

structure GzTop (L : LawfulGzip IsMember) (V : σ → Bytes → Prop) (T : Int) (bs : Nat) (Q : Bytes → Prop) (multi : Bool) (io : IterOpts) (m : Nat) (K : Option Format → Prop)
    (tl : Bytes) (it : ArchiveIter σ) (es : List Expected) : Prop where
  offered : it.record = none ∨ it.memberInfo.isSome = true
  view : (Calm io K false [] it ∧ it.nextLine = none ∧ ∃ i more ms e es', es = e :: es' ∧ (BlankLines i.sep ∧ e.before = [] ∧ e.behind = [] ∧ ItemOk io m K i e.shows e.judged) ∧ e.off = it.offset ∧ e.line = m ∧
      (multi = false → e.off + e.size = T - len (zipped tl ms)) ∧ MoreOk io K multi tl more ms ∧ GzLayout IsMember Q io m K (T - len (zipped tl ms)) ms es' ∧
      GzAt L V T bs Q (zipped tl ms) it.reader (i.head ++ (i.block ++ (i.sep ++ more)))) ∨
    (es = [] ∧ tl ≠ [] ∧ Calm io K false [] it ∧ it.nextLine = none ∧ it.offset = T - len tl ∧ ∀ d, L.Holds tl d [] → Q tl → GzAt L V T bs Q [] it.reader d) ∨
    (Calm io K true [] it ∧ es = [] ∧ tl = [] ∧ ∃ more, MoreOk io K multi tl more [] ∧ ReadyAt (GzAt L V T bs Q []) it.reader it.nextLine more)

structure GzAfter (L : LawfulGzip IsMember) (V : σ → Bytes → Prop) (T : Int) (bs : Nat) (Q : Bytes → Prop) (multi : Bool) (io : IterOpts) (m : Nat) (K : Option Format → Prop)
    (tl : Bytes) (it : ArchiveIter σ) (e : Expected) (left : Bytes) (es : List Expected) : Prop where
  base : Calm io K false [] it
  offered : it.record.isSome = true
  silent : e.before = [] ∧ e.behind = []
  line : e.line = m
  view : ∃ ms sep more, GzLayout IsMember Q io m K (T - len (zipped tl ms)) ms es ∧ MoreOk io K multi tl more ms ∧
    (multi = false → e.off + e.size = T - len (zipped tl ms)) ∧
    ((BlankLines sep ∧ it.memberInfo = none ∧ it.raw.View (GzAt L V T bs Q (zipped tl ms)) left (sep ++ more) ∧ it.offset = e.off) ∨
     (left = [] ∧ (∃ sz, it.memberInfo = some (e.off, sz) ∧ (multi = false → sz = e.size)) ∧ it.raw.Spent ∧
       ReadyAt (GzAt L V T bs Q (zipped tl ms)) it.reader it.nextLine more ∧
       (multi = false → GzEnd L (Tells V T) (Sizes bs Q) (zipped tl ms) it.reader ∧ it.offset = T - len (zipped tl ms))))

variable {io : IterOpts} {m : Nat} {K : Option Format → Prop} {multi : Bool} {tl : Bytes}

theorem MoreOk.nil {more : Bytes} {ms : List (Bytes × Item)} (h : MoreOk io K multi tl more ms) (hm : multi = false) : more = [] := by
  rcases h with ⟨_, h⟩ | ⟨h, _⟩
  · exact h
  · rw [hm] at h; cases h

theorem GzAfter.toEnd {L : LawfulGzip IsMember} (hV : ShortRead V) {it : ArchiveIter σ} {e : Expected} {left : Bytes} {es : List Expected}
    (h : GzAfter L V T bs Q multi io m K tl it e left es) :
    ∃ it' sz, it.readToEnd = (.ok (), it') ∧ GzAfter L V T bs Q multi io m K tl it' e [] es ∧ it'.memberInfo = some (e.off, sz) ∧
      (multi = false → sz = e.size) ∧ it'.gen = it.gen ∧ it'.raw.checkerAt [] = it.raw.checkerAt left := by
  obtain ⟨ms, sep, more, h1, h2, h3, h4⟩ := h.view
  rcases h4 with ⟨hs, h4, h5, h6⟩ | ⟨rfl, ⟨sz, h4, h4'⟩, h5, h6, h7⟩
  · obtain ⟨raw', next, off, size, k1, k2, k3, k5, k4⟩ := readToEnd_gz L hV h.offered h4 h5 hs (h2.starts h.base.known)
    rw [h6] at k1 k4
    have hsz : multi = false → size = e.size := by
      intro hm
      obtain ⟨_, q2, q3⟩ := k4 (h2.nil hm)
      have := h3 hm
      omega
    refine ⟨_, size, k1, ⟨⟨h.base.opts, h.base.known, h.base.closed, h.base.calm, h.base.more, h.base.quiet, h.base.fmt⟩, h.offered, h.silent, h.line, ms, sep, more, h1, h2, h3,
      .inr ⟨rfl, ⟨size, rfl, hsz⟩, k2, k3, ?_⟩⟩, rfl, hsz, rfl, k5⟩
    intro hm
    obtain ⟨q1, q2, q3⟩ := k4 (h2.nil hm)
    exact ⟨q1, q2⟩
  · refine ⟨it, sz, ?_, h, h4, h4', rfl, rfl⟩
    unfold readToEnd
    have h1 : it.record.isNone = false := by have := h.offered; cases h : it.record <;> simp_all
    rw [h1, h4]
    rfl

/-- The operations of the user: the size of a member with several records is not specified. -/
def GzOps (multi : Bool) (o : UserOp) : Prop := o.nonneg ∧ (multi = true → o ≠ .size)

theorem gz_machine (L : LawfulGzip IsMember) (hV : ShortRead V) (hX : ∀ rest, LineLaw (GzAt L V T bs Q rest (σ := σ)) m) :
    Machine (GzOps multi) (GzTop L V T bs Q multi io m K tl) (GzAfter L V T bs Q multi io m K tl (σ := σ)) where
  load := by
    intro it e es h fuel
    rcases h.view with ⟨hb, hn, i, more, ms, e', es', h1, h2, h3, h8, h4, h5, h6, h7⟩ | ⟨h1, _⟩ | ⟨_, h1, _⟩
    · cases h1
      obtain ⟨raw, rec, kf, left, k1, k2, k3, k4, _, k6, k7⟩ := nextRecord_item (gzAt_exact L hV _) (hX _) h2.2.2.2 hb.opts hb.known hb.closed
        (.inl ⟨hn, h7⟩)
      refine ⟨({ it with raw := raw, record := some rec, memberInfo := none, knownFormat := kf, loads := it.loads + 1, gen := .yielded } : ArchiveIter σ),
        rec, left, ?_, ?_, k3, ?_, ?_, k6 (by intro h0; exact h2.1.1 (List.append_eq_nil_iff.1 h0).1), rfl⟩
      · unfold genLoop
        rw [k1]
        simp only [hb.calm, Bool.false_eq_true, if_false]
      · rfl
      · exact ⟨⟨hb.opts, k2, hb.closed, hb.calm, hb.more, hb.quiet, fun ha _ h => by cases h; exact k7 ha⟩, rfl, ⟨h2.2.1, h2.2.2.1⟩, h8, ms, i.sep, more, h6, h5, h4, .inl ⟨h2.1, rfl, k4, h3.symm⟩⟩
      · rfl
    · cases h1
    · cases h1
  bound := by
    intro it e left es h
    obtain ⟨ms, sep, more, h1, h2, h3, h4⟩ := h.view
    rcases h4 with ⟨hs, h4, h5, h6⟩ | ⟨rfl, _⟩
    · exact h5.bound (gzAt_exact L hV _)
    · exact Nat.zero_le _
  op := by
    intro it e left es h op hop
    cases op with
    | call c =>
      obtain ⟨ms, sep, more, h1, h2, h3, h4⟩ := h.view
      rcases h4 with ⟨hs, h4, h5, h6⟩ | ⟨rfl, h4, h5, h6, h7⟩
      · obtain ⟨p, b', raw', k1, k2, k3, _, _, k5, k6⟩ := h5.call (gzAt_exact L hV _) hop.1
        refine ⟨.bytes p, { it with raw := raw' }, b', by simp only [UserOp.run, k1]; rfl, ⟨p, rfl, k2, k6, ?_, ?_⟩, ?_, rfl, h5.checkerAt hop.1 k1 k2, rfl⟩
        · rintro n rfl hm0 hle
          rw [h.line] at hle
          exact h5.lineAny (gzAt_exact L hV _) (hX _) hm0 hle hop.1 k1
        · intro hp
          rcases k5 hp with h0 | h0
          · left; rw [h0] at k2; exact (List.append_eq_nil_iff.1 k2.symm).2
          · exact .inr h0
        · exact ⟨⟨h.base.opts, h.base.known, h.base.closed, h.base.calm, h.base.more, h.base.quiet, h.base.fmt⟩, h.offered, h.silent, h.line, ms, sep, more, h1, h2, h3,
            .inl ⟨hs, h4, k3, h6⟩⟩
      · obtain ⟨raw', k1, k2, k3, k4⟩ := RawStream.spent_call h5 hop.1
        refine ⟨.bytes [], { it with raw := raw' }, [], by simp only [UserOp.run, k1]; rfl, ⟨[], rfl, rfl, ?_, fun _ _ h0 => (nomatch h0), fun _ => .inl rfl⟩, ?_, rfl, k4, rfl⟩
        · rintro n rfl; cases n <;> simp [Call.expect]
        · have e1 : ({ it with raw := raw' } : ArchiveIter σ).reader = it.reader := k3
          refine ⟨⟨h.base.opts, h.base.known, h.base.closed, h.base.calm, h.base.more, h.base.quiet, h.base.fmt⟩, h.offered, h.silent, h.line, ms, sep, more, h1, h2, h3,
            .inr ⟨rfl, h4, k2, ?_, ?_⟩⟩
          · rw [e1]; exact h6
          · rw [e1]; exact h7
    | errors =>
      refine ⟨e.warned it.ended, it, left, ?_, ⟨rfl, rfl⟩, h, rfl, rfl, rfl⟩
      simp only [UserOp.run, errCount, h.base.quiet, Expected.warned, h.silent.1, h.silent.2, ite_self]
    | toEnd =>
      obtain ⟨it', sz, k1, k2, k3, _, k4, k6⟩ := h.toEnd hV
      exact ⟨.unit, it', [], by simp only [UserOp.run, k1]; rfl, ⟨rfl, rfl⟩, k2, k4, k6, by unfold ended; rw [k3]; rfl⟩
    | offset =>
      obtain ⟨it', sz, k1, k2, k3, _, k4, k6⟩ := h.toEnd hV
      obtain ⟨it2, m1, m2⟩ : ∃ it2, it.getRecordOffset = (.ok e.off, it2) ∧ it2 = it' := by
        unfold getRecordOffset getMember
        by_cases hm : it.memberInfo.isNone = true
        · rw [if_pos hm, k1]; exact ⟨it', by simp [memberField, k3], rfl⟩
        · rw [if_neg hm]
          have hsome : it.memberInfo.isSome = true := by cases h : it.memberInfo <;> simp_all
          have hr : it.record.isNone = false := by have := h.offered; cases h : it.record <;> simp_all
          have : it.readToEnd = (.ok (), it) := by unfold readToEnd; rw [hr, hsome]; rfl
          rw [this] at k1
          cases k1
          exact ⟨it, by simp [memberField, k3], rfl⟩
      subst m2
      exact ⟨.int e.off, it2, [], by simp only [UserOp.run, m1]; rfl, ⟨rfl, rfl⟩, k2, k4, k6, by unfold ended; rw [k3]; rfl⟩
    | size =>
      have hmu : multi = false := by
        cases hmu : multi
        · rfl
        · exact absurd rfl (hop.2 hmu)
      obtain ⟨it', sz, k1, k2, k3, k3', k4, k6⟩ := h.toEnd hV
      rw [k3' hmu] at k3
      obtain ⟨it2, m1, m2⟩ : ∃ it2, it.getRecordLength = (.ok e.size, it2) ∧ it2 = it' := by
        unfold getRecordLength getMember
        by_cases hm : it.memberInfo.isNone = true
        · rw [if_pos hm, k1]; exact ⟨it', by simp [memberField, k3], rfl⟩
        · rw [if_neg hm]
          have hsome : it.memberInfo.isSome = true := by cases h : it.memberInfo <;> simp_all
          have hr : it.record.isNone = false := by have := h.offered; cases h : it.record <;> simp_all
          have : it.readToEnd = (.ok (), it) := by unfold readToEnd; rw [hr, hsome]; rfl
          rw [this] at k1
          cases k1
          exact ⟨it, by simp [memberField, k3], rfl⟩
      subst m2
      exact ⟨.int e.size, it2, [], by simp only [UserOp.run, m1]; rfl, ⟨rfl, rfl⟩, k2, k4, k6, by unfold ended; rw [k3]; rfl⟩
  after := by
    intro it e left es h
    obtain ⟨it', sz, k1, k2, k3, _, k4, k6⟩ := h.toEnd hV
    obtain ⟨ms, sep, more, h1, h2, h3, h4⟩ := k2.view
    rcases h4 with ⟨_, h4, _⟩ | ⟨_, h4, h5, h6, h7⟩
    · rw [h4] at k3; cases k3
    have hoff : it'.memberInfo.isSome = true := by rw [k3]; rfl
    have hdec : it'.reader.decompressor.isSome = true := by
      rcases h6 with ⟨_, h6⟩ | ⟨_, _, h6⟩ <;> (obtain ⟨hist, _, _, _, _, _, hd, _⟩ := h6.split; rw [hd]; rfl)
    have hmain : it.afterRecord = (let (more, r) := it'.reader.readNextMember
        let it := it'.setReader r
        if more then (.ok true, it)
        else if it.emptyRecord then (.ok false, it)
        else (.ok true, { it with raiseInvalidGzip := true })) := by
      unfold afterRecord
      rw [k1]
      simp only [k2.base.closed, Bool.false_eq_true, if_false, hdec, if_true]
    have hraise : ms = [] → tl = [] → es = [] → it'.reader.readNextMember = (false, it'.reader) →
        ∃ it2, it.afterRecord = (.ok true, it2) ∧ GzTop L V T bs Q multi io m K tl it2 es ∧ it2.record.isSome = true := by
      intro hms htl hes hn
      refine ⟨{ it' with raiseInvalidGzip := true }, ?_, ⟨.inr hoff, .inr (.inr ⟨?_, hes, htl, more, ?_, ?_⟩)⟩, k2.offered⟩
      · rw [hmain, hn]
        simp only [setReader_self, k2.base.more, Bool.false_eq_true, if_false]
      · exact ⟨k2.base.opts, k2.base.known, k2.base.closed, rfl, k2.base.more, k2.base.quiet, k2.base.fmt⟩
      · rw [hms] at h2; exact h2
      · rw [hms, htl] at h6; exact h6
    rcases h2 with ⟨hmu, hm0⟩ | ⟨hmu, hms, hrec⟩
    · obtain ⟨q1, q2⟩ := h7 hmu
      rcases gzEnd_next L q1 with ⟨w1, w2⟩ | ⟨w1, r', w2, w3⟩
      · have hms : ms = [] := by
          cases ms with
          | nil => rfl
          | cons m ms =>
            exfalso
            obtain ⟨z, i⟩ := m
            cases es with
            | nil => exact h1.elim
            | cons e' es' =>
              have hmag := (L.magic h1.1).length_le
              have := congrArg List.length w1
              simp only [zipped, List.flatMap_cons, List.length_append, List.length_nil, List.length_cons] at this hmag
              omega
        subst hms
        have hes : es = [] := by cases es with
          | nil => rfl
          | cons e' es' => exact h1.elim
        exact hraise rfl w1 hes w2
      · cases ms with
        | nil =>
          have hes : es = [] := by cases es with
            | nil => rfl
            | cons e' es' => exact h1.elim
          have hz : zipped tl [] = tl := rfl
          rw [hz] at w1 w3 q2
          have hnl : it'.nextLine = none := by
            rcases h6 with ⟨h6, _⟩ | ⟨_, h6, _⟩
            · exact h6
            · exact absurd hm0 h6
          obtain ⟨nprev, hbs, _⟩ := q1.prev
          exact ⟨it'.setReader r', by rw [hmain, w2]; rfl, ⟨.inr hoff, .inr (.inl ⟨hes, w1, ⟨k2.base.opts, k2.base.known, k2.base.closed, k2.base.calm, k2.base.more, k2.base.quiet, k2.base.fmt⟩, hnl, q2,
            fun d hd hq => by rw [reader_setReader]; exact w3 tl d [] (List.append_nil _).symm hd ⟨hbs, hq⟩⟩)⟩, k2.offered⟩
        | cons m ms =>
          obtain ⟨z, i⟩ := m
          cases es with
          | nil => exact h1.elim
          | cons e' es' =>
            obtain ⟨p1, pq, p2, p3, p4, p6, p5⟩ := h1
            obtain ⟨nprev, hbs, _⟩ := q1.prev
            have ez : zipped tl ((z, i) :: ms) = z ++ zipped tl ms := by simp [zipped]
            have hadd : T - len (zipped tl ((z, i) :: ms)) + len z = T - len (zipped tl ms) := by
              rw [ez]; simp only [len, List.length_append]; omega
            rw [hadd] at p5
            have hgz := w3 z i.bytes (zipped tl ms) ez (L.holds p1 _) ⟨hbs, pq⟩
            have hnl : it'.nextLine = none := by
              rcases h6 with ⟨h6, _⟩ | ⟨_, h6, _⟩
              · exact h6
              · exact absurd hm0 h6
            refine ⟨it'.setReader r', ?_, ⟨.inr hoff, .inl ⟨⟨k2.base.opts, k2.base.known, k2.base.closed, k2.base.calm, k2.base.more, k2.base.quiet, k2.base.fmt⟩, hnl,
              i, [], ms, e', es', rfl, p2, ?_, p6, ?_, .inl ⟨hmu, rfl⟩, p5, ?_⟩⟩, k2.offered⟩
            · rw [hmain, w2]; rfl
            · show e'.off = it'.offset; rw [q2, p3]
            · intro _; rw [p3, p4, hadd]
            · rw [reader_setReader]; simpa [Item.bytes] using hgz
    · obtain ⟨hms, htl⟩ := hms
      subst hms htl
      have hes : es = [] := by cases es with
        | nil => rfl
        | cons e' es' => exact h1.elim
      refine hraise rfl rfl hes ?_
      rcases h6 with ⟨_, h6⟩ | ⟨_, _, h6⟩
      · exact (gz_unused_nil L h6).2.2
      · exact (gz_unused_nil L h6).2.2

/-- Behind the last member. -/
theorem gz_stops (L : LawfulGzip IsMember) (hV : ShortRead V) : Stops .stopIteration (GzTop L V T bs Q false io m K [] (σ := σ)) := by
  intro it h fuel
  rcases h.view with ⟨_, _, _, _, _, _, _, h1, _⟩ | ⟨_, h1, _⟩ | ⟨hb, _, _, more, h1, h2⟩
  · cases h1
  · exact absurd rfl h1
  · rcases h1 with ⟨_, rfl⟩ | ⟨h1, _⟩
    · obtain ⟨s1, k1, k2⟩ := detect_at (gzAt_exact (T := T) (bs := bs) (Q := Q) L hV []).lineRead it.loadOpts h2
      rw [detect_eof] at k1 k2
      have k3 := load_error k1
      have hu := gz_unused_nil L k2
      have hn : it.nextRecord = (.error .eofError, { it.setReader s1 with loads := it.loads + 1 }) := by
        unfold nextRecord
        rw [hb.closed, k3]
        rfl
      generalize hit : ({ it.setReader s1 with loads := it.loads + 1, emptyRecord := true } : ArchiveIter σ) = it1
      have hrd : it1.reader = s1 := by subst hit; exact RawStream.under_setUnder _ _
      have hcl : it1.closed = false := by subst hit; exact hb.closed
      have hem : it1.emptyRecord = true := by subst hit; rfl
      have hre : it1.readToEnd = (.ok (), it1) := by
        have : it1.record = none ∨ it1.memberInfo.isSome = true := by subst hit; exact h.offered
        unfold readToEnd
        rcases this with h | h
        · simp [h]
        · simp only [h, if_true]; split <;> rfl
      have ha : ∃ it2, it1.afterRecord = (.ok false, it2) := by
        unfold afterRecord
        rw [hre]
        simp only [hcl, Bool.false_eq_true, if_false, hrd, hu.2.1, if_true, hu.2.2]
        have : (it1.setReader s1).emptyRecord = true := hem
        rw [this]
        exact ⟨_, rfl⟩
      obtain ⟨it2, ha⟩ := ha
      refine ⟨{ it2.close with gen := .finished }, ?_, rfl⟩
      unfold genLoop
      rw [hn]
      simp only
      rw [hit, ha]
    · cases h1

/-- The second record of a member is an error. -/
theorem gz_multi (L : LawfulGzip IsMember) (hV : ShortRead V) : Stops .nonChunkedGzip (GzTop L V T bs Q true io m K [] (σ := σ)) := by
  intro it h fuel
  rcases h.view with ⟨_, _, _, _, _, _, _, h1, _⟩ | ⟨_, h1, _⟩ | ⟨hb, _, _, more, h1, h2⟩
  · cases h1
  · exact absurd rfl h1
  · rcases h1 with ⟨h1, _⟩ | ⟨_, _, i, t, h1, h3⟩
    · cases h1
    · rw [h1] at h2
      obtain ⟨raw, rec, kf, left, k1, _⟩ := nextRecord_item (gzAt_exact (T := T) (bs := bs) (Q := Q) L hV []) lineLaw_zero h3 hb.opts hb.known hb.closed h2
      refine ⟨({ it with raw := raw, record := some rec, memberInfo := none, knownFormat := kf, loads := it.loads + 1, gen := .finished } : ArchiveIter σ), ?_, rfl⟩
      unfold genLoop
      rw [k1]
      simp only [hb.calm, if_true]

end
end ArchiveIter
end Warcio

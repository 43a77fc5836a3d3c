import Verif.Spec.Errors
import Verif.Proofs.ErrsLoader
import Verif.Proofs.TameIter
import Verif.Proofs.Detect

/-!
# Which exceptions iterating over an archive can raise
-/

set_option linter.unusedSectionVars false

namespace Warcio

section
variable {σ : Type} [PyStream σ] {ok : σ → Prop} {E : PyErr → Prop}

namespace Loader

/-- What finding out the format can raise. -/
def HeadErr (E : PyErr → Prop) (e : PyErr) : Prop := E e ∨ e = .eofError ∨ e = .invalidWarc ∨ e = .invalidArc ∨ e = .unknownFormat

theorem decodedLine_gives (h : Lines0 σ ok E) (s : σ) (hs : ok s) : Gives ok E (decodedLine s) := by
  unfold decodedLine
  have := h s hs
  generalize PyStream.readline s none = x at *
  obtain ⟨x, s1⟩ := x
  cases x with
  | error e => exact this.pass
  | ok b => exact .ok this.1

theorem skipTwo_gives (h : Lines0 σ ok E) (s : σ) (hs : ok s) : Gives ok E (skipTwo s) := by
  unfold skipTwo
  have h1 := decodedLine_gives h s hs
  generalize decodedLine s = x at *
  obtain ⟨x, s1⟩ := x
  cases x with
  | error e => exact h1.pass
  | ok b =>
    dsimp only
    have h2 := decodedLine_gives h s1 h1.1
    generalize decodedLine s1 = x at *
    obtain ⟨x, s2⟩ := x
    cases x with
    | error e => exact h2.pass
    | ok b => exact .ok h2.1

variable [PyUni]

theorem parseArcFrom_gives (h : Lines0 σ ok E) (o : LoadOpts) (l : Str) (s : σ) (hs : ok s) :
    Gives ok (fun e => E e ∨ e = .eofError ∨ ∃ p, e = .arcParser p) (parseArcFrom o l s) := by
  unfold parseArcFrom
  split
  · exact .err hs (.inr (.inl rfl))
  · dsimp only
    have h1 : Gives ok E (if isFiledesc (rstrip l) then skipTwo s else (.ok 0, s)) := by
      split
      · exact skipTwo_gives h s hs
      · exact .ok hs
    generalize (if isFiledesc (rstrip l) then skipTwo s else (.ok 0, s)) = x at *
    obtain ⟨x, s1⟩ := x
    cases x with
    | error e => exact .err h1.1 (.inl (h1.2 _ rfl))
    | ok total =>
      dsimp only
      split
      · exact .err h1.1 (.inr (.inr ⟨_, rfl⟩))
      · obtain ⟨hs, hh⟩ := arcHeaders_ok o (rstrip l) (rsplitN ' ' 4 (rstrip l))
        rw [hh]
        exact .ok h1.1

theorem detectArc_gives (h : Lines0 σ ok E) (o : LoadOpts) (s : σ) (line : Option Line) (hs : ok s) : Gives ok (HeadErr E) (detectArc o s line) := by
  unfold detectArc
  have h1 : Gives ok (fun e => E e ∨ e = .eofError ∨ ∃ p, e = .arcParser p) (parseArc o s line) := by
    unfold parseArc
    split
    · exact parseArcFrom_gives h o _ s hs
    · have h1 := decodedLine_gives h s hs
      generalize decodedLine s = x at *
      obtain ⟨x, s1⟩ := x
      cases x with
      | error e => exact .err h1.1 (.inl (h1.2 _ rfl))
      | ok b => exact parseArcFrom_gives h o _ s1 h1.1
  generalize parseArc o s line = x at *
  obtain ⟨x, s1⟩ := x
  have h1' : ok s1 := h1.1
  cases x with
  | ok v => exact .ok h1'
  | error e =>
    by_cases hp : ∃ p, e = .arcParser p
    · obtain ⟨p, rfl⟩ := hp
      dsimp only
      split
      · exact .err h1' (.inr (.inr (.inr (.inl rfl))))
      · exact .err h1' (.inr (.inr (.inr (.inr rfl))))
    · have hE : HeadErr E e := by
        rcases h1.2 e rfl with h | h | h
        · exact .inl h
        · exact .inr (.inl h)
        · exact absurd h hp
      cases e <;> first | exact absurd ⟨_, rfl⟩ hp | exact .err h1' hE

theorem detectType_gives (hF : E .outOfFuel) (h : Lines0 σ ok E) (o : LoadOpts) (s : σ) (line : Option Line) (hs : ok s) : Gives ok (HeadErr E) (detectType o s line) := by
  unfold detectType
  split
  · exact detectArc_gives h o s line hs
  · have h1 := HeaderParser.parse_gives hF h warcParser s line hs
    generalize warcParser.parse s line = x at *
    obtain ⟨x, s1⟩ := x
    have h1' : ok s1 := h1.1
    cases x with
    | ok v => exact .ok h1'
    | error e =>
      by_cases hp : ∃ p, e = .statusParser p
      · obtain ⟨p, rfl⟩ := hp
        dsimp only
        split
        · exact .err h1' (.inr (.inr (.inl rfl)))
        · exact detectArc_gives h o s1 _ h1'
      · have hE : HeadErr E e := by
          rcases h1.2 e rfl with h | h | h
          · exact .inl h
          · exact .inr (.inl h)
          · exact absurd h.2 hp
        cases e <;> first | exact absurd ⟨_, rfl⟩ hp | exact .err h1' hE

variable [Hashlib]

theorem wrap_gives (o : LoadOpts) (f : Fields) (n : Option Int) {s : σ} (hs : ok s) :
    (∀ e, wrap o f n s = .error e → RawErr E o.checkDigests e) ∧ (∀ raw, wrap o f n s = .ok raw → OkR ok o.checkDigests raw) := by
  unfold wrap
  cases n with
  | none => exact ⟨(fun e h => by cases h), (fun raw h => by cases h; exact hs)⟩
  | some n =>
    dsimp only
    unfold LimitReader.wrapStream
    split
    · rename_i s' hs'
      split at hs'
      · cases hs'
      · cases hs'
        exact ⟨(fun e h => by cases h), (fun raw h => by cases h; exact hs)⟩
    · rename_i r hs'
      have hr : r.stream = s := by
        split at hs'
        · cases hs'; rfl
        · cases hs'
      split
      · rename_i hc
        have hk : o.checkDigests = some (o.checkDigests.getD .other) := by
          cases hd : o.checkDigests with
          | none => rw [hd] at hc; cases hc
          | some k => rfl
        split
        · rename_i d hd
          have := (DigestReader.new_gives).2 d hd
          refine ⟨(fun e h => by cases h), (fun raw h => by cases h; exact ⟨by rw [this.1, hr]; exact hs, by rw [this.2]; exact hk⟩)⟩
        · rename_i e hd
          exact ⟨(fun e' h => by cases h; exact .inr ⟨_, hk, (DigestReader.new_gives).1 e hd⟩), (fun raw h => by cases h)⟩
      · exact ⟨(fun e h => by cases h), (fun raw h => by cases h; show ok r.stream; rw [hr]; exact hs)⟩

/-- What loading HTTP headers can raise. -/
def HttpErr (E : PyErr → Prop) (v : Bool) (e : PyErr) : Prop := HeaderParser.ParseErr E v e ∨ e = .attributeError

theorem loadHttpHeaders_gives (hF : E .outOfFuel) (h : Lines0 σ ok E) (v : Bool) (a b : Option Str) (n : Option Int) (s : σ) (hs : ok s) :
    Gives ok (HttpErr E v) (loadHttpHeaders v a b n s) := by
  unfold loadHttpHeaders
  split
  · exact .ok hs
  · split
    · exact .ok hs
    · split
      · exact .ok hs
      · split
        · exact .err hs (.inr rfl)
        · split
          · exact .ok hs
          · split
            · have h1 := HeaderParser.parse_gives hF h (httpReqParser v) s none hs
              generalize (httpReqParser v).parse s none = x at *
              obtain ⟨x, s1⟩ := x
              cases x with
              | ok h => exact .ok h1.1
              | error e => exact .err h1.1 (.inl (h1.2 _ rfl))
            · have h1 := HeaderParser.parse_gives hF h (httpParser v) s none hs
              generalize (httpParser v).parse s none = x at *
              obtain ⟨x, s1⟩ := x
              cases x with
              | ok h => exact .ok h1.1
              | error e =>
                dsimp only
                split
                · exact .ok h1.1
                · exact .err h1.1 (.inl (h1.2 _ rfl))

theorem beginPayload_gives {k : Option CheckKind} (r : RawStream σ) (hr : OkR ok k r) : Gives (OkR ok k) (RawErr E k) (beginPayload r) := by
  unfold beginPayload
  split
  · rename_i d
    have := DigestReader.beginPayload_gives d
    exact ⟨⟨by rw [this.1.1]; exact hr.1, by rw [this.1.2]; exact hr.2⟩, fun e h => .inr ⟨_, hr.2, this.2 e h⟩⟩
  · exact .ok hr

/-- What loading a record can raise. -/
def LoadErr (E : PyErr → Prop) (o : LoadOpts) (e : PyErr) : Prop :=
  RawErr E o.checkDigests e ∨ e = .eofError ∨ e = .invalidWarc ∨ e = .invalidArc ∨ e = .unknownFormat ∨
    (o.noRecordParse = false ∧ (e = .attributeError ∨ (o.verifyHttp = true ∧ ∃ l, e = .statusParser l)))

theorem parseRecordStream_gives (hF : E .outOfFuel) (h : Lines σ ok E) (o : LoadOpts) (s : σ) (line : Option Line) (hs : ok s) :
    Gives ok (LoadErr E o) (parseRecordStream o s line) ∧
    (∀ r s', parseRecordStream o s line = (.ok r, s') → OkR ok o.checkDigests r.rawStream) := by
  unfold parseRecordStream
  have h1 := detectType_gives hF h.plain o s line hs
  generalize detectType o s line = x at *
  obtain ⟨x, s1⟩ := x
  have hs1 : ok s1 := h1.1
  cases x with
  | error e =>
    refine ⟨.err hs1 ?_, (fun r s' h' => by cases h')⟩
    rcases h1.2 e rfl with h | h | h | h | h
    · exact .inl (.inl h)
    · exact .inr (.inl h)
    · exact .inr (.inr (.inl h))
    · exact .inr (.inr (.inr (.inl h)))
    · exact .inr (.inr (.inr (.inr (.inl h))))
  | ok fh =>
    obtain ⟨f, hd⟩ := fh
    dsimp only
    obtain ⟨w1, w2⟩ := wrap_gives (E := E) o (fields f hd) (blockLength (fields f hd).length (fields f hd).subLen) hs1
    cases hw : wrap o (fields f hd) (blockLength (fields f hd).length (fields f hd).subLen) s1 with
    | error e => exact ⟨.err hs1 (.inl (w1 e hw)), (fun r s' h' => by cases h')⟩
    | ok raw =>
      have hu := w2 raw hw
      dsimp only
      have h4 : Gives (OkR ok o.checkDigests) (fun e => o.noRecordParse = false ∧ HttpErr (RawErr E o.checkDigests) o.verifyHttp e)
          (if o.noRecordParse then (.ok none, raw) else loadHttpHeaders o.verifyHttp (fields f hd).recType (fields f hd).uri (blockLength (fields f hd).length (fields f hd).subLen) raw) := by
        split
        · exact .ok hu
        · rename_i hn
          exact (loadHttpHeaders_gives (.inl hF) (raw_lines h).plain _ _ _ _ raw hu).mono (fun e he => ⟨by simpa using hn, he⟩)
      generalize (if o.noRecordParse then (.ok none, raw) else loadHttpHeaders o.verifyHttp (fields f hd).recType (fields f hd).uri (blockLength (fields f hd).length (fields f hd).subLen) raw) = y at *
      obtain ⟨y, raw1⟩ := y
      have hr1 : OkR ok o.checkDigests raw1 := h4.1
      cases y with
      | error e =>
        refine ⟨.err hr1.under ?_, (fun r s' h' => by cases h')⟩
        obtain ⟨n1, h5⟩ := h4.2 e rfl
        rcases h5 with (h5 | h5 | h5) | h5
        · exact .inl h5
        · exact .inr (.inl h5)
        · exact .inr (.inr (.inr (.inr (.inr ⟨n1, .inr h5⟩))))
        · exact .inr (.inr (.inr (.inr (.inr ⟨n1, .inl h5⟩))))
      | ok http =>
        dsimp only
        have hb := beginPayload_gives (E := E) raw1 hr1
        generalize beginPayload raw1 = z at *
        obtain ⟨z, raw2⟩ := z
        have hr2 : OkR ok o.checkDigests raw2 := hb.1
        cases z with
        | error e => exact ⟨.err hr2.under (.inl (hb.2 e rfl)), (fun r s' h' => by cases h')⟩
        | ok u => exact ⟨.ok hr2.under, (fun r s' h' => by cases h'; exact hr2)⟩

/-- Loading HTTP headers raises `AttributeError` only for want of a URI. -/
theorem loadHttpHeaders_cause (hF : E .outOfFuel) (hA : ¬ E .attributeError) (h : Lines0 σ ok E) (v : Bool) (a b : Option Str) (n : Option Int) (s : σ) (hs : ok s)
    (hx : (loadHttpHeaders v a b n s).1 = .error .attributeError) : n ≠ some 0 ∧ b = none ∧ ∃ t, a = some t ∧ httpRecords.contains t = true := by
  have hP : ∀ (p : HeaderParser), (p.parse s none).1 ≠ .error .attributeError := by
    intro p hp
    rcases (HeaderParser.parse_gives hF h p s none hs).2 _ hp with h | h | ⟨_, _, h⟩
    · exact hA h
    · cases h
    · cases h
  unfold loadHttpHeaders at hx
  split at hx
  · cases hx
  · rename_i h0
    split at hx
    · cases hx
    · rename_i t
      split at hx
      · cases hx
      · rename_i ht
        split at hx
        · exact ⟨h0, rfl, t, rfl, by simpa using ht⟩
        · split at hx
          · cases hx
          · split at hx
            · have h1 := hP (httpReqParser v)
              generalize (httpReqParser v).parse s none = x at *
              obtain ⟨x, s1⟩ := x
              cases x with
              | ok h => cases hx
              | error e => exact absurd (by cases hx; rfl) h1
            · have h1 := hP (httpParser v)
              generalize (httpParser v).parse s none = x at *
              obtain ⟨x, s1⟩ := x
              cases x with
              | ok h => cases hx
              | error e =>
                dsimp only at hx
                split at hx
                · cases hx
                · exact absurd (by cases hx; rfl) h1

theorem parseRecordStream_cause (hF : E .outOfFuel) (hA : ¬ E .attributeError) (h : Lines σ ok E) (o : LoadOpts) (s : σ) (line : Option Line) (hs : ok s)
    (hx : (parseRecordStream o s line).1 = .error .attributeError) :
    o.noRecordParse = false ∧ ∃ f hd s1, detectType o s line = (.ok (f, hd), s1) ∧ (fields f hd).uri = none ∧ (∃ t, (fields f hd).recType = some t ∧ httpRecords.contains t = true) ∧
      blockLength (fields f hd).length (fields f hd).subLen ≠ some 0 := by
  have hA' : ¬ RawErr E o.checkDigests .attributeError := by
    rintro (h | ⟨c, _, (h | h) | ⟨_, h⟩⟩)
    · exact hA h
    all_goals cases h
  unfold parseRecordStream at hx
  have h1 := detectType_gives hF h.plain o s line hs
  generalize detectType o s line = x at *
  obtain ⟨x, s1⟩ := x
  have hs1 : ok s1 := h1.1
  cases x with
  | error e =>
    cases hx
    rcases h1.2 _ rfl with h | h | h | h | h
    · exact absurd h hA
    all_goals cases h
  | ok fh =>
    obtain ⟨f, hd⟩ := fh
    dsimp only at hx
    obtain ⟨w1, w2⟩ := wrap_gives (E := E) o (fields f hd) (blockLength (fields f hd).length (fields f hd).subLen) hs1
    cases hw : wrap o (fields f hd) (blockLength (fields f hd).length (fields f hd).subLen) s1 with
    | error e => rw [hw] at hx; cases hx; exact absurd (w1 _ hw) hA'
    | ok raw =>
      have hu := w2 raw hw
      rw [hw] at hx
      dsimp only at hx
      have h4 : (if o.noRecordParse then (.ok none, raw) else loadHttpHeaders o.verifyHttp (fields f hd).recType (fields f hd).uri (blockLength (fields f hd).length (fields f hd).subLen) raw).1 = .error .attributeError →
          o.noRecordParse = false ∧ blockLength (fields f hd).length (fields f hd).subLen ≠ some 0 ∧ (fields f hd).uri = none ∧ ∃ t, (fields f hd).recType = some t ∧ httpRecords.contains t = true := by
        split
        · intro h; cases h
        · rename_i hn
          intro h'
          exact ⟨by simpa using hn, loadHttpHeaders_cause (.inl hF) hA' (raw_lines h).plain _ _ _ _ raw hu h'⟩
      have h5 : OkR ok o.checkDigests (if o.noRecordParse then (.ok none, raw) else loadHttpHeaders o.verifyHttp (fields f hd).recType (fields f hd).uri (blockLength (fields f hd).length (fields f hd).subLen) raw).2 := by
        split
        · exact hu
        · exact (loadHttpHeaders_gives (.inl hF) (raw_lines h).plain _ _ _ _ raw hu).1
      generalize (if o.noRecordParse then (.ok none, raw) else loadHttpHeaders o.verifyHttp (fields f hd).recType (fields f hd).uri (blockLength (fields f hd).length (fields f hd).subLen) raw) = y at *
      obtain ⟨y, raw1⟩ := y
      cases y with
      | error e =>
        cases hx
        obtain ⟨k1, k2, k3, k4⟩ := h4 rfl
        exact ⟨k1, f, hd, s1, rfl, k3, k4, k2⟩
      | ok http =>
        dsimp only at hx
        have hb := beginPayload_gives (E := E) raw1 h5
        generalize beginPayload raw1 = z at *
        obtain ⟨z, raw2⟩ := z
        cases z with
        | error e => cases hx; exact absurd (hb.2 _ rfl) hA'
        | ok u => cases hx

end Loader
end

namespace ArchiveIter
variable {σ : Type} [Zlib] [PyStream σ] {ok : σ → Prop} {E : PyErr → Prop}

/-- The iterator has these options, its stream is in `ok`, and it is closed only at the end. -/
structure Safe (ok : σ → Prop) (E : PyErr → Prop) (io : IterOpts) (it : ArchiveIter σ) : Prop where
  opts : it.opts = io
  raw : OkR (BufReader.OkB ok E) io.checkDigests it.raw
  closed : it.closed = true → it.gen = .finished

theorem Safe.setReader {io : IterOpts} {it : ArchiveIter σ} (h : Safe ok E io it) {r : BufReader σ} (hr : BufReader.OkB ok E r) : Safe ok E io (it.setReader r) :=
  ⟨h.opts, h.raw.setUnder hr, h.closed⟩

/-- Safe, and of the rest only the reader, the line ahead, and the position may have changed. -/
structure Kept (ok : σ → Prop) (E : PyErr → Prop) (io : IterOpts) (it it' : ArchiveIter σ) : Prop where
  safe : Safe ok E io it'
  record : it'.record = it.record
  gen : it'.gen = it.gen
  closed : it'.closed = it.closed

theorem Kept.refl {io : IterOpts} {it : ArchiveIter σ} (h : Safe ok E io it) : Kept ok E io it it := ⟨h, rfl, rfl, rfl⟩

theorem Kept.trans {io : IterOpts} {a b c : ArchiveIter σ} (h1 : Kept ok E io a b) (h2 : Kept ok E io b c) : Kept ok E io a c :=
  ⟨h2.1, h2.2.trans h1.2, h2.3.trans h1.3, h2.4.trans h1.4⟩

theorem blankLoop_gives (hF : E .outOfFuel) (hR : Reads σ ok E) {io : IterOpts} : ∀ (fuel : Nat) (first : Bool) (n : Int) (it : ArchiveIter σ), Safe ok E io it →
    Gives (Kept ok E io it) E (blankLoop fuel first n it)
  | 0, _, _, it, h => .err (.refl h) hF
  | fuel + 1, first, n, it, h => by
    unfold blankLoop
    have h1 := BufReader.lines hF hR it.reader none h.raw.under
    generalize PyStream.readline it.reader none = x at *
    obtain ⟨x, r⟩ := x
    have hk : Kept ok E io it (it.setReader r) := ⟨h.setReader h1.1, rfl, rfl, rfl⟩
    cases x with
    | error e => exact .err hk (h1.2 _ rfl)
    | ok line =>
      dsimp only
      split
      · exact .ok hk
      · split
        · have := blankLoop_gives hF hR fuel false (n + len line) (it.setReader r) hk.safe
          exact ⟨hk.trans this.1, this.2⟩
        · split
          · have hk2 : Kept ok E io it { it.setReader r with warnings := (it.setReader r).warnings ++ [((it.setReader r).position - (n + len line), line)] } :=
              ⟨⟨hk.1.1, hk.1.2, hk.1.3⟩, hk.2, hk.3, hk.4⟩
            have := blankLoop_gives hF hR fuel false (n + len line) _ hk2.safe
            exact ⟨hk2.trans this.1, this.2⟩
          · exact .ok hk

variable [Hashlib]

theorem drainLoop_gives (hF : E .outOfFuel) (hR : Reads σ ok E) {io : IterOpts} : ∀ (fuel : Nat) (it : ArchiveIter σ), Safe ok E io it →
    Gives (Kept ok E io it) (RawErr E io.checkDigests) (drainLoop fuel it)
  | 0, it, h => .err (.refl h) (.inl hF)
  | fuel + 1, it, h => by
    unfold drainLoop
    have h1 := raw_reads (k := io.checkDigests) (BufReader.reads hF hR) it.raw (some 16384) h.raw
    generalize PyStream.read it.raw (some 16384) = x at *
    obtain ⟨x, raw⟩ := x
    have hk : Kept ok E io it { it with raw := raw } := ⟨⟨h.opts, h1.1, h.closed⟩, rfl, rfl, rfl⟩
    cases x with
    | error e => exact .err hk (h1.2 _ rfl)
    | ok b =>
      dsimp only
      split
      · exact .ok hk
      · have := drainLoop_gives hF hR fuel { it with raw := raw } hk.safe
        exact ⟨hk.trans this.1, this.2⟩

theorem readToEnd_gives (hF : E .outOfFuel) (hR : Reads σ ok E) {io : IterOpts} (it : ArchiveIter σ) (h : Safe ok E io it) :
    Gives (Kept ok E io it) (RawErr E io.checkDigests) it.readToEnd ∧
    (∀ u, it.readToEnd.1 = .ok u → it.record ≠ none → it.readToEnd.2.memberInfo ≠ none) := by
  unfold readToEnd
  split
  · rename_i hr
    exact ⟨.ok (.refl h), (fun u _ h' => absurd (by simpa using hr) h')⟩
  · split
    · rename_i hm
      exact ⟨.ok (.refl h), (fun u _ _ => by intro h'; have hm : it.memberInfo.isSome = true := hm; rw [h'] at hm; cases hm)⟩
    · have h1 := drainLoop_gives hF hR (PyStream.bound it.raw + 2) it h
      generalize drainLoop (PyStream.bound it.raw + 2) it = x at *
      obtain ⟨x, it1⟩ := x
      have k1 : Kept ok E io it it1 := h1.1
      cases x with
      | error e => exact ⟨h1.pass, (fun u h' => by cases h')⟩
      | ok u =>
        dsimp only
        unfold consumeBlanklines
        have h2 := blankLoop_gives hF hR (PyStream.bound it1.reader + 2) true 0 it1 k1.safe
        generalize blankLoop (PyStream.bound it1.reader + 2) true 0 it1 = y at *
        obtain ⟨y, it2⟩ := y
        have k2 : Kept ok E io it it2 := k1.trans h2.1
        cases y with
        | error e => exact ⟨.err k2 (.inl (h2.2 _ rfl)), (fun u h' => by cases h')⟩
        | ok nk => exact ⟨.ok ⟨⟨k2.1.1, k2.1.2, k2.1.3⟩, k2.2, k2.3, k2.4⟩, (fun u _ _ h' => by cases h')⟩

theorem getMember_gives (hF : E .outOfFuel) (hR : Reads σ ok E) {io : IterOpts} (f : Int × Int → Int) (it : ArchiveIter σ) (h : Safe ok E io it) (hr : it.record ≠ none) :
    Gives (Kept ok E io it) (RawErr E io.checkDigests) (getMember f it) := by
  have hm : ∀ {it' : ArchiveIter σ}, it'.memberInfo ≠ none → ∀ e, memberField f it' = .error e → False := by
    intro it' h1 e h2
    unfold memberField at h2
    split at h2
    · cases h2
    · rename_i h3; exact h1 h3
  unfold getMember
  split
  · obtain ⟨h1, h2⟩ := readToEnd_gives hF hR it h
    generalize it.readToEnd = x at *
    obtain ⟨x, it1⟩ := x
    cases x with
    | error e => exact h1.pass
    | ok u => exact ⟨h1.1, (fun e he => (hm (h2 u rfl hr) e he).elim)⟩
  · rename_i hn
    exact ⟨.refl h, (fun e he => (hm (by intro h'; rw [h'] at hn; exact hn rfl) e he).elim)⟩

variable [PyUni]

theorem op_gives (hF : E .outOfFuel) (hR : Reads σ ok E) {io : IterOpts} (it : ArchiveIter σ) (h : Safe ok E io it) (hr : it.record ≠ none) (o : UserOp) :
    Gives (Kept ok E io it) (RawErr E io.checkDigests) (o.run it) := by
  have hmap : ∀ {α β : Type} {x : Except PyErr α} {f : α → β} {P : PyErr → Prop}, (∀ e, x = .error e → P e) → ∀ e, x.map f = .error e → P e := by
    intro α β x f P hx e h
    cases x with
    | ok v => cases h
    | error e' => cases h; exact hx _ rfl
  cases o with
  | call c =>
    unfold UserOp.run
    dsimp only
    have hc : Gives (OkR (BufReader.OkB ok E) io.checkDigests) (RawErr E io.checkDigests) (c.run it.raw) := by
      cases c with
      | read n => exact raw_reads (BufReader.reads hF hR) it.raw n h.raw
      | readline n => exact raw_lines (BufReader.lines hF hR) it.raw n h.raw
    exact ⟨⟨⟨h.opts, hc.1, h.closed⟩, rfl, rfl, rfl⟩, hmap hc.2⟩
  | offset => exact ⟨(getMember_gives hF hR _ it h hr).1, hmap (getMember_gives hF hR _ it h hr).2⟩
  | size => exact ⟨(getMember_gives hF hR _ it h hr).1, hmap (getMember_gives hF hR _ it h hr).2⟩
  | toEnd => exact ⟨(readToEnd_gives hF hR it h).1.1, hmap (readToEnd_gives hF hR it h).1.2⟩
  | errors => exact .ok (.refl h)

theorem runOps_gives (hF : E .outOfFuel) (hR : Reads σ ok E) {io : IterOpts} : ∀ (ops : List UserOp) (it : ArchiveIter σ), Safe ok E io it → it.record ≠ none →
    Kept ok E io it (runOps it ops).2 ∧ ∀ e, .error e ∈ (runOps it ops).1 → RawErr E io.checkDigests e
  | [], it, h, _ => ⟨.refl h, (fun e he => by cases he)⟩
  | o :: os, it, h, hr => by
    unfold runOps
    dsimp only
    have h1 := op_gives hF hR it h hr o
    obtain ⟨i1, i2⟩ := runOps_gives hF hR os (o.run it).2 h1.1.safe (by rw [h1.1.record]; exact hr)
    refine ⟨h1.1.trans i1, fun e he => ?_⟩
    rcases List.mem_cons.1 he with he | he
    · exact h1.2 e he.symm
    · exact i2 e he

/-- What going to the next record can raise. -/
def GenErr (E : PyErr → Prop) (io : IterOpts) (e : PyErr) : Prop := E e ∨ e = .stopIteration ∨ NextErr io e

theorem raw_genErr {io : IterOpts} {e : PyErr} (h : RawErr E io.checkDigests e) : GenErr E io e := by
  rcases h with h | ⟨c, hc, (rfl | rfl) | ⟨rfl, rfl⟩⟩
  · exact .inl h
  · exact .inr (.inr (by show io.checkDigests ≠ none; rw [hc]; exact (fun h => by cases h)))
  · exact .inr (.inr (by show io.checkDigests ≠ none; rw [hc]; exact (fun h => by cases h)))
  · exact .inr (.inr hc)

theorem nextRecord_gives (hF : E .outOfFuel) (hR : Reads σ ok E) {io : IterOpts} (it : ArchiveIter σ) (h : Safe ok E io it) (hc : it.closed = false) :
    Gives (fun it' => Safe ok E io it' ∧ it'.closed = false) (fun e => e = .eofError ∨ GenErr E io e) it.nextRecord ∧
    (∀ u, it.nextRecord.1 = .ok u → it.nextRecord.2.record ≠ none) := by
  unfold nextRecord
  rw [if_neg (by rw [hc]; decide)]
  obtain ⟨h1, h2⟩ := Loader.parseRecordStream_gives hF (BufReader.lines hF hR) it.loadOpts it.reader (it.nextLine.map .bytes) h.raw.under
  have ho : it.loadOpts.checkDigests = io.checkDigests := by rw [← h.opts]; rfl
  have hn : it.loadOpts.noRecordParse = io.noRecordParse := by rw [← h.opts]; rfl
  have hv : it.loadOpts.verifyHttp = io.verifyHttp := by rw [← h.opts]; rfl
  unfold Loader.LoadErr at h1
  rw [ho] at h1 h2
  rw [hn, hv] at h1
  generalize Loader.parseRecordStream it.loadOpts it.reader (it.nextLine.map .bytes) = x at *
  obtain ⟨x, r⟩ := x
  cases x with
  | error e =>
    refine ⟨.err ⟨⟨h.opts, h.raw.setUnder h1.1, h.closed⟩, hc⟩ ?_, (fun u h' => by cases h')⟩
    rcases h1.2 e rfl with h | rfl | rfl | rfl | rfl | ⟨n1, rfl | ⟨v1, l, rfl⟩⟩
    · exact .inr (raw_genErr h)
    · exact .inl rfl
    · exact .inr (.inr (.inr trivial))
    · exact .inr (.inr (.inr trivial))
    · exact .inr (.inr (.inr trivial))
    · exact .inr (.inr (.inr n1))
    · exact .inr (.inr (.inr ⟨n1, v1⟩))
  | ok rec =>
    exact ⟨.ok ⟨⟨h.opts, h2 rec r rfl, h.closed⟩, hc⟩, (fun u _ h' => by cases h')⟩

theorem afterRecord_gives (hF : E .outOfFuel) (hR : Reads σ ok E) {io : IterOpts} (it : ArchiveIter σ) (h : Safe ok E io it) (hc : it.closed = false) :
    Gives (fun it' => Safe ok E io it' ∧ it'.closed = false) (GenErr E io) it.afterRecord := by
  unfold afterRecord
  obtain ⟨h1, _⟩ := readToEnd_gives hF hR it h
  generalize it.readToEnd = x at *
  obtain ⟨x, it1⟩ := x
  have k : Kept ok E io it it1 := h1.1
  have hc1 : it1.closed = false := by rw [k.closed]; exact hc
  cases x with
  | error e => exact .err ⟨k.safe, hc1⟩ (raw_genErr (h1.2 _ rfl))
  | ok u =>
    dsimp only
    rw [if_neg (by rw [hc1]; decide)]
    split
    · have hs := k.safe.setReader ((BufReader.readNextMember_like it1.reader).okB k.safe.raw.under)
      split
      · exact .ok ⟨hs, hc1⟩
      · split
        · exact .ok ⟨hs, hc1⟩
        · exact .ok ⟨⟨hs.1, hs.2, hs.3⟩, hc1⟩
    · exact .ok ⟨k.safe, hc1⟩

theorem genLoop_gives (hF : E .outOfFuel) (hR : Reads σ ok E) {io : IterOpts} : ∀ (fuel : Nat) (it : ArchiveIter σ), Safe ok E io it → it.closed = false →
    Gives (Safe ok E io) (GenErr E io) (genLoop fuel it) ∧ (∀ u, (genLoop fuel it).1 = .ok u → (genLoop fuel it).2.record ≠ none)
  | 0, it, h, _ => ⟨.err h (.inl hF), (fun u h' => by cases h')⟩
  | fuel + 1, it, h, hc => by
    unfold genLoop
    obtain ⟨h1, h2⟩ := nextRecord_gives hF hR it h hc
    generalize it.nextRecord = x at *
    obtain ⟨x, it1⟩ := x
    obtain ⟨s1, c1⟩ : Safe ok E io it1 ∧ it1.closed = false := h1.1
    have hfin : ∀ {it : ArchiveIter σ}, Safe ok E io it → Safe ok E io { it with gen := .finished } := fun h => ⟨h.1, h.2, (fun _ => rfl)⟩
    cases x with
    | ok u =>
      dsimp only
      split
      · exact ⟨.err (hfin s1) (.inr (.inr trivial)), (fun u h' => by cases h')⟩
      · exact ⟨.ok ⟨s1.1, s1.2, (fun h' => by have h' : it1.closed = true := h'; rw [c1] at h'; cases h')⟩, (fun u' _ => h2 u rfl)⟩
    | error e =>
      by_cases he : e = .eofError
      · subst he
        dsimp only
        have s2 : Safe ok E io { it1 with emptyRecord := true } := ⟨s1.1, s1.2, s1.3⟩
        have h3 := afterRecord_gives hF hR { it1 with emptyRecord := true } s2 c1
        generalize afterRecord { it1 with emptyRecord := true } = y at *
        obtain ⟨y, it2⟩ := y
        obtain ⟨s3, c3⟩ : Safe ok E io it2 ∧ it2.closed = false := h3.1
        cases y with
        | error e => exact ⟨.err (hfin s3) (h3.2 _ rfl), (fun u h' => by cases h')⟩
        | ok b =>
          cases b with
          | false => exact ⟨.err ⟨s3.1, s3.2, (fun _ => rfl)⟩ (.inr (.inl rfl)), (fun u h' => by cases h')⟩
          | true => exact genLoop_gives hF hR fuel it2 s3 c3
      · have hE : GenErr E io e := (h1.2 e rfl).resolve_left he
        cases e <;> first | exact absurd rfl he | exact ⟨.err (hfin s1) hE, (fun u h' => by cases h')⟩

theorem next_gives (hF : E .outOfFuel) (hR : Reads σ ok E) {io : IterOpts} (it : ArchiveIter σ) (h : Safe ok E io it) :
    Gives (Safe ok E io) (GenErr E io) it.next ∧ (∀ u, it.next.1 = .ok u → it.next.2.record ≠ none) := by
  have hfin : ∀ {it : ArchiveIter σ}, Safe ok E io it → Safe ok E io { it with gen := .finished } := fun h => ⟨h.1, h.2, (fun _ => rfl)⟩
  unfold next
  cases hg : it.gen with
  | finished => exact ⟨.err h (.inr (.inl rfl)), (fun u h' => by cases h')⟩
  | start =>
    have hc : it.closed = false := by
      cases hc : it.closed with
      | false => rfl
      | true => have := h.closed hc; rw [hg] at this; cases this
    exact genLoop_gives hF hR _ it h hc
  | yielded =>
    have hc : it.closed = false := by
      cases hc : it.closed with
      | false => rfl
      | true => have := h.closed hc; rw [hg] at this; cases this
    dsimp only
    have h3 := afterRecord_gives hF hR it h hc
    generalize it.afterRecord = y at *
    obtain ⟨y, it2⟩ := y
    obtain ⟨s3, c3⟩ : Safe ok E io it2 ∧ it2.closed = false := h3.1
    cases y with
    | error e => exact ⟨.err (hfin s3) (h3.2 _ rfl), (fun u h' => by cases h')⟩
    | ok b =>
      cases b with
      | false => exact ⟨.err ⟨s3.1, s3.2, (fun _ => rfl)⟩ (.inr (.inl rfl)), (fun u h' => by cases h')⟩
      | true => exact genLoop_gives hF hR _ it2 s3 c3

theorem iterate_gives (hF : E .outOfFuel) (hR : Reads σ ok E) {io : IterOpts} : ∀ (plan : List (List UserOp)) (it : ArchiveIter σ), Safe ok E io it →
    ∀ step ∈ iterate it plan, (∀ e, step = .error e → GenErr E io e) ∧ (∀ rec vs, step = .ok (rec, vs) → ∀ e, .error e ∈ vs → RawErr E io.checkDigests e)
  | [], _, _, _, h => by cases h
  | ops :: plan, it, hs, step, hm => by
    unfold iterate at hm
    obtain ⟨h1, h2⟩ := next_gives hF hR it hs
    generalize it.next = x at *
    obtain ⟨x, it1⟩ := x
    cases x with
    | error e =>
      rcases List.mem_cons.1 hm with rfl | hm
      · exact ⟨(fun e' h' => by cases h'; exact h1.2 _ rfl), (fun rec vs h' => by cases h')⟩
      · exact iterate_gives hF hR plan it1 h1.1 step hm
    | ok u =>
      obtain ⟨k1, k2⟩ := runOps_gives hF hR ops it1 h1.1 (h2 u rfl)
      rcases List.mem_cons.1 hm with rfl | hm
      · exact ⟨(fun e' h' => by cases h'), (fun rec vs h' => by cases h'; exact k2)⟩
      · exact iterate_gives hF hR plan _ k1.safe step hm

end ArchiveIter

theorem openArchive_safe [Zlib] {f : FileObj} {io : IterOpts} {bs : Nat} {kf : Option Format} {it : ArchiveIter Source} {E : PyErr → Prop}
    (h : openArchive f io bs kf = .ok it) : ArchiveIter.Safe (fun _ => True) E io it := by
  unfold openArchive ArchiveIter.new at h
  split at h
  · rename_i r hr
    cases h
    refine ⟨rfl, ?_, (fun h => by cases h)⟩
    unfold BufReader.new at hr
    dsimp only at hr
    split at hr
    · cases hr
      exact ⟨trivial, (fun c h => by cases h)⟩
    · cases hr
  · cases h

end Warcio

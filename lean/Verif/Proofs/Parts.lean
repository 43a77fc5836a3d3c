import Verif.Proofs.Lies
import Verif.Proofs.OpenArchive

/-! # Iterating over any uncompressed file -/

set_option linter.unusedSectionVars false

namespace Warcio

open Loader

/-! ## The lines behind a block -/

theorem blankLine_eq [Zlib] [Hashlib] (l : Bytes) : blankLine l = (rstripBytes l).isEmpty := by
  have key : ∀ n < 256, isByteSpace (UInt8.ofNat n) = decide (UInt8.ofNat n ∈ ([9, 10, 11, 12, 13, 32] : Bytes)) := by decide +kernel
  have key' : ∀ b : UInt8, isByteSpace b = decide (b ∈ ([9, 10, 11, 12, 13, 32] : Bytes)) := by
    intro b
    have := key b.toNat b.toNat_lt
    rwa [UInt8.ofNat_toNat] at this
  rw [Bool.eq_iff_iff, List.isEmpty_iff, ArchiveIter.rstripBytes_nil]
  unfold blankLine
  rw [List.all_eq_true]
  constructor
  · intro h b hb; rw [key']; exact h b hb
  · intro h b hb; rw [← key']; exact h b hb

theorem skipped_append (tl : Bytes) : skipped tl ++ resumed tl = tl := by
  unfold skipped resumed
  rw [← List.flatten_append, List.append_assoc, List.takeWhile_append_dropWhile, List.take_append_drop, splitLines_flatten]

theorem resumed_nil : resumed [] = [] := rfl

section
variable {σ : Type} [Zlib] [PyStream σ] [Hashlib] {W : BufReader σ → Bytes → Prop} {T : Int} {q : Prop}

namespace ArchiveIter

theorem blank_any (hW : ExactRead W) : ∀ (fuel : Nat) (tl : Bytes) (n : Int) {it : ArchiveIter σ}, W it.reader tl → tl.length < fuel →
    ∃ next r', blankLoop fuel false n it = (.ok (next, n + len ((splitLines tl).takeWhile blankLine).flatten), it.setReader r') ∧
      ReadyAt W r' next ((splitLines tl).dropWhile blankLine).flatten ∧ W r' (dropLine ((splitLines tl).dropWhile blankLine).flatten) ∧
      len (next.getD []) = len (takeLine ((splitLines tl).dropWhile blankLine).flatten) := by
  intro fuel
  induction fuel with
  | zero => intro tl n it _ h; omega
  | succ fuel ih =>
    intro tl n it h hf
    obtain ⟨r', k1, k2⟩ := hW.readline_none h
    rw [blankLoop, k1]
    dsimp only
    by_cases hr : tl = []
    · subst hr
      refine ⟨none, r', ?_, .inl ⟨rfl, k2⟩, k2, rfl⟩
      simp [takeLine, splitLines, len]
    · rw [splitLines_cons hr]
      have h1 : (takeLine tl).isEmpty = false := by simpa using takeLine_ne_nil hr
      rw [h1, ← blankLine_eq]
      simp only [Bool.false_eq_true, if_false]
      cases hb : blankLine (takeLine tl) with
      | true =>
        simp only [if_true, List.takeWhile_cons, List.dropWhile_cons, hb]
        have hlen : (dropLine tl).length < fuel := by
          have := congrArg List.length (takeLine_append_dropLine tl)
          have h2 := List.length_pos_iff.2 (takeLine_ne_nil hr)
          simp only [List.length_append] at this
          omega
        obtain ⟨next, r2, m1, m2, m3, m4⟩ := ih (dropLine tl) (n + len (takeLine tl)) (it := it.setReader r') (by rw [reader_setReader]; exact k2) hlen
        refine ⟨next, r2, ?_, m2, m3, m4⟩
        rw [m1, setReader_setReader]
        simp only [List.flatten_cons, len, List.length_append, Prod.mk.injEq, Except.ok.injEq, true_and, and_true]
        omega
      | false =>
        simp only [Bool.false_eq_true, if_false, List.takeWhile_cons, List.dropWhile_cons, hb]
        have e : (takeLine tl :: splitLines (dropLine tl)).flatten = tl := by rw [← splitLines_cons hr, splitLines_flatten]
        rw [e]
        refine ⟨some (takeLine tl), r', ?_, .inr ⟨rfl, hr, k2⟩, k2, rfl⟩
        simp [len]

/-- What is behind a block. -/
theorem consume_any (hW : ExactRead W) (hpos : ∀ {r rem}, W r rem → PyStream.tell r.stream - r.remLength = T - len rem)
    {it : ArchiveIter σ} {tl : Bytes} (h : W it.reader tl) :
    ∃ next r', it.consumeBlanklines = (.ok (next, len (skipped tl)), { it.setReader r' with warnings := it.warnings ++ (strayLines tl).map (fun l => (T - len tl, l)) }) ∧
      ReadyAt W r' next (resumed tl) ∧ W r' (dropLine (resumed tl)) ∧ len (next.getD []) = len (takeLine (resumed tl)) := by
  have hb := hW.bound h
  unfold consumeBlanklines
  obtain ⟨r', k1, k2⟩ := hW.readline_none h
  rw [blankLoop, k1]
  dsimp only
  by_cases hr : tl = []
  · subst hr
    refine ⟨none, r', ?_, .inl ⟨rfl, k2⟩, k2, rfl⟩
    simp [takeLine, splitLines, len, skipped, strayLines, setReader]
  · have h1 : (takeLine tl).isEmpty = false := by simpa using takeLine_ne_nil hr
    have hlen := congrArg List.length (takeLine_append_dropLine tl)
    have hpo := List.length_pos_iff.2 (takeLine_ne_nil hr)
    simp only [List.length_append] at hlen
    have e1 : len (skipped tl) = 0 + len (takeLine tl) + len ((splitLines (dropLine tl)).takeWhile blankLine).flatten := by
      unfold skipped
      rw [splitLines_cons hr]
      simp only [List.take_succ_cons, List.take_zero, List.drop_succ_cons, List.drop_zero, List.flatten_append, List.flatten_cons, List.flatten_nil, List.append_nil, len, List.length_append]
      omega
    have e2 : resumed tl = ((splitLines (dropLine tl)).dropWhile blankLine).flatten := by
      unfold resumed
      rw [splitLines_cons hr]
      rfl
    rw [h1, ← blankLine_eq, e1, e2]
    simp only [Bool.false_eq_true, if_false, if_true]
    cases hbl : blankLine (takeLine tl) with
    | true =>
      have e3 : strayLines tl = [] := by
        unfold strayLines
        rw [splitLines_cons hr]
        simp [hbl]
      simp only [if_true]
      obtain ⟨next, r2, m1, m2, m3, m4⟩ := blank_any hW (PyStream.bound it.reader + 1) (dropLine tl) (0 + len (takeLine tl)) (it := it.setReader r') (by rw [reader_setReader]; exact k2) (by omega)
      refine ⟨next, r2, ?_, m2, m3, m4⟩
      rw [m1, setReader_setReader, e3]
      simp [setReader]
    | false =>
      have e3 : strayLines tl = [takeLine tl] := by
        unfold strayLines
        rw [splitLines_cons hr]
        simp [hbl]
      simp only [Bool.false_eq_true, if_false]
      have e4 : (it.setReader r').position - (0 + len (takeLine tl)) = T - len tl := by
        have h3 := hpos k2
        unfold position
        rw [reader_setReader, h3]
        simp only [len]; omega
      rw [e4, e3]
      obtain ⟨next, r2, m1, m2, m3, m4⟩ := blank_any hW (PyStream.bound it.reader + 1) (dropLine tl) (0 + len (takeLine tl))
        (it := { it.setReader r' with warnings := (it.setReader r').warnings ++ [(T - len tl, takeLine tl)] }) (by show W (it.setReader r').reader _; rw [reader_setReader]; exact k2) (by omega)
      refine ⟨next, r2, ?_, m2, m3, m4⟩
      rw [m1]
      simp only [setReader, RawStream.setUnder_setUnder, List.map_cons, List.map_nil]

/-- Reading the record to its end. -/
theorem drain_any (hW : ExactRead W) : ∀ (fuel : Nat) {it : ArchiveIter σ} {b t : Bytes}, it.raw.Lies W q b t → b.length < fuel →
    ∃ x raw' b', drainLoop fuel it = (x, { it with raw := raw' }) ∧ raw'.Lies W q b' t ∧ b' <:+ b ∧
      ((x = .ok () ∧ b' = [] ∧ raw'.checkerAt [] = it.raw.checkerAt b) ∨ (q ∧ ∃ e, x = .error e ∧ Odd e)) := by
  intro fuel
  induction fuel with
  | zero => intro it b t _ h; omega
  | succ fuel ih =>
    intro it b t h hf
    have hc : (Call.read (some 16384)).nonneg := by intro n hn; simp only [Call.arg, Option.some.injEq] at hn; omega
    obtain ⟨p, b', raw', x, k1, k2, k3, k4⟩ := h.call hW hc
    unfold drainLoop
    simp only [Call.run] at k1
    rw [k1]
    rcases k4 with ⟨rfl, k5, _⟩ | ⟨hq, e, rfl, k5⟩
    · dsimp only
      have kp : raw'.checkerAt b' = it.raw.checkerAt b := h.checkerAt hc k1 k2
      by_cases hp : p = []
      · rw [if_pos (by simpa using hp)]
        rcases k5 hp with h0 | h0
        · have hb' : b' = [] := by rw [h0] at k2; exact (List.append_eq_nil_iff.1 k2.symm).2
          exact ⟨_, raw', b', rfl, k3, ⟨p, k2.symm⟩, .inl ⟨rfl, hb', by rw [← hb']; exact kp⟩⟩
        · simp [Call.arg] at h0
      · rw [if_neg (by simpa using hp)]
        have hpo := List.length_pos_iff.2 hp
        have hl := congrArg List.length k2
        simp only [List.length_append] at hl
        obtain ⟨x, raw2, b2, m1, m2, m3, m4⟩ := ih (it := { it with raw := raw' }) k3 (by omega)
        exact ⟨x, raw2, b2, m1, m2, m3.trans ⟨p, k2.symm⟩, m4.imp (fun h => ⟨h.1, h.2.1, h.2.2.trans kp⟩) id⟩
    · exact ⟨_, raw', b', rfl, k3, ⟨p, k2.symm⟩, .inr ⟨hq, e, rfl, k5⟩⟩

/-- The record has been read to its end, and so have the lines behind it; `rest` is next. -/
def Done (W : BufReader σ → Bytes → Prop) (q : Prop) (raw : RawStream (BufReader σ)) (next : Option Bytes) (rest : Bytes) : Prop :=
  ReadyAt W raw.under next rest ∧ (raw.Idle ∨ (rest = [] ∧ next = none ∧ raw.Lies W q [] []))

end ArchiveIter
end

namespace ArchiveIter
open BufReader
section
variable {σ : Type} [Zlib] [PyStream σ] [Hashlib] {V : σ → Bytes → Prop} {IsMember : Bytes → Bytes → Prop} {T : Int} {N bs : Nat} {q : Prop}

theorem ready_plain {r : BufReader σ} {next : Option Bytes} {rest : Bytes} (h : ReadyAt (PlainAt V T N bs) r next rest) (hN : rest.length < N) : r.decompressor = none := by
  rcases h with ⟨_, h⟩ | ⟨_, _, h⟩
  · exact h.plain hN
  · refine h.plain ?_
    have := congrArg List.length (takeLine_append_dropLine rest)
    simp only [List.length_append] at this
    omega

theorem readToEnd_any (L : LawfulGzip IsMember) (hV : ShortRead V) {it : ArchiveIter σ} {left tl : Bytes}
    (hr : it.record.isSome = true) (hm : it.memberInfo = none) (hv : it.raw.Lies (PlainAt V T N bs) q left tl) (hN : tl.length < N) :
    (∃ raw' next, it.readToEnd = (.ok (), ({ it with raw := raw', nextLine := next, offset := T - len (resumed tl), memberInfo := some (it.offset, T - len tl - it.offset), warnings := it.warnings ++ (strayLines tl).map (fun l => (T - len tl, l)) } : ArchiveIter σ)) ∧
      Done (PlainAt V T N bs) q raw' next (resumed tl) ∧ raw'.checkerAt [] = it.raw.checkerAt left) ∨
    (q ∧ ∃ e raw' left', it.readToEnd = (.error e, { it with raw := raw' }) ∧ Odd e ∧ left' <:+ left ∧ raw'.Lies (PlainAt V T N bs) q left' tl) := by
  have hW := plainAt_exact (T := T) (N := N) (bs := bs) L hV
  have h1 : it.record.isNone = false := by cases h : it.record <;> simp_all
  obtain ⟨x, raw1, b', d1, d2, d3, d4⟩ := drain_any hW (PyStream.bound it.raw + 2) hv (by have := hv.bound hW; omega)
  rcases d4 with ⟨rfl, rfl, d5⟩ | ⟨hq, e, rfl, he⟩
  · left
    have hu := d2.under
    rw [List.nil_append] at hu
    obtain ⟨next, r2, hc, e2, e3, e4⟩ := consume_any hW (PlainAt.position L) (it := { it with raw := raw1 }) hu
    have hlen := congrArg List.length (takeLine_append_dropLine (resumed tl))
    have hsk := congrArg List.length (skipped_append tl)
    simp only [List.length_append] at hlen hsk
    have hpl : r2.decompressor = none := e3.plain (by omega)
    refine ⟨raw1.setUnder r2, next, ?_, ⟨?_, ?_⟩, (RawStream.checkerAt_setUnder _ _ _).trans d5⟩
    · unfold readToEnd
      rw [h1, hm, d1]
      simp only [Option.isSome_none, Bool.false_eq_true, if_false]
      rw [hc]
      simp only [position, reader, setReader, RawStream.under_setUnder, hpl, Option.isNone_none, if_true]
      rw [e3.position L, e4]
      have e5 : T - len (dropLine (resumed tl)) - len (takeLine (resumed tl)) = T - len (resumed tl) := by simp only [len]; omega
      have e6 : T - len (resumed tl) - it.offset - len (skipped tl) = T - len tl - it.offset := by simp only [len]; omega
      rw [e5, e6]
    · rw [RawStream.under_setUnder]; exact e2
    · by_cases ht : tl = []
      · right
        subst ht
        rw [resumed_nil] at e2 ⊢
        rcases e2 with ⟨e2, e2'⟩ | ⟨_, e2, _⟩
        · exact ⟨rfl, e2, d2.setUnder e2'⟩
        · exact absurd rfl e2
      · exact .inl ((d2.idle ht).setUnder _)
  · right
    refine ⟨hq, e, raw1, b', ?_, he, d3, d2⟩
    unfold readToEnd
    rw [h1, d1, hm]
    simp only [Option.isSome_none, Bool.false_eq_true, if_false]

end
end ArchiveIter

/-! ## Loading -/

section
variable {σ : Type} [PyStream σ] [Hashlib] [PyUni] {W : σ → Bytes → Prop}

theorem detect_both (hW : ExactRead W) (o : LoadOpts) {s : σ} {st : Option Bytes} {data : Bytes} (h : ReadyAt W s st data) :
    ∃ x s1 left, detectType o s (st.map .bytes) = (x, s1) ∧ detectType o data none = (x, left) ∧ W s1 left ∧
      (data ≠ [] → ∃ head, head ≠ [] ∧ data = head ++ left) ∧
      (∀ e, x = .error e → (data = [] ∧ e = .eofError) ∨ (data ≠ [] ∧ Odd e)) ∧ (data = [] → x = .error .eofError) := by
  obtain ⟨s1, k1, k2⟩ := detect_at hW.lineRead o h
  obtain ⟨s2, m1, m2⟩ := detect_stream Bytes.exactRead.lineRead o (s := data) (data := data) rfl
  obtain ⟨f1, f2⟩ := detectLines_facts o (decodeHeader (takeLine data)) (splitLines (dropLine data))
  refine ⟨_, s1, s2, k1, m1, by rw [m2]; exact k2, ?_, ?_, ?_⟩
  · intro hne
    obtain ⟨pre, hpre⟩ := f1
    refine ⟨takeLine data ++ pre.flatten, ?_, ?_⟩
    · intro h0; exact takeLine_ne_nil hne (List.append_eq_nil_iff.1 h0).1
    · rw [m2, List.append_assoc, ← List.flatten_append, hpre, splitLines_flatten, takeLine_append_dropLine]
  · intro e he
    rcases f2 e he with ⟨h0, rfl⟩ | ⟨h0, h1⟩
    · left
      refine ⟨Classical.byContradiction (fun hne => decode_ne hne h0), rfl⟩
    · right
      refine ⟨?_, h1⟩
      rintro rfl
      exact h0 rfl
  · rintro rfl
    rw [detect_eof]

/-- Without its stream. -/
def Record.plain {τ : Type} (rec : Record τ) : Record Unit :=
  { format := rec.format, recType := rec.recType, recHeaders := rec.recHeaders, rawStream := (), httpHeaders := rec.httpHeaders, contentType := rec.contentType, length := rec.length, payloadLength := rec.payloadLength, checker := rec.checker }

theorem blockOf_append (n : Option Int) (data : Bytes) : (Loader.blockOf n data).1 ++ (Loader.blockOf n data).2 = data := by
  cases n <;> simp [Loader.blockOf]

theorem blockOf_declared (n : Option Int) (data : Bytes) : (Loader.blockOf n data).1 = declaredPart n data := by
  cases n <;> rfl

/-- A record stream whose digests do not raise: it still holds `b`, and `t` is behind; `C` is where it
ends, if there is a limit. -/
def RawStream.Still (W : σ → Bytes → Prop) (C : Option Int) (t : Bytes) (raw : RawStream σ) (b : Bytes) : Prop :=
  raw.View W b t ∧ C = if raw.isLimited then some (PyStream.tell raw + len b) else none

theorem RawStream.Still.under {C : Option Int} {t b : Bytes} {raw : RawStream σ} (h : raw.Still W C t b) : W raw.under (b ++ t) := by
  exact h.1.under

theorem RawStream.still_blockRead (hW : ExactRead W) {m : Nat} (hX : LineLaw W m) (C : Option Int) (t : Bytes) :
    BlockRead (fun (raw : RawStream σ) b => raw.Still W C t b) (fun raw b => raw.Still W C t b ∧ HeadWithin m b) where
  readline_none := by
    rintro raw b ⟨h, hb⟩
    have hb' : b = [] ∨ ((10 : UInt8) ∈ takeLine b ∧ (takeLine b).length ≤ m) := by
      cases hb with
      | eof => exact .inl rfl
      | blank h1 h2 => exact .inr ⟨h1, h2⟩
      | line h1 h2 => exact .inr ⟨h1, h2⟩
    have key : ∃ raw', PyStream.readline raw none = (.ok (takeLine b), raw') ∧ raw'.Still W C t (dropLine b) := by
      obtain ⟨h1, h2⟩ := h
      obtain ⟨raw', k1, k2⟩ := h1.line hW hX hb'
      obtain ⟨p, b', raw2, q1, q2, q3, q4, q5, -⟩ := h1.call hW (c := .readline none) (fun _ h => by cases h)
      have q1 : PyStream.readline raw none = (.ok p, raw2) := q1
      rw [k1] at q1
      simp only [Prod.mk.injEq, Except.ok.injEq] at q1
      obtain ⟨rfl, rfl⟩ := q1
      refine ⟨raw', k1, k2, ?_⟩
      rw [h2, q4]
      have e := congrArg List.length (takeLine_append_dropLine b)
      rw [List.length_append] at e
      cases hlim : raw.isLimited with
      | false => rfl
      | true =>
        rw [hlim] at q5
        have := q5 rfl
        simp only [if_true, len, Option.some.injEq] at this ⊢
        omega
    obtain ⟨raw', k1, k2⟩ := key
    refine ⟨raw', k1, k2, fun hne => ⟨k2, ?_⟩⟩
    cases hb with
    | eof => exact .eof
    | blank _ _ h3 => exact absurd h3 hne
    | line _ _ h3 => exact h3
  weak h := h.1
  bound h := by
    exact h.1.bound hW

/-- A header parser on the stream of a record and on its bytes. -/
theorem parse_still (hW : ExactRead W) {m : Nat} (hX : LineLaw W m) {C : Option Int} {t b : Bytes} {raw : RawStream σ} (h : raw.Still W C t b) (hb : HeadWithin m b) (c : HeaderParser) :
    ∃ x raw' b', c.parse raw = (x, raw') ∧ c.parse b = (x, b') ∧ raw'.Still W C t b' := by
  obtain ⟨raw', k1, k2⟩ := HeaderParser.parse_block (RawStream.still_blockRead hW hX C t) c (s := raw) ⟨b, ⟨h, hb⟩, rfl⟩
  obtain ⟨b', m1, m2⟩ := HeaderParser.parse_spec Bytes.exactRead.lineRead c (s := b) ⟨b, rfl, rfl⟩
  have k2 := HeaderParser.LV.flatten k2
  have m2 := HeaderParser.LV.flatten m2
  exact ⟨_, raw', b', k1, m1, by rw [m2]; exact k2⟩

/-- The HTTP headers, read from the stream of a record and from its bytes. -/
theorem http_still (hW : ExactRead W) {m : Nat} (hX : LineLaw W m) {C : Option Int} {t b : Bytes} {raw : RawStream σ} (h : raw.Still W C t b) (hb : HeadWithin m b) (v : Bool) (a u : Option Str) (n : Option Int) :
    ∃ x raw' b', loadHttpHeaders v a u n raw = (x, raw') ∧ loadHttpHeaders v a u n b = (x, b') ∧ raw'.Still W C t b' := by
  unfold loadHttpHeaders
  by_cases hn : n = some 0
  · rw [if_pos hn, if_pos hn]; exact ⟨_, _, _, rfl, rfl, h⟩
  · rw [if_neg hn, if_neg hn]
    cases a with
    | none => exact ⟨_, _, _, rfl, rfl, h⟩
    | some ty =>
      dsimp only
      by_cases h1 : (!httpRecords.contains ty) = true
      · rw [if_pos h1, if_pos h1]; exact ⟨_, _, _, rfl, rfl, h⟩
      · rw [if_neg h1, if_neg h1]
        cases u with
        | none => exact ⟨_, _, _, rfl, rfl, h⟩
        | some uri =>
          dsimp only
          by_cases h2 : (!httpSchemes.any (fun p => startsWith p uri)) = true
          · rw [if_pos h2, if_pos h2]; exact ⟨_, _, _, rfl, rfl, h⟩
          · rw [if_neg h2, if_neg h2]
            by_cases h3 : ty = lit "request"
            · rw [if_pos h3, if_pos h3]
              obtain ⟨x, raw', b', k1, k2, k3⟩ := parse_still hW hX h hb (httpReqParser v)
              rw [k1, k2]
              cases x <;> exact ⟨_, _, _, rfl, rfl, k3⟩
            · rw [if_neg h3, if_neg h3]
              obtain ⟨x, raw', b', k1, k2, k3⟩ := parse_still hW hX h hb (httpParser v)
              rw [k1, k2]
              cases x with
              | ok hd => exact ⟨_, _, _, rfl, rfl, k3⟩
              | error e =>
                dsimp only
                by_cases h4 : ty = lit "revisit" ∧ e = .eofError
                · rw [if_pos h4, if_pos h4]; exact ⟨_, _, _, rfl, rfl, k3⟩
                · rw [if_neg h4, if_neg h4]; exact ⟨_, _, _, rfl, rfl, k3⟩

/-- An HTTP message: its headers, and what is behind them. -/
theorem http_bytes {a u : Option Str} {n : Option Int} (h : HttpRecord a u) (h0 : n ≠ some 0) {b : Bytes} (hl : lineText (takeLine b) ≠ []) :
    ∃ hd left, HttpHead b hd left ∧ hd.headersBuff = none ∧ loadHttpHeaders false a u n b = (.ok (some hd), left) := by
  rw [loadHttp_eq false h h0]
  obtain ⟨b', k1, k2⟩ := HeaderParser.parse_spec Bytes.exactRead.lineRead (parserFor false a) (s := b) ⟨b, rfl, rfl⟩
  have k2 := HeaderParser.LV.flatten k2
  have hne : b ≠ [] := by rintro rfl; exact hl rfl
  rw [splitLines_cons hne] at k1 k2
  simp only [HeaderParser.parseAll] at k1 k2
  have e4 : ¬ rstrip (decodeHeader (takeLine b)) = [] := hl
  unfold HeaderParser.parseLines at k1 k2
  rw [if_neg (decode_ne hne), if_neg e4] at k1 k2
  unfold HeaderParser.protocolStatus at k1 k2
  rw [parserFor_verify] at k1 k2
  simp only [Bool.false_eq_true, if_false] at k1 k2
  rw [k1]
  exact ⟨_, _, ⟨hl, rfl, rfl, rfl, k2⟩, rfl, rfl⟩

/-- If digests do not raise the stream of a record is one of these. -/
theorem wrap_still {o : LoadOpts} {f : Fields} (hc : ChecksFine o f) {n : Option Int} (hl : ∀ m, n = some m → 0 ≤ m) {s : σ} {data : Bytes} (hs : W s data) {raw : RawStream σ} (hw : wrap o f n s = .ok raw) :
    raw.Still W (n.map (fun _ => PyStream.tell raw + len (Loader.blockOf n data).1)) (Loader.blockOf n data).2 (Loader.blockOf n data).1 := by
  obtain ⟨raw', w1, w2, w3, -⟩ := wrap_spec hc hl hs
  rw [hw] at w1
  cases w1
  refine ⟨w2, ?_⟩
  rw [w3]
  cases n <;> rfl

/-- Digests that do not raise. -/
theorem checksFine_of {o : LoadOpts} {f : Fields} {rec : Record Unit} (h1 : rec.recType = f.recType) (h2 : rec.recHeaders = f.headers)
    (h : o.checkDigests = none ∨ (o.checkDigests ≠ some .raise ∧ rec.Usable)) : ChecksFine o f := by
  refine h.imp id (fun h => ⟨h.1, ?_⟩)
  have := h.2
  unfold Record.Usable at this
  rw [h1, h2, firstValue_eq, firstValue_eq, firstValue_eq] at this
  exact this

/-- If digests do not raise, the stream of a record is as it should be. -/
theorem load_fine (hW : ExactRead W) {o : LoadOpts} {s s1 : σ} {st : Option Line} {f : HeadFormat} {h : StatusAndHeaders} {data : Bytes}
    (hd : detectType o s st = (.ok (f, h), s1)) (hs : W s1 data) (hc : ChecksFine o (fields f h)) {rec : Record (RawStream σ)} {s2 : σ}
    (hp : parseRecordStream o s st = (.ok rec, s2)) :
    ∃ left, rec.rawStream.View W left (Loader.blockOf (blockLength (fields f h).length (fields f h).subLen) data).2 ∧
      rec.rawStream.isLimited = (blockLength (fields f h).length (fields f h).subLen).isSome := by
  obtain ⟨raw0, w1, w2, w3, -⟩ := wrap_spec hc (fun n hn => Loader.blockLength_nonneg hn) hs
  unfold parseRecordStream at hp
  rw [hd] at hp
  dsimp only at hp
  generalize blockLength (fields f h).length (fields f h).subLen = n at *
  rw [w1] at hp
  dsimp only at hp
  generalize hx : (if o.noRecordParse then (.ok none, raw0) else loadHttpHeaders o.verifyHttp (fields f h).recType (fields f h).uri n raw0 :
    Except PyErr (Option StatusAndHeaders) × RawStream σ) = x at hp
  obtain ⟨x, raw'⟩ := x
  cases x with
  | error e => cases hp
  | ok http =>
    dsimp only at hp
    generalize hy : beginPayload raw' = y at hp
    obtain ⟨y, raw2⟩ := y
    cases y with
    | error e => cases hp
    | ok u =>
      cases hp
      have hU : ShortLine (fun (raw : RawStream σ) (b : Bytes) => raw.View W b (Loader.blockOf n data).2 ∧ raw.isLimited = n.isSome) := by
        refine ⟨?_, fun h => h.1.bound hW⟩
        rintro raw b ⟨h1, h2⟩
        obtain ⟨p, b', raw', k1, k2, k3, k4, k5, k6, _⟩ := h1.call hW (c := .readline none) (by intro n hn; cases hn)
        exact ⟨p, b', raw', k2, (fun hp => (k6 hp).resolve_right (fun h => by cases h)), k1, k3, k4.trans h2⟩
      obtain ⟨p, b', -, m2, m3⟩ : ∃ p b', (Loader.blockOf n data).1 = p ++ b' ∧ raw'.View W b' (Loader.blockOf n data).2 ∧ raw'.isLimited = n.isSome := by
        split at hx
        · cases hx; exact ⟨[], _, rfl, w2, w3⟩
        · exact loadHttp_short hU ⟨w2, w3⟩ hx
      obtain ⟨raw3, n1, n2, n3⟩ := m2.begin
      rw [hy] at n1
      cases n1
      exact ⟨b', n2, n3.trans m3⟩

/-- The verdict on a record whose digests do not raise. -/
theorem load_judged (hW : ExactRead W) {o : LoadOpts} {s s1 : σ} {st : Option Line} {f : HeadFormat} {h : StatusAndHeaders} {data : Bytes}
    (hd : detectType o s st = (.ok (f, h), s1)) (hs : W s1 data) (hc : ChecksFine o (fields f h)) (ho : o.checkDigests.isSome = true) {rec : Record (RawStream σ)} {s2 : σ}
    (hp : parseRecordStream o s st = (.ok rec, s2)) {left head : Bytes} (hv : rec.rawStream.View W left (Loader.blockOf (blockLength (fields f h).length (fields f h).subLen) data).2)
    (h1 : rec.recType = (fields f h).recType) (h2 : rec.recHeaders = (fields f h).headers) (h3 : rec.length = blockLength (fields f h).length (fields f h).subLen) :
    Portion.Verdict ⟨head, (Loader.blockOf (blockLength (fields f h).length (fields f h).subLen) data).1, (Loader.blockOf (blockLength (fields f h).length (fields f h).subLen) data).2⟩
      rec.plain left (rec.rawStream.checkerAt left).passed ∧ (rec.rawStream.checkerAt left).Loud := by
  unfold Portion.Verdict Record.digests
  show (match rec.length with | none => _ | some n => _) ∧ _
  simp only [Record.plain, h1, h2, h3, firstValue_eq]
  obtain ⟨left', hv', hlim⟩ := load_fine hW hd hs hc hp
  cases hn : blockLength (fields f h).length (fields f h).subLen with
  | none =>
    rw [hn] at hlim
    dsimp only
    cases hraw : rec.rawStream with
    | bare s => exact ⟨rfl, (fun h => by cases h), fun h => (by cases h), fun h => absurd rfl h⟩
    | limited s => rw [hraw] at hlim; cases hlim
    | verifying d => rw [hraw] at hlim; cases hlim
  | some n =>
    rw [hn] at hv
    dsimp only
    have hn0 := Loader.blockLength_nonneg hn
    by_cases hlt : len (Loader.blockOf (some n) data).1 < n
    · rw [if_pos hlt]
      have hle : (data.length : Int) < n := by
        simp only [Loader.blockOf, len, List.length_take] at hlt
        omega
      have e0 : Loader.blockOf (some n) data = (data, []) := by
        simp only [Loader.blockOf]
        rw [List.take_of_length_le (by omega), List.drop_eq_nil_of_le (by omega)]
      rw [e0] at hv
      obtain ⟨g1, g2⟩ := load_lacks hW hd hs hc hle hn hp hv
      refine ⟨?_, g2⟩
      unfold CutVerdict at g1
      rw [g1, ho, DigestReader.lookedAt_eq]
      simp only [Bool.true_and, Bool.or_eq_true, unknownAlgo_iff]
      constructor
      · split <;> exact (fun h => by cases h)
      · split
        · rename_i hu
          simp only [Bool.true_and, Bool.or_eq_true, unknownAlgo_iff] at hu
          exact ⟨fun _ => hu, fun _ => rfl⟩
        · rename_i hu
          simp only [Bool.true_and, Bool.or_eq_true, unknownAlgo_iff] at hu
          exact ⟨(fun h => by cases h), fun h => absurd h hu⟩
    · rw [if_neg hlt]
      have e1 : len (Loader.blockOf (some n) data).1 = n := by
        simp only [Loader.blockOf, len, List.length_take] at hlt ⊢
        omega
      obtain ⟨g1, g2⟩ := load_verdict hW hd (by rw [blockOf_append (some n) data]; exact hs) hc (by rw [e1]; exact hn) hp hv
      exact ⟨fun ob op h1 h2 => g1.2 ho ob op h1 h2, g2⟩

/-- Failures to load the HTTP headers if digests do not raise. -/
theorem http_fine (hW : ExactRead W) {v : Bool} {a u : Option Str} {n : Option Int} {raw raw' : RawStream σ} {b t : Bytes} (h : raw.View W b t)
    {e : PyErr} (hp : loadHttpHeaders v a u n raw = (.error e, raw')) : e = .eofError ∨ (v = true ∧ ∃ l, e = .statusParser l) ∨ (e = .attributeError ∧ HttpType a ∧ u = none ∧ n ≠ some 0) := by
  have hU : ShortLine (fun (raw : RawStream σ) (b : Bytes) => raw.View W b t) := by
    refine ⟨?_, fun h => h.bound hW⟩
    intro raw b h1
    obtain ⟨p, b', raw', k1, k2, k3, -, -, k6, -⟩ := h1.call hW (c := .readline none) (by intro n hn; cases hn)
    exact ⟨p, b', raw', k2, (fun hp => (k6 hp).resolve_right (fun h => by cases h)), k1, k3⟩
  have hq : ∀ (c : HeaderParser) {e : PyErr} {raw' : RawStream σ}, c.parse raw none = (.error e, raw') → e = .eofError ∨ (c.verify = true ∧ ∃ l, e = .statusParser l) := by
    intro c e raw' hc
    obtain ⟨y, p, b', raw1, k1, -, -, k4⟩ := HeaderParser.parse_short hU c h
    rw [hc] at k1
    cases k1
    rcases k4 with ⟨_, k4⟩ | ⟨k4, k5⟩ | ⟨k4, l, k5⟩
    · cases k4
    · cases k5; exact .inl rfl
    · cases k5; exact .inr ⟨k4, l, rfl⟩
  unfold loadHttpHeaders at hp
  split at hp
  · cases hp
  · rename_i hn
    split at hp
    · cases hp
    · rename_i ty
      split at hp
      · cases hp
      · rename_i ht
        have ht' : HttpType (some ty) := (httpRecords_iff ty).1 (by simpa using ht)
        split at hp
        · cases hp; exact .inr (.inr ⟨rfl, ht', rfl, hn⟩)
        · split at hp
          · cases hp
          · split at hp
            · cases hx : (httpReqParser v).parse raw none with
              | mk y raw1 =>
              rw [hx] at hp
              cases y with
              | ok hd => cases hp
              | error e0 => cases hp; exact (hq _ hx).imp id .inl
            · cases hx : (httpParser v).parse raw none with
              | mk y raw1 =>
              rw [hx] at hp
              cases y with
              | ok hd => cases hp
              | error e0 =>
                dsimp only at hp
                split at hp
                · cases hp
                · cases hp; exact (hq _ hx).imp id .inl

/-- What is no status line, if digests do not raise. -/
theorem parse_bad {c : HeaderParser} {b b' : Bytes} {l : Str} (h : c.parse b none = (.error (.statusParser l), b')) :
    l = decodeHeader (takeLine b) ∧ lineText (takeLine b) ≠ [] ∧ c.protocolStatus l (lineText (takeLine b)) = .error (.statusParser l) := by
  obtain ⟨s', k1, -⟩ := HeaderParser.parse_spec Bytes.exactRead.lineRead c (s := b) (ls := splitLines b) ⟨b, rfl, rfl⟩
  rw [h] at k1
  simp only [Prod.mk.injEq] at k1
  obtain ⟨k1, -⟩ := k1
  by_cases hb : b = []
  · subst hb; cases k1
  · rw [splitLines_cons hb] at k1
    simp only [HeaderParser.parseAll] at k1
    unfold HeaderParser.parseLines at k1
    split at k1
    · cases k1
    · split at k1
      · cases k1
      · rename_i h2
        cases hp : c.protocolStatus (decodeHeader (takeLine b)) (rstrip (decodeHeader (takeLine b))) with
        | ok ps => rw [hp] at k1; cases k1
        | error e =>
          rw [hp] at k1
          cases k1
          have : l = decodeHeader (takeLine b) := by
            unfold HeaderParser.protocolStatus at hp
            split at hp
            · split at hp
              · cases hp
              · cases hp; rfl
            · cases hp
          refine ⟨this, h2, ?_⟩
          rw [this]
          rw [this] at hp
          exact hp

theorem splitPrefix_none {key : Str} : ∀ {ps : List Str}, HeaderParser.splitPrefix key ps = none → ∀ v ∈ ps, ¬ v <+: PyUni.upper key
  | [], _, v, hv => by cases hv
  | p :: ps, h, v, hv => by
    unfold HeaderParser.splitPrefix at h
    split at h
    · cases h
    · rename_i hp
      rcases List.mem_cons.1 hv with rfl | hv
      · intro hc; exact hp (by unfold startsWith; exact List.isPrefixOf_iff_prefix.2 hc)
      · exact splitPrefix_none h v hv

theorem status_bad (hW : ExactRead W) {m : Nat} (hX : LineLaw W m) {o : LoadOpts} {f : HeadFormat} {hd : StatusAndHeaders} {n : Option Int} {s1 : σ} {left : Bytes} (k3 : W s1 left) (hn0 : ∀ m, n = some m → 0 ≤ m) {raw raw1 : RawStream σ} (hw : wrap o (fields f hd) n s1 = .ok raw) {l : Str}
    (hx : (if false = true then (.ok none, raw) else loadHttpHeaders o.verifyHttp (fields f hd).recType (fields f hd).uri n raw : Except PyErr (Option StatusAndHeaders) × RawStream σ) = (.error (.statusParser l), raw1))
    (hc : o.checkDigests = none ∨ (o.checkDigests ≠ some .raise ∧ (fields f hd).Usable)) (hb : HeadWithin m (declaredPart n left)) :
    HttpRecord (fields f hd).recType (fields f hd).uri ∧ l = decodeHeader (takeLine (declaredPart n left)) ∧ BadStatus (fields f hd).recType (lineText (takeLine (declaredPart n left))) := by
  have hx : loadHttpHeaders o.verifyHttp (fields f hd).recType (fields f hd).uri n raw = (.error (.statusParser l), raw1) := hx
  have hf : ChecksFine o (fields f hd) := by
    refine hc.imp id (fun h => ⟨h.1, ?_⟩)
    have := h.2
    unfold Fields.Usable at this
    rw [firstValue_eq, firstValue_eq, firstValue_eq] at this
    exact this
  rw [← blockOf_declared] at hb ⊢
  obtain ⟨x, raw', b', j1, j2, -⟩ := http_still hW hX (wrap_still hf hn0 k3 hw) hb o.verifyHttp (fields f hd).recType (fields f hd).uri n
  rw [hx] at j1
  simp only [Prod.mk.injEq] at j1
  obtain ⟨rfl, rfl⟩ := j1
  generalize (fields f hd).recType = a at j2 ⊢
  generalize (fields f hd).uri = u at j2 ⊢
  generalize (Loader.blockOf n left).1 = b at j2 ⊢
  have hpre : ∀ {c : HeaderParser}, c.protocolStatus l (lineText (takeLine b)) = .error (.statusParser l) → ∀ v ∈ c.statuslist, ¬ v <+: PyUni.upper (lineText (takeLine b)) := by
    intro c h
    unfold HeaderParser.protocolStatus at h
    split at h
    · split at h
      · cases h
      · rename_i hsp; exact splitPrefix_none hsp
    · cases h
  unfold loadHttpHeaders at j2
  split at j2
  · cases j2
  · split at j2
    · cases j2
    · rename_i ty
      split at j2
      · cases j2
      · rename_i ht
        have ht' : HttpType (some ty) := (httpRecords_iff ty).1 (by simpa using ht)
        split at j2
        · cases j2
        · rename_i u
          split at j2
          · cases j2
          · rename_i hu
            have hu' : HttpRecord (some ty) (some u) := ⟨ht', u, rfl, (httpSchemes_iff u).1 (by simpa using hu)⟩
            refine ⟨hu', ?_⟩
            split at j2
            · rename_i hr
              cases hq : (httpReqParser o.verifyHttp).parse b none with
              | mk y b1 =>
              rw [hq] at j2
              cases y with
              | ok hd => cases j2
              | error e0 =>
                cases j2
                obtain ⟨q1, q2, q3⟩ := parse_bad hq
                refine ⟨q1, q2, ?_⟩
                rw [statusStarts, if_pos (by rw [hr])]
                exact hpre q3
            · rename_i hr
              cases hq : (httpParser o.verifyHttp).parse b none with
              | mk y b1 =>
              rw [hq] at j2
              cases y with
              | ok hd => cases j2
              | error e0 =>
                dsimp only at j2
                split at j2
                · cases j2
                · cases j2
                  obtain ⟨q1, q2, q3⟩ := parse_bad hq
                  refine ⟨q1, q2, ?_⟩
                  rw [statusStarts, if_neg (by simpa using hr)]
                  exact hpre q3

theorem splitPrefix_some {key : Str} {q r : Str} : ∀ {ps : List Str}, HeaderParser.splitPrefix key ps = some (q, r) → q ∈ ps ∧ q <+: PyUni.upper key ∧ r = key.drop q.length
  | [], h => by cases h
  | p :: ps, h => by
    unfold HeaderParser.splitPrefix at h
    split at h
    · rename_i hp
      have hp : p <+: PyUni.upper key := by unfold startsWith at hp; exact List.isPrefixOf_iff_prefix.1 hp
      have e : (PyUni.upper key).take p.length = p := (List.prefix_iff_eq_take.1 hp).symm
      rw [e] at h
      simp only [Option.some.injEq, Prod.mk.injEq] at h
      obtain ⟨rfl, rfl⟩ := h
      exact ⟨List.mem_cons_self, hp, rfl⟩
    · obtain ⟨h1, h2, h3⟩ := splitPrefix_some h
      exact ⟨List.mem_cons_of_mem _ h1, h2, h3⟩

theorem parserFor_list (v : Bool) (a : Option Str) : (parserFor v a).statuslist = statusStarts a := by
  unfold parserFor statusStarts; split <;> rfl

/-- With `verify_http`, a line of the list is taken, and any other one refused. -/
theorem http_verified {a u : Option Str} {n : Option Int} (h : HttpRecord a u) (h0 : n ≠ some 0) {b : Bytes} (hl : lineText (takeLine b) ≠ []) :
    (∃ hd left, HttpVerified a b hd left ∧ loadHttpHeaders true a u n b = (.ok (some hd), left)) ∨
    (BadStatus a (lineText (takeLine b)) ∧ ∃ left, loadHttpHeaders true a u n b = (.error (.statusParser (decodeHeader (takeLine b))), left)) := by
  rw [loadHttp_eq true h h0]
  obtain ⟨b', k1, k2⟩ := HeaderParser.parse_spec Bytes.exactRead.lineRead (parserFor true a) (s := b) ⟨b, rfl, rfl⟩
  have k2 := HeaderParser.LV.flatten k2
  have hne : b ≠ [] := by rintro rfl; exact hl rfl
  rw [splitLines_cons hne] at k1 k2
  simp only [HeaderParser.parseAll] at k1 k2
  have e4 : ¬ rstrip (decodeHeader (takeLine b)) = [] := hl
  unfold HeaderParser.parseLines at k1 k2
  rw [if_neg (decode_ne hne), if_neg e4] at k1 k2
  unfold HeaderParser.protocolStatus at k1 k2
  rw [parserFor_verify, parserFor_list] at k1 k2
  simp only [if_true] at k1 k2
  cases hq : HeaderParser.splitPrefix (rstrip (decodeHeader (takeLine b))) (statusStarts a) with
  | none =>
    rw [hq] at k1
    right
    refine ⟨⟨hl, splitPrefix_none hq⟩, b', ?_⟩
    rw [k1]
    dsimp only
    rw [if_neg (by rintro ⟨-, h⟩; cases h)]
  | some pr =>
    obtain ⟨q, r⟩ := pr
    rw [hq] at k1 k2
    obtain ⟨j1, j2, j3⟩ := splitPrefix_some hq
    left
    rw [k1]
    exact ⟨_, _, ⟨j1, j2, congrArg strip j3, rfl, k2⟩, rfl⟩

/-- Digests that may raise. -/
theorem not_fine {o : LoadOpts} {f : Fields} (h : ¬ ChecksFine o f) : o.checkDigests = some .raise ∨ ¬ f.Usable := by
  refine Classical.byContradiction (fun h' => h (.inr ⟨fun e => h' (.inl e), ?_⟩))
  have := Classical.not_not.1 (fun e => h' (.inr e))
  unfold Fields.Usable at this
  rw [firstValue_eq, firstValue_eq, firstValue_eq] at this
  exact this

theorem load_any' (hW : ExactRead W) {m : Nat} (hX : LineLaw W m) (o : LoadOpts) {s : σ} {st : Option Bytes} {data : Bytes} (h : ReadyAt W s st data) :
    (∃ (p : Portion) (rec : Record (RawStream σ)) (left : Bytes), data = p.all ∧ parseRecordStream o s (st.map .bytes) = (.ok rec, rec.rawStream.under) ∧ p.Shows o rec.plain ∧
      p.Parsed o m rec.plain left ∧ left <:+ p.block ∧ (o.noRecordParse = true ∨ ¬ HttpType rec.recType → left = p.block) ∧ rec.rawStream.Lies W (o.checkDigests.isSome = true) left p.tail ∧
      (o.checkDigests.isSome = true → o.checkDigests ≠ some .raise → rec.plain.Usable → rec.rawStream.View W left p.tail ∧ p.Verdict rec.plain left (rec.rawStream.checkerAt left).passed ∧ (rec.rawStream.checkerAt left).Loud)) ∨
    (∃ e s1 rest, parseRecordStream o s (st.map .bytes) = (.error e, s1) ∧ W s1 rest ∧ ((e = .eofError ∧ Over o m data .stopIteration) ∨ (Odd e ∧ Over o m data e))) := by
  obtain ⟨x, s1, left, k1, k2, k3, k4, k5, k6⟩ := detect_both hW o h
  cases x with
  | error e =>
    right
    refine ⟨e, s1, left, load_error k1, k3, ?_⟩
    rcases k5 e rfl with ⟨h0, rfl⟩ | ⟨h0, h1⟩
    · exact .inl ⟨rfl, .empty h0⟩
    · exact .inr ⟨h1, .head e left h0 k2 h1.2 h1.1⟩
  | ok fh =>
    obtain ⟨f, hd⟩ := fh
    have hne : data ≠ [] := fun h0 => by cases k6 h0
    obtain ⟨head, hh, hdata⟩ := k4 hne
    have hn0 : ∀ m, blockLength (fields f hd).length (fields f hd).subLen = some m → 0 ≤ m := fun m hm => Loader.blockLength_nonneg hm
    obtain ⟨w1, w2⟩ := wrap_lies o (fields f hd) hn0 k3
    unfold parseRecordStream
    rw [k1]
    dsimp only
    generalize hn : blockLength (fields f hd).length (fields f hd).subLen = n at *
    cases hw : wrap o (fields f hd) n s1 with
    | error e =>
      right
      obtain ⟨o1, o2⟩ := w1 e hw
      refine ⟨e, s1, left, rfl, k3, .inr ⟨o1, .digest e f hd left hne k2 o1.2 o1.1 o2 (not_fine (fun hc => ?_))⟩⟩
      obtain ⟨raw0, w3, -⟩ := wrap_spec hc hn0 k3
      rw [hw] at w3
      cases w3
    | ok raw =>
      have hl := w2 raw hw
      dsimp only
      have hraw : raw.LeftOf W (o.checkDigests.isSome = true) (Loader.blockOf n left).1 (Loader.blockOf n left).2 := ⟨[], _, rfl, hl⟩
      have hback : ∀ {raw' : RawStream σ}, raw'.LeftOf W (o.checkDigests.isSome = true) (Loader.blockOf n left).1 (Loader.blockOf n left).2 → ∃ rest, W raw'.under rest := by
        rintro raw' ⟨_, b', _, h'⟩; exact ⟨_, h'.under⟩
      cases hx : (if o.noRecordParse then (.ok none, raw) else loadHttpHeaders o.verifyHttp (fields f hd).recType (fields f hd).uri n raw : Except PyErr (Option StatusAndHeaders) × RawStream σ) with
      | mk y raw1 =>
      have hfacts : raw1.LeftOf W (o.checkDigests.isSome = true) (Loader.blockOf n left).1 (Loader.blockOf n left).2 ∧
          (o.noRecordParse = true ∨ ¬ HttpType (fields f hd).recType → raw1 = raw ∧ y = .ok none) ∧ ∀ e, y = .error e → o.noRecordParse = false ∧
            ((e = .eofError ∧ (Loader.blockOf n left).1 = [] ∧ HttpRecord (fields f hd).recType (fields f hd).uri ∧ (fields f hd).recType ≠ some (lit "revisit") ∧ n ≠ some 0) ∨
            (Odd e ∧ (o.checkDigests.isSome = true ∨ (o.verifyHttp = true ∧ ∃ l, e = .statusParser l) ∨ (e = .attributeError ∧ HttpType (fields f hd).recType ∧ (fields f hd).uri = none ∧ n ≠ some 0)))) := by
        by_cases hnp : o.noRecordParse = true
        · rw [if_pos hnp] at hx
          cases hx
          exact ⟨hraw, (fun _ => ⟨rfl, rfl⟩), (fun _ h => by cases h)⟩
        · rw [if_neg hnp] at hx
          obtain ⟨m1, m2, m3⟩ := http_lies hW hl hx
          exact ⟨m1, (fun h => m2 (h.resolve_left hnp)), (fun e he => ⟨by simpa using hnp, m3 e he⟩)⟩
      obtain ⟨m1, m2, m3⟩ := hfacts
      cases y with
      | error e =>
        right
        obtain ⟨rest, hrest⟩ := hback m1
        refine ⟨e, raw1.under, rest, rfl, hrest, ?_⟩
        obtain ⟨n1, h5⟩ := m3 e rfl
        rcases h5 with ⟨rfl, h5, h6, h7, h8⟩ | ⟨h5, h6 | ⟨h6, l, rfl⟩ | ⟨rfl, h6, h7, h8⟩⟩
        · have : left = [] := by
            cases hnn : n with
            | none => rw [hnn] at h5; exact h5
            | some m =>
              rw [hnn] at h5
              have h0 := hn0 m hnn
              have : m ≠ 0 := fun h => h8 (by rw [hnn, h])
              simp only [Loader.blockOf, List.take_eq_nil_iff] at h5
              rcases h5 with h5 | h5
              · omega
              · exact h5
          subst this
          exact .inl ⟨rfl, .bare f hd hne k2 n1 h6 h7 (by rw [hn]; exact h8)⟩
        · by_cases hc : ChecksFine o (fields f hd)
          · obtain ⟨raw0, w3, w4, -⟩ := wrap_spec hc hn0 k3
            rw [hw] at w3
            cases w3
            rw [n1] at hx
            rcases http_fine hW w4 hx with rfl | ⟨h7, l, rfl⟩ | ⟨rfl, h7, h8, h9⟩
            · exact absurd rfl h5.1
            · exact .inr ⟨h5, .status l f hd left hne k2 n1 h7 (fun g1 g2 => by rw [hn] at g2 ⊢; exact status_bad hW hX k3 hn0 hw hx g1 g2)⟩
            · exact .inr ⟨h5, .uri f hd left hne k2 n1 h7 h8 (by rw [hn]; exact h9)⟩
          · exact .inr ⟨h5, .digest e f hd left hne k2 h5.2 h5.1 h6 (not_fine hc)⟩
        · exact .inr ⟨h5, .status l f hd left hne k2 n1 h6 (fun g1 g2 => by rw [hn] at g2 ⊢; rw [n1] at hx; exact status_bad hW hX k3 hn0 hw hx g1 g2)⟩
        · exact .inr ⟨h5, .uri f hd left hne k2 n1 h6 h7 (by rw [hn]; exact h8)⟩
      | ok http =>
        dsimp only
        obtain ⟨p1, b1, hb1, hl1⟩ := m1
        obtain ⟨q1, q2⟩ := beginPayload_lies hl1
        cases hz : beginPayload raw1 with
        | mk z raw2 =>
        rw [hz] at q1 q2
        cases z with
        | error e =>
          right
          obtain ⟨o1, o2⟩ := q2 e rfl
          refine ⟨e, raw2.under, _, rfl, q1.under, .inr ⟨o1, .digest e f hd left hne k2 o1.2 o1.1 o2 (not_fine (fun hc => ?_))⟩⟩
          obtain ⟨raw0, w3, w4, -⟩ := wrap_spec hc hn0 k3
          rw [hw] at w3
          cases w3
          have hU : ShortLine (fun (raw : RawStream σ) (b : Bytes) => raw.View W b (Loader.blockOf n left).2) := by
            refine ⟨?_, fun h => h.bound hW⟩
            intro raw b h1
            obtain ⟨p, b', raw', k1, k2, k3, -, -, k6, -⟩ := h1.call hW (c := .readline none) (by intro n hn; cases hn)
            exact ⟨p, b', raw', k2, (fun hp => (k6 hp).resolve_right (fun h => by cases h)), k1, k3⟩
          obtain ⟨p, b', -, m4⟩ : ∃ p b', (Loader.blockOf n left).1 = p ++ b' ∧ raw1.View W b' (Loader.blockOf n left).2 := by
            split at hx
            · cases hx; exact ⟨[], _, rfl, w4⟩
            · exact loadHttp_short hU w4 hx
          obtain ⟨raw3, n1, -⟩ := m4.begin
          rw [hz] at n1
          cases n1
        | ok u =>
          left
          refine ⟨⟨head, (Loader.blockOf n left).1, (Loader.blockOf n left).2⟩, _, b1, ?_, rfl, ?_, ?_, ⟨p1, hb1.symm⟩, ?_, q1, ?_⟩
          · show data = head ++ (Loader.blockOf n left).1 ++ (Loader.blockOf n left).2
            rw [List.append_assoc, blockOf_append]; exact hdata
          · refine ⟨⟨f, hd, ?_, rfl, rfl, rfl, rfl, hn.symm⟩, ?_, rfl, hh, ?_⟩
            · show detectType o (head ++ (Loader.blockOf n left).1 ++ (Loader.blockOf n left).2) none = (.ok (f, hd), (Loader.blockOf n left).1 ++ (Loader.blockOf n left).2)
              rw [List.append_assoc, blockOf_append, ← hdata]; exact k2
            · intro hnp
              cases (m2 hnp).2
              refine ⟨?_, ?_⟩
              · simp only [Record.plain, truthyHeaders]
                cases n <;> simp
              · simp [Record.plain, truthyHeaders]
            · show (Loader.blockOf n left).1 = declaredPart n ((Loader.blockOf n left).1 ++ (Loader.blockOf n left).2)
              rw [blockOf_append]; exact blockOf_declared n left
          · intro g1 g2 f' hd' g3
            have g3 : detectType o (head ++ (Loader.blockOf n left).1 ++ (Loader.blockOf n left).2) none = (.ok (f', hd'), (Loader.blockOf n left).1 ++ (Loader.blockOf n left).2) := g3
            rw [List.append_assoc, blockOf_append, ← hdata, k2] at g3
            simp only [Prod.mk.injEq, Except.ok.injEq, and_true] at g3
            obtain ⟨rfl, rfl⟩ := g3
            have g4 := wrap_still (checksFine_of rfl rfl g1) hn0 k3 hw
            have key : ∃ x raw' b', (if o.noRecordParse then (.ok none, raw) else loadHttpHeaders o.verifyHttp (fields f hd).recType (fields f hd).uri n raw : Except PyErr (Option StatusAndHeaders) × RawStream σ) = (x, raw') ∧
                (if o.noRecordParse then (.ok none, (Loader.blockOf n left).1) else loadHttpHeaders o.verifyHttp (fields f hd).recType (fields f hd).uri n (Loader.blockOf n left).1 : Except PyErr (Option StatusAndHeaders) × Bytes) = (x, b') ∧
                raw'.Still W (n.map (fun _ => PyStream.tell raw + len (Loader.blockOf n left).1)) (Loader.blockOf n left).2 b' := by
              by_cases hnp : o.noRecordParse = true
              · rw [if_pos hnp, if_pos hnp]; exact ⟨_, _, _, rfl, rfl, g4⟩
              · rw [if_neg hnp, if_neg hnp]; exact http_still hW hX g4 g2 _ _ _ _
            obtain ⟨x, raw', b', j1, j2, j3⟩ := key
            rw [hx] at j1
            simp only [Prod.mk.injEq] at j1
            obtain ⟨rfl, rfl⟩ := j1
            have hbb : b' = b1 := by
              obtain ⟨_, e1, _⟩ := hW.read_none j3.under
              obtain ⟨_, e2, _⟩ := hW.read_none hl1.under
              rw [e1] at e2
              simp only [Prod.mk.injEq, Except.ok.injEq] at e2
              exact List.append_cancel_right e2.1
            subst hbb
            refine ⟨http, j2, rfl, ?_⟩
            simp only [Record.plain, Option.some.injEq]
            cases hnn : n with
            | none => rfl
            | some k =>
              subst hnn
              dsimp only
              have e3 : PyStream.tell raw + len (Loader.blockOf (some k) left).1 = PyStream.tell raw1 + len b' := by
                have j4 := j3.2
                cases hlim : raw1.isLimited with
                | false => rw [hlim] at j4; cases j4
                | true => rw [hlim] at j4; exact Option.some.inj j4
              refine ite_congr rfl (fun _ => ?_) (fun _ => rfl)
              omega
          · intro h0
            have h1 := (m2 h0).1
            subst h1
            -- the streams are the same, so are the remainders
            have e1 := hW.read_none hl.under
            have e2 := hW.read_none hl1.under
            obtain ⟨_, e1, _⟩ := e1
            obtain ⟨_, e2, _⟩ := e2
            rw [e1] at e2
            simp only [Prod.mk.injEq, Except.ok.injEq] at e2
            exact (List.append_cancel_right e2.1).symm
          · intro u1 u2 u3
            have hc := checksFine_of (o := o) (f := fields f hd) rfl rfl (.inr ⟨u2, u3⟩)
            obtain ⟨rc, hrc⟩ : ∃ rc, parseRecordStream o s (st.map .bytes) = (.ok rc, raw2.under) ∧ rc.rawStream = raw2 ∧ rc.recType = (fields f hd).recType ∧ rc.recHeaders = (fields f hd).headers ∧ rc.length = n := by
              unfold parseRecordStream
              rw [k1]
              dsimp only
              rw [hn, hw]
              dsimp only
              rw [hx]
              dsimp only
              rw [hz]
              exact ⟨_, rfl, rfl, rfl, rfl, rfl⟩
            obtain ⟨hp, r1, r2, r3, r4⟩ := hrc
            obtain ⟨left', v1, v2⟩ := load_fine hW k1 k3 hc hp
            rw [r1] at v1
            rw [hn] at v1
            have e1 : left' = b1 := by
              obtain ⟨_, e1, _⟩ := hW.read_none v1.under
              obtain ⟨_, e2, _⟩ := hW.read_none q1.under
              rw [e1] at e2
              simp only [Prod.mk.injEq, Except.ok.injEq] at e2
              exact List.append_cancel_right e2.1
            subst e1
            have := load_judged (head := head) hW k1 k3 hc u1 hp (by rw [hn, r1]; exact v1) r2 r3 (r4.trans hn.symm)
            rw [hn, r1] at this
            refine ⟨v1, ?_, this.2⟩
            have e2 := this.1
            unfold Portion.Verdict Record.digests at e2 ⊢
            simp only [Record.plain, r2, r3, r4] at e2 ⊢
            exact e2

theorem load_any (hW : ExactRead W) {m : Nat} (hX : LineLaw W m) (o : LoadOpts) {s : σ} {st : Option Bytes} {data : Bytes} (h : ReadyAt W s st data) :
    (∃ (p : Portion) (rec : Record (RawStream σ)) (left : Bytes), data = p.all ∧ parseRecordStream o s (st.map .bytes) = (.ok rec, rec.rawStream.under) ∧ p.Shows o rec.plain ∧
      p.Parsed o m rec.plain left ∧ left <:+ p.block ∧ (o.noRecordParse = true ∨ ¬ HttpType rec.recType → left = p.block) ∧ rec.rawStream.Lies W (o.checkDigests.isSome = true) left p.tail) ∨
    (∃ e s1 rest, parseRecordStream o s (st.map .bytes) = (.error e, s1) ∧ W s1 rest ∧ ((e = .eofError ∧ Over o m data .stopIteration) ∨ (Odd e ∧ Over o m data e))) :=
  (load_any' hW hX o h).imp (fun ⟨p, rec, left, h1, h2, h3, h4, h5, h6, h7, _⟩ => ⟨p, rec, left, h1, h2, h3, h4, h5, h6, h7⟩) id

end

/-! ## The iteration -/

namespace ArchiveIter
open BufReader
variable {σ : Type} [Zlib] [PyStream σ] [Hashlib] [PyUni] {V : σ → Bytes → Prop} {IsMember : Bytes → Bytes → Prop} {T : Int} {N bs : Nat} {io : IterOpts}

/-- Before the record at the front of `data`. -/
structure AnyTop (V : σ → Bytes → Prop) (T : Int) (N bs : Nat) (io : IterOpts) (n : Nat) (kf : Option Format) (off : Int) (ws : List (Int × Bytes)) (data : Bytes)
    (it : ArchiveIter σ) : Prop where
  opts : it.opts = io
  known : it.knownFormat = kf
  loads : it.loads = n
  closed : it.closed = false
  calm : it.raiseInvalidGzip = false
  more : it.emptyRecord = false
  quiet : it.warnings = ws
  offered : it.record = none ∨ it.memberInfo.isSome = true
  offset : it.offset = off
  total : off + len data = T
  le : data.length ≤ N
  ready : ReadyAt (PlainAt V T N bs) it.reader it.nextLine data

/-- While the record `p` is used; its stream holds `left`. -/
structure AnyAfter (V : σ → Bytes → Prop) (T : Int) (N bs : Nat) (io : IterOpts) (n : Nat) (kf : Option Format) (off : Int) (ws : List (Int × Bytes)) (p : Portion) (left : Bytes)
    (it : ArchiveIter σ) : Prop where
  opts : it.opts = io
  known : it.knownFormat = kf
  loads : it.loads = n
  closed : it.closed = false
  calm : it.raiseInvalidGzip = false
  more : it.emptyRecord = false
  gen : it.gen = .yielded
  offered : it.record.isSome = true
  total : off + len p.all = T
  le : p.tail.length < N
  state : (it.memberInfo = none ∧ it.offset = off ∧ it.warnings = ws ∧ it.raw.Lies (PlainAt V T N bs) (io.checkDigests.isSome = true) left p.tail) ∨
    (left = [] ∧ it.memberInfo = some (off, len p.bytes) ∧ it.offset = T - len (resumed p.tail) ∧
      it.warnings = ws ++ (strayLines p.tail).map (fun l => (off + len p.bytes, l)) ∧ Done (PlainAt V T N bs) (io.checkDigests.isSome = true) it.raw it.nextLine (resumed p.tail))

variable {n : Nat} {kf : Option Format} {off : Int} {ws : List (Int × Bytes)} {p : Portion} {left : Bytes} {it : ArchiveIter σ}

theorem AnyAfter.toEnd (L : LawfulGzip IsMember) (hV : ShortRead V) (h : AnyAfter V T N bs io n kf off ws p left it) :
    ∃ x it', it.readToEnd = (x, it') ∧
      ((x = .ok () ∧ it'.memberInfo = some (off, len p.bytes) ∧ AnyAfter V T N bs io n kf off ws p [] it' ∧ it'.raw.checkerAt [] = it.raw.checkerAt left) ∨
       (io.checkDigests.isSome = true ∧ ∃ e left', x = .error e ∧ Odd e ∧ it.memberInfo = none ∧ left' <:+ left ∧ AnyAfter V T N bs io n kf off ws p left' it')) := by
  rcases h.state with ⟨h1, h2, h3, h4⟩ | ⟨rfl, h1, h2, h3, h4⟩
  · rcases readToEnd_any L hV h.offered h1 h4 h.le with ⟨raw', next, k1, k2, k5⟩ | ⟨hq, e, raw', left', k1, k2, k3, k4⟩
    · have e1 : T - len p.tail = off + len p.bytes := by
        have := h.total
        simp only [len, Portion.all, Portion.bytes, List.length_append] at this ⊢
        omega
      have e2 : T - len p.tail - it.offset = len p.bytes := by rw [e1, h2]; omega
      rw [e2, e1, h2, h3] at k1
      exact ⟨_, _, k1, .inl ⟨rfl, rfl, ⟨h.opts, h.known, h.loads, h.closed, h.calm, h.more, h.gen, h.offered, h.total, h.le, .inr ⟨rfl, rfl, rfl, rfl, k2⟩⟩, k5⟩⟩
    · exact ⟨_, _, k1, .inr ⟨hq, e, left', rfl, k2, h1, k3, ⟨h.opts, h.known, h.loads, h.closed, h.calm, h.more, h.gen, h.offered, h.total, h.le, .inl ⟨h1, h2, h3, k4⟩⟩⟩⟩
  · refine ⟨.ok (), it, ?_, .inl ⟨rfl, h1, h, rfl⟩⟩
    unfold readToEnd
    have hr : it.record.isNone = false := by have := h.offered; cases h : it.record <;> simp_all
    rw [hr, h1]
    rfl

theorem AnyAfter.getMember (L : LawfulGzip IsMember) (hV : ShortRead V) (h : AnyAfter V T N bs io n kf off ws p left it) (f : Int × Int → Int) :
    ∃ x it' left', it.getMember f = (x, it') ∧ AnyAfter V T N bs io n kf off ws p left' it' ∧
      ((x = .ok (f (off, len p.bytes)) ∧ left' = []) ∨ (io.checkDigests.isSome = true ∧ (∃ e, x = .error e) ∧ left' <:+ left)) := by
  obtain ⟨x, it', k1, k2⟩ := h.toEnd L hV
  unfold ArchiveIter.getMember
  by_cases hm : it.memberInfo.isNone = true
  · rw [if_pos hm, k1]
    rcases k2 with ⟨rfl, k2, k3, -⟩ | ⟨hq, e, left', rfl, _, _, k4, k5⟩
    · exact ⟨_, it', [], rfl, k3, .inl ⟨by simp [memberField, k2], rfl⟩⟩
    · exact ⟨_, it', left', rfl, k5, .inr ⟨hq, ⟨e, rfl⟩, k4⟩⟩
  · rw [if_neg hm]
    rcases h.state with ⟨h1, _⟩ | ⟨rfl, h1, _⟩
    · rw [h1] at hm; exact absurd rfl hm
    · exact ⟨_, it, [], rfl, h, .inl ⟨by simp [memberField, h1], rfl⟩⟩

theorem AnyAfter.op (L : LawfulGzip IsMember) (hV : ShortRead V) (h : AnyAfter V T N bs io n kf off ws p left it) {op : UserOp} (hop : op.nonneg) :
    ∃ v it' left', op.run it = (v, it') ∧ p.Answer io off ws left op v left' ∧ AnyAfter V T N bs io n kf off ws p left' it' := by
  have hW := plainAt_exact (T := T) (N := N) (bs := bs) L hV
  cases op with
  | call c =>
    have again : ∀ {raw' : RawStream (BufReader σ)} {left' : Bytes}, ((it.memberInfo = none ∧ it.offset = off ∧ it.warnings = ws ∧ raw'.Lies (PlainAt V T N bs) (io.checkDigests.isSome = true) left' p.tail) ∨
        (left' = [] ∧ it.memberInfo = some (off, len p.bytes) ∧ it.offset = T - len (resumed p.tail) ∧
          it.warnings = ws ++ (strayLines p.tail).map (fun l => (off + len p.bytes, l)) ∧ Done (PlainAt V T N bs) (io.checkDigests.isSome = true) raw' it.nextLine (resumed p.tail))) →
        AnyAfter V T N bs io n kf off ws p left' { it with raw := raw' } := fun hs =>
      ⟨h.opts, h.known, h.loads, h.closed, h.calm, h.more, h.gen, h.offered, h.total, h.le, hs⟩
    rcases h.state with ⟨h1, h2, h3, h4⟩ | ⟨rfl, h1, h2, h3, h4, h5⟩
    · obtain ⟨b, b', raw', x, k1, k2, k3, k4⟩ := h4.call hW hop
      refine ⟨_, _, b', by simp only [UserOp.run, k1]; rfl, ?_, again (.inl ⟨h1, h2, h3, k3⟩)⟩
      rcases k4 with ⟨rfl, k4, k5⟩ | ⟨hq, e, rfl, _⟩
      · exact .inr ⟨b, rfl, k2, k4, k5⟩
      · exact .inl ⟨hq, ⟨e, rfl⟩, (fun h => by cases h), ⟨b, k2.symm⟩⟩
    · rcases h5 with h5 | ⟨h5, h6, h7⟩
      · have k1 := h5.call hop
        refine ⟨_, _, [], by simp only [UserOp.run, k1]; rfl, ?_, again (.inr ⟨rfl, h1, h2, h3, h4, .inl h5⟩)⟩
        refine .inr ⟨[], rfl, rfl, fun _ => .inl rfl, ?_⟩
        rintro k rfl
        cases k <;> simp [Call.expect]
      · obtain ⟨b, b', raw', x, k1, k2, k3, k4⟩ := h7.call hW hop
        obtain ⟨rfl, rfl⟩ := List.append_eq_nil_iff.1 k2.symm
        have hu := k3.under
        refine ⟨_, _, [], by simp only [UserOp.run, k1]; rfl, ?_, again (.inr ⟨rfl, h1, h2, h3, .inl ⟨h6, by rw [h5]; exact hu⟩, .inr ⟨h5, h6, k3⟩⟩)⟩
        rcases k4 with ⟨rfl, k4, k5⟩ | ⟨hq, e, rfl, _⟩
        · exact .inr ⟨[], rfl, rfl, k4, k5⟩
        · exact .inl ⟨hq, ⟨e, rfl⟩, (fun h => by cases h), List.suffix_rfl⟩
  | errors =>
    refine ⟨_, it, left, rfl, .inr ⟨rfl, it.warnings, rfl, ?_⟩, h⟩
    rcases h.state with ⟨_, _, h3, _⟩ | ⟨_, _, _, h3, _⟩
    · exact .inl h3
    · exact .inr h3
  | toEnd =>
    obtain ⟨x, it', k1, k2⟩ := h.toEnd L hV
    rcases k2 with ⟨rfl, _, k3, -⟩ | ⟨hq, e, left', rfl, _, _, k4, k5⟩
    · exact ⟨_, it', [], by simp only [UserOp.run, k1]; rfl, .inr ⟨rfl, rfl⟩, k3⟩
    · exact ⟨_, it', left', by simp only [UserOp.run, k1]; rfl, .inl ⟨hq, ⟨e, rfl⟩, (fun h => by cases h), k4⟩, k5⟩
  | offset =>
    obtain ⟨x, it', left', k1, k2, k3⟩ := h.getMember L hV (·.1)
    refine ⟨_, it', left', by simp only [UserOp.run, getRecordOffset, k1]; rfl, ?_, k2⟩
    rcases k3 with ⟨rfl, rfl⟩ | ⟨hq, ⟨e, rfl⟩, k3⟩
    · exact .inr ⟨rfl, rfl⟩
    · exact .inl ⟨hq, ⟨e, rfl⟩, (fun h => by cases h), k3⟩
  | size =>
    obtain ⟨x, it', left', k1, k2, k3⟩ := h.getMember L hV (·.2)
    refine ⟨_, it', left', by simp only [UserOp.run, getRecordLength, k1]; rfl, ?_, k2⟩
    rcases k3 with ⟨rfl, rfl⟩ | ⟨hq, ⟨e, rfl⟩, k3⟩
    · exact .inr ⟨rfl, rfl⟩
    · exact .inl ⟨hq, ⟨e, rfl⟩, (fun h => by cases h), k3⟩

theorem AnyAfter.ops (L : LawfulGzip IsMember) (hV : ShortRead V) : ∀ (ops : List UserOp) {left : Bytes} {it : ArchiveIter σ}, AnyAfter V T N bs io n kf off ws p left it →
    (∀ o ∈ ops, o.nonneg) → ∃ vs it' left', runOps it ops = (vs, it') ∧ p.Answers io off ws left ops vs ∧ AnyAfter V T N bs io n kf off ws p left' it' := by
  intro ops
  induction ops with
  | nil => intro left it h _; exact ⟨[], it, left, rfl, .nil _, h⟩
  | cons o ops ih =>
    intro left it h ho
    obtain ⟨v, it1, left1, k1, k2, k3⟩ := h.op L hV (ho o (by simp))
    obtain ⟨vs, it2, left2, m1, m2, m3⟩ := ih k3 (fun o h => ho o (by simp [h]))
    exact ⟨v :: vs, it2, left2, by simp only [runOps, k1, m1], .cons _ _ _ _ _ _ k2 m2, m3⟩

theorem _root_.Warcio.BufReader.PlainAt.still (L : LawfulGzip IsMember) {r : BufReader σ} {rem : Bytes} (h : PlainAt V T N bs r rem) (hd : r.decompressor.isSome = true) : r.readNextMember = (false, r) := by
  rcases h with ⟨k2, _⟩ | k2
  · have := unused_gz L k2.decomp
    rw [L.unused_nil] at this
    unfold BufReader.unused at this
    rw [k2.decomp] at this
    simp only [readNextMember, k2.decomp, this, if_true]
  · rw [k2.decomp] at hd; cases hd

/-- One turn of the generator. -/
theorem AnyTop.load' (L : LawfulGzip IsMember) (hV : ShortRead V) {m : Nat} (hX : LineLaw (PlainAt V T N bs) m) {data : Bytes} (h : AnyTop V T N bs io n kf off ws data it) (fuel : Nat) :
    (∃ (p : Portion) (rec : Record Unit) (left : Bytes) (it' : ArchiveIter σ), genLoop (fuel + 1) it = (.ok (), it') ∧ it'.record = some rec ∧ data = p.all ∧ p.Shows (io.load kf (io.ids n)) rec ∧ p.Parsed (io.load kf (io.ids n)) m rec left ∧ left <:+ p.block ∧
      (io.noRecordParse = true ∨ ¬ HttpType rec.recType → left = p.block) ∧
      AnyAfter V T N bs io (n + 1) (if io.arc2warc then kf else some rec.format) off ws p left it' ∧ it'.memberInfo = none ∧ it'.raw.Lies (PlainAt V T N bs) (io.checkDigests.isSome = true) left p.tail ∧
      (io.checkDigests.isSome = true → io.checkDigests ≠ some .raise → rec.Usable → it'.raw.View (PlainAt V T N bs) left p.tail ∧ p.Verdict rec left (it'.raw.checkerAt left).passed ∧ (it'.raw.checkerAt left).Loud)) ∨
    (∃ e it', genLoop (fuel + 1) it = (.error e, it') ∧ it'.gen = .finished ∧ Over (io.load kf (io.ids n)) m data e) := by
  have hW := plainAt_exact (T := T) (N := N) (bs := bs) L hV
  have eo : it.loadOpts = io.load kf (io.ids n) := by
    unfold loadOpts
    rw [h.opts, h.known, h.loads]
    rfl
  rcases load_any' hW hX (io.load kf (io.ids n)) h.ready with ⟨p, rec, left, k1, k2, k3, k3', k4, k5, k6, k8⟩ | ⟨e, s1, rest, k1, k2, k3⟩
  · left
    have hn : it.nextRecord = (.ok (), ({ it with raw := rec.rawStream, record := some rec.plain, memberInfo := none, knownFormat := if it.opts.arc2warc then it.knownFormat else some rec.format, loads := it.loads + 1 } : ArchiveIter σ)) := by
      unfold nextRecord
      rw [h.closed, eo, k2]
      rfl
    refine ⟨p, rec.plain, left, ({ it with raw := rec.rawStream, record := some rec.plain, memberInfo := none, knownFormat := if it.opts.arc2warc then it.knownFormat else some rec.format, loads := it.loads + 1, gen := .yielded } : ArchiveIter σ), ?_, rfl, k1, k3, k3', k4, k5, ?_, rfl, k6, k8⟩
    · unfold genLoop
      rw [hn]
      simp only [h.calm, Bool.false_eq_true, if_false]
    · refine ⟨h.opts, ?_, ?_, h.closed, h.calm, h.more, rfl, rfl, ?_, ?_, .inl ⟨rfl, h.offset, h.quiet, k6⟩⟩
      · show (if it.opts.arc2warc then it.knownFormat else some rec.format) = _
        rw [h.opts, h.known]; rfl
      · show it.loads + 1 = _; rw [h.loads]
      · rw [← k1]; exact h.total
      · have h1 := h.le
        have h2 := List.length_pos_iff.2 k3.some
        rw [k1] at h1
        simp only [Portion.all, List.length_append] at h1
        omega
  · right
    rcases k3 with ⟨rfl, k3⟩ | ⟨h1, k3⟩
    · obtain ⟨it', m1, m2⟩ := stop_eof h.closed h.offered (by rw [eo]; exact k1) (fun hd => k2.still L hd) fuel
      exact ⟨_, it', m1, m2, k3⟩
    · have hn : it.nextRecord = (.error e, { it.setReader s1 with loads := it.loads + 1 }) := by
        unfold nextRecord
        rw [h.closed, eo, k1]
        rfl
      refine ⟨e, ({ it.setReader s1 with loads := it.loads + 1, gen := .finished } : ArchiveIter σ), ?_, rfl, k3⟩
      unfold genLoop
      rw [hn]
      cases e <;> first | rfl | exact absurd rfl h1.1

/-- One turn of the generator. -/
theorem AnyTop.load (L : LawfulGzip IsMember) (hV : ShortRead V) {m : Nat} (hX : LineLaw (PlainAt V T N bs) m) {data : Bytes} (h : AnyTop V T N bs io n kf off ws data it) (fuel : Nat) :
    (∃ (p : Portion) (rec : Record Unit) (left : Bytes) (it' : ArchiveIter σ), genLoop (fuel + 1) it = (.ok (), it') ∧ it'.record = some rec ∧ data = p.all ∧ p.Shows (io.load kf (io.ids n)) rec ∧ p.Parsed (io.load kf (io.ids n)) m rec left ∧ left <:+ p.block ∧
      (io.noRecordParse = true ∨ ¬ HttpType rec.recType → left = p.block) ∧
      AnyAfter V T N bs io (n + 1) (if io.arc2warc then kf else some rec.format) off ws p left it') ∨
    (∃ e it', genLoop (fuel + 1) it = (.error e, it') ∧ it'.gen = .finished ∧ Over (io.load kf (io.ids n)) m data e) :=
  (h.load' L hV hX fuel).imp (fun ⟨p, rec, left, it', h1, h2, h3, h4, h5, h6, h7, h8, _⟩ => ⟨p, rec, left, it', h1, h2, h3, h4, h5, h6, h7, h8⟩) id

/-- Behind the record. -/
theorem AnyAfter.next' (L : LawfulGzip IsMember) (hV : ShortRead V) (h : AnyAfter V T N bs io n kf off ws p left it) :
    (∃ it' k, it.next = genLoop (k + 1) it' ∧ AnyTop V T N bs io n kf (off + len p.bytes + len (skipped p.tail))
      (ws ++ (strayLines p.tail).map (fun l => (off + len p.bytes, l))) (resumed p.tail) it') ∨
    (it.memberInfo = none ∧ io.checkDigests.isSome = true ∧ ∃ e it', it.next = (.error e, it') ∧ it'.gen = .finished ∧ e ≠ .stopIteration) := by
  obtain ⟨x, it', k1, k2⟩ := h.toEnd L hV
  rcases k2 with ⟨rfl, k2, k3, -⟩ | ⟨hq, e, left', rfl, k2, hm, _⟩
  · left
    rcases k3.state with ⟨h1, _⟩ | ⟨_, h1, h2, h3, h4⟩
    · rw [h1] at k2; cases k2
    · have hsk := congrArg List.length (skipped_append p.tail)
      simp only [List.length_append] at hsk
      have hN := k3.le
      have hpl : it'.reader.decompressor = none := ready_plain h4.1 (by omega)
      have ha : it.afterRecord = (.ok true, it') := by
        unfold afterRecord
        rw [k1]
        simp only [k3.closed, Bool.false_eq_true, if_false, hpl, Option.isSome_none, k3.more, Bool.not_false]
      have ht := k3.total
      simp only [Portion.all, len, List.length_append] at ht
      refine ⟨it', _, next_yielded h.gen ha, ⟨k3.opts, k3.known, k3.loads, k3.closed, k3.calm, k3.more, h3, .inr (by rw [h1]; rfl), ?_, ?_, by omega, h4.1⟩⟩
      · rw [h2]; simp only [len, Portion.bytes, List.length_append] at ht ⊢; omega
      · simp only [len, Portion.bytes, List.length_append] at ht ⊢; omega
  · right
    have ha : it.afterRecord = (.error e, it') := by
      unfold afterRecord
      rw [k1]
    refine ⟨hm, hq, e, { it' with gen := .finished }, ?_, rfl, k2.2⟩
    unfold ArchiveIter.next
    rw [h.gen]
    simp only
    rw [ha]

/-- Behind the record. -/
theorem AnyAfter.next (L : LawfulGzip IsMember) (hV : ShortRead V) (h : AnyAfter V T N bs io n kf off ws p left it) :
    (∃ it' k, it.next = genLoop (k + 1) it' ∧ AnyTop V T N bs io n kf (off + len p.bytes + len (skipped p.tail))
      (ws ++ (strayLines p.tail).map (fun l => (off + len p.bytes, l))) (resumed p.tail) it') ∨
    (io.checkDigests.isSome = true ∧ ∃ e it', it.next = (.error e, it') ∧ it'.gen = .finished ∧ e ≠ .stopIteration) :=
  (h.next' L hV).imp id (fun h => h.2)

theorem any_parts (L : LawfulGzip IsMember) (hV : ShortRead V) {m : Nat} (hX : LineLaw (PlainAt V T N bs) m) : ∀ (plan : List (List UserOp)) {n : Nat} {kf : Option Format} {off : Int} {ws : List (Int × Bytes)} {data : Bytes} {it it0 : ArchiveIter σ} {k : Nat},
    it.next = genLoop (k + 1) it0 → AnyTop V T N bs io n kf off ws data it0 → (∀ ops ∈ plan, ∀ o ∈ ops, o.nonneg) → Parts io m n kf off ws data plan (iterate it plan) := by
  intro plan
  induction plan with
  | nil => intro n kf off ws data it it0 k _ _ _; exact .enough _ _ _ _ _
  | cons ops plan ih =>
    intro n kf off ws data it it0 k hn ht ho
    rcases ht.load L hV hX k with ⟨p, rec, left, it1, k1, k2, rfl, k4, k4', k5, k6, k7⟩ | ⟨e, it1, k1, k2, k3⟩
    · obtain ⟨vs, it2, left2, m1, m2, m3⟩ := k7.ops L hV ops (ho ops (by simp))
      simp only [iterate, hn, k1, m1, k2]
      refine .record n kf off ws p ops plan rec left vs _ k4 k4' k5 k6 m2 ?_
      cases plan with
      | nil => exact .enough _ _ _ _ _
      | cons ops' plan =>
        rcases m3.next L hV with ⟨it3, k', q1, q2⟩ | ⟨hq, e, it3, q1, q2, q3⟩
        · exact ih q1 q2 (fun ops h => ho ops (by simp [h]))
        · simp only [iterate, q1]
          rw [finished_iterate plan q2]
          exact .broken _ _ _ _ _ _ _ e hq q3
    · simp only [iterate, hn, k1]
      rw [finished_iterate plan k2]
      exact .over _ _ _ _ _ _ _ e k3

end ArchiveIter

/-- Opening any uncompressed file.  Lines of up to `m` bytes are read whole if blocks have at least
`m` bytes and there are no short reads. -/
theorem open_any [Zlib] [Hashlib] [PyUni] {IsMember : Bytes → Bytes → Prop} (L : LawfulGzip IsMember) {f : FileObj} {bs m : Nat} (hl : m = 0 ∨ (f.caps = [] ∧ m ≤ bs)) (hb : 2 ≤ bs) (hc : ∀ c, f.caps.head? = some c → 2 ≤ c)
    (h2 : f.rest ≠ [] → 2 ≤ f.rest.length) (hm : ¬ [0x1f, 0x8b] <+: f.rest) (io : IterOpts) (kf : Option Format) :
    ∃ V it, ShortRead V ∧ LineLaw (BufReader.PlainAt V (f.origin + len f.rest) f.rest.length bs) m ∧ openArchive f io bs kf = .ok it ∧ it.gen = .start ∧
      ArchiveIter.AnyTop V (f.origin + len f.rest) f.rest.length bs io 0 kf f.origin [] f.rest it := by
  obtain ⟨v1, v2⟩ := Source.of_view f
  have go : ∀ {V : Source → Bytes → Prop}, V (Source.of f) f.rest → ∃ it, openArchive f io bs kf = .ok it ∧ it.gen = .start ∧
      ArchiveIter.AnyTop V (f.origin + len f.rest) f.rest.length bs io 0 kf f.origin [] f.rest it := by
    intro V v1
    refine ⟨{ opts := io, raw := .bare ⟨Source.of f, bs, some .gzip, some { kind := .gzip, hist := [] }, none, none, 0, 0, false, none⟩, offset := PyStream.tell (Source.of f), knownFormat := kf }, ?_, rfl, ?_⟩
    · simp [openArchive, ArchiveIter.new, BufReader.new, L.codec_eq]
    · refine ⟨rfl, rfl, rfl, rfl, rfl, rfl, rfl, .inl rfl, v2, rfl, Nat.le_refl _, .inl ⟨rfl, .inl ⟨?_, rfl⟩⟩⟩
      exact ⟨rfl, rfl, rfl, by show 0 < bs; omega, rfl, rfl, rfl, rfl, rfl, ⟨v1, by show PyStream.tell (Source.of f) + _ = _; rw [v2]⟩,
          Source.of_first hb hc h2 hm⟩
  rcases hl with rfl | ⟨hcaps, hmb⟩
  · obtain ⟨it, k1, k2, k3⟩ := go v1
    exact ⟨_, it, Source.shortRead, lineLaw_zero, k1, k2, k3⟩
  · obtain ⟨it, k1, k2, k3⟩ := go (Source.of_full hcaps)
    refine ⟨_, it, Source.fullShort, ?_, k1, k2, k3⟩
    intro s rem h1 h2 h3 k
    exact BufReader.plainAt_lineLaw L Source.fullShort Source.fullRead h1 h2 (by omega) k

end Warcio

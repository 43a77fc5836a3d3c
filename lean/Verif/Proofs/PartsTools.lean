import Verif.Proofs.Parts
import Verif.Proofs.Index

/-!
# The tools on any uncompressed file

Lemmas for C89 and C90.
-/

set_option linter.unusedSectionVars false

namespace Warcio

open ArchiveIter BufReader Indexer

section
variable {σ : Type} [Zlib] [PyStream σ] [Hashlib] [PyUni] {V : σ → Bytes → Prop} {IsMember : Bytes → Bytes → Prop} {T : Int} {N bs : Nat} {io : IterOpts}

theorem httpShown_some {rec : Record Unit} {h : StatusAndHeaders} (hr : rec.httpHeaders = some h) : rec.httpShown = if h.truthy then some h else none := by
  unfold Record.httpShown StatusAndHeaders.truthy
  rw [hr]
  cases h1 : h.statusline <;> cases h2 : h.headers <;> simp [Option.filter, h1, h2]

/-- A field of the index, if position and size are given by `get_record_offset` and `get_record_length`. -/
theorem getField_of {I : ArchiveIter σ → Prop} {off size : Int} {file base : Str} (hb : IsBasename file base) (rec : Record Unit) (name : Str) {it : ArchiveIter σ} (h : I it)
    (number : ∀ f : Int × Int → Int, ∃ it', it.getMember f = (.ok (f (off, size)), it') ∧ I it') :
    ∃ it', getField file rec name it = (.ok (rec.field off size base name), it') ∧ I it' := by
  have hb' : basename file = base := basename_unique (basename_spec _) hb
  have hsw : ∀ n, startsWith (lit "http:") n = true ↔ lit "http:" <+: n := fun n => by unfold startsWith; exact List.isPrefixOf_iff_prefix
  unfold getField Record.field
  by_cases h1 : name = lit "offset"
  · rw [if_pos h1, if_pos h1]
    obtain ⟨it', k1, k2⟩ := number (·.1)
    refine ⟨it', ?_, k2⟩
    unfold getRecordOffset
    rw [k1]
    rfl
  rw [if_neg h1, if_neg h1]
  by_cases h2 : name = lit "length"
  · rw [if_pos h2, if_pos h2]
    obtain ⟨it', k1, k2⟩ := number (·.2)
    refine ⟨it', ?_, k2⟩
    unfold getRecordLength
    rw [k1]
    rfl
  rw [if_neg h2, if_neg h2]
  by_cases h3 : name = lit "filename"
  · rw [if_pos h3, if_pos h3, hb']
    exact ⟨it, rfl, h⟩
  rw [if_neg h3, if_neg h3]
  by_cases h4 : name = lit "http:status"
  · rw [if_pos h4, if_pos h4]
    refine ⟨it, ?_, h⟩
    cases hr : rec.httpHeaders with
    | none => simp [Loader.truthyHeaders, Record.httpShown, hr]
    | some hd =>
      rw [httpShown_some hr]
      by_cases ht : rec.recType = some (lit "response") ∨ rec.recType = some (lit "revisit")
      · have ht2 : rec.recType ∈ [some (lit "response"), some (lit "revisit")] := by simpa using ht
        rw [if_pos ht2]
        by_cases hd' : hd.truthy = true
        · rw [if_pos ⟨ht, hd'⟩, if_pos hd']; rfl
        · rw [if_neg (fun h => hd' h.2), if_neg hd']; rfl
      · have ht2 : ¬ rec.recType ∈ [some (lit "response"), some (lit "revisit")] := by simpa using ht
        rw [if_neg ht2, if_neg (fun h => ht h.1)]
  rw [if_neg h4, if_neg h4]
  by_cases h5 : lit "http:" <+: name
  · rw [if_pos ((hsw name).2 h5), if_pos h5]
    refine ⟨it, ?_, h⟩
    cases hr : rec.httpHeaders with
    | none => simp [Loader.truthyHeaders, Record.httpShown, hr]
    | some hd =>
      rw [httpShown_some hr]
      by_cases hd' : hd.truthy = true
      · rw [if_pos (show Loader.truthyHeaders (some hd) = true from hd'), if_pos hd']
        simp only [Option.bind_some]
        rw [Loader.firstValue_eq]
        rfl
      · rw [if_neg (show ¬ Loader.truthyHeaders (some hd) = true from hd'), if_neg hd']; rfl
  · rw [if_neg (fun h => h5 ((hsw name).1 h)), if_neg h5]
    exact ⟨it, by rw [Loader.firstValue_eq]; rfl, h⟩

/-- A field of the index, in any state of the record. -/
theorem getField_any (L : LawfulGzip IsMember) (hV : ShortRead V) (hc : io.checkDigests = none) {n : Nat} {kf : Option Format} {off : Int} {ws : List (Int × Bytes)} {p : Portion} {file base : Str} (hb : IsBasename file base)
    (rec : Record Unit) (name : Str) {it : ArchiveIter σ} (h : ∃ left, AnyAfter V T N bs io n kf off ws p left it) :
    ∃ it', getField file rec name it = (.ok (rec.field off (len p.bytes) base name), it') ∧ ∃ left, AnyAfter V T N bs io n kf off ws p left it' := by
  obtain ⟨left, h⟩ := h
  have number : ∀ f : Int × Int → Int, ∃ it', it.getMember f = (.ok (f (off, len p.bytes)), it') ∧ ∃ left, AnyAfter V T N bs io n kf off ws p left it' := by
    intro f
    obtain ⟨x, it', left', k1, k2, k3⟩ := h.getMember L hV f
    rcases k3 with ⟨rfl, _⟩ | ⟨hq, _⟩
    · exact ⟨it', k1, left', k2⟩
    · rw [hc] at hq; cases hq
  exact getField_of (I := fun it => ∃ left, AnyAfter V T N bs io n kf off ws p left it) hb rec name ⟨left, h⟩ number

/-- The index of any uncompressed file. -/
theorem indexLoop_any (L : LawfulGzip IsMember) (hV : ShortRead V) {m : Nat} (hX : LineLaw (PlainAt V T N bs) m) (hc : io.checkDigests = none) (ha : io.arc2warc = true) {file base : Str} (hb : IsBasename file base) {fields : List Str} :
    ∀ (fuel : Nat) {n : Nat} {off : Int} {ws : List (Int × Bytes)} {data : Bytes} {it it0 : ArchiveIter σ} {k : Nat}, it.next = genLoop (k + 1) it0 →
    AnyTop V T N bs io n none off ws data it0 → data.length < fuel → ∃ x es, indexLoop file fields fuel it = (x, es) ∧ Indexed io m base fields n off data x es
  | 0, _, _, _, _, _, _, _, _, _, h => by omega
  | fuel + 1, n, off, ws, data, it, it0, k, hn, ht, hf => by
    rcases ht.load L hV hX k with ⟨p, rec, left, it1, k1, k2, rfl, k4, k4', k5, k6, k7⟩ | ⟨e, it1, k1, k2, k3⟩
    · rw [if_pos ha] at k7
      obtain ⟨it2, m1, left2, m2⟩ := entry_inv (I := fun it => ∃ left, AnyAfter V T N bs io (n + 1) none off ws p left it) (val := rec.field off (len p.bytes) base) fields [] [] ⟨left, k7⟩
        (fun name _ _ hi => getField_any L hV hc hb rec name hi) (by simp) (by simp) (by simp)
      rcases m2.next L hV with ⟨it3, k', q1, q2⟩ | ⟨hq, _⟩
      · have hlen : (resumed p.tail).length < fuel := by
          have h1 := congrArg List.length (skipped_append p.tail)
          have h2 := List.length_pos_iff.2 k4.some
          simp only [Portion.all, List.length_append] at h1 hf
          omega
        obtain ⟨x, es, r1, r2⟩ := indexLoop_any L hV hX hc ha hb fuel q1 q2 hlen
        refine ⟨x, _, ?_, .record n off p rec left x es k4 k4' r2⟩
        unfold indexLoop
        rw [hn, k1]
        dsimp only
        rw [k2]
        dsimp only
        rw [m1]
        dsimp only
        rw [r1]
        have hf : fields.filter (fun n => !([] : List Str).contains n) = fields := by
          rw [List.filter_eq_self]; simp
        rw [hf]
        rfl
      · rw [hc] at hq; cases hq
    · refine ⟨_, [], ?_, .over n off data e k3⟩
      unfold indexLoop
      rw [hn, k1]
      cases e <;> rfl

omit [PyUni] [Hashlib] in
theorem readBlocks_raw {τ : Type} [PyStream τ] (m : Int) : ∀ (fuel : Nat) (s : τ), Warcio.readBlocks m fuel (ContentStream.raw s) =
    ((Warcio.readBlocks m fuel s).1, (Warcio.readBlocks m fuel s).2.1, ContentStream.raw (Warcio.readBlocks m fuel s).2.2)
  | 0, _ => rfl
  | fuel + 1, s => by
    have e : PyStream.read (ContentStream.raw s) (some m) = ((PyStream.read s (some m)).1, ContentStream.raw (PyStream.read s (some m)).2) := rfl
    unfold Warcio.readBlocks
    rw [e]
    generalize PyStream.read s (some m) = x
    obtain ⟨x, s'⟩ := x
    cases x with
    | error e => rfl
    | ok b =>
      dsimp only
      rw [readBlocks_raw m fuel s']
      split <;> rfl

omit [PyUni] [Hashlib] in
theorem readAllBlocks_raw {τ : Type} [PyStream τ] (m : Int) (s : τ) : readAllBlocks m (ContentStream.raw s) =
    ((readAllBlocks m s).1, (readAllBlocks m s).2.1, ContentStream.raw (readAllBlocks m s).2.2) := readBlocks_raw m _ s

variable {n : Nat} {kf : Option Format} {off : Int} {ws : List (Int × Bytes)} {p : Portion}

/-- Reading blocks up to the end of the record, without digest checks. -/
theorem readBlocks_any (L : LawfulGzip IsMember) (hV : ShortRead V) (hc : io.checkDigests = none) {m : Int} (hm : 0 < m) : ∀ (fuel : Nat) {it : ArchiveIter σ} {left : Bytes}, AnyAfter V T N bs io n kf off ws p left it → left.length < fuel →
    ∃ bufs raw', Warcio.readBlocks m fuel it.raw = (bufs, .ok (), raw') ∧ bufs.flatten = left ∧ AnyAfter V T N bs io n kf off ws p [] { it with raw := raw' }
  | 0, _, _, _, h => by omega
  | fuel + 1, it, left, h, hf => by
    have hcall : (UserOp.call (.read (some m))).nonneg := by intro k hk; simp only [Call.arg, Option.some.injEq] at hk; omega
    obtain ⟨v, it', left', k1, k2, k3⟩ := h.op L hV hcall
    have k2 := k2.resolve_left (fun h => by rw [hc] at h; cases h.1)
    obtain ⟨q, rfl, k4, k5, -⟩ := k2
    simp only [UserOp.run, Call.run] at k1
    unfold Warcio.readBlocks
    generalize PyStream.read it.raw (some m) = x at k1
    obtain ⟨x, raw⟩ := x
    cases x with
    | error e => simp [Except.map] at k1
    | ok b =>
      simp only [Except.map, Prod.mk.injEq, Except.ok.injEq, UserVal.bytes.injEq] at k1
      obtain ⟨rfl, rfl⟩ := k1
      dsimp only
      by_cases hp : b = []
      · rw [if_pos (by simpa using hp)]
        rcases k5 hp with h0 | h0
        · rw [h0] at k4
          have h1 : left' = [] := (List.append_eq_nil_iff.1 k4.symm).2
          rw [h1] at k3
          exact ⟨[], raw, rfl, by rw [h0]; rfl, k3⟩
        · simp only [Call.arg, Option.some.injEq] at h0; omega
      · rw [if_neg (by simpa using hp)]
        have hpo := List.length_pos_iff.2 hp
        have hl := congrArg List.length k4
        simp only [List.length_append] at hl
        obtain ⟨bufs, raw2, m1, m2, m3⟩ := readBlocks_any L hV hc hm fuel k3 (by omega)
        dsimp only at m1
        rw [m1]
        exact ⟨b :: bufs, raw2, rfl, by rw [List.flatten_cons, m2, k4], m3⟩

theorem readAll_any (L : LawfulGzip IsMember) (hV : ShortRead V) (hc : io.checkDigests = none) {m : Int} (hm : 0 < m) {it : ArchiveIter σ} {left : Bytes} (h : AnyAfter V T N bs io n kf off ws p left it) :
    ∃ bufs raw', readAllBlocks m it.raw = (bufs, .ok (), raw') ∧ bufs.flatten = left ∧ AnyAfter V T N bs io n kf off ws p [] { it with raw := raw' } := by
  refine readBlocks_any L hV hc hm _ h ?_
  have hW := plainAt_exact (T := T) (N := N) (bs := bs) L hV
  rcases h.state with ⟨_, _, _, h4⟩ | ⟨rfl, _⟩
  · have := h4.bound hW; omega
  · simp

end
end Warcio

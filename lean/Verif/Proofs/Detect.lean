import Verif.Model.RecordLoader
import Verif.Proofs.HeaderRound
import Verif.Proofs.HeaderMap
import Verif.Proofs.TimeUtils

/-! # Proofs about format detection and the ARC parser -/

set_option linter.unusedSectionVars false

namespace Warcio

section rsplit
variable {α : Type} [DecidableEq α]

theorem rsplit1_append {c : α} {a b : List α} (h : c ∉ b) : rsplit1 c (a ++ c :: b) = some (a, b) := by
  unfold rsplit1
  have : (a ++ c :: b).reverse = b.reverse ++ c :: a.reverse := by simp
  rw [this, split1_append (by simpa using h)]
  simp

theorem rsplit1_none {c : α} {s : List α} (h : c ∉ s) : rsplit1 c s = none := by
  unfold rsplit1
  rw [split1_none (by simpa using h)]

theorem exists_last {c : α} {s : List α} (h : c ∈ s) : ∃ a b, s = a ++ c :: b ∧ c ∉ b := by
  obtain ⟨x, y, h1⟩ := List.append_of_mem (List.mem_reverse.2 h)
  clear h
  obtain ⟨p, q, h2⟩ : ∃ p q, split1 c s.reverse = (p, some q) := by
    cases hs : split1 c s.reverse with
    | mk p q =>
      cases q with
      | some q => exact ⟨p, q, rfl⟩
      | none => have := (split1_none_inv hs).2; rw [h1] at this; simp at this
  obtain ⟨h3, h4⟩ := split1_some h2
  refine ⟨q.reverse, p.reverse, ?_, by simpa using h4⟩
  have := congrArg List.reverse h3
  simpa using this

/-- The number of parts. -/
theorem rsplitN_length (c : α) : ∀ (n : Nat) (s : List α), (rsplitN c n s).length = min (s.count c) n + 1 := by
  intro n
  induction n with
  | zero => intro s; simp [rsplitN]
  | succ n ih =>
    intro s
    unfold rsplitN
    by_cases h : c ∈ s
    · obtain ⟨a, b, rfl, hb⟩ := exists_last h
      rw [rsplit1_append hb]
      simp only [List.length_append, ih, List.length_singleton, List.count_append, List.count_cons_self, List.count_eq_zero_of_not_mem hb]
      omega
    · rw [rsplit1_none h]
      simp [List.count_eq_zero_of_not_mem h]

end rsplit

namespace Loader

variable {σ : Type} [PyStream σ] {V : σ → Bytes → Prop} [PyUni]

open HeaderParser (LV)

theorem decodedLine_spec (hL : LineRead V) {s : σ} {ls : List Bytes} (h : LV V s ls) :
    ∃ s', decodedLine s = (.ok (decodeHeader (ls.headD [])), s') ∧ LV V s' ls.tail := by
  obtain ⟨rem, h1, rfl⟩ := h
  obtain ⟨s1, k1, k2⟩ := hL.readline_none h1
  unfold decodedLine
  rw [k1]
  by_cases hr : rem = []
  · subst hr; exact ⟨s1, rfl, _, k2, rfl⟩
  · rw [splitLines_cons hr]; exact ⟨s1, rfl, _, k2, rfl⟩

/-- The lines skipped after an ARC file header and what is behind them. -/
def arcSkip (full : Str) (ls : List Bytes) : Int × List Bytes :=
  if isFiledesc (rstrip full) then (len (decodeHeader (ls.headD [])) + len (decodeHeader (ls.tail.headD [])), ls.tail.tail)
  else (0, ls)

/-- The ARC parser as a function of the lines. -/
def arcLines (o : LoadOpts) (full : Str) (ls : List Bytes) : Except PyErr StatusAndHeaders × List Bytes :=
  if full = [] then (.error .eofError, ls)
  else
    let parts := rsplitN ' ' 4 (rstrip full)
    if parts.length ≠ 5 then (.error (.arcParser parts), (arcSkip full ls).2)
    else
      match arcHeaders o (rstrip full) parts with
      | .error e => (.error e, (arcSkip full ls).2)
      | .ok hs => (.ok { statusline := [], headers := hs, protocol := lit "WARC/1.0", totalLen := (arcSkip full ls).1 }, (arcSkip full ls).2)

theorem skip_spec (hL : LineRead V) {s : σ} {ls : List Bytes} (h : LV V s ls) (full : Str) :
    ∃ s', (if isFiledesc (rstrip full) then skipTwo s else (.ok 0, s)) = (.ok (arcSkip full ls).1, s') ∧ LV V s' (arcSkip full ls).2 := by
  unfold arcSkip
  by_cases hf : isFiledesc (rstrip full) = true
  · rw [if_pos hf, if_pos hf]
    obtain ⟨s1, k1, k2⟩ := decodedLine_spec hL h
    obtain ⟨s2, k3, k4⟩ := decodedLine_spec hL k2
    refine ⟨s2, ?_, k4⟩
    unfold skipTwo
    rw [k1]; simp only; rw [k3]
  · rw [if_neg hf, if_neg hf]
    exact ⟨s, rfl, h⟩

theorem parseArcFrom_spec (hL : LineRead V) (o : LoadOpts) (full : Str) {s : σ} {ls : List Bytes} (h : LV V s ls) :
    ∃ s', parseArcFrom o full s = ((arcLines o full ls).1, s') ∧ LV V s' (arcLines o full ls).2 := by
  unfold parseArcFrom arcLines
  by_cases h0 : full = []
  · rw [if_pos (by simpa using h0), if_pos h0]; exact ⟨s, rfl, h⟩
  · rw [if_neg (by simpa using h0), if_neg h0]
    obtain ⟨s1, k1, k2⟩ := skip_spec hL h full
    simp only
    rw [k1]
    simp only
    by_cases hp : (rsplitN ' ' 4 (rstrip full)).length ≠ 5
    · rw [if_pos hp, if_pos hp]; exact ⟨s1, rfl, k2⟩
    · rw [if_neg hp, if_neg hp]
      cases arcHeaders o (rstrip full) (rsplitN ' ' 4 (rstrip full)) with
      | error e => exact ⟨s1, rfl, k2⟩
      | ok hs => exact ⟨s1, rfl, k2⟩

/-- `detectArc` as a function of the lines. -/
def detectArcLines (o : LoadOpts) (full : Str) (ls : List Bytes) : Except PyErr (HeadFormat × StatusAndHeaders) × List Bytes :=
  match arcLines o full ls with
  | (.ok h, ls) => (.ok (if o.arc2warc then .arc2warc else .arc, h), ls)
  | (.error (.arcParser _), ls) => (.error (if o.knownFormat = some .arc then .invalidArc else .unknownFormat), ls)
  | (.error e, ls) => (.error e, ls)

theorem detectArc_spec (hL : LineRead V) (o : LoadOpts) (l : Line) {s : σ} {ls : List Bytes} (h : LV V s ls) :
    ∃ s', detectArc o s (some l) = ((detectArcLines o l.decode ls).1, s') ∧ LV V s' (detectArcLines o l.decode ls).2 := by
  obtain ⟨s1, k1, k2⟩ := parseArcFrom_spec hL o l.decode h
  unfold detectArc detectArcLines parseArc
  simp only
  rw [k1]
  generalize arcLines o l.decode ls = r at k2 ⊢
  obtain ⟨x, ls'⟩ := r
  cases x with
  | ok h => exact ⟨s1, rfl, k2⟩
  | error e => cases e <;> exact ⟨s1, rfl, k2⟩

/-- Format detection as a function of the first line and the lines behind it. -/
def detectLines (o : LoadOpts) (full : Str) (ls : List Bytes) : Except PyErr (HeadFormat × StatusAndHeaders) × List Bytes :=
  if o.knownFormat = some .arc then detectArcLines o full ls
  else
    match warcParser.parseLines full ls with
    | (.ok h, ls) => (.ok (.warc, h), ls)
    | (.error (.statusParser line), ls) =>
      if o.knownFormat = some .warc then (.error .invalidWarc, ls) else detectArcLines o line ls
    | (.error e, ls) => (.error e, ls)

theorem detectType_line_spec (hL : LineRead V) (o : LoadOpts) (l : Line) {s : σ} {ls : List Bytes} (h : LV V s ls) :
    ∃ s', detectType o s (some l) = ((detectLines o l.decode ls).1, s') ∧ LV V s' (detectLines o l.decode ls).2 := by
  unfold detectType detectLines
  by_cases hk : o.knownFormat = some .arc
  · rw [if_pos hk, if_pos hk]; exact detectArc_spec hL o l h
  · rw [if_neg hk, if_neg hk]
    obtain ⟨s1, k1, k2⟩ := HeaderParser.parse_line_spec hL warcParser l h
    rw [k1]
    generalize warcParser.parseLines l.decode ls = r at k2 ⊢
    obtain ⟨x, ls'⟩ := r
    cases x with
    | ok h => exact ⟨s1, rfl, k2⟩
    | error e =>
      cases e with
      | statusParser line =>
        simp only
        by_cases hw : o.knownFormat = some .warc
        · rw [if_pos hw, if_pos hw]; exact ⟨s1, rfl, k2⟩
        · rw [if_neg hw, if_neg hw]
          exact detectArc_spec hL o (.str line) k2
      | _ => exact ⟨s1, rfl, k2⟩

/-- Reading the first line from the stream is the same as being given it. -/
theorem detectType_spec (hL : LineRead V) (o : LoadOpts) {s : σ} {ls : List Bytes} (h : LV V s ls) :
    ∃ s', detectType o s none = ((detectLines o (decodeHeader (ls.headD [])) ls.tail).1, s') ∧
      LV V s' (detectLines o (decodeHeader (ls.headD [])) ls.tail).2 := by
  obtain ⟨rem, h1, rfl⟩ := h
  obtain ⟨s1, k1, k2⟩ := hL.readline_none h1
  have e : (splitLines rem).headD [] = takeLine rem ∧ (splitLines rem).tail = splitLines (dropLine rem) := by
    by_cases hr : rem = []
    · subst hr; exact ⟨rfl, rfl⟩
    · rw [splitLines_cons hr]; exact ⟨rfl, rfl⟩
  rw [e.1, e.2]
  have hx : detectType o s none = detectType o s1 (some (.bytes (takeLine rem))) := by
    unfold detectType detectArc parseArc decodedLine HeaderParser.parse
    simp only [k1, Line.decode]
  rw [hx]
  exact detectType_line_spec hL o (.bytes (takeLine rem)) ⟨_, k2, rfl⟩

/-- Converting the five fields raises nothing. -/
theorem convertFields_ok (info : Bool) : ∀ fs, ∃ hs, convertFields info fs = .ok hs := by
  intro fs
  induction fs with
  | nil => exact ⟨_, rfl⟩
  | cons f t ih =>
    obtain ⟨hs, ih⟩ := ih
    obtain ⟨n, v⟩ := f
    unfold convertFields
    have : ∃ v', (if n = lit "WARC-Date" then timestampToIsoDate v else .ok v) = .ok v' := by
      split
      · unfold timestampToIsoDate
        rw [timestampToDatetime_eq]
        exact ⟨_, rfl⟩
      · exact ⟨_, rfl⟩
    obtain ⟨v', hv⟩ := this
    rw [hv]
    simp only [ih]
    exact ⟨_, rfl⟩

theorem arcHeaders_ok (o : LoadOpts) (l : Str) (parts : List Str) : ∃ hs, arcHeaders o l parts = .ok hs := by
  unfold arcHeaders
  split
  · simp only
    obtain ⟨hs, h⟩ := convertFields_ok (isFiledesc l) (arcToWarcNames.zip (if isFiledesc l then parts else parts.set 3 (lit "application/http;msgtype=response")))
    rw [h]
    exact ⟨_, rfl⟩
  · exact ⟨_, rfl⟩

end Loader
end Warcio

import Verif.Proofs.HeaderMap
import Verif.Proofs.HeaderStable
import Verif.Proofs.AsciiHeaders
import Verif.Proofs.Ints
import Verif.Proofs.Exact
import Verif.Toy

/-!
# Properties C09–C18: `StatusAndHeaders` and its parser

Specifications: `Verif/Spec/Headers.lean`, `Verif/Spec/Percent.lean`, `Verif/Spec/Ints.lean`.
-/

namespace Warcio.Props

open Warcio

section Map
variable [PyUni]

/-- Two header names that differ in case only. -/
def SameName (n m : Str) : Prop := PyUni.lower n = PyUni.lower m

instance (n m : Str) : Decidable (SameName n m) := inferInstanceAs (Decidable (PyUni.lower n = PyUni.lower m))

/-- How many entries of a header list have this name. -/
def occurrences (s : StatusAndHeaders) (n : Str) : Nat := (s.headers.filter (fun h => decide (SameName h.1 n))).length

omit [PyUni] in
theorem filter_same [PyUni] (n : Str) (hs : List Header) :
    hs.filter (fun h => decide (SameName h.1 n)) = hs.filter (StatusAndHeaders.nameEq n) := by
  apply List.filter_congr
  intro h _
  rw [Bool.eq_iff_iff, decide_eq_true_iff]
  simp [SameName, StatusAndHeaders.nameEq]

/-! ## C09 -/

/-- C09: after `h[name] = v` a lookup gives `v` under every spelling of the name and all other
lookups are unchanged; after `del h[name]` the name is gone.  Partial: the name must not occur
more than once (see `C09_duplicates`). -/
theorem C09_map_partial (s : StatusAndHeaders) (n v : Str) (hu : occurrences s n ≤ 1) :
    (∀ m, SameName m n → (s.replaceHeader n v).2.getHeader m = some v) ∧
    (∀ m, ¬ SameName m n → (s.replaceHeader n v).2.getHeader m = s.getHeader m) ∧
    (∀ m, SameName m n → (s.removeHeader n).2.getHeader m = none) ∧
    (∀ m, ¬ SameName m n → (s.removeHeader n).2.getHeader m = s.getHeader m) := by
  unfold occurrences at hu
  rw [filter_same] at hu
  refine ⟨?_, ?_, ?_, ?_⟩
  · intro m hm
    simp only [StatusAndHeaders.getHeader, StatusAndHeaders.replaceHeader]
    rw [StatusAndHeaders.findHeader_congr hm]
    exact StatusAndHeaders.findHeader_replace_self hu v
  · intro m hm
    exact StatusAndHeaders.findHeader_replace_other (fun e => hm e.symm) s.headers v
  · intro m hm
    simp only [StatusAndHeaders.getHeader, StatusAndHeaders.removeHeader]
    rw [StatusAndHeaders.findHeader_congr hm]
    exact StatusAndHeaders.findHeader_remove_self hu
  · intro m hm
    exact StatusAndHeaders.findHeader_remove_other (fun e => hm e.symm) s.headers

/-- The lookups of other names are unchanged also when the name occurs several times, and one
entry less is left after each deletion. -/
theorem C09_others (s : StatusAndHeaders) (n v : Str) :
    (∀ m, ¬ SameName m n → (s.replaceHeader n v).2.getHeader m = s.getHeader m) ∧
    (∀ m, ¬ SameName m n → (s.removeHeader n).2.getHeader m = s.getHeader m) ∧
    occurrences (s.removeHeader n).2 n = occurrences s n - 1 := by
  refine ⟨?_, ?_, ?_⟩
  · intro m hm
    exact StatusAndHeaders.findHeader_replace_other (fun e => hm e.symm) s.headers v
  · intro m hm
    exact StatusAndHeaders.findHeader_remove_other (fun e => hm e.symm) s.headers
  · unfold occurrences
    rw [filter_same, filter_same]
    simp only [StatusAndHeaders.removeHeader]
    rcases StatusAndHeaders.last_match n s.headers with h | ⟨pre, x, post, e, h1, h2⟩
    · rw [StatusAndHeaders.removeIn_none h]
      have : s.headers.filter (StatusAndHeaders.nameEq n) = [] := List.filter_eq_nil_iff.2 (fun a ha => by simp [h a ha])
      rw [this]; rfl
    · rw [e, StatusAndHeaders.removeIn_some h1 h2]
      simp only [List.filter_append, List.filter_cons, h1, if_true, List.length_append, List.length_cons]
      omega

/-- A new name is appended and can be looked up. -/
theorem C09_add (s : StatusAndHeaders) (n v : Str) (h : s.getHeader n = none) :
    (s.addHeader n v).getHeader n = some v ∧ ∀ m, ¬ SameName m n → (s.addHeader n v).getHeader m = s.getHeader m := by
  have e : (s.addHeader n v).headers = (s.replaceHeader n v).2.headers := by
    unfold StatusAndHeaders.addHeader StatusAndHeaders.replaceHeader
    rw [StatusAndHeaders.replaceIn_none (StatusAndHeaders.findHeader_none.1 h)]
  unfold StatusAndHeaders.getHeader
  rw [e]
  refine ⟨?_, ?_⟩
  · refine StatusAndHeaders.findHeader_replace_self ?_ v
    have : s.headers.filter (StatusAndHeaders.nameEq n) = [] :=
      List.filter_eq_nil_iff.2 (fun a ha => by simp [StatusAndHeaders.findHeader_none.1 h a ha])
    rw [this]; simp
  · intro m hm
    exact StatusAndHeaders.findHeader_replace_other (fun e => hm e.symm) s.headers v

end Map

open Toy in
/-- C09 fails for duplicates: setting changes the last entry, a lookup returns the first, and
a deletion leaves one behind. -/
theorem C09_duplicates :
    ∃ s : StatusAndHeaders, (s.replaceHeader (lit "A") (lit "new")).2.getHeader (lit "A") = some (lit "1") ∧
      (s.removeHeader (lit "A")).2.getHeader (lit "A") = some (lit "1") :=
  ⟨{ statusline := [], headers := [(lit "A", lit "1"), (lit "a", lit "2")] }, by decide, by decide⟩

open Toy in
/-- `name in headers` is false for an empty value (`__contains__` tests the value). -/
theorem C09_contains_empty :
    ∃ s : StatusAndHeaders, s.getHeader (lit "A") = some [] ∧ s.contains (lit "A") = false :=
  ⟨{ statusline := [], headers := [(lit "A", [])] }, by decide, by decide⟩

open Toy in
example : occurrences { statusline := [], headers := [(lit "A", lit "1"), (lit "B", lit "2")] } (lit "b") ≤ 1 := by decide

section Map
variable [PyUni]

/-! ## C10 -/

/-- C10: `replace_header` changes exactly the last entry with that name, keeps its spelling
and place, and returns the old value; it appends a new entry if there is none. -/
theorem C10_replace (s : StatusAndHeaders) (n v : Str) :
    (∃ pre h post, s.headers = pre ++ h :: post ∧ SameName h.1 n ∧ (∀ x ∈ post, ¬ SameName x.1 n) ∧
      s.replaceHeader n v = (some h.2, { s with headers := pre ++ (h.1, v) :: post })) ∨
    ((∀ x ∈ s.headers, ¬ SameName x.1 n) ∧
      s.replaceHeader n v = (none, { s with headers := s.headers ++ [(n, v)] })) := by
  have hiff : ∀ x : Header, StatusAndHeaders.nameEq n x = false ↔ ¬ SameName x.1 n := by
    intro x; simp [StatusAndHeaders.nameEq, SameName]
  rcases StatusAndHeaders.last_match n s.headers with h | ⟨pre, x, post, e, h1, h2⟩
  · right
    refine ⟨fun x hx => (hiff x).1 (h x hx), ?_⟩
    unfold StatusAndHeaders.replaceHeader; rw [StatusAndHeaders.replaceIn_none h]
  · left
    refine ⟨pre, x, post, e, by simpa [StatusAndHeaders.nameEq, SameName] using h1, fun y hy => (hiff y).1 (h2 y hy), ?_⟩
    unfold StatusAndHeaders.replaceHeader
    rw [e, StatusAndHeaders.replaceIn_some h1 h2]

/-- C10: `remove_header` deletes exactly the last entry with that name and tells whether there
was one. -/
theorem C10_remove (s : StatusAndHeaders) (n : Str) :
    (∃ pre h post, s.headers = pre ++ h :: post ∧ SameName h.1 n ∧ (∀ x ∈ post, ¬ SameName x.1 n) ∧
      s.removeHeader n = (true, { s with headers := pre ++ post })) ∨
    ((∀ x ∈ s.headers, ¬ SameName x.1 n) ∧ s.removeHeader n = (false, s)) := by
  have hiff : ∀ x : Header, StatusAndHeaders.nameEq n x = false ↔ ¬ SameName x.1 n := by
    intro x; simp [StatusAndHeaders.nameEq, SameName]
  rcases StatusAndHeaders.last_match n s.headers with h | ⟨pre, x, post, e, h1, h2⟩
  · right
    refine ⟨fun x hx => (hiff x).1 (h x hx), ?_⟩
    unfold StatusAndHeaders.removeHeader; rw [StatusAndHeaders.removeIn_none h]
  · left
    refine ⟨pre, x, post, e, by simpa [StatusAndHeaders.nameEq, SameName] using h1, fun y hy => (hiff y).1 (h2 y hy), ?_⟩
    unfold StatusAndHeaders.removeHeader
    rw [e, StatusAndHeaders.removeIn_some h1 h2]

end Map

section Parse
variable [PyUni] {σ : Type} [PyStream σ] {V : σ → Bytes → Prop}

/-! ## C11 -/

/-- A header block that can be written and read back: protocol and status line fit on the
first line for this parser, the headers are well formed. -/
structure WellFormed (c : HeaderParser) (s : StatusAndHeaders) : Prop where
  status_trim : strip s.statusline = s.statusline
  status_lf : '\n' ∉ s.statusline
  headers : ∀ h ∈ s.headers, GoodHeader h
  protocol : (c.verify = true ∧ GoodList c.statuslist ∧ s.protocol ∈ c.statuslist) ∨
    (c.verify = false ∧ s.protocol ≠ [] ∧ ' ' ∉ s.protocol ∧ '\n' ∉ s.protocol ∧ rstrip s.protocol = s.protocol)

/-- C11: parsing the serialisation of a well-formed block, whatever follows it, gives the same
protocol, status line and headers, and leaves the stream exactly behind the blank line.  The
stream is any one whose `readline()` is exact. -/
theorem C11_roundtrip (hL : LineRead V) (c : HeaderParser) (h : StatusAndHeaders) (hw : WellFormed c h) (rest : Bytes)
    (s : σ) (hs : V s (h.toBytes ++ rest)) :
    ∃ h' s', c.parse s = (.ok h', s') ∧ h'.protocol = h.protocol ∧ h'.statusline = h.statusline ∧ h'.headers = h.headers ∧
      V s' rest := by
  have hline : ∀ x ∈ h.headers, LineHeader x := fun x hx => (hw.headers x hx).toLineHeader
  have htail : ∀ x ∈ h.headers.tail, continues x.1 = false := fun x hx => (hw.headers x (List.mem_of_mem_tail hx)).name_start
  have hmap : h.headers.map (fun x => (x.1, lstrip x.2)) = h.headers := by
    rw [List.map_congr_left (g := id)]
    · simp
    · intro x hx; simp [(hw.headers x hx).value_start]
  have key : c.parseAll (splitLines (h.toBytes ++ rest)) =
      (.ok ⟨h.statusline, h.headers, h.protocol, len h.toStr + 2, none⟩, splitLines rest) := by
    rcases hw.protocol with ⟨h1, h2, h3⟩ | ⟨h1, h2, h3, h4, h5⟩
    · rw [HeaderParser.parseAll_verify c h1 h2 h rest h3 hw.status_trim hw.status_lf hline htail, hmap]
    · rw [HeaderParser.parseAll_noverify c h1 h rest h2 h3 h4 (fun _ => h5) hw.status_trim hw.status_lf hline htail, hmap]
  obtain ⟨s', k1, k2⟩ := HeaderParser.parse_spec hL c (s := s) ⟨_, hs, rfl⟩
  rw [key] at k1 k2
  refine ⟨_, s', k1, rfl, rfl, rfl, ?_⟩
  have := HeaderParser.LV.flatten k2
  rwa [splitLines_flatten] at this

/-- C11 for a buffered reader of any block size over a file with any schedule of short reads. -/
theorem C11_buffered [Zlib] (c : HeaderParser) (h : StatusAndHeaders) (hw : WellFormed c h) (rest : Bytes)
    (f : FileObj) (hf : f.rest = h.toBytes ++ rest) (bs : Nat) (hb : 0 < bs) :
    ∃ r h' r1 r2, BufReader.new f bs = .ok r ∧ c.parse r = (.ok h', r1) ∧
      h'.protocol = h.protocol ∧ h'.statusline = h.statusline ∧ h'.headers = h.headers ∧
      r1.read none = (.ok rest, r2) := by
  obtain ⟨r, h1, h2⟩ := BufReader.plain_new (V := FileObj.View) f hf hb
  have hE := BufReader.exactRead (BufReader.plain_fillLaw (Q := (· = bs)) FileObj.shortRead.short)
  obtain ⟨h', r1, k1, k2, k3, k4, k5⟩ := C11_roundtrip hE.lineRead c h hw rest r h2
  obtain ⟨r2, k6, _⟩ := hE.read_none k5
  exact ⟨r, h', r1, r2, h1, k1, k2, k3, k4, k6⟩

/-! ## C12 -/

/-- Both objects are equal in the sense of `__eq__`. -/
def SameBlock (a b : StatusAndHeaders) : Prop :=
  a.statusline = b.statusline ∧ a.headers = b.headers ∧ a.protocol = b.protocol

/-- C12: serialising a parse result and parsing it again changes nothing.  Partial: no parsed
value starts with whitespace (this happens when a value is empty on its own line and goes on
in a continuation line, `C12_unstable`), and without `verify` the first line does not start
with a space (`C12_unstable_status`). -/
theorem C12_stable_partial (c : HeaderParser) (hg : c.verify = true → GoodList c.statuslist) (b : Bytes)
    (h : StatusAndHeaders) (b' : Bytes) (hp : c.parse b = (.ok h, b'))
    (hv : ∀ x ∈ h.headers, lstrip x.2 = x.2) (hs : c.verify = false → h.statusline ≠ [] → h.protocol ≠ []) :
    ∃ h2 b2, c.parse h.toBytes = (.ok h2, b2) ∧ SameBlock h2 h := by
  obtain ⟨s1, k1, _⟩ := HeaderParser.parse_spec Bytes.exactRead.lineRead c (s := b) ⟨b, rfl, rfl⟩
  rw [hp] at k1
  have hp' : c.parseAll (splitLines b) = (.ok h, (c.parseAll (splitLines b)).2) := by
    rw [Prod.mk.injEq] at k1; rw [k1.1]
  obtain ⟨s2, k3, _⟩ := HeaderParser.parse_spec Bytes.exactRead.lineRead c (s := h.toBytes) ⟨_, rfl, rfl⟩
  have e : h.toBytes = h.toBytes ++ [] := by simp
  rcases HeaderParser.parseAll_printable c b hp' with ⟨h1, h2, h3⟩ | hpr
  · rw [e, HeaderParser.reparse_empty c h1 h2 h3 []] at k3
    rw [← e] at k3
    exact ⟨_, s2, k3, h1.symm, h2.symm, h3.symm⟩
  · have hne : h.protocol ≠ [] ∨ c.verify = true := by
      cases hcv : c.verify with
      | true => exact Or.inr rfl
      | false =>
        left
        by_cases hst : h.statusline = []
        · rcases hpr.2.2.2.2 with ⟨h5, _⟩ | ⟨_, _, _, h6⟩
          · rw [hcv] at h5; cases h5
          · exact (h6 hst).1
        · exact hs hcv hst
    rw [e, HeaderParser.reparse c hg hpr hne []] at k3
    rw [← e] at k3
    refine ⟨_, s2, k3, rfl, ?_, rfl⟩
    simp only [HeaderParser.trimValues]
    rw [List.map_congr_left (g := id)]
    · simp
    · intro x hx; simp [hv x hx]

/-- Whatever was parsed: a second round trip normalises, from then on nothing changes. -/
theorem C12_stable_after_two (c : HeaderParser) (hg : c.verify = true → GoodList c.statuslist) (b : Bytes)
    (h : StatusAndHeaders) (b' : Bytes) (hp : c.parse b = (.ok h, b')) :
    ∃ h2 b2 h3 b3, c.parse h.toBytes = (.ok h2, b2) ∧ c.parse h2.toBytes = (.ok h3, b3) ∧ SameBlock h3 h2 := by
  have hpar : ∀ (x : Bytes), ∃ s2, c.parse x = ((c.parseAll (splitLines x)).1, s2) := by
    intro x
    obtain ⟨s2, k3, _⟩ := HeaderParser.parse_spec Bytes.exactRead.lineRead c (s := x) ⟨x, rfl, rfl⟩
    exact ⟨s2, k3⟩
  obtain ⟨s1, k1⟩ := hpar b
  rw [hp] at k1
  have hp' : c.parseAll (splitLines b) = (.ok h, (c.parseAll (splitLines b)).2) := by
    rw [Prod.mk.injEq] at k1; rw [k1.1]
  have hsecond : ∃ h2 b2, c.parse h.toBytes = (.ok h2, b2) ∧ (∀ x ∈ h2.headers, lstrip x.2 = x.2) ∧
      (c.verify = false → h2.statusline ≠ [] → h2.protocol ≠ []) := by
    obtain ⟨s2, k3⟩ := hpar h.toBytes
    have e : h.toBytes = h.toBytes ++ [] := by simp
    rcases HeaderParser.parseAll_printable c b hp' with ⟨h1, h2, h3⟩ | hpr
    · rw [e, HeaderParser.reparse_empty c h1 h2 h3 [], ← e] at k3
      exact ⟨_, s2, k3, by simp, fun _ hn => absurd rfl hn⟩
    · by_cases hne : h.protocol ≠ [] ∨ c.verify = true
      · rw [e, HeaderParser.reparse c hg hpr hne [], ← e] at k3
        refine ⟨_, s2, k3, ?_, ?_⟩
        · intro x hx
          simp only [HeaderParser.trimValues, List.mem_map] at hx
          obtain ⟨y, _, rfl⟩ := hx
          exact dropWhile_idem _ _
        · intro hcv _
          rcases hne with h' | h'
          · exact h'
          · rw [hcv] at h'; cases h'
      · have hpe : h.protocol = [] := Classical.byContradiction fun hn => hne (Or.inl hn)
        have hcv : c.verify = false := by
          cases hcv : c.verify with
          | false => rfl
          | true => exact absurd (Or.inr hcv) hne
        obtain ⟨p1, p2, p3, p4, p5⟩ := hpr
        have hst : h.statusline ≠ [] := by
          intro hst
          rcases p5 with ⟨q1, _⟩ | ⟨_, _, _, q4⟩
          · rw [hcv] at q1; cases q1
          · exact (q4 hst).1 hpe
        have hft : h.firstText = h.statusline := by simp [StatusAndHeaders.firstText, hst, hpe]
        have := HeaderParser.parseAll_toBytes c h [] (by rw [hft]; exact hst) (by rw [hft]; exact p2)
          (by rw [hft, ← p1]; exact rstrip_strip _) p3 p4 (split1 ' ' h.statusline)
          (by unfold HeaderParser.protocolStatus; rw [if_neg (by simp [hcv]), hft])
        rw [e, this, ← e] at k3
        refine ⟨_, s2, k3, ?_, ?_⟩
        · intro x hx
          simp only [List.mem_map] at hx
          obtain ⟨y, _, rfl⟩ := hx
          exact dropWhile_idem _ _
        · intro _ _
          simp only
          cases hl : h.statusline with
          | nil => exact absurd hl hst
          | cons x xs =>
            have hx : x ≠ ' ' := by
              rintro rfl
              have := lstrip_strip h.statusline
              rw [p1, hl] at this
              have hlen : (lstrip (' ' :: xs)).length = (' ' :: xs).length := by rw [this]
              have hd : lstrip (' ' :: xs) = lstrip xs := rfl
              rw [hd] at hlen
              have := (List.dropWhile_suffix isSpace (l := xs)).length_le
              change (lstrip xs).length ≤ _ at this
              simp at hlen; omega
            simp [split1, hx]
  obtain ⟨h2, b2, m1, m2, m3⟩ := hsecond
  obtain ⟨h3, b3, m4, m5⟩ := C12_stable_partial c hg _ h2 b2 m1 m2 m3
  exact ⟨h2, b2, h3, b3, m1, m4, m5⟩

/-! ## C13 -/

/-- C13: without `verify`, parsing returns a block, or raises `EOFError`, which it does exactly
at the end of the stream. -/
theorem C13_total (hL : LineRead V) (c : HeaderParser) (hc : c.verify = false) (s : σ) (rem : Bytes) (hs : V s rem) :
    (rem = [] ∧ (c.parse s).1 = .error .eofError) ∨ (rem ≠ [] ∧ ∃ h, (c.parse s).1 = .ok h) := by
  obtain ⟨s', k1, _⟩ := HeaderParser.parse_spec hL c (s := s) ⟨rem, hs, rfl⟩
  rw [k1]
  by_cases hr : rem = []
  · subst hr; exact Or.inl ⟨rfl, rfl⟩
  · right
    refine ⟨hr, ?_⟩
    rw [splitLines_cons hr]
    simp only [HeaderParser.parseAll, HeaderParser.parseLines]
    rw [if_neg (fun h => takeLine_ne_nil hr (decodeHeader_eq_nil.1 h))]
    split
    · exact ⟨_, rfl⟩
    · simp only [HeaderParser.protocolStatus, hc, Bool.false_eq_true, if_false]
      exact ⟨_, rfl⟩

/-- C13: with `verify` there is one more exception, raised exactly when the first line is not
blank and starts with none of the accepted prefixes (in upper case); it carries that line. -/
theorem C13_verify (hL : LineRead V) (c : HeaderParser) (hc : c.verify = true) (s : σ) (rem : Bytes) (hs : V s rem) :
    (rem = [] ∧ (c.parse s).1 = .error .eofError) ∨
    (rem ≠ [] ∧ lineText (takeLine rem) ≠ [] ∧ (∀ p ∈ c.statuslist, ¬ p <+: PyUni.upper (lineText (takeLine rem))) ∧
      (c.parse s).1 = .error (.statusParser (decodeHeader (takeLine rem)))) ∨
    (rem ≠ [] ∧ (lineText (takeLine rem) = [] ∨ ∃ p ∈ c.statuslist, p <+: PyUni.upper (lineText (takeLine rem))) ∧
      ∃ h, (c.parse s).1 = .ok h) := by
  obtain ⟨s', k1, _⟩ := HeaderParser.parse_spec hL c (s := s) ⟨rem, hs, rfl⟩
  rw [k1]
  by_cases hr : rem = []
  · subst hr; exact Or.inl ⟨rfl, rfl⟩
  · right
    rw [splitLines_cons hr]
    simp only [HeaderParser.parseAll, HeaderParser.parseLines]
    rw [if_neg (fun h => takeLine_ne_nil hr (decodeHeader_eq_nil.1 h))]
    by_cases hb : lineText (takeLine rem) = []
    · right
      have hb' : rstrip (decodeHeader (takeLine rem)) = [] := hb
      rw [if_pos hb']
      exact ⟨hr, Or.inl hb, _, rfl⟩
    · have hb' : ¬ rstrip (decodeHeader (takeLine rem)) = [] := hb
      rw [if_neg hb']
      simp only [HeaderParser.protocolStatus, hc, if_true]
      cases hsp : HeaderParser.splitPrefix (rstrip (decodeHeader (takeLine rem))) c.statuslist with
      | none =>
        left
        exact ⟨hr, hb, HeaderParser.splitPrefix_none.1 hsp, rfl⟩
      | some pr =>
        right
        obtain ⟨p, r⟩ := pr
        obtain ⟨h1, h2, _⟩ := HeaderParser.splitPrefix_mem hsp
        exact ⟨hr, Or.inr ⟨p, h1, h2⟩, _, rfl⟩

/-! ## C14 -/

theorem readBlock_end (b : Bytes) : BlockEnd b (readBlock (splitLines b)).2.1.flatten := by
  have : ∀ (k : Nat) (b : Bytes), b.length ≤ k → BlockEnd b (readBlock (splitLines b)).2.1.flatten := by
    intro k
    induction k with
    | zero =>
      intro b hk
      have : b = [] := List.length_eq_zero_iff.1 (by omega)
      subst this; exact .eof
    | succ k ih =>
      intro b hk
      by_cases hb : b = []
      · subst hb; exact .eof
      · rw [splitLines_cons hb]
        unfold readBlock
        split
        · rename_i h
          rw [splitLines_flatten]
          exact .blank hb h
        · rename_i h
          refine .line h (ih _ ?_)
          have h1 := congrArg List.length (takeLine_append_dropLine b)
          have h2 := List.length_pos_iff.2 (takeLine_ne_nil hb)
          rw [List.length_append] at h1
          omega
  exact this _ b (Nat.le_refl _)

/-- C14: parsing that succeeds consumes everything up to and including the first blank line,
or everything if there is none, and leaves the rest in the stream. -/
theorem C14_consumes_block (hL : LineRead V) (c : HeaderParser) (s : σ) (rem : Bytes) (hs : V s rem)
    (h : StatusAndHeaders) (s' : σ) (hp : c.parse s = (.ok h, s')) :
    ∃ rest, BlockEnd rem rest ∧ V s' rest := by
  obtain ⟨s1, k1, k2⟩ := HeaderParser.parse_spec hL c (s := s) ⟨rem, hs, rfl⟩
  rw [hp] at k1
  rw [Prod.mk.injEq] at k1
  obtain ⟨k1, rfl⟩ := k1
  have k2 := HeaderParser.LV.flatten k2
  by_cases hr : rem = []
  · subst hr; cases k1
  · rw [splitLines_cons hr] at k1 k2
    refine ⟨_, ?_, k2⟩
    simp only [HeaderParser.parseAll] at k1 ⊢
    unfold HeaderParser.parseLines at k1 ⊢
    rw [if_neg (fun h => takeLine_ne_nil hr (decodeHeader_eq_nil.1 h))] at k1 ⊢
    by_cases hb : lineText (takeLine rem) = []
    · have hb' : rstrip (decodeHeader (takeLine rem)) = [] := hb
      rw [if_pos hb', splitLines_flatten]
      exact .blank hr hb
    · have hb' : ¬ rstrip (decodeHeader (takeLine rem)) = [] := hb
      rw [if_neg hb'] at k1 ⊢
      cases hps : c.protocolStatus (decodeHeader (takeLine rem)) (rstrip (decodeHeader (takeLine rem))) with
      | error e => rw [hps] at k1; cases k1
      | ok ps => exact .line hb (readBlock_end _)

/-- C14, when the first line is refused: only that line is consumed. -/
theorem C14_refused (hL : LineRead V) (c : HeaderParser) (s : σ) (rem : Bytes) (hs : V s rem) (l : Str) (s' : σ)
    (hp : c.parse s = (.error (.statusParser l), s')) : V s' (dropLine rem) := by
  obtain ⟨s1, k1, k2⟩ := HeaderParser.parse_spec hL c (s := s) ⟨rem, hs, rfl⟩
  rw [hp] at k1
  rw [Prod.mk.injEq] at k1
  obtain ⟨k1, rfl⟩ := k1
  have k2 := HeaderParser.LV.flatten k2
  by_cases hr : rem = []
  · subst hr; cases k1
  · rw [splitLines_cons hr] at k1 k2
    simp only [HeaderParser.parseAll] at k1 k2
    unfold HeaderParser.parseLines at k1 k2
    rw [if_neg (fun h => takeLine_ne_nil hr (decodeHeader_eq_nil.1 h))] at k1 k2
    split at k1
    · cases k1
    · rename_i hb
      rw [if_neg hb] at k2
      cases hps : c.protocolStatus (decodeHeader (takeLine rem)) (rstrip (decodeHeader (takeLine rem))) with
      | error e => rw [hps] at k2; rwa [splitLines_flatten] at k2
      | ok ps => rw [hps] at k1; cases k1

end Parse

/-- The parser's lists of accepted prefixes are usable (recordloader.py:49-54). -/
theorem goodList_warc : GoodList [lit "WARC/1.1", lit "WARC/1.0", lit "WARC/0.17", lit "WARC/0.18"] := by
  constructor <;> decide

theorem goodList_http : GoodList [lit "HTTP/1.0", lit "HTTP/1.1"] := by
  constructor <;> decide

theorem goodList_verbs : GoodList [lit "GET", lit "HEAD", lit "POST", lit "PUT", lit "DELETE", lit "TRACE", lit "OPTIONS",
    lit "CONNECT", lit "PATCH"] := by
  constructor <;> decide

open Toy in
/-- A non-trivial block that C11 applies to. -/
example : WellFormed ⟨[lit "HTTP/1.0", lit "HTTP/1.1"], true⟩
    { statusline := lit "200 OK", protocol := lit "HTTP/1.1", headers := [(lit "Content-Type", lit "text/html; é"), (lit "X", [])] } where
  status_trim := by decide
  status_lf := by decide
  headers := by
    intro h hh
    simp only [List.mem_cons, List.not_mem_nil, or_false] at hh
    rcases hh with rfl | rfl
    · exact ⟨⟨by decide, by decide, by decide, by decide, by decide⟩, by decide, by decide⟩
    · exact ⟨⟨by decide, by decide, by decide, by decide, by decide⟩, by decide, by decide⟩
  protocol := Or.inl ⟨rfl, goodList_http, by decide⟩

open Toy in
/-- C12 fails for `A:` followed by a continuation line: the value loses its blanks in the
second round. -/
theorem C12_unstable :
    ∃ (c : HeaderParser) (b : Bytes) (h h2 : StatusAndHeaders), (c.parse b).1 = .ok h ∧ (c.parse h.toBytes).1 = .ok h2 ∧
      h.headers = [(lit "A", lit "  foo")] ∧ h2.headers = [(lit "A", lit "foo")] :=
  ⟨⟨[lit "HTTP/1.0"], true⟩, utf8Encode (lit "HTTP/1.0 200 OK\r\nA:\r\n  foo\r\n\r\n"),
    ⟨lit "200 OK", [(lit "A", lit "  foo")], lit "HTTP/1.0", 30, none⟩, ⟨lit "200 OK", [(lit "A", lit "foo")], lit "HTTP/1.0", 29, none⟩,
    by decide +kernel, by decide +kernel, rfl, rfl⟩

open Toy in
/-- C12 fails for a first line that starts with a space, without `verify`. -/
theorem C12_unstable_status :
    ∃ (c : HeaderParser) (b : Bytes) (h h2 : StatusAndHeaders), (c.parse b).1 = .ok h ∧ (c.parse h.toBytes).1 = .ok h2 ∧
      h.protocol = [] ∧ h.statusline = lit "a b" ∧ h2.protocol = lit "a" ∧ h2.statusline = lit "b" :=
  ⟨⟨[], false⟩, utf8Encode (lit " a b\r\n\r\n"), ⟨lit "a b", [], [], 8, none⟩, ⟨lit "b", [], lit "a", 7, none⟩,
    by decide +kernel, by decide +kernel, rfl, rfl, rfl, rfl⟩

open Toy in
/-- C12–C14 on input with a continuation line, a line without colon and invalid UTF-8. -/
example : (HeaderParser.mk [lit "HTTP/1.0"] true).parse
      (utf8Encode (lit "http/1.0 404 NF \r\nA: b\r\n c\r\njunk\r\nB : ") ++ [0xff] ++ utf8Encode (lit "\r\n\r\nbody")) =
    (.ok ⟨lit "404 NF", [(lit "A", lit "b c"), (lit "B", lit "ÿ")], lit "HTTP/1.0", 43, none⟩, utf8Encode (lit "body")) := by decide +kernel

/-! ## C15, C16 -/

theorem crlf_ascii : ∀ x ∈ crlf, x.toNat < 128 := by decide

/-- A value that `to_ascii_bytes` can encode: ASCII, or without `;`, or with all non-ASCII
characters inside parameter values. -/
def Encodable (v : Str) : Prop := isAscii v = true ∨ ';' ∉ v ∨ ParamValue v

/-- C15: `to_ascii_bytes()` returns ASCII for every block with ASCII first line and names.
Partial: a non-ASCII value with a `;` must have its non-ASCII characters inside parameter
values (`C15_raises`). -/
theorem C15_ascii_partial (s : StatusAndHeaders) (h1 : isAscii s.protocol = true) (h2 : isAscii s.statusline = true)
    (h3 : ∀ h ∈ s.headers, isAscii h.1 = true ∧ Encodable h.2) :
    ∃ b s', s.toAsciiBytes = (.ok b, s') ∧ (∀ x ∈ b, x.toNat < 128) ∧ b = s'.toBytes ∧
      s'.headers.map (·.1) = s.headers.map (·.1) ∧ s'.statusline = s.statusline ∧ s'.protocol = s.protocol := by
  unfold StatusAndHeaders.toAsciiBytes
  cases ha : isAscii (s.toStr) with
  | true =>
    rw [StatusAndHeaders.encodeAscii_of ha]
    refine ⟨_, s, rfl, ?_, rfl, rfl, rfl, rfl⟩
    intro x hx
    rcases List.mem_append.1 hx with hx | hx
    · exact StatusAndHeaders.utf8Encode_ascii ha x hx
    · exact crlf_ascii x hx
  | false =>
    have e0 : encodeAscii s.toStr = .error .unicodeEncode := by unfold encodeAscii; rw [if_neg (by simp [ha])]
    rw [e0]
    simp only
    have ha' : isAscii s.percentEncode.toStr = true := by
      unfold StatusAndHeaders.toStr
      rw [isAscii_append, StatusAndHeaders.isAscii_firstLine (s := s.percentEncode) h1 h2, StatusAndHeaders.isAscii_headerLines]
      · rfl
      · intro x hx
        simp only [StatusAndHeaders.percentEncode, List.mem_map] at hx
        obtain ⟨y, hy, rfl⟩ := hx
        exact ⟨(h3 y hy).1, StatusAndHeaders.percentEncodeValue_ascii (h3 y hy).2⟩
    rw [StatusAndHeaders.encodeAscii_of ha']
    refine ⟨_, s.percentEncode, rfl, ?_, rfl, ?_, rfl, rfl⟩
    · intro x hx
      rcases List.mem_append.1 hx with hx | hx
      · exact StatusAndHeaders.utf8Encode_ascii ha' x hx
      · exact crlf_ascii x hx
    · simp [StatusAndHeaders.percentEncode, Function.comp_def]

/-- C15: a block that is ASCII already is written as it is and not changed. -/
theorem C15_ascii_unchanged (s : StatusAndHeaders) (h : isAscii s.toStr = true) : s.toAsciiBytes = (.ok s.toBytes, s) := by
  unfold StatusAndHeaders.toAsciiBytes
  rw [StatusAndHeaders.encodeAscii_of h]
  rfl

/-- C15 fails for a value with `;` and non-ASCII text outside `=value` parts: the exception
is raised, and the headers are left changed. -/
theorem C15_raises :
    ∃ s s' : StatusAndHeaders, s.headers = [(lit "A", lit "a=b; é")] ∧ isAscii s.statusline = true ∧
      s.toAsciiBytes = (.error .unicodeEncode, s') ∧ s'.headers = [(lit "A", lit "a*=UTF-8''b; é")] :=
  ⟨{ statusline := lit "200 OK", headers := [(lit "A", lit "a=b; é")], protocol := lit "HTTP/1.1" }, _, rfl, by decide, rfl, by decide⟩

/-- The hypotheses of C15 are met by a `Content-Disposition` with a non-ASCII file name. -/
example : Encodable (lit "attachment; filename=\"é.txt\"; x=ü") := by
  refine Or.inr (Or.inr ?_)
  change ParamValue (lit "attachment; filename" ++ (lit "=\"é.txt" ++ '"' :: (lit "; x" ++ (lit "=ü" ++ []))))
  repeat' first
    | exact ParamValue.nil
    | exact ParamValue.quoted (c := 'é') (g := lit ".txt") (by decide) (by decide) (by decide) (by
        repeat' first
          | exact ParamValue.plain (c := 'ü') (g := []) (rest := []) (by decide) (by decide) (by decide) (by decide) (Or.inl rfl) .nil
          | refine ParamValue.char (by decide) (by decide) ?_)
    | refine ParamValue.char (by decide) (by decide) ?_

/-- C16: the percent-encoding of a non-ASCII value without `;` decodes to the UTF-8 encoding
of the value, hence to the value itself. -/
theorem C16_percent_roundtrip (v : Str) (h1 : isAscii v = false) (h2 : ';' ∉ v) :
    (percentDecode (StatusAndHeaders.percentEncodeValue v)).bind utf8Decode = some v := by
  have : StatusAndHeaders.percentEncodeValue v = quote v := by
    unfold StatusAndHeaders.percentEncodeValue
    rw [if_neg (by simp [h1]), if_neg (by simpa using h2)]
  rw [this, percentDecode_quote]
  exact utf8Decode_encode v

/-- C16 in `to_ascii_bytes`: it writes this encoding. -/
theorem C16_written (s : StatusAndHeaders) (h : isAscii s.toStr = false) :
    (s.toAsciiBytes).2.headers = s.headers.map (fun x => (x.1, StatusAndHeaders.percentEncodeValue x.2)) := by
  unfold StatusAndHeaders.toAsciiBytes
  have e0 : encodeAscii s.toStr = .error .unicodeEncode := by unfold encodeAscii; rw [if_neg (by simp [h])]
  rw [e0]
  simp only
  cases encodeAscii s.percentEncode.toStr <;> rfl

example : isAscii (lit "aé b") = false ∧ ';' ∉ lit "aé b" ∧ StatusAndHeaders.percentEncodeValue (lit "aé b") = lit "a%C3%A9%20b" := by decide

/-! ## C17 -/

section
variable [PyUni]

theorem lower_ne {a b : Str} (ha : isAscii a = true) (hb : isAscii b = true) (h : a.map Char.toLower ≠ b.map Char.toLower) :
    PyUni.lower a ≠ PyUni.lower b := by
  rw [PyUni.lower_ascii a ha, PyUni.lower_ascii b hb]; exact h

/-- C17: `add_range` sets the status, keeps every other header and sets the three range
headers; the numbers in them read back as the arguments.  Partial: a lookup sees the new value
only if the name occurred at most once before (`C17_duplicate`). -/
theorem C17_range_partial (s : StatusAndHeaders) (start partLen total : Int) :
    (s.addRange start partLen total).statusline = lit "206 Partial Content" ∧
    (∀ m, ¬ SameName m (lit "Content-Range") → ¬ SameName m (lit "Content-Length") → ¬ SameName m (lit "Accept-Ranges") →
      (s.addRange start partLen total).getHeader m = s.getHeader m) ∧
    (occurrences s (lit "Content-Range") ≤ 1 → ∃ a b c, (s.addRange start partLen total).getHeader (lit "Content-Range") =
        some (lit "bytes " ++ a ++ lit "-" ++ b ++ lit "/" ++ c) ∧ parseInt a = some start ∧
        parseInt b = some (start + partLen - 1) ∧ parseInt c = some total) ∧
    (occurrences s (lit "Content-Length") ≤ 1 → ∃ a, (s.addRange start partLen total).getHeader (lit "Content-Length") = some a ∧
        parseInt a = some partLen) ∧
    (occurrences s (lit "Accept-Ranges") ≤ 1 → (s.addRange start partLen total).getHeader (lit "Accept-Ranges") = some (lit "bytes")) := by
  have hRL : PyUni.lower (lit "Content-Range") ≠ PyUni.lower (lit "Content-Length") := lower_ne (by decide) (by decide) (by decide)
  have hRA : PyUni.lower (lit "Content-Range") ≠ PyUni.lower (lit "Accept-Ranges") := lower_ne (by decide) (by decide) (by decide)
  have hLA : PyUni.lower (lit "Content-Length") ≠ PyUni.lower (lit "Accept-Ranges") := lower_ne (by decide) (by decide) (by decide)
  unfold occurrences
  simp only [filter_same]
  refine ⟨rfl, ?_, ?_, ?_, ?_⟩
  · intro m h1 h2 h3
    simp only [StatusAndHeaders.addRange, StatusAndHeaders.replaceHeader, StatusAndHeaders.getHeader]
    rw [StatusAndHeaders.findHeader_replace_other (fun e => h3 e.symm), StatusAndHeaders.findHeader_replace_other (fun e => h2 e.symm),
      StatusAndHeaders.findHeader_replace_other (fun e => h1 e.symm)]
  · intro hu
    refine ⟨intToStr start, intToStr (start + partLen - 1), intToStr total, ?_, parseInt_intToStr _, parseInt_intToStr _, parseInt_intToStr _⟩
    simp only [StatusAndHeaders.addRange, StatusAndHeaders.replaceHeader, StatusAndHeaders.getHeader]
    rw [StatusAndHeaders.findHeader_replace_other (fun e => hRA e.symm), StatusAndHeaders.findHeader_replace_other (fun e => hRL e.symm),
      StatusAndHeaders.findHeader_replace_self hu]
  · intro hu
    refine ⟨intToStr partLen, ?_, parseInt_intToStr _⟩
    simp only [StatusAndHeaders.addRange, StatusAndHeaders.replaceHeader, StatusAndHeaders.getHeader]
    rw [StatusAndHeaders.findHeader_replace_other (fun e => hLA e.symm), StatusAndHeaders.findHeader_replace_self]
    rw [StatusAndHeaders.filter_replace_other hRL]; exact hu
  · intro hu
    simp only [StatusAndHeaders.addRange, StatusAndHeaders.replaceHeader, StatusAndHeaders.getHeader]
    rw [StatusAndHeaders.findHeader_replace_self]
    rw [StatusAndHeaders.filter_replace_other hLA, StatusAndHeaders.filter_replace_other hRA]; exact hu

end

open Toy in
/-- C17 fails for duplicates: the old `Content-Length` is still what a lookup returns. -/
theorem C17_duplicate :
    ∃ s : StatusAndHeaders, (s.addRange 10 4 100).getHeader (lit "Content-Length") = some (lit "100") :=
  ⟨{ statusline := lit "200 OK", headers := [(lit "Content-Length", lit "100"), (lit "content-length", lit "100")] }, by decide +kernel⟩

open Toy in
example : (StatusAndHeaders.addRange { statusline := lit "200 OK", headers := [(lit "A", lit "b"), (lit "content-length", lit "100")] } 10 4 100).headers =
    [(lit "A", lit "b"), (lit "content-length", lit "4"), (lit "Content-Range", lit "bytes 10-13/100"), (lit "Accept-Ranges", lit "bytes")] := by
  decide +kernel

section
variable [PyUni]

/-! ## C18 -/

/-- C18: `validate_statusline` returns `True` and changes nothing exactly when the first word
of the status line is a positive integer for Python; otherwise it returns `False` and sets the
given status line. -/
theorem C18_validate (s : StatusAndHeaders) (valid : Str) :
    ((∃ n : Int, 0 < n ∧ PyInt (split1 ' ' s.statusline).1 n) ∧ s.validateStatusline valid = (true, s)) ∨
    ((¬ ∃ n : Int, 0 < n ∧ PyInt (split1 ' ' s.statusline).1 n) ∧ s.validateStatusline valid = (false, { s with statusline := valid })) := by
  unfold StatusAndHeaders.validateStatusline StatusAndHeaders.getStatuscode
  cases h : parseInt (split1 ' ' s.statusline).1 with
  | none =>
    right
    refine ⟨?_, rfl⟩
    rintro ⟨n, _, hn⟩
    rw [(parseInt_iff _ _).2 hn] at h; cases h
  | some n =>
    simp only
    by_cases hn : 0 < n
    · left; exact ⟨⟨n, hn, (parseInt_iff _ _).1 h⟩, by rw [if_pos hn]⟩
    · right
      refine ⟨?_, by rw [if_neg hn]⟩
      rintro ⟨m, hm, hm2⟩
      rw [(parseInt_iff _ _).2 hm2] at h
      cases h; exact hn hm

/-- C18: an ordinary status line (`code reason`) is kept. -/
theorem C18_ordinary (s : StatusAndHeaders) (n : Nat) (hn : 0 < n) (t : Str) (hs : s.statusline = natToStr n ++ ' ' :: t ∨ s.statusline = natToStr n)
    (valid : Str) : s.validateStatusline valid = (true, s) := by
  have hsp : ' ' ∉ natToStr n := by
    intro hm
    have := Nat.isDigit_of_mem_toDigits (by decide) (by decide) hm
    simp at this
  have hw : (split1 ' ' s.statusline).1 = natToStr n := by
    rcases hs with hs | hs
    · rw [hs, split1_append hsp]
    · rw [hs, split1_none hsp]
  unfold StatusAndHeaders.validateStatusline StatusAndHeaders.getStatuscode
  rw [hw, parseInt_natToStr]
  simp [hn]

/-- C18: after a validation with an acceptable replacement, a second one always succeeds. -/
theorem C18_twice (s : StatusAndHeaders) (valid valid2 : Str) (n : Int) (hn : 0 < n) (hv : PyInt (split1 ' ' valid).1 n) :
    ((s.validateStatusline valid).2.validateStatusline valid2).1 = true := by
  rcases C18_validate s valid with ⟨h1, h2⟩ | ⟨_, h2⟩
  · rw [h2]
    rcases C18_validate s valid2 with ⟨_, h3⟩ | ⟨h3, _⟩
    · rw [h3]
    · exact absurd h1 h3
  · rw [h2]
    rcases C18_validate { s with statusline := valid } valid2 with ⟨_, h3⟩ | ⟨h3, _⟩
    · rw [h3]
    · exact absurd ⟨n, hn, hv⟩ h3

end

open Toy in
example : (StatusAndHeaders.validateStatusline { statusline := lit "2_04 No Content", headers := [] } (lit "200 OK")).1 = true ∧
    (StatusAndHeaders.validateStatusline { statusline := lit "Bad", headers := [] } (lit "200 OK")).2.statusline = lit "200 OK" := by decide

end Warcio.Props

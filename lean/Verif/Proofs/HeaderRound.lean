import Verif.Proofs.HeaderParse
import Verif.Proofs.Utf8
import Verif.Proofs.Strings

/-! # Serialised headers parse back -/

set_option linter.unusedSectionVars false

namespace Warcio

/-- An encoded line. -/
def encLine (l : Str) : Bytes := utf8Encode l ++ crlf

theorem encLine_eq (l : Str) : encLine l = utf8Encode (l ++ crlfStr) := by
  unfold encLine; rw [utf8Encode_append, utf8Encode_crlf]

theorem lineText_encLine (l : Str) : lineText (encLine l) = rstrip l := by
  unfold lineText
  rw [encLine_eq, decodeHeader_encode]
  exact rdropWhile_append_all _ (by decide)

theorem decode_encLine (l : Str) : decodeHeader (encLine l) = l ++ crlfStr := by
  rw [encLine_eq, decodeHeader_encode]

theorem splitLines_encLine {l : Str} (h : '\n' ∉ l) (t : Bytes) : splitLines (encLine l ++ t) = encLine l :: splitLines t := by
  have e : encLine l ++ t = (utf8Encode l ++ [13]) ++ 10 :: t := by simp [encLine]
  have hn : (10 : UInt8) ∉ utf8Encode l ++ [13] := by
    simp only [List.mem_append, List.mem_singleton, not_or]
    exact ⟨fun hm => h (nl_mem_encode.1 hm), by decide⟩
  rw [splitLines_cons (by rw [e]; simp), e, takeLine_append_nl hn, dropLine_append_nl hn]
  simp [encLine]

/-- The text of the line of a header. -/
def headerText (h : Header) : Str := h.1 ++ [':', ' '] ++ h.2

theorem headerText_lf {h : Header} (hh : LineHeader h) : '\n' ∉ headerText h := by
  unfold headerText
  simp only [List.mem_append, List.mem_cons, List.not_mem_nil, or_false, not_or]
  exact ⟨⟨hh.name_lf, by decide, by decide⟩, hh.value_lf⟩

theorem rstrip_headerText {h : Header} (hh : LineHeader h) :
    ∃ v, rstrip (headerText h) = h.1 ++ ':' :: v ∧ lstrip v = lstrip h.2 := by
  unfold headerText
  by_cases hv : h.2 = []
  · refine ⟨[], ?_, by rw [hv]⟩
    rw [hv, List.append_nil]
    have : h.1 ++ [':', ' '] = (h.1 ++ [':']) ++ [' '] := by simp
    rw [this]
    unfold rstrip
    rw [rdropWhile_append_all _ (by decide)]
    exact rdropWhile_concat _ (by decide)
  · refine ⟨' ' :: h.2, ?_, rfl⟩
    have e := rdropWhile_append_self isSpace (a := h.1 ++ [':', ' ']) hh.value_end hv
    unfold rstrip
    rw [e]; simp

theorem rstrip_headerText_ne {h : Header} (hh : LineHeader h) : rstrip (headerText h) ≠ [] := by
  obtain ⟨v, h1, _⟩ := rstrip_headerText hh
  rw [h1]; simp

theorem headerOf_text {h : Header} (hh : LineHeader h) : headerOf (rstrip (headerText h), []) = some (h.1, lstrip h.2) := by
  obtain ⟨v, h1, h2⟩ := rstrip_headerText hh
  unfold headerOf
  simp only
  rw [h1, split1_append hh.name_colon]
  simp [hh.name_end, h2]

theorem continues_cons (c : Char) (t : Str) : continues (c :: t) = (c == ' ' || c == '\t') := by
  by_cases h1 : c = ' '
  · subst h1; rfl
  · by_cases h2 : c = '\t'
    · subst h2; rfl
    · rw [beq_eq_false_iff_ne.2 h1, beq_eq_false_iff_ne.2 h2]
      unfold continues
      split
      · rename_i h; cases h; exact absurd rfl h1
      · rename_i h; cases h; exact absurd rfl h2
      · rfl

theorem continues_text {h : Header} (hh : LineHeader h) : continues (rstrip (headerText h)) = continues h.1 := by
  obtain ⟨v, h1, _⟩ := rstrip_headerText hh
  rw [h1]
  cases h.1 with
  | nil => rfl
  | cons c t => rw [List.cons_append, continues_cons, continues_cons]

theorem headerLines_encode (hs : List Header) :
    utf8Encode (StatusAndHeaders.headerLines some hs) = (hs.map (fun h => encLine (headerText h))).flatten := by
  induction hs with
  | nil => rfl
  | cons h t ih =>
    simp only [StatusAndHeaders.headerLines, List.map_cons, List.flatten_cons]
    rw [utf8Encode_append, ih, encLine_eq]
    rfl

theorem splitLines_headers (hs : List Header) (hh : ∀ h ∈ hs, LineHeader h) (rest : Bytes) :
    splitLines (utf8Encode (StatusAndHeaders.headerLines some hs) ++ crlf ++ rest) =
      hs.map (fun h => encLine (headerText h)) ++ (crlf :: splitLines rest) := by
  rw [headerLines_encode, List.append_assoc]
  induction hs with
  | nil => exact splitLines_encLine (l := []) (by simp) rest
  | cons h t ih =>
    simp only [List.map_cons, List.flatten_cons, List.cons_append]
    rw [List.append_assoc, splitLines_encLine (headerText_lf (hh h List.mem_cons_self))]
    exact congrArg _ (ih (fun x hx => hh x (List.mem_cons_of_mem _ hx)))

theorem readBlock_headers (hs : List Header) (hh : ∀ h ∈ hs, LineHeader h) (ls : List Bytes) :
    readBlock (hs.map (fun h => encLine (headerText h)) ++ (crlf :: ls)) =
      (hs.map (fun h => rstrip (headerText h)), ls, len (StatusAndHeaders.headerLines some hs) + 2) := by
  induction hs with
  | nil =>
    simp only [List.map_nil, List.nil_append, readBlock]
    rw [if_pos (by decide)]
    rfl
  | cons h t ih =>
    simp only [List.map_cons, List.cons_append, readBlock]
    rw [lineText_encLine, if_neg (rstrip_headerText_ne (hh h List.mem_cons_self)), ih (fun x hx => hh x (List.mem_cons_of_mem _ hx)), decode_encLine]
    refine Prod.ext rfl (Prod.ext rfl ?_)
    simp only [StatusAndHeaders.headerLines, len, headerText, List.length_append, List.length_cons]
    omega

theorem groupLines_plain (ls : List Str) (h : ∀ l ∈ ls, continues l = false) : groupLines ls = ([], ls.map (fun l => (l, []))) := by
  induction ls with
  | nil => rfl
  | cons l ls ih =>
    simp only [groupLines, ih (fun x hx => h x (List.mem_cons_of_mem _ hx)), h l List.mem_cons_self, Bool.false_eq_true, if_false, List.map_cons]

theorem headersOf_headers (hs : List Header) (hh : ∀ h ∈ hs, LineHeader h) (hc : ∀ h ∈ hs.tail, continues h.1 = false) :
    headersOf (hs.map (fun h => rstrip (headerText h))) = hs.map (fun h => (h.1, lstrip h.2)) := by
  cases hs with
  | nil => rfl
  | cons h t =>
    simp only [List.map_cons, headersOf]
    rw [groupLines_plain]
    · simp only [List.map_map]
      have : ∀ (k : List Header), (∀ h ∈ k, LineHeader h) →
          (k.map (fun h => (rstrip (headerText h), ([] : List Str)))).filterMap headerOf = k.map (fun h => (h.1, lstrip h.2)) := by
        intro k hk
        induction k with
        | nil => rfl
        | cons a b ih =>
          simp only [List.map_cons, List.filterMap_cons, headerOf_text (hk a List.mem_cons_self)]
          rw [ih (fun x hx => hk x (List.mem_cons_of_mem _ hx))]
      exact this (h :: t) hh
    · intro l hl
      rw [List.mem_map] at hl
      obtain ⟨x, hx, rfl⟩ := hl
      rw [continues_text (hh x (List.mem_cons_of_mem _ hx))]
      exact hc x hx

/-- The first line without its CRLF. -/
def StatusAndHeaders.firstText (s : StatusAndHeaders) : Str :=
  if s.statusline = [] then s.protocol else if s.protocol = [] then s.statusline else s.protocol ++ ' ' :: s.statusline

theorem StatusAndHeaders.firstLine_eq (s : StatusAndHeaders) (h : s.firstText ≠ []) : s.firstLine = s.firstText ++ crlfStr := by
  unfold StatusAndHeaders.firstLine StatusAndHeaders.firstText at *
  by_cases h1 : s.statusline = []
  · by_cases h2 : s.protocol = []
    · simp [h1, h2] at h
    · simp [h1, h2]
  · by_cases h2 : s.protocol = []
    · simp [h1, h2]
    · simp [h1, h2]

theorem StatusAndHeaders.firstLine_nil (s : StatusAndHeaders) (h : s.firstText = []) : s.firstLine = [] := by
  unfold StatusAndHeaders.firstLine StatusAndHeaders.firstText at *
  by_cases h1 : s.statusline = []
  · by_cases h2 : s.protocol = []
    · simp [h1, h2]
    · simp [h1, h2] at h
  · by_cases h2 : s.protocol = []
    · simp [h1, h2] at h
    · simp [h1, h2] at h

namespace HeaderParser

variable [PyUni]

/-- Parsing what was serialised: the first line gives what it gives, the headers come back
with their values stripped on the left. -/
theorem parseAll_toBytes (c : HeaderParser) (s : StatusAndHeaders) (rest : Bytes)
    (h1 : s.firstText ≠ []) (h2 : '\n' ∉ s.firstText) (h3 : rstrip s.firstText = s.firstText)
    (hh : ∀ h ∈ s.headers, LineHeader h) (hc : ∀ h ∈ s.headers.tail, continues h.1 = false)
    (ps : Str × Option Str) (hp : c.protocolStatus (s.firstText ++ crlfStr) s.firstText = .ok ps) :
    c.parseAll (splitLines (s.toBytes ++ rest)) =
      (.ok ⟨strip (ps.2.getD []), s.headers.map (fun h => (h.1, lstrip h.2)), ps.1, len s.toStr + 2, none⟩, splitLines rest) := by
  unfold StatusAndHeaders.toBytes StatusAndHeaders.toStr
  rw [s.firstLine_eq h1, utf8Encode_append, ← encLine_eq, List.append_assoc, List.append_assoc, splitLines_encLine h2, ← List.append_assoc]
  rw [splitLines_headers _ hh]
  simp only [parseAll]
  rw [decode_encLine]
  unfold parseLines
  have e1 : rstrip (s.firstText ++ crlfStr) = s.firstText := by
    rw [← h3]; unfold rstrip; rw [rdropWhile_append_all _ (by decide), rdropWhile_idem]
  rw [e1, if_neg (by simp), if_neg h1, hp]
  simp only
  rw [readBlock_headers _ hh, headersOf_headers _ hh hc]
  simp only [len, List.length_append, List.length_cons, List.length_nil]
  congr 3

theorem upper_prefix {ps : List Str} (hg : GoodList ps) {p : Str} (hp : p ∈ ps) (t : Str) :
    PyUni.upper (p ++ t) = p ++ PyUni.upper t := by
  rw [PyUni.upper_append, PyUni.upper_ascii p (hg.ascii p hp), hg.upper p hp]

theorem splitPrefix_mem {ps : List Str} {key p r : Str} (h : splitPrefix key ps = some (p, r)) :
    p ∈ ps ∧ p <+: PyUni.upper key ∧ r = key.drop p.length := by
  induction ps with
  | nil => cases h
  | cons q qs ih =>
    unfold splitPrefix at h
    split at h
    · rename_i hq
      have hq' : q <+: PyUni.upper key := by simpa [startsWith] using hq
      simp only [Option.some.injEq, Prod.mk.injEq] at h
      obtain ⟨rfl, rfl⟩ := h
      have e : (PyUni.upper key).take q.length = q := (List.prefix_iff_eq_take.1 hq').symm
      rw [e]
      exact ⟨List.mem_cons_self, hq', rfl⟩
    · obtain ⟨h1, h2⟩ := ih h
      exact ⟨List.mem_cons_of_mem _ h1, h2⟩

theorem splitPrefix_none {ps : List Str} {key : Str} : splitPrefix key ps = none ↔ ∀ p ∈ ps, ¬ p <+: PyUni.upper key := by
  induction ps with
  | nil => simp [splitPrefix]
  | cons q qs ih =>
    unfold splitPrefix
    by_cases hq : q <+: PyUni.upper key
    · rw [if_pos (by simpa [startsWith] using hq)]
      simp only [reduceCtorEq, false_iff]
      intro h
      exact h q List.mem_cons_self hq
    · rw [if_neg (by simpa [startsWith] using hq), ih]
      constructor
      · intro h p hp
        rcases List.mem_cons.1 hp with rfl | hp
        · exact hq
        · exact h p hp
      · intro h p hp; exact h p (List.mem_cons_of_mem _ hp)

theorem splitPrefix_of_mem {ps : List Str} (hg : GoodList ps) {p : Str} (hp : p ∈ ps) (t : Str) :
    splitPrefix (p ++ t) ps = some (p, t) := by
  cases h : splitPrefix (p ++ t) ps with
  | none =>
    have := splitPrefix_none.1 h p hp
    rw [upper_prefix hg hp] at this
    exact absurd (List.prefix_append _ _) this
  | some qr =>
    obtain ⟨q, r⟩ := qr
    obtain ⟨h1, h2, h3⟩ := splitPrefix_mem h
    rw [upper_prefix hg hp] at h2
    have : q = p := by
      rcases Nat.le_total q.length p.length with hl | hl
      · exact hg.free q h1 p hp (List.prefix_of_prefix_length_le h2 (List.prefix_append _ _) hl)
      · exact (hg.free p hp q h1 (List.prefix_of_prefix_length_le (List.prefix_append _ _) h2 hl)).symm
    subst this
    rw [h3, List.drop_left]

/-- Round trip with `verify=True`. -/
theorem parseAll_verify (c : HeaderParser) (hv : c.verify = true) (hg : GoodList c.statuslist) (s : StatusAndHeaders) (rest : Bytes)
    (hp : s.protocol ∈ c.statuslist) (hs : strip s.statusline = s.statusline) (hs2 : '\n' ∉ s.statusline)
    (hh : ∀ h ∈ s.headers, LineHeader h) (hc : ∀ h ∈ s.headers.tail, continues h.1 = false) :
    c.parseAll (splitLines (s.toBytes ++ rest)) =
      (.ok ⟨s.statusline, s.headers.map (fun h => (h.1, lstrip h.2)), s.protocol, len s.toStr + 2, none⟩, splitLines rest) := by
  have hne := hg.ne _ hp
  have hft : ∃ t, s.firstText = s.protocol ++ t ∧ strip t = s.statusline ∧ rstrip s.firstText = s.firstText ∧ '\n' ∉ t := by
    unfold StatusAndHeaders.firstText
    by_cases h0 : s.statusline = []
    · exact ⟨[], by simp [h0], by rw [h0]; rfl, by rw [if_pos h0]; exact hg.trail _ hp, by simp⟩
    · refine ⟨' ' :: s.statusline, by simp [h0, hne], hs, ?_, ?_⟩
      · rw [if_neg h0, if_neg hne]
        have e : s.protocol ++ ' ' :: s.statusline = (s.protocol ++ [' ']) ++ s.statusline := by simp
        rw [e]
        exact rdropWhile_append_self _ (by rw [← hs]; exact rstrip_strip _) h0
      · simp only [List.mem_cons, not_or]; exact ⟨by decide, hs2⟩
  obtain ⟨t, h1, h2, h3, h4⟩ := hft
  have := parseAll_toBytes c s rest (by rw [h1]; simp [hne]) (by rw [h1]; simp only [List.mem_append, not_or]; exact ⟨hg.lf _ hp, h4⟩) h3 hh hc
    (s.protocol, some t) (by unfold protocolStatus; rw [if_pos hv, h1, splitPrefix_of_mem hg hp])
  rw [this]
  simp [h2]

/-- Round trip with `verify=False`. -/
theorem parseAll_noverify (c : HeaderParser) (hv : c.verify = false) (s : StatusAndHeaders) (rest : Bytes)
    (hne : s.protocol ≠ []) (hsp : ' ' ∉ s.protocol) (hlf : '\n' ∉ s.protocol)
    (htr : s.statusline = [] → rstrip s.protocol = s.protocol)
    (hs : strip s.statusline = s.statusline) (hs2 : '\n' ∉ s.statusline)
    (hh : ∀ h ∈ s.headers, LineHeader h) (hc : ∀ h ∈ s.headers.tail, continues h.1 = false) :
    c.parseAll (splitLines (s.toBytes ++ rest)) =
      (.ok ⟨s.statusline, s.headers.map (fun h => (h.1, lstrip h.2)), s.protocol, len s.toStr + 2, none⟩, splitLines rest) := by
  by_cases h0 : s.statusline = []
  · have hft : s.firstText = s.protocol := by simp [StatusAndHeaders.firstText, h0]
    have := parseAll_toBytes c s rest (by rw [hft]; exact hne) (by rw [hft]; exact hlf) (by rw [hft]; exact htr h0) hh hc
      (s.protocol, none) (by unfold protocolStatus; rw [if_neg (by simp [hv]), hft, split1_none hsp])
    rw [this, h0]; rfl
  · have hft : s.firstText = s.protocol ++ ' ' :: s.statusline := by simp [StatusAndHeaders.firstText, h0, hne]
    have h3 : rstrip s.firstText = s.firstText := by
      rw [hft]
      have e : s.protocol ++ ' ' :: s.statusline = (s.protocol ++ [' ']) ++ s.statusline := by simp
      rw [e]
      exact rdropWhile_append_self _ (by rw [← hs]; exact rstrip_strip _) h0
    have h2 : '\n' ∉ s.firstText := by
      rw [hft]; simp only [List.mem_append, List.mem_cons, not_or]; exact ⟨hlf, by decide, hs2⟩
    have := parseAll_toBytes c s rest (by rw [hft]; simp) h2 h3 hh hc
      (s.protocol, some s.statusline) (by unfold protocolStatus; rw [if_neg (by simp [hv]), hft, split1_append hsp])
    rw [this]
    simp [hs]

end HeaderParser
end Warcio

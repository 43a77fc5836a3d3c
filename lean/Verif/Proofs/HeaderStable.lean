import Verif.Proofs.HeaderRound

/-! # What parsing returns can be written on lines -/

set_option linter.unusedSectionVars false

namespace Warcio

theorem mem_splitLines {b l : Bytes} (h : l ∈ splitLines b) : ∃ a, (10 : UInt8) ∉ a ∧ (l = a ∨ l = a ++ [10]) := by
  induction b generalizing l with
  | nil => cases h
  | cons x xs ih =>
    unfold splitLines at h
    split at h
    · rename_i hx
      rcases List.mem_cons.1 h with rfl | h
      · exact ⟨[], by simp, Or.inr (by rw [hx]; rfl)⟩
      · exact ih h
    · rename_i hx
      split at h
      · simp only [List.mem_singleton] at h
        subst h
        exact ⟨[x], by simpa using fun e => hx e.symm, Or.inl rfl⟩
      · rename_i l0 ls h0
        rw [h0] at ih
        rcases List.mem_cons.1 h with rfl | h
        · obtain ⟨a, h1, h2⟩ := ih List.mem_cons_self
          refine ⟨x :: a, by simp only [List.mem_cons, not_or]; exact ⟨fun e => hx e.symm, h1⟩, ?_⟩
          rcases h2 with rfl | rfl
          · exact Or.inl rfl
          · exact Or.inr rfl
        · exact ih (List.mem_cons_of_mem _ h)

theorem lineText_lf {b l : Bytes} (h : l ∈ splitLines b) : '\n' ∉ lineText l := by
  obtain ⟨a, h1, h2⟩ := mem_splitLines h
  rcases h2 with rfl | rfl
  · intro hm
    exact h1 (nl_mem_decodeHeader.1 (mem_rdropWhile hm))
  · unfold lineText
    have : ∃ t, decodeHeader (a ++ [10]) = t ++ ['\n'] ∧ '\n' ∉ t := by
      unfold decodeHeader
      cases hd : utf8Decode (a ++ [10]) with
      | some s =>
        simp only
        have he := utf8Encode_decode hd
        rcases List.eq_nil_or_concat s with rfl | ⟨t, c, rfl⟩
        · simp [utf8Encode] at he
        · rw [List.concat_eq_append] at he ⊢
          rw [utf8Encode_append] at he
          have hc : utf8Encode [c] = utf8Char c := by simp [utf8Encode]
          rw [hc] at he
          have hne : utf8Char c ≠ [] := by
            unfold utf8Char; simp only
            split
            · simp
            · split
              · simp
              · split <;> simp
          rcases List.eq_nil_or_concat (utf8Char c) with h0 | ⟨u, z, hu⟩
          · exact absurd h0 hne
          · rw [List.concat_eq_append] at hu
            rw [hu, ← List.append_assoc] at he
            obtain ⟨h3, h4⟩ := List.append_inj' he rfl
            have hz : z = 10 := by simpa using h4
            have : c.toNat = 10 := (mem_utf8Char (b := 10) (by decide)).1 (by rw [hu, hz]; simp)
            have hcn : c = '\n' := char_toNat_inj this
            subst hcn
            refine ⟨t, rfl, ?_⟩
            intro hm
            apply h1
            rw [← h3]
            exact List.mem_append_left _ (nl_mem_encode.2 hm)
      | none =>
        simp only
        refine ⟨latin1Decode a, by simp [latin1Decode], ?_⟩
        simp only [latin1Decode, List.mem_map, not_exists, not_and]
        intro x hx he
        have := congrArg Char.toNat he
        rw [toNat_charOfNat (by have := x.toNat_lt; omega)] at this
        have : x = 10 := uint8_toNat_inj this
        exact h1 (this ▸ hx)
    obtain ⟨t, h3, h4⟩ := this
    rw [h3]
    unfold rstrip
    rw [rdropWhile_append_all _ (by decide)]
    exact fun hm => h4 (mem_rdropWhile hm)

/-- A line of text as the parser sees it. -/
def TextLine (l : Str) : Prop := l ≠ [] ∧ '\n' ∉ l ∧ rstrip l = l

theorem readBlock_text {ls : List Bytes} (h : ∀ l ∈ ls, '\n' ∉ lineText l) : ∀ t ∈ (readBlock ls).1, TextLine t := by
  induction ls with
  | nil => simp [readBlock]
  | cons l ls ih =>
    unfold readBlock
    split
    · simp
    · rename_i hl
      simp only [List.mem_cons]
      rintro t (rfl | ht)
      · exact ⟨hl, h l List.mem_cons_self, rdropWhile_idem _ _⟩
      · exact ih (fun x hx => h x (List.mem_cons_of_mem _ hx)) t ht

theorem groupLines_text {ts : List Str} (h : ∀ t ∈ ts, TextLine t) :
    (∀ t ∈ (groupLines ts).1, TextLine t) ∧
    (∀ g ∈ (groupLines ts).2, TextLine g.1 ∧ continues g.1 = false ∧ ∀ t ∈ g.2, TextLine t) := by
  induction ts with
  | nil => simp [groupLines]
  | cons t ts ih =>
    obtain ⟨h1, h2⟩ := ih (fun x hx => h x (List.mem_cons_of_mem _ hx))
    unfold groupLines
    simp only
    split
    · refine ⟨?_, h2⟩
      intro x hx
      rcases List.mem_cons.1 hx with rfl | hx
      · exact h _ List.mem_cons_self
      · exact h1 x hx
    · rename_i hc
      refine ⟨by simp, ?_⟩
      intro g hg
      rcases List.mem_cons.1 hg with rfl | hg
      · exact ⟨h _ List.mem_cons_self, by simpa using hc, h1⟩
      · exact h2 g hg

theorem rstrip_flatten {ts : List Str} (h : ∀ t ∈ ts, TextLine t) : rstrip ts.flatten = ts.flatten := by
  induction ts with
  | nil => rfl
  | cons t ts ih =>
    have ih := ih (fun x hx => h x (List.mem_cons_of_mem _ hx))
    rw [List.flatten_cons]
    by_cases h0 : ts.flatten = []
    · rw [h0, List.append_nil]; exact (h t List.mem_cons_self).2.2
    · exact rdropWhile_append_self _ ih h0

theorem headerOf_line {g : Str × List Str} (h1 : TextLine g.1) (h2 : ∀ t ∈ g.2, TextLine t) {h : Header}
    (hh : headerOf g = some h) : LineHeader h ∧ (continues g.1 = false → continues h.1 = false) := by
  unfold headerOf at hh
  split at hh
  · rename_i n v hs
    obtain ⟨e1, e2⟩ := split1_some hs
    simp only [Option.some.injEq] at hh
    subst hh
    obtain ⟨_, hlf, hrs⟩ := h1
    rw [e1] at hlf hrs
    simp only [List.mem_append, List.mem_cons, not_or] at hlf
    have hv : rstrip v = v := by
      unfold rstrip at hrs ⊢
      rw [rdropWhile_self_iff] at hrs ⊢
      intro a x hx
      exact hrs (n ++ ':' :: a) x (by rw [hx]; simp)
    refine ⟨⟨?_, ?_, ?_, ?_, ?_⟩, ?_⟩
    · exact fun hm => hlf.1 (mem_rdropWhile hm)
    · exact fun hm => e2 (mem_rdropWhile hm)
    · exact rdropWhile_idem _ _
    · simp only [List.mem_append, not_or]
      refine ⟨fun hm => hlf.2.2 (mem_dropWhile hm), ?_⟩
      rw [List.mem_flatten]
      rintro ⟨t, ht, hm⟩
      exact (h2 t ht).2.1 hm
    · have hl : rstrip (lstrip v) = lstrip v := rdropWhile_dropWhile _ hv
      by_cases h0 : g.2.flatten = []
      · simp only [h0, List.append_nil]; exact hl
      · exact rdropWhile_append_self _ (rstrip_flatten h2) h0
    · intro hc
      rw [e1] at hc
      simp only
      cases hn : rstripBlank n with
      | nil => rfl
      | cons c t =>
        have hp := rdropWhile_prefix (fun c => c == ' ' || c == '\t') n
        have hn' : rdropWhile (fun c => c == ' ' || c == '\t') n = c :: t := hn
        rw [hn'] at hp
        obtain ⟨u, hu⟩ := hp
        rw [← hu, List.cons_append, List.cons_append, continues_cons] at hc
        rw [continues_cons]; exact hc
  · cases hh

theorem headersOf_line {ts : List Str} (h : ∀ t ∈ ts, TextLine t) :
    (∀ x ∈ headersOf ts, LineHeader x) ∧ (∀ x ∈ (headersOf ts).tail, continues x.1 = false) := by
  cases ts with
  | nil => simp [headersOf]
  | cons t ts =>
    obtain ⟨h1, h2⟩ := groupLines_text (fun x hx => h x (List.mem_cons_of_mem _ hx))
    unfold headersOf
    simp only
    have hrest : ∀ x ∈ (groupLines ts).2.filterMap headerOf, LineHeader x ∧ continues x.1 = false := by
      intro x hx
      rw [List.mem_filterMap] at hx
      obtain ⟨g, hg, hgx⟩ := hx
      obtain ⟨k1, k2, k3⟩ := h2 g hg
      obtain ⟨m1, m2⟩ := headerOf_line k1 k3 hgx
      exact ⟨m1, m2 k2⟩
    rw [List.filterMap_cons]
    cases ho : headerOf (t, (groupLines ts).1) with
    | none =>
      simp only
      exact ⟨fun x hx => (hrest x hx).1, fun x hx => (hrest x (List.mem_of_mem_tail hx)).2⟩
    | some hd =>
      simp only [List.mem_cons, List.tail_cons]
      refine ⟨?_, fun x hx => (hrest x hx).2⟩
      rintro x (rfl | hx)
      · exact (headerOf_line (h t List.mem_cons_self) h1 ho).1
      · exact (hrest x hx).1

theorem lineHeader_lstrip {h : Header} (hh : LineHeader h) : LineHeader (h.1, lstrip h.2) :=
  ⟨hh.name_lf, hh.name_colon, hh.name_end, fun hm => hh.value_lf (mem_dropWhile hm), rdropWhile_dropWhile _ hh.value_end⟩

namespace HeaderParser

variable [PyUni]

/-- What parsing returns: an empty block, or a first line that parses back and headers that
fit on lines. -/
def Printable (c : HeaderParser) (h : StatusAndHeaders) : Prop :=
  strip h.statusline = h.statusline ∧ '\n' ∉ h.statusline ∧ (∀ x ∈ h.headers, LineHeader x) ∧
  (∀ x ∈ h.headers.tail, continues x.1 = false) ∧
  ((c.verify = true ∧ h.protocol ∈ c.statuslist) ∨
   (c.verify = false ∧ ' ' ∉ h.protocol ∧ '\n' ∉ h.protocol ∧ (h.statusline = [] → h.protocol ≠ [] ∧ rstrip h.protocol = h.protocol)))

theorem parseAll_printable (c : HeaderParser) (b : Bytes) {h : StatusAndHeaders} {rest : List Bytes}
    (hp : c.parseAll (splitLines b) = (.ok h, rest)) :
    (h.statusline = [] ∧ h.headers = [] ∧ h.protocol = []) ∨ c.Printable h := by
  have hlf : ∀ l ∈ splitLines b, '\n' ∉ lineText l := fun l hl => lineText_lf hl
  cases hb : splitLines b with
  | nil => rw [hb] at hp; cases hp
  | cons l ls =>
    rw [hb] at hp hlf
    unfold parseAll parseLines at hp
    simp only at hp
    split at hp
    · cases hp
    · split at hp
      · cases hp; exact Or.inl ⟨rfl, rfl, rfl⟩
      · rename_i h0 h1
        have hl := hlf l List.mem_cons_self
        have hl1 : rstrip (lineText l) = lineText l := rdropWhile_idem _ _
        change ¬ lineText l = [] at h1
        change (match c.protocolStatus (decodeHeader l) (lineText l) with | .error e => _ | .ok ps => _) = _ at hp
        cases hps : c.protocolStatus (decodeHeader l) (lineText l) with
        | error e => rw [hps] at hp; cases hp
        | ok ps =>
          rw [hps] at hp
          simp only [Prod.mk.injEq, Except.ok.injEq] at hp
          obtain ⟨rfl, rfl⟩ := hp
          right
          have htx := headersOf_line (readBlock_text (ls := ls) (fun x hx => hlf x (List.mem_cons_of_mem _ hx)))
          unfold protocolStatus at hps
          cases hv : c.verify with
          | true =>
            rw [if_pos hv] at hps
            cases hsp : splitPrefix (lineText l) c.statuslist with
            | none => rw [hsp] at hps; cases hps
            | some qr =>
              obtain ⟨q, r⟩ := qr
              rw [hsp] at hps
              simp only [Except.ok.injEq] at hps
              subst hps
              obtain ⟨k1, k2, k3⟩ := splitPrefix_mem hsp
              refine ⟨strip_strip _, ?_, htx.1, htx.2, Or.inl ⟨hv, k1⟩⟩
              intro hm
              apply hl
              have : '\n' ∈ r := mem_dropWhile (mem_rdropWhile hm)
              rw [k3] at this
              exact List.mem_of_mem_drop this
          | false =>
            rw [if_neg (by simp [hv])] at hps
            simp only [Except.ok.injEq] at hps
            subst hps
            cases hs : split1 ' ' (lineText l) with
            | mk a ob =>
              cases ob with
              | none =>
                obtain ⟨e1, e2⟩ := split1_none_inv hs
                subst e1
                exact ⟨rfl, by simp [strip, lstrip, rstrip, rdropWhile], htx.1, htx.2, Or.inr ⟨hv, e2, hl, fun _ => ⟨h1, hl1⟩⟩⟩
              | some r =>
                obtain ⟨e1, e2⟩ := split1_some hs
                rw [e1] at hl hl1
                simp only [List.mem_append, List.mem_cons, not_or] at hl
                refine ⟨strip_strip _, fun hm => hl.2.2 (mem_dropWhile (mem_rdropWhile hm)), htx.1, htx.2, Or.inr ⟨hv, e2, hl.1, ?_⟩⟩
                intro hst
                exfalso
                simp only [Option.getD_some] at hst
                have hall : ∀ x ∈ r, isSpace x = true := by
                  have h3 : ∀ x ∈ lstrip r, isSpace x = true := (rdropWhile_eq_nil isSpace).1 hst
                  intro x hx
                  rw [← List.takeWhile_append_dropWhile (p := isSpace) (l := r), List.mem_append] at hx
                  rcases hx with hx | hx
                  · exact mem_takeWhile isSpace hx
                  · exact h3 x hx
                have e3 : rstrip (a ++ ' ' :: r) = rstrip a := by
                  refine rdropWhile_append_all _ ?_
                  intro x hx
                  rcases List.mem_cons.1 hx with rfl | hx
                  · rfl
                  · exact hall x hx
                rw [e3] at hl1
                have := (rdropWhile_prefix isSpace a).length_le
                have h4 : (rdropWhile isSpace a).length = (a ++ ' ' :: r).length := congrArg List.length hl1
                simp at h4
                omega

/-- The values without whitespace in front. -/
def trimValues (h : StatusAndHeaders) : List Header := h.headers.map (fun x => (x.1, lstrip x.2))

/-- Parsing what was parsed and written: nothing changes but whitespace in front of values. -/
theorem reparse (c : HeaderParser) (hg : c.verify = true → GoodList c.statuslist) {h : StatusAndHeaders} (hp : c.Printable h)
    (hne : h.protocol ≠ [] ∨ c.verify = true) (rest : Bytes) :
    c.parseAll (splitLines (h.toBytes ++ rest)) =
      (.ok ⟨h.statusline, trimValues h, h.protocol, len h.toStr + 2, none⟩, splitLines rest) := by
  obtain ⟨h1, h2, h3, h4, h5⟩ := hp
  rcases h5 with ⟨hv, h6⟩ | ⟨hv, h6, h7, h8⟩
  · exact parseAll_verify c hv (hg hv) h rest h6 h1 h2 h3 h4
  · have hne : h.protocol ≠ [] := by
      rcases hne with h' | h'
      · exact h'
      · rw [hv] at h'; cases h'
    exact parseAll_noverify c hv h rest hne h6 h7 (fun e => (h8 e).2) h1 h2 h3 h4

/-- An empty block parses back to itself. -/
theorem reparse_empty (c : HeaderParser) {h : StatusAndHeaders} (h1 : h.statusline = []) (h2 : h.headers = []) (h3 : h.protocol = [])
    (rest : Bytes) : c.parseAll (splitLines (h.toBytes ++ rest)) = (.ok ⟨[], [], [], 2, none⟩, splitLines rest) := by
  have e : h.toBytes = encLine [] := by
    simp [StatusAndHeaders.toBytes, StatusAndHeaders.toStr, StatusAndHeaders.firstLine, StatusAndHeaders.headerLines, h1, h2, h3, encLine, utf8Encode]
  rw [e, splitLines_encLine (by simp)]
  simp only [parseAll]
  unfold parseLines
  rw [decode_encLine, if_neg (by simp), if_pos (by decide)]
  rfl

end HeaderParser
end Warcio

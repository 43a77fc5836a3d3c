import Verif.Proofs.IterGz
import Verif.Props.RecordLoader

/-! # Opening an archive; WARC records as items of an archive -/

set_option linter.unusedSectionVars false

namespace Warcio

open Loader ArchiveIter BufReader

/-- What is left of the source. -/
def Source.View : Source → Bytes → Prop
  | .file f, rem => f.rest = rem
  | .wrapped u, rem => u.fh.rest = rem

theorem Source.shortRead : ShortRead Source.View where
  read := by
    intro s rem h n hn
    cases s with
    | file f =>
      obtain ⟨p, rem', f', h1, h2, h3, h4, h5, h6⟩ := FileObj.shortRead.read (s := f) h n hn
      exact ⟨p, rem', .file f', h1, h2, h3, by simp only [PyStream.read] at h4 ⊢; rw [h4], h5, h6⟩
    | wrapped u =>
      obtain ⟨p, rem', u', h1, h2, h3, h4, h5, h6⟩ := (UnseekableYetTellable.shortRead FileObj.shortRead).read (s := u) h n hn
      exact ⟨p, rem', .wrapped u', h1, h2, h3, by simp only [PyStream.read] at h4 ⊢; rw [h4], h5, h6⟩
  bound := by
    intro s rem h
    cases s with
    | file f => exact FileObj.shortRead.bound (s := f) h
    | wrapped u => exact FileObj.shortRead.bound (s := u.fh) h

/-- The same, with full reads. -/
def Source.FullView : Source → Bytes → Prop
  | .file f, rem => FileObj.FullView f rem
  | .wrapped u, rem => FileObj.FullView u.fh rem

theorem Source.full_read {s : Source} {rem : Bytes} (h : s.FullView rem) (n : Nat) (hn : 0 < n) :
    ∃ s', PyStream.read s (some (n : Int)) = (.ok (rem.take n), s') ∧ s'.FullView (rem.drop n) ∧
      PyStream.tell s' = PyStream.tell s + len (rem.take n) := by
  cases s with
  | file f =>
    obtain ⟨f', h1, h2, h3⟩ := FileObj.fullView_read (f := f) h n hn
    exact ⟨.file f', by simp only [PyStream.read] at h1 ⊢; rw [h1], h2, h3⟩
  | wrapped u =>
    obtain ⟨f', h1, h2, h3⟩ := FileObj.fullView_read (f := u.fh) h n hn
    exact ⟨.wrapped ⟨f', u.offset + len (rem.take n)⟩, by simp only [PyStream.read] at h1 ⊢; rw [h1], h2, rfl⟩

theorem Source.fullRead : FullRead Source.FullView := by
  intro s rem h n hn
  obtain ⟨s', h1, h2, _⟩ := Source.full_read h n hn
  exact ⟨s', h1, h2⟩

theorem Source.fullShort : ShortRead Source.FullView where
  read := by
    intro s rem h n hn
    obtain ⟨s', h1, h2, h3⟩ := Source.full_read h n hn
    refine ⟨rem.take n, rem.drop n, s', (List.take_append_drop n rem).symm, by simp; omega, ?_, h1, h2, h3⟩
    intro h
    cases rem with
    | nil => rfl
    | cons x xs => cases n with
      | zero => omega
      | succ n => simp at h
  bound := by
    intro s rem h
    cases s with
    | file f => exact FileObj.shortRead.bound (s := f) h.1
    | wrapped u => exact FileObj.shortRead.bound (s := u.fh) h.1

theorem Source.of_full {f : FileObj} (h : f.caps = []) : Source.FullView (Source.of f) f.rest := by
  unfold Source.of
  split
  · exact ⟨rfl, h⟩
  · exact ⟨rfl, h⟩

/-- Where the iteration starts. -/
def FileObj.origin (f : FileObj) : Int := if f.seekable then f.pos else 0

theorem Source.of_view (f : FileObj) : Source.View (Source.of f) f.rest ∧ PyStream.tell (Source.of f) = f.origin := by
  unfold Source.of FileObj.origin
  split
  · exact ⟨rfl, rfl⟩
  · exact ⟨rfl, rfl⟩

theorem Source.of_first {f : FileObj} {bs : Nat} (hb : 2 ≤ bs) (hc : ∀ c, f.caps.head? = some c → 2 ≤ c)
    (hl : f.rest ≠ [] → 2 ≤ f.rest.length) (hm : ¬ [0x1f, 0x8b] <+: f.rest) :
    ∀ p s', PyStream.read (Source.of f) (some (bs : Int)) = (.ok p, s') → p ≠ [] → 2 ≤ p.length ∧ ¬ [0x1f, 0x8b] <+: p := by
  intro p s' h hp
  have key := FileObj.first_read hb hc hl hm
  unfold Source.of at h
  split at h
  · cases hr : PyStream.read f (some (bs : Int)) with
    | mk a f' =>
      simp only [PyStream.read] at h hr
      rw [hr] at h
      simp only [Prod.mk.injEq] at h
      exact key p f' (by simp only [PyStream.read]; rw [hr, h.1]) hp
  · cases hr : PyStream.read f (some (bs : Int)) with
    | mk a f' =>
      simp only [PyStream.read] at h hr
      rw [hr] at h
      cases a with
      | error e => simp at h
      | ok b =>
        simp only [Prod.mk.injEq] at h
        exact key p f' (by simp only [PyStream.read]; rw [hr, h.1]) hp

section
variable [Zlib] [Hashlib] [PyUni] {IsMember : Bytes → Bytes → Prop} {io : IterOpts} {m : Nat} {K : Option Format → Prop}

/-- Opening an uncompressed archive. -/
theorem open_plain (L : LawfulGzip IsMember) {V : Source → Bytes → Prop} {f : FileObj} (v1 : V (Source.of f) f.rest) {bs : Nat} (hb : 2 ≤ bs) (hc : ∀ c, f.caps.head? = some c → 2 ≤ c)
    {kf : Option Format} (hk : K kf) {tl : Bytes} {is : List Item} {es : List Expected} (hl : Layout io m K f.origin [] is es) (hf : f.rest = bytesOf tl is)
    (h2 : bytesOf tl is ≠ [] → 2 ≤ (bytesOf tl is).length) (hm : ¬ [0x1f, 0x8b] <+: bytesOf tl is) :
    ∃ it, openArchive f io bs kf = .ok it ∧ it.gen = .start ∧
      PlainTop V (f.origin + len (bytesOf tl is)) (bytesOf tl is).length bs io m K tl it es := by
  obtain ⟨_, v2⟩ := Source.of_view f
  rw [hf] at v1
  have h2' : f.rest ≠ [] → 2 ≤ f.rest.length := by
    rw [hf]; exact h2
  refine ⟨{ opts := io, raw := .bare ⟨Source.of f, bs, some .gzip, some { kind := .gzip, hist := [] }, none, none, 0, 0, false, none⟩, offset := PyStream.tell (Source.of f), knownFormat := kf }, ?_, rfl, ?_⟩
  · simp [openArchive, ArchiveIter.new, BufReader.new, L.codec_eq]
  · refine ⟨⟨rfl, hk, rfl, rfl, rfl, rfl, fun _ _ h => by cases h⟩, .inl rfl, is, ?_, .inl ⟨rfl, .inl ⟨?_, rfl⟩⟩, ?_, Nat.le_refl _⟩
    · show Layout io m K (PyStream.tell (Source.of f)) [] is es
      rw [v2]; exact hl
    · exact ⟨rfl, rfl, rfl, by show 0 < bs; omega, rfl, rfl, rfl, rfl, rfl, ⟨v1, by show PyStream.tell (Source.of f) + _ = _; rw [v2]⟩,
        Source.of_first hb hc h2' (by rw [hf]; exact hm)⟩
    · show PyStream.tell (Source.of f) = _
      rw [v2]; omega

/-- Opening an archive that starts with a gzip member. -/
theorem open_gz (L : LawfulGzip IsMember) {V : Source → Bytes → Prop} {f : FileObj} (v1 : V (Source.of f) f.rest) {bs : Nat} (hb : 0 < bs) {kf : Option Format} (hk : K kf) {tl : Bytes} {multi : Bool} {Q : Bytes → Prop}
    {z more : Bytes} {i : Item} {ms : List (Bytes × Item)} {e : Expected} {es : List Expected}
    (hz : IsMember z (i.bytes ++ more)) (hQ : Q z) (hi : BlankLines i.sep ∧ e.before = [] ∧ e.behind = [] ∧ ItemOk io m K i e.shows e.judged) (ho : e.off = f.origin) (he : multi = false → e.size = len z) (hm' : e.line = m)
    (hmore : MoreOk io K multi tl more ms) (hl : GzLayout IsMember Q io m K (f.origin + len z) ms es) (hf : f.rest = z ++ zipped tl ms) :
    ∃ it, openArchive f io bs kf = .ok it ∧ it.gen = .start ∧
      GzTop L V (f.origin + len f.rest) bs Q multi io m K tl it (e :: es) := by
  obtain ⟨_, v2⟩ := Source.of_view f
  have hlen : f.origin + len f.rest - len (zipped tl ms) = f.origin + len z := by
    rw [hf]; simp only [len, List.length_append]; omega
  obtain ⟨r, k1, k2⟩ := gz_new (V := Tells V (f.origin + len f.rest)) (P := Sizes bs Q) L (Source.of f) (rest := zipped tl ms) (L.holds hz _)
    ⟨by rw [← hf]; exact v1, by rw [v2, ← hf]⟩ hb ⟨rfl, hQ⟩
  refine ⟨{ opts := io, raw := .bare r, offset := PyStream.tell (Source.of f), knownFormat := kf }, ?_, rfl, ?_⟩
  · simp only [openArchive, ArchiveIter.new, k1]
  · refine ⟨.inl rfl, .inl ⟨⟨rfl, hk, rfl, rfl, rfl, rfl, fun _ _ h => by cases h⟩, rfl, i, more, ms, e, es, rfl, hi, ?_, hm', ?_, hmore, ?_, ?_⟩⟩
    · rw [ho]; exact v2.symm
    · intro hm; rw [hlen, ho, he hm]
    · rw [hlen]; exact hl
    · have : i.head ++ (i.block ++ (i.sep ++ more)) = i.bytes ++ more := by simp [Item.bytes]
      rw [this]
      exact k2

/-- Opening a compressed archive with nothing but what there is of one member. -/
theorem open_gz_part (L : LawfulGzip IsMember) {V : Source → Bytes → Prop} {f : FileObj} (v1 : V (Source.of f) f.rest) {bs : Nat} (hb : 0 < bs) {kf : Option Format} (hk : K kf) {Q : Bytes → Prop}
    (hne : f.rest ≠ []) :
    ∃ it, openArchive f io bs kf = .ok it ∧ it.gen = .start ∧ GzTop L V (f.origin + len f.rest) bs Q false io m K f.rest it [] := by
  obtain ⟨_, v2⟩ := Source.of_view f
  obtain ⟨r, hr⟩ : ∃ r, BufReader.new (Source.of f) bs (some .gzip) = .ok r := ⟨_, by simp only [BufReader.new, L.codec_eq]; rfl⟩
  refine ⟨{ opts := io, raw := .bare r, offset := PyStream.tell (Source.of f), knownFormat := kf }, ?_, rfl, .inl rfl, .inr (.inl ⟨rfl, hne, ⟨rfl, hk, rfl, rfl, rfl, rfl, fun _ _ h => by cases h⟩, rfl, ?_, ?_⟩)⟩
  · simp only [openArchive, ArchiveIter.new, hr]
  · show PyStream.tell (Source.of f) = _
    rw [v2]; omega
  · intro d hd hq
    obtain ⟨r', k1, k2⟩ := gz_new (V := Tells V (f.origin + len f.rest)) (P := Sizes bs Q) L (Source.of f) (z := f.rest) (d := d) (rest := []) hd
      ⟨by rw [List.append_nil]; exact v1, by rw [v2, List.append_nil]⟩ hb ⟨rfl, hq⟩
    rw [hr] at k1
    cases k1
    exact k2

end

/-! ## WARC records -/

theorem decode_first (b : UInt8) (t : Bytes) (hb : b.toNat < 128) : ∃ s, decodeHeader (b :: t) = Char.ofNat b.toNat :: s := by
  unfold decodeHeader
  cases h : utf8Decode (b :: t) with
  | none => exact ⟨_, rfl⟩
  | some s =>
    have h1 := utf8Encode_decode h
    cases s with
    | nil => simp [utf8Encode] at h1
    | cons c s =>
      rw [utf8Encode_cons] at h1
      have hc : c.toNat = b.toNat := by
        unfold utf8Char at h1
        have hv := char_valid c
        simp only at h1
        split at h1
        · simp only [List.singleton_append, List.cons.injEq] at h1
          rw [← h1.1, ofNat_toNat]; omega
        · split at h1
          · simp only [List.cons_append, List.cons.injEq] at h1
            have := congrArg UInt8.toNat h1.1
            rw [ofNat_toNat _ (by omega)] at this; omega
          · split at h1
            · simp only [List.cons_append, List.cons.injEq] at h1
              have := congrArg UInt8.toNat h1.1
              rw [ofNat_toNat _ (by omega)] at this; omega
            · simp only [List.cons_append, List.cons.injEq] at h1
              have := congrArg UInt8.toNat h1.1
              rw [ofNat_toNat _ (by omega)] at this; omega
      exact ⟨s, by rw [← hc, charOfNat c rfl]⟩

/-- An archive that starts with a version line is not taken for gzip. -/
theorem startsWarc_magic [PyUni] {data : Bytes} (h : StartsWarc data) : ¬ [0x1f, 0x8b] <+: data := by
  rintro ⟨t, rfl⟩
  obtain ⟨v, hv, hp⟩ := h
  have h0 : takeLine ([0x1f, 0x8b] ++ t) = 0x1f :: (takeLine (0x8b :: t)) := by
    simp [takeLine]
  obtain ⟨s, hs⟩ := decode_first 0x1f (takeLine (0x8b :: t)) (by decide)
  unfold lineText at hp
  rw [h0, hs] at hp
  have hu : PyUni.upper (rstrip (Char.ofNat (0x1f : UInt8).toNat :: s)) = [] ∨
      ∃ r, PyUni.upper (rstrip (Char.ofNat (0x1f : UInt8).toNat :: s)) = Char.ofNat 0x1f :: r := by
    cases hr : rstrip (Char.ofNat (0x1f : UInt8).toNat :: s) with
    | nil => exact .inl upper_nil
    | cons c r =>
      right
      obtain ⟨w, hw⟩ : rstrip (Char.ofNat (0x1f : UInt8).toNat :: s) <+: Char.ofNat (0x1f : UInt8).toNat :: s := rdropWhile_prefix _ _
      rw [hr] at hw
      simp only [List.cons_append, List.cons.injEq] at hw
      refine ⟨PyUni.upper r, ?_⟩
      have : c :: r = [c] ++ r := rfl
      rw [this, PyUni.upper_append, hw.1, PyUni.upper_ascii _ (by decide)]
      rfl
  simp only [List.mem_cons, List.not_mem_nil, or_false] at hv
  have hv' : ∃ x, v = 'W' :: x := by rcases hv with rfl | rfl | rfl | rfl <;> exact ⟨_, rfl⟩
  obtain ⟨x, rfl⟩ := hv'
  rcases hu with hu | ⟨r, hu⟩
  · rw [hu] at hp; simp at hp
  · rw [hu] at hp
    have := (List.cons_prefix_cons.1 hp).1
    revert this; decide

theorem isSpace_of_byte {b : UInt8} (h : isByteSpace b = true) : b.toNat < 128 ∧ isSpace (Char.ofNat b.toNat) = true := by
  unfold isByteSpace at h
  simp only [Bool.or_eq_true, Bool.and_eq_true, decide_eq_true_eq, beq_iff_eq] at h
  have h1 : b.toNat < 128 := by omega
  refine ⟨h1, ?_⟩
  unfold isSpace
  rw [toNat_charOfNat (by omega)]
  simp only [Bool.or_eq_true, Bool.and_eq_true, decide_eq_true_eq, beq_iff_eq]
  omega

theorem decode_ascii (l : Bytes) (h : ∀ b ∈ l, b.toNat < 128) : decodeHeader l = l.map (fun b => Char.ofNat b.toNat) := by
  have : l = utf8Encode (l.map (fun b => Char.ofNat b.toNat)) := by
    induction l with
    | nil => rfl
    | cons b l ih =>
      have hb := h b (by simp)
      rw [List.map_cons, utf8Encode_cons, ← ih (fun b hb => h b (by simp [hb]))]
      unfold utf8Char
      simp only
      rw [toNat_charOfNat (by omega), if_pos hb]
      simp
  calc decodeHeader l = decodeHeader (utf8Encode (l.map (fun b => Char.ofNat b.toNat))) := by rw [← this]
    _ = _ := decodeHeader_encode _

/-- A line of white space has no text. -/
theorem white_text {l : Bytes} (h : rstripBytes l = []) : lineText l = [] := by
  have hw : ∀ b ∈ l, isByteSpace b = true := (rdropWhile_eq_nil _).1 h
  unfold lineText
  rw [decode_ascii l (fun b hb => (isSpace_of_byte (hw b hb)).1)]
  apply (rdropWhile_eq_nil _).2
  intro c hc
  obtain ⟨b, hb, rfl⟩ := List.mem_map.1 hc
  exact (isSpace_of_byte (hw b hb)).2

namespace WarcRecord
variable [Hashlib] [PyUni]

/-- Its bytes, as the iteration sees them. -/
def item (w : WarcRecord) : Item := ⟨w.head, w.block, w.sep⟩

omit [Hashlib] in
/-- The headers as they are shown. -/
theorem cleaned_of (hd : StatusAndHeaders) : Cleaned hd.headers (ensureTargetUri hd).2.headers := by
  by_cases ht : ∀ u, firstValue (lit "WARC-Target-URI") hd.headers = some u → TidyUri u
  · rw [ensureTargetUri_id (fun u hu => ht u (by rw [firstValue_eq]; exact hu))]
    exact .same _ ht
  · obtain ⟨u, hu, hn⟩ : ∃ u, firstValue (lit "WARC-Target-URI") hd.headers = some u ∧ ¬ TidyUri u := by
      apply Classical.byContradiction
      intro hc
      exact ht fun u hu => Classical.byContradiction fun h => hc ⟨u, hu, h⟩
    have hu' : hd.getHeader (lit "WARC-Target-URI") = some u := by rw [firstValue_eq] at hu; exact hu
    obtain ⟨v, q1, q2⟩ := ensureTargetUri_uri hu'
    rcases StatusAndHeaders.last_match (lit "WARC-Target-URI") hd.headers with h0 | ⟨pre, ⟨n, u0⟩, post, e, h1, h2⟩
    · rw [firstValue_eq, StatusAndHeaders.findHeader_none.2 h0] at hu
      cases hu
    · have key : (ensureTargetUri hd).2.headers = pre ++ (n, v) :: post := by
        have one : ∀ x, (StatusAndHeaders.replaceIn hd.headers (lit "WARC-Target-URI") x).2 = pre ++ (n, x) :: post := fun x => by
          rw [e, StatusAndHeaders.replaceIn_some h1 h2]
        have two : ∀ x y, (StatusAndHeaders.replaceIn (pre ++ (n, y) :: post) (lit "WARC-Target-URI") x).2 = pre ++ (n, x) :: post := fun x y => by
          rw [StatusAndHeaders.replaceIn_some (h := (n, y)) h1 h2]
        unfold ensureTargetUri at q2 ⊢
        rw [hu'] at q2 ⊢
        dsimp only at q2 ⊢
        by_cases g1 : (startsWith ['<'] u && endsWith ['>'] u) = true
        · rw [if_pos g1] at q2 ⊢
          dsimp only at q2 ⊢
          by_cases g2 : ((u.drop 1).dropLast).contains ' ' = true
          · rw [if_pos g2] at q2 ⊢
            dsimp only at q2 ⊢
            rw [replaceHeader_headers, replaceHeader_headers, one, two, Option.some.inj q2]
          · rw [if_neg g2] at q2 ⊢
            dsimp only at q2 ⊢
            rw [replaceHeader_headers, one, Option.some.inj q2]
        · rw [if_neg g1] at q2 ⊢
          dsimp only at q2 ⊢
          by_cases g2 : u.contains ' ' = true
          · rw [if_pos g2] at q2 ⊢
            dsimp only at q2 ⊢
            rw [replaceHeader_headers, one, Option.some.inj q2]
          · exfalso
            refine hn ⟨by simpa using g2, fun m hm => g1 ((bracketed_iff u).2 ⟨m, hm⟩)⟩
      rw [key, e]
      refine .changed pre n u0 u v post (by rw [← e]; exact hu) hn q1 (by simpa [StatusAndHeaders.nameEq] using h1) fun h hh => by simpa [StatusAndHeaders.nameEq] using h2 h hh

omit [Hashlib] in
theorem Cleaned.tidy {hs hs' : List (Str × Str)} (h : Cleaned hs hs') (ht : ∀ u, firstValue (lit "WARC-Target-URI") hs = some u → TidyUri u) : hs' = hs := by
  cases h with
  | same _ => rfl
  | changed pre n u0 u v post h1 h2 => exact absurd (ht u h1) h2

omit [Hashlib] in
theorem Cleaned.others {hs hs' : List (Str × Str)} (h : Cleaned hs hs') {n : Str} (hn : PyUni.lower n ≠ PyUni.lower (lit "WARC-Target-URI")) : firstValue n hs' = firstValue n hs := by
  cases h with
  | same _ => rfl
  | changed pre n' u0 u v post h1 h2 h3 h4 h5 =>
    have : ∀ x, StatusAndHeaders.nameEq n (n', x) = false := fun x => by
      simp only [StatusAndHeaders.nameEq, beq_eq_false_iff_ne]
      rw [h4]; exact fun h => hn h.symm
    rw [firstValue_eq, firstValue_eq, StatusAndHeaders.findHeader_append, StatusAndHeaders.findHeader_append, StatusAndHeaders.findHeader, StatusAndHeaders.findHeader, this, this]
    rfl

omit [Hashlib] in
/-- With one such header, the cleaned URI is its value. -/
theorem Cleaned.uri {hs hs' : List (Str × Str)} (h : Cleaned hs hs') (h1 : (hs.filter (StatusAndHeaders.nameEq (lit "WARC-Target-URI"))).length ≤ 1) {n : Str}
    (hn : PyUni.lower n = PyUni.lower (lit "WARC-Target-URI")) :
    (firstValue n hs = none ∧ firstValue n hs' = none) ∨ ∃ u v, firstValue n hs = some u ∧ CleanUri u v ∧ firstValue n hs' = some v := by
  have e : ∀ l, firstValue n l = firstValue (lit "WARC-Target-URI") l := fun l => by rw [firstValue_eq, firstValue_eq, StatusAndHeaders.findHeader_congr hn]
  rw [e, e]
  cases h with
  | same _ ht =>
    cases hv : firstValue (lit "WARC-Target-URI") hs with
    | none => exact .inl ⟨rfl, rfl⟩
    | some u =>
      obtain ⟨t1, t2⟩ := ht u hv
      have := CleanUri.plain u t2
      rw [noSpaces_of t1] at this
      exact .inr ⟨u, u, rfl, this, rfl⟩
  | changed pre n' u0 u v post g1 g2 g3 g4 g5 =>
    refine .inr ⟨u, v, g1, g3, ?_⟩
    have hm : ∀ x, StatusAndHeaders.nameEq (lit "WARC-Target-URI") (n', x) = true := fun x => by simp [StatusAndHeaders.nameEq, g4]
    have hpre : StatusAndHeaders.findHeader (lit "WARC-Target-URI") pre = none := by
      rw [StatusAndHeaders.findHeader_none]
      simp only [List.filter_append, List.filter_cons, hm, if_true, List.length_append, List.length_cons] at h1
      have h0 : (pre.filter (StatusAndHeaders.nameEq (lit "WARC-Target-URI"))).length = 0 := by omega
      intro x hx
      have := List.length_eq_zero_iff.1 h0
      rw [List.filter_eq_nil_iff] at this
      simpa using this x hx
    rw [firstValue_eq, StatusAndHeaders.findHeader_append, hpre, StatusAndHeaders.findHeader, hm]
    rfl

omit [Hashlib] in
theorem Shows.headers {w : WarcRecord} {io : IterOpts} {m : Nat} {rec : Record Unit} {left : Bytes} (h : w.Shows io m rec left) (ht : ∀ u, w.value (lit "WARC-Target-URI") = some u → TidyUri u) :
    rec.recHeaders.headers = w.headers := h.cleaned.tidy ht

omit [Hashlib] in
theorem Shows.others {w : WarcRecord} {io : IterOpts} {m : Nat} {rec : Record Unit} {left : Bytes} (h : w.Shows io m rec left) (n : Str) (hn : PyUni.lower n ≠ PyUni.lower (lit "WARC-Target-URI")) :
    rec.recHeaders.getHeader n = w.value n := by
  rw [StatusAndHeaders.getHeader, ← firstValue_eq]
  exact h.cleaned.others hn

omit [Hashlib] in
theorem ShowsPart.headers {w : WarcRecord} {part : Bytes} {io : IterOpts} {m : Nat} {rec : Record Unit} {left : Bytes} (h : w.ShowsPart part io m rec left) (ht : ∀ u, w.value (lit "WARC-Target-URI") = some u → TidyUri u) :
    rec.recHeaders.headers = w.headers := h.cleaned.tidy ht

omit [Hashlib] in
theorem ShowsPart.others {w : WarcRecord} {part : Bytes} {io : IterOpts} {m : Nat} {rec : Record Unit} {left : Bytes} (h : w.ShowsPart part io m rec left) (n : Str)
    (hn : PyUni.lower n ≠ PyUni.lower (lit "WARC-Target-URI")) : rec.recHeaders.getHeader n = w.value n := by
  rw [StatusAndHeaders.getHeader, ← firstValue_eq]
  exact h.cleaned.others hn

theorem item_bytes (w : WarcRecord) : w.item.bytes = w.bytes := by simp [item, Item.bytes, bytes]

/-- A header block has a newline: otherwise what follows it would be part of it. -/
theorem Whole.nl {w : WarcRecord} (h : w.Whole) : (10 : UInt8) ∈ w.head := by
  apply Classical.byContradiction
  intro hn
  have h1 := (h.head [10]).rest
  have e1 : dropLine (w.head ++ [10]) = [] := by
    have e : takeLine (w.head ++ [10]) = w.head ++ [10] := by
      rw [takeLine_append, if_neg hn]; rfl
    rw [← drop_takeLine_length, e]; simp
  rw [e1] at h1
  cases h1

theorem Whole.starts {w : WarcRecord} (h : w.Whole) (t : Bytes) : StartsWarc (w.head ++ t) := (h.head t).version

theorem Good.two {w : WarcRecord} (h : w.Good) : 2 ≤ w.bytes.length := by
  have h1 : 0 < w.head.length := List.length_pos_of_mem h.nl
  have h2 : 0 < w.sep.length := List.length_pos_iff.2 h.sep.1
  simp only [bytes, List.length_append]
  omega

/-- A record can be loaded, and shows what it should. -/
theorem Whole.item {w : WarcRecord} (h : w.Whole) {io : IterOpts} (hv : io.verifyHttp = false)
    (hq : Props.Quiet { checkDigests := io.checkDigests } w.headers) (m : Nat) : ItemOk io m (· ≠ some .arc) w.item (w.Shows io m) (w.Judged io) := by
  intro kf n t hk
  generalize io.ids n = id
  have hh := h.head (w.block ++ t)
  obtain ⟨hd, d1, d2, d3⟩ := detect_warc (o := io.load kf id) hk hh.version
  have hhd : hd.headers = w.headers := by rw [d2, ← hh.headers]
  obtain ⟨f1, f2, f3, f4, f5, f6, f7⟩ := fields_warc hd
  have hval : ∀ n, w.value n = hd.getHeader n := by
    intro n
    unfold value
    rw [← hhd]
    exact firstValue_eq _ _
  have hlen : blockLength (fields .warc hd).length (fields .warc hd).subLen = some (len w.block) := by
    obtain ⟨x, l1, l2⟩ := h.length
    rw [f4, f6, ← hval, l1]
    exact Props.declared_block l2
  have hhttp : HttpRecord (fields .warc hd).recType (fields .warc hd).uri ↔ w.Http := by
    rw [f2, f3]
    constructor
    · rintro ⟨g1, v, g2, g3⟩
      cases hu : hd.getHeader (lit "WARC-Target-URI") with
      | none => rw [ensureTargetUri_none hu] at g2; cases g2
      | some u =>
        obtain ⟨v', q1, q2⟩ := ensureTargetUri_uri hu
        rw [q2] at g2
        cases g2
        exact ⟨u, v, by rw [hval, hu], q1, by rw [hval]; exact g1, v, rfl, g3⟩
    · rintro ⟨u, v, g1, g2, g3⟩
      rw [hval] at g1
      obtain ⟨v', q1, q2⟩ := ensureTargetUri_uri g1
      rw [q2, clean_unique q1 g2, ← hval]
      exact g3
  refine ⟨.warc, hd, ⟨h.nl, ?_, ⟨_, d1, hh.rest.symm⟩, hlen, ?_, ?_, hv⟩, ?_, ?_, ?_⟩
  · intro h0
    have h1 := white_text h0
    have h2 := startsWarc_text (h.starts [])
    rw [List.append_nil] at h2
    exact h2 h1
  · right; right
    intro ht
    rw [f2, ← hval] at ht
    have := h.uri ht
    rw [hval] at this
    obtain ⟨u, hu⟩ := Option.ne_none_iff_exists'.1 this
    obtain ⟨v, _, q2⟩ := ensureTargetUri_uri hu
    rw [f3, q2]
    simp
  · rw [← hhd] at hq
    exact Props.checksFine (o := io.load kf id) hq
  · intro _ hc; rw [f1] at hc; cases hc
  · intro rec left hs
    refine ⟨by rw [hs.loaded.format, f1], ?_, by rw [hs.loaded.recType, f2, hval], by rw [hs.loaded.contentType, f5, hval], hs.loaded.length, ?_, ?_, ?_,
      hs.payload, ?_, hs.loaded.checker⟩
    · unfold VersionLine at d3
      rw [takeLine_append_of_nl h.nl] at d3
      rw [hs.loaded.recHeaders, f7, (ensureTargetUri_first hd).1, (ensureTargetUri_first hd).2]
      exact d3
    · rw [hs.loaded.recHeaders, f7, ← hhd]; exact cleaned_of hd
    · intro hc
      have hc' : io.noRecordParse = true ∨ ¬ HttpRecord (fields .warc hd).recType (fields .warc hd).uri ∨ w.item.block = [] := by rwa [hhttp]
      obtain ⟨pre, p1, p2⟩ := hs.part
      obtain ⟨p3, p4⟩ := hs.http hc'
      refine ⟨?_, p3, ?_⟩
      · rw [p2 hc', List.nil_append] at p1; exact p1.symm
      · intro he
        have he' : (io.load kf id).ensureHttpHeaders = false := he
        rw [p4, he']; rfl
    · obtain ⟨pre, p1, _⟩ := hs.part
      exact ⟨pre, p1⟩
    · intro q1 q2 q3 q4
      exact hs.head q1 (hhttp.2 q2) q3 q4
  · intro left c hj hl
    have hg : ∀ n, n ∈ [lit "WARC-Segment-Number", lit "WARC-Block-Digest", lit "WARC-Payload-Digest"] → (fields .warc hd).headers.getHeader n = w.value n := by
      intro n hn
      rw [f7, hval]
      refine ensureTargetUri_other hd ?_
      simp only [List.mem_cons, List.not_mem_nil, or_false] at hn
      rcases hn with rfl | rfl | rfl <;> exact lower_ne (by decide) (by decide) (by decide)
    rw [f2, hg _ (by simp), hg _ (by simp), hg _ (by simp), ← hval] at hj
    exact ⟨hj, hl⟩

theorem layout {io : IterOpts} (hv : io.verifyHttp = false) (m : Nat) : ∀ (ws : List WarcRecord) (off : Int), (∀ w ∈ ws, w.Good) →
    (∀ w ∈ ws, Props.Quiet { checkDigests := io.checkDigests } w.headers) →
    ArchiveIter.Layout io m (· ≠ some .arc) off [] (ws.map item) (placed io m off ws)
  | [], _, _, _ => trivial
  | w :: ws, off, hg, hq => ⟨(hg w (by simp)).item hv (hq w (by simp)) m, rfl, rfl, rfl, ⟨rfl, [], .blank _ (hg w (by simp)).sep, rfl⟩, by
      rw [item_bytes]
      exact layout hv m ws _ (fun w hw => hg w (by simp [hw])) (fun w hw => hq w (by simp [hw]))⟩

theorem bytesOf_items (tl : Bytes) (ws : List WarcRecord) : ArchiveIter.bytesOf tl (ws.map item) = ws.flatMap bytes ++ tl := by
  have : (ws.map item).flatMap Item.bytes = ws.flatMap bytes := by
    rw [List.flatMap_map]
    rw [funext item_bytes]
  rw [ArchiveIter.bytesOf, this]

theorem layoutGz {IsMember : Bytes → Bytes → Prop} {Q : Bytes → Prop} {io : IterOpts} (hv : io.verifyHttp = false) (m : Nat) :
    ∀ (ms : List (Bytes × WarcRecord)) (off : Int), (∀ x ∈ ms, IsMember x.1 x.2.bytes ∧ Q x.1) → (∀ x ∈ ms, x.2.Good) →
    (∀ x ∈ ms, Props.Quiet { checkDigests := io.checkDigests } x.2.headers) →
    ArchiveIter.GzLayout IsMember Q io m (· ≠ some .arc) off (ms.map (fun x => (x.1, x.2.item))) (placedGz io m off ms)
  | [], _, _, _, _ => trivial
  | (z, w) :: ms, off, hz, hg, hq => ⟨by rw [item_bytes]; exact (hz (z, w) (by simp)).1, (hz (z, w) (by simp)).2,
      ⟨(hg (z, w) (by simp)).sep, rfl, rfl, (hg (z, w) (by simp)).item hv (hq (z, w) (by simp)) m⟩, rfl, rfl, rfl,
      layoutGz hv m ms _ (fun x hx => hz x (by simp [hx])) (fun x hx => hg x (by simp [hx])) (fun x hx => hq x (by simp [hx]))⟩

theorem zipped_items (tl : Bytes) (ms : List (Bytes × WarcRecord)) :
    ArchiveIter.zipped tl (ms.map (fun x => (x.1, x.2.item))) = ms.flatMap (·.1) ++ tl := by
  rw [ArchiveIter.zipped, List.flatMap_map]

end WarcRecord

/-- A header block that can be written is the header block of a WARC record, wherever it stands. -/
theorem warcHead_toBytes [PyUni] {h : StatusAndHeaders} (hw : Props.WellFormed warcParser h) (rest : Bytes) :
    WarcHead (h.toBytes ++ rest) h.headers rest := by
  have hline : ∀ x ∈ h.headers, LineHeader x := fun x hx => (hw.headers x hx).toLineHeader
  have htail : ∀ x ∈ h.headers.tail, continues x.1 = false := fun x hx => (hw.headers x (List.mem_of_mem_tail hx)).name_start
  have hmap : h.headers.map (fun x => (x.1, lstrip x.2)) = h.headers := by
    rw [List.map_congr_left (g := id)]
    · simp
    · intro x hx; simp [(hw.headers x hx).value_start]
  rcases hw.protocol with ⟨h1, h2, h3⟩ | ⟨h1, _⟩
  · have key := HeaderParser.parseAll_verify warcParser h1 h2 h rest h3 hw.status_trim hw.status_lf hline htail
    rw [hmap] at key
    have hne : h.toBytes ++ rest ≠ [] := by
      intro hc; rw [hc] at key; cases key
    rw [splitLines_cons hne] at key
    simp only [HeaderParser.parseAll] at key
    unfold HeaderParser.parseLines at key
    by_cases g1 : decodeHeader (takeLine (h.toBytes ++ rest)) = []
    · rw [if_pos g1] at key; cases key
    · rw [if_neg g1] at key
      by_cases g2 : rstrip (decodeHeader (takeLine (h.toBytes ++ rest))) = []
      · rw [if_pos g2] at key
        simp only [Prod.mk.injEq, Except.ok.injEq, StatusAndHeaders.mk.injEq] at key
        exfalso
        exact h2.ne _ h3 key.1.2.2.1.symm
      · rw [if_neg g2] at key
        unfold HeaderParser.protocolStatus at key
        rw [if_pos h1] at key
        cases hsp : HeaderParser.splitPrefix (rstrip (decodeHeader (takeLine (h.toBytes ++ rest)))) warcParser.statuslist with
        | none => rw [hsp] at key; cases key
        | some x =>
          rw [hsp] at key
          simp only [Prod.mk.injEq, Except.ok.injEq, StatusAndHeaders.mk.injEq] at key
          refine ⟨?_, key.1.2.1.symm, ?_⟩
          · apply Classical.byContradiction
            intro hc
            have : HeaderParser.splitPrefix (rstrip (decodeHeader (takeLine (h.toBytes ++ rest)))) warcParser.statuslist = none :=
              HeaderParser.splitPrefix_none.2 (fun v hv hp => hc ⟨v, hv, hp⟩)
            rw [hsp] at this; cases this
          · rw [key.2, splitLines_flatten]
  · cases h1

end Warcio

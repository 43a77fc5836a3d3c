import Verif.Spec.CreateBack
import Verif.Props.Capture
import Verif.Props.WriteCheck

/-!
# Property C76: records that are created and written are read back, and pass the check

Specification: `Verif/Spec/CreateBack.lean`.
-/

set_option linter.unusedSectionVars false

namespace Warcio.Props

open Warcio Writer Builder ArchiveIter Checker StatusAndHeaders

/-! ## Well-formed headers -/

theorem noSpace_append {a b : Str} (ha : ∀ c ∈ a, isSpace c = false) (hb : ∀ c ∈ b, isSpace c = false) : ∀ c ∈ a ++ b, isSpace c = false := by
  intro c hc
  rcases List.mem_append.1 hc with h | h
  · exact ha c h
  · exact hb c h

theorem noSpace_cons {x : Char} {b : Str} (ha : isSpace x = false) (hb : ∀ c ∈ b, isSpace c = false) : ∀ c ∈ x :: b, isSpace c = false := by
  intro c hc
  rcases List.mem_cons.1 hc with rfl | h
  · exact ha
  · exact hb c h

theorem nat_noSpace [PyUni] (n : Nat) : ∀ c ∈ natToStr n, isSpace c = false := fun c h => isDig_space (natToStr_isDig n c h)

theorem pad_noSpace [PyUni] (w n : Nat) : ∀ c ∈ DateTime.pad w n, isSpace c = false := by
  unfold DateTime.pad
  refine noSpace_append (fun c h => ?_) (nat_noSpace n)
  rw [(List.mem_replicate.1 h).2]; decide

theorem field_noSpace [PyUni] {a : Str} (ha : ∀ c ∈ a, isSpace c = false) {x : Char} (hx : isSpace x = false) (n : Nat) : ∀ c ∈ a ++ x :: DateTime.pad 2 n, isSpace c = false :=
  noSpace_append ha (noSpace_cons hx (pad_noSpace 2 n))

theorem date_noSpace [PyUni] (d : DateTime) (b : Bool) : ∀ c ∈ datetimeToIsoDate d b, isSpace c = false := by
  have hz : ∀ c ∈ ['Z'], isSpace c = false := by decide
  have key : ∀ {y : Str}, (∀ c ∈ y, isSpace c = false) → ∀ c ∈ y ++ '-' :: DateTime.pad 2 d.month ++ '-' :: DateTime.pad 2 d.day ++ 'T' :: DateTime.pad 2 d.hour ++ ':' ::
      DateTime.pad 2 d.minute ++ ':' :: DateTime.pad 2 d.second, isSpace c = false := fun hy =>
    field_noSpace (field_noSpace (field_noSpace (field_noSpace (field_noSpace hy (by decide) _) (by decide) _) (by decide) _) (by decide) _) (by decide) _
  unfold datetimeToIsoDate
  split
  · refine noSpace_append ?_ hz
    unfold DateTime.isoformat
    refine noSpace_append (noSpace_append (key (pad_noSpace 4 _)) ?_) ?_
    · split
      · intro c hc; cases hc
      · exact noSpace_cons (by decide) (pad_noSpace 6 _)
    · split
      · decide
      · intro c hc; cases hc
  · unfold DateTime.strftimeIso
    exact noSpace_append (key (nat_noSpace _)) hz

section
variable [PyUni]

theorem good_ensured {hs : List Header} {n v : Str} (h : ∀ x ∈ hs, GoodHeader x) (hv : GoodHeader (n, v)) : ∀ x ∈ ensured n v hs, GoodHeader x := by
  intro x hx
  unfold ensured at hx
  split at hx
  · exact h x hx
  · rcases List.mem_append.1 hx with hx | hx
    · exact h x hx
    · rw [List.mem_singleton.1 hx]; exact hv

theorem goodName_date : GoodHeader (lit "WARC-Date", []) := ⟨⟨by decide, by decide, by decide, by decide, by decide⟩, by decide, by decide⟩
theorem goodName_ctype : GoodHeader (lit "Content-Type", []) := ⟨⟨by decide, by decide, by decide, by decide, by decide⟩, by decide, by decide⟩

theorem find_mem {n v : Str} : ∀ {hs : List Header}, findHeader n hs = some v → ∃ x ∈ hs, x.2 = v
  | hs, h => by
    rw [findHeader_filter] at h
    cases hf : hs.filter (nameEq n) with
    | nil => rw [hf] at h; cases h
    | cons x t =>
      rw [hf] at h
      refine ⟨x, (List.mem_filter.1 (show x ∈ hs.filter (nameEq n) by rw [hf]; exact List.mem_cons_self ..)).1, ?_⟩
      simpa using h

theorem first_named {n : Str} {a b : List Header} (h : named n a = named n b) : firstValue n a = firstValue n b := by
  rw [Loader.firstValue_eq, Loader.firstValue_eq, findHeader_filter, findHeader_filter n b, ← named_eq, ← named_eq, h]

end

section
variable [PyUni] [Hashlib] {f : Bytes → Bytes} {c : BuilderCfg} {i : NewItem} {r : OutRecord FileObj}

theorem _root_.Warcio.NewItem.Fits.init_good (h : i.Fits) : ∀ x ∈ initList c.version i.env i.args.uri i.args.recType i.args.dict, GoodHeader x := by
  unfold initList
  refine good_ensured ?_ (goodHeader_name goodName_date (noSpace_value (date_noSpace _ _)))
  have h1 := good_ensured (good_replace h.dict h.type) h.id
  split
  · exact h1
  · exact good_replace h1 h.uri

theorem newDigests_good (b1 b2 : Bool) (x y : Bytes) : ∀ h ∈ newDigests f b1 b2 x y, GoodHeader h := by
  intro h hx
  unfold newDigests at hx
  rcases List.mem_append.1 hx with hx | hx
  · split at hx
    · rw [List.mem_singleton.1 hx]; exact goodHeader_name goodName_payload (noSpace_value (sha1Of_noSpace _ _))
    · cases hx
  · split at hx
    · rw [List.mem_singleton.1 hx]; exact goodHeader_name goodName_block (noSpace_value (sha1Of_noSpace _ _))
    · cases hx

theorem _root_.Warcio.NewItem.Fits.ctype_good (h : i.Fits) (hs : StatusAndHeaders) (hh : ∀ x ∈ hs.headers, GoodHeader x) : GoodHeader (lit "Content-Type", contentTypeOf i.args.contentType hs i.args.recType) := by
  unfold contentTypeOf
  split
  · exact h.contentType
  · dsimp only
    split
    · rename_i ht
      cases hf : hs.getHeader (lit "Content-Type") with
      | none => rw [hf] at ht; cases ht
      | some v =>
        obtain ⟨x, x1, x2⟩ := find_mem hf
        rw [← x2]
        exact goodHeader_name goodName_ctype (goodHeader_value (hh x x1))
    · have key : ∀ t ∈ lit "application/warc-record" :: warcRecords.map (·.2), GoodHeader (lit "Content-Type", t) := by
        intro t ht
        simp only [warcRecords, List.map_cons, List.map_nil, List.mem_cons, List.not_mem_nil, or_false] at ht
        rcases ht with rfl | rfl | rfl | rfl | rfl | rfl <;> exact ⟨⟨by decide, by decide, by decide, by decide, by decide⟩, by decide, by decide⟩
      cases hf : warcRecords.find? (fun x => x.1 == i.args.recType) with
      | none => exact key _ (List.mem_cons_self ..)
      | some x => exact key _ (List.mem_cons_of_mem _ (List.mem_map.2 ⟨x, List.mem_of_find?_eq_some hf, rfl⟩))

/-- Names that creating a record does not set. -/
theorem created_named {b d : Bytes} (k : CreatedReady c f i.env i.args b d r) {n : Str} (hn : n ∈ [lit "Content-Type", lit "WARC-Segment-Number"]) :
    named n r.recHeaders.headers = named n i.args.dict := by
  have key : ∀ m ∈ [lit "WARC-Type", lit "WARC-Record-ID", lit "WARC-Target-URI", lit "WARC-Date", lit "WARC-Payload-Digest"], PyUni.lower m ≠ PyUni.lower n := by
    intro m hm
    simp only [List.mem_cons, List.not_mem_nil, or_false] at hm hn
    rcases hn with rfl | rfl <;> rcases hm with rfl | rfl | rfl | rfl | rfl <;> exact differ (by decide) (by decide) (by decide)
  rw [k.headers, named_append, initList_named ⟨key _ (by simp), key _ (by simp), key _ (by simp), key _ (by simp)⟩]
  unfold newDigests
  split
  · simp only [Bool.false_eq_true, if_false, List.append_nil]
    rw [named_other (key _ (by simp)), List.append_nil]
  · simp [named]

theorem _root_.Warcio.NewItem.Fits.facts (h : i.Fits) {b d : Bytes} (k : CreatedReady c f i.env i.args b d r) : NewHeaders c.version i.env i.args.uri i.args.recType i.args.dict r.recHeaders.headers :=
  (C48_headers_partial h.date.1 h.date.2 h.alone h.fits.type h.fits.uri h.fits.id h.fits.date k.created).2.2.2

theorem _root_.Warcio.NewItem.Fits.first_uri (h : i.Fits) {b d : Bytes} (k : CreatedReady c f i.env i.args b d r) :
    firstValue (lit "WARC-Target-URI") r.recHeaders.headers = if i.args.uri = [] then none else some i.args.uri := by
  have hu := (h.facts k).uri
  split
  · rename_i h0
    rw [if_pos h0, (h.noUri h0).2] at hu
    rw [Loader.firstValue_eq, findHeader_filter, ← named_eq]
    have : named (lit "WARC-Target-URI") r.recHeaders.headers = [] := by simpa [values] using hu
    rw [this]; rfl
  · rename_i h0
    rw [if_neg h0] at hu
    exact (first_of hu).1

theorem _root_.Warcio.NewItem.Fits.first_id (h : i.Fits) {b d : Bytes} (k : CreatedReady c f i.env i.args b d r) :
    firstValue (lit "WARC-Record-ID") r.recHeaders.headers = some ((firstValue (lit "WARC-Record-ID") i.args.dict).getD i.env.newId) := by
  have hu := (h.facts k).id
  have e : ∀ hs : List Header, firstValue (lit "WARC-Record-ID") hs = (values (lit "WARC-Record-ID") hs).head? := by
    intro hs
    rw [Loader.firstValue_eq, findHeader_filter, ← named_eq]
    unfold values
    cases named (lit "WARC-Record-ID") hs <;> rfl
  rw [e, e, hu]
  split
  · rename_i h0; rw [h0]; rfl
  · rename_i h0
    cases hv : values (lit "WARC-Record-ID") i.args.dict with
    | nil => exact absurd hv h0
    | cons a t => rfl

theorem _root_.Warcio.NewItem.Fits.regular (h : i.Fits) (hv : c.version ∈ [lit "WARC/1.1", lit "WARC/1.0", lit "WARC/0.17", lit "WARC/0.18"]) {b d : Bytes} (k : CreatedReady c f i.env i.args b d r) :
    Regular r := by
  have n := h.facts k
  have u := h.first_uri k
  refine ⟨by rw [k.version.1]; exact hv, by rw [k.version.2]; exact ⟨rfl, by simp⟩, ?_, ?_, ?_, ?_, ?_, ?_, ?_⟩
  · rw [k.headers]
    intro x hx
    rcases List.mem_append.1 hx with hx | hx
    · exact h.init_good x hx
    · exact newDigests_good _ _ _ _ x hx
  · intro t ht
    obtain ⟨-, -, -, -, k4⟩ := createRecord_headers k.created
    rw [k4] at ht
    cases ht
    refine h.ctype_good _ ?_
    rw [h.alone]
    simp only [Loader.truthyHeaders, Bool.false_eq_true, if_false]
    rw [initHeaders_eq]
    exact h.init_good
  · show (named _ _).length ≤ 1
    rw [(created_digests h.new k).length]
    exact h.fits.length
  · show (named _ _).length ≤ 1
    rw [created_named k (by simp)]
    exact h.oneType
  · rw [k.recType, (first_of n.type).1]
  · rw [k.recType, u]
    intro ht
    rw [if_neg (fun h0 => (h.noUri h0).1 ht)]
    simp
  · rw [u]
    intro v hv
    split at hv
    · cases hv
    · cases hv; exact h.tidy

/-! ## Creating -/

theorem given_init (h : i.args.headers = none) : givenHeaders c i.env i.args = ⟨[], initList c.version i.env i.args.uri i.args.recType i.args.dict, c.version, 0, none⟩ := by
  unfold givenHeaders
  rw [h]
  exact initHeaders_eq _ _ _ _ _

theorem created_apart (H : Hashlib.hash (lit "sha1") = some f) (hf : c.filter = some) (hv : c.version ≠ []) {env : Env} {a : CreateArgs FileObj} (ha : a.headers = none) {h : StatusAndHeaders}
    (hh : a.http = some h) {p : RecStream FileObj} (hp : a.payload = some p) {d : Bytes} (hd : Holds p d) (hl : a.length = none ∨ a.length = some (len d)) (hr : RegularHttp h)
    (hasc : isAscii (headText h.protocol h.statusline h.headers) = true) (hn : a.recType ≠ lit "revisit") :
    ∃ r, CreatedReady c f env a (utf8Encode (headText h.protocol h.statusline h.headers) ++ d) d r ∧ r.httpHeaders = some h := by
  have ht : Loader.truthyHeaders (some h) = true := by
    unfold Loader.truthyHeaders
    have := hr.truthy
    simpa [StatusAndHeaders.truthy] using this
  obtain ⟨r, q1, q2⟩ := createRecord_created (c := c) (env := env) (d := d) (a := a) (http := some h) (payload := some p) (length := a.length) H (by
    rw [hp, hh]
    unfold httpOf
    dsimp only
    rw [if_pos ht]) (holds_of hd)
  have hgv : givenHeaders c env a = ⟨[], initList c.version env a.uri a.recType a.dict, c.version, 0, none⟩ := by
    unfold givenHeaders
    rw [ha]
    exact initHeaders_eq _ _ _ _ _
  have hq := q2.headers
  rw [hgv] at hq
  dsimp only at hq
  have hty : r.recType ≠ some (lit "revisit") := by
    rw [q2.recType]
    intro h
    exact hn (Option.some.inj h)
  have hpne : h.protocol ≠ [] := hr.protocol.1
  have htb := toBytes_headText hpne
  have hne : utf8Encode (headText h.protocol h.statusline h.headers) ≠ [] := by
    intro hc
    have := (httpHead_toBytes hr []).first
    rw [List.append_nil, htb, hc] at this
    exact this rfl
  have hpart : HttpPart c.filter r (utf8Encode (headText h.protocol h.statusline h.headers)) := by
    refine .some h _ q2.http hr.truthy ?_
    rw [hf]
    show (h.toAsciiBytes).1 = _
    have hasc' : isAscii h.toStr = true := by
      have e : headText h.protocol h.statusline h.headers = h.toStr ++ lit "\r\n" := by
        have e : utf8Encode (headText h.protocol h.statusline h.headers) = utf8Encode (h.toStr ++ lit "\r\n") := by
          rw [← htb, utf8Encode_append]
          rfl
        have e := congrArg utf8Decode e
        rw [utf8Decode_encode, utf8Decode_encode] at e
        exact Option.some.inj e
      rw [e] at hasc
      unfold isAscii at hasc ⊢
      rw [List.all_append, Bool.and_eq_true] at hasc
      exact hasc.1
    rw [C15_ascii_unchanged h hasc', htb]
  have hlen : LengthsFit r (utf8Encode (headText h.protocol h.statusline h.headers)) d := by
    have hrl := q2.length
    simp only [Option.isSome_some, if_true] at hrl
    rcases hl with hl | hl
    · rw [hl] at hrl
      exact .unknown hrl (fun h0 => absurd h0 hne)
    · refine .payload (len d) hne ?_ (by simp only [len]; omega) (fun _ => rfl)
      rcases q2.payloadLength with e | e
      · rw [e, ← hl]; rfl
      · exact e
  exact ⟨r, ⟨q1, ⟨_, ⟨holds_back q2.stream, hpart, hlen, by rw [hq]; exact hv⟩, rfl⟩, q2.recType, by rw [hq]; exact ⟨rfl, rfl⟩, by rw [hq]⟩, q2.http⟩

theorem created_none (H : Hashlib.hash (lit "sha1") = some f) (hv : c.version ≠ []) {env : Env} {a : CreateArgs FileObj} (ha : a.headers = none)
    (hh : a.http = none) (hp : a.payload = none) (hn : a.recType ≠ lit "revisit") :
    ∃ r, CreatedReady c f env a [] [] r ∧ r.httpHeaders = none := by
  obtain ⟨r, q1, q2⟩ := createRecord_created (c := c) (env := env) (d := []) (a := a) (http := none) (payload := none) (length := a.length) H (by
    rw [hp, hh]
    rfl) rfl
  have hgv : givenHeaders c env a = ⟨[], initList c.version env a.uri a.recType a.dict, c.version, 0, none⟩ := by
    unfold givenHeaders
    rw [ha]
    exact initHeaders_eq _ _ _ _ _
  have hq := q2.headers
  rw [hgv] at hq
  dsimp only at hq
  have hty : r.recType ≠ some (lit "revisit") := by
    rw [q2.recType]
    intro h
    exact hn (Option.some.inj h)
  have hlen : LengthsFit r [] [] := by
    refine .block (fun h => absurd rfl h) ?_
    rw [q2.length]
    simp [blockOf, len]
  exact ⟨r, ⟨q1, ⟨[], ⟨holds_back q2.stream, .none q2.http, hlen, by rw [hq]; exact hv⟩, rfl⟩, q2.recType, by rw [hq]; exact ⟨rfl, rfl⟩, by rw [hq]⟩, q2.http⟩

/-- Whatever the source, the record is created, with this block and this payload. -/
theorem _root_.Warcio.NewItem.Fits.created (h : i.Fits) (H : Hashlib.hash (lit "sha1") = some f) (hf : c.filter = some) (hv : c.version ≠ []) (env : Env) :
    ∃ r, CreatedReady c f env i.args i.block i.payload r := by
  cases h.source with
  | message p h' e1 e2 e3 e4 e5 e6 e7 =>
    obtain ⟨r, k, -⟩ := created_message (env := env) H hf hv ⟨h.alone, e2⟩ e3 e4 e7 e5 e6
    exact ⟨r, k⟩
  | apart p h' e1 e2 e3 e4 e5 e6 e7 e8 =>
    obtain ⟨r, k, -⟩ := created_apart (env := env) H hf hv h.alone e2 e3 e4 e8 e6 e7 h.new
    refine ⟨r, ?_⟩
    unfold NewItem.block NewItem.head
    rw [e1]
    exact k
  | data p e1 e2 e3 e4 e5 e6 =>
    obtain ⟨r, k, -⟩ := created_data (env := env) H hv ⟨h.alone, e2⟩ e3 e4 e6 h.new e5
    refine ⟨r, ?_⟩
    unfold NewItem.block NewItem.head
    rw [e1]
    exact k
  | nothing e1 e2 e3 e4 =>
    obtain ⟨r, k, -⟩ := created_none (env := env) H hv h.alone e2 e3 h.new
    refine ⟨r, ?_⟩
    unfold NewItem.block NewItem.head
    rw [e1, e4]
    exact k

/-! ## The digests and the payload -/

theorem _root_.Warcio.NewItem.Fits.http_iff (h : i.Fits) {b d : Bytes} (k : CreatedReady c f i.env i.args b d r) :
    HttpRecord r.recType (firstValue (lit "WARC-Target-URI") r.recHeaders.headers) ↔ HttpRecord (some i.args.recType) (some i.args.uri) := by
  rw [k.recType, h.first_uri k]
  split
  · rename_i h0
    rw [h0]
    constructor
    · rintro ⟨-, u, hu, -⟩; cases hu
    · rintro ⟨ht, -⟩; exact absurd ht (h.noUri h0).1
  · rfl

theorem blockOf_new (h : i.args.recType ≠ lit "revisit") (k : CreatedReady c f i.env i.args b d r) (hb d' : Bytes) : blockOf r hb d' = hb ++ d' := by
  unfold blockOf
  rw [k.recType, if_neg (fun e => h (Option.some.inj e))]

theorem _root_.Warcio.NewItem.Fits.right (h : i.Fits) (H : Hashlib.hash (lit "sha1") = some f) (k : CreatedReady c f i.env i.args i.block i.payload r)
    (hs1 : ∀ v, firstValue (lit "WARC-Block-Digest") i.args.dict = some v → Outcome i.block (some v) (some true))
    (hs2 : ∀ v, firstValue (lit "WARC-Payload-Digest") i.args.dict = some v → Outcome i.payload (some v) (some true)) :
    RightDigests r i.block i.payload := by
  have md := created_digests h.new k
  refine .given (fun v hv => hs1 v ?_) (fun v hv => ?_)
  · rw [← first_named md.block]; exact hv
  · cases hd : firstValue (lit "WARC-Payload-Digest") i.args.dict with
    | none =>
      have hn : named (lit "WARC-Payload-Digest") i.args.dict = [] := by
        rw [Loader.firstValue_eq] at hd
        exact filter_nil_iff.2 hd
      rw [Loader.firstValue_eq, findHeader_filter, ← named_eq, md.payload hn] at hv
      split at hv
      · cases hv
      · cases hv; exact sha1_right H _
    | some w =>
      have hw := hs2 w hd
      have hi : findHeader (lit "WARC-Payload-Digest") (initList c.version i.env i.args.uri i.args.recType i.args.dict) = some w := by
        rw [← Loader.firstValue_eq, ← hd]
        refine first_named (initList_named ?_)
        exact ⟨(own_differ (n := lit "WARC-Type") (by simp) _ (by simp [ownNames])).symm, (own_differ (n := lit "WARC-Record-ID") (by simp) _ (by simp [ownNames])).symm,
          (own_differ (n := lit "WARC-Target-URI") (by simp) _ (by simp [ownNames])).symm, (own_differ (n := lit "WARC-Date") (by simp) _ (by simp [ownNames])).symm⟩
      rw [k.headers, hi, right_truthy hw] at hv
      simp only [Bool.true_or, Bool.not_true, newDigests, Bool.false_eq_true, if_false, List.append_nil] at hv
      rw [Loader.firstValue_eq, hi] at hv
      cases hv
      exact hw

theorem _root_.Warcio.NewItem.Fits.found [Zlib] {IsCoded : DType → Bytes → Bytes → Prop} {m : Nat} (h : i.Fits) (k : CreatedReady c f i.env i.args i.block i.payload r) (hs : i.Sound IsCoded m) :
    PayloadFound IsCoded m r i.head i.payload := by
  have e := blockOf_new h.new k
  have http : ∀ h' : StatusAndHeaders, i.http = some h' → HttpRecord (some i.args.recType) (some i.args.uri) → RegularHttp h' → PayloadFound IsCoded m r i.head i.payload := by
    intro h' e1 e5 e6
    obtain ⟨x, hx⟩ := hs.body h' e1
    refine .http h' i.payload x ((h.http_iff k).2 e5) e6 (by unfold NewItem.head; rw [e1]) ?_ (e _ _) hx
    rw [e]
    exact hs.lines.2 (by rw [e1]; simp)
  cases h.source with
  | message p h' e1 e2 e3 e4 e5 e6 e7 => exact http h' e1 e5 e6.regular
  | apart p h' e1 e2 e3 e4 e5 e6 e7 e8 => exact http h' e1 e5 e6
  | data p e1 e2 e3 e4 e5 e6 => exact .whole (by unfold NewItem.head; rw [e1]) (.inl (fun hc => e5 ((h.http_iff k).1 hc)))
  | nothing e1 e2 e3 e4 =>
    refine .whole (by unfold NewItem.head; rw [e1]) (.inr ?_)
    rw [e]
    unfold NewItem.head
    rw [e1, e4]
    rfl

end

/-! ## Files of stored records -/

/-- A file that is read well: see `Reads` and `ReadsGz`.  A compressed file has a record. -/
def ReadsFile [Zlib] (gzip : Bool) (g : FileObj) (size m : Nat) (zs : List Bytes) : Prop :=
  if gzip then zs ≠ [] ∧ ReadsGz g size m zs else Reads g size m

section
variable [PyUni] [Hashlib] [Zlib] {IsMember : Bytes → Bytes → Prop} {IsCoded : DType → Bytes → Bytes → Prop} {f : Bytes → Bytes} {gzip : Bool} {m : Nat}

/-- The record in the file. -/
def inFile (f : Bytes → Bytes) (y : Bytes × OutRecord FileObj × Bytes × Bytes) : WarcRecord := fileRecord f y.2.2.1 y.2.2.2 y.2.1

/-- What is expected of records that are stored one after the other. -/
def storedIn (gzip : Bool) (io : IterOpts) (m : Nat) : Int → List (Bytes × WarcRecord) → List Expected
  | _, [] => []
  | off, (z, w) :: t => w.expected io m off (if gzip then len z else len z - 4) :: storedIn gzip io m (off + len z) t

theorem storedIn_gz (io : IterOpts) : ∀ (ys : List (Bytes × WarcRecord)) (off : Int), storedIn true io m off ys = WarcRecord.placedGz io m off ys
  | [], _ => rfl
  | (z, w) :: t, off => by rw [storedIn, WarcRecord.placedGz, storedIn_gz io t]; rfl

theorem storedIn_plain (io : IterOpts) : ∀ (ys : List (Bytes × WarcRecord)) (off : Int), (∀ y ∈ ys, y.1 = y.2.bytes ∧ y.2.sep.length = 4) → storedIn false io m off ys = WarcRecord.placed io m off (ys.map (·.2))
  | [], _, _ => rfl
  | (z, w) :: t, off, h => by
    obtain ⟨h1, h2⟩ := h (z, w) (List.mem_cons_self ..)
    dsimp only at h1 h2
    subst h1
    rw [storedIn, List.map_cons, WarcRecord.placed, storedIn_plain io t _ (fun y hy => h y (List.mem_cons_of_mem _ hy))]
    have : (if false = true then len w.bytes else len w.bytes - 4) = len w.head + len w.block := by
      rw [if_neg (by decide)]
      simp only [WarcRecord.bytes, len, List.length_append, h2]
      omega
    rw [this]

theorem stored_yields (L : LawfulGzip IsMember) {ys : List (Bytes × OutRecord FileObj × Bytes × Bytes)} (hs : ∀ y ∈ ys, Warcio.Stored IsMember gzip y.1 (inFile f y).bytes) (hr : ∀ y ∈ ys, Regular y.2.1)
    {g : FileObj} {io : IterOpts} {size : Nat} {kf : Option Format} (hg : g.rest = (ys.map (·.1)).flatten) (hread : ReadsFile gzip g size m (ys.map (·.1))) (hv : io.verifyHttp = false)
    (hc : io.checkDigests = none) (hk : kf ≠ some .arc) :
    ∃ it, openArchive g io size kf = .ok it ∧ ∀ plan, PlanOk plan → Yields .stopIteration (storedIn gzip io m g.origin (ys.map (fun y => (y.1, inFile f y)))) plan (iterate it plan) := by
  have hgood : ∀ y ∈ ys, (inFile f y).Good := fun y hy => (hr y hy).good
  cases gzip with
  | false =>
    have he : ∀ y ∈ ys, y.1 = (inFile f y).bytes := hs
    have hfit : Fit io (ys.map (inFile f)) := by
      refine ⟨?_, fun _ _ => .inl hc, hv⟩
      intro w hw
      obtain ⟨x, hx, rfl⟩ := List.mem_map.1 hw
      exact hgood x hx
    have e : ys.map (·.1) = ys.map (fun y => (inFile f y).bytes) := List.map_congr_left he
    obtain ⟨it, k1, k2⟩ := C32_records L hfit (by rw [hg, e, List.flatMap, List.map_map]; rfl) hread hk
    refine ⟨it, k1, fun plan hp => ?_⟩
    rw [storedIn_plain, List.map_map]
    · exact k2 plan hp
    · intro y hy
      obtain ⟨x, hx, rfl⟩ := List.mem_map.1 hy
      exact ⟨he x hx, rfl⟩
  | true =>
    obtain ⟨hne, hread⟩ : ys.map (·.1) ≠ [] ∧ ReadsGz g size m (ys.map (·.1)) := by simpa [ReadsFile] using hread
    have hfit : Fit io ((ys.map (fun y => (y.1, inFile f y))).map (·.2)) := by
      refine ⟨?_, fun _ _ => .inl hc, hv⟩
      intro w hw
      rw [List.map_map] at hw
      obtain ⟨x, hx, rfl⟩ := List.mem_map.1 hw
      exact hgood x hx
    obtain ⟨it, k1, k2⟩ := C34_records (ms := ys.map (fun y => (y.1, inFile f y))) L hfit (by
      intro x hx
      obtain ⟨y, hy, rfl⟩ := List.mem_map.1 hx
      exact hs y hy) (fun h => hne (by
        have : ys = [] := by simpa using h
        rw [this]; rfl)) (by rw [hg, List.flatMap, List.map_map]; rfl) (by rw [List.map_map]; exact hread) hk
    refine ⟨it, k1, fun plan hp => ?_⟩
    rw [storedIn_gz]
    exact k2 plan hp

theorem stored_approved (L : LawfulGzip IsMember) (LC : LawfulCodecs IsCoded) (H : Hashlib.hash (lit "sha1") = some f) (hl : ∀ algo g, Hashlib.hash algo = some g → ∀ a b, (g a).length = (g b).length)
    {ys : List (Bytes × OutRecord FileObj × Bytes × Bytes)} (hs : ∀ y ∈ ys, Warcio.Stored IsMember gzip y.1 (inFile f y).bytes) (hr : ∀ y ∈ ys, Regular y.2.1)
    (hu : ∀ y ∈ ys, RightDigests y.2.1 (blockOf y.2.1 y.2.2.1 y.2.2.2) y.2.2.2) (hp : ∀ y ∈ ys, PayloadFound IsCoded m y.2.1 y.2.2.1 y.2.2.2)
    (hm : ∀ y ∈ ys, HttpRecord y.2.1.recType (firstValue (lit "WARC-Target-URI") y.2.1.recHeaders.headers) → 64 ≤ m)
    {g : FileObj} (hg : g.rest = (ys.map (·.1)).flatten) (hread : ReadsFile gzip g 16384 m (ys.map (·.1))) (verbose : Bool) (name : Str) :
    ∃ out, processAll verbose [(name, g)] 0 = (.ok 0, out) ∧ Approved verbose name (ys.map (·.2)) out := by
  have mem : ∀ {P : OutRecord FileObj × Bytes × Bytes → Prop}, (∀ y ∈ ys, P y.2) → ∀ x ∈ ys.map (·.2), P x := by
    intro P h x hx
    obtain ⟨y, hy, rfl⟩ := List.mem_map.1 hx
    exact h y hy
  have hgood : ∀ y ∈ ys, (inFile f y).Good := fun y hy => (hr y hy).good
  cases gzip with
  | false =>
    have he : ∀ y ∈ ys, y.1 = (inFile f y).bytes := hs
    have e : ys.map (·.1) = ys.map (fun y => (inFile f y).bytes) := List.map_congr_left he
    have ha : Archived IsMember m g (placements g.origin (ys.map (fun y => (inFile f y, none)))) := by
      refine .plain g _ ?_ ?_ hread
      · intro x hx
        obtain ⟨y, hy, rfl⟩ := List.mem_map.1 hx
        exact hgood y hy
      · rw [hg, e]
        simp only [List.flatMap, List.map_map]
        rfl
    refine written_approved L LC H hl (mem hr) (mem hu) (mem hp) (mem hm) ha ?_ verbose name
    rw [placements_records, List.map_map, List.map_map]
    rfl
  | true =>
    obtain ⟨hne, hread⟩ : ys.map (·.1) ≠ [] ∧ ReadsGz g 16384 m (ys.map (·.1)) := by simpa [ReadsFile] using hread
    have ha : Archived IsMember m g (placementsGz g.origin (ys.map (fun y => (y.1, inFile f y, none)))) := by
      refine .gzip g _ ?_ ?_ ?_ ?_
      · intro h
        have : ys = [] := by simpa using h
        exact hne (by rw [this]; rfl)
      · intro x hx
        obtain ⟨y, hy, rfl⟩ := List.mem_map.1 hx
        exact ⟨hgood y hy, hs y hy⟩
      · rw [hg]
        simp only [List.flatMap, List.map_map]
        rfl
      · rw [List.map_map]
        exact hread
    refine written_approved L LC H hl (mem hr) (mem hu) (mem hp) (mem hm) ha ?_ verbose name
    rw [placementsGz_records, List.map_map, List.map_map]
    rfl

end

/-! ## C76 -/

section
variable [PyUni] [Hashlib] [Deflater] [Zlib] {IsMember : Bytes → Bytes → Prop} {IsCoded : DType → Bytes → Bytes → Prop} {f : Bytes → Bytes} {c : BuilderCfg}

/-- An item, and what was made and written for it. -/
structure Made (IsMember : Bytes → Bytes → Prop) (f : Bytes → Bytes) (c : BuilderCfg) (i : NewItem) (y : Bytes × OutRecord FileObj × Bytes × Bytes) : Prop where
  created : CreatedReady c f i.env i.args i.block i.payload y.2.1
  parts : y.2.2 = (i.head, i.payload)
  stored : Warcio.Stored IsMember c.gzip y.1 (inFile f y).bytes

theorem made (D : LawfulDeflater IsMember) (H : Hashlib.hash (lit "sha1") = some f) (hf : c.filter = some) (hv : c.version ≠ []) {i : NewItem} (hi : i.Fits) {o : OutFile} (ho : o.AtEnd) :
    ∃ y r', Made IsMember f c i y ∧ write c y.2.1 o = (.ok (), r', o.extended y.1) := by
  obtain ⟨r, k⟩ := hi.created (c := c) H hf hv i.env
  obtain ⟨hb, w, e⟩ := k.writable
  have e : i.head = hb := List.append_cancel_right e
  subst e
  obtain ⟨z, r', k1, k2⟩ := write_stored D H w ho
  exact ⟨(z, r, i.head, i.payload), r', ⟨k, rfl, k2⟩, k1⟩

theorem made_all (D : LawfulDeflater IsMember) (H : Hashlib.hash (lit "sha1") = some f) (hf : c.filter = some) (hv : c.version ≠ []) :
    ∀ (is : List NewItem), (∀ i ∈ is, i.Fits) → ∀ {o : OutFile}, o.AtEnd →
      ∃ ys, Each (Made IsMember f c) is ys ∧ writeAll c (ys.map (·.2.1)) o = (.ok (), o.extended (ys.map (·.1)).flatten)
  | [], _, o, ho => ⟨[], .nil, by show (Except.ok (), o) = _; rw [List.map_nil, List.flatten_nil, extended_nil ho]⟩
  | i :: is, h, o, ho => by
    obtain ⟨y, r', k1, k2⟩ := made D H hf hv (h i (List.mem_cons_self ..)) ho
    obtain ⟨ys, m1, m2⟩ := made_all D H hf hv is (fun j hj => h j (List.mem_cons_of_mem _ hj)) (extended_atEnd o y.1)
    refine ⟨y :: ys, .cons k1 m1, ?_⟩
    rw [List.map_cons, writeAll, k2]
    dsimp only
    rw [m2, extended_extended]
    rfl

theorem each_length {α β : Type} {R : α → β → Prop} {as : List α} {bs : List β} (h : Each R as bs) : bs.length = as.length := by
  induction h with
  | nil => rfl
  | cons _ _ ih => simp [ih]

theorem each_map {α β γ : Type} {R : α → β → Prop} {S : α → γ → Prop} {k : β → γ} {as : List α} {bs : List β} (h : Each R as bs) (hk : ∀ a b, R a b → S a (k b)) : Each S as (bs.map k) := by
  induction h with
  | nil => exact .nil
  | cons h1 _ ih => exact .cons (hk _ _ h1) ih

/-- What is read where an item was written. -/
theorem Made.back {i : NewItem} {y : Bytes × OutRecord FileObj × Bytes × Bytes} (hv : c.version ∈ [lit "WARC/1.1", lit "WARC/1.0", lit "WARC/0.17", lit "WARC/0.18"]) (hi : i.Fits)
    (h : Made IsMember f c i y) {io : IterOpts} {m : Nat} {rec : Record Unit} {left : Bytes} (hs : (inFile f y).Shows io m rec left) : i.Back f c.version io m rec left := by
  obtain ⟨z, r, hb, d⟩ := y
  obtain ⟨k, e, -⟩ := h
  cases e
  have hr : Regular r := hi.regular hv k
  have hsame := hr.same hs (headersFor f r i.head i.payload)
  have hbl : blockOf r i.head i.payload = i.block := blockOf_new hi.new k _ _
  have hnew := created_inFile hi.date.1 hi.date.2 hi.alone hi.fits hi.new k (hb := i.head) rfl
  have hhead : rec.recHeaders.headers = writtenHeaders f r i.head i.payload := by
    refine hs.headers fun u hu => hr.tidy u ?_
    rw [← hu]
    exact written_uri.symm
  have http : ∀ h' : StatusAndHeaders, i.http = some h' → HttpRecord (some i.args.recType) (some i.args.uri) ∧ RegularHttp h' := by
    intro h' e
    cases hi.source with
    | message p h'' e1 e2 e3 e4 e5 e6 e7 => rw [e1] at e; cases e; exact ⟨e5, e6.regular⟩
    | apart p h'' e1 e2 e3 e4 e5 e6 e7 e8 => rw [e1] at e; cases e; exact ⟨e5, e6⟩
    | data p e1 => rw [e1] at e; cases e
    | nothing e1 => rw [e1] at e; cases e
  refine ⟨hsame.format, hsame.recType.trans k.recType, ?_, ?_, ?_, ?_, ?_, ?_⟩
  · rw [hsame.version.1, hsame.version.2]; exact k.version
  · rw [hhead]; exact hnew
  · intro hc
    obtain ⟨-, -, -, -, k4⟩ := createRecord_headers k.created
    refine hsame.contentType _ (k4.trans ?_)
    unfold contentTypeOf
    rw [if_pos (by simpa using hc)]
  · rw [hsame.length, hbl]
  · intro hc
    rw [← hbl]
    refine hsame.block (hc.imp id fun hn => ?_)
    rw [hi.http_iff k, hbl]
    cases hi.source with
    | message p h'' e1 => rw [e1] at hn; cases hn
    | apart p h'' e1 => rw [e1] at hn; cases hn
    | data p e1 e2 e3 e4 e5 e6 => exact .inl e5
    | nothing e1 e2 e3 e4 => exact .inr (by unfold NewItem.block NewItem.head; rw [e1, e4]; rfl)
  · intro hp h' e hw
    obtain ⟨q1, q2⟩ := http h' e
    obtain ⟨g1, -, g3⟩ := hsame.http hp ((hi.http_iff k).2 q1) h' q2 (by unfold NewItem.head; rw [e]) (by rw [hbl]; exact hw)
    rw [hbl] at g1
    exact ⟨List.append_cancel_left g1, g3⟩

theorem weaker_made (hv : c.version ∈ [lit "WARC/1.1", lit "WARC/1.0", lit "WARC/0.17", lit "WARC/0.18"]) {io : IterOpts} {m : Nat} {is : List NewItem} {ys : List (Bytes × OutRecord FileObj × Bytes × Bytes)}
    (h : Each (Made IsMember f c) is ys) : ∀ (off : Int), (∀ i ∈ is, i.Fits) →
      Weaker (storedIn c.gzip io m off (ys.map (fun y => (y.1, inFile f y)))) (NewItem.back f c.version c.gzip io m off (is.zip (ys.map (·.1)))) := by
  induction h with
  | nil => intro off _; exact .nil
  | cons h1 _ ih =>
    intro off hi
    exact .cons ⟨fun rec left hs => h1.back hv (hi _ (List.mem_cons_self ..)) hs, rfl, rfl, rfl, fun _ => rfl⟩ (ih _ (fun j hj => hi j (List.mem_cons_of_mem _ hj)))

theorem each_left {α β γ : Type} {R : α → β → Prop} {S : β → γ → Prop} {T : α → γ → Prop} (hk : ∀ a b c, R a b → S b c → T a c) {as : List α} {bs : List β} (h : Each R as bs) :
    ∀ {cs : List γ}, Each S bs cs → Each T as cs := by
  induction h with
  | nil => intro cs hc; cases hc; exact .nil
  | cons h1 _ ih =>
    intro cs hc
    cases hc with
    | cons h2 h3 => exact .cons (hk _ _ _ h1 h2) (ih h3)

theorem each_mapped {α β γ : Type} {R : α → γ → Prop} {S : β → γ → Prop} {k : α → β} {as : List α} {cs : List γ} (h : Each R as cs) (hk : ∀ a ∈ as, ∀ c, R a c → S (k a) c) : Each S (as.map k) cs := by
  induction h with
  | nil => exact .nil
  | cons h1 _ ih => exact .cons (hk _ (List.mem_cons_self ..) _ h1) (ih (fun a ha => hk a (List.mem_cons_of_mem _ ha)))

theorem each_and {α β : Type} {R : α → β → Prop} {P : α → Prop} {as : List α} {bs : List β} (h : Each R as bs) : (∀ a ∈ as, P a) → Each (fun a b => P a ∧ R a b) as bs := by
  induction h with
  | nil => intro _; exact .nil
  | cons h1 _ ih => intro hp; exact .cons ⟨hp _ (List.mem_cons_self ..), h1⟩ (ih (fun a ha => hp a (List.mem_cons_of_mem _ ha)))

/-- C76: records that are created and written to a new file.  Each can be created and written; iterating over the file gives them back, with the headers that were given
and those that are added, the HTTP headers and the payload; and `warcio check` finds nothing wrong with them.  Partial: `NewItem.Fits` leaves out revisit records, URIs with spaces
or brackets, HTTP headers outside ASCII, and headers that are repeated; the check is for bodies that can be decoded. -/
theorem C76_partial (L : LawfulGzip IsMember) (D : LawfulDeflater IsMember) (LC : LawfulCodecs IsCoded) (H : Hashlib.hash (lit "sha1") = some f)
    (hl : ∀ algo g, Hashlib.hash algo = some g → ∀ a b, (g a).length = (g b).length) (hf : c.filter = some)
    (hv : c.version ∈ [lit "WARC/1.1", lit "WARC/1.0", lit "WARC/0.17", lit "WARC/0.18"]) {is : List NewItem} (hi : ∀ i ∈ is, i.Fits) :
    ∃ rs bs, Each (fun i r => createRecord c i.env i.args = .ok r) is rs ∧ bs.length = is.length ∧ writeAll c rs {} = (.ok (), ({} : OutFile).extended bs.flatten) ∧
      ∀ {g : FileObj}, g.rest = bs.flatten →
        (∀ {io : IterOpts} {size m : Nat} {kf : Option Format}, ReadsFile c.gzip g size m bs → io.verifyHttp = false → io.checkDigests = none → kf ≠ some .arc →
          ∃ it, openArchive g io size kf = .ok it ∧ ∀ plan, PlanOk plan → Yields .stopIteration (NewItem.back f c.version c.gzip io m g.origin (is.zip bs)) plan (iterate it plan)) ∧
        (∀ {m : Nat}, ReadsFile c.gzip g 16384 m bs → (∀ i ∈ is, i.Sound IsCoded m) → ∀ verbose name, ∃ out, processAll verbose [(name, g)] 0 = (.ok 0, out) ∧
          AllRight verbose name (is.map NewItem.said) out) := by
  have hv0 : c.version ≠ [] := by
    intro e
    rw [e] at hv
    revert hv
    decide
  obtain ⟨ys, hy, hw⟩ := made_all (c := c) D H hf hv0 is hi (o := {}) rfl
  have hall := each_right (each_and hy hi)
  have hs : ∀ y ∈ ys, Warcio.Stored IsMember c.gzip y.1 (inFile f y).bytes := fun y hy => by obtain ⟨i, -, -, k⟩ := hall y hy; exact k.stored
  have hr : ∀ y ∈ ys, Regular y.2.1 := fun y hy => by obtain ⟨i, -, ki, k⟩ := hall y hy; exact ki.regular hv k.created
  refine ⟨ys.map (·.2.1), ys.map (·.1), each_map hy (fun i y k => k.created.created), by rw [List.length_map]; exact each_length hy, hw, ?_⟩
  intro g hg
  constructor
  · intro io size m kf hread hver hcd hk
    obtain ⟨it, k1, k2⟩ := stored_yields L hs hr hg hread hver hcd hk
    exact ⟨it, k1, fun plan hp => (k2 plan hp).mono (weaker_made hv hy _ hi)⟩
  · intro m hread hsound verbose name
    have hall' := each_right (each_and hy (P := fun i => i.Fits ∧ i.Sound IsCoded m) (fun i h => ⟨hi i h, hsound i h⟩))
    obtain ⟨out, o1, o2⟩ := stored_approved (m := m) L LC H hl hs hr
      (fun y hy => by
        obtain ⟨i, -, ⟨ki, ks⟩, k⟩ := hall' y hy
        rw [k.parts, blockOf_new ki.new k.created]
        exact ki.right H k.created ks.block ks.payload)
      (fun y hy => by
        obtain ⟨i, -, ⟨ki, ks⟩, k⟩ := hall' y hy
        rw [k.parts]
        exact ki.found k.created ks)
      (fun y hy hh => by
        obtain ⟨i, -, ⟨ki, ks⟩, k⟩ := hall' y hy
        exact ks.lines.1 ((ki.http_iff k.created).1 hh))
      hg hread verbose name
    refine ⟨out, o1, ?_⟩
    unfold Approved at o2
    unfold AllRight
    split
    · rename_i h
      rw [if_pos h] at o2
      obtain ⟨lines, e, he⟩ := o2
      refine ⟨lines, e, ?_⟩
      have h2 := each_left (T := fun i p => ∃ off note, p = Print.record off (some i.said.1) (some i.said.2.1) (some note) [] ∧ (i.said.2.2 → note = lit "digest pass")) ?_
        (each_map (k := (·.2)) (each_and hy hi) (S := fun i y => i.Fits ∧ CreatedReady c f i.env i.args i.block i.payload y.1 ∧ y.2 = (i.head, i.payload)) (fun i y k => ⟨k.1, k.2.created, k.2.parts⟩)) he
      · exact each_mapped h2 (fun _ _ _ h => h)
      · rintro i ⟨r, hb, d⟩ p ⟨ki, k, e⟩ ⟨off, note, hp, hn⟩
        cases e
        refine ⟨off, note, ?_, fun hx => hn ?_⟩
        · rw [hp, ki.first_id k, k.recType]
          rfl
        · have hseg : firstValue (lit "WARC-Segment-Number") r.recHeaders.headers = firstValue (lit "WARC-Segment-Number") i.args.dict := by
            have := created_named k (n := lit "WARC-Segment-Number") (by simp)
            exact first_named (by simpa using this)
          unfold MustPass
          rw [k.recType, blockOf_new ki.new k, hseg]
          refine ⟨fun e => ki.new (Option.some.inj e), hx.imp id (fun q => ⟨fun e => q.1 (Option.some.inj e), q.2⟩)⟩
    · rename_i h
      rw [if_neg h] at o2
      exact o2

end

/-! ## The hypotheses are met, and the claims that fail -/

section
open Toy

/-- A response, given as a stream that holds the whole message (and gives three bytes, and one byte, at first). -/
def nMessage : NewItem :=
  { env := wEnv, args := mArgs { content := 120 :: mBytes, pos := 1, caps := [3, 1], seekable := false } none, http := some wHttp, payload := [97, 98, 99] }

/-- A request, given as headers and a payload of known length, with an id, and headers of its own. -/
def nApart : NewItem :=
  { env := wEnv
    args := { uri := lit "https://a/", recType := lit "request", payload := some (.own { content := [97, 98] }), length := some 2, contentType := lit "a/b",
              dict := [(lit "WARC-Record-ID", lit "<urn:2>"), (lit "X-A", lit "b"), (lit "x-a", lit "c")],
              http := some { statusline := lit "/ HTTP/1.0", headers := [], protocol := lit "POST" } }
    http := some { statusline := lit "/ HTTP/1.0", headers := [], protocol := lit "POST" }, payload := [97, 98] }

/-- A record for some bytes, with a digest. -/
def nData : NewItem :=
  { env := wEnv
    args := { uri := lit "urn:a", recType := lit "resource", payload := some (.own { content := [97, 98] }), dict := [(lit "WARC-Block-Digest", lit "sha1:" ++ Rfc4648.base32 (sha1 [97, 98]))] }
    payload := [97, 98] }

/-- A record with nothing in it. -/
def nNothing : NewItem := { env := wEnv, args := { uri := [], recType := lit "metadata", payload := none }, payload := [] }

theorem nEnv_good : (IsDate wEnv.now ∧ wEnv.now.aware = false) ∧ GoodHeader (lit "WARC-Record-ID", wEnv.newId) :=
  ⟨⟨⟨by decide, by decide, by decide, by decide, by decide, by decide, by decide, by decide, by decide, by decide⟩, rfl⟩, ⟨⟨by decide, by decide, by decide, by decide, by decide⟩, by decide, by decide⟩⟩

theorem n_http : RegularHttp { statusline := lit "/ HTTP/1.0", headers := [], protocol := lit "POST" } :=
  ⟨⟨by decide, by decide, by decide, by decide⟩, ⟨by decide, by decide⟩, (fun x hx => by cases hx), .inl (by decide)⟩

/-- The hypotheses of C76: the items fit. -/
example : ∀ i ∈ [nMessage, nApart, nData, nNothing], i.Fits := by
  intro i hi
  simp only [List.mem_cons, List.not_mem_nil, or_false] at hi
  rcases hi with rfl | rfl | rfl | rfl
  · exact ⟨.message _ wHttp rfl rfl rfl (show mBytes = nMessage.block by decide +kernel) ⟨.inl rfl, _, rfl, .inl ⟨_, rfl⟩⟩ m_message (.inl rfl), rfl, nEnv_good.1, nEnv_good.2, (fun x hx => by cases hx),
      ⟨by show _ ≤ 1; decide, fun _ => by show _ ≤ 1; decide, by decide, by decide, by show _ ≤ 1; decide⟩, by show _ ≤ 1; decide,
      ⟨⟨by decide, by decide, by decide, by decide, by decide⟩, by decide, by decide⟩, by decide, ⟨⟨by decide, by decide, by decide, by decide, by decide⟩, by decide, by decide⟩, ⟨by decide, (fun m h => by cases h)⟩,
      (fun h => by cases h), ⟨⟨by decide, by decide, by decide, by decide, by decide⟩, by decide, by decide⟩⟩
  · refine ⟨.apart _ _ rfl rfl rfl rfl ⟨.inr (.inl rfl), _, rfl, .inr ⟨_, rfl⟩⟩ n_http (by decide +kernel) (.inr rfl), rfl, nEnv_good.1, nEnv_good.2, ?_,
      ⟨by show _ ≤ 1; decide, fun _ => by show _ ≤ 1; decide, by decide, by decide, by show _ ≤ 1; decide⟩, by show _ ≤ 1; decide,
      ⟨⟨by decide, by decide, by decide, by decide, by decide⟩, by decide, by decide⟩, by decide, ⟨⟨by decide, by decide, by decide, by decide, by decide⟩, by decide, by decide⟩, ⟨by decide, (fun m h => by cases h)⟩,
      (fun h => by cases h), ⟨⟨by decide, by decide, by decide, by decide, by decide⟩, by decide, by decide⟩⟩
    intro x hx
    simp only [nApart, List.mem_cons, List.not_mem_nil, or_false] at hx
    rcases hx with rfl | rfl | rfl <;> exact ⟨⟨by decide, by decide, by decide, by decide, by decide⟩, by decide, by decide⟩
  · refine ⟨.data _ rfl rfl rfl rfl (by rintro ⟨h, -⟩; revert h; decide) (.inl rfl), rfl, nEnv_good.1, nEnv_good.2, ?_,
      ⟨by show _ ≤ 1; decide +kernel, fun _ => by show _ ≤ 1; decide +kernel, by decide +kernel, by decide +kernel, by show _ ≤ 1; decide +kernel⟩, by show _ ≤ 1; decide +kernel,
      ⟨⟨by decide, by decide, by decide, by decide, by decide⟩, by decide, by decide⟩, by decide, ⟨⟨by decide, by decide, by decide, by decide, by decide⟩, by decide, by decide⟩, ⟨by decide, (fun m h => by cases h)⟩,
      (fun h => by cases h), ⟨⟨by decide, by decide, by decide, by decide, by decide⟩, by decide, by decide⟩⟩
    intro x hx
    rw [List.mem_singleton.1 hx]
    exact ⟨⟨by decide +kernel, by decide +kernel, by decide +kernel, by decide +kernel, by decide +kernel⟩, by decide +kernel, by decide +kernel⟩
  · exact ⟨.nothing rfl rfl rfl rfl, rfl, nEnv_good.1, nEnv_good.2, (fun x hx => by cases hx),
      ⟨by show _ ≤ 1; decide, fun _ => by show _ ≤ 1; decide, by decide, by decide, by show _ ≤ 1; decide⟩, by show _ ≤ 1; decide,
      ⟨⟨by decide, by decide, by decide, by decide, by decide⟩, by decide, by decide⟩, by decide, ⟨⟨by decide, by decide, by decide, by decide, by decide⟩, by decide, by decide⟩, ⟨by decide, (fun m h => by cases h)⟩,
      (fun _ => ⟨by unfold HttpType; decide, by decide⟩), ⟨⟨by decide, by decide, by decide, by decide, by decide⟩, by decide, by decide⟩⟩

/-- ... and the message and the record with a digest are sound, with `toyCoded` (which is lawful, see `Verif/Toy.lean`). -/
example : nMessage.Sound toyCoded 64 ∧ nData.Sound toyCoded 64 := by
  constructor
  · refine ⟨?_, ?_, ⟨fun _ => by decide, fun _ => ?_⟩, ?_⟩
    · intro v hv; rw [show firstValue (lit "WARC-Block-Digest") nMessage.args.dict = none by decide] at hv; cases hv
    · intro v hv; rw [show firstValue (lit "WARC-Payload-Digest") nMessage.args.dict = none by decide] at hv; cases hv
    · exact .line (by decide +kernel) (by decide +kernel) (.line (by decide +kernel) (by decide +kernel) (.blank (by decide +kernel) (by decide +kernel) (by decide +kernel)))
    · intro h e
      cases e
      refine ⟨[97, 98, 99], ?_⟩
      rw [show firstValue (lit "content-encoding") wHttp.headers = none by decide, show firstValue (lit "transfer-encoding") wHttp.headers = none by decide]
      exact .plain none _ _ (by simp) .none (.none _)
  · refine ⟨?_, ?_, ⟨fun _ => by decide, fun h => absurd rfl h⟩, ?_⟩
    · intro v hv
      rw [show firstValue (lit "WARC-Block-Digest") nData.args.dict = some (lit "sha1" ++ ':' :: Rfc4648.base32 (sha1 [97, 98])) by decide +kernel] at hv
      cases hv
      exact sha1_right sha1_eq _
    · intro v hv; rw [show firstValue (lit "WARC-Payload-Digest") nData.args.dict = none by decide +kernel] at hv; cases hv
    · intro h e; cases e

/-- A record is created, written to a new file and checked. -/
def nCheck (a : CreateArgs FileObj) : Option (Except PyErr Nat × List Print) :=
  match createRecord {} wEnv a with
  | .ok r => some (wCheck r)
  | .error _ => none

/-- What C76 is about, computed. -/
example : nCheck nApart.args = some (.ok 0, [.file (lit "a"), .record 0 (some (lit "<urn:2>")) (some (lit "request")) (some (lit "digest pass")) []]) := by decide +kernel

/-- C76 fails if the URI is given among the headers only: the record is created as if it were none of HTTP, with a payload digest of the whole message, but it is read as one. -/
theorem C76_uri_in_dict : nCheck { mArgs { content := mBytes } none with uri := [], dict := [(lit "WARC-Target-URI", lit "http://a/")] } =
    some (.ok 1, [.file (lit "a"), .record 0 (some (lit "<urn:uuid:1>")) (some (lit "response")) none [.payloadFailed (sha1Text sha1 mBytes)]]) := by decide +kernel

/-- A record is created, written to a new file and read: the values of a header, and the HTTP headers. -/
def nBack (n : Str) (a : CreateArgs FileObj) : List (List Str × List (Str × Str)) :=
  match createRecord {} wEnv a with
  | .ok r => (wBack false r).filterMap (fun x => match x with | .inr (hs, http, _) => some (values n hs, http) | .inl _ => none)
  | .error _ => []

/-- C76 fails for a URI with a space: another URI is read. -/
theorem C76_uri_space : nBack (lit "WARC-Target-URI") { mArgs { content := [97] } none with uri := lit "urn:a b", recType := lit "resource" } = [([lit "urn:a%20b"], [])] := by
  decide +kernel

/-- C76 fails for HTTP headers with characters outside ASCII: others are read. -/
theorem C76_not_ascii : nBack (lit "WARC-Type") { mArgs { content := [97] } none with http := some { wHttp with headers := [(lit "A", lit "é")] } } = [([lit "response"], [(lit "A", lit "%C3%A9")])] := by
  decide +kernel

end
end Warcio.Props

import Verif.Proofs.PartsTools
import Verif.Proofs.Copy
import Verif.Proofs.CopyAny
import Verif.Proofs.WrittenHeaders
import Verif.Spec.CopyParts

/-!
# Copying the records of any uncompressed file

Lemmas for C91.
-/

set_option linter.unusedSectionVars false

namespace Warcio

open Writer Builder ArchiveIter Recompressor BufReader StatusAndHeaders

section
variable [PyUni] {σ : Type}

/-- All headers that are written, with a length. -/
def writtenWith (f : Bytes → Bytes) (r : OutRecord σ) (hb d : Bytes) (n : Int) : List Header :=
  (StatusAndHeaders.replaceIn (typedHeaders r.contentType (digestedHeaders f r hb d)) (lit "Content-Length") (intToStr n)).2

variable [Hashlib] [PyFile σ] [Holding σ] [Deflater]

/-- Everything that is written, whatever the lengths of the record are. -/
theorem writeTo_given {f : Bytes → Bytes} (H : Hashlib.hash (lit "sha1") = some f) (c : BuilderCfg) (r : OutRecord σ) {hb d : Bytes}
    (hd : holds r.raw d) (hh : HttpPart c.filter r hb) (hp : r.payloadLength ≠ none) (hn : ∀ n, r.length = some n → 0 ≤ n) (out : Sink) :
    ∃ (n : Nat) (ws : List Bytes) (r' : OutRecord σ), writeTo c r out = (.ok (), r', (ws.foldl Sink.write out).flush) ∧
      r'.recHeaders = { r.recHeaders with headers := writtenWith f r hb d n } ∧
      ws.flatten = r'.recHeaders.toBytes ++ blockOf r hb d ++ (crlf ++ crlf) ∧
      (LengthsFit r hb d → (n : Int) = len (blockOf r hb d)) ∧ (∀ k, r.length = some k → hb = [] → (n : Int) = k) ∧
      ∃ raw orig bufs s, holds raw d ∧ Aside r.raw r.orig raw orig ∧ iterAll raw = (bufs, .ok (), s) ∧
        (r'.raw, r'.orig) = if r.recType = some (lit "revisit") then (raw, orig) else match orig with
          | none => (s, none)
          | some none => (.closed, some none)
          | some (some s) => (s, some none) := by
  obtain ⟨http, p1, p2, p3, p4, p5⟩ := prepareHttp_eq hh
  obtain ⟨raw, pl, orig, len', c1, c2, c3, c4, c5, c6⟩ := complete_eq H c.filter ({ r with httpHeaders := http } : OutRecord σ) hd p2
  rw [p3] at c1
  have nonneg : ∀ b : Bytes, (0 : Int) ≤ len b := fun b => by simp [len]
  have al : ∃ n : Nat, (∀ rh, actualLength ({ recType := r.recType, recHeaders := rh, raw := raw, httpHeaders := http, contentType := r.contentType, length := len', payloadLength := pl, orig := orig } : OutRecord σ) =
      .ok (some (n : Int))) ∧ (LengthsFit r hb d → (n : Int) = len (blockOf r hb d)) ∧ (∀ k, r.length = some k → hb = [] → (n : Int) = k) := by
    have fit : ∀ rh, LengthsFit r hb d → actualLength ({ recType := r.recType, recHeaders := rh, raw := raw, httpHeaders := http, contentType := r.contentType, length := len', payloadLength := pl, orig := orig } : OutRecord σ) =
      .ok (some (len (blockOf r hb d))) := fun rh hl => actualLength_eq (r0 := r) (d := d) (hb := hb) rfl p3 p4 hl c3 c4 c5
    have hlen : ∃ n : Nat, len' = some (n : Int) ∧ (∀ k, r.length = some k → (n : Int) = k) := by
      cases hr : r.length with
      | none => exact ⟨d.length, (c4 hr).2, fun k h => by cases h⟩
      | some k =>
        have := hn k hr
        refine ⟨k.toNat, ?_, fun k' h => by cases h; omega⟩
        rw [c5 (by show r.length ≠ none; rw [hr]; simp)]
        show r.length = _
        rw [hr, Int.toNat_of_nonneg this]
    obtain ⟨n0, l1, l2⟩ := hlen
    have main : ∃ n : Nat, (∀ rh, actualLength ({ recType := r.recType, recHeaders := rh, raw := raw, httpHeaders := http, contentType := r.contentType, length := len', payloadLength := pl, orig := orig } : OutRecord σ) =
        .ok (some (n : Int))) ∧ (∀ k, r.length = some k → hb = [] → (n : Int) = k) := by
      unfold actualLength
      by_cases he : hb = []
      · refine ⟨n0, fun rh => ?_, fun k hk _ => l2 k hk⟩
        rw [if_neg (by show ¬ Loader.truthyHeaders http = true; rw [p4]; simp [he])]
        rw [l1]
      · cases hpl : pl with
        | none =>
          exfalso
          rcases c3 with h | h
          · exact hp (h.symm.trans hpl)
          · rw [hpl] at h; cases h
        | some k =>
          by_cases h0 : 0 ≤ k
          · have p3' : ∀ rh, httpBytes ({ recType := r.recType, recHeaders := rh, raw := raw, httpHeaders := http, contentType := r.contentType, length := len', payloadLength := some k, orig := orig } : OutRecord σ) = hb := fun _ => p3
            have hho : ∀ rh, headersOnly ({ recType := r.recType, recHeaders := rh, raw := raw, httpHeaders := http, contentType := r.contentType, length := len', payloadLength := some k, orig := orig } : OutRecord σ) = headersOnly r := fun _ => rfl
            refine ⟨(len hb + (if headersOnly r then 0 else k)).toNat, fun rh => ?_, fun k hk h => absurd h he⟩
            have hge : (0 : Int) ≤ len hb + (if headersOnly r then 0 else k) := by
              have := nonneg hb
              split <;> omega
            rw [if_pos (p4.2 he)]
            dsimp only
            rw [if_pos h0, p3', hho, Int.toNat_of_nonneg hge]
          · refine ⟨n0, fun rh => ?_, fun k hk _ => l2 k hk⟩
            rw [if_pos (p4.2 he)]
            dsimp only
            rw [if_neg h0, l1]
    obtain ⟨n, m1, m2⟩ := main
    refine ⟨n, m1, fun hl => ?_, m2⟩
    have := (m1 r.recHeaders).symm.trans (fit r.recHeaders hl)
    simpa using this
  obtain ⟨n, al, fit, dec⟩ := al
  unfold writeTo
  rw [p1]
  simp only
  rw [c1]
  simp only
  rw [al]
  simp only
  have hf : finalHeaders r.contentType (some (n : Int)) { r.recHeaders with headers := digestedHeaders f ({ r with httpHeaders := http } : OutRecord σ) hb d } =
      { r.recHeaders with headers := writtenWith f r hb d n } := by
    unfold finalHeaders writtenWith typedHeaders
    cases r.contentType <;> rfl
  rw [hf]
  generalize hR : ({ r.recHeaders with headers := writtenWith f r hb d n } : StatusAndHeaders) = R
  have hw : (if Loader.truthyHeaders http then (out.write R.toBytes).write hb else out.write R.toBytes) =
      ((if hb = [] then [R.toBytes] else [R.toBytes, hb]).foldl Sink.write out) := by
    by_cases he : hb = []
    · rw [if_neg (by rw [p4]; simp [he]), if_pos he]; rfl
    · rw [if_pos (p4.2 he), if_neg he]; rfl
  have p3' : ∀ x y z u v, httpBytes ({ recType := r.recType, recHeaders := R, raw := x, httpHeaders := http, contentType := y, length := z, payloadLength := u, orig := v } : OutRecord σ) = hb :=
    fun _ _ _ _ _ => p3
  rw [p3', hw]
  have hfl : (if hb = [] then [R.toBytes] else [R.toBytes, hb]).flatten = R.toBytes ++ hb := by
    by_cases he : hb = []
    · simp [he]
    · simp [he]
  generalize (if hb = [] then [R.toBytes] else [R.toBytes, hb]) = pre at hfl
  unfold writePayload
  by_cases hr : r.recType = some (lit "revisit")
  · have : ∀ x y z u v w, headersOnly ({ recType := r.recType, recHeaders := x, raw := y, httpHeaders := z, contentType := r.contentType, length := u, payloadLength := v, orig := w } : OutRecord σ) = true := by
      intros; simp [headersOnly, hr]
    rw [if_pos (this _ _ _ _ _ _)]
    obtain ⟨bufs, s', i1, i2⟩ := Holding.sends c2
    refine ⟨n, pre ++ [crlf ++ crlf], ({ recType := r.recType, recHeaders := R, raw := raw, httpHeaders := http, contentType := r.contentType, length := some (n : Int), payloadLength := pl, orig := orig } : OutRecord σ), ?_, hR.symm, ?_, fit, dec, raw, orig, bufs, s', c2, c6, i1, by rw [if_pos hr]⟩
    rotate_left
    · simp only [List.flatten_append, hfl, blockOf, hr, if_true, List.append_nil]
      simp
    · simp only [List.foldl_append, List.foldl_cons, List.foldl_nil]
  · have : ∀ x y z u v w, ¬ headersOnly ({ recType := r.recType, recHeaders := x, raw := y, httpHeaders := z, contentType := r.contentType, length := u, payloadLength := v, orig := w } : OutRecord σ) = true := by
      intros; simp [headersOnly, hr]
    rw [if_neg (this _ _ _ _ _ _)]
    obtain ⟨bufs, s', i1, i2⟩ := Holding.sends c2
    simp only [i1]
    refine ⟨n, pre ++ bufs ++ [crlf ++ crlf], restoreStream ({ recType := r.recType, recHeaders := R, raw := s', httpHeaders := http, contentType := r.contentType, length := some (n : Int), payloadLength := pl, orig := orig } : OutRecord σ), ?_, ?_, ?_, fit, dec, raw, orig, bufs, s', c2, c6, i1, by rw [if_neg hr]; unfold restoreStream; cases orig with | none => rfl | some x => cases x <;> rfl⟩
    rotate_left
    · unfold restoreStream
      dsimp only
      split <;> exact hR.symm
    · have hrh : ∀ x : OutRecord σ, (restoreStream x).recHeaders = x.recHeaders := by
        intro x; unfold restoreStream; split <;> rfl
      rw [hrh]
      simp only [List.flatten_append, hfl, i2, blockOf, hr, if_false]
      simp
    · simp only [List.foldl_append, List.foldl_cons, List.foldl_nil]

end

section
variable [PyUni]

theorem httpPart_read {τ υ : Type} {flt : Header → Option Header} {a : OutRecord τ} {b : OutRecord υ} (e : a.httpHeaders = b.httpHeaders) {hb : Bytes} (h : HttpPart flt a hb) : HttpPart flt b hb := by
  cases h with
  | none h => exact .none (e.symm.trans h)
  | empty x h h1 h2 => exact .empty x (e.symm.trans h) h1 h2
  | some x _ h h1 h2 => exact .some x _ (e.symm.trans h) h1 h2

/-- HTTP headers can be encoded, or not. -/
theorem httpPart_or {τ : Type} (flt : Header → Option Header) (r : OutRecord τ) : (∃ hb, HttpPart flt r hb) ∨ ∃ h e, r.httpHeaders = some h ∧ h.truthy = true ∧ (h.toAsciiBytes flt).1 = .error e := by
  cases hr : r.httpHeaders with
  | none => exact .inl ⟨[], .none hr⟩
  | some h =>
    by_cases ht : h.truthy = true
    · cases he : (h.toAsciiBytes flt).1 with
      | ok hb => exact .inl ⟨hb, .some h hb hr (truthy_iff.1 ht) he⟩
      | error e => exact .inr ⟨h, e, rfl, ht, he⟩
    · left
      refine ⟨[], .empty h hr ?_ ?_⟩
      · exact Classical.byContradiction fun h1 => ht (truthy_iff.2 (.inl h1))
      · exact Classical.byContradiction fun h1 => ht (truthy_iff.2 (.inr h1))

/-- What is written for a record that was read. -/
theorem copied_record {f : Bytes → Bytes} {flt : Header → Option Header} {rec : Record Unit} {hb left : Bytes} (h : HttpPart flt (OutRecord.ofRead rec) hb) (hf : FirstLine rec.recHeaders) {n : Nat}
    (fit : LengthsFit (OutRecord.ofRead rec) hb left → (n : Int) = len (blockOf (OutRecord.ofRead rec) hb left)) (dec : ∀ k, rec.length = some k → hb = [] → (n : Int) = k) :
    CopiedRecord f flt rec left hb (writtenWith f (OutRecord.ofRead rec) hb left n)
      (({ rec.recHeaders with headers := writtenWith f (OutRecord.ofRead rec) hb left n } : StatusAndHeaders).toBytes ++ blockOf (OutRecord.ofRead rec) hb left ++ (crlf ++ crlf)) := by
  have hlast : lastValue (lit "Content-Length") (writtenWith f (OutRecord.ofRead rec) hb left n) = some (intToStr n) := lastValue_replace_self _ _ _
  obtain ⟨n1, n2, n3, n4, n5, n6⟩ := names_differ
  have hbase : rec.length ≠ none → baseHeaders (OutRecord.ofRead rec) = rec.recHeaders.headers := by
    intro hl
    unfold baseHeaders
    cases hr : rec.length with
    | none => exact absurd hr hl
    | some k => 
      have : (OutRecord.ofRead rec).length = some k := hr
      rw [this]
      rfl
  have b1 : named (lit "WARC-Block-Digest") (writtenWith f (OutRecord.ofRead rec) hb left n) = (digestedHeaders f (OutRecord.ofRead rec) hb left).filter (nameEq (lit "WARC-Block-Digest")) := by
    unfold writtenWith
    show List.filter (nameEq (lit "WARC-Block-Digest")) _ = _
    rw [filter_replace_passes (passes_other n2), typed_passes (passes_other n4)]
  have b2 : named (lit "WARC-Payload-Digest") (writtenWith f (OutRecord.ofRead rec) hb left n) = (digestedHeaders f (OutRecord.ofRead rec) hb left).filter (nameEq (lit "WARC-Payload-Digest")) := by
    unfold writtenWith
    show List.filter (nameEq (lit "WARC-Payload-Digest")) _ = _
    rw [filter_replace_passes (passes_other n3), typed_passes (passes_other n5)]
  refine ⟨h, ?_, ?_, ?_, ?_, ?_, ?_, ?_, ?_⟩
  · rcases hf with hf | ⟨h1, h2⟩
    · left
      refine ⟨hf, ⟨n, hlast⟩, ?_⟩
      rw [toBytes_headText]
      · rfl
      · intro he
        have he : rec.recHeaders.protocol = [] := he
        rw [he] at hf
        exact absurd hf (by decide)
    · right
      refine ⟨h1, h2, ⟨n, hlast⟩, ?_⟩
      unfold toBytes toStr firstLine
      dsimp only
      rw [h1, h2, headerLines_flatMap, utf8Encode_append _ (lit "\r\n"), show utf8Encode (lit "\r\n") = crlf by decide]
      rfl
  · have pw : ∀ {n : Str}, n ∈ ownNames → Passes n _ := fun h => passes_without h
    unfold writtenWith digestedHeaders without
    rw [filter_replace_passes (passes_without (by simp [ownNames])), typed_passes (passes_without (by simp [ownNames])), List.filter_append,
      newDigests_passes f hb left (passes_without (by simp [ownNames])) (passes_without (by simp [ownNames])), List.append_nil,
      base_passes _ (passes_without (by simp [ownNames])) (passes_without (by simp [ownNames])) (passes_without (by simp [ownNames]))]
    rfl
  · intro t ht
    unfold writtenWith typedHeaders
    have ht : (OutRecord.ofRead rec).contentType = some t := ht
    rw [lastValue_replace_other n1, ht]
    exact lastValue_replace_self _ _ _
  · intro hl
    rw [hlast, fit hl]
  · intro k hk h0
    rw [hlast, dec k hk h0]
  · intro hl m hm ⟨t, ht, hne⟩
    have htr : Loader.truthy (findHeader m rec.recHeaders.headers) = true := by
      rw [← Loader.firstValue_eq, ht]
      cases t with
      | nil => exact absurd rfl hne
      | cons => rfl
    simp only [List.mem_cons, List.not_mem_nil, or_false] at hm
    rcases hm with rfl | rfl
    · rw [b1, block_digests, hbase hl, htr]
      simp only [if_true, List.append_nil]
      rfl
    · rw [b2, payload_digests, hbase hl, htr]
      simp only [Bool.true_or, if_true, List.append_nil]
      rfl
  · intro hl hno
    rw [Loader.firstValue_eq] at hno
    rw [b1, block_digests, hbase hl, hno, filter_nil_iff.2 hno]
    rfl
  · intro hl hno
    rw [Loader.firstValue_eq] at hno
    rw [b2, payload_digests, hbase hl, hno, filter_nil_iff.2 hno]
    have e : noPayloadDigest (OutRecord.ofRead rec).recType = decide (rec.recType = some (lit "warcinfo") ∨ rec.recType = some (lit "revisit")) := by
      show noPayloadDigest rec.recType = _
      unfold noPayloadDigest
      rw [Bool.eq_iff_iff]
      simp only [Bool.or_eq_true, beq_iff_eq, decide_eq_true_eq]
    rw [e]
    by_cases hq : rec.recType = some (lit "warcinfo") ∨ rec.recType = some (lit "revisit")
    · rw [if_pos hq, decide_eq_true hq]
      rfl
    · rw [if_neg hq, decide_eq_false hq]
      rfl

end

section
variable {σ : Type} [Zlib] [PyStream σ] [Hashlib] [PyUni] {V : σ → Bytes → Prop} {IsMember : Bytes → Bytes → Prop} {T : Int} {N bs : Nat} {io : IterOpts}
  {n : Nat} {kf : Option Format} {off : Int} {ws : List (Int × Bytes)} {p : Portion}

theorem _root_.Warcio.ArchiveIter.AnyAfter.iterAll (L : LawfulGzip IsMember) (hV : ShortRead V) (hc : io.checkDigests = none) {it : ArchiveIter σ} {left : Bytes} (h : AnyAfter V T N bs io n kf off ws p left it) :
    ∃ bufs raw', Builder.iterAll it.raw = (bufs, .ok (), raw') ∧ bufs.flatten = left ∧ AnyAfter V T N bs io n kf off ws p [] { it with raw := raw' } := by
  unfold Builder.iterAll
  rw [ArchiveIter.iterStream_eq]
  exact readAll_any L hV hc (by decide) h

/-- The stream of the current record, as a payload stream. -/
def anyHolding (L : LawfulGzip IsMember) (hV : ShortRead V) (T : Int) (N bs : Nat) {io : IterOpts} (hc : io.checkDigests = none) (n : Nat) (kf : Option Format) (off : Int) (ws : List (Int × Bytes)) (p : Portion) (it : ArchiveIter σ) :
    Holding (RawStream (BufReader σ)) where
  holds raw d := AnyAfter V T N bs io n kf off ws p d { it with raw := raw }
  sends := by
    intro raw d h
    obtain ⟨bufs, raw', k1, k2, -⟩ := h.iterAll L hV hc
    exact ⟨bufs, raw', k1, k2⟩
  rewind := by
    intro raw d p s1 h ht hs
    cases hs

variable [Deflater]

/-- Writing the current record: the bytes, and the iterator goes on. -/
theorem copy_any_step {f : Bytes → Bytes} (H : Hashlib.hash (lit "sha1") = some f) (c : BuilderCfg) (L : LawfulGzip IsMember) (hV : ShortRead V) (hc : io.checkDigests = none) {it : ArchiveIter σ} {left : Bytes}
    (h : AnyAfter V T N bs io n kf off ws p left it) {cur : Record (RawStream (BufReader σ))} (hr : cur.rawStream = it.raw) {rec : Record Unit} (hcur : cur.plain = rec) {hb : Bytes}
    (hh : HttpPart c.filter (OutRecord.ofRead rec) hb) (hq : Readable rec) {o : OutFile} (ho : o.AtEnd) :
    ∃ (us : List Bytes) (hs : List Header) (r' : OutRecord (RawStream (BufReader σ))), write c (OutRecord.ofRead cur) o = (.ok (), r', o.extended (if c.gzip then Deflater.outFrom [] us ++ Deflater.flush us else us.flatten)) ∧
      CopiedRecord f c.filter rec left hb hs us.flatten ∧
      ∃ left', AnyAfter V T N bs io n kf off ws p left' { it with raw := putBack it.raw r' } := by
  subst hcur
  letI := anyHolding L hV T N bs hc n kf off ws p it
  have hraw : (OutRecord.ofRead cur).raw = .own it.raw := by rw [← hr]; rfl
  have hd : holds (OutRecord.ofRead cur).raw left := by rw [hraw]; exact h
  obtain ⟨k, us, r', h1, h2, h3, fit, dec, raw, orig, bufs, s, m1, m2, m3, m4⟩ := writeTo_given H c (OutRecord.ofRead cur) hd (httpPart_read (a := OutRecord.ofRead cur.plain) (b := OutRecord.ofRead cur) rfl hh) hq.payload hq.length
    { out := o, gz := if c.gzip then some [] else none }
  refine ⟨us, writtenWith f (OutRecord.ofRead cur.plain) hb left k, r', ?_, ?_, ?_⟩
  · unfold write
    rw [h1]
    cases c.gzip with
    | false =>
      simp only [Bool.false_eq_true, if_false]
      rw [foldl_write_plain us o ho]
      rfl
    | true =>
      simp only [if_true]
      rw [foldl_write_gz us [] o ho]
      simp only [Sink.flush, List.nil_append]
      rw [OutFile.write_end rfl]
      simp [OutFile.extended]
  · rw [h3, h2]
    refine copied_record hh hq.first (fun hl => fit ?_) dec
    cases hl with
    | unknown a b => exact .unknown a b
    | payload n a b c d => exact .payload n a b c d
    | block a b => exact .block a b
  · obtain ⟨bufs0, s0, i1, -, i3⟩ := h.iterAll L hV hc
    have i4 : Builder.iterAll (RecStream.own it.raw) = (bufs0, .ok (), .own s0) := by rw [iterAll_own, i1]
    rw [hraw] at m2
    have e1 : r'.raw = (r'.raw, r'.orig).1 := rfl
    have e2 : r'.orig = (r'.raw, r'.orig).2 := rfl
    rcases m2 with ⟨q1, q2⟩ | ⟨bufs', s', q1, q2⟩
    · have q2 : raw = .own it.raw := by
        rcases q2 with q2 | ⟨p, s, -, q2⟩
        · exact q2
        · cases q2
      have q1 : orig = none := q1
      subst q1 q2
      rw [i4] at m3
      cases m3
      split at m4
      · rw [m4] at e1
        exact ⟨left, by unfold putBack; rw [e1]; exact h⟩
      · rw [m4] at e1
        exact ⟨[], by unfold putBack; rw [e1]; exact i3⟩
    · rw [i4] at q2
      cases q2
      subst q1
      split at m4
      · rw [m4] at e1 e2
        cases raw with
        | own x => exact ⟨left, by unfold putBack; rw [e1]; exact m1⟩
        | mem x => exact ⟨[], by unfold putBack; rw [e1, e2]; exact i3⟩
        | closed => exact absurd m1 (fun h => h)
      · rw [m4] at e1
        exact ⟨[], by unfold putBack; rw [e1]; exact i3⟩

/-- The output for some records. -/
def Outputs (IsMember : Bytes → Bytes → Prop) (c : BuilderCfg) (bs : List Bytes) (z : Bytes) : Prop :=
  if c.gzip then ∃ zs, Each IsMember zs bs ∧ z = zs.flatten else z = bs.flatten

/-- The copy of any uncompressed file. -/
theorem copyLoop_parts {f : Bytes → Bytes} (H : Hashlib.hash (lit "sha1") = some f) (D : LawfulDeflater IsMember) (L : LawfulGzip IsMember) (hV : ShortRead V) {m : Nat} (hX : LineLaw (PlainAt V T N bs) m) (c : BuilderCfg)
    (hc : io.checkDigests = none) (ha : io.arc2warc = true) :
    ∀ (fuel : Nat) {n : Nat} {off : Int} {ws : List (Int × Bytes)} {data : Bytes} {it it0 : ArchiveIter σ} {k : Nat} {o : OutFile} (count : Nat), it.next = genLoop (k + 1) it0 →
    AnyTop V T N bs io n none off ws data it0 → data.length < fuel → o.AtEnd →
    ∃ x rs z, copyLoop c fuel it o count = (x.map (fun _ => count + rs.length), o.extended z) ∧ CopiedParts io f c.filter m n data x rs ∧ Outputs IsMember c rs z
  | 0, _, _, _, _, _, _, _, _, _, _, _, h, _ => by omega
  | fuel + 1, n, off, ws, data, it, it0, k, o, count, hn, ht, hf, ho => by
    have none : ∀ e, (.error e, o) = ((Except.error e : Except PyErr Unit).map (fun _ => count + ([] : List Bytes).length), o.extended []) := by
      intro e
      obtain ⟨b, p⟩ := o
      have ho : p = b.length := ho
      simp [OutFile.extended, ho, Except.map]
    have nil : Outputs IsMember c [] [] := by
      unfold Outputs
      split
      · exact ⟨[], .nil, rfl⟩
      · rfl
    have hread := next_readable it
    rcases ht.load L hV hX k with ⟨p, rec, left, it1, k1, k2, rfl, k4, k4', k5, k6, k7⟩ | ⟨e, it1, k1, k2, k3⟩
    · rw [if_pos ha] at k7
      rw [hn, k1] at hread
      obtain ⟨rec', r1, r2⟩ := hread rfl
      rw [k2] at r1
      cases r1
      unfold copyLoop
      rw [hn, k1]
      dsimp only
      have hcur : it1.current = some { format := rec.format, recType := rec.recType, recHeaders := rec.recHeaders, rawStream := it1.raw, httpHeaders := rec.httpHeaders, contentType := rec.contentType, length := rec.length, payloadLength := rec.payloadLength, checker := rec.checker } := by
        unfold ArchiveIter.current
        rw [k2]
        rfl
      rw [hcur]
      dsimp only
      rcases httpPart_or c.filter (OutRecord.ofRead rec) with ⟨hb, hh⟩ | ⟨h, e, g1, g2, g3⟩
      · obtain ⟨us, hs, r', s1, s2, left', s3⟩ := copy_any_step H c L hV hc k7 (cur := { format := rec.format, recType := rec.recType, recHeaders := rec.recHeaders, rawStream := it1.raw, httpHeaders := rec.httpHeaders, contentType := rec.contentType, length := rec.length, payloadLength := rec.payloadLength, checker := rec.checker }) rfl rfl hh r2 ho
        rw [s1]
        dsimp only
        rcases s3.next L hV with ⟨it3, k', q1, q2⟩ | ⟨hq, _⟩
        · have hlen : (resumed p.tail).length < fuel := by
            have h1 := congrArg List.length (skipped_append p.tail)
            have h2 := List.length_pos_iff.2 k4.some
            simp only [Portion.all, List.length_append] at h1 hf
            omega
          obtain ⟨x, rs, z, t1, t2, t3⟩ := copyLoop_parts H D L hV hX c hc ha fuel (o := o.extended (if c.gzip then Deflater.outFrom [] us ++ Deflater.flush us else us.flatten)) (count + 1) q1 q2 hlen rfl
          refine ⟨x, us.flatten :: rs, (if c.gzip then Deflater.outFrom [] us ++ Deflater.flush us else us.flatten) ++ z, ?_, .record n p rec left hb hs _ x rs k4 k4' k5 (fun h => k6 (.inr h)) s2 t2, ?_⟩
          · rw [t1]
            refine Prod.ext ?_ (by simp [OutFile.extended])
            show Except.map _ x = Except.map _ x
            congr 1
            funext _
            simp only [List.length_cons]
            omega
          · unfold Outputs at t3 ⊢
            cases hg : c.gzip with
            | false =>
              rw [hg] at t3
              simp only [Bool.false_eq_true, if_false] at t3 ⊢
              rw [t3]; rfl
            | true =>
              rw [hg] at t3
              simp only [if_true] at t3 ⊢
              obtain ⟨zs, t3, rfl⟩ := t3
              exact ⟨_ :: zs, .cons (D us) t3, rfl⟩
        · rw [hc] at hq; cases hq
      · refine ⟨.error e, [], [], ?_, .stuck n p rec left h e k4 k4' g1 g3, nil⟩
        have hp : write c (OutRecord.ofRead ({ format := rec.format, recType := rec.recType, recHeaders := rec.recHeaders, rawStream := it1.raw, httpHeaders := rec.httpHeaders, contentType := rec.contentType, length := rec.length, payloadLength := rec.payloadLength, checker := rec.checker } : Record (RawStream (BufReader σ)))) o =
            (.error e, { OutRecord.ofRead ({ format := rec.format, recType := rec.recType, recHeaders := rec.recHeaders, rawStream := it1.raw, httpHeaders := rec.httpHeaders, contentType := rec.contentType, length := rec.length, payloadLength := rec.payloadLength, checker := rec.checker } : Record (RawStream (BufReader σ))) with httpHeaders := some (h.toAsciiBytes c.filter).2 }, o) := by
          have hpr : prepareHttp c.filter (OutRecord.ofRead ({ format := rec.format, recType := rec.recType, recHeaders := rec.recHeaders, rawStream := it1.raw, httpHeaders := rec.httpHeaders, contentType := rec.contentType, length := rec.length, payloadLength := rec.payloadLength, checker := rec.checker } : Record (RawStream (BufReader σ)))) =
              (.error e, { OutRecord.ofRead ({ format := rec.format, recType := rec.recType, recHeaders := rec.recHeaders, rawStream := it1.raw, httpHeaders := rec.httpHeaders, contentType := rec.contentType, length := rec.length, payloadLength := rec.payloadLength, checker := rec.checker } : Record (RawStream (BufReader σ))) with httpHeaders := some (h.toAsciiBytes c.filter).2 }) := by
            have g1 : rec.httpHeaders = some h := g1
            unfold prepareHttp OutRecord.ofRead
            dsimp only
            rw [g1]
            dsimp only
            rw [g2]
            unfold computeHeadersBuffer
            generalize h.toAsciiBytes c.filter = y at g3
            obtain ⟨y, h'⟩ := y
            dsimp only at g3
            subst g3
            rfl
          unfold write writeTo
          rw [hpr]
        rw [hp]
        exact none e
    · refine ⟨_, [], [], ?_, .over n data e k3, nil⟩
      unfold copyLoop
      rw [hn, k1]
      by_cases he : e = .stopIteration
      · subst he
        rw [if_pos rfl]
        obtain ⟨b, p⟩ := o
        have ho : p = b.length := ho
        simp [OutFile.extended, ho, Except.map]
      · rw [if_neg he]
        have := none e
        cases e <;> first | exact absurd rfl he | exact this

end
end Warcio

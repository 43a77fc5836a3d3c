import Verif.Proofs.EnsureDigest
import Verif.Proofs.RecordLoader
import Verif.Spec.Written

/-!
# `_write_warc_record`
-/

set_option linter.unusedSectionVars false

namespace Warcio

open Builder Writer

theorem truthyHeaders_iff {h : Option StatusAndHeaders} : Loader.truthyHeaders h = true ↔ ∃ x, h = some x ∧ (x.statusline ≠ [] ∨ x.headers ≠ []) := by
  cases h with
  | none => simp [Loader.truthyHeaders]
  | some x =>
    simp only [Loader.truthyHeaders, StatusAndHeaders.truthy, Option.some.injEq, exists_eq_left']
    cases x.statusline <;> cases x.headers <;> simp

theorem truthy_iff {x : StatusAndHeaders} : x.truthy = true ↔ (x.statusline ≠ [] ∨ x.headers ≠ []) := by
  unfold StatusAndHeaders.truthy
  cases x.statusline <;> cases x.headers <;> simp

theorem toAsciiBytes_ne {h h' : StatusAndHeaders} {flt : Header → Option Header} {b : Bytes} (e : h.toAsciiBytes flt = (.ok b, h')) : b ≠ [] := by
  unfold StatusAndHeaders.toAsciiBytes at e
  split at e
  · cases e; simp
  · dsimp only at e
    split at e
    · cases e; simp
    · cases e

/-- Encoding the same headers again gives the same bytes. -/
theorem toAsciiBytes_again {h h' : StatusAndHeaders} {flt : Header → Option Header} {b : Bytes} (e : h.toAsciiBytes flt = (.ok b, h')) (x : Option Bytes) :
    (({ h' with headersBuff := x } : StatusAndHeaders).toAsciiBytes flt).1 = .ok b := by
  unfold StatusAndHeaders.toAsciiBytes at e
  split at e
  · rename_i b' hb'
    cases e
    unfold StatusAndHeaders.toAsciiBytes
    have : ({ h with headersBuff := x } : StatusAndHeaders).toStr flt = h.toStr flt := rfl
    rw [this, hb']
  · dsimp only at e
    split at e
    · rename_i b' hb'
      cases e
      unfold StatusAndHeaders.toAsciiBytes
      have : ({ h.percentEncode with headersBuff := x } : StatusAndHeaders).toStr flt = h.percentEncode.toStr flt := rfl
      rw [this, hb']
    · cases e

theorem toAsciiBytes_first {h h' : StatusAndHeaders} {flt : Header → Option Header} {x : Except PyErr Bytes} (e : h.toAsciiBytes flt = (x, h')) :
    h'.statusline = h.statusline ∧ (h'.headers = [] ↔ h.headers = []) ∧ h'.protocol = h.protocol := by
  unfold StatusAndHeaders.toAsciiBytes at e
  split at e
  · cases e; simp
  · dsimp only at e
    split at e <;> cases e <;> simp [StatusAndHeaders.percentEncode]

section
variable {σ : Type}

/-- `prepare` succeeds, and changes nothing but the HTTP headers. -/
theorem prepareHttp_eq {flt : Header → Option Header} {r : OutRecord σ} {hb : Bytes} (hh : HttpPart flt r hb) :
    ∃ http, prepareHttp flt r = (.ok (), { r with httpHeaders := http }) ∧ Prepared ({ r with httpHeaders := http } : OutRecord σ) ∧
      httpBytes ({ r with httpHeaders := http } : OutRecord σ) = hb ∧ (Loader.truthyHeaders http = true ↔ hb ≠ []) ∧
      ∀ r' : OutRecord σ, r'.httpHeaders = http → HttpPart flt r' hb := by
  unfold prepareHttp
  cases hh with
  | none h0 =>
    refine ⟨none, ?_, ?_, rfl, by simp [Loader.truthyHeaders], fun r' h => .none h⟩
    · rw [h0]; simp only; cases r; simp_all
    · intro h he; cases he
  | empty h h0 h1 h2 =>
    have ht : h.truthy = false := by
      cases hb : h.truthy with
      | false => rfl
      | true => rcases truthy_iff.1 hb with h | h <;> contradiction
    refine ⟨some h, ?_, ?_, ?_, ?_, fun r' h' => .empty h h' h1 h2⟩
    · rw [h0]
      simp only [ht]
      cases r; simp_all
    · intro h' he ht'
      cases he
      rw [ht] at ht'; cases ht'
    · simp [httpBytes, ht]
    · simp [Loader.truthyHeaders, ht]
  | some h hb h0 h1 h2 =>
    have ht : h.truthy = true := truthy_iff.2 h1
    cases he : h.toAsciiBytes flt with
    | mk x h' =>
      rw [he] at h2
      simp only at h2
      subst h2
      have hne := toAsciiBytes_ne he
      obtain ⟨f1, f2, f3⟩ := toAsciiBytes_first he
      have ht' : ({ h' with headersBuff := some hb } : StatusAndHeaders).truthy = true := by
        apply truthy_iff.2
        simp only
        rw [f1]
        rcases h1 with h1 | h1
        · exact .inl h1
        · exact .inr (fun h => h1 (f2.1 h))
      refine ⟨some { h' with headersBuff := some hb }, ?_, ?_, ?_, ?_, fun r' h' => .some _ hb h' (truthy_iff.1 ht') (toAsciiBytes_again he _)⟩
      · rw [h0]
        simp only [ht, Bool.not_true, Bool.false_eq_true, if_false, StatusAndHeaders.computeHeadersBuffer, he]
      · intro h'' he' _
        cases he'
        exact hne
      · simp only [httpBytes, ht', if_true, Option.getD_some]
      · simp [Loader.truthyHeaders, ht', hne]

variable [PyUni]

/-- The headers once stale ones are removed. -/
def baseHeaders (r : OutRecord σ) : List Header :=
  match r.length with
  | some _ => r.recHeaders.headers
  | none =>
    let h := (StatusAndHeaders.removeIn r.recHeaders.headers (lit "WARC-Block-Digest")).2
    let h := if r.recType = some (lit "revisit") then h else (StatusAndHeaders.removeIn h (lit "WARC-Payload-Digest")).2
    (StatusAndHeaders.removeIn h (lit "Content-Type")).2

/-- The headers with digests. -/
def digestedHeaders (f : Bytes → Bytes) (r : OutRecord σ) (hb d : Bytes) : List Header :=
  baseHeaders r ++ newDigests f (!(Loader.truthy (StatusAndHeaders.findHeader (lit "WARC-Payload-Digest") (baseHeaders r)) || noPayloadDigest r.recType))
    (!Loader.truthy (StatusAndHeaders.findHeader (lit "WARC-Block-Digest") (baseHeaders r))) hb d

/-- The headers with the content type. -/
def typedHeaders (ct : Option Str) (hs : List Header) : List Header :=
  match ct with
  | some t => (StatusAndHeaders.replaceIn hs (lit "Content-Type") t).2
  | none => hs

/-- All headers that are written. -/
def writtenHeaders (f : Bytes → Bytes) (r : OutRecord σ) (hb d : Bytes) : List Header :=
  (StatusAndHeaders.replaceIn (typedHeaders r.contentType (digestedHeaders f r hb d)) (lit "Content-Length") (intToStr (len (blockOf r hb d)))).2

variable [Hashlib] [PyFile σ] [Holding σ]

theorem complete_eq {f : Bytes → Bytes} (H : Hashlib.hash (lit "sha1") = some f) (flt : Header → Option Header) (r : OutRecord σ) {d : Bytes}
    (hd : holds r.raw d) (hp : Prepared r) :
    ∃ raw pl orig len', complete flt r =
        (.ok (), ({ r with raw := raw, payloadLength := pl, orig := orig, length := len', recHeaders := { r.recHeaders with headers := digestedHeaders f r (httpBytes r) d } } : OutRecord σ)) ∧
      holds raw d ∧ (pl = r.payloadLength ∨ pl = some (len d)) ∧ (r.length = none → pl = some (len d) ∧ len' = some (len d)) ∧ (r.length ≠ none → len' = r.length) ∧
      Aside r.raw r.orig raw orig := by
  unfold complete
  cases hl : r.length with
  | some n =>
    obtain ⟨raw, pl, orig, h1, h2, h3, h4, h5⟩ := ensureDigest_spec H flt r hd true true (fun _ => hp)
    refine ⟨raw, pl, orig, r.length, ?_, h2, h3, (fun h => by cases h), (fun _ => hl), h5⟩
    dsimp only
    rw [h1]
    simp only [Bool.true_and]
    congr 3
    unfold digestedHeaders baseHeaders wantPayload wantBlock
    rw [hl]
    rfl
  | none =>
    dsimp only
    generalize hh : (StatusAndHeaders.removeHeader (if r.recType = some (lit "revisit") then (r.recHeaders.removeHeader (lit "WARC-Block-Digest")).2
      else ((r.recHeaders.removeHeader (lit "WARC-Block-Digest")).2.removeHeader (lit "WARC-Payload-Digest")).2) (lit "Content-Type")).2 = h0
    have e0 : h0 = { r.recHeaders with headers := baseHeaders r } := by
      rw [← hh]
      unfold baseHeaders
      rw [hl]
      split
      · rename_i _; rfl
      · rename_i _; rfl
    have hp' : Prepared ({ r with recHeaders := h0 } : OutRecord σ) := hp
    obtain ⟨raw, pl, orig, h1, h2, h3, h4, h5⟩ := ensureDigest_spec H flt ({ r with recHeaders := h0 } : OutRecord σ) hd true true (fun _ => hp')
    have h4 := h4 hl
    refine ⟨raw, pl, orig, pl, ?_, h2, h3, fun _ => ⟨h4, h4⟩, fun h => absurd rfl h, h5⟩
    rw [hl] at h1
    rw [h1]
    simp only [Bool.true_and]
    rw [e0]
    rfl

theorem actualLength_eq {r : OutRecord σ} {hb d : Bytes} {r0 : OutRecord σ} (ht : r.recType = r0.recType) (hb1 : httpBytes r = hb)
    (hb2 : Loader.truthyHeaders r.httpHeaders = true ↔ hb ≠ []) (hl : LengthsFit r0 hb d)
    (hpl : r.payloadLength = r0.payloadLength ∨ r.payloadLength = some (len d))
    (hn : r0.length = none → r.payloadLength = some (len d) ∧ r.length = some (len d)) (hs : r0.length ≠ none → r.length = r0.length) :
    actualLength r = .ok (some (len (blockOf r0 hb d))) := by
  have hlen : len (blockOf r0 hb d) = len hb + (if headersOnly r then 0 else len d) := by
    unfold blockOf headersOnly
    rw [ht]
    by_cases h : r0.recType = some (lit "revisit")
    · simp [h, len]
    · have : (r0.recType == some (lit "revisit")) = false := by simpa using h
      simp [h, this, len]
  have hho : headersOnly r = true ↔ r0.recType = some (lit "revisit") := by simp [headersOnly, ht]
  unfold actualLength
  by_cases he : hb = []
  · rw [if_neg (by rw [hb2]; simp [he])]
    cases hl with
    | unknown h1 h2 =>
      rw [(hn h1).2, hlen]
      by_cases hr : r0.recType = some (lit "revisit")
      · rw [if_pos (hho.2 hr), h2 he hr, he]; rfl
      · rw [if_neg (fun h => hr (hho.1 h)), he]; simp [len]
    | payload n h1 => exact absurd he h1
    | block h1 h2 => rw [hs (by rw [h2]; simp), h2]
  · rw [if_pos (hb2.2 he), hb1]
    have fin : ∀ n : Int, r.payloadLength = some n → 0 ≤ n → (r0.recType ≠ some (lit "revisit") → n = len d) →
        (match r.payloadLength with
          | none => .error .typeError
          | some n => if 0 ≤ n then .ok (some (len hb + (if headersOnly r then 0 else n))) else .ok r.length : Except PyErr (Option Int)) =
        .ok (some (len (blockOf r0 hb d))) := by
      intro n h1 h2 h3
      rw [h1]
      simp only [if_pos h2]
      rw [hlen]
      by_cases hr : r0.recType = some (lit "revisit")
      · rw [if_pos (hho.2 hr), if_pos (hho.2 hr)]
      · rw [if_neg (fun h => hr (hho.1 h)), if_neg (fun h => hr (hho.1 h)), h3 hr]
    have nonneg : (0 : Int) ≤ len d := by simp [len]
    cases hl with
    | unknown h1 h2 => exact fin _ (hn h1).1 nonneg (fun _ => rfl)
    | payload n h1 h2 h3 h4 =>
      rcases hpl with h | h
      · exact fin n (h.trans h2) h3 h4
      · exact fin _ h nonneg (fun _ => rfl)
    | block h1 h2 =>
      rcases hpl with h | h
      · obtain ⟨n, k1, k2⟩ := h1 he
        rw [h, k1]
        simp only
        rw [if_neg (by omega), hs (by rw [h2]; simp), h2]
      · exact fin _ h nonneg (fun _ => rfl)

variable [Deflater]

/-- Everything that is written, call by call, and the record headers afterwards. -/
theorem writeTo_eq {f : Bytes → Bytes} (H : Hashlib.hash (lit "sha1") = some f) (c : BuilderCfg) (r : OutRecord σ) {hb d : Bytes}
    (hd : holds r.raw d) (hh : HttpPart c.filter r hb) (hl : LengthsFit r hb d) (out : Sink) :
    ∃ (ws : List Bytes) (r' : OutRecord σ), writeTo c r out = (.ok (), r', (ws.foldl Sink.write out).flush) ∧
      r'.recHeaders = { r.recHeaders with headers := writtenHeaders f r hb d } ∧
      ws.flatten = r'.recHeaders.toBytes ++ blockOf r hb d ++ (crlf ++ crlf) ∧
      (r'.recType = r.recType ∧ r'.contentType = r.contentType ∧ r'.length = some (len (blockOf r hb d)) ∧
        (r'.payloadLength = r.payloadLength ∨ r'.payloadLength = some (len d)) ∧ (r.length = none → r'.payloadLength = some (len d)) ∧ HttpPart c.filter r' hb) ∧
      ∃ raw orig bufs s, holds raw d ∧ Aside r.raw r.orig raw orig ∧ iterAll raw = (bufs, .ok (), s) ∧
        (r'.raw, r'.orig) = if r.recType = some (lit "revisit") then (raw, orig) else match orig with
          | none => (s, none)
          | some none => (.closed, some none)
          | some (some s) => (s, some none) := by
  obtain ⟨http, p1, p2, p3, p4, p5⟩ := prepareHttp_eq hh
  obtain ⟨raw, pl, orig, len', c1, c2, c3, c4, c5, c6⟩ := complete_eq H c.filter ({ r with httpHeaders := http } : OutRecord σ) hd p2
  rw [p3] at c1
  unfold writeTo
  rw [p1]
  simp only
  rw [c1]
  simp only
  have al : ∀ rh, actualLength ({ recType := r.recType, recHeaders := rh, raw := raw, httpHeaders := http, contentType := r.contentType, length := len', payloadLength := pl, orig := orig } : OutRecord σ) =
      .ok (some (len (blockOf r hb d))) := fun rh => actualLength_eq (r0 := r) (d := d) (hb := hb) rfl p3 p4 hl c3 c4 c5
  rw [al]
  simp only
  have hf : finalHeaders r.contentType (some (len (blockOf r hb d))) { r.recHeaders with headers := digestedHeaders f ({ r with httpHeaders := http } : OutRecord σ) hb d } =
      { r.recHeaders with headers := writtenHeaders f r hb d } := by
    unfold finalHeaders writtenHeaders typedHeaders
    cases r.contentType <;> rfl
  rw [hf]
  generalize hR : ({ r.recHeaders with headers := writtenHeaders f r hb d } : StatusAndHeaders) = R
  have hw : (if Loader.truthyHeaders http then (out.write R.toBytes).write hb else out.write R.toBytes) =
      ((if hb = [] then [R.toBytes] else [R.toBytes, hb]).foldl Sink.write out) := by
    by_cases he : hb = []
    · rw [if_neg (by rw [p4]; simp [he]), if_pos he]; rfl
    · rw [if_pos (p4.2 he), if_neg he]; rfl
  have p3' : ∀ x y z u v, httpBytes ({ recType := r.recType, recHeaders := R, raw := x, httpHeaders := http, contentType := y, length := z, payloadLength := u, orig := v } : OutRecord σ) = hb :=
    fun _ _ _ _ _ => p3
  rw [p3', hw]
  have hfl : (if hb = [] then [R.toBytes] else [R.toBytes, hb]).flatten = R.toBytes ++ hb := by
    by_cases he : hb = []
    · simp [he]
    · simp [he]
  generalize (if hb = [] then [R.toBytes] else [R.toBytes, hb]) = pre at hfl
  unfold writePayload
  by_cases hr : r.recType = some (lit "revisit")
  · have : ∀ x y z u v w, headersOnly ({ recType := r.recType, recHeaders := x, raw := y, httpHeaders := z, contentType := r.contentType, length := u, payloadLength := v, orig := w } : OutRecord σ) = true := by
      intros; simp [headersOnly, hr]
    rw [if_pos (this _ _ _ _ _ _)]
    obtain ⟨bufs, s', i1, i2⟩ := Holding.sends c2
    refine ⟨pre ++ [crlf ++ crlf], ({ recType := r.recType, recHeaders := R, raw := raw, httpHeaders := http, contentType := r.contentType, length := some (len (blockOf r hb d)), payloadLength := pl, orig := orig } : OutRecord σ), ?_, rfl, ?_, ⟨rfl, rfl, rfl, c3, fun h => (c4 h).1, p5 _ rfl⟩, raw, orig, bufs, s', c2, c6, i1, by rw [if_pos hr]⟩
    rotate_left
    · simp only [List.flatten_append, hfl, blockOf, hr, if_true, List.append_nil]
      simp
    · simp only [List.foldl_append, List.foldl_cons, List.foldl_nil]
  · have : ∀ x y z u v w, ¬ headersOnly ({ recType := r.recType, recHeaders := x, raw := y, httpHeaders := z, contentType := r.contentType, length := u, payloadLength := v, orig := w } : OutRecord σ) = true := by
      intros; simp [headersOnly, hr]
    rw [if_neg (this _ _ _ _ _ _)]
    obtain ⟨bufs, s', i1, i2⟩ := Holding.sends c2
    simp only [i1]
    refine ⟨pre ++ bufs ++ [crlf ++ crlf], restoreStream ({ recType := r.recType, recHeaders := R, raw := s', httpHeaders := http, contentType := r.contentType, length := some (len (blockOf r hb d)), payloadLength := pl, orig := orig } : OutRecord σ), ?_, ?_, ?_, ?_, raw, orig, bufs, s', c2, c6, i1, by rw [if_neg hr]; unfold restoreStream; cases orig with | none => rfl | some x => cases x <;> rfl⟩
    rotate_left
    · unfold restoreStream
      dsimp only
      split <;> rfl
    · have hrh : ∀ x : OutRecord σ, (restoreStream x).recHeaders = x.recHeaders := by
        intro x; unfold restoreStream; split <;> rfl
      rw [hrh]
      simp only [List.flatten_append, hfl, i2, blockOf, hr, if_false]
      simp
    · unfold restoreStream
      cases orig with
      | none => exact ⟨rfl, rfl, rfl, c3, fun h => (c4 h).1, p5 _ rfl⟩
      | some x => cases x <;> exact ⟨rfl, rfl, rfl, c3, fun h => (c4 h).1, p5 _ rfl⟩
    · simp only [List.foldl_append, List.foldl_cons, List.foldl_nil]

end

section
variable [Deflater]

theorem OutFile.write_end {o : OutFile} (h : o.pos = o.content.length) (b : Bytes) :
    o.write b = o.extended b := by
  unfold OutFile.write OutFile.extended
  rw [h]
  simp [List.take_of_length_le]

theorem foldl_write_plain (ws : List Bytes) (o : OutFile) (h : o.pos = o.content.length) :
    ws.foldl Sink.write { out := o } = { out := o.extended ws.flatten } := by
  induction ws generalizing o with
  | nil => obtain ⟨c, p⟩ := o; simp_all [OutFile.extended]
  | cons w ws ih =>
    rw [List.foldl_cons, Sink.write]
    simp only
    rw [OutFile.write_end h, ih _ rfl]
    simp [OutFile.extended]

theorem foldl_write_gz (ws hist : List Bytes) (o : OutFile) (h : o.pos = o.content.length) :
    ws.foldl Sink.write { out := o, gz := some hist } =
      { out := o.extended (Deflater.outFrom hist ws), gz := some (hist ++ ws) } := by
  induction ws generalizing o hist with
  | nil => obtain ⟨c, p⟩ := o; simp_all [Deflater.outFrom, OutFile.extended]
  | cons w ws ih =>
    rw [List.foldl_cons, Sink.write]
    simp only
    rw [OutFile.write_end h, ih _ _ rfl]
    simp [Deflater.outFrom, OutFile.extended]

end

section
variable {σ : Type} [PyUni] [Hashlib] [PyFile σ] [Holding σ] [Deflater]

/-- The record after it was written. -/
structure AfterWrite (flt : Header → Option Header) (r : OutRecord σ) (hb d : Bytes) (r' : OutRecord σ) : Prop where
  recType : r'.recType = r.recType
  contentType : r'.contentType = r.contentType
  length : r'.length = some (len (blockOf r hb d))
  payloadLength : r'.payloadLength = r.payloadLength ∨ r'.payloadLength = some (len d)
  unknown : r.length = none → r'.payloadLength = some (len d)
  http : HttpPart flt r' hb
  streams : ∃ raw orig bufs s, holds raw d ∧ Aside r.raw r.orig raw orig ∧ iterAll raw = (bufs, .ok (), s) ∧
    (r'.raw, r'.orig) = if r.recType = some (lit "revisit") then (raw, orig) else match orig with
      | none => (s, none)
      | some none => (.closed, some none)
      | some (some s) => (s, some none)

/-- A record is appended to a file. -/
theorem write_eq {f : Bytes → Bytes} (H : Hashlib.hash (lit "sha1") = some f) (c : BuilderCfg) (r : OutRecord σ) {hb d : Bytes}
    (hd : holds r.raw d) (hh : HttpPart c.filter r hb) (hl : LengthsFit r hb d) {o : OutFile} (ho : o.pos = o.content.length) :
    ∃ (ws : List Bytes) (r' : OutRecord σ), write c r o = (.ok (), r', o.extended (if c.gzip then Deflater.outFrom [] ws ++ Deflater.flush ws else ws.flatten)) ∧
      r'.recHeaders = { r.recHeaders with headers := writtenHeaders f r hb d } ∧
      ws.flatten = r'.recHeaders.toBytes ++ blockOf r hb d ++ (crlf ++ crlf) ∧ AfterWrite c.filter r hb d r' := by
  obtain ⟨ws, r', h1, h2, h3, ⟨g1, g2, g3, g4, g6, g5⟩, raw, orig, bufs, s, k1, k2, k3, k4⟩ := writeTo_eq H c r hd hh hl { out := o, gz := if c.gzip then some [] else none }
  refine ⟨ws, r', ?_, h2, h3, g1, g2, g3, g4, g6, g5, raw, orig, bufs, s, k1, k2, k3, ?_⟩
  rotate_left
  · exact k4
  unfold write
  rw [h1]
  cases c.gzip with
  | false =>
    simp only [Bool.false_eq_true, if_false]
    rw [foldl_write_plain ws o ho]
    rfl
  | true =>
    simp only [if_true]
    rw [foldl_write_gz ws [] o ho]
    simp only [Sink.flush, List.nil_append]
    rw [OutFile.write_end rfl]
    simp [OutFile.extended]

end
end Warcio

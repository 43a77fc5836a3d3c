import Verif.Proofs.ReadBack
import Verif.Props.Writer
import Verif.Props.Iterator

/-!
# Property C43: reading back what was written

Specification: `Verif/Spec/ReadBack.lean`.
-/

set_option linter.unusedSectionVars false

namespace Warcio.Props

open Warcio Writer Builder ArchiveIter

theorem extended_extended (o : OutFile) (a b : Bytes) : (o.extended a).extended b = o.extended (a ++ b) := by
  unfold OutFile.extended
  simp only [List.append_assoc]

theorem extended_inj {o : OutFile} {a b : Bytes} (h : o.extended a = o.extended b) : a = b := by
  unfold OutFile.extended at h
  simp only [OutFile.mk.injEq] at h
  exact List.append_cancel_left h.1

theorem extended_nil {o : OutFile} (h : o.AtEnd) : o.extended [] = o := by
  obtain ⟨b, p⟩ := o
  have h : p = b.length := h
  simp [OutFile.extended, h]

/-- A record with its HTTP header bytes, its payload, and what was written for it. -/
def withBytes (rs : List (OutRecord FileObj × Bytes × Bytes)) (bs : List Bytes) : List (OutRecord FileObj × Bytes × Bytes × Bytes) :=
  List.zipWith (fun x b => (x.1, x.2.1, x.2.2, b)) rs bs

section
variable [PyUni] [Hashlib] [Deflater]

theorem writeAll_plain {f : Bytes → Bytes} (H : Hashlib.hash (lit "sha1") = some f) {c : BuilderCfg} (hg : c.gzip = false) :
    ∀ (rs : List (OutRecord FileObj × Bytes × Bytes)), (∀ x ∈ rs, Writable c.filter x.1 x.2.1 x.2.2) → ∀ {o : OutFile}, o.AtEnd →
      writeAll c (rs.map (·.1)) o = (.ok (), o.extended (rs.flatMap (fun x => (fileRecord f x.2.1 x.2.2 x.1).bytes)))
  | [], _, o, ho => by
    rw [List.flatMap_nil, extended_nil ho]; rfl
  | x :: rs, hw, o, ho => by
    obtain ⟨r', k1, -, -⟩ := write_plain H hg (hw x (by simp)) ho
    rw [List.map_cons, writeAll, k1]
    dsimp only
    rw [writeAll_plain H hg rs (fun y hy => hw y (by simp [hy])) (extended_atEnd _ _), extended_extended]
    rfl

theorem write_gz {IsMember : Bytes → Bytes → Prop} (D : LawfulDeflater IsMember) {f : Bytes → Bytes} (H : Hashlib.hash (lit "sha1") = some f) {c : BuilderCfg} (hg : c.gzip = true) {r : OutRecord FileObj} {hb d : Bytes}
    (hw : Writable c.filter r hb d) {o : OutFile} (ho : o.AtEnd) :
    ∃ z r', write c r o = (.ok (), r', o.extended z) ∧ IsMember z (fileRecord f hb d r).bytes := by
  have hc : c = { c with gzip := true } := by
    obtain ⟨a, b, e⟩ := c
    simp only [BuilderCfg.mk.injEq] at hg ⊢
    simp_all
  obtain ⟨k1, k2, k3⟩ := C45_member D c r ho
  obtain ⟨r', m1, -, -⟩ := write_plain (c := { c with gzip := false }) H rfl hw ho
  rw [m1] at k1 k2 k3
  obtain ⟨z, p, q1, q2, q3⟩ := k3 k1
  rw [← hc] at k1 k2 q2
  refine ⟨z, r', ?_, ?_⟩
  · rw [show write c r o = ((write c r o).1, (write c r o).2.1, (write c r o).2.2) from rfl, k1, k2, q2]
  · rw [← extended_inj q3] at q1
    exact q1

theorem writeAll_gz {IsMember : Bytes → Bytes → Prop} (D : LawfulDeflater IsMember) {f : Bytes → Bytes} (H : Hashlib.hash (lit "sha1") = some f) {c : BuilderCfg} (hg : c.gzip = true) :
    ∀ (rs : List (OutRecord FileObj × Bytes × Bytes)), (∀ x ∈ rs, Writable c.filter x.1 x.2.1 x.2.2) → ∀ {o : OutFile}, o.AtEnd →
      ∃ ms : List (Bytes × WarcRecord), ms.map (·.2) = rs.map (fun x => fileRecord f x.2.1 x.2.2 x.1) ∧ (∀ m ∈ ms, IsMember m.1 m.2.bytes) ∧
        writeAll c (rs.map (·.1)) o = (.ok (), o.extended (ms.flatMap (·.1)))
  | [], _, o, ho => ⟨[], rfl, by simp, by rw [List.flatMap_nil, extended_nil ho]; rfl⟩
  | x :: rs, hw, o, ho => by
    obtain ⟨z, r', k1, k2⟩ := write_gz D H hg (hw x (by simp)) ho
    obtain ⟨ms, m1, m2, m3⟩ := writeAll_gz D H hg rs (fun y hy => hw y (by simp [hy])) (extended_atEnd o z)
    refine ⟨(z, fileRecord f x.2.1 x.2.2 x.1) :: ms, by simp [m1], ?_, ?_⟩
    · intro m hm
      rcases List.mem_cons.1 hm with rfl | hm
      · exact k2
      · exact m2 m hm
    · rw [List.map_cons, writeAll, k1]
      dsimp only
      rw [m3, extended_extended]
      rfl

end

section
variable [PyUni] [Hashlib] [Deflater]

theorem weaker_plain (f : Bytes → Bytes) {io : IterOpts} {m : Nat} : ∀ (rs : List (OutRecord FileObj × Bytes × Bytes)) (off : Int), (∀ x ∈ rs, Regular x.1) →
    Weaker (WarcRecord.placed io m off (rs.map (fun x => fileRecord f x.2.1 x.2.2 x.1)))
      (written io m (fun b => len b - 4) off (withBytes rs (rs.map (fun x => (fileRecord f x.2.1 x.2.2 x.1).bytes))))
  | [], _, _ => .nil
  | x :: rs, off, h => by
    refine .cons ⟨fun rec left hs => (h x (by simp)).same hs (headersFor f x.1 x.2.1 x.2.2), rfl, ?_, rfl, fun _ => rfl⟩ (weaker_plain f rs _ (fun y hy => h y (by simp [hy])))
    simp only [WarcRecord.bytes, len, List.length_append]
    simp [fileRecord, WarcRecord.expected]

theorem weaker_gz (f : Bytes → Bytes) {io : IterOpts} {m : Nat} : ∀ (rs : List (OutRecord FileObj × Bytes × Bytes)) (ms : List (Bytes × WarcRecord)) (off : Int), (∀ x ∈ rs, Regular x.1) →
    ms.map (·.2) = rs.map (fun x => fileRecord f x.2.1 x.2.2 x.1) →
    Weaker (WarcRecord.placedGz io m off ms) (written io m (fun b => len b) off (withBytes rs (ms.map (·.1))))
  | [], ms, _, _, e => by
    have : ms = [] := by simpa using e
    subst this
    exact .nil
  | x :: rs, [], _, _, e => by simp at e
  | x :: rs, (z, w) :: ms, off, h, e => by
    simp only [List.map_cons, List.cons.injEq] at e
    obtain ⟨rfl, e⟩ := e
    exact .cons ⟨fun rec left hs => (h x (by simp)).same hs (headersFor f x.1 x.2.1 x.2.2), rfl, rfl, rfl, fun _ => rfl⟩ (weaker_gz f rs ms _ (fun y hy => h y (by simp [hy])) e)

end

section
variable [PyUni] [Hashlib] [Deflater] [Zlib] {IsMember : Bytes → Bytes → Prop}

/-- C43: records written one after the other and read back are the same records, at the positions
where they were written; for plain files.  `written` says what is read; in particular the stream of
each record holds its payload, see `C43_response`.  The records are `Writable` (true lengths,
HTTP headers that can be encoded) and `Regular` (well-formed headers). -/
theorem C43_plain (L : LawfulGzip IsMember) {f : Bytes → Bytes} (H : Hashlib.hash (lit "sha1") = some f) {c : BuilderCfg} (hg : c.gzip = false)
    {rs : List (OutRecord FileObj × Bytes × Bytes)} (hw : ∀ x ∈ rs, Writable c.filter x.1 x.2.1 x.2.2) (hr : ∀ x ∈ rs, Regular x.1) :
    ∃ bs : List Bytes, bs.length = rs.length ∧ writeAll c (rs.map (·.1)) {} = (.ok (), ({} : OutFile).extended bs.flatten) ∧
      ∀ {g : FileObj} {io : IterOpts} {size m : Nat} {kf : Option Format}, g.rest = bs.flatten → Reads g size m → io.verifyHttp = false → io.checkDigests = none →
        kf ≠ some .arc → ∃ it, openArchive g io size kf = .ok it ∧ ∀ plan, PlanOk plan →
          Yields .stopIteration (written io m (fun b => len b - 4) g.origin (withBytes rs bs)) plan (iterate it plan) := by
  refine ⟨rs.map (fun x => (fileRecord f x.2.1 x.2.2 x.1).bytes), by simp, ?_, ?_⟩
  · rw [writeAll_plain H hg rs hw (o := {}) rfl]
    simp [List.flatMap]
  · intro g io size m kf hrest hreads hv hc hk
    have hfit : Fit io (rs.map (fun x => fileRecord f x.2.1 x.2.2 x.1)) := by
      refine ⟨?_, fun _ _ => .inl hc, hv⟩
      intro w hw
      obtain ⟨x, hx, rfl⟩ := List.mem_map.1 hw
      exact (hr x hx).good
    obtain ⟨it, k1, k2⟩ := C32_records L hfit (by rw [hrest, List.flatMap, List.map_map]; rfl) hreads hk
    exact ⟨it, k1, fun plan hp => (k2 plan hp).mono (weaker_plain f rs _ hr)⟩

/-- C43 for gzip files: positions and sizes are those of the members. -/
theorem C43_gzip (L : LawfulGzip IsMember) (D : LawfulDeflater IsMember) {f : Bytes → Bytes} (H : Hashlib.hash (lit "sha1") = some f) {c : BuilderCfg} (hg : c.gzip = true)
    {rs : List (OutRecord FileObj × Bytes × Bytes)} (hne : rs ≠ []) (hw : ∀ x ∈ rs, Writable c.filter x.1 x.2.1 x.2.2) (hr : ∀ x ∈ rs, Regular x.1) :
    ∃ bs : List Bytes, bs.length = rs.length ∧ writeAll c (rs.map (·.1)) {} = (.ok (), ({} : OutFile).extended bs.flatten) ∧
      ∀ {g : FileObj} {io : IterOpts} {size m : Nat} {kf : Option Format}, g.rest = bs.flatten → ReadsGz g size m bs → io.verifyHttp = false → io.checkDigests = none →
        kf ≠ some .arc → ∃ it, openArchive g io size kf = .ok it ∧ ∀ plan, PlanOk plan →
          Yields .stopIteration (written io m (fun b => len b) g.origin (withBytes rs bs)) plan (iterate it plan) := by
  obtain ⟨ms, m1, m2, m3⟩ := writeAll_gz D H hg rs hw (o := {}) rfl
  have hlen : ms.length = rs.length := by simpa using congrArg List.length m1
  refine ⟨ms.map (·.1), by simpa using hlen, by rw [m3]; rfl, ?_⟩
  intro g io size m kf hrest hreads hv hc hk
  have hfit : Fit io (ms.map (·.2)) := by
    refine ⟨?_, fun _ _ => .inl hc, hv⟩
    rw [m1]
    intro w hw
    obtain ⟨x, hx, rfl⟩ := List.mem_map.1 hw
    exact (hr x hx).good
  obtain ⟨it, k1, k2⟩ := C34_records L hfit m2 (by rintro rfl; exact hne (List.length_eq_zero_iff.1 hlen.symm)) (by rw [hrest]; rfl) hreads hk
  exact ⟨it, k1, fun plan hp => (k2 plan hp).mono (weaker_gz f rs ms _ hr m1)⟩

/-- The user's view of C43: a response with its own HTTP headers (ASCII) is written, plain or
compressed, to an empty file.  Reading gives one record of the same type, version, length, content
type and HTTP headers; its other WARC headers are those of the record, in order; `read()` gives the
payload, and there is nothing else.  Header lines have at most as many bytes as there are in a block
of the reader. -/
theorem C43_response (L : LawfulGzip IsMember) (D : LawfulDeflater IsMember) {f : Bytes → Bytes} (H : Hashlib.hash (lit "sha1") = some f) {c : BuilderCfg}
    (hf : c.filter = some) {r : OutRecord FileObj} (hr : Regular r) {d : Bytes} (hd : Holds r.raw d) {h : StatusAndHeaders} (hh : r.httpHeaders = some h)
    (hreg : RegularHttp h) (ha : isAscii (headText h.protocol h.statusline h.headers) = true)
    (hlen : r.length = none ∨ r.payloadLength = some (len d)) (hn : r.recType ≠ some (lit "revisit"))
    (hty : HttpRecord r.recType (firstValue (lit "WARC-Target-URI") r.recHeaders.headers)) :
    ∃ (r' : OutRecord FileObj) (z : Bytes), write c r {} = (.ok (), r', ({} : OutFile).extended z) ∧
      ∀ {g : FileObj} {size m : Nat} {io : IterOpts}, g.rest = z → g.caps = [] → 2 ≤ size → m ≤ size → (c.gzip = true → Steady size m z) →
        HeadWithin m (utf8Encode (headText h.protocol h.statusline h.headers) ++ d) →
        io.verifyHttp = false → io.checkDigests = none → io.noRecordParse = false →
        ∃ it rec, openArchive g io size none = .ok it ∧
          iterate it [[.call (.read none)], []] = [.ok (some rec, [.ok (.bytes d)]), .error .stopIteration] ∧
          rec.recType = r.recType ∧ rec.recHeaders.protocol = r.recHeaders.protocol ∧
          rec.httpHeaders.map (fun x => (x.protocol, x.statusline, x.headers)) = some (h.protocol, h.statusline, h.headers) ∧
          rec.payloadLength = some (len d) ∧ HeadersFor r (utf8Encode (headText h.protocol h.statusline h.headers) ++ d) rec.recHeaders.headers := by
  generalize hbb : utf8Encode (headText h.protocol h.statusline h.headers) = hb
  have htb : h.toBytes = hb := by rw [toBytes_headText hreg.protocol.1, hbb]
  have hasc : isAscii h.toStr = true := by
    have e : headText h.protocol h.statusline h.headers = h.toStr ++ lit "\r\n" := by
      have e : utf8Encode (headText h.protocol h.statusline h.headers) = utf8Encode (h.toStr ++ lit "\r\n") := by
        rw [hbb, ← htb, utf8Encode_append]
        rfl
      have e := congrArg utf8Decode e
      rw [utf8Decode_encode, utf8Decode_encode] at e
      exact Option.some.inj e
    rw [e] at ha
    unfold isAscii at ha ⊢
    rw [List.all_append, Bool.and_eq_true] at ha
    exact ha.1
  have hpart : HttpPart c.filter r hb := by
    refine .some h hb hh hreg.truthy ?_
    rw [hf]
    show (h.toAsciiBytes).1 = _
    rw [C15_ascii_unchanged h hasc, htb]
  have hne : hb ≠ [] := by
    intro hc
    rw [← htb] at hc
    have := (httpHead_toBytes hreg []).first
    rw [List.append_nil, hc] at this
    exact this rfl
  have hw : Writable c.filter r hb d := by
    refine ⟨hd, hpart, ?_, hr.protocol_ne⟩
    rcases hlen with hl | hl
    · exact .unknown hl (fun h => absurd h hne)
    · exact .payload _ hne hl (by simp only [len]; omega) (fun _ => rfl)
  have hbl : blockOf r hb d = hb ++ d := by simp [blockOf, hn]
  have hone : ∀ x ∈ [(r, hb, d)], Writable c.filter x.1 x.2.1 x.2.2 ∧ Regular x.1 := by
    intro x hx
    rw [List.mem_singleton.1 hx]
    exact ⟨hw, hr⟩
  obtain ⟨bs, k1, k2, k3⟩ : ∃ bs : List Bytes, bs.length = [(r, hb, d)].length ∧ writeAll c ([(r, hb, d)].map (·.1)) {} = (.ok (), ({} : OutFile).extended bs.flatten) ∧
      ∀ {g : FileObj} {io : IterOpts} {size m : Nat}, g.rest = bs.flatten → g.caps = [] → 2 ≤ size → m ≤ size → (c.gzip = true → ∀ b ∈ bs, Steady size m b) →
        io.verifyHttp = false → io.checkDigests = none → ∃ it sz, openArchive g io size none = .ok it ∧ ∀ plan, PlanOk plan →
          Yields .stopIteration (written io m sz g.origin (withBytes [(r, hb, d)] bs)) plan (iterate it plan) := by
    cases hg : c.gzip with
    | false =>
      obtain ⟨bs, a1, a2, a3⟩ := C43_plain L H hg (fun x hx => (hone x hx).1) (fun x hx => (hone x hx).2)
      refine ⟨bs, a1, a2, ?_⟩
      intro g io size m e1 e2 e3 e4 _ e6 e7
      obtain ⟨it, b1, b2⟩ := a3 e1 ⟨e3, by rw [e2]; simp, .inr ⟨e2, e4⟩⟩ e6 e7 (kf := none) (by simp)
      exact ⟨it, _, b1, b2⟩
    | true =>
      obtain ⟨bs, a1, a2, a3⟩ := C43_gzip L D H hg (by simp) (fun x hx => (hone x hx).1) (fun x hx => (hone x hx).2)
      refine ⟨bs, a1, a2, ?_⟩
      intro g io size m e1 e2 e3 e4 e5 e6 e7
      obtain ⟨it, b1, b2⟩ := a3 e1 (m := m) ⟨by omega, .inr ⟨e2, e5 rfl⟩⟩ e6 e7 (kf := none) (by simp)
      exact ⟨it, _, b1, b2⟩
  obtain ⟨z, rfl⟩ : ∃ z, bs = [z] := by
    match bs, k1 with
    | [z], _ => exact ⟨z, rfl⟩
  have hz : [z].flatten = z := by simp
  rw [hz] at k2 k3
  obtain ⟨r', q1⟩ : ∃ r', write c r {} = (.ok (), r', ({} : OutFile).extended z) := by
    rw [List.map_singleton, writeAll] at k2
    generalize write c r {} = w at k2
    obtain ⟨x, r', o'⟩ := w
    cases x with
    | error e => cases k2
    | ok u =>
      simp only [writeAll, Prod.mk.injEq, true_and] at k2
      exact ⟨r', by rw [k2]⟩
  refine ⟨r', z, q1, ?_⟩
  intro g size m io e1 e2 e3 e4 e5 e6 e7 e8 e9
  obtain ⟨it, sz, b1, b2⟩ := k3 e1 e2 e3 e4 (fun hg b hb' => by rw [List.mem_singleton.1 hb']; exact e5 hg) e7 e8
  have hy := b2 [[.call (.read none)], []] (by
    intro ops ho o hoo
    simp only [List.mem_cons, List.not_mem_nil, or_false] at ho
    rcases ho with rfl | rfl
    · rw [List.mem_singleton.1 hoo]; decide
    · cases hoo)
  refine ⟨it, ?_⟩
  generalize iterate it [[.call (.read none)], []] = steps at hy
  cases hy with
  | record _ _ _ _ steps rec left vs s1 s2 s3 =>
    obtain ⟨t1, t2, t3⟩ := s1.http e9 hty h hreg hbb.symm (by rw [hbl]; exact e6)
    rw [hbl] at t1
    have hleft : left = d := List.append_cancel_left t1
    subst hleft
    refine ⟨rec, b1, ?_, s1.recType, s1.version.1, t3, t2, hbl ▸ s1.headers⟩
    cases s3 with
    | stop _ _ =>
      cases s2 with
      | call _ c p left ops vs v1 v2 v3 v4 =>
        cases v4 with
        | nil _ left =>
          have := v1 none rfl
          have e : (Call.read none).expect (p ++ left) = p ++ left := rfl
          rw [e] at this
          rw [← this]
          rfl

end

/-! ## The hypotheses are met, and the claims that fail -/

section
open Toy

/-- What is seen of a step: headers, HTTP headers and all that the stream holds, or the exception. -/
def wSees : Step → PyErr ⊕ List (Str × Str) × List (Str × Str) × Bytes
  | .ok (some rec, [.ok (.bytes b)]) => .inr (rec.recHeaders.headers, (rec.httpHeaders.map (·.headers)).getD [], b)
  | .ok _ => .inr ([], [], [])
  | .error e => .inl e

/-- Write a record, plain or compressed, and read the file. -/
def wBack (gzip : Bool) (r : OutRecord FileObj) : List (PyErr ⊕ List (Str × Str) × List (Str × Str) × Bytes) :=
  (steps { content := (write { gzip := gzip } r {}).2.2.content } {} 16384 [[.call (.read none)], [.call (.read none)]]).map wSees

theorem w_regular : Regular wResponse where
  version := by decide
  status := by decide
  headers := by
    intro h hh
    simp only [wResponse, wHead, List.mem_cons, List.not_mem_nil, or_false] at hh
    rcases hh with rfl | rfl | rfl | rfl <;> exact ⟨⟨by decide, by decide, by decide, by decide, by decide⟩, by decide, by decide⟩
  ctype t ht := by
    cases ht
    exact ⟨⟨by decide, by decide, by decide, by decide, by decide⟩, by decide, by decide⟩
  oneLength := by decide
  oneType := by decide
  recType := by decide
  uri _ := by decide
  tidy u hu := by
    have : u = lit "http://a/" := by
      have e : firstValue (lit "WARC-Target-URI") wResponse.recHeaders.headers = some (lit "http://a/") := by decide
      rw [e] at hu
      exact (Option.some.inj hu).symm
    subst this
    refine ⟨by decide, ?_⟩
    intro m hm
    have := congrArg List.head? hm
    rw [List.cons_append, List.head?_cons] at this
    revert this
    decide

/-- The hypotheses of C43 hold for a response. -/
example : Writable some wResponse (utf8Encode (lit "HTTP/1.0 200 OK\r\nA: b\r\n\r\n")) [97, 98, 99] ∧ Regular wResponse ∧ RegularHttp wHttp ∧
    isAscii (headText wHttp.protocol wHttp.statusline wHttp.headers) = true ∧ wResponse.payloadLength = some 3 ∧ wResponse.recType ≠ some (lit "revisit") ∧
    HttpRecord wResponse.recType (firstValue (lit "WARC-Target-URI") wResponse.recHeaders.headers) ∧
    HeadWithin 17 (utf8Encode (headText wHttp.protocol wHttp.statusline wHttp.headers) ++ [97, 98, 99]) ∧ LawfulDeflater IsMember := by
  refine ⟨⟨rfl, w_httpPart, .payload 3 (by decide) rfl (by decide) (by decide), by decide⟩, w_regular, ⟨by decide, by decide, ?_, .inl (by decide)⟩, by decide, rfl, by decide,
    ⟨.inl rfl, lit "http://a/", by decide, .inl (by decide)⟩, ?_, lawfulDeflater⟩
  · intro x hx
    rw [List.mem_singleton.1 hx]
    exact ⟨⟨by decide, by decide, by decide, by decide, by decide⟩, by decide, by decide⟩
  · refine .line (by decide +kernel) (by decide +kernel) (.line (by decide +kernel) (by decide +kernel) (.blank (by decide +kernel) (by decide +kernel) (by decide +kernel)))

/-- The headers that a record has after it was written. -/
def wAfter (r : OutRecord FileObj) : List (Str × Str) :=
  (write { gzip := true } r {}).2.1.recHeaders.headers

set_option synthInstance.maxSize 1024 in
/-- What C43 is about, computed, with compression: the headers read are those that the record has
after it was written. -/
example : wBack true wResponse =
    [.inr (wAfter wResponse, [(lit "A", lit "b")], [97, 98, 99]), .inl .stopIteration] := by
  decide +kernel

/-- C43 fails for a header value with a line break: it is read as two headers. -/
theorem C43_line_break :
    (wBack false { wResponse with recHeaders := (wHead (lit "response")).addHeader (lit "X") (lit "a\r\nWARC-Type: resource") }).map
      (Sum.map id (fun x => (values (lit "X") x.1, values (lit "WARC-Type") x.1))) =
    [.inr ([lit "a"], [lit "response", lit "resource"]), .inl .stopIteration] := by
  decide +kernel

/-- C43 fails for a URI in angle brackets: these are lost. -/
theorem C43_brackets :
    (wBack false { wResponse with recHeaders := ((wHead (lit "response")).replaceHeader (lit "WARC-Target-URI") (lit "<http://a/>")).2 }).map
      (Sum.map id (fun x => values (lit "WARC-Target-URI") x.1)) =
    [.inr [lit "http://a/"], .inl .stopIteration] := by
  decide +kernel

/-- C43 fails for two `Content-Length` headers: only the last is set, the reader takes the first,
and the rest of the payload is lost without an exception. -/
theorem C43_two_lengths :
    (wBack false { wResponse with httpHeaders := none, recHeaders := ((wHead (lit "metadata")).addHeader (lit "Content-Length") (lit "1")).addHeader (lit "content-length") (lit "1"), recType := some (lit "metadata") }).map
      (Sum.map id (fun x => (values (lit "Content-Length") x.1, x.2.2))) =
    [.inr ([lit "1", lit "3"], [97]), .inl .stopIteration] := by
  decide +kernel

end
end Warcio.Props

import Verif.Proofs.ErrsTools
import Verif.Proofs.ErrsCause
import Verif.Props.AnyInput
import Verif.Toy

/-!
# C81: which exceptions can be raised, whatever a file holds

`DigestErr` and `NextErr` (`Verif/Spec/Errors.lean`) say which ones are expected.
-/

set_option linter.unusedSectionVars false

namespace Warcio.Props

open Warcio ArchiveIter

section
variable [Zlib] [Hashlib] [PyUni]

/-- The only exception of the model that is none of Python. -/
def Fuel (e : PyErr) : Prop := e = .outOfFuel

omit [Hashlib] [PyUni] in
/-- Opening an archive raises nothing, as zlib is part of Python. -/
theorem C81_open (hg : (Zlib.codec .gzip).isSome = true) (f : FileObj) (io : IterOpts) (bs : Nat) (kf : Option Format) : ∃ it, openArchive f io bs kf = .ok it := by
  unfold openArchive ArchiveIter.new BufReader.new
  dsimp only
  cases hc : Zlib.codec .gzip with
  | none => rw [hc] at hg; cases hg
  | some c => exact ⟨_, rfl⟩

/-- C81: whatever a file holds, going to the next record raises `StopIteration` or one of `NextErr`, and
reading a record one of `DigestErr`. -/
theorem C81_iterate [TameZlib] {f : FileObj} {io : IterOpts} {bs : Nat} {kf : Option Format} {it : ArchiveIter Source} (h : openArchive f io bs kf = .ok it) (plan : List (List UserOp)) :
    ∀ step ∈ iterate it plan,
      (∀ e, step = .error e → e = .stopIteration ∨ NextErr io e) ∧
      (∀ rec vs, step = .ok (rec, vs) → ∀ e, .error e ∈ vs → DigestErr io e) := by
  intro step hm
  obtain ⟨h1, h2⟩ := iterate_gives (E := Fuel) (ok := fun _ => True) rfl (source_reads Fuel) plan it (openArchive_safe h) step hm
  have hends := iterate_ends plan it (openArchive_left h).1
  have hnf : step ≠ .error .outOfFuel ∧ ∀ rec vs, step = .ok (rec, vs) → .error .outOfFuel ∉ vs := by
    clear h1 h2
    revert hm
    generalize iterate it plan = steps at *
    generalize it.left = n at hends
    induction hends with
    | cut n => intro hm; cases hm
    | stop n e rest he hr =>
      intro hm
      rcases List.mem_cons.1 hm with rfl | hm
      · exact ⟨(fun h => he (by cases h; rfl)), (fun rec vs h => by cases h)⟩
      · rw [hr step hm]
        exact ⟨(fun h => by cases h), (fun rec vs h => by cases h)⟩
    | record n rec vs steps hv _ ih =>
      intro hm
      rcases List.mem_cons.1 hm with rfl | hm
      · exact ⟨(fun h => by cases h), (fun rec' vs' h hm => by cases h; exact hv _ hm rfl)⟩
      · exact ih hm
  refine ⟨fun e he => ?_, fun rec vs hs e he => ?_⟩
  · rcases h1 e he with h | h | h
    · exact absurd (by rw [he, h]) hnf.1
    · exact .inl h
    · exact .inr h
  · rcases h2 rec vs hs e he with h | ⟨c, hc, (rfl | rfl) | ⟨rfl, rfl⟩⟩
    · have h : e = .outOfFuel := h
      subst h
      exact absurd he (hnf.2 rec vs hs)
    · show io.checkDigests ≠ none; rw [hc]; exact (fun h => by cases h)
    · show io.checkDigests ≠ none; rw [hc]; exact (fun h => by cases h)
    · exact hc

/-- C81: if HTTP headers are not parsed and digests not checked, then iterating raises only `StopIteration`
and subclasses of `ArchiveLoadFailed`, and reading records nothing. -/
theorem C81_bare [TameZlib] {f : FileObj} {io : IterOpts} (hn : io.noRecordParse = true) (hd : io.checkDigests = none) {bs : Nat} {kf : Option Format} {it : ArchiveIter Source}
    (h : openArchive f io bs kf = .ok it) (plan : List (List UserOp)) :
    ∀ step ∈ iterate it plan,
      (∀ e, step = .error e → e = .stopIteration ∨ e.isArchiveLoadFailed = true) ∧
      (∀ rec vs, step = .ok (rec, vs) → ∀ e, .error e ∉ vs) := by
  intro step hm
  obtain ⟨h1, h2⟩ := C81_iterate h plan step hm
  refine ⟨fun e he => ?_, fun rec vs hs e he => ?_⟩
  · rcases h1 e he with h | h
    · exact .inl h
    · right
      cases e <;> first
        | rfl
        | exact absurd h (by simp [NextErr, DigestErr, hn, hd])
  · have := h2 rec vs hs e he
    cases e <;> exact absurd this (by simp [DigestErr, hd])

/-- C81 for `index`: if no field begins with `http:`, whatever the files hold, it only fails with a subclass of
`ArchiveLoadFailed`; otherwise `AttributeError`, and with `verify_http` a failure to parse HTTP headers, are
possible too. -/
theorem C81_index [TameZlib] (hg : (Zlib.codec .gzip).isSome = true) (fields : List Str) (v : Bool) (ids : Nat → Str) : ∀ (files : List (Str × FileObj)) (e : PyErr),
    (Indexer.index fields v ids files).1 = .error e →
    e.isArchiveLoadFailed = true ∨ (fields.any (startsWith (lit "http:")) = true ∧ (e = .attributeError ∨ (v = true ∧ ∃ l, e = .statusParser l)))
  | [], e, h => by cases h
  | (name, f) :: t, e, h => by
    unfold Indexer.index at h
    dsimp only at h
    have h1 : ∀ e, (Indexer.indexFile fields v ids name f).1 = .error e →
        e.isArchiveLoadFailed = true ∨ (fields.any (startsWith (lit "http:")) = true ∧ (e = .attributeError ∨ (v = true ∧ ∃ l, e = .statusParser l))) := by
      intro e he
      have hfuel : (Indexer.indexFile fields v ids name f).1 ≠ .error .outOfFuel := by
        unfold Indexer.indexFile
        split
        · rename_i h; exact (fun h' => by cases h'; exact open_calm h)
        · rename_i it h; exact (indexLoop_uses name fields _ it (openArchive_left h).1 (open_fuel h)).1
      unfold Indexer.indexFile at he hfuel
      obtain ⟨it, ho⟩ := C81_open hg f (Indexer.opts fields v ids) 16384 none
      rw [ho] at he hfuel
      dsimp only at he hfuel
      rcases indexLoop_gives' (E := Fuel) (ok := fun _ => True) rfl (source_reads Fuel) name fields _ it (openArchive_safe ho) e he with h | h
      · exact absurd (by rw [he, h]) hfuel
      · cases e with
        | statusParser l =>
          have h : (!fields.any (startsWith (lit "http:"))) = false ∧ v = true := h
          exact .inr ⟨by rw [← Bool.not_not (fields.any _), h.1]; rfl, .inr ⟨h.2, l, rfl⟩⟩
        | attributeError =>
          have h : (!fields.any (startsWith (lit "http:"))) = false := h
          exact .inr ⟨by rw [← Bool.not_not (fields.any _), h]; rfl, .inl rfl⟩
        | _ => first
          | exact .inl rfl
          | exact absurd h (by simp [NextErr, DigestErr, Indexer.opts])
    generalize Indexer.indexFile fields v ids name f = y at *
    obtain ⟨y, es⟩ := y
    cases y with
    | error e' => cases h; exact h1 _ rfl
    | ok u => exact C81_index hg fields v ids t e h

/-- C81 for `check`: whatever the files hold, it ends with an exit value, or with one of three exceptions: a
record that should be an HTTP message has no URI, or a digest cannot be decoded. -/
theorem C81_check [TameZlib] (hg : (Zlib.codec .gzip).isSome = true) (verbose : Bool) : ∀ (files : List (Str × FileObj)) (exit : Nat) (e : PyErr),
    (Checker.processAll verbose files exit).1 = .error e → e = .attributeError ∨ e = .binascii ∨ e = .valueError
  | [], exit, e, h => by cases h
  | (name, f) :: t, exit, e, h => by
    unfold Checker.processAll at h
    have h1 : ∀ e, (Checker.processOne verbose name f).1 = .error e → e.isArchiveLoadFailed = true ∨ e = .attributeError ∨ e = .binascii ∨ e = .valueError := by
      intro e he
      have hfuel : (Checker.processOne verbose name f).1 ≠ .error .outOfFuel := by
        unfold Checker.processOne
        split
        · rename_i h; exact (fun h' => by cases h'; exact open_calm h)
        · rename_i it h; exact checkLoop_uses verbose name _ it false (openArchive_left h).1 (open_fuel h)
      unfold Checker.processOne at he hfuel
      obtain ⟨it, ho⟩ := C81_open hg f { checkDigests := some .other } 16384 none
      rw [ho] at he hfuel
      dsimp only at he hfuel
      rcases checkLoop_gives' (E := Fuel) (ok := fun _ => True) rfl (source_reads Fuel) verbose name _ it false (openArchive_safe ho) e he with h | h
      · exact absurd (by rw [he, h]) hfuel
      · cases e <;> first
          | exact .inl rfl
          | exact .inr (.inl rfl)
          | exact .inr (.inr (.inl rfl))
          | exact .inr (.inr (.inr rfl))
          | exact absurd h (by simp [NextErr, DigestErr])
    generalize Checker.processOne verbose name f = y at *
    obtain ⟨y, bad, out⟩ := y
    cases y with
    | error e' =>
      dsimp only at h
      split at h
      · exact C81_check hg verbose t 1 e h
      · rename_i hn
        cases h
        exact (h1 _ rfl).resolve_left hn
    | ok u => exact C81_check hg verbose t _ e h

/-- C81 for `extract`: `ValueError` for an offset that is no number or negative, `StopIteration` if there is
nothing at the offset, a subclass of `ArchiveLoadFailed`, or `AttributeError`; nothing else. -/
theorem C81_extract [TameZlib] (hg : (Zlib.codec .gzip).isSome = true) (f : FileObj) (offset : Str) (payloadOnly headersOnly : Bool) (e : PyErr)
    (h : (Extractor.extractAt f offset payloadOnly headersOnly).1 = .error e) :
    (e = .valueError ∧ ∀ n, parseInt offset = some n → n < 0) ∨ e = .stopIteration ∨ e.isArchiveLoadFailed = true ∨ e = .attributeError := by
  have hfuel := C79_extract f offset payloadOnly headersOnly
  unfold Extractor.extractAt at h hfuel
  cases hp : parseInt offset with
  | none => rw [hp] at h; cases h; exact .inl ⟨rfl, (fun n h => by cases h)⟩
  | some n =>
    rw [hp] at h hfuel
    dsimp only at h hfuel
    unfold Extractor.extract at h hfuel
    split at h
    · cases h; exact .inl ⟨rfl, (fun m h => by cases h; assumption)⟩
    · rename_i hn
      rw [if_neg hn] at hfuel
      cases hk : f.seek n.toNat with
      | error e' =>
        rw [hk] at h
        cases h
        unfold FileObj.seek at hk
        split at hk
        · cases hk
        · cases hk; exact .inr (.inr (.inr rfl))
      | ok f' =>
        rw [hk] at h hfuel
        dsimp only at h hfuel
        obtain ⟨it, ho⟩ := C81_open hg f' {} 16384 none
        rw [ho] at h hfuel
        dsimp only at h hfuel
        obtain ⟨n1, n2⟩ := next_gives (E := Fuel) (ok := fun _ => True) rfl (source_reads Fuel) it (openArchive_safe ho)
        generalize it.next = x at *
        obtain ⟨x, it1⟩ := x
        cases x with
        | error e' =>
          cases h
          rcases n1.2 _ rfl with h | h | h
          · exact absurd (by have h : e = .outOfFuel := h; rw [h]) hfuel
          · exact .inr (.inl h)
          · cases e <;> first
              | exact .inr (.inr (.inl rfl))
              | exact .inr (.inr (.inr rfl))
              | exact absurd h (by simp [NextErr, DigestErr])
        | ok u =>
          dsimp only at h hfuel
          obtain ⟨rec, hc⟩ := current_some (n2 u rfl)
          rw [hc] at h hfuel
          dsimp only at h hfuel
          rcases output_gives' (E := Fuel) (ok := fun _ => True) rfl (source_reads Fuel) it1 n1.1 hc payloadOnly headersOnly e h with h' | ⟨c, hc, _⟩
          · exact absurd (by have h' : e = .outOfFuel := h'; rw [h, h']) hfuel
          · cases hc

/-- C81, where `AttributeError` comes from: whatever a stream holds, loading a record raises it only if HTTP
headers are to be parsed and the record is one of a WARC file whose headers name the type `response`,
`request` or `revisit`, no `WARC-Target-URI`, and a length that is not 0. -/
theorem C81_cause (o : LoadOpts) (s : BufReader Source) (hs : s.chunk = none) (line : Option Line) (h : (Loader.parseRecordStream o s line).1 = .error .attributeError) :
    o.noRecordParse = false ∧ ∃ hd s1, Loader.detectType o s line = (.ok (.warc, hd), s1) ∧ hd.getHeader (lit "WARC-Target-URI") = none ∧
      (∃ t ∈ [lit "response", lit "request", lit "revisit"], hd.getHeader (lit "WARC-Type") = some t) ∧
      ∀ t, hd.getHeader (lit "Content-Length") = some t → ∃ n, parseInt t = some n ∧ 0 < n := by
  have hok : BufReader.OkB (fun _ => True) Fuel s := ⟨trivial, fun c hc => by rw [hs] at hc; cases hc⟩
  obtain ⟨h1, f, hd, s1, h2, h3, ⟨t, h4, h5⟩, h6⟩ := Loader.parseRecordStream_cause (E := Fuel) rfl (fun h => by cases h) (BufReader.lines rfl (source_reads Fuel)) o s line hok h
  obtain ⟨rfl, h7, h8⟩ := Loader.detect_noUri h2 h3 h4 h5
  refine ⟨h1, hd, s1, h2, h7, ⟨t, by simpa [Loader.httpRecords] using h5, h8⟩, fun t ht => ?_⟩
  have he : Loader.blockLength (hd.getHeader (lit "Content-Length")) 0 ≠ some 0 := by
    have : Loader.ensureTargetUri hd = (none, hd) := by unfold Loader.ensureTargetUri; rw [h7]
    unfold Loader.fields at h6
    rw [if_neg (by decide), this] at h6
    exact h6
  rw [ht] at he
  unfold Loader.blockLength at he
  dsimp only at he
  cases hp : parseInt t with
  | none => rw [hp] at he; exact absurd rfl he
  | some n =>
    rw [hp] at he
    dsimp only at he
    split at he
    · exact absurd rfl he
    · refine ⟨n, rfl, ?_⟩
      have : n - 0 ≠ 0 := fun h => he (by rw [h])
      omega

/-- C81: it does raise it for every such record, if digests are not checked (and after them otherwise). -/
theorem C81_raised {o : LoadOpts} (hn : o.noRecordParse = false) (hd : o.checkDigests = none) {s s1 : BufReader Source} {line : Option Line} {h : StatusAndHeaders}
    (h1 : Loader.detectType o s line = (.ok (.warc, h), s1)) (h2 : h.getHeader (lit "WARC-Target-URI") = none)
    {t : Str} (ht : t ∈ [lit "response", lit "request", lit "revisit"]) (h3 : h.getHeader (lit "WARC-Type") = some t)
    (h4 : ∀ t, h.getHeader (lit "Content-Length") = some t → ∃ n, parseInt t = some n ∧ 0 < n) :
    (Loader.parseRecordStream o s line).1 = .error .attributeError := by
  have he : Loader.ensureTargetUri h = (none, h) := by unfold Loader.ensureTargetUri; rw [h2]
  have hf : Loader.fields .warc h = { format := .warc, recType := some t, uri := none, length := h.getHeader (lit "Content-Length"), contentType := h.getHeader (lit "Content-Type"), subLen := 0, headers := h } := by
    unfold Loader.fields
    rw [if_neg (by decide), he, h3]
    rfl
  have hl : Loader.blockLength (h.getHeader (lit "Content-Length")) 0 ≠ some 0 := by
    unfold Loader.blockLength
    cases hc : h.getHeader (lit "Content-Length") with
    | none => exact (fun h => by cases h)
    | some c =>
      obtain ⟨n, hp, h0⟩ := h4 c hc
      dsimp only
      rw [hp]
      dsimp only
      rw [if_neg (by omega)]
      intro h
      have := Option.some.inj h
      omega
  have hw : ∃ raw, Loader.wrap o (Loader.fields .warc h) (Loader.blockLength (h.getHeader (lit "Content-Length")) 0) s1 = .ok raw := by
    unfold Loader.wrap
    cases Loader.blockLength (h.getHeader (lit "Content-Length")) 0 with
    | none => exact ⟨_, rfl⟩
    | some n =>
      dsimp only
      rw [hd]
      split
      · exact ⟨_, rfl⟩
      · exact ⟨_, rfl⟩
  obtain ⟨raw, hw⟩ := hw
  have hx : Loader.loadHttpHeaders o.verifyHttp (some t) none (Loader.blockLength (h.getHeader (lit "Content-Length")) 0) raw = (.error .attributeError, raw) := by
    unfold Loader.loadHttpHeaders
    rw [if_neg hl]
    dsimp only
    have hc : Loader.httpRecords.contains t = true := List.contains_iff_mem.2 ht
    rw [hc]
    rfl
  unfold Loader.parseRecordStream
  rw [h1]
  dsimp only
  rw [hf] at hw ⊢
  dsimp only at hw ⊢
  rw [hw]
  dsimp only
  rw [hn, if_neg (by decide), hx]

end

section
open Toy

/-- A response without a URI. -/
def exNoUri : Bytes := utf8Encode (lit "WARC/1.0\r\nWARC-Type: response\r\nContent-Length: 2\r\n\r\nab\r\n\r\n")

/-- A resource whose digest is none. -/
def exBadDigest : Bytes := utf8Encode (lit "WARC/1.0\r\nWARC-Type: resource\r\nContent-Length: 2\r\nWARC-Block-Digest: sha1:x\r\n\r\nab\r\n\r\n")

/-- A response that is no HTTP message. -/
def exNoHttp : Bytes := utf8Encode (lit "WARC/1.0\r\nWARC-Type: response\r\nWARC-Target-URI: http://a/\r\nContent-Length: 2\r\n\r\nab\r\n\r\n")

/-- The exceptions do occur: `check` ends with `AttributeError` and `binascii.Error`, and does not look at
the files behind. -/
theorem C81_occurs :
    (Checker.processAll false [(lit "a", { content := exNoUri }), (lit "b", { content := exNoHttp })] 0) = (.error .attributeError, []) ∧
    (Checker.processAll false [(lit "a", { content := exBadDigest }), (lit "b", { content := exNoHttp })] 0) = (.error .binascii, []) ∧
    (Indexer.index [lit "http:status"] false (fun _ => []) [(lit "a", { content := exNoUri })]).1 = .error .attributeError ∧
    (Indexer.index [lit "http:status"] true (fun _ => []) [(lit "a", { content := exNoHttp })]).1 = .error (.statusParser (lit "ab")) ∧
    (Indexer.index [lit "offset"] true (fun _ => []) [(lit "a", { content := exNoUri }), (lit "b", { content := exNoHttp })]) =
      (.ok (), lit "{\"offset\": \"0\"}\n{\"offset\": \"0\"}\n") := by
  decide +kernel

/-- The hypothesis of `C81_check` and `C81_index`; the toy zlib is tame. -/
example : (Zlib.codec .gzip).isSome = true := by decide

/-- Those of `C81_cause` and `C81_raised`. -/
example : ∃ s : BufReader Source, BufReader.new (Source.of { content := exNoUri }) 16384 none = .ok s ∧ s.chunk = none ∧ (match Loader.parseRecordStream {} s none with | (.error .attributeError, _) => true | _ => false) = true :=
  ⟨_, rfl, by decide +kernel, by decide +kernel⟩

example : ∃ s : BufReader Source, BufReader.new (Source.of { content := exNoUri }) 16384 none = .ok s ∧
    (match Loader.detectType {} s none with
      | (.ok (f, h), _) => f == .warc && h.getHeader (lit "WARC-Target-URI") == none && h.getHeader (lit "WARC-Type") == some (lit "response") && (h.getHeader (lit "Content-Length")).bind parseInt == some 2
      | _ => false) = true :=
  ⟨_, rfl, by decide +kernel⟩

end
end Warcio.Props

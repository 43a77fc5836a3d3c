import Verif.Proofs.WrittenHeaders
import Verif.Props.TimeUtils

/-!
# Creating records
-/

set_option linter.unusedSectionVars false

namespace Warcio

open StatusAndHeaders Builder Loader

section
variable [PyUni]

theorem named_eq (n : Str) (hs : List Header) : named n hs = hs.filter (nameEq n) := rfl

theorem named_append (n : Str) (a b : List Header) : named n (a ++ b) = named n a ++ named n b := List.filter_append _ _

theorem named_other {n m : Str} (h : PyUni.lower n ≠ PyUni.lower m) (v : Str) : named m [(n, v)] = [] := by
  rw [named_eq, List.filter_cons, nameEq_other h (nameEq_self n v)]; rfl

theorem named_self (n v : Str) : named n [(n, v)] = [(n, v)] := by
  rw [named_eq, List.filter_cons, nameEq_self]; rfl

theorem named_replace_other {n m : Str} (h : PyUni.lower n ≠ PyUni.lower m) (hs : List Header) (v : Str) :
    named m (replaceIn hs n v).2 = named m hs := filter_replace_passes (passes_other h) hs v

theorem values_replace_self {n : Str} {hs : List Header} (h : AtMostOne n hs) (v : Str) : values n (replaceIn hs n v).2 = [v] := by
  have h1 : (named n (replaceIn hs n v).2).length ≤ 1 := filter_replace_self h v
  have h2 := lastValue_replace_self n v hs
  have h3 : firstValue n (replaceIn hs n v).2 = lastValue n (replaceIn hs n v).2 := first_last h1
  rw [h2, firstValue_eq, findHeader_filter] at h3
  rw [← named_eq] at h3
  unfold values
  generalize named n (replaceIn hs n v).2 = l at *
  match l, h1, h3 with
  | [x], _, h3 => simpa using h3

/-- A header that is there if it is needed. -/
def ensured (n v : Str) (hs : List Header) : List Header := if Loader.truthy (findHeader n hs) then hs else hs ++ [(n, v)]

theorem ensured_other {n m : Str} (h : PyUni.lower n ≠ PyUni.lower m) (v : Str) (hs : List Header) : named m (ensured n v hs) = named m hs := by
  unfold ensured
  split
  · rfl
  · rw [named_append, named_other h, List.append_nil]

theorem ensured_filter {n : Str} {p : Header → Bool} (hp : Passes n p) (v : Str) (hs : List Header) : (ensured n v hs).filter p = hs.filter p := by
  unfold ensured
  split
  · rfl
  · rw [List.filter_append, List.filter_cons, hp _ (nameEq_self n v)]; simp

theorem ensured_self {n : Str} (v : Str) {hs : List Header} (h : firstValue n hs ≠ some []) :
    named n (ensured n v hs) = if named n hs = [] then [(n, v)] else named n hs := by
  rw [firstValue_eq] at h
  unfold ensured
  cases hf : findHeader n hs with
  | none =>
    have : named n hs = [] := filter_nil_iff.2 hf
    rw [if_neg (by simp [Loader.truthy]), named_append, this, named_self]; rfl
  | some w =>
    have hw : w ≠ [] := by intro e; rw [hf, e] at h; exact h rfl
    have : named n hs ≠ [] := by
      intro e
      rw [filter_nil_iff.1 e] at hf; cases hf
    rw [if_pos (by simp [Loader.truthy, hw]), if_neg this]

/-- The headers of a new record. -/
def initList (version : Str) (env : Env) (uri recType : Str) (dict : List Header) : List Header :=
  let hs := ensured (lit "WARC-Record-ID") env.newId (replaceIn dict (lit "WARC-Type") recType).2
  ensured (lit "WARC-Date") (currDate version env.now) (if uri.isEmpty then hs else (replaceIn hs (lit "WARC-Target-URI") uri).2)

theorem initHeaders_eq (version : Str) (env : Env) (uri recType : Str) (dict : List Header) :
    initHeaders version env uri recType dict = ⟨[], initList version env uri recType dict, version, 0, none⟩ := by
  unfold initHeaders initList ensured replaceHeader getHeader addHeader
  dsimp only
  generalize (replaceIn dict (lit "WARC-Type") recType).2 = a
  cases uri.isEmpty <;> cases Loader.truthy (findHeader (lit "WARC-Record-ID") a) <;>
    simp only [if_true, Bool.false_eq_true, if_false] <;> split <;> rfl

end

section
variable [PyUni] [Hashlib] {σ : Type} [PyFile σ]

/-- Whatever the stream does: the only header that is added when a record is created is the payload
digest. -/
theorem ensureDigest_headers (flt : Header → Option Header) (r : OutRecord σ) {r' : OutRecord σ}
    (h : ensureDigest flt r false true = (.ok (), r')) :
    r'.recType = r.recType ∧ r'.httpHeaders = r.httpHeaders ∧ r'.contentType = r.contentType ∧ r'.length = r.length ∧
    ∃ x, r'.recHeaders = { r.recHeaders with headers := r.recHeaders.headers ++ x } ∧
      (x = [] ∨ (wantPayload r = true ∧ ∃ v, x = [(lit "WARC-Payload-Digest", v)])) := by
  unfold ensureDigest at h
  have hh : ∀ r : OutRecord σ, headersForDigest flt false r = (.ok [], r) := by
    intro r
    unfold headersForDigest
    cases r.httpHeaders <;> simp
  have hb : digesterIf false = .ok none := rfl
  simp only [Bool.false_and, Bool.true_and] at h
  have hw : (!(Loader.truthy (r.recHeaders.getHeader (lit "WARC-Payload-Digest")) || noPayloadDigest r.recType)) = wantPayload r := rfl
  rw [hw, hb] at h
  cases hp : digesterIf (wantPayload r) with
  | error e => rw [hp] at h; simp at h
  | ok pd =>
    rw [hp] at h
    have hpd : pd = none ∨ (wantPayload r = true ∧ ∃ d, pd = some d) := by
      unfold digesterIf at hp
      cases hw : wantPayload r with
      | false => rw [hw] at hp; simp at hp; exact .inl hp.symm
      | true =>
        right
        refine ⟨rfl, ?_⟩
        rw [hw, if_pos rfl] at hp
        cases hd : Digester.new (lit "sha1") with
        | error e => rw [hd] at hp; cases hp
        | ok d => rw [hd] at hp; cases hp; exact ⟨d, rfl⟩
    dsimp only at h
    split at h
    · cases h
      exact ⟨rfl, rfl, rfl, rfl, [], by simp, .inl rfl⟩
    · generalize hst : rewindable r = start at h
      have key : ∀ bufs : List Bytes, r'.recType = r.recType → r'.httpHeaders = r.httpHeaders → r'.contentType = r.contentType → r'.length = r.length →
          r'.recHeaders = addDigest (lit "WARC-Payload-Digest") (pd.map (fun d => bufs.foldl Digester.update d)) r.recHeaders →
          r'.recType = r.recType ∧ r'.httpHeaders = r.httpHeaders ∧ r'.contentType = r.contentType ∧ r'.length = r.length ∧
          ∃ x, r'.recHeaders = { r.recHeaders with headers := r.recHeaders.headers ++ x } ∧
            (x = [] ∨ (wantPayload r = true ∧ ∃ v, x = [(lit "WARC-Payload-Digest", v)])) := by
        intro bufs e1 e2 e3 e4 e5
        refine ⟨e1, e2, e3, e4, ?_⟩
        rw [e5]
        rcases hpd with rfl | ⟨hw, d, rfl⟩
        · exact ⟨[], by simp [addDigest], .inl rfl⟩
        · exact ⟨[(lit "WARC-Payload-Digest", (bufs.foldl Digester.update d).str)], rfl, .inr ⟨hw, _, rfl⟩⟩
      cases start with
      | none =>
        dsimp only at h
        rw [hh] at h
        dsimp only at h
        generalize hi : iterAll r.raw = x at h
        obtain ⟨bufs, x, s⟩ := x
        cases x with
        | error e => simp at h
        | ok u =>
          dsimp only at h
          have h2 := congrArg Prod.snd h
          simp only [Option.map_none, addDigest.eq_2] at h2
          exact key bufs (by rw [← h2]) (by rw [← h2]) (by rw [← h2]) (by rw [← h2]) (by rw [← h2])
      | some ps =>
        obtain ⟨pos, s0⟩ := ps
        dsimp only at h
        rw [hh] at h
        dsimp only at h
        generalize hi : iterAll s0 = x at h
        obtain ⟨bufs, x, s⟩ := x
        cases x with
        | error e => simp at h
        | ok u =>
          dsimp only at h
          cases hs : PyFile.seek s pos with
          | error e => rw [hs] at h; simp at h
          | ok s3 =>
            rw [hs] at h
            dsimp only at h
            have h2 := congrArg Prod.snd h
            simp only [Option.map_none, addDigest.eq_2] at h2
            exact key bufs (by rw [← h2]) (by rw [← h2]) (by rw [← h2]) (by rw [← h2]) (by rw [← h2])

/-- What a created record is. -/
theorem createRecord_headers {c : BuilderCfg} {env : Env} {a : CreateArgs σ} {r : OutRecord σ} (h : createRecord c env a = .ok r) :
    r.recType = some a.recType ∧ ∃ x, r.recHeaders = (let h := if truthyHeaders a.headers then a.headers.getD { statusline := [], headers := [] } else initHeaders c.version env a.uri a.recType a.dict; { h with headers := h.headers ++ x }) ∧
      (x = [] ∨ ∃ v, x = [(lit "WARC-Payload-Digest", v)]) ∧
      r.contentType = some (contentTypeOf a.contentType (if truthyHeaders a.headers then a.headers.getD { statusline := [], headers := [] } else initHeaders c.version env a.uri a.recType a.dict) a.recType) := by
  unfold createRecord at h
  generalize (if truthyHeaders a.headers then a.headers.getD { statusline := [], headers := [] } else initHeaders c.version env a.uri a.recType a.dict) = H at *
  generalize hx : httpOf a.uri a.recType a.payload a.length a.http = x at h
  cases x with
  | error e => simp at h
  | ok y =>
    obtain ⟨http, payload, length⟩ := y
    dsimp only at h
    generalize hr0 : ({ recType := some a.recType, recHeaders := H, raw := _, httpHeaders := http, contentType := _, length := _, payloadLength := _ } : OutRecord σ) = r0 at h
    have t1 : r0.recType = some a.recType := by rw [← hr0]
    have t2 : r0.recHeaders = H := by rw [← hr0]
    have t3 : r0.contentType = some (contentTypeOf a.contentType H a.recType) := by rw [← hr0]
    generalize hd : ensureDigest c.filter r0 false true = y at h
    obtain ⟨y, r1⟩ := y
    cases y with
    | error e => simp at h
    | ok u =>
      cases h
      obtain ⟨k1, -, k3, -, z, k5, k6⟩ := ensureDigest_headers c.filter r0 hd
      refine ⟨k1.trans t1, z, by rw [k5, t2], ?_, k3.trans t3⟩
      rcases k6 with k6 | ⟨-, k6⟩
      · exact .inl k6
      · exact .inr k6

/-- The headers that a record is created with, but for the payload digest. -/
def givenHeaders (c : BuilderCfg) (env : Env) (a : CreateArgs σ) : StatusAndHeaders :=
  if truthyHeaders a.headers then a.headers.getD { statusline := [], headers := [] } else initHeaders c.version env a.uri a.recType a.dict

/-- What is created, in terms of the HTTP headers and the payload that the builder finds. -/
structure Created [Holding σ] (f : Bytes → Bytes) (c : BuilderCfg) (env : Env) (a : CreateArgs σ) (http0 : Option StatusAndHeaders) (length0 : Option Int) (d : Bytes)
    (r : OutRecord σ) : Prop where
  recType : r.recType = some a.recType
  http : r.httpHeaders = http0
  length : r.length = length0
  payloadLength : r.payloadLength = length0 ∨ r.payloadLength = some (len d)
  unknown : length0 = none → r.payloadLength = some (len d)
  stream : holds r.raw d
  headers : r.recHeaders = (let h := givenHeaders c env a; { h with headers := h.headers ++ newDigests f (!(truthy (findHeader (lit "WARC-Payload-Digest") h.headers) || noPayloadDigest (some a.recType))) false [] d })
  contentType : r.contentType = some (contentTypeOf a.contentType (givenHeaders c env a) a.recType)

theorem createRecord_created [Holding σ] {f : Bytes → Bytes} (H : Hashlib.hash (lit "sha1") = some f) {c : BuilderCfg} {env : Env} {a : CreateArgs σ}
    {http : Option StatusAndHeaders} {payload : Option (RecStream σ)} {length : Option Int} {d : Bytes}
    (h : httpOf a.uri a.recType a.payload a.length a.http = .ok (http, payload, length))
    (hd : match payload with | some p => holds p d | none => d = []) :
    ∃ r, createRecord c env a = .ok r ∧ Created f c env a http (if payload.isSome then length else some 0) d r := by
  unfold createRecord
  rw [h]
  have key : ∀ (raw : RecStream σ) (length : Option Int), holds raw d →
      ∃ r, (match ensureDigest c.filter { recType := some a.recType, recHeaders := givenHeaders c env a, raw := raw, httpHeaders := http, contentType := some (contentTypeOf a.contentType (givenHeaders c env a) a.recType), length := length, payloadLength := length } false true with
        | (.ok _, r) => .ok r
        | (.error e, _) => .error e) = Except.ok (ε := PyErr) r ∧ Created f c env a http length d r := by
    intro raw length hr
    obtain ⟨raw', pl, orig, e1, e2, e3, e4, -⟩ := ensureDigest_spec H c.filter
      ({ recType := some a.recType, recHeaders := givenHeaders c env a, raw := raw, httpHeaders := http, contentType := some (contentTypeOf a.contentType (givenHeaders c env a) a.recType), length := length, payloadLength := length } : OutRecord σ)
      hr false true (fun h => by cases h)
    rw [e1]
    refine ⟨_, rfl, rfl, rfl, rfl, e3, e4, e2, ?_, rfl⟩
    dsimp only
    simp only [Bool.true_and, Bool.false_and, newDigests, Bool.false_eq_true, if_false, List.append_nil]
    rfl
  cases payload with
  | none =>
    subst hd
    obtain ⟨r, k1, k2⟩ := key (.mem { content := [] }) (some 0) (holds_mem [])
    exact ⟨r, k1, k2⟩
  | some p =>
    obtain ⟨r, k1, k2⟩ := key p length hd
    exact ⟨r, k1, k2⟩

end
end Warcio

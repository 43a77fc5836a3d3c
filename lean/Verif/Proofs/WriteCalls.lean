import Verif.Proofs.WrittenHeaders

/-!
# What is written does not depend on compression, and the header block as text
-/

set_option linter.unusedSectionVars false

namespace Warcio

open Builder Writer StatusAndHeaders

theorem headerLines_flatMap (hs : List Header) : headerLines some hs = hs.flatMap (fun h => h.1 ++ lit ": " ++ h.2 ++ lit "\r\n") := by
  induction hs with
  | nil => rfl
  | cons h t ih =>
    rw [headerLines, List.flatMap_cons, ih]
    rfl

theorem toBytes_headText {h : StatusAndHeaders} (hp : h.protocol ≠ []) : h.toBytes = utf8Encode (headText h.protocol h.statusline h.headers) := by
  unfold toBytes toStr headText
  rw [headerLines_flatMap]
  have e1 : utf8Encode (lit "\r\n") = crlf := by decide
  have e2 : h.firstLine = h.protocol ++ (if h.statusline = [] then [] else ' ' :: h.statusline) ++ lit "\r\n" := by
    unfold firstLine
    have hp' : h.protocol.isEmpty = false := by simpa using hp
    cases hs : h.statusline with
    | nil => simp [hp', crlfStr]; rfl
    | cons a t => simp [hp', crlfStr]; rfl
  rw [e2, utf8Encode_append _ (lit "\r\n"), e1]

section
variable {σ : Type} [PyUni] [Hashlib] [PyFile σ] [Deflater]

/-- The calls of `out.write` do not depend on `out`. -/
theorem writeTo_calls (c : BuilderCfg) (r : OutRecord σ) :
    ∃ (ws : List Bytes) (x : Except PyErr Unit) (r' : OutRecord σ), ∀ out,
      writeTo c r out = (x, r', if x = .ok () then (ws.foldl Sink.write out).flush else ws.foldl Sink.write out) := by
  unfold writeTo
  cases h1 : prepareHttp c.filter r with
  | mk x r1 =>
    cases x with
    | error e => exact ⟨[], .error e, r1, fun out => by simp⟩
    | ok u =>
      simp only
      cases h2 : complete c.filter r1 with
      | mk x r2 =>
        cases x with
        | error e => exact ⟨[], .error e, r2, fun out => by simp⟩
        | ok u =>
          simp only
          cases h3 : actualLength r2 with
          | error e => exact ⟨[], .error e, r2, fun out => by simp⟩
          | ok n =>
            simp only
            generalize finalHeaders r2.contentType n r2.recHeaders = R
            generalize httpBytes _ = hb
            generalize Loader.truthyHeaders r2.httpHeaders = t
            have hw : ∀ out : Sink, (if t = true then (out.write R.toBytes).write hb else out.write R.toBytes) =
                ((if t = true then [R.toBytes, hb] else [R.toBytes]).foldl Sink.write out) := by
              intro out
              cases t <;> rfl
            simp only [hw]
            generalize (if t = true then [R.toBytes, hb] else [R.toBytes]) = pre
            unfold writePayload
            split
            · refine ⟨pre ++ [crlf ++ crlf], .ok (), ?_, fun out => ?_⟩
              rotate_left
              · simp only [List.foldl_append, List.foldl_cons, List.foldl_nil, if_true]
                rfl
            · cases hi : iterAll r2.raw with
              | mk bufs y =>
                obtain ⟨x, s⟩ := y
                simp only
                cases x with
                | error e => 
                  refine ⟨pre ++ bufs, .error e, ?_, fun out => ?_⟩
                  rotate_left
                  · simp only [List.foldl_append, reduceCtorEq, if_false]
                    rfl
                | ok u => 
                  refine ⟨pre ++ bufs ++ [crlf ++ crlf], .ok (), ?_, fun out => ?_⟩
                  rotate_left
                  · simp only [List.foldl_append, List.foldl_cons, List.foldl_nil, if_true]
                    rfl

end
end Warcio

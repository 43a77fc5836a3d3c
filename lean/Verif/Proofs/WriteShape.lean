import Verif.Proofs.WriteCalls
import Verif.Spec.Report
import Verif.Model.Tools

/-!
# What is written for any record that could be read
-/

set_option linter.unusedSectionVars false

namespace Warcio

open Builder Writer StatusAndHeaders

section
variable {σ : Type} [PyUni] [Hashlib] [PyFile σ]

theorem prepareHttp_keeps (flt : Header → Option Header) (r : OutRecord σ) :
    (prepareHttp flt r).2.recHeaders = r.recHeaders ∧ (prepareHttp flt r).2.length = r.length := by
  unfold prepareHttp
  split
  · exact ⟨rfl, rfl⟩
  · split
    · exact ⟨rfl, rfl⟩
    · exact ⟨rfl, rfl⟩

theorem headersForDigest_keeps (flt : Header → Option Header) (b : Bool) (r : OutRecord σ) :
    (headersForDigest flt b r).2.recHeaders = r.recHeaders ∧ (headersForDigest flt b r).2.length = r.length := by
  unfold headersForDigest
  split
  · exact ⟨rfl, rfl⟩
  · split
    · exact ⟨rfl, rfl⟩
    · split
      · split
        · exact ⟨rfl, rfl⟩
        · exact ⟨rfl, rfl⟩
      · exact ⟨rfl, rfl⟩

theorem addDigest_keeps (n : Str) (d : Option Digester) (h : StatusAndHeaders) : (addDigest n d h).protocol = h.protocol ∧ (addDigest n d h).statusline = h.statusline := by
  unfold addDigest
  split
  · exact ⟨rfl, rfl⟩
  · exact ⟨rfl, rfl⟩

theorem rewindable_length {r : OutRecord σ} (h : r.length = none) : rewindable r = none := by
  unfold rewindable
  rw [h]

theorem ensureDigest_keeps (flt : Header → Option Header) (r : OutRecord σ) (b p : Bool) (hx : (ensureDigest flt r b p).1 = .ok ()) :
    (ensureDigest flt r b p).2.recHeaders.protocol = r.recHeaders.protocol ∧ (ensureDigest flt r b p).2.recHeaders.statusline = r.recHeaders.statusline ∧
    (ensureDigest flt r b p).2.length = r.length ∧ (r.length = none → ∃ n : Nat, (ensureDigest flt r b p).2.payloadLength = some (n : Int)) := by
  unfold ensureDigest at hx ⊢
  dsimp only at hx ⊢
  split at hx
  · cases hx
  · cases hx
  · rename_i bd pd _ _
    split at hx
    · rename_i hn
      rw [if_pos hn]
      refine ⟨rfl, rfl, rfl, fun h => ?_⟩
      simp [h] at hn
    · rename_i hn
      rw [if_neg hn]
      cases hq : rewindable r with
      | none =>
        rw [hq] at hx
        dsimp only at hx ⊢
        obtain ⟨k1, k2⟩ := headersForDigest_keeps flt (b && !Loader.truthy (r.recHeaders.getHeader (lit "WARC-Block-Digest"))) r
        generalize headersForDigest flt _ _ = y at *
        obtain ⟨y, r1⟩ := y
        cases y with
        | error e => cases hx
        | ok buff =>
          dsimp only at k1 k2 hx ⊢
          generalize iterAll r1.raw = z at *
          obtain ⟨bufs, z, s⟩ := z
          cases z with
          | error e => cases hx
          | ok u =>
            dsimp only
            refine ⟨?_, ?_, k2, fun _ => ⟨_, rfl⟩⟩
            · rw [(addDigest_keeps ..).1, (addDigest_keeps ..).1, k1]
            · rw [(addDigest_keeps ..).2, (addDigest_keeps ..).2, k1]
      | some ps =>
        obtain ⟨pos, s0⟩ := ps
        rw [hq] at hx
        dsimp only at hx ⊢
        obtain ⟨k1, k2⟩ := headersForDigest_keeps flt (b && !Loader.truthy (r.recHeaders.getHeader (lit "WARC-Block-Digest"))) { r with raw := s0 }
        generalize headersForDigest flt _ _ = y at *
        obtain ⟨y, r1⟩ := y
        cases y with
        | error e => cases hx
        | ok buff =>
          dsimp only at k1 k2 hx ⊢
          generalize iterAll r1.raw = z at *
          obtain ⟨bufs, z, s⟩ := z
          cases z with
          | error e => cases hx
          | ok u =>
            dsimp only at hx ⊢
            cases hk : PyFile.seek s pos with
            | error e => rw [hk] at hx; cases hx
            | ok s2 =>
              dsimp only
              refine ⟨?_, ?_, k2, fun h => ?_⟩
              · rw [(addDigest_keeps ..).1, (addDigest_keeps ..).1, k1]
              · rw [(addDigest_keeps ..).2, (addDigest_keeps ..).2, k1]
              · rw [rewindable_length h] at hq; cases hq

theorem complete_keeps (flt : Header → Option Header) (r : OutRecord σ) (hl : ∀ n, r.length = some n → 0 ≤ n) (hx : (complete flt r).1 = .ok ()) :
    (complete flt r).2.recHeaders.protocol = r.recHeaders.protocol ∧ (complete flt r).2.recHeaders.statusline = r.recHeaders.statusline ∧
    ∃ n : Nat, (complete flt r).2.length = some (n : Int) := by
  unfold complete at hx ⊢
  split at hx
  · rename_i n hn
    obtain ⟨k1, k2, k3, -⟩ := ensureDigest_keeps flt r true true hx
    rw [hn] at k3
    obtain ⟨m, rfl⟩ := Int.eq_ofNat_of_zero_le (hl n hn)
    exact ⟨k1, k2, m, k3⟩
  · rename_i hn
    dsimp only at hx ⊢
    have hp : ∀ h : StatusAndHeaders, h.protocol = r.recHeaders.protocol → h.statusline = r.recHeaders.statusline → (h.removeHeader (lit "Content-Type")).2.protocol = r.recHeaders.protocol ∧ (h.removeHeader (lit "Content-Type")).2.statusline = r.recHeaders.statusline :=
      fun h h1 h2 => ⟨h1, h2⟩
    have hq : (if r.recType = some (lit "revisit") then (r.recHeaders.removeHeader (lit "WARC-Block-Digest")).2 else ((r.recHeaders.removeHeader (lit "WARC-Block-Digest")).2.removeHeader (lit "WARC-Payload-Digest")).2).protocol = r.recHeaders.protocol ∧
        (if r.recType = some (lit "revisit") then (r.recHeaders.removeHeader (lit "WARC-Block-Digest")).2 else ((r.recHeaders.removeHeader (lit "WARC-Block-Digest")).2.removeHeader (lit "WARC-Payload-Digest")).2).statusline = r.recHeaders.statusline := by
      split <;> exact ⟨rfl, rfl⟩
    obtain ⟨p1, p2⟩ := hp _ hq.1 hq.2
    generalize (StatusAndHeaders.removeHeader _ (lit "Content-Type")).2 = hs at *
    have he := ensureDigest_keeps flt { r with recHeaders := hs } true true
    generalize ensureDigest flt { r with recHeaders := hs } true true = y at *
    obtain ⟨y, r1⟩ := y
    cases y with
    | error e => cases hx
    | ok u =>
      obtain ⟨k1, k2, k3, k4⟩ := he rfl
      obtain ⟨n, k5⟩ := k4 hn
      exact ⟨k1.trans p1, k2.trans p2, n, k5⟩

theorem actualLength_nat {r : OutRecord σ} {m : Nat} (h : r.length = some (m : Int)) {n : Option Int} (hn : actualLength r = .ok n) : ∃ k : Nat, n = some (k : Int) := by
  unfold actualLength at hn
  split at hn
  · split at hn
    · cases hn
    · rename_i p _
      split at hn
      · rename_i hp
        cases hn
        obtain ⟨q, rfl⟩ := Int.eq_ofNat_of_zero_le hp
        split
        · exact ⟨(httpBytes r).length, by simp [len]⟩
        · exact ⟨(httpBytes r).length + q, by simp [len]⟩
      · cases hn; exact ⟨m, h⟩
  · cases hn; exact ⟨m, h⟩

variable [Deflater]

/-- What is written if writing succeeds: a header block with the record's first line and a length,
a block, and two empty lines. -/
theorem writeTo_shape (c : BuilderCfg) (r : OutRecord σ) (hl : ∀ n, r.length = some n → 0 ≤ n) :
    ∃ (ws : List Bytes) (x : Except PyErr Unit) (r' : OutRecord σ), (∀ out,
      writeTo c r out = (x, r', if x = .ok () then (ws.foldl Sink.write out).flush else ws.foldl Sink.write out)) ∧
      (x = .ok () → ∃ (h : StatusAndHeaders) (block : Bytes) (n : Nat), ws.flatten = h.toBytes ++ block ++ (crlf ++ crlf) ∧
        h.protocol = r.recHeaders.protocol ∧ h.statusline = r.recHeaders.statusline ∧ lastValue (lit "Content-Length") h.headers = some (intToStr n)) := by
  unfold writeTo
  have pk := prepareHttp_keeps c.filter r
  cases h1 : prepareHttp c.filter r with
  | mk x r1 =>
    rw [h1] at pk
    cases x with
    | error e => exact ⟨[], .error e, r1, (fun out => by simp), (fun h => by cases h)⟩
    | ok u =>
      simp only at pk ⊢
      have ck := complete_keeps c.filter r1 (by rw [pk.2]; exact hl)
      cases h2 : complete c.filter r1 with
      | mk x r2 =>
        rw [h2] at ck
        cases x with
        | error e => exact ⟨[], .error e, r2, (fun out => by simp), (fun h => by cases h)⟩
        | ok u =>
          obtain ⟨c1, c2, m, c3⟩ := ck rfl
          simp only at c1 c2 c3 ⊢
          cases h3 : actualLength r2 with
          | error e => exact ⟨[], .error e, r2, (fun out => by simp), (fun h => by cases h)⟩
          | ok n =>
            obtain ⟨k, rfl⟩ := actualLength_nat c3 h3
            simp only
            have f1 : (finalHeaders r2.contentType (some (k : Int)) r2.recHeaders).protocol = r.recHeaders.protocol ∧
                (finalHeaders r2.contentType (some (k : Int)) r2.recHeaders).statusline = r.recHeaders.statusline ∧
                lastValue (lit "Content-Length") (finalHeaders r2.contentType (some (k : Int)) r2.recHeaders).headers = some (intToStr k) := by
              rw [pk.1] at c1 c2
              refine ⟨?_, ?_, ?_⟩
              · rw [← c1]; unfold finalHeaders; split <;> rfl
              · rw [← c2]; unfold finalHeaders; split <;> rfl
              · exact lastValue_replace_self _ _ _
            generalize finalHeaders r2.contentType (some (k : Int)) r2.recHeaders = R at *
            generalize httpBytes _ = hb
            generalize Loader.truthyHeaders r2.httpHeaders = t
            have hw : ∀ out : Sink, (if t = true then (out.write R.toBytes).write hb else out.write R.toBytes) =
                ((R.toBytes :: (if t = true then [hb] else [])).foldl Sink.write out) := by
              intro out
              cases t <;> rfl
            simp only [hw]
            generalize (if t = true then [hb] else []) = pre
            unfold writePayload
            split
            · refine ⟨R.toBytes :: pre ++ [crlf ++ crlf], .ok (), ?_, fun out => ?_, ?_⟩
              rotate_left
              · simp only [List.foldl_append, List.foldl_cons, List.foldl_nil, if_true]
                rfl
              · intro _
                exact ⟨R, pre.flatten, k, by simp, f1⟩
            · cases hi : iterAll r2.raw with
              | mk bufs y =>
                obtain ⟨x, s⟩ := y
                simp only
                cases x with
                | error e => 
                  refine ⟨R.toBytes :: pre ++ bufs, .error e, ?_, fun out => ?_, (fun h => by cases h)⟩
                  rotate_left
                  · simp only [List.foldl_append, reduceCtorEq, if_false]
                    rfl
                | ok u => 
                  refine ⟨R.toBytes :: pre ++ bufs ++ [crlf ++ crlf], .ok (), ?_, fun out => ?_, ?_⟩
                  rotate_left
                  · simp only [List.foldl_append, List.foldl_cons, List.foldl_nil, if_true]
                    rfl
                  · intro _
                    exact ⟨R, pre.flatten ++ bufs.flatten, k, by simp, f1⟩

end
end Warcio

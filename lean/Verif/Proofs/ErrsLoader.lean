import Verif.Proofs.Errs

/-!
# Which exceptions loading a record can raise
-/

set_option linter.unusedSectionVars false

namespace Warcio

/-- What decoding a digest can raise. -/
def Enc (e : PyErr) : Prop := e = .binascii ∨ e = .valueError

theorem b64Loop_enc (q l p : Nat) (s : Str) {e : PyErr} (h : b64Loop q l p s = .error e) : Enc e := by
  induction s generalizing q l p e with
  | nil =>
    unfold b64Loop at h
    split at h
    · cases h
    · cases h; exact (by first | exact .inl rfl | exact .inr rfl)
  | cons c t ih =>
    unfold b64Loop at h
    split at h
    · split at h
      · split at h
        · cases h
        · exact ih _ _ _ h
      · exact ih _ _ _ h
    · split at h
      · exact ih _ _ _ h
      · have hm : ∀ {x : Except PyErr Bytes} {f : Bytes → Bytes}, x.map f = .error e → x = .error e := by
          intro x f hx
          cases x with
          | error e' => simpa [Except.map] using hx
          | ok v => simp [Except.map] at hx
        split at h
        · exact ih _ _ _ h
        · exact ih _ _ _ (hm h)
        · exact ih _ _ _ (hm h)
        · exact ih _ _ _ (hm h)

theorem b64Wrapper_enc {v : Str} {e : PyErr} (h : b64Wrapper v = .error e) : Enc e := by
  have hd : ∀ {v : Str}, b64decode v = .error e → Enc e := by
    intro v h
    unfold b64decode at h
    split at h
    · exact b64Loop_enc _ _ _ _ h
    · cases h; exact (by first | exact .inl rfl | exact .inr rfl)
  unfold b64Wrapper at h
  split at h
  · exact hd h
  · exact hd h

theorem b16decode_enc {v : Str} {e : PyErr} (h : b16decode v = .error e) : Enc e := by
  unfold b16decode at h
  split at h
  · split at h
    · cases h
    · cases h; exact (by first | exact .inl rfl | exact .inr rfl)
  · cases h; exact (by first | exact .inl rfl | exact .inr rfl)

theorem toB32_enc {n : Nat} {v : Str} {e : PyErr} (h : toB32 n v = .error e) : Enc e := by
  unfold toB32 at h
  split at h
  · cases h
  · generalize hx : (if n < v.length then b16decode v else b64Wrapper v) = x at h
    cases x with
    | ok b => cases h
    | error e' =>
      cases h
      split at hx
      · exact b16decode_enc hx
      · exact b64Wrapper_enc hx

theorem parseDigest_enc {v : Str} {e : PyErr} (h : parseDigest v = .error e) : Enc e := by
  unfold parseDigest at h
  split at h
  · cases h
  · cases h; exact (by first | exact .inl rfl | exact .inr rfl)

theorem compareDigest_enc [Hashlib] {d : Option Digester} {v : Option Str} {e : PyErr} (h : compareDigest d v = .error e) : Enc e := by
  unfold compareDigest at h
  split at h
  · split at h
    · cases h
    · split at h
      · split at h
        · cases h
        · rename_i h'; cases h; exact toB32_enc h'
      · rename_i h'; cases h; exact parseDigest_enc h'
      · rename_i h' _; cases h; exact parseDigest_enc h'
  · cases h

/-- What a verifying reader can raise of its own. -/
def DigErr (k : CheckKind) (e : PyErr) : Prop := Enc e ∨ (k = .raise ∧ e = .digestFailed)

theorem problem_gives (c : DigestChecker) (p : Problem) : Gives (fun c' => c'.kind = c.kind) (DigErr c.kind) (c.problem p) := by
  unfold DigestChecker.problem
  dsimp only
  split
  · rename_i h; exact .err rfl (.inr ⟨h, rfl⟩)
  · exact .ok rfl

theorem verdict_gives (c : DigestChecker) (k : Option Bool) (p : Problem) : Gives (fun c' => c'.kind = c.kind) (DigErr c.kind) (c.verdict k p) := by
  unfold DigestChecker.verdict
  split
  · exact problem_gives c p
  · refine .ok ?_
    split <;> rfl
  · exact .ok rfl

namespace DigestReader
variable {σ : Type} [Hashlib]

/-- The same stream and the same kind of checker. -/
structure Like (r r' : DigestReader σ) : Prop where
  stream : r'.lim.stream = r.lim.stream
  kind : r'.checker.kind = r.checker.kind

theorem finish_gives (r : DigestReader σ) : Gives (Like r) (DigErr r.checker.kind) r.finish := by
  unfold finish
  split
  · rename_i h
    exact .err ⟨rfl, rfl⟩ (.inl (compareDigest_enc h))
  · rename_i k h
    have h1 := verdict_gives r.checker k (.blockFailed (r.blockDigest.getD []))
    generalize r.checker.verdict k (.blockFailed (r.blockDigest.getD [])) = x at *
    obtain ⟨x, c⟩ := x
    cases x with
    | error e => exact .err ⟨rfl, h1.1⟩ (h1.2 _ rfl)
    | ok u =>
      have h1 : c.kind = r.checker.kind := h1.1
      dsimp only
      split
      · rename_i h
        exact .err ⟨rfl, h1⟩ (.inl (compareDigest_enc h))
      · rename_i k h
        have h2 := verdict_gives c k (.payloadFailed (r.payloadDigest.getD []))
        generalize c.verdict k (.payloadFailed (r.payloadDigest.getD [])) = x at *
        obtain ⟨x, c'⟩ := x
        cases x with
        | error e => exact .err ⟨rfl, h2.1.trans h1⟩ (by rw [← h1]; exact h2.2 _ rfl)
        | ok u => exact .ok ⟨rfl, h2.1.trans h1⟩

theorem update_gives (r : DigestReader σ) (b : Bytes) : Gives (Like r) (DigErr r.checker.kind) (r.update b) := by
  unfold update
  dsimp only
  split
  · have h := finish_gives { r with
      lim := { r.lim with limit := r.lim.limit - len b },
      payloadDigester := if r.payloadOn then r.payloadDigester.map (·.update b) else r.payloadDigester,
      blockDigester := r.blockDigester.map (·.update b) }
    generalize DigestReader.finish _ = x at *
    obtain ⟨x, r'⟩ := x
    cases x with
    | error e => exact .err ⟨h.1.1, h.1.2⟩ (h.2 _ rfl)
    | ok u => exact .ok ⟨h.1.1, h.1.2⟩
  · exact .ok ⟨rfl, rfl⟩

theorem beginPayload_gives (r : DigestReader σ) : Gives (Like r) (DigErr r.checker.kind) r.beginPayload := by
  unfold beginPayload
  dsimp only
  split
  · split
    · rename_i h
      exact .err ⟨rfl, rfl⟩ (.inl (compareDigest_enc h))
    · rename_i k h
      have h1 := verdict_gives r.checker k (.payloadFailed (r.payloadDigest.getD []))
      generalize r.checker.verdict k (.payloadFailed (r.payloadDigest.getD [])) = x at *
      obtain ⟨x, c⟩ := x
      cases x with
      | error e => exact .err ⟨rfl, h1.1⟩ (h1.2 _ rfl)
      | ok u => exact .ok ⟨rfl, h1.1⟩
  · exact .ok ⟨rfl, rfl⟩

theorem makeDigester_gives (c : DigestChecker) (d : Option Str) (p : Problem) : Gives (fun c' => c'.kind = c.kind) (DigErr c.kind) (makeDigester c d p) := by
  unfold makeDigester
  split
  · exact .ok rfl
  · split
    · exact .ok rfl
    · split
      · exact .ok rfl
      · have h := problem_gives c p
        generalize c.problem p = x at *
        obtain ⟨x, c'⟩ := x
        cases x with
        | error e => exact h.pass
        | ok u => exact .ok h.1

theorem new_gives {s : σ} {n : Int} {c : DigestChecker} {a b d f : Option Str} :
    (∀ e, (DigestReader.new s n c a b d f).1 = .error e → DigErr c.kind e) ∧
    (∀ r, (DigestReader.new s n c a b d f).1 = .ok r → r.lim.stream = s ∧ r.checker.kind = c.kind) := by
  unfold DigestReader.new
  dsimp only
  generalize (if a = some (lit "revisit") then none else d) = d1
  generalize (if f.isSome = true then none else _) = b1
  have h := makeDigester_gives c d1 .unknownBlockAlgo
  generalize makeDigester c d1 .unknownBlockAlgo = x at *
  obtain ⟨x, c1⟩ := x
  cases x with
  | error e => exact ⟨(fun e' h' => by cases h'; exact h.2 _ rfl), (fun r h' => by cases h')⟩
  | ok u =>
    have h1 : c1.kind = c.kind := h.1
    dsimp only
    have h := makeDigester_gives c1 b1 .unknownPayloadAlgo
    generalize makeDigester c1 b1 .unknownPayloadAlgo = x at *
    obtain ⟨x, c2⟩ := x
    cases x with
    | error e => exact ⟨(fun e' h' => by cases h'; rw [← h1]; exact h.2 _ rfl), (fun r h' => by cases h')⟩
    | ok u => exact ⟨(fun e' h' => by cases h'), (fun r h' => by cases h'; exact ⟨rfl, h.1.trans h1⟩)⟩

end DigestReader

/-- What the stream of a record can raise: what the archive stream can raise, and digest errors. -/
def RawErr (E : PyErr → Prop) (k : Option CheckKind) (e : PyErr) : Prop := E e ∨ ∃ c, k = some c ∧ DigErr c e

/-- The archive stream below is in `ok`; a verifying stream has a checker of kind `k`. -/
def OkR {σ : Type} (ok : σ → Prop) (k : Option CheckKind) : RawStream σ → Prop
  | .bare s => ok s
  | .limited r => ok r.stream
  | .verifying d => ok d.lim.stream.stream ∧ k = some d.checker.kind

theorem OkR.under {σ : Type} {ok : σ → Prop} {k : Option CheckKind} {r : RawStream σ} (h : OkR ok k r) : ok r.under := by
  cases r with
  | bare s => exact h
  | limited s => exact h
  | verifying s => exact h.1

theorem OkR.setUnder {σ : Type} {ok : σ → Prop} {k : Option CheckKind} {r : RawStream σ} (h : OkR ok k r) {s : σ} (hs : ok s) : OkR ok k (r.setUnder s) := by
  cases r with
  | bare _ => exact hs
  | limited _ => exact hs
  | verifying _ => exact ⟨hs, h.2⟩

section
variable {σ : Type} [Hashlib] [PyStream σ] {ok : σ → Prop} {E : PyErr → Prop} {k : Option CheckKind}

theorem verifying_reads (h : Reads σ ok E) : Reads (DigestReader σ) (fun r => ok r.lim.stream ∧ k = some r.checker.kind) (RawErr E k) := by
  intro r n hr
  show Gives _ _ (r.read n)
  unfold DigestReader.read
  dsimp only
  split
  · exact .ok hr
  · have := h r.lim.stream (some (r.lim.clampLen n)) hr.1
    generalize PyStream.read r.lim.stream (some (r.lim.clampLen n)) = x at *
    obtain ⟨x, s⟩ := x
    cases x with
    | ok b =>
      have u := DigestReader.update_gives { r with lim := { r.lim with stream := s } } b
      exact ⟨⟨by rw [u.1.1]; exact this.1, by rw [u.1.2]; exact hr.2⟩, fun e he => .inr ⟨_, hr.2, u.2 e he⟩⟩
    | error e => exact .err ⟨this.1, hr.2⟩ (.inl (this.2 _ rfl))

theorem verifying_lines (h : Lines σ ok E) : Lines (DigestReader σ) (fun r => ok r.lim.stream ∧ k = some r.checker.kind) (RawErr E k) := by
  intro r n hr
  show Gives _ _ (r.readline n)
  unfold DigestReader.readline
  dsimp only
  split
  · exact .ok hr
  · have := h r.lim.stream (some (r.lim.clampLen n)) hr.1
    generalize PyStream.readline r.lim.stream (some (r.lim.clampLen n)) = x at *
    obtain ⟨x, s⟩ := x
    cases x with
    | ok b =>
      have u := DigestReader.update_gives { r with lim := { r.lim with stream := s } } b
      exact ⟨⟨by rw [u.1.1]; exact this.1, by rw [u.1.2]; exact hr.2⟩, fun e he => .inr ⟨_, hr.2, u.2 e he⟩⟩
    | error e => exact .err ⟨this.1, hr.2⟩ (.inl (this.2 _ rfl))

theorem raw_reads (h : Reads σ ok E) : Reads (RawStream σ) (OkR ok k) (RawErr E k) := by
  intro r n hr
  cases r with
  | bare s => exact ⟨(h s n hr).1, fun e he => .inl ((h s n hr).2 e he)⟩
  | limited s => exact ⟨(limit_reads h s n hr).1, fun e he => .inl ((limit_reads h s n hr).2 e he)⟩
  | verifying s => exact ⟨(verifying_reads (limit_reads h) s n hr).1, (verifying_reads (limit_reads h) s n hr).2⟩

theorem raw_lines (h : Lines σ ok E) : Lines (RawStream σ) (OkR ok k) (RawErr E k) := by
  intro r n hr
  cases r with
  | bare s => exact ⟨(h s n hr).1, fun e he => .inl ((h s n hr).2 e he)⟩
  | limited s => exact ⟨(limit_lines h s n hr).1, fun e he => .inl ((limit_lines h s n hr).2 e he)⟩
  | verifying s => exact ⟨(verifying_lines (limit_lines h) s n hr).1, (verifying_lines (limit_lines h) s n hr).2⟩

end

/-! ## Header blocks -/

section
variable {σ : Type} [PyStream σ] {ok : σ → Prop} {E : PyErr → Prop}

namespace HeaderParser

theorem nextLine_gives (h : Lines0 σ ok E) (s : σ) (total : Int) (hs : ok s) : Gives ok E (nextLine s total) := by
  unfold nextLine
  have := h s hs
  generalize PyStream.readline s none = x at *
  obtain ⟨x, s1⟩ := x
  cases x with
  | error e => exact this.pass
  | ok b => exact .ok this.1

theorem contLoop_gives (hF : E .outOfFuel) (h : Lines0 σ ok E) : ∀ (fuel : Nat) (v : Option Str) (next : Str) (total : Int) (s : σ), ok s →
    Gives ok E (contLoop fuel v next total s)
  | 0, _, _, _, s, hs => .err hs hF
  | fuel + 1, v, next, total, s, hs => by
    unfold contLoop
    split
    · have h1 := nextLine_gives h s total hs
      generalize nextLine s total = x at *
      obtain ⟨x, s1⟩ := x
      cases x with
      | error e => exact h1.pass
      | ok b => exact contLoop_gives hF h fuel _ _ _ s1 h1.1
    · exact .ok hs

theorem headerLoop_gives (hF : E .outOfFuel) (h : Lines0 σ ok E) : ∀ (fuel : Nat) (line : Str) (total : Int) (hs : List Header) (s : σ), ok s →
    Gives ok E (headerLoop fuel line total hs s)
  | 0, _, _, _, s, hs => .err hs hF
  | fuel + 1, line, total, hd, s, hs => by
    unfold headerLoop
    split
    · exact .ok hs
    · have h1 := nextLine_gives h s total hs
      generalize nextLine s total = x at *
      obtain ⟨x, s1⟩ := x
      cases x with
      | error e => exact h1.pass
      | ok b =>
        obtain ⟨next, total1⟩ := b
        dsimp only
        have h2 := contLoop_gives hF h (PyStream.bound s1 + 2) (splitHeader line).2 next total1 s1 h1.1
        generalize contLoop (PyStream.bound s1 + 2) (splitHeader line).2 next total1 s1 = x at *
        obtain ⟨x, s2⟩ := x
        cases x with
        | error e => exact h2.pass
        | ok b =>
          obtain ⟨value, next, total2⟩ := b
          dsimp only
          split
          · exact headerLoop_gives hF h fuel _ _ _ s2 h2.1
          · exact headerLoop_gives hF h fuel _ _ _ s2 h2.1

/-- What parsing a header block can raise. -/
def ParseErr (E : PyErr → Prop) (verify : Bool) (e : PyErr) : Prop := E e ∨ e = .eofError ∨ (verify = true ∧ ∃ l, e = .statusParser l)

variable [PyUni]

theorem parseFrom_gives (hF : E .outOfFuel) (h : Lines0 σ ok E) (c : HeaderParser) (full : Str) (s : σ) (hs : ok s) :
    Gives ok (ParseErr E c.verify) (c.parseFrom full s) := by
  unfold parseFrom
  split
  · exact .err hs (.inr (.inl rfl))
  · split
    · exact .ok hs
    · cases hp : c.protocolStatus full (rstrip full) with
      | error e =>
        refine .err hs ?_
        unfold protocolStatus at hp
        split at hp
        · rename_i hv
          split at hp
          · cases hp
          · cases hp; exact .inr (.inr ⟨hv, _, rfl⟩)
        · cases hp
      | ok ps =>
        dsimp only
        have h1 := nextLine_gives h s (len full) hs
        generalize nextLine s (len full) = x at *
        obtain ⟨x, s1⟩ := x
        cases x with
        | error e => exact .err h1.1 (.inl (h1.2 _ rfl))
        | ok b =>
          obtain ⟨line, total⟩ := b
          dsimp only
          have h2 := headerLoop_gives hF h (PyStream.bound s1 + 2) line total [] s1 h1.1
          generalize headerLoop (PyStream.bound s1 + 2) line total [] s1 = x at *
          obtain ⟨x, s2⟩ := x
          cases x with
          | error e => exact .err h2.1 (.inl (h2.2 _ rfl))
          | ok b => exact .ok h2.1

theorem parse_gives (hF : E .outOfFuel) (h : Lines0 σ ok E) (c : HeaderParser) (s : σ) (full : Option Line) (hs : ok s) :
    Gives ok (ParseErr E c.verify) (c.parse s full) := by
  unfold parse
  split
  · exact parseFrom_gives hF h c _ s hs
  · have h1 := h s hs
    generalize PyStream.readline s none = x at *
    obtain ⟨x, s1⟩ := x
    cases x with
    | error e => exact .err h1.1 (.inl (h1.2 _ rfl))
    | ok b => exact parseFrom_gives hF h c _ s1 h1.1

end HeaderParser
end

end Warcio

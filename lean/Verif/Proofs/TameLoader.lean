import Verif.Proofs.Tame
import Verif.Proofs.Detect

/-!
# Records are loaded in finite time from any stream
-/

set_option linter.unusedSectionVars false

namespace Warcio

/-- An exception that carries no data and is one of Python. -/
def Calm (e : PyErr) : Prop := errSize e = 0 ∧ e ≠ .outOfFuel

theorem b64Loop_calm (q l p : Nat) (s : Str) {e : PyErr} (h : b64Loop q l p s = .error e) : Calm e := by
  induction s generalizing q l p e with
  | nil =>
    unfold b64Loop at h
    split at h
    · cases h
    · cases h; exact ⟨rfl, (fun h => by cases h)⟩
  | cons c t ih =>
    unfold b64Loop at h
    split at h
    · split at h
      · split at h
        · cases h
        · exact ih _ _ _ h
      · exact ih _ _ _ h
    · split at h
      · exact ih _ _ _ h
      · have hm : ∀ {x : Except PyErr Bytes} {f : Bytes → Bytes}, x.map f = .error e → x = .error e := by
          intro x f hx
          cases x with
          | error e' => simpa [Except.map] using hx
          | ok v => simp [Except.map] at hx
        split at h
        · exact ih _ _ _ h
        · exact ih _ _ _ (hm h)
        · exact ih _ _ _ (hm h)
        · exact ih _ _ _ (hm h)

theorem b64Wrapper_calm {v : Str} {e : PyErr} (h : b64Wrapper v = .error e) : Calm e := by
  have hd : ∀ {v : Str}, b64decode v = .error e → Calm e := by
    intro v h
    unfold b64decode at h
    split at h
    · exact b64Loop_calm _ _ _ _ h
    · cases h; exact ⟨rfl, (fun h => by cases h)⟩
  unfold b64Wrapper at h
  split at h
  · exact hd h
  · exact hd h

theorem b16decode_calm {v : Str} {e : PyErr} (h : b16decode v = .error e) : Calm e := by
  unfold b16decode at h
  split at h
  · split at h
    · cases h
    · cases h; exact ⟨rfl, (fun h => by cases h)⟩
  · cases h; exact ⟨rfl, (fun h => by cases h)⟩

theorem toB32_calm {n : Nat} {v : Str} {e : PyErr} (h : toB32 n v = .error e) : Calm e := by
  unfold toB32 at h
  split at h
  · cases h
  · generalize hx : (if n < v.length then b16decode v else b64Wrapper v) = x at h
    cases x with
    | ok b => cases h
    | error e' =>
      cases h
      split at hx
      · exact b16decode_calm hx
      · exact b64Wrapper_calm hx

theorem parseDigest_calm {v : Str} {e : PyErr} (h : parseDigest v = .error e) : Calm e := by
  unfold parseDigest at h
  split at h
  · cases h
  · cases h; exact ⟨rfl, (fun h => by cases h)⟩

theorem compareDigest_calm [Hashlib] {d : Option Digester} {v : Option Str} {e : PyErr} (h : compareDigest d v = .error e) : Calm e := by
  unfold compareDigest at h
  split at h
  · split at h
    · cases h
    · split at h
      · split at h
        · cases h
        · rename_i h'; cases h; exact toB32_calm h'
      · rename_i h'; cases h; exact parseDigest_calm h'
      · rename_i h' _; cases h; exact parseDigest_calm h'
  · cases h

theorem problem_calm {c c' : DigestChecker} {p : Problem} {e : PyErr} (h : c.problem p = (.error e, c')) : Calm e := by
  unfold DigestChecker.problem at h
  simp only at h
  split at h
  · cases h; exact ⟨rfl, (fun h => by cases h)⟩
  · cases h

theorem verdict_calm {c c' : DigestChecker} {k : Option Bool} {p : Problem} {e : PyErr} (h : c.verdict k p = (.error e, c')) : Calm e := by
  unfold DigestChecker.verdict at h
  split at h
  · exact problem_calm h
  · cases h
  · cases h

namespace DigestReader
variable {σ : Type} [Hashlib]

theorem finish_calm (r : DigestReader σ) : (∀ e, r.finish.1 = .error e → Calm e) ∧ r.finish.2.lim = r.lim := by
  unfold finish
  split
  · rename_i h
    exact ⟨(fun e he => by cases he; exact compareDigest_calm h), rfl⟩
  · split
    · rename_i h
      exact ⟨(fun e he => by cases he; exact verdict_calm h), rfl⟩
    · dsimp only
      split
      · rename_i h
        exact ⟨(fun e he => by cases he; exact compareDigest_calm h), rfl⟩
      · split
        · rename_i h
          exact ⟨(fun e he => by cases he; exact verdict_calm h), rfl⟩
        · exact ⟨(fun e he => by cases he), rfl⟩

theorem update_calm (r : DigestReader σ) (b : Bytes) : outSize (r.update b).1 ≤ b.length ∧ (r.update b).1 ≠ .error .outOfFuel ∧ (r.update b).2.lim.stream = r.lim.stream := by
  unfold update
  dsimp only
  split
  · generalize hx : DigestReader.finish _ = x
    have hc := finish_calm { r with
      lim := { r.lim with limit := r.lim.limit - len b },
      payloadDigester := if r.payloadOn then r.payloadDigester.map (·.update b) else r.payloadDigester,
      blockDigester := r.blockDigester.map (·.update b) }
    rw [hx] at hc
    obtain ⟨x, r'⟩ := x
    simp only at hc
    cases x with
    | ok u => exact ⟨Nat.le_refl _, (fun h => by cases h), by simp only; rw [hc.2]⟩
    | error e =>
      have := hc.1 e rfl
      exact ⟨by simp only [outSize]; rw [this.1]; omega, (fun h => by cases h; exact this.2 rfl), by simp only; rw [hc.2]⟩
  · exact ⟨Nat.le_refl _, (fun h => by cases h), rfl⟩

theorem beginPayload_calm (r : DigestReader σ) : (∀ e, r.beginPayload.1 = .error e → Calm e) ∧ r.beginPayload.2.lim = r.lim := by
  unfold beginPayload
  dsimp only
  split
  · split
    · rename_i h
      exact ⟨(fun e he => by cases he; exact compareDigest_calm h), rfl⟩
    · split
      · rename_i h
        exact ⟨(fun e he => by cases he; exact verdict_calm h), rfl⟩
      · exact ⟨(fun e he => by cases he), rfl⟩
  · exact ⟨(fun e he => by cases he), rfl⟩

theorem makeDigester_calm {c c' : DigestChecker} {d : Option Str} {p : Problem} {e : PyErr} (h : makeDigester c d p = (.error e, c')) : Calm e := by
  unfold makeDigester at h
  split at h
  · cases h
  · split at h
    · cases h
    · split at h
      · cases h
      · split at h
        · cases h
        · rename_i h'; cases h; exact problem_calm h'

theorem new_calm {s : σ} {n : Int} {c : DigestChecker} {a b d f : Option Str} :
    (∀ e, (DigestReader.new s n c a b d f).1 = .error e → Calm e) ∧
    (∀ r, (DigestReader.new s n c a b d f).1 = .ok r → r.lim.stream = s) := by
  unfold DigestReader.new
  dsimp only
  split
  · rename_i h
    exact ⟨(fun e he => by cases he; exact makeDigester_calm h), (fun r hr => by cases hr)⟩
  · split
    · rename_i h
      exact ⟨(fun e he => by cases he; exact makeDigester_calm h), (fun r hr => by cases hr)⟩
    · exact ⟨(fun e he => by cases he), (fun r hr => by cases hr; rfl)⟩

end DigestReader

instance {σ} [Hashlib] [PyStream σ] [Tame σ] : Tame (DigestReader σ) where
  pot r := pot r.lim.stream
  read r n := by
    simp only [PyStream.read, DigestReader.read]
    split
    · exact ⟨Nat.le_refl _, fun h => by cases h⟩
    · split
      · rename_i b s h
        have h1 := tame_read h
        have h2 := DigestReader.update_calm { r with lim := { stream := s, limit := r.lim.limit, origLimit := r.lim.origLimit } } b
        simp only [outSize] at h1
        refine ⟨?_, h2.2.1⟩
        rw [h2.2.2]
        exact Nat.le_trans (Nat.add_le_add_left h2.1 _) h1.1
      · rename_i h; exact ⟨(tame_read h).1, fun h' => (tame_read h).2 (by cases h'; rfl)⟩
  readline r n := by
    simp only [PyStream.readline, DigestReader.readline]
    split
    · exact ⟨Nat.le_refl _, fun h => by cases h⟩
    · split
      · rename_i b s h
        have h1 := tame_readline h
        have h2 := DigestReader.update_calm { r with lim := { stream := s, limit := r.lim.limit, origLimit := r.lim.origLimit } } b
        simp only [outSize] at h1
        refine ⟨?_, h2.2.1⟩
        rw [h2.2.2]
        exact Nat.le_trans (Nat.add_le_add_left h2.1 _) h1.1
      · rename_i h; exact ⟨(tame_readline h).1, fun h' => (tame_readline h).2 (by cases h'; rfl)⟩
  bound r := Tame.bound r.lim.stream

instance {σ} [Hashlib] [PyStream σ] [Tame σ] : Tame (RawStream σ) where
  pot r := pot r.under
  read r n := by
    cases r with
    | bare s => exact Tame.read s n
    | limited s => exact Tame.read s n
    | verifying s => exact Tame.read s n
  readline r n := by
    cases r with
    | bare s => exact Tame.readline s n
    | limited s => exact Tame.readline s n
    | verifying s => exact Tame.readline s n
  bound r := by
    cases r with
    | bare s => exact Tame.bound s
    | limited s => exact Tame.bound s
    | verifying s => exact Tame.bound s

theorem pot_raw {σ} [Hashlib] [PyStream σ] [Tame σ] (r : RawStream σ) : pot r = pot r.under := rfl

/-- The outcome of a function that reads from a stream: data is only used up, and no fuel is
missing. -/
structure Uses {σ α : Type} [PyStream σ] [Tame σ] (s : σ) (x : Except PyErr α × σ) : Prop where
  pot : Warcio.pot x.2 ≤ Warcio.pot s
  fuel : x.1 ≠ .error .outOfFuel

section
variable {σ : Type} [PyStream σ] [Tame σ]

theorem Uses.of {α : Type} {s s' : σ} {x : Except PyErr α × σ} (h : Warcio.pot s' ≤ Warcio.pot s) (hx : Uses s' x) : Uses s x :=
  ⟨Nat.le_trans hx.pot h, hx.fuel⟩

theorem Uses.ok {α : Type} (s : σ) (v : α) : Uses s (.ok v, s) := ⟨Nat.le_refl _, (fun h => by cases h)⟩

theorem Uses.err {α : Type} (s : σ) {e : PyErr} (h : e ≠ .outOfFuel) : Uses (α := α) s (.error e, s) := ⟨Nat.le_refl _, (fun h' => by cases h'; exact h rfl)⟩

namespace HeaderParser

theorem nextLine_uses (s : σ) (total : Int) : Uses s (nextLine s total) ∧
    (∀ l t s', nextLine s total = (.ok (l, t), s') → l ≠ [] → pot s' + 1 ≤ pot s) := by
  unfold nextLine
  generalize hx : PyStream.readline s none = x
  obtain ⟨x, s'⟩ := x
  obtain ⟨h1, h2⟩ := tame_readline hx
  cases x with
  | error e => exact ⟨⟨by simp only; omega, (fun h => h2 (by cases h; rfl))⟩, (fun l t s' h => by cases h)⟩
  | ok b =>
    simp only [outSize] at h1
    refine ⟨⟨by simp only; omega, (fun h => by cases h)⟩, ?_⟩
    intro l t s'' h hl
    cases h
    have : 0 < b.length := by
      apply List.length_pos_iff.2
      rintro rfl
      exact hl (by decide)
    omega

theorem contLoop_uses (fuel : Nat) (v : Option Str) (next : Str) (total : Int) (s : σ) (hf : pot s + (if next.isEmpty then 0 else 1) < fuel) :
    Uses s (contLoop fuel v next total s) ∧
    (∀ v' l t s', contLoop fuel v next total s = (.ok (v', l, t), s') → pot s' + (if l.isEmpty then 0 else 1) ≤ pot s + (if next.isEmpty then 0 else 1)) := by
  induction fuel generalizing v next total s with
  | zero => omega
  | succ fuel ih =>
    unfold contLoop
    split
    · rename_i hc
      have hne : next.isEmpty = false := by
        cases next with
        | nil => simp [isContinuation, startsWith] at hc
        | cons a t => rfl
      obtain ⟨n1, n2⟩ := nextLine_uses s total
      generalize hx : nextLine s total = x at *
      obtain ⟨x, s1⟩ := x
      have np := n1.pot
      simp only at np
      cases x with
      | error e => exact ⟨n1.fuel |> fun h => ⟨np, (fun h' => h (by cases h'; rfl))⟩, (fun v' l t s' h => by cases h)⟩
      | ok lt =>
        obtain ⟨l, t⟩ := lt
        have n3 := n2 l t s1 rfl
        rw [hne] at hf ⊢
        have hl : pot s1 + (if l.isEmpty then 0 else 1) ≤ pot s := by
          cases l with
          | nil => simpa using np
          | cons a r => simpa using n3 (by simp)
        obtain ⟨i1, i2⟩ := ih (v.map (· ++ next)) l t s1 (by simp at hf; omega)
        refine ⟨Uses.of np i1, ?_⟩
        intro v' l' t' s' h
        have := i2 v' l' t' s' h
        simp only [Bool.false_eq_true, if_false]
        omega
    · refine ⟨Uses.ok _ _, ?_⟩
      intro v' l t s' h
      cases h
      exact Nat.le_refl _

theorem headerLoop_uses (fuel : Nat) (line : Str) (total : Int) (hs : List Header) (s : σ) (hf : pot s + (if line.isEmpty then 0 else 1) < fuel) :
    Uses s (headerLoop fuel line total hs s) := by
  induction fuel generalizing line total hs s with
  | zero => omega
  | succ fuel ih =>
    unfold headerLoop
    split
    · exact Uses.ok _ _
    · rename_i hne
      obtain ⟨n1, n2⟩ := nextLine_uses s total
      generalize hx : nextLine s total = x at *
      obtain ⟨x, s1⟩ := x
      have np := n1.pot
      simp only at np
      cases x with
      | error e => exact ⟨np, (fun h' => n1.fuel (by cases h'; rfl))⟩
      | ok lt =>
        obtain ⟨l, t⟩ := lt
        dsimp only
        have n3 := n2 l t s1 rfl
        have hl : pot s1 + (if l.isEmpty then 0 else 1) ≤ pot s := by
          cases l with
          | nil => simpa using np
          | cons a r => simpa using n3 (by simp)
        have hb := Tame.bound s1
        obtain ⟨c1, c2⟩ := contLoop_uses (PyStream.bound s1 + 2) (splitHeader line).2 l t s1 (by split <;> omega)
        generalize hy : contLoop (PyStream.bound s1 + 2) (splitHeader line).2 l t s1 = y at *
        obtain ⟨y, s2⟩ := y
        have cp := c1.pot
        simp only at cp
        cases y with
        | error e => exact ⟨by simp only; omega, (fun h' => c1.fuel (by cases h'; rfl))⟩
        | ok r =>
          obtain ⟨v, next, t2⟩ := r
          have c3 := c2 v next t2 s2 rfl
          have hne' : line.isEmpty = false := by simpa using hne
          rw [hne'] at hf
          simp only [Bool.false_eq_true, if_false] at hf
          have hf2 : pot s2 + (if next.isEmpty then 0 else 1) < fuel := by omega
          dsimp only
          cases v with
          | some v => exact Uses.of (by omega) (ih next t2 _ s2 hf2)
          | none => exact Uses.of (by omega) (ih next t2 _ s2 hf2)

theorem protocolStatus_calm [PyUni] {c : HeaderParser} {a b : Str} {e : PyErr} (h : c.protocolStatus a b = .error e) : e ≠ .outOfFuel ∧ e = .statusParser a := by
  unfold protocolStatus at h
  split at h
  · split at h
    · cases h
    · cases h; exact ⟨(fun h => by cases h), rfl⟩
  · cases h

theorem parseFrom_uses [PyUni] (c : HeaderParser) (full : Str) (s : σ) : Uses s (c.parseFrom full s) := by
  unfold parseFrom
  split
  · exact Uses.err _ (fun h => by cases h)
  · split
    · exact Uses.ok _ _
    · split
      · rename_i h; exact Uses.err _ (protocolStatus_calm h).1
      · obtain ⟨n1, n2⟩ := nextLine_uses s (len full)
        generalize hx : nextLine s (len full) = x at *
        obtain ⟨x, s1⟩ := x
        have np := n1.pot
        simp only at np
        cases x with
        | error e => exact ⟨np, (fun h' => n1.fuel (by cases h'; rfl))⟩
        | ok lt =>
          obtain ⟨l, t⟩ := lt
          dsimp only
          have hb := Tame.bound s1
          have h := headerLoop_uses (PyStream.bound s1 + 2) l t [] s1 (by split <;> omega)
          generalize hy : headerLoop (PyStream.bound s1 + 2) l t [] s1 = y at *
          obtain ⟨y, s2⟩ := y
          have cp := h.pot
          simp only at cp
          cases y with
          | error e => exact ⟨by simp only; omega, (fun h' => h.fuel (by cases h'; rfl))⟩
          | ok r => exact ⟨by simp only; omega, (fun h => by cases h)⟩

theorem parseFrom_nil [PyUni] (c : HeaderParser) (s : σ) : c.parseFrom [] s = (.error .eofError, s) := rfl

theorem decodeHeader_nil : decodeHeader [] = [] := by decide

/-- If headers come out of a stream, a byte was read from it; also if the first line is not one of
such headers. -/
theorem parse_uses [PyUni] (c : HeaderParser) (s : σ) (full : Option Line) : Uses s (c.parse s full) ∧
    (full = none → (∀ h s', c.parse s full = (.ok h, s') → pot s' + 1 ≤ pot s) ∧ (∀ l s', c.parse s full = (.error (.statusParser l), s') → l ≠ [] → pot s' + 1 ≤ pot s)) := by
  unfold parse
  cases full with
  | some l => exact ⟨parseFrom_uses c _ s, (fun h => by cases h)⟩
  | none =>
    dsimp only
    generalize hx : PyStream.readline s none = x
    obtain ⟨x, s1⟩ := x
    obtain ⟨h1, h2⟩ := tame_readline hx
    cases x with
    | error e =>
      refine ⟨⟨by simp only; omega, (fun h => h2 (by cases h; rfl))⟩, fun _ => ⟨(fun h s' h' => by cases h'), fun l s' h' hl => ?_⟩⟩
      cases h'
      simp only [outSize, errSize] at h1
      rw [if_neg (by simpa using hl)] at h1
      exact h1
    | ok b =>
      simp only [outSize] at h1
      dsimp only
      have hu := parseFrom_uses c (decodeHeader b) s1
      refine ⟨Uses.of (by omega) hu, fun _ => ?_⟩
      by_cases hb : b = []
      · subst hb
        rw [decodeHeader_nil, parseFrom_nil]
        exact ⟨(fun h s' h' => by cases h'), (fun l s' h' => by cases h')⟩
      · have : 0 < b.length := List.length_pos_iff.2 hb
        have hp := hu.pot
        constructor
        · intro h s' h'
          rw [h'] at hp
          simp only at hp; omega
        · intro h s' h' _
          rw [h'] at hp
          simp only at hp; omega

end HeaderParser

namespace Loader
variable [PyUni]

theorem decodedLine_uses (s : σ) : Uses s (decodedLine s) ∧ (∀ l s', decodedLine s = (.ok l, s') → l ≠ [] → pot s' + 1 ≤ pot s) := by
  unfold decodedLine
  generalize hx : PyStream.readline s none = x
  obtain ⟨x, s1⟩ := x
  obtain ⟨h1, h2⟩ := tame_readline hx
  cases x with
  | error e => exact ⟨⟨by simp only; omega, (fun h => h2 (by cases h; rfl))⟩, (fun l s' h => by cases h)⟩
  | ok b =>
    simp only [outSize] at h1
    refine ⟨⟨by simp only; omega, (fun h => by cases h)⟩, ?_⟩
    intro l s' h hl
    cases h
    have : 0 < b.length := by
      apply List.length_pos_iff.2
      rintro rfl
      exact hl HeaderParser.decodeHeader_nil
    omega

theorem skipTwo_uses (s : σ) : Uses s (skipTwo s) := by
  unfold skipTwo
  have h1 := (decodedLine_uses s).1
  generalize hx : decodedLine s = x at *
  obtain ⟨x, s1⟩ := x
  have hp := h1.pot
  simp only at hp
  cases x with
  | error e => exact ⟨hp, (fun h => h1.fuel (by cases h; rfl))⟩
  | ok l =>
    dsimp only
    have h2 := (decodedLine_uses s1).1
    generalize hy : decodedLine s1 = y at *
    obtain ⟨y, s2⟩ := y
    have hp2 := h2.pot
    simp only at hp2
    cases y with
    | error e => exact ⟨by simp only; omega, (fun h => h2.fuel (by cases h; rfl))⟩
    | ok l => exact ⟨by simp only; omega, (fun h => by cases h)⟩

theorem parseArcFrom_uses (o : LoadOpts) (l : Str) (s : σ) : Uses s (parseArcFrom o l s) ∧ (∀ h s', parseArcFrom o l s = (.ok h, s') → l ≠ []) := by
  unfold parseArcFrom
  split
  · exact ⟨Uses.err _ (fun h => by cases h), (fun h s' h' => by cases h')⟩
  · rename_i hl
    refine ⟨?_, (fun _ _ _ h => hl (by simp [h]))⟩
    dsimp only
    have h1 : Uses s (if isFiledesc (rstrip l) then skipTwo s else (.ok 0, s)) := by
      split
      · exact skipTwo_uses s
      · exact Uses.ok _ _
    generalize (if isFiledesc (rstrip l) then skipTwo s else (.ok 0, s)) = x at *
    obtain ⟨x, s1⟩ := x
    have hp := h1.pot
    simp only at hp
    cases x with
    | error e => exact ⟨hp, (fun h => h1.fuel (by cases h; rfl))⟩
    | ok t =>
      dsimp only
      split
      · exact ⟨hp, (fun h => by cases h)⟩
      · obtain ⟨hs, hh⟩ := arcHeaders_ok o (rstrip l) (rsplitN ' ' 4 (rstrip l))
        rw [hh]
        exact ⟨hp, (fun h => by cases h)⟩

/-- What the first line of a record costs: it is given, or it is read. -/
def Paid (s : σ) (line : Option Line) (s' : σ) : Prop :=
  match line with
  | some l => l.decode ≠ [] ∧ pot s' ≤ pot s
  | none => pot s' + 1 ≤ pot s

theorem parseArc_uses (o : LoadOpts) (s : σ) (line : Option Line) : Uses s (parseArc o s line) ∧ (∀ h s', parseArc o s line = (.ok h, s') → Paid s line s') := by
  unfold parseArc
  cases line with
  | some l =>
    obtain ⟨h1, h2⟩ := parseArcFrom_uses o l.decode s
    refine ⟨h1, fun h s' h' => ⟨h2 h s' h', ?_⟩⟩
    have := h1.pot
    dsimp only at h'
    rw [h'] at this
    exact this
  | none =>
    dsimp only
    obtain ⟨h1, h2⟩ := decodedLine_uses s
    generalize hx : decodedLine s = x at *
    obtain ⟨x, s1⟩ := x
    have hp := h1.pot
    simp only at hp
    cases x with
    | error e => exact ⟨⟨hp, (fun h => h1.fuel (by cases h; rfl))⟩, (fun h s' h' => by cases h')⟩
    | ok l =>
      dsimp only
      obtain ⟨h3, h4⟩ := parseArcFrom_uses o l s1
      refine ⟨Uses.of hp h3, fun h s' h' => ?_⟩
      have h5 := h2 l s1 rfl (h4 h s' h')
      have := h3.pot
      rw [h'] at this
      simp only at this
      exact Nat.le_trans (Nat.add_le_add_right this 1) h5

theorem detectArc_uses (o : LoadOpts) (s : σ) (line : Option Line) : Uses s (detectArc o s line) ∧ (∀ h s', detectArc o s line = (.ok h, s') → Paid s line s') := by
  unfold detectArc
  obtain ⟨h1, h2⟩ := parseArc_uses o s line
  generalize hx : parseArc o s line = x at *
  obtain ⟨x, s1⟩ := x
  have hp := h1.pot
  simp only at hp
  cases x with
  | ok h => exact ⟨⟨hp, (fun h => by cases h)⟩, (fun h' s' e => by cases e; exact h2 h s1 rfl)⟩
  | error e =>
    have hf : e ≠ .outOfFuel := fun h => h1.fuel (by rw [h])
    refine ⟨?_, fun h s' h' => ?_⟩
    · cases e with
      | arcParser p => exact ⟨hp, (fun h => by simp only at h; split at h <;> cases h)⟩
      | _ => exact ⟨hp, (fun h => hf (Except.error.inj h))⟩
    · cases e <;> cases h'

theorem detectType_uses (o : LoadOpts) (s : σ) (line : Option Line) : Uses s (detectType o s line) ∧ (∀ h s', detectType o s line = (.ok h, s') → Paid s line s') := by
  unfold detectType
  split
  · exact detectArc_uses o s line
  · obtain ⟨h1, h2⟩ := HeaderParser.parse_uses warcParser s line
    have h3 : ∀ h s', warcParser.parse s line = (.ok h, s') → Paid s line s' := by
      intro h s' h'
      cases line with
      | none => exact (h2 rfl).1 h s' h'
      | some l =>
        refine ⟨?_, ?_⟩
        · intro hl
          simp only [HeaderParser.parse, hl, HeaderParser.parseFrom_nil] at h'
          cases h'
        · have := h1.pot
          rw [h'] at this
          exact this
    have h4 : ∀ l s', warcParser.parse s line = (.error (.statusParser l), s') → l ≠ [] → Paid s line s' := by
      intro l s' h' hl
      cases line with
      | none => exact (h2 rfl).2 l s' h' hl
      | some l' =>
        refine ⟨?_, ?_⟩
        · intro hl
          simp only [HeaderParser.parse, hl, HeaderParser.parseFrom_nil] at h'
          cases h'
        · have := h1.pot
          rw [h'] at this
          exact this
    generalize hx : warcParser.parse s line = x at *
    obtain ⟨x, s1⟩ := x
    have hp := h1.pot
    simp only at hp
    cases x with
    | ok h => exact ⟨⟨hp, (fun h => by cases h)⟩, (fun h' s' e => by cases e; exact h3 h s1 rfl)⟩
    | error e =>
      have hf : e ≠ .outOfFuel := fun h => h1.fuel (by rw [h])
      cases e with
      | statusParser l =>
        dsimp only
        split
        · exact ⟨⟨hp, (fun h => by cases h)⟩, (fun h s' h' => by cases h')⟩
        · obtain ⟨a1, a2⟩ := detectArc_uses o s1 (some (.str l))
          refine ⟨Uses.of hp a1, fun h s' h' => ?_⟩
          obtain ⟨b1, b2⟩ := a2 h s' h'
          have := h4 l s1 rfl b1
          cases line with
          | none => exact Nat.le_trans (Nat.add_le_add_right b2 1) this
          | some l' => exact ⟨this.1, Nat.le_trans b2 this.2⟩
      | _ => exact ⟨⟨hp, (fun h => hf (Except.error.inj h))⟩, (fun h s' h' => by cases h')⟩

variable [Hashlib]

theorem wrap_uses (o : LoadOpts) (f : Fields) (n : Option Int) (s : σ) :
    (∀ e, wrap o f n s = .error e → Calm e) ∧ (∀ raw, wrap o f n s = .ok raw → raw.under = s) := by
  unfold wrap
  cases n with
  | none => exact ⟨(fun e h => by cases h), (fun raw h => by cases h; rfl)⟩
  | some n =>
    dsimp only
    unfold LimitReader.wrapStream
    split
    · rename_i s' hs
      split at hs
      · cases hs
      · cases hs
        exact ⟨(fun e h => by cases h), (fun raw h => by cases h; rfl)⟩
    · rename_i r hs
      have hr : r.stream = s := by
        split at hs
        · cases hs; rfl
        · cases hs
      split
      · split
        · rename_i d hd
          have := (DigestReader.new_calm).2 d hd
          refine ⟨(fun e h => by cases h), (fun raw h => by cases h; simp only [RawStream.under]; rw [this, hr])⟩
        · rename_i e hd
          exact ⟨(fun e' h => by cases h; exact (DigestReader.new_calm).1 e hd), (fun raw h => by cases h)⟩
      · exact ⟨(fun e h => by cases h), (fun raw h => by cases h; exact hr)⟩

theorem loadHttpHeaders_uses (v : Bool) (a b : Option Str) (n : Option Int) (s : σ) : Uses s (loadHttpHeaders v a b n s) := by
  unfold loadHttpHeaders
  split
  · exact Uses.ok _ _
  · split
    · exact Uses.ok _ _
    · split
      · exact Uses.ok _ _
      · split
        · exact Uses.err _ (fun h => by cases h)
        · split
          · exact Uses.ok _ _
          · split
            · have h1 := (HeaderParser.parse_uses (httpReqParser v) s none).1
              generalize hx : (httpReqParser v).parse s none = x at *
              obtain ⟨x, s1⟩ := x
              cases x with
              | ok h => exact ⟨h1.pot, (fun h => by cases h)⟩
              | error e => exact ⟨h1.pot, (fun h => h1.fuel (by cases h; rfl))⟩
            · have h1 := (HeaderParser.parse_uses (httpParser v) s none).1
              generalize hx : (httpParser v).parse s none = x at *
              obtain ⟨x, s1⟩ := x
              cases x with
              | ok h => exact ⟨h1.pot, (fun h => by cases h)⟩
              | error e =>
                dsimp only
                split
                · exact ⟨h1.pot, (fun h => by cases h)⟩
                · exact ⟨h1.pot, (fun h => h1.fuel (by cases h; rfl))⟩

theorem beginPayload_uses (r : RawStream σ) : (∀ e, (beginPayload r).1 = .error e → Calm e) ∧ (beginPayload r).2.under = r.under := by
  unfold beginPayload
  split
  · rename_i d
    have := DigestReader.beginPayload_calm d
    refine ⟨this.1, ?_⟩
    simp only [RawStream.under]
    rw [this.2]
  · exact ⟨(fun e h => by cases h), rfl⟩

/-- Loading a record ends, and uses up at least the first line. -/
theorem parseRecordStream_uses (o : LoadOpts) (s : σ) (line : Option Line) : Uses s (parseRecordStream o s line) ∧
    (∀ r s', parseRecordStream o s line = (.ok r, s') → Paid s line r.rawStream.under) := by
  unfold parseRecordStream
  obtain ⟨h1, h2⟩ := detectType_uses o s line
  generalize hx : detectType o s line = x at *
  obtain ⟨x, s1⟩ := x
  have hp := h1.pot
  simp only at hp
  cases x with
  | error e => exact ⟨⟨hp, (fun h => h1.fuel (by cases h; rfl))⟩, (fun h s' h' => by cases h')⟩
  | ok fh =>
    obtain ⟨f, h⟩ := fh
    have h3 := h2 (f, h) s1 rfl
    dsimp only
    obtain ⟨w1, w2⟩ := wrap_uses o (fields f h) (blockLength (fields f h).length (fields f h).subLen) s1
    cases hw : wrap o (fields f h) (blockLength (fields f h).length (fields f h).subLen) s1 with
    | error e => exact ⟨⟨hp, (fun h => (w1 e hw).2 (by cases h; rfl))⟩, (fun h s' h' => by cases h')⟩
    | ok raw =>
      have hu := w2 raw hw
      dsimp only
      have h4 : Uses raw (if o.noRecordParse then (.ok none, raw) else loadHttpHeaders o.verifyHttp (fields f h).recType (fields f h).uri (blockLength (fields f h).length (fields f h).subLen) raw) := by
        split
        · exact Uses.ok _ _
        · exact loadHttpHeaders_uses _ _ _ _ _
      generalize (if o.noRecordParse then (.ok none, raw) else loadHttpHeaders o.verifyHttp (fields f h).recType (fields f h).uri (blockLength (fields f h).length (fields f h).subLen) raw) = y at *
      obtain ⟨y, raw1⟩ := y
      have hp4 := h4.pot
      rw [pot_raw, pot_raw, hu] at hp4
      simp only at hp4
      cases y with
      | error e => exact ⟨⟨by simp only; omega, (fun h => h4.fuel (by cases h; rfl))⟩, (fun h s' h' => by cases h')⟩
      | ok http =>
        dsimp only
        obtain ⟨b1, b2⟩ := beginPayload_uses raw1
        generalize beginPayload raw1 = z at *
        obtain ⟨z, raw2⟩ := z
        simp only at b1 b2
        cases z with
        | error e => exact ⟨⟨by simp only; rw [b2]; omega, (fun h => (b1 e rfl).2 (by cases h; rfl))⟩, (fun h s' h' => by cases h')⟩
        | ok u =>
          refine ⟨⟨by simp only; rw [b2]; omega, (fun h => by cases h)⟩, fun r s' h' => ?_⟩
          cases h'
          simp only
          rw [b2]
          cases line with
          | none => exact Nat.le_trans (Nat.add_le_add_right hp4 1) h3
          | some l => exact ⟨h3.1, Nat.le_trans hp4 h3.2⟩

end Loader
end
end Warcio

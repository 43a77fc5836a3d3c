import Verif.Spec.Codec
import Verif.Proofs.Lines
import Verif.Model.Iterator

/-!
# Streams that come to an end

`pot s` bounds what can still come out of a stream.  Every byte that is delivered is paid for, so
loops end, whatever the data is.
-/

set_option linter.unusedSectionVars false

namespace Warcio

/-- The bytes that an exception carries (counting a line as one byte). -/
def errSize : PyErr → Nat
  | .chunkedData d => d.length
  | .statusParser l => if l.isEmpty then 0 else 1
  | _ => 0

/-- The bytes of a result. -/
def outSize : Except PyErr Bytes → Nat
  | .ok b => b.length
  | .error e => errSize e

/-- A stream that delivers at most `pot` bytes and never runs out of fuel. -/
class Tame (σ : Type) [PyStream σ] where
  pot : σ → Nat
  read : ∀ (s : σ) n, pot (PyStream.read s n).2 + outSize (PyStream.read s n).1 ≤ pot s ∧ (PyStream.read s n).1 ≠ .error .outOfFuel
  readline : ∀ (s : σ) n, pot (PyStream.readline s n).2 + outSize (PyStream.readline s n).1 ≤ pot s ∧ (PyStream.readline s n).1 ≠ .error .outOfFuel
  bound : ∀ s : σ, pot s ≤ PyStream.bound s

export Tame (pot)

section
variable {σ : Type} [PyStream σ] [Tame σ]

theorem tame_read {s s' : σ} {n : Option Int} {r : Except PyErr Bytes} (h : PyStream.read s n = (r, s')) :
    pot s' + outSize r ≤ pot s ∧ r ≠ .error .outOfFuel := by
  have := Tame.read s n
  rw [h] at this
  exact this

theorem tame_readline {s s' : σ} {n : Option Int} {r : Except PyErr Bytes} (h : PyStream.readline s n = (r, s')) :
    pot s' + outSize r ≤ pot s ∧ r ≠ .error .outOfFuel := by
  have := Tame.readline s n
  rw [h] at this
  exact this

end

instance : Tame Bytes where
  pot s := s.length
  read s n := by
    refine ⟨?_, fun h => by cases h⟩
    simp only [PyStream.read, outSize, List.length_drop, List.length_take]
    omega
  readline s n := by
    refine ⟨?_, fun h => by cases h⟩
    simp only [PyStream.readline, outSize, List.length_drop, List.length_take]
    have : (takeLine s).length ≤ s.length := by
      have := congrArg List.length (takeLine_append_dropLine s)
      simp at this; omega
    omega
  bound _ := Nat.le_refl _

instance : Tame FileObj where
  pot f := f.rest.length
  read f n := by
    have key : ∀ k : Nat, (f.content.drop (f.pos + (f.rest.take k).length)).length + (f.rest.take k).length ≤ f.rest.length := by
      intro k
      simp only [FileObj.rest, List.length_drop, List.length_take]
      omega
    have key2 := key f.rest.length
    rw [List.take_length] at key2
    simp only [PyStream.read, FileObj.read]
    split
    · exact ⟨key2, fun h => by cases h⟩
    · split
      · exact ⟨key2, fun h => by cases h⟩
      · split
        · exact ⟨Nat.le_refl _, fun h => by cases h⟩
        · split
          · exact ⟨key _, fun h => by cases h⟩
          · exact ⟨key _, fun h => by cases h⟩
  readline f n := by
    refine ⟨?_, fun h => by cases h⟩
    simp only [PyStream.readline, FileObj.readline, outSize]
    have : (takeLine f.rest).length ≤ f.rest.length := by
      have := congrArg List.length (takeLine_append_dropLine f.rest)
      simp at this; omega
    simp only [FileObj.rest, List.length_drop, List.length_take] at this ⊢
    omega
  bound _ := Nat.le_refl _

instance {σ} [PyStream σ] [Tame σ] : Tame (UnseekableYetTellable σ) where
  pot u := pot u.fh
  read u n := by
    simp only [PyStream.read]
    split
    · rename_i h; exact ⟨(tame_read h).1, fun h => by cases h⟩
    · rename_i h; exact ⟨(tame_read h).1, fun h' => (tame_read h).2 (by cases h'; rfl)⟩
  readline u n := ⟨Nat.le_refl _, fun h => by cases h⟩
  bound u := Tame.bound u.fh

instance : Tame Source where
  pot s := match s with
    | .file f => pot f
    | .wrapped u => pot u
  read s n := by
    cases s with
    | file f => exact Tame.read f n
    | wrapped u => exact Tame.read u n
  readline s n := by
    cases s with
    | file f => exact Tame.readline f n
    | wrapped u => exact Tame.readline u n
  bound s := by
    cases s with
    | file f => exact Tame.bound f
    | wrapped u => exact Tame.bound u

instance {σ} [PyStream σ] [Tame σ] : Tame (LimitReader σ) where
  pot r := pot r.stream
  read r n := by
    simp only [PyStream.read, LimitReader.read]
    split
    · exact ⟨Nat.le_refl _, fun h => by cases h⟩
    · split
      · rename_i h; exact ⟨(tame_read h).1, fun h => by cases h⟩
      · rename_i h; exact ⟨(tame_read h).1, fun h' => (tame_read h).2 (by cases h'; rfl)⟩
  readline r n := by
    simp only [PyStream.readline, LimitReader.readline]
    split
    · exact ⟨Nat.le_refl _, fun h => by cases h⟩
    · split
      · rename_i h; exact ⟨(tame_readline h).1, fun h => by cases h⟩
      · rename_i h; exact ⟨(tame_readline h).1, fun h' => (tame_readline h).2 (by cases h'; rfl)⟩
  bound r := Tame.bound r.stream

namespace BufReader
variable {σ : Type} [Zlib] [TameZlib]

/-- What a decompressor may still deliver of what it has been fed. -/
def credit (d : Option Decompressor) : Nat :=
  match d with
  | none => 0
  | some d => (Zlib.ratio + 1) * d.hist.flatten.length - (match Zlib.codec d.kind with | some c => c.produced d.hist | none => 0)

theorem credit_le (d : Option Decompressor) : credit d ≤ (Zlib.ratio + 1) * (match d with | some d => d.hist.flatten.length | none => 0) := by
  cases d with
  | none => simp [credit]
  | some d => exact Nat.sub_le _ _

theorem producedFrom_append (c : Codec) (pre a b : List Bytes) : c.producedFrom pre (a ++ b) = c.producedFrom pre a + c.producedFrom (pre ++ a) b := by
  induction a generalizing pre with
  | nil => simp [Codec.producedFrom]
  | cons x t ih => simp [Codec.producedFrom, ih, List.append_assoc]; omega

theorem produced_snoc (c : Codec) (h : List Bytes) (d : Bytes) : c.produced (h ++ [d]) = c.produced h + ((c.out h d).getD []).length := by
  simp [Codec.produced, producedFrom_append, Codec.producedFrom]

/-- `feed` puts the data into the account and takes out what it delivers. -/
theorem credit_feed {r : BufReader σ} {data : Bytes} {o : Option Bytes} {r' : BufReader σ} (h : r.feed data = (o, r')) (hd : r.decompressor.isSome) :
    credit r'.decompressor + (o.getD []).length ≤ credit r.decompressor + (Zlib.ratio + 1) * data.length ∧
    r'.stream = r.stream ∧ r'.startingData = r.startingData ∧ r'.buff = r.buff ∧ r'.chunk = r.chunk := by
  unfold feed at h
  cases hdd : r.decompressor with
  | none => simp [hdd] at hd
  | some d =>
    rw [hdd] at h
    cases hc : Zlib.codec d.kind with
    | none =>
      simp only [hc] at h
      cases h
      rw [hdd]
      simp
    | some c =>
      simp only [hc] at h
      cases h
      refine ⟨?_, rfl, rfl, rfl, rfl⟩
      simp only [credit, hc]
      have h1 := TameZlib.ratio hc d.hist
      have h2 := TameZlib.ratio hc (d.hist ++ [data])
      rw [produced_snoc] at h2 ⊢
      simp only [List.flatten_append, List.flatten_cons, List.flatten_nil, List.append_nil, List.length_append, Nat.mul_add, Nat.add_mul, Nat.one_mul] at h1 h2 ⊢
      generalize Zlib.ratio * (c.unused _).length = x at h2
      generalize Zlib.ratio * (c.unused _).length = y at h1
      generalize Zlib.ratio * (List.flatten d.hist).length = z at *
      generalize Zlib.ratio * data.length = w at *
      omega

/-- What is left of a reader without its buffer. -/
def base [PyStream σ] [Tame σ] (r : BufReader σ) : Nat :=
  credit r.decompressor + (Zlib.ratio + 1) * ((r.startingData.getD []).length + pot r.stream)

section
variable [PyStream σ] [Tame σ]

theorem base_eq {r r' : BufReader σ} (h1 : r'.stream = r.stream) (h2 : r'.startingData = r.startingData) :
    base r' + credit r.decompressor = base r + credit r'.decompressor := by
  unfold base; rw [h1, h2]; omega

theorem credit_init (r : BufReader σ) (t : Option DType) : credit (r.initDecomp t).decompressor = 0 ∧ (r.initDecomp t).stream = r.stream ∧
    (r.initDecomp t).startingData = r.startingData ∧ (r.initDecomp t).buff = r.buff ∧ (r.initDecomp t).chunk = r.chunk := by
  cases t <;> simp [initDecomp, credit]

theorem decompressAlt_base {r r' : BufReader σ} {data o : Bytes} (h : r.decompressAlt data = (o, r')) (hd : r.decompressor.isSome) :
    base r' + o.length ≤ base r + (Zlib.ratio + 1) * data.length ∧ r'.stream = r.stream ∧ r'.chunk = r.chunk := by
  unfold decompressAlt at h
  split at h
  · rename_i o' r1 h1
    cases h
    obtain ⟨q1, q2, q3, q4, q5⟩ := credit_feed h1 hd
    have := base_eq q2 q3
    simp only [Option.getD_some] at q1
    exact ⟨by omega, q2, q5⟩
  · rename_i r1 h1
    obtain ⟨q1, q2, q3, q4, q5⟩ := credit_feed h1 hd
    have := base_eq q2 q3
    simp only [Option.getD_none, List.length_nil] at q1
    split at h
    · cases h
      refine ⟨?_, q2, q5⟩
      simp only [base, q2, q3, credit]
      have : data.length ≤ (Zlib.ratio + 1) * data.length := Nat.le_mul_of_pos_left _ (Nat.succ_pos _)
      omega
    · cases h
      exact ⟨by simp only [List.length_nil]; omega, q2, q5⟩

theorem decompress_base {r r' : BufReader σ} {data o : Bytes} (h : r.decompress data = (o, r')) :
    base r' + o.length ≤ base r + (Zlib.ratio + 1) * data.length ∧ r'.stream = r.stream ∧ r'.chunk = r.chunk := by
  have hdl : data.length ≤ (Zlib.ratio + 1) * data.length := Nat.le_mul_of_pos_left _ (Nat.succ_pos _)
  unfold decompress at h
  split at h
  · rename_i hc
    have hd : r.decompressor.isSome := by simp at hc; exact hc.1
    split at h
    · rename_i o' r1 h1
      cases h
      obtain ⟨q1, q2, q3, q4, q5⟩ := credit_feed h1 hd
      have := base_eq q2 q3
      simp only [Option.getD_some] at q1
      exact ⟨by omega, q2, q5⟩
    · rename_i r1 h1
      obtain ⟨q1, q2, q3, q4, q5⟩ := credit_feed h1 hd
      have := base_eq q2 q3
      simp only [Option.getD_none, List.length_nil] at q1
      split at h
      · split at h
        · obtain ⟨w1, w2, w3⟩ := decompressAlt_base h (by simp [initDecomp])
          obtain ⟨i1, i2, i3, i4, i5⟩ := credit_init r1 (some .deflateAlt)
          refine ⟨?_, w2.trans (i2.trans q2), w3.trans (i5.trans q5)⟩
          have e : base (r1.initDecomp (some .deflateAlt)) ≤ base r := by
            unfold base; rw [i1, i2, i3, q2, q3]; omega
          omega
        · cases h
          refine ⟨?_, q2, q5⟩
          simp only [base, q2, q3, credit]
          omega
      · cases h
        exact ⟨by simp only [List.length_nil]; omega, q2, q5⟩
  · cases h
    exact ⟨by omega, rfl, rfl⟩

/-- All that can come out of a reader. -/
def potB (r : BufReader σ) : Nat := (r.buff.getD []).length + base r

theorem processRead_pot (r : BufReader σ) (data : Bytes) :
    potB (r.processRead data) ≤ base r + (Zlib.ratio + 1) * data.length ∧ (r.processRead data).stream = r.stream ∧ (r.processRead data).chunk = r.chunk := by
  unfold processRead
  split
  · refine ⟨?_, rfl, rfl⟩
    simp only [potB, Option.getD_none, List.length_nil]
    have : base { r with buff := none } = base r := rfl
    omega
  · generalize hx : r.decompress data = x
    obtain ⟨o, r1⟩ := x
    have h := decompress_base hx
    refine ⟨?_, h.2.1, h.2.2⟩
    have e : ∀ (x : BufReader σ) (o : Bytes), potB { x with numRead := x.numRead + o.length, numBlockRead := x.numBlockRead + o.length, buff := some o } = o.length + base x := fun _ _ => rfl
    rw [e]
    omega

/-- `read_next_member` uses up something. -/
theorem readNextMember_base (r : BufReader σ) : base r.readNextMember.2 ≤ base r ∧ (r.readNextMember.1 = true → base r.readNextMember.2 < base r) ∧
    r.readNextMember.2.stream = r.stream ∧ r.readNextMember.2.buff = r.buff ∧ r.readNextMember.2.chunk = r.chunk := by
  unfold readNextMember
  cases hd : r.decompressor with
  | none => exact ⟨Nat.le_refl _, (fun h => by cases h), rfl, rfl, rfl⟩
  | some d =>
    simp only
    split
    · exact ⟨Nat.le_refl _, (fun h => by cases h), rfl, rfl, rfl⟩
    · rename_i hu
      obtain ⟨i1, i2, i3, i4, i5⟩ := credit_init { r with startingData := some d.unused } r.decompType
      have key : (Zlib.ratio + 1) * d.unused.length < credit (some d) := by
        unfold Decompressor.unused at hu ⊢
        cases hc : Zlib.codec d.kind with
        | none => simp [hc] at hu
        | some c =>
          simp only [hc] at hu ⊢
          have h1 := TameZlib.ratio hc d.hist
          have h2 := TameZlib.used hc d.hist hu
          simp only [credit, hc, Nat.add_mul, Nat.one_mul]
          omega
      have e : base (initDecomp { r with startingData := some d.unused } r.decompType) = (Zlib.ratio + 1) * (d.unused.length + pot r.stream) := by
        unfold base; rw [i1, i2, i3]; simp
      have e2 : base r = credit (some d) + (Zlib.ratio + 1) * ((r.startingData.getD []).length + pot r.stream) := by unfold base; rw [hd]
      rw [hd] at *
      simp only
      rw [e]
      rw [e2]
      simp only [Nat.mul_add]
      refine ⟨by omega, fun _ => by omega, i2, i4, i5⟩

theorem empty_pot (r : BufReader σ) : potB r.empty.2 ≤ potB r ∧ r.empty.2.stream = r.stream ∧ r.empty.2.buff = r.buff ∧ r.empty.2.chunk = r.chunk ∧ r.empty.1 = r.noBuff ∧
    base r.empty.2 ≤ base r := by
  unfold empty
  split
  · rename_i h
    split
    · have := readNextMember_base r
      refine ⟨?_, this.2.2.1, this.2.2.2.1, this.2.2.2.2, h.symm, this.1⟩
      unfold potB; rw [this.2.2.2.1]; have := this.1; simp only; omega
    · exact ⟨Nat.le_refl _, rfl, rfl, rfl, h.symm, Nat.le_refl _⟩
  · rename_i h
    exact ⟨Nat.le_refl _, rfl, rfl, rfl, by simp at h; exact h.symm, Nat.le_refl _⟩

theorem noBuff_base {r : BufReader σ} (h : r.noBuff = true) : potB r = base r := by
  unfold noBuff at h
  unfold potB
  cases hb : r.buff with
  | none => simp
  | some b =>
    rw [hb] at h
    simp only [List.isEmpty_iff] at h
    simp [h]

/-- Reading from the stream below. -/
theorem readStream_pot {r r' : BufReader σ} {n : Int} {x : Except PyErr Bytes} (h : r.readStream n = (x, r')) :
    base r' + (Zlib.ratio + 1) * outSize x ≤ base r ∧ x ≠ .error .outOfFuel ∧ pot r'.stream + outSize x ≤ pot r.stream ∧ r'.buff = r.buff ∧ r'.chunk = r.chunk := by
  unfold readStream at h
  generalize hs : PyStream.read r.stream (some n) = y at h
  obtain ⟨b, s⟩ := y
  simp only at h
  cases h
  obtain ⟨h1, h2⟩ := tame_read hs
  refine ⟨?_, h2, h1, rfl, rfl⟩
  simp only [base]
  have := Nat.mul_le_mul_left (Zlib.ratio + 1) h1
  simp only [Nat.mul_add] at this ⊢
  omega

theorem readlineStream_pot {r r' : BufReader σ} {n : Int} {x : Except PyErr Bytes} (h : r.readlineStream n = (x, r')) :
    base r' + (Zlib.ratio + 1) * outSize x ≤ base r ∧ x ≠ .error .outOfFuel ∧ pot r'.stream + outSize x ≤ pot r.stream ∧ r'.buff = r.buff ∧ r'.chunk = r.chunk := by
  unfold readlineStream at h
  generalize hs : PyStream.readline r.stream (some n) = y at h
  obtain ⟨b, s⟩ := y
  simp only at h
  cases h
  obtain ⟨h1, h2⟩ := tame_readline hs
  refine ⟨?_, h2, h1, rfl, rfl⟩
  simp only [base]
  have := Nat.mul_le_mul_left (Zlib.ratio + 1) h1
  simp only [Nat.mul_add] at this ⊢
  omega

theorem base_le_potB (r : BufReader σ) : base r ≤ potB r := Nat.le_add_left _ _

/-- The bytes that an exception of `_fillbuff` carries. -/
def fillSize : Except PyErr Unit → Nat
  | .ok _ => 0
  | .error e => errSize e

theorem le_weight (n : Nat) : n ≤ (Zlib.ratio + 1) * n := Nat.le_mul_of_pos_left _ (Nat.succ_pos _)

/-- What `_fillbuff` and its loops do to a reader. -/
structure Fills (r : BufReader σ) (x : Except PyErr Unit × BufReader σ) : Prop where
  pot : potB x.2 + fillSize x.1 ≤ potB r
  fuel : x.1 ≠ .error .outOfFuel
  stream : Warcio.pot x.2.stream ≤ Warcio.pot r.stream

theorem Fills.refl (r : BufReader σ) : Fills r (.ok (), r) := ⟨Nat.le_refl _, (fun h => by cases h), Nat.le_refl _⟩

theorem Fills.trans {r r1 : BufReader σ} {x : Except PyErr Unit × BufReader σ} (h1 : potB r1 ≤ potB r) (h2 : Warcio.pot r1.stream ≤ Warcio.pot r.stream) (h : Fills r1 x) : Fills r x :=
  ⟨Nat.le_trans h.pot h1, h.fuel, Nat.le_trans h.stream h2⟩

theorem fillLoop_pot (fuel : Nat) (data : Bytes) (r : BufReader σ) (hf : pot r.stream + (if data.isEmpty then 0 else 1) < fuel) :
    Fills r (fillLoop fuel data r) := by
  induction fuel generalizing data r with
  | zero => omega
  | succ fuel ih =>
    unfold fillLoop
    split
    · rename_i hc
      obtain ⟨e1, e2, e3, e4, e5, e6⟩ := empty_pot r
      generalize hE : r.empty = E at *
      obtain ⟨e, r1⟩ := E
      simp only at *
      have hs : pot r1.stream ≤ pot r.stream := by rw [e2]; exact Nat.le_refl _
      refine Fills.trans e1 hs ?_
      split
      · rename_i he
        subst he
        have hb : potB r1 = base r1 := noBuff_base (by unfold noBuff at e5 ⊢; rw [e3]; exact e5.symm)
        split
        · rename_i er r2 hr
          obtain ⟨q1, q2, q3, q4, q5⟩ := readStream_pot hr
          refine ⟨?_, fun h => q2 (by cases h; rfl), ?_⟩
          · have : potB r2 = base r2 := by
              unfold potB at hb ⊢; rw [q4]; omega
            have := le_weight (errSize er)
            simp only [fillSize, outSize] at q1 ⊢
            omega
          · simp only; omega
        · rename_i d2 r2 hr
          obtain ⟨q1, q2, q3, q4, q5⟩ := readStream_pot hr
          obtain ⟨p1, p2, p3⟩ := processRead_pot r2 d2
          have hdata : data.isEmpty = false := by
            simp only [Bool.and_eq_true, Bool.not_eq_true'] at hc; exact hc.1.1
          simp only [outSize] at q1 q3
          refine Fills.trans (by omega) (by rw [p2]; omega) (ih d2 (r2.processRead d2) ?_)
          rw [p2]
          rw [hdata] at hf
          cases d2 with
          | nil => simp at q3 hf ⊢; omega
          | cons a t => simp at q3 hf ⊢; omega
      · exact Fills.refl _
    · exact Fills.refl _

theorem nextData_pot {r r' : BufReader σ} {x : Except PyErr Bytes} (h : r.nextData = (x, r')) :
    base r' + (Zlib.ratio + 1) * outSize x ≤ base r ∧ x ≠ .error .outOfFuel ∧ pot r'.stream ≤ pot r.stream ∧ r'.buff = r.buff ∧ r'.chunk = r.chunk := by
  unfold nextData at h
  split at h
  · have := readStream_pot h
    exact ⟨this.1, this.2.1, by omega, this.2.2.2⟩
  · cases h
    refine ⟨?_, (fun h => by cases h), Nat.le_refl _, rfl, rfl⟩
    simp only [base, outSize, Option.getD_none, List.length_nil, Nat.mul_add]
    omega

theorem potB_of_buff {r r' : BufReader σ} (h : r'.buff = r.buff) (hb : base r' ≤ base r) : potB r' ≤ potB r := by
  unfold potB; rw [h]; omega

theorem baseFill_pot (r : BufReader σ) : Fills r r.baseFill := by
  unfold baseFill
  obtain ⟨e1, e2, e3, e4, e5, e6⟩ := empty_pot r
  generalize hE : r.empty = E at *
  obtain ⟨e, r1⟩ := E
  simp only at *
  have hs : pot r1.stream ≤ pot r.stream := by rw [e2]; exact Nat.le_refl _
  refine Fills.trans e1 hs ?_
  split
  · exact Fills.refl _
  · split
    · exact Fills.refl _
    · split
      · rename_i er r2 hr
        obtain ⟨q1, q2, q3, q4, q5⟩ := nextData_pot hr
        refine ⟨?_, fun h => q2 (by cases h; rfl), q3⟩
        have := le_weight (errSize er)
        simp only [fillSize, outSize] at q1 ⊢
        unfold potB; rw [q4]; omega
      · rename_i d r2 hr
        obtain ⟨q1, q2, q3, q4, q5⟩ := nextData_pot hr
        obtain ⟨p1, p2, p3⟩ := processRead_pot r2 d
        have hfu : pot (r2.processRead d).stream + (if d.isEmpty then 0 else 1) < PyStream.bound r2.stream + 2 := by
          rw [p2]
          have := Tame.bound r2.stream
          split <;> omega
        simp only [outSize] at q1
        have hb1 := base_le_potB r1
        exact Fills.trans (by omega) (by rw [p2]; exact q3) (fillLoop_pot _ d (r2.processRead d) hfu)

/-- The size of the data in the outcome of the chunk loop. -/
def chunkSize : Except PyErr (Bytes × Bool) → Nat
  | .ok (d, _) => d.length
  | .error e => errSize e

theorem chunkLoop_pot (raiseExc : Bool) (fuel : Nat) (size : Int) (data : Bytes) (r : BufReader σ) (hf : pot r.stream < fuel) :
    base (chunkLoop raiseExc fuel size data r).2 + (Zlib.ratio + 1) * chunkSize (chunkLoop raiseExc fuel size data r).1 ≤ base r + (Zlib.ratio + 1) * data.length ∧
    (chunkLoop raiseExc fuel size data r).1 ≠ .error .outOfFuel ∧ (chunkLoop raiseExc fuel size data r).2.buff = r.buff ∧
    pot (chunkLoop raiseExc fuel size data r).2.stream ≤ pot r.stream := by
  induction fuel generalizing data r with
  | zero => omega
  | succ fuel ih =>
    unfold chunkLoop
    split
    · split
      · rename_i er r2 hr
        obtain ⟨q1, q2, q3, q4, q5⟩ := readStream_pot hr
        refine ⟨?_, fun h => q2 (by cases h; rfl), q4, by simp only; omega⟩
        simp only [chunkSize, outSize] at q1 ⊢
        omega
      · rename_i d r2 hr
        obtain ⟨q1, q2, q3, q4, q5⟩ := readStream_pot hr
        simp only [outSize] at q1 q3
        split
        · split
          · exact ⟨by simp only [chunkSize, errSize]; omega, (fun h => by cases h), q4, by simp only; omega⟩
          · exact ⟨by simp only [chunkSize]; omega, (fun h => by cases h), q4, by simp only; omega⟩
        · rename_i hd
          have hd : 0 < d.length := by cases d <;> simp_all
          have h := ih (data ++ d) r2 (by omega)
          rw [List.length_append, Nat.mul_add] at h
          exact ⟨by omega, h.2.1, h.2.2.1.trans q4, by omega⟩
    · exact ⟨Nat.le_refl _, (fun h => by cases h), rfl, Nat.le_refl _⟩

theorem base_chunk (r : BufReader σ) (c : Option ChunkState) : base { r with chunk := c } = base r := rfl

/-- Decoding a chunk: what is read is paid for (the buffer is overwritten). -/
theorem tryDecode_pot (r : BufReader σ) (c : ChunkState) (header : Bytes) (hb : r.noBuff = true) :
    (∀ u r', r.tryDecode c header = (.ok u, r') → potB r' ≤ base r ∧ pot r'.stream ≤ pot r.stream ∧ header ≠ []) ∧
    (∀ e r', r.tryDecode c header = (.error e, r') → base r' + (Zlib.ratio + 1) * errSize e ≤ base r ∧ e ≠ .outOfFuel ∧ pot r'.stream ≤ pot r.stream ∧ r'.buff = r.buff) := by
  have hne : ∀ n, chunkSizeOf header = some n → header ≠ [] := by
    intro n h he
    subst he
    simp [chunkSizeOf, crlf] at h
  unfold tryDecode
  cases hcs : chunkSizeOf header with
  | none =>
    refine ⟨(fun u r' h => by cases h), fun e r' h => ?_⟩
    cases h
    exact ⟨by simp [errSize], (fun h => by cases h), Nat.le_refl _, rfl⟩
  | some size =>
    have hh := hne _ hcs
    simp only
    split
    · generalize hr : r.readStream 2 = x
      obtain ⟨x, r2⟩ := x
      obtain ⟨q1, q2, q3, q4, q5⟩ := readStream_pot hr
      cases x with
      | error er =>
        refine ⟨(fun u r' h => by cases h), fun e r' h => ?_⟩
        cases h
        exact ⟨q1, (fun h => q2 (by rw [h])), by omega, q4⟩
      | ok fin =>
        simp only [outSize] at q1 q3
        simp only
        split
        · refine ⟨fun u r' h => ?_, (fun e r' h => by cases h)⟩
          cases h
          have := processRead_pot { r2 with chunk := some { c with allChunksRead := true } } []
          rw [base_chunk] at this
          refine ⟨?_, by rw [this.2.1]; simp only; omega, hh⟩
          simp only [List.length_nil] at this
          omega
        · refine ⟨(fun u r' h => by cases h), fun e r' h => ?_⟩
          cases h
          refine ⟨by simp only [errSize, List.length_nil]; omega, (fun h => by cases h), by omega, q4⟩
    · have hl := chunkLoop_pot c.raiseExceptions (PyStream.bound r.stream + 2) size [] r (by have := Tame.bound r.stream; omega)
      generalize hy : chunkLoop c.raiseExceptions (PyStream.bound r.stream + 2) size [] r = y at *
      obtain ⟨y, r1⟩ := y
      obtain ⟨l1, l2, l3, l4⟩ := hl
      simp only at l1 l2 l3 l4
      cases y with
      | error er =>
        refine ⟨(fun u r' h => by cases h), fun e r' h => ?_⟩
        cases h
        simp only [chunkSize, List.length_nil] at l1
        exact ⟨by omega, (fun h => l2 (by rw [h])), l4, l3⟩
      | ok dr =>
        obtain ⟨data, ranOut⟩ := dr
        simp only [chunkSize, List.length_nil] at l1
        simp only
        split
        · refine ⟨fun u r' h => ?_, (fun e r' h => by cases h)⟩
          cases h
          have := processRead_pot { r1 with chunk := some { c with allChunksRead := true } } data
          rw [base_chunk] at this
          refine ⟨by omega, by rw [this.2.1]; exact l4, hh⟩
        · generalize hr : r1.readStream 2 = x
          obtain ⟨x, r2⟩ := x
          obtain ⟨q1, q2, q3, q4, q5⟩ := readStream_pot hr
          cases x with
          | error er =>
            refine ⟨(fun u r' h => by cases h), fun e r' h => ?_⟩
            cases h
            simp only [outSize] at q1
            exact ⟨by omega, (fun h => q2 (by rw [h])), by omega, q4.trans l3⟩
          | ok t =>
            simp only [outSize] at q1 q3
            simp only
            split
            · refine ⟨fun u r' h => ?_, (fun e r' h => by cases h)⟩
              cases h
              have := processRead_pot r2 data
              refine ⟨by omega, by rw [this.2.1]; omega, hh⟩
            · refine ⟨(fun u r' h => by cases h), fun e r' h => ?_⟩
              cases h
              exact ⟨by simp only [errSize]; omega, (fun h => by cases h), by omega, q4.trans l3⟩

theorem noBuff_of_buff {r r' : BufReader σ} (h : r'.buff = r.buff) : r'.noBuff = r.noBuff := by
  unfold noBuff; rw [h]

theorem chunkedFillLoop_pot (fuel : Nat) (r : BufReader σ) (hf : pot r.stream + 1 < fuel) : Fills r (chunkedFillLoop fuel r) := by
  induction fuel generalizing r with
  | zero => omega
  | succ fuel ih =>
    unfold chunkedFillLoop
    obtain ⟨e1, e2, e3, e4, e5, e6⟩ := empty_pot r
    generalize hE : r.empty = E at *
    obtain ⟨e, r1⟩ := E
    simp only at *
    have hs : pot r1.stream ≤ pot r.stream := by rw [e2]; exact Nat.le_refl _
    refine Fills.trans e1 hs ?_
    split
    · rename_i hc
      have he : e = true := by simp only [Bool.and_eq_true] at hc; exact hc.1.1
      have hnb : r1.noBuff = true := by rw [noBuff_of_buff e3, ← e5, he]
      have hb := noBuff_base hnb
      generalize hr : r1.readlineStream 64 = x
      obtain ⟨x, r2⟩ := x
      obtain ⟨q1, q2, q3, q4, q5⟩ := readlineStream_pot hr
      cases x with
      | error er =>
        refine ⟨?_, fun h => q2 (by cases h; rfl), by simp only; omega⟩
        have := le_weight (errSize er)
        simp only [fillSize, outSize] at q1 ⊢
        rw [noBuff_base (by rw [noBuff_of_buff q4, hnb])]
        omega
      | ok header =>
        have hnb2 : r2.noBuff = true := by rw [noBuff_of_buff q4, hnb]
        obtain ⟨t1, t2⟩ := tryDecode_pot r2 (r1.chunk.getD {}) header hnb2
        simp only [outSize] at q1 q3
        simp only
        generalize ht : r2.tryDecode (r1.chunk.getD {}) header = t at *
        obtain ⟨t, r3⟩ := t
        cases t with
        | ok u =>
          obtain ⟨a1, a2, a3⟩ := t1 _ _ rfl
          simp only
          have : 0 < header.length := List.length_pos_iff.2 a3
          exact Fills.trans (by omega) (by omega) (ih r3 (by omega))
        | error er =>
          obtain ⟨a1, a2, a3, a4⟩ := t2 _ _ rfl
          have hnb3 : r3.noBuff = true := by rw [noBuff_of_buff a4, hnb2]
          have hb3 := noBuff_base hnb3
          have hgen : Fills r1 (.error er, r3) := by
            refine ⟨?_, (fun h => a2 (by cases h; rfl)), by simp only; omega⟩
            have := le_weight (errSize er)
            simp only [fillSize]
            omega
          cases er with
          | chunkedData d =>
            simp only
            split
            · exact hgen
            · have p := processRead_pot r3 (header ++ d)
              simp only [errSize] at a1
              rw [List.length_append, Nat.mul_add] at p
              exact Fills.trans (by
                show potB (r3.processRead (header ++ d)) ≤ _
                omega) (by show pot (r3.processRead (header ++ d)).stream ≤ _; rw [p.2.1]; omega) (baseFill_pot _)
          | _ => exact hgen
    · exact Fills.refl _

theorem fillbuff_pot (r : BufReader σ) : Fills r r.fillbuff := by
  unfold fillbuff
  split
  · exact baseFill_pot r
  · split
    · exact baseFill_pot r
    · exact chunkedFillLoop_pot _ r (by have := Tame.bound r.stream; omega)

theorem buffRead_pot (r : BufReader σ) (n : Option Int) : potB (r.buffRead n).2 + (r.buffRead n).1.length = potB r := by
  unfold buffRead potB
  simp only [Option.getD_some, List.length_drop, List.length_take]
  have : base { r with buff := some (List.drop (askLen n (r.buff.getD []).length) (r.buff.getD [])) } = base r := rfl
  omega

theorem buffReadline_pot (r : BufReader σ) (n : Option Int) : potB (r.buffReadline n).2 + (r.buffReadline n).1.length = potB r := by
  unfold buffReadline potB
  simp only [Option.getD_some, List.length_drop, List.length_take]
  have h1 := takeLine_length_le (r.buff.getD [])
  generalize (r.buff.getD []) = b at *
  have : ∀ x, base { r with buff := x } = base r := fun _ => rfl
  rw [this]
  omega

theorem noBuff_pos {r : BufReader σ} (h : r.noBuff = false) : 0 < (r.buff.getD []).length := by
  unfold noBuff at h
  cases hb : r.buff with
  | none => simp [hb] at h
  | some b =>
    rw [hb] at h
    cases b with
    | nil => simp at h
    | cons x t => simp

theorem readLoop_pot (fuel : Nat) (length : Option Int) (acc : Bytes) (r : BufReader σ) (hf : potB r < fuel) :
    potB (readLoop fuel length acc r).2 + outSize (readLoop fuel length acc r).1 ≤ potB r + acc.length ∧ (readLoop fuel length acc r).1 ≠ .error .outOfFuel := by
  induction fuel generalizing length acc r with
  | zero => omega
  | succ fuel ih =>
    unfold readLoop
    split
    · rename_i hw
      have hF := fillbuff_pot r
      generalize hx : r.fillbuff = x at *
      obtain ⟨x, r1⟩ := x
      obtain ⟨f1, f2, f3⟩ := hF
      simp only at f1 f2 f3
      cases x with
      | error er =>
        simp only [fillSize] at f1
        exact ⟨by simp only [outSize]; omega, (fun h => f2 (by cases h; rfl))⟩
      | ok u =>
        simp only [fillSize] at f1
        obtain ⟨e1, e2, e3, e4, e5, e6⟩ := empty_pot r1
        dsimp only
        generalize hE : r1.empty = E at *
        obtain ⟨e, r2⟩ := E
        simp only at *
        split
        · exact ⟨by simp only [outSize]; omega, (fun h => by cases h)⟩
        · rename_i he
          have hpos := noBuff_pos (r := r2) (by rw [noBuff_of_buff e3, ← e5]; simpa using he)
          have hp := buffRead_pot r2 length
          have hl : 0 < (r2.buffRead length).1.length := by
            unfold buffRead
            simp only [List.length_take]
            have : 0 < askLen length (r2.buff.getD []).length := by
              unfold askLen
              cases length with
              | none => exact hpos
              | some k =>
                simp only [wantsMore, decide_eq_true_eq] at hw
                simp only
                split <;> omega
            omega
          have := ih (length.map (· - len (r2.buffRead length).1)) (acc ++ (r2.buffRead length).1) (r2.buffRead length).2 (by omega)
          rw [List.length_append] at this
          exact ⟨by omega, this.2⟩
    · exact ⟨by simp only [outSize]; omega, (fun h => by cases h)⟩

theorem decLen_pos {length length' : Option Int} {line : Bytes} (h0 : length ≠ some 0) (h : decLen length line = some length') :
    length' = none ∨ ∃ n : Int, length' = some n ∧ 0 < n := by
  unfold decLen at h
  split at h
  · cases h; exact .inl rfl
  · rename_i n _
    split at h
    · rename_i hn; exact absurd (by rw [hn]) h0
    · split at h
      · cases h
      · cases h; exact .inr ⟨_, rfl, by omega⟩

theorem readlineLoop_pot (fuel : Nat) (length : Option Int) (acc : Bytes) (r : BufReader σ) (h0 : length ≠ some 0) (hf : potB r < fuel) :
    potB (readlineLoop fuel length acc r).2 + outSize (readlineLoop fuel length acc r).1 ≤ potB r + acc.length ∧ (readlineLoop fuel length acc r).1 ≠ .error .outOfFuel := by
  induction fuel generalizing length acc r with
  | zero => omega
  | succ fuel ih =>
    unfold readlineLoop
    split
    · exact ⟨by simp only [outSize]; omega, (fun h => by cases h)⟩
    · cases hdl : decLen length acc with
      | none => exact ⟨by simp only [outSize]; omega, (fun h => by cases h)⟩
      | some length' =>
        have hpos' := decLen_pos h0 hdl
        have hF := fillbuff_pot r
        generalize hx : r.fillbuff = x at *
        obtain ⟨x, r1⟩ := x
        obtain ⟨f1, f2, f3⟩ := hF
        simp only at f1 f2 f3
        cases x with
        | error er =>
          simp only [fillSize] at f1
          exact ⟨by simp only [outSize]; omega, (fun h => f2 (by cases h; rfl))⟩
        | ok u =>
          simp only [fillSize] at f1
          obtain ⟨e1, e2, e3, e4, e5, e6⟩ := empty_pot r1
          dsimp only
          generalize hE : r1.empty = E at *
          obtain ⟨e, r2⟩ := E
          simp only at *
          split
          · exact ⟨by simp only [outSize]; omega, (fun h => by cases h)⟩
          · rename_i he
            have hpos := noBuff_pos (r := r2) (by rw [noBuff_of_buff e3, ← e5]; simpa using he)
            have hp := buffReadline_pot r2 length'
            have hl : 0 < (r2.buffReadline length').1.length := by
              unfold buffReadline
              simp only [List.length_take]
              have h1 : 0 < (takeLine (r2.buff.getD [])).length := by
                apply List.length_pos_iff.2
                apply takeLine_ne_nil
                intro h; rw [h] at hpos; simp at hpos
              have : 0 < askLen length' (takeLine (r2.buff.getD [])).length := by
                unfold askLen
                rcases hpos' with rfl | ⟨n, rfl, hn⟩
                · exact h1
                · simp only
                  split <;> omega
              omega
            have := ih length' (acc ++ (r2.buffReadline length').1) (r2.buffReadline length').2
              (by rcases hpos' with rfl | ⟨n, rfl, hn⟩
                  · simp
                  · intro h; cases h; omega) (by omega)
            rw [List.length_append] at this
            exact ⟨by omega, this.2⟩

theorem potB_le_bound (r : BufReader σ) : potB r ≤ r.bound := by
  unfold potB base bound
  have h1 := credit_le r.decompressor
  have h2 := Nat.mul_le_mul_left (Zlib.ratio + 1) (Tame.bound r.stream)
  simp only [Nat.mul_add] at h1 h2 ⊢
  cases hd : r.decompressor with
  | none => rw [hd] at h1; simp only at h1 ⊢; omega
  | some d => rw [hd] at h1; simp only at h1 ⊢; omega

instance : Tame (BufReader σ) where
  pot := potB
  read r n := by
    have := readLoop_pot (r.bound + 2) n [] r (by have := potB_le_bound r; omega)
    rw [List.length_nil, Nat.add_zero] at this
    exact this
  readline r n := by
    show potB (r.readline n).2 + outSize (r.readline n).1 ≤ potB r ∧ (r.readline n).1 ≠ .error .outOfFuel
    unfold readline
    split
    · exact ⟨Nat.le_refl _, (fun h => by cases h)⟩
    · rename_i h0
      have hF := fillbuff_pot r
      generalize hx : r.fillbuff = x at *
      obtain ⟨x, r1⟩ := x
      obtain ⟨f1, f2, f3⟩ := hF
      simp only at f1 f2 f3
      cases x with
      | error er =>
        simp only [fillSize] at f1
        exact ⟨by simp only [outSize]; omega, (fun h => f2 (by cases h; rfl))⟩
      | ok u =>
        simp only [fillSize] at f1
        obtain ⟨e1, e2, e3, e4, e5, e6⟩ := empty_pot r1
        dsimp only
        generalize hE : r1.empty = E at *
        obtain ⟨e, r2⟩ := E
        simp only at *
        split
        · exact ⟨by simp only [outSize, List.length_nil]; omega, (fun h => by cases h)⟩
        · have hp := buffReadline_pot r2 n
          have := readlineLoop_pot ((r2.buffReadline n).2.bound + 2) n (r2.buffReadline n).1 (r2.buffReadline n).2 h0 (by have := potB_le_bound (r2.buffReadline n).2; omega)
          exact ⟨by omega, this.2⟩
  bound := potB_le_bound

end
end BufReader
end Warcio

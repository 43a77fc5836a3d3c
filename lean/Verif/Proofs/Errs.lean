import Verif.Proofs.TameTools

/-!
# Which exceptions the streams can raise
-/

set_option linter.unusedSectionVars false

namespace Warcio

/-- The state that is left is in `ok`, and an exception is in `E`. -/
def Gives {α σ : Type} (ok : σ → Prop) (E : PyErr → Prop) (x : Except PyErr α × σ) : Prop :=
  ok x.2 ∧ ∀ e, x.1 = .error e → E e

section
variable {α β σ : Type} {K : σ → Prop} {E E' : PyErr → Prop} {s : σ} {e : PyErr} {v : α}

theorem Gives.ok (h : K s) : Gives K E ((.ok v, s) : Except PyErr α × σ) := ⟨h, (fun _ h => by cases h)⟩

theorem Gives.err (h : K s) (he : E e) : Gives K E ((.error e, s) : Except PyErr α × σ) := ⟨h, (fun _ h => by cases h; exact he)⟩

theorem Gives.pass (h : Gives K E ((.error e, s) : Except PyErr α × σ)) : Gives K E ((.error e, s) : Except PyErr β × σ) :=
  .err h.1 (h.2 _ rfl)

theorem Gives.mono {x : Except PyErr α × σ} (h : Gives K E x) (hE : ∀ e, E e → E' e) : Gives K E' x := ⟨h.1, (fun e h' => hE e (h.2 e h'))⟩

end

/-- `read` keeps to `ok` and `E`. -/
def Reads (σ : Type) [PyStream σ] (ok : σ → Prop) (E : PyErr → Prop) : Prop := ∀ s n, ok s → Gives ok E (PyStream.read s n)

/-- `readline` keeps to `ok` and `E`. -/
def Lines (σ : Type) [PyStream σ] (ok : σ → Prop) (E : PyErr → Prop) : Prop := ∀ s n, ok s → Gives ok E (PyStream.readline s n)

/-- `readline()` keeps to `ok` and `E`. -/
def Lines0 (σ : Type) [PyStream σ] (ok : σ → Prop) (E : PyErr → Prop) : Prop := ∀ s, ok s → Gives ok E (PyStream.readline s none)

/-- `read` with no negative number keeps to `ok` and `E`. -/
def NReads (σ : Type) [PyStream σ] (ok : σ → Prop) (E : PyErr → Prop) : Prop := ∀ s (n : Option Int), (∀ k, n = some k → 0 ≤ k) → ok s → Gives ok E (PyStream.read s n)

/-- `readline` with no negative number keeps to `ok` and `E`. -/
def NLines (σ : Type) [PyStream σ] (ok : σ → Prop) (E : PyErr → Prop) : Prop := ∀ s (n : Option Int), (∀ k, n = some k → 0 ≤ k) → ok s → Gives ok E (PyStream.readline s n)

theorem Reads.n {σ : Type} [PyStream σ] {ok : σ → Prop} {E : PyErr → Prop} (h : Reads σ ok E) : NReads σ ok E := fun s n _ hs => h s n hs

theorem Lines.n {σ : Type} [PyStream σ] {ok : σ → Prop} {E : PyErr → Prop} (h : Lines σ ok E) : NLines σ ok E := fun s n _ hs => h s n hs

theorem Lines.plain {σ : Type} [PyStream σ] {ok : σ → Prop} {E : PyErr → Prop} (h : Lines σ ok E) : Lines0 σ ok E := fun s hs => h s none hs

theorem file_reads (f : FileObj) (n : Option Int) : ∃ b f', PyStream.read f n = (.ok b, f') := by
  show ∃ b f', f.read n = (.ok b, f')
  unfold FileObj.read
  split
  · exact ⟨_, _, rfl⟩
  · split
    · exact ⟨_, _, rfl⟩
    · split
      · exact ⟨_, _, rfl⟩
      · split
        · exact ⟨_, _, rfl⟩
        · exact ⟨_, _, rfl⟩

theorem source_reads (E : PyErr → Prop) : Reads Source (fun _ => True) E := by
  intro s n _
  refine ⟨trivial, fun e h => ?_⟩
  cases s with
  | file f =>
    obtain ⟨b, f', hr⟩ := file_reads f n
    have h : (PyStream.read f n).1 = .error e := h
    rw [hr] at h
    cases h
  | wrapped u =>
    obtain ⟨b, f', hr⟩ := file_reads u.fh n
    have h : (PyStream.read u n).1 = .error e := h
    unfold PyStream.read instPyStreamUnseekableYetTellable at h
    dsimp only at h
    rw [hr] at h
    cases h

section
variable {σ : Type} [PyStream σ] {ok : σ → Prop} {E : PyErr → Prop}

theorem limit_reads (h : Reads σ ok E) : Reads (LimitReader σ) (fun r => ok r.stream) E := by
  intro r n hr
  show Gives _ _ (r.read n)
  unfold LimitReader.read
  dsimp only
  split
  · exact .ok hr
  · have := h r.stream (some (r.clampLen n)) hr
    generalize PyStream.read r.stream (some (r.clampLen n)) = x at *
    obtain ⟨x, s⟩ := x
    cases x with
    | ok b => exact .ok this.1
    | error e => exact .err this.1 (this.2 _ rfl)

theorem limit_lines (h : Lines σ ok E) : Lines (LimitReader σ) (fun r => ok r.stream) E := by
  intro r n hr
  show Gives _ _ (r.readline n)
  unfold LimitReader.readline
  dsimp only
  split
  · exact .ok hr
  · have := h r.stream (some (r.clampLen n)) hr
    generalize PyStream.readline r.stream (some (r.clampLen n)) = x at *
    obtain ⟨x, s⟩ := x
    cases x with
    | ok b => exact .ok this.1
    | error e => exact .err this.1 (this.2 _ rfl)

end

namespace BufReader
variable {σ : Type} [Zlib]

/-- The same stream, and the same state of a chunked reader. -/
structure Like (r r' : BufReader σ) : Prop where
  stream : r'.stream = r.stream
  chunk : r'.chunk = r.chunk

theorem Like.refl (r : BufReader σ) : Like r r := ⟨rfl, rfl⟩

theorem Like.trans {a b c : BufReader σ} (h1 : Like a b) (h2 : Like b c) : Like a c := ⟨h2.1.trans h1.1, h2.2.trans h1.2⟩

theorem init_like (r : BufReader σ) (t : Option DType) : Like r (r.initDecomp t) := by
  cases t <;> exact ⟨rfl, rfl⟩

theorem feed_like (r : BufReader σ) (d : Bytes) : Like r (r.feed d).2 := by
  unfold feed
  split
  · exact .refl _
  · split
    · exact .refl _
    · exact ⟨rfl, rfl⟩

theorem decompressAlt_like (r : BufReader σ) (d : Bytes) : Like r (r.decompressAlt d).2 := by
  unfold decompressAlt
  have h := feed_like r d
  split
  · rename_i h'; rw [h'] at h; exact h
  · rename_i h'; rw [h'] at h
    split
    · exact h.trans ⟨rfl, rfl⟩
    · exact h

theorem decompress_like (r : BufReader σ) (d : Bytes) : Like r (r.decompress d).2 := by
  unfold decompress
  split
  · have h := feed_like r d
    split
    · rename_i h'; rw [h'] at h; exact h
    · rename_i h'; rw [h'] at h
      split
      · split
        · exact h.trans ((init_like _ _).trans (decompressAlt_like _ _))
        · exact h.trans ⟨rfl, rfl⟩
      · exact h
  · exact .refl _

theorem processRead_like (r : BufReader σ) (d : Bytes) : Like r (r.processRead d) := by
  unfold processRead
  split
  · exact ⟨rfl, rfl⟩
  · have h := decompress_like r d
    exact ⟨h.1, h.2⟩

theorem readNextMember_like (r : BufReader σ) : Like r r.readNextMember.2 := by
  unfold readNextMember
  split
  · exact .refl _
  · split
    · exact .refl _
    · rename_i d _ _
      exact Like.trans (b := { r with startingData := some d.unused }) ⟨rfl, rfl⟩ (init_like _ _)

theorem empty_like (r : BufReader σ) : Like r r.empty.2 := by
  unfold empty
  split
  · split
    · exact readNextMember_like r
    · exact .refl _
  · exact .refl _

variable [PyStream σ] {ok : σ → Prop} {E : PyErr → Prop}

/-- The stream is in `ok`; a chunked reader raises nothing of its own, and lines can be read. -/
def OkB (ok : σ → Prop) (E : PyErr → Prop) (r : BufReader σ) : Prop :=
  ok r.stream ∧ ∀ c, r.chunk = some c → c.raiseExceptions = false ∧ NLines σ ok E

theorem Like.okB {r r' : BufReader σ} (h : Like r r') (hr : OkB ok E r) : OkB ok E r' := by
  unfold OkB
  rw [h.1, h.2]
  exact hr

theorem readStream_gives (hR : NReads σ ok E) (r : BufReader σ) (n : Int) (hn : 0 ≤ n) (hr : OkB ok E r) :
    Gives (OkB ok E) E (r.readStream n) ∧ (r.readStream n).2.chunk = r.chunk := by
  have := hR r.stream (some n) (fun k hk => by cases hk; exact hn) hr.1
  exact ⟨⟨⟨this.1, hr.2⟩, this.2⟩, rfl⟩

theorem readlineStream_gives (hL : NLines σ ok E) (r : BufReader σ) (n : Int) (hn : 0 ≤ n) (hr : OkB ok E r) :
    Gives (OkB ok E) E (r.readlineStream n) ∧ (r.readlineStream n).2.chunk = r.chunk := by
  have := hL r.stream (some n) (fun k hk => by cases hk; exact hn) hr.1
  exact ⟨⟨⟨this.1, hr.2⟩, this.2⟩, rfl⟩

theorem fillLoop_gives (hF : E .outOfFuel) (hR : NReads σ ok E) : ∀ (fuel : Nat) (data : Bytes) (r : BufReader σ), OkB ok E r →
    Gives (OkB ok E) E (fillLoop fuel data r)
  | 0, _, r, hr => .err hr hF
  | fuel + 1, data, r, hr => by
    unfold fillLoop
    split
    · dsimp only
      have he := (empty_like r).okB hr
      split
      · obtain ⟨h, _⟩ := readStream_gives hR r.empty.2 r.empty.2.blockSize (Int.natCast_nonneg _) he
        generalize r.empty.2.readStream r.empty.2.blockSize = x at *
        obtain ⟨x, r1⟩ := x
        cases x with
        | error e => exact h.pass
        | ok d => exact fillLoop_gives hF hR fuel d _ ((processRead_like r1 d).okB h.1)
      · exact .ok he
    · exact .ok hr

theorem baseFill_gives (hF : E .outOfFuel) (hR : NReads σ ok E) (r : BufReader σ) (hr : OkB ok E r) : Gives (OkB ok E) E r.baseFill := by
  unfold baseFill
  dsimp only
  have he := (empty_like r).okB hr
  generalize r.empty = y at *
  obtain ⟨b, r1⟩ := y
  dsimp only at he ⊢
  split
  · exact .ok he
  · split
    · exact .ok he
    · have hn : Gives (OkB ok E) E r1.nextData := by
        unfold nextData
        split
        · exact (readStream_gives hR _ _ (Int.natCast_nonneg _) he).1
        · exact .ok ((Like.mk rfl rfl : Like r1 { r1 with startingData := none }).okB he)
      generalize r1.nextData = x at *
      obtain ⟨x, r2⟩ := x
      cases x with
      | error e => exact hn.pass
      | ok d => exact fillLoop_gives hF hR _ d _ ((processRead_like r2 d).okB hn.1)

theorem chunkLoop_gives (hF : E .outOfFuel) (hR : NReads σ ok E) : ∀ (fuel : Nat) (size : Int) (data : Bytes) (r : BufReader σ), OkB ok E r →
    Gives (OkB ok E) E (chunkLoop false fuel size data r)
  | 0, _, _, r, hr => .err hr hF
  | fuel + 1, size, data, r, hr => by
    unfold chunkLoop
    split
    · rename_i hlt
      obtain ⟨h, _⟩ := readStream_gives hR r (size - len data) (by omega) hr
      generalize r.readStream (size - len data) = x at *
      obtain ⟨x, r1⟩ := x
      cases x with
      | error e => exact h.pass
      | ok d =>
        dsimp only
        split
        · rw [if_neg (by decide)]
          exact .ok h.1
        · exact chunkLoop_gives hF hR fuel size _ r1 h.1
    · exact .ok hr

theorem okB_chunk {r : BufReader σ} {c : ChunkState} (hL : NLines σ ok E) (hr : OkB ok E r) (hc : c.raiseExceptions = false) : OkB ok E { r with chunk := some c } :=
  ⟨hr.1, (fun c' h => by cases h; exact ⟨hc, hL⟩)⟩

theorem tryDecode_gives (hF : E .outOfFuel) (hR : NReads σ ok E) (hL : NLines σ ok E) (r : BufReader σ) (c : ChunkState) (header : Bytes) (hr : OkB ok E r)
    (hc : c.raiseExceptions = false) : Gives (OkB ok E) (fun e => E e ∨ ∃ d, e = .chunkedData d) (r.tryDecode c header) := by
  unfold tryDecode
  split
  · exact .err hr (.inr ⟨_, rfl⟩)
  · rename_i size _
    split
    · obtain ⟨h, _⟩ := readStream_gives hR r 2 (by decide) hr
      generalize r.readStream 2 = x at *
      obtain ⟨x, r1⟩ := x
      cases x with
      | error e => exact .err h.1 (.inl (h.2 _ rfl))
      | ok d =>
        dsimp only
        split
        · exact .ok ((processRead_like _ _).okB (okB_chunk hL h.1 hc))
        · exact .err h.1 (.inr ⟨_, rfl⟩)
    · have h : Gives (OkB ok E) E (chunkLoop c.raiseExceptions (PyStream.bound r.stream + 2) size [] r) := by
        rw [hc]; exact chunkLoop_gives hF hR _ size [] r hr
      generalize chunkLoop c.raiseExceptions (PyStream.bound r.stream + 2) size [] r = x at *
      obtain ⟨x, r1⟩ := x
      cases x with
      | error e => exact .err h.1 (.inl (h.2 _ rfl))
      | ok d =>
        obtain ⟨d, b⟩ := d
        dsimp only
        split
        · exact .ok ((processRead_like _ _).okB (okB_chunk hL h.1 hc))
        · obtain ⟨h, _⟩ := readStream_gives hR r1 2 (by decide) h.1
          generalize r1.readStream 2 = x at *
          obtain ⟨x, r2⟩ := x
          cases x with
          | error e => exact .err h.1 (.inl (h.2 _ rfl))
          | ok t =>
            dsimp only
            split
            · exact .ok ((processRead_like _ _).okB h.1)
            · exact .err h.1 (.inr ⟨_, rfl⟩)

theorem chunkedFillLoop_gives (hF : E .outOfFuel) (hR : NReads σ ok E) (hL : NLines σ ok E) : ∀ (fuel : Nat) (r : BufReader σ), OkB ok E r →
    Gives (OkB ok E) E (chunkedFillLoop fuel r)
  | 0, r, hr => .err hr hF
  | fuel + 1, r, hr => by
    unfold chunkedFillLoop
    dsimp only
    have he := (empty_like r).okB hr
    generalize r.empty = y at *
    obtain ⟨b, r1⟩ := y
    dsimp only at he ⊢
    have hc : (r1.chunk.getD {}).raiseExceptions = false := by
      cases h : r1.chunk with
      | none => rfl
      | some c => exact (he.2 c h).1
    generalize r1.chunk.getD {} = c at *
    split
    · obtain ⟨h, _⟩ := readlineStream_gives hL r1 64 (by decide) he
      generalize r1.readlineStream 64 = x at *
      obtain ⟨x, r2⟩ := x
      cases x with
      | error e => exact h.pass
      | ok header =>
        dsimp only
        have h := tryDecode_gives hF hR hL r2 c header h.1 hc
        generalize r2.tryDecode c header = x at *
        obtain ⟨x, r3⟩ := x
        cases x with
        | ok u => exact chunkedFillLoop_gives hF hR hL fuel r3 h.1
        | error e =>
          have hE := h.2 e rfl
          have h1 : OkB ok E r3 := h.1
          by_cases hd : ∃ d, e = .chunkedData d
          · obtain ⟨d, rfl⟩ := hd
            dsimp only
            rw [if_neg (by rw [hc]; decide)]
            exact baseFill_gives hF hR _ (okB_chunk hL ((processRead_like _ _).okB h1) hc)
          · have hE : E e := hE.resolve_right hd
            cases e <;> first | exact absurd ⟨_, rfl⟩ hd | exact .err h1 hE
    · exact .ok he

theorem fillbuff_gives (hF : E .outOfFuel) (hR : NReads σ ok E) (r : BufReader σ) (hr : OkB ok E r) : Gives (OkB ok E) E r.fillbuff := by
  unfold fillbuff
  split
  · exact baseFill_gives hF hR r hr
  · rename_i c hc
    split
    · exact baseFill_gives hF hR r hr
    · exact chunkedFillLoop_gives hF hR (hr.2 c hc).2 _ r hr

theorem readLoop_gives (hF : E .outOfFuel) (hR : NReads σ ok E) : ∀ (fuel : Nat) (n : Option Int) (acc : Bytes) (r : BufReader σ), OkB ok E r →
    Gives (OkB ok E) E (readLoop fuel n acc r)
  | 0, _, _, r, hr => .err hr hF
  | fuel + 1, n, acc, r, hr => by
    unfold readLoop
    split
    · have h := fillbuff_gives hF hR r hr
      generalize r.fillbuff = x at *
      obtain ⟨x, r1⟩ := x
      cases x with
      | error e => exact h.pass
      | ok u =>
        dsimp only
        have he := (empty_like r1).okB h.1
        split
        · exact .ok he
        · exact readLoop_gives hF hR fuel _ _ _ ((Like.mk rfl rfl : Like r1.empty.2 (r1.empty.2.buffRead n).2).okB he)
    · exact .ok hr

theorem readlineLoop_gives (hF : E .outOfFuel) (hR : NReads σ ok E) : ∀ (fuel : Nat) (n : Option Int) (acc : Bytes) (r : BufReader σ), OkB ok E r →
    Gives (OkB ok E) E (readlineLoop fuel n acc r)
  | 0, _, _, r, hr => .err hr hF
  | fuel + 1, n, acc, r, hr => by
    unfold readlineLoop
    split
    · exact .ok hr
    · split
      · exact .ok hr
      · rename_i m _
        have h := fillbuff_gives hF hR r hr
        generalize r.fillbuff = x at *
        obtain ⟨x, r1⟩ := x
        cases x with
        | error e => exact h.pass
        | ok u =>
          dsimp only
          have he := (empty_like r1).okB h.1
          split
          · exact .ok he
          · exact readlineLoop_gives hF hR fuel _ _ _ ((Like.mk rfl rfl : Like r1.empty.2 (r1.empty.2.buffReadline m).2).okB he)

theorem nreads (hF : E .outOfFuel) (hR : NReads σ ok E) : Reads (BufReader σ) (OkB ok E) E :=
  fun r n hr => readLoop_gives hF hR _ n [] r hr

theorem nlines (hF : E .outOfFuel) (hR : NReads σ ok E) : Lines (BufReader σ) (OkB ok E) E := by
  intro r n hr
  show Gives _ _ (r.readline n)
  unfold BufReader.readline
  split
  · exact .ok hr
  · have h := fillbuff_gives hF hR r hr
    generalize r.fillbuff = x at *
    obtain ⟨x, r1⟩ := x
    cases x with
    | error e => exact h.pass
    | ok u =>
      dsimp only
      have he := (empty_like r1).okB h.1
      split
      · exact .ok he
      · exact readlineLoop_gives hF hR _ _ _ _ ((Like.mk rfl rfl : Like r1.empty.2 (r1.empty.2.buffReadline n).2).okB he)

theorem reads (hF : E .outOfFuel) (hR : Reads σ ok E) : Reads (BufReader σ) (OkB ok E) E := nreads hF hR.n

theorem lines (hF : E .outOfFuel) (hR : Reads σ ok E) : Lines (BufReader σ) (OkB ok E) E := nlines hF hR.n

end BufReader
end Warcio

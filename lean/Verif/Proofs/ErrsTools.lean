import Verif.Proofs.ErrsIter

/-!
# Which exceptions the tools can raise
-/

set_option linter.unusedSectionVars false

namespace Warcio

section
variable {σ : Type} [PyStream σ] {ok : σ → Prop} {E : PyErr → Prop}

theorem readBlocks_ngives (hF : E .outOfFuel) (hR : NReads σ ok E) {n : Int} (hn : 0 ≤ n) : ∀ (fuel : Nat) (s : σ), ok s → Gives ok E (readBlocks n fuel s).2
  | 0, _, hs => .err hs hF
  | fuel + 1, s, hs => by
    unfold readBlocks
    have h1 := hR s (some n) (fun k hk => by cases hk; exact hn) hs
    generalize PyStream.read s (some n) = x at *
    obtain ⟨x, s1⟩ := x
    cases x with
    | error e => exact h1.pass
    | ok b =>
      dsimp only
      split
      · exact .ok h1.1
      · exact readBlocks_ngives hF hR hn fuel s1 h1.1

theorem readBlocks_gives (hF : E .outOfFuel) (hR : Reads σ ok E) {n : Int} (hn : 0 ≤ n) (fuel : Nat) (s : σ) (hs : ok s) : Gives ok E (readBlocks n fuel s).2 :=
  readBlocks_ngives hF hR.n hn fuel s hs

/-- The stream below is in `ok`. -/
def OkC [Zlib] (ok : σ → Prop) (E : PyErr → Prop) : ContentStream σ → Prop
  | .raw s => ok s
  | .buffered r => BufReader.OkB ok E r

theorem OkC.below [Zlib] {s : ContentStream σ} (h : OkC ok E s) : ok s.below := by
  cases s with
  | raw s => exact h
  | buffered r => exact h.1

theorem content_nreads [Zlib] (hF : E .outOfFuel) (hR : NReads σ ok E) : NReads (ContentStream σ) (OkC ok E) E := by
  intro s n hn hs
  cases s with
  | raw s => exact ⟨(hR s n hn hs).1, (hR s n hn hs).2⟩
  | buffered r => exact ⟨(BufReader.nreads hF hR r n hs).1, (BufReader.nreads hF hR r n hs).2⟩

theorem content_reads [Zlib] (hF : E .outOfFuel) (hR : Reads σ ok E) : Reads (ContentStream σ) (OkC ok E) E := by
  intro s n hs
  cases s with
  | raw s => exact ⟨(hR s n hs).1, (hR s n hs).2⟩
  | buffered r => exact ⟨(BufReader.reads hF hR r n hs).1, (BufReader.reads hF hR r n hs).2⟩

/-- There is always a content stream. -/
theorem contentStream_gives [Zlib] [PyUni] (hL : NLines σ ok E) (rec : Record σ) (hr : ok rec.rawStream) : ∃ s, rec.contentStream = .ok s ∧ OkC ok E s := by
  have hdec : ∀ e t, contentDecoder e = some t → (Zlib.codec t).isSome = true := by
    intro e t h
    unfold contentDecoder at h
    split at h
    · split at h
      · split at h
        · rename_i hk; cases h; exact hk
        · cases h
      · cases h
    · cases h
  have hnew : ∀ (enc : Option DType), (∀ t, enc = some t → (Zlib.codec t).isSome = true) → ∃ r, BufReader.new rec.rawStream 16384 enc = .ok r ∧ r.stream = rec.rawStream ∧ r.chunk = none := by
    intro enc he
    unfold BufReader.new
    cases enc with
    | none => exact ⟨_, rfl, rfl, rfl⟩
    | some t =>
      have := he t rfl
      dsimp only
      cases hc : Zlib.codec t with
      | none => rw [hc] at this; cases this
      | some c => exact ⟨_, rfl, rfl, rfl⟩
  unfold Record.contentStream
  split
  · exact ⟨_, rfl, hr⟩
  · rename_i h _
    split
    · exact ⟨_, rfl, hr⟩
    · dsimp only
      split
      · unfold BufReader.newChunked
        obtain ⟨r, h1, h2, h3⟩ := hnew (contentDecoder (h.getHeader (lit "content-encoding"))) (fun t ht => hdec _ t ht)
        rw [h1]
        exact ⟨_, rfl, by show ok r.stream; rw [h2]; exact hr, (fun c hc => by cases hc; exact ⟨rfl, hL⟩)⟩
      · split
        · rename_i t ht
          obtain ⟨r, h1, h2, h3⟩ := hnew (some t) (fun t' h' => by cases h'; exact hdec _ t ht)
          rw [h1]
          exact ⟨_, rfl, by show ok r.stream; rw [h2]; exact hr, (fun c hc => by rw [h3] at hc; cases hc)⟩
        · exact ⟨_, rfl, hr⟩

end

section
variable {σ : Type} [Zlib] [Hashlib] [PyUni] [PyStream σ] {ok : σ → Prop} {E : PyErr → Prop}

open ArchiveIter

theorem getField_gives' (hF : E .outOfFuel) (hR : Reads σ ok E) {io : IterOpts} (filename : Str) (rec : Record Unit) (name : Str) (it : ArchiveIter σ) (h : Safe ok E io it) (hr : it.record ≠ none) :
    Gives (Kept ok E io it) (RawErr E io.checkDigests) (Indexer.getField filename rec name it) := by
  have hmap : ∀ {α β : Type} {x : Except PyErr α} {f : α → β} {P : PyErr → Prop}, (∀ e, x = .error e → P e) → ∀ e, x.map f = .error e → P e := by
    intro α β x f P hx e h
    cases x with
    | ok v => cases h
    | error e' => cases h; exact hx _ rfl
  unfold Indexer.getField
  split
  · exact ⟨(getMember_gives hF hR _ it h hr).1, hmap (getMember_gives hF hR _ it h hr).2⟩
  · split
    · exact ⟨(getMember_gives hF hR _ it h hr).1, hmap (getMember_gives hF hR _ it h hr).2⟩
    · split
      · exact .ok (.refl h)
      · split
        · split
          · exact .ok (.refl h)
          · exact .ok (.refl h)
        · split
          · split
            · exact .ok (.refl h)
            · exact .ok (.refl h)
          · exact .ok (.refl h)

theorem entry_gives' (hF : E .outOfFuel) (hR : Reads σ ok E) {io : IterOpts} (filename : Str) (rec : Record Unit) : ∀ (names : List Str) (index : List (Str × Str)) (it : ArchiveIter σ),
    Safe ok E io it → it.record ≠ none → Gives (Kept ok E io it) (RawErr E io.checkDigests) (Indexer.entry filename rec names index it)
  | [], _, it, h, _ => .ok (.refl h)
  | name :: names, index, it, h, hr => by
    unfold Indexer.entry
    have h1 := getField_gives' hF hR filename rec name it h hr
    generalize Indexer.getField filename rec name it = x at *
    obtain ⟨x, it1⟩ := x
    have k : Kept ok E io it it1 := h1.1
    have hr1 : it1.record ≠ none := by rw [k.record]; exact hr
    cases x with
    | error e => exact h1.pass
    | ok v =>
      cases v with
      | none =>
        have := entry_gives' hF hR filename rec names index it1 k.safe hr1
        exact ⟨k.trans this.1, this.2⟩
      | some v =>
        have := entry_gives' hF hR filename rec names (Indexer.dictSet name v index) it1 k.safe hr1
        exact ⟨k.trans this.1, this.2⟩

/-- What a loop over all records can raise. -/
def LoopErr (E : PyErr → Prop) (io : IterOpts) (e : PyErr) : Prop := E e ∨ NextErr io e

theorem raw_loopErr {io : IterOpts} {e : PyErr} (h : RawErr E io.checkDigests e) : LoopErr E io e := by
  rcases h with h | ⟨c, hc, (rfl | rfl) | ⟨rfl, rfl⟩⟩
  · exact .inl h
  · exact .inr (by show io.checkDigests ≠ none; rw [hc]; exact (fun h => by cases h))
  · exact .inr (by show io.checkDigests ≠ none; rw [hc]; exact (fun h => by cases h))
  · exact .inr hc

theorem gen_loopErr {io : IterOpts} {e : PyErr} (h : GenErr E io e) (hs : e ≠ .stopIteration) : LoopErr E io e := by
  rcases h with h | h | h
  · exact .inl h
  · exact absurd h hs
  · exact .inr h

theorem indexLoop_gives' (hF : E .outOfFuel) (hR : Reads σ ok E) {io : IterOpts} (filename : Str) (fields : List Str) : ∀ (fuel : Nat) (it : ArchiveIter σ), Safe ok E io it →
    ∀ e, (Indexer.indexLoop filename fields fuel it).1 = .error e → LoopErr E io e
  | 0, _, _, e, he => by cases he; exact .inl hF
  | fuel + 1, it, h, e, he => by
    unfold Indexer.indexLoop at he
    obtain ⟨h1, h2⟩ := next_gives hF hR it h
    generalize it.next = x at *
    obtain ⟨x, it1⟩ := x
    cases x with
    | error e1 =>
      have hE := h1.2 e1 rfl
      by_cases hs : e1 = .stopIteration
      · subst hs; cases he
      · have hE := gen_loopErr hE hs
        cases e1 <;> first | exact absurd rfl hs | (cases he; exact hE)
    | ok u =>
      dsimp only at he
      have hr : it1.record ≠ none := h2 u rfl
      cases hrec : it1.record with
      | none => exact absurd hrec hr
      | some rec =>
        rw [hrec] at he
        dsimp only at he
        have h3 := entry_gives' hF hR filename rec fields [] it1 h1.1 hr
        generalize Indexer.entry filename rec fields [] it1 = y at *
        obtain ⟨y, it2⟩ := y
        cases y with
        | error e1 => cases he; exact raw_loopErr (h3.2 _ rfl)
        | ok index => exact indexLoop_gives' hF hR filename fields fuel it2 h3.1.safe e he

theorem current_raw' {it : ArchiveIter σ} {rec : Record (RawStream (BufReader σ))} (hc : it.current = some rec) : rec.rawStream = it.raw := by
  unfold ArchiveIter.current at hc
  cases hrec : it.record with
  | none => rw [hrec] at hc; cases hc
  | some r => rw [hrec] at hc; cases hc; rfl

theorem examine_gives' (hF : E .outOfFuel) (hR : Reads σ ok E) {io : IterOpts} (it : ArchiveIter σ) (h : Safe ok E io it) {rec : Record (RawStream (BufReader σ))} (hc : it.current = some rec) :
    Gives (Kept ok E io it) (RawErr E io.checkDigests) (Checker.examine it rec) := by
  have hr : it.record ≠ none := by
    intro h'
    unfold ArchiveIter.current at hc
    rw [h'] at hc
    cases hc
  unfold Checker.examine
  have hL := raw_lines (k := io.checkDigests) (BufReader.lines (ok := ok) (E := E) hF hR)
  have hRR := raw_reads (k := io.checkDigests) (BufReader.reads (ok := ok) (E := E) hF hR)
  obtain ⟨s, hs, hso⟩ := contentStream_gives hL.n rec (by rw [current_raw' hc]; exact h.raw)
  rw [hs]
  dsimp only
  unfold readAllBlocks
  have h1 := readBlocks_gives (.inl hF) (content_reads (.inl hF) hRR) (by decide : (0 : Int) ≤ 1048576) (PyStream.bound s + 2) s hso
  generalize readBlocks 1048576 (PyStream.bound s + 2) s = y at *
  obtain ⟨bufs, y, s1⟩ := y
  have k : Kept ok E io it { it with raw := s1.below } := ⟨⟨h.opts, h1.1.below, h.closed⟩, rfl, rfl, rfl⟩
  cases y with
  | error e => exact .err k (h1.2 _ rfl)
  | ok u =>
    dsimp only
    have h2 := getMember_gives hF hR (·.1) ({ it with raw := s1.below } : ArchiveIter σ) k.safe hr
    unfold ArchiveIter.getRecordOffset
    generalize getMember (·.1) ({ it with raw := s1.below } : ArchiveIter σ) = z at *
    obtain ⟨z, it2⟩ := z
    cases z with
    | error e => exact .err (k.trans h2.1) (h2.2 _ rfl)
    | ok off => exact .ok (k.trans h2.1)

theorem current_some {it : ArchiveIter σ} (h : it.record ≠ none) : ∃ rec, it.current = some rec := by
  unfold ArchiveIter.current
  cases hr : it.record with
  | none => exact absurd hr h
  | some r => exact ⟨_, rfl⟩

theorem checkLoop_gives' (hF : E .outOfFuel) (hR : Reads σ ok E) {io : IterOpts} (verbose : Bool) (name : Str) : ∀ (fuel : Nat) (it : ArchiveIter σ) (printed : Bool), Safe ok E io it →
    ∀ e, (Checker.checkLoop verbose name fuel it printed).1 = .error e → LoopErr E io e
  | 0, _, _, _, e, he => by cases he; exact .inl hF
  | fuel + 1, it, printed, h, e, he => by
    unfold Checker.checkLoop at he
    obtain ⟨h1, h2⟩ := next_gives hF hR it h
    generalize it.next = x at *
    obtain ⟨x, it1⟩ := x
    cases x with
    | error e1 =>
      have hE := h1.2 e1 rfl
      by_cases hs : e1 = .stopIteration
      · subst hs; cases he
      · have hE := gen_loopErr hE hs
        cases e1 <;> first | exact absurd rfl hs | (cases he; exact hE)
    | ok u =>
      dsimp only at he
      obtain ⟨rec, hc⟩ := current_some (h2 u rfl)
      rw [hc] at he
      dsimp only at he
      have h3 := examine_gives' hF hR it1 h1.1 hc
      generalize Checker.examine it1 rec = y at *
      obtain ⟨y, it2⟩ := y
      cases y with
      | error e1 => cases he; exact raw_loopErr (h3.2 _ rfl)
      | ok v => exact checkLoop_gives' hF hR verbose name fuel it2 _ h3.1.safe e he

theorem output_gives' (hF : E .outOfFuel) (hR : Reads σ ok E) {io : IterOpts} (it : ArchiveIter σ) (h : Safe ok E io it) {rec : Record (RawStream (BufReader σ))} (hc : it.current = some rec)
    (payloadOnly headersOnly : Bool) : ∀ e, (Extractor.output rec payloadOnly headersOnly).1 = .error e → RawErr E io.checkDigests e := by
  intro e he
  have hL := raw_lines (k := io.checkDigests) (BufReader.lines (ok := ok) (E := E) hF hR)
  have hRR := raw_reads (k := io.checkDigests) (BufReader.reads (ok := ok) (E := E) hF hR)
  have hraw : OkR (BufReader.OkB ok E) io.checkDigests rec.rawStream := by rw [current_raw' hc]; exact h.raw
  unfold Extractor.output at he
  split at he
  · obtain ⟨s, hs, hso⟩ := contentStream_gives hL.n rec hraw
    rw [hs] at he
    exact (readBlocks_gives (.inl hF) (content_reads (.inl hF) hRR) (by decide : 0 ≤ Extractor.readSize) (PyStream.bound s + 2) s hso).2 e he
  · dsimp only at he
    generalize rec.recHeaders.toBytes ++ _ = head at he
    split at he
    · cases he
    · exact (readBlocks_gives (.inl hF) hRR (by decide : 0 ≤ Extractor.readSize) (PyStream.bound rec.rawStream + 2) rec.rawStream hraw).2 e he

end

end Warcio

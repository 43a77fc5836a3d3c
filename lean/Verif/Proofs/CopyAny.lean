import Verif.Proofs.WriteShape
import Verif.Proofs.TameTools

/-!
# Writing whatever could be read
-/

set_option linter.unusedSectionVars false

namespace Warcio

open Builder Writer StatusAndHeaders ArchiveIter

/-- The first line of a record that was read: a version, or the line was blank. -/
def FirstLine (h : StatusAndHeaders) : Prop :=
  h.protocol ∈ [lit "WARC/1.1", lit "WARC/1.0", lit "WARC/0.17", lit "WARC/0.18"] ∨ (h.protocol = [] ∧ h.statusline = [])

section
variable {σ : Type} [PyUni] [PyStream σ]

theorem splitPrefix_known {key : Str} : ∀ {ps : List Str} {p r : Str}, HeaderParser.splitPrefix key ps = some (p, r) → p ∈ ps
  | [], _, _, h => by cases h
  | q :: ps, p, r, h => by
    unfold HeaderParser.splitPrefix at h
    split at h
    · rename_i hq
      cases h
      have : q <+: PyUni.upper key := by
        unfold startsWith at hq
        exact List.isPrefixOf_iff_prefix.1 hq
      rw [← List.prefix_iff_eq_take.1 this]
      exact List.mem_cons_self ..
    · exact List.mem_cons_of_mem _ (splitPrefix_known h)

theorem parse_first {s s' : σ} {line : Option Line} {h : StatusAndHeaders} (hp : Loader.warcParser.parse s line = (.ok h, s')) : FirstLine h := by
  have key : ∀ {full : Str} {s : σ}, Loader.warcParser.parseFrom full s = (.ok h, s') → FirstLine h := by
    intro full s hp
    unfold HeaderParser.parseFrom at hp
    split at hp
    · cases hp
    · split at hp
      · cases hp; exact .inr ⟨rfl, rfl⟩
      · split at hp
        · cases hp
        · rename_i ps hps
          split at hp
          · cases hp
          · split at hp
            · cases hp
            · cases hp
              refine .inl ?_
              unfold HeaderParser.protocolStatus at hps
              split at hps
              · split at hps
                · rename_i hk; cases hps; exact splitPrefix_known hk
                · cases hps
              · rename_i hv; exact absurd rfl hv
  unfold HeaderParser.parse at hp
  split at hp
  · exact key hp
  · split at hp
    · exact key hp
    · cases hp

theorem parseArc_first {o : LoadOpts} {s s' : σ} {line : Option Line} {h : StatusAndHeaders} (hp : Loader.parseArc o s line = (.ok h, s')) : FirstLine h := by
  have key : ∀ {full : Str} {s : σ}, Loader.parseArcFrom o full s = (.ok h, s') → FirstLine h := by
    intro full s hp
    unfold Loader.parseArcFrom at hp
    split at hp
    · cases hp
    · dsimp only at hp
      split at hp
      · cases hp
      · split at hp
        · cases hp
        · split at hp
          · cases hp
          · cases hp; exact .inl (show lit "WARC/1.0" ∈ _ by decide)
  unfold Loader.parseArc at hp
  split at hp
  · exact key hp
  · split at hp
    · exact key hp
    · cases hp

theorem detect_first {o : LoadOpts} {s s' : σ} {line : Option Line} {f : HeadFormat} {h : StatusAndHeaders} (hp : Loader.detectType o s line = (.ok (f, h), s')) : FirstLine h := by
  have key : ∀ {s : σ} {line : Option Line}, Loader.detectArc o s line = (.ok (f, h), s') → FirstLine h := by
    intro s line hp
    unfold Loader.detectArc at hp
    split at hp
    · rename_i hk; cases hp; exact parseArc_first hk
    · cases hp
    · cases hp
  unfold Loader.detectType at hp
  split at hp
  · exact key hp
  · split at hp
    · rename_i hk; cases hp; exact parse_first hk
    · split at hp
      · cases hp
      · exact key hp
    · cases hp

theorem fields_first {f : HeadFormat} {h : StatusAndHeaders} (hf : FirstLine h) : FirstLine (Loader.fields f h).headers := by
  unfold Loader.fields
  split
  · exact hf
  · dsimp only
    unfold Loader.ensureTargetUri
    split
    · exact hf
    · dsimp only
      split <;> split <;> exact hf

theorem blockLength_nonneg {t : Option Str} {k n : Int} (h : Loader.blockLength t k = some n) : 0 ≤ n := by
  unfold Loader.blockLength at h
  split at h
  · cases h
  · split at h
    · cases h; exact Int.le_refl _
    · split at h
      · cases h; exact Int.le_refl _
      · cases h; omega

/-- A record that could be read. -/
structure Readable {τ : Type} (rec : Record τ) : Prop where
  first : FirstLine rec.recHeaders
  length : ∀ n, rec.length = some n → 0 ≤ n
  payload : rec.payloadLength ≠ none

variable [Hashlib]

theorem load_readable {o : LoadOpts} {s s' : σ} {line : Option Line} {rec : Record (RawStream σ)} (hp : Loader.parseRecordStream o s line = (.ok rec, s')) : Readable rec := by
  unfold Loader.parseRecordStream at hp
  split at hp
  · cases hp
  · rename_i f h s1 hd
    dsimp only at hp
    split at hp
    · cases hp
    · split at hp
      · cases hp
      · split at hp
        · cases hp
        · cases hp
          exact ⟨fields_first (detect_first hd), fun n hn => blockLength_nonneg hn, by simp⟩

variable [Zlib]

theorem nextRecord_readable (it : ArchiveIter σ) (h : it.nextRecord.1 = .ok ()) : ∃ rec, it.nextRecord.2.record = some rec ∧ Readable rec := by
  unfold nextRecord at h ⊢
  split at h
  · cases h
  · split at h
    · cases h
    · rename_i hc x rec _ hp
      rw [if_neg hc]
      have := load_readable hp
      exact ⟨_, rfl, this.first, this.length, this.payload⟩

theorem genLoop_readable : ∀ (fuel : Nat) (it : ArchiveIter σ), (genLoop fuel it).1 = .ok () → ∃ rec, (genLoop fuel it).2.record = some rec ∧ Readable rec
  | 0, _, h => by cases h
  | fuel + 1, it, h => by
    unfold genLoop at h ⊢
    have hn := nextRecord_readable it
    generalize it.nextRecord = x at *
    obtain ⟨x, it1⟩ := x
    cases x with
    | ok u =>
      obtain ⟨rec, h1, h2⟩ := hn rfl
      dsimp only at h ⊢
      split at h
      · cases h
      · rename_i hr
        rw [if_neg hr]
        exact ⟨rec, h1, h2⟩
    | error e =>
      by_cases he : e = .eofError
      · subst he
        dsimp only at h ⊢
        generalize afterRecord { it1 with emptyRecord := true } = y at *
        obtain ⟨y, it2⟩ := y
        cases y with
        | error e => cases h
        | ok b =>
          cases b with
          | false => cases h
          | true => exact genLoop_readable fuel it2 h
      · cases e <;> first | exact absurd rfl he | cases h

theorem next_readable (it : ArchiveIter σ) (h : it.next.1 = .ok ()) : ∃ rec, it.next.2.record = some rec ∧ Readable rec := by
  unfold next at h ⊢
  split at h
  · cases h
  · rename_i hg; exact genLoop_readable _ it h
  · generalize it.afterRecord = y at *
    obtain ⟨y, it2⟩ := y
    cases y with
    | error e => cases h
    | ok b =>
      cases b with
      | false => cases h
      | true => exact genLoop_readable _ it2 h

variable [Deflater] {IsMember : Bytes → Bytes → Prop}

theorem write_any (D : LawfulDeflater IsMember) {c : BuilderCfg} (hc : c.gzip = true) {τ : Type} [PyFile τ] {rec : Record τ} (hr : Readable rec) {o : OutFile} (ho : o.AtEnd)
    (hx : (write c (OutRecord.ofRead rec) o).1 = .ok ()) : ∃ z p, IsMember z p ∧ OutputRecord p ∧ (write c (OutRecord.ofRead rec) o).2.2 = o.extended z := by
  obtain ⟨ws, x, r', h1, h2⟩ := writeTo_shape c (OutRecord.ofRead rec) hr.length
  unfold write at hx ⊢
  simp only [hc, if_true, h1] at hx ⊢
  obtain ⟨h, block, n, k1, k2, k3, k4⟩ := h2 hx
  refine ⟨_, _, D ws, ?_, ?_⟩
  · rw [k1]
    have k2 : h.protocol = rec.recHeaders.protocol := k2
    have k3 : h.statusline = rec.recHeaders.statusline := k3
    rcases hr.first with hv | ⟨hv1, hv2⟩
    · refine .versioned h.protocol h.statusline h.headers block ⟨by rw [k2]; exact hv, ⟨n, k4⟩, ?_⟩
      rw [toBytes_headText]
      · rfl
      · rw [k2]
        intro he
        rw [he] at hv
        exact absurd hv (by decide)
    · refine .headless h.headers block ⟨⟨n, k4⟩, ?_⟩
      rw [hv1] at k2
      rw [hv2] at k3
      unfold toBytes toStr firstLine
      rw [k2, k3, headerLines_flatMap, utf8Encode_append _ (lit "\r\n"), show utf8Encode (lit "\r\n") = crlf by decide]
      rfl
  · simp only [hx, if_true]
    rw [foldl_write_gz ws [] o ho]
    simp only [Sink.flush, List.nil_append]
    rw [OutFile.write_end rfl]
    simp [OutFile.extended]

theorem copyLoop_any (D : LawfulDeflater IsMember) {c : BuilderCfg} (hc : c.gzip = true) : ∀ (fuel : Nat) (it : ArchiveIter σ) (o : OutFile) (count : Nat), o.AtEnd →
    ∀ n, (Recompressor.copyLoop c fuel it o count).1 = .ok n → ∃ ms : List (Bytes × Bytes), n = count + ms.length ∧ (∀ m ∈ ms, IsMember m.1 m.2 ∧ OutputRecord m.2) ∧
      (Recompressor.copyLoop c fuel it o count).2 = o.extended (ms.flatMap (·.1))
  | 0, _, _, _, _, _, h => by cases h
  | fuel + 1, it, o, count, ho, n, h => by
    unfold Recompressor.copyLoop at h ⊢
    have hn := next_readable it
    generalize it.next = x at *
    obtain ⟨x, it1⟩ := x
    cases x with
    | error e =>
      by_cases he : e = .stopIteration
      · subst he
        cases h
        refine ⟨[], rfl, by simp, ?_⟩
        obtain ⟨b, p⟩ := o
        have ho : p = b.length := ho
        simp [OutFile.extended, ho]
      · cases e <;> first | exact absurd rfl he | cases h
    | ok u =>
      obtain ⟨rec0, h1, h2⟩ := hn rfl
      dsimp only at h1 h ⊢
      cases hcur : it1.current with
      | none => rw [hcur] at h; cases h
      | some rec =>
        have hr : Readable rec := by
          unfold ArchiveIter.current at hcur
          rw [h1] at hcur
          cases hcur
          exact ⟨h2.first, h2.length, h2.payload⟩
        rw [hcur] at h
        dsimp only at h ⊢
        have hw := write_any D hc hr ho
        generalize write c (OutRecord.ofRead rec) o = y at *
        obtain ⟨y, r', o'⟩ := y
        cases y with
        | error e => cases h
        | ok u =>
          obtain ⟨z, p, w1, w2, w3⟩ := hw rfl
          dsimp only at w3 h ⊢
          subst w3
          obtain ⟨ms, m1, m2, m3⟩ := copyLoop_any D hc fuel _ _ _ (show (o.extended z).AtEnd from rfl) n h
          refine ⟨(z, p) :: ms, ?_, ?_, ?_⟩
          · rw [List.length_cons]; omega
          · intro m hm
            rcases List.mem_cons.1 hm with rfl | hm
            · exact ⟨w1, w2⟩
            · exact m2 m hm
          · rw [m3]; simp [OutFile.extended]

end
end Warcio

import Verif.Proofs.GzCopy
import Verif.Props.Recompress

/-!
# Copying proper records that are put into gzip members in any way

If a member holds several records, the reader may go on to the next member while the rest of the first one is still in its buffer.
-/

set_option linter.unusedSectionVars false

namespace Warcio

open Loader BufReader

namespace BufReader

section
variable {σ : Type} [Zlib] [PyStream σ] {V : σ → Bytes → Prop} {IsMember : Bytes → Bytes → Prop} {P : Bytes → Nat → Prop} {L : LawfulGzip IsMember} {rest : Bytes}

/-- A reader in a member, or before one, with whole lines of the members before it in its buffer. -/
def Loose (L : LawfulGzip IsMember) (V : σ → Bytes → Prop) (P : Bytes → Nat → Prop) (rest : Bytes) (r : BufReader σ) (rem : Bytes) : Prop :=
  Gz L V P rest r rem ∨
  ∃ b d, rem = b ++ d ∧ r.buff = some b ∧ b ≠ [] ∧ ([10] : Bytes) <:+ b ∧ Gz L V P rest { r with buff := none } d ∧ r.unused = []

theorem gz_rebuff {r : BufReader σ} {d : Bytes} (h : Gz L V P rest { r with buff := none } d) : Gz L V P rest { r with buff := some [] } d := by
  obtain ⟨hist, z, d', o, dr, srem, hd, hc, hm, hrun, hdo, hs, heq, hrem, hfr, hP, hfb⟩ := h.split
  exact ⟨h.dtype, h.chunk, h.block, h.one, hist, z, d', o, dr, srem, hd, hc, hm, hrun, hdo, hs, heq, hrem, hfr, hP, fun _ => rfl⟩

theorem loose_fill {r : BufReader σ} {b d : Bytes} (h1 : r.buff = some b) (h2 : b ≠ []) (h3 : Gz L V P rest { r with buff := none } d) :
    r.fillbuff = (.ok (), r) ∧ r.noBuff = false := by
  have hnb : r.noBuff = false := by
    unfold noBuff
    rw [h1]
    simpa using h2
  refine ⟨?_, hnb⟩
  have hc : r.chunk = none := h3.chunk
  unfold fillbuff
  rw [hc]
  dsimp only
  unfold baseFill
  rw [empty_of_noBuff_false hnb]
  simp

theorem loose_fillLaw (hV : Short V) : FillLaw (Loose L V P rest (σ := σ)) where
  pre := by
    rintro r rem (h | ⟨b, d, rfl, h1, -⟩)
    · exact (gz_fillLaw L hV P rest).pre h
    · rw [h1]; exact ⟨d, rfl⟩
  fill := by
    rintro r rem (h | ⟨b, d, h0, h1, h2, h3, h4, h5⟩)
    · obtain ⟨r', k1, k2, k3⟩ := (gz_fillLaw L hV P rest).fill h
      exact ⟨r', k1, .inl k2, k3⟩
    · obtain ⟨k1, k2⟩ := loose_fill h1 h2 h4
      exact ⟨r, k1, .inr ⟨b, d, h0, h1, h2, h3, h4, h5⟩, fun _ => k2⟩
  empty := by
    rintro r rem (h | ⟨b, d, h0, h1, h2, h3, h4, h5⟩)
    · exact .inl ((gz_fillLaw L hV P rest).empty h)
    · rw [empty_of_noBuff_false (loose_fill h1 h2 h4).2]
      exact .inr ⟨b, d, h0, h1, h2, h3, h4, h5⟩
  take := by
    rintro r rem (h | ⟨b, d, rfl, h1, h2, h3, h4, h5⟩) k hk
    · exact .inl ((gz_fillLaw L hV P rest).take h k hk)
    · rw [h1] at hk ⊢
      simp only [Option.getD_some] at hk ⊢
      rw [List.drop_append_of_le_length hk]
      by_cases hb : b.drop k = []
      · rw [hb]; exact .inl (gz_rebuff h4)
      · refine .inr ⟨b.drop k, d, rfl, rfl, hb, ?_, h4, h5⟩
        have hs : b.drop k <:+ b := List.drop_suffix k b
        rcases List.suffix_or_suffix_of_suffix h3 hs with h | h
        · exact h
        · have hl := h.length_le
          have := List.length_pos_iff.2 hb
          simp only [List.length_singleton] at hl
          rw [h.eq_of_length (by simp only [List.length_singleton]; omega)]
          exact List.suffix_refl _
  bound := by
    rintro r rem (h | ⟨b, d, rfl, h1, h2, h3, h4, h5⟩)
    · exact (gz_fillLaw L hV P rest).bound h
    · have := (gz_fillLaw L hV P rest).bound h4
      unfold BufReader.bound at this ⊢
      rw [h1]
      simp only [Option.getD_none, Option.getD_some, List.length_nil, List.length_append] at this ⊢
      omega

theorem loose_lineLaw (hV : Short V) {m : Nat} (hX : LineLaw (Gz L V P rest (σ := σ)) m) : LineLaw (Loose L V P rest (σ := σ)) m := by
  rintro r rem (h | ⟨b, d, rfl, h1, h2, h3, h4, h5⟩) hnl hl n
  · obtain ⟨s', k1, k2⟩ := hX h hnl hl n
    exact ⟨s', k1, .inl k2⟩
  · refine readline_some_exact (loose_fillLaw hV) (.inr ⟨b, d, rfl, h1, h2, h3, h4, h5⟩) ?_ n
    intro r1 e1
    rw [(loose_fill h1 h2 h4).1] at e1
    cases e1
    left
    rw [h1, takeLine_append, if_pos (h3.subset (by simp))]
    rfl

theorem loose_isSome {r : BufReader σ} {rem : Bytes} (h : Loose L V P rest r rem) : r.decompressor.isSome = true := by
  rcases h with h | ⟨b, d, _, _, _, _, h, _⟩
  · obtain ⟨hist, _, _, _, _, _, hd, _⟩ := h.split
    rw [hd]; rfl
  · obtain ⟨hist, _, _, _, _, _, hd, _⟩ := h.split
    have hd : r.decompressor = _ := hd
    rw [hd]; rfl

theorem loose_nil {r : BufReader σ} (h : Loose L V P rest r []) : Gz L V P rest r [] := by
  rcases h with h | ⟨b, d, h0, _, h2, _⟩
  · exact h
  · exact absurd (List.append_eq_nil_iff.1 h0.symm).1 h2

/-- `read_next_member` somewhere in a member: it does nothing, or goes to the next member, and what is left is in the buffer. -/
theorem loose_join {r : BufReader σ} {rem : Bytes} (h : Loose L V P rest r rem) (hnl : rem = [] ∨ ([10] : Bytes) <:+ rem) :
    r.readNextMember = (false, r) ∨
    (rest ≠ [] ∧ ∃ r', r.readNextMember = (true, r') ∧ (∃ z, P z r.blockSize) ∧
      ∀ z d rest', rest = z ++ rest' → L.Holds z d rest' → P z r.blockSize → Loose L V P rest' r' (rem ++ d)) := by
  have hds := loose_isSome h
  obtain ⟨dc, hdc⟩ := Option.isSome_iff_exists.1 hds
  have hun : r.unused = dc.unused := by simp [BufReader.unused, hdc]
  by_cases hu : r.unused = []
  · left
    rw [hun] at hu
    simp only [readNextMember, hdc, hu, if_true]
  · right
    have h : Gz L V P rest r rem := by
      rcases h with h | ⟨b, d, _, _, _, _, _, h5⟩
      · exact h
      · exact absurd h5 hu
    obtain ⟨hist, z, d, o, dr, srem, hd, hc, hm, hrun, hdo, hs, heq, hrem, hfr, hP, hfb⟩ := h.split
    have hun' := unused_gz L hd
    have hul : L.codec.unused hist ≠ [] := by rw [← hun']; exact hu
    have hsd : r.startingData.getD [] = [] := by
      rcases hfr with h0 | h0
      · rw [h0, L.unused_nil] at hul; exact absurd rfl hul
      · exact h0
    rw [hsd, List.nil_append] at heq
    have hod := L.done_of_unused hm hc hrun heq hul
    have hdr : dr = [] := by
      rw [hdo] at hod
      have := congrArg List.length hod; simp at this; exact this
    rw [hdr, List.append_nil] at hrem
    obtain ⟨o', h1, h2, h3, h4⟩ := hm.feed hc ⟨_, heq⟩
    have hr : rest = r.unused ++ srem := by
      rw [hun', h4]
      rcases List.append_eq_append_iff.1 heq with ⟨a, ha, hb⟩ | ⟨a, ha, hb⟩
      · exfalso; apply hul; rw [h4, ha]; simp
      · rw [ha, hb]; simp
    refine ⟨?_, { r with startingData := some r.unused, numBlockRead := 0, decompType := some .gzip,
                         decompressor := some { kind := .gzip } }, ?_, ⟨z, hP⟩, ?_⟩
    · intro h0; rw [h0] at hr
      exact hu (List.append_eq_nil_iff.1 hr.symm).1
    · have hu' := hu
      rw [hun] at hu'
      simp only [readNextMember, hdc, hu', if_false, initDecomp, h.dtype, hun]
    · intro z2 d2 rest' hz hm2 hP2
      have hgz : ∀ bf : Option Bytes, bf.getD [] = [] → Gz L V P rest' { r with buff := bf, startingData := some r.unused, numBlockRead := 0, decompType := some .gzip, decompressor := some { kind := .gzip } } d2 := by
        intro bf hbf
        refine ⟨rfl, h.chunk, h.block, h.one, [], z2, d2, [], d2, srem, rfl, by simp, hm2, rfl, rfl, hs, ?_, ?_, Or.inl rfl, hP2, fun _ => hbf⟩
        · simp only [Option.getD_some, List.flatten_nil, List.nil_append]; rw [← hr, hz]
        · show d2 = bf.getD [] ++ d2
          rw [hbf]; rfl
      by_cases hr0 : rem = []
      · left
        rw [hr0, List.nil_append]
        exact hgz r.buff (by rw [← hrem, hr0])
      · right
        have hb : r.buff = some rem := by
          cases hb : r.buff with
          | none => rw [hb] at hrem; exact absurd hrem hr0
          | some b => rw [hb] at hrem; rw [hrem]; rfl
        refine ⟨rem, d2, rfl, hb, hr0, hnl.resolve_left hr0, hgz none rfl, ?_⟩
        have := unused_gz L (r := { r with startingData := some r.unused, numBlockRead := 0, decompType := some .gzip, decompressor := some { kind := .gzip } }) (hist := []) rfl
        rw [this, L.unused_nil]

end
end BufReader

namespace ArchiveIter

section
variable {σ : Type} [Zlib] [PyStream σ] [Hashlib] [PyUni] {V : σ → Bytes → Prop} {IsMember : Bytes → Bytes → Prop} {T : Int} {bs : Nat} {Q : Bytes → Prop} {L : LawfulGzip IsMember}
  {io : IterOpts} {m : Nat}

abbrev LzAt (L : LawfulGzip IsMember) (V : σ → Bytes → Prop) (T : Int) (bs : Nat) (Q : Bytes → Prop) (rest : Bytes) : BufReader σ → Bytes → Prop :=
  Loose L (Tells V T) (Sizes bs Q) rest

theorem lzAt_exact (L : LawfulGzip IsMember) (hV : ShortRead V) (rest : Bytes) : ExactRead (LzAt L V T bs Q rest (σ := σ)) :=
  BufReader.exactRead (loose_fillLaw (Tells.short hV))

/-- The bytes of records. -/
abbrev flatR (xs : List (WarcRecord × Bytes)) : Bytes := xs.flatMap (·.1.bytes)

/-- A record that can be loaded. -/
def Fine (io : IterOpts) (m : Nat) (x : WarcRecord × Bytes) : Prop :=
  ItemOk io m (· ≠ some .arc) x.1.item (x.1.Shows io m) (x.1.Judged io) ∧ BlankLines x.1.sep

theorem flatR_nl : ∀ {xs : List (WarcRecord × Bytes)}, (∀ x ∈ xs, BlankLines x.1.sep) → xs = [] ∨ ([10] : Bytes) <:+ flatR xs
  | [], _ => .inl rfl
  | x :: xs, h => by
    right
    rcases flatR_nl (xs := xs) (fun y hy => h y (by simp [hy])) with rfl | h1
    · have := (h x (by simp)).2.1
      simp only [flatR, List.flatMap_cons, List.flatMap_nil, List.append_nil, WarcRecord.bytes]
      exact this.trans (List.suffix_append _ _)
    · simp only [flatR, List.flatMap_cons] at h1 ⊢
      exact h1.trans (List.suffix_append _ _)

theorem flatR_starts {xs : List (WarcRecord × Bytes)} (h : ∀ x ∈ xs, Fine io m x) {kf : Option Format} (hk : kf ≠ some .arc) : Starts (flatR xs) := by
  cases xs with
  | nil => exact .inl rfl
  | cons x xs =>
    right
    obtain ⟨f, hd, h1, _⟩ := (h x (by simp)).1 kf 0 [] hk
    have e : flatR (x :: xs) = x.1.item.head ++ (x.1.item.block ++ (x.1.sep ++ flatR xs)) := by simp [flatR, WarcRecord.item, WarcRecord.bytes]
    rw [e, takeLine_append_of_nl h1.nl]
    exact h1.notBlank

/-- One record in each member. -/
def Single (here : List (WarcRecord × Bytes)) (ms : List (Bytes × List (WarcRecord × Bytes))) : Prop := here.length = 1 ∧ ∀ y ∈ ms, y.2.length = 1

/-- Before a record. -/
structure LTop (L : LawfulGzip IsMember) (V : σ → Bytes → Prop) (T : Int) (bs : Nat) (Q : Bytes → Prop) (io : IterOpts) (raise : Bool) (here : List (WarcRecord × Bytes))
    (ms : List (Bytes × List (WarcRecord × Bytes))) (it : ArchiveIter σ) : Prop where
  base : Calm io (· ≠ some .arc) raise [] it
  view : ReadyAt (LzAt L V T bs Q (ms.flatMap (·.1))) it.reader it.nextLine (flatR here)

/-- In a record. -/
structure LAfter (L : LawfulGzip IsMember) (V : σ → Bytes → Prop) (T : Int) (bs : Nat) (Q : Bytes → Prop) (io : IterOpts) (here : List (WarcRecord × Bytes))
    (ms : List (Bytes × List (WarcRecord × Bytes))) (sep left : Bytes) (it : ArchiveIter σ) : Prop where
  base : Calm io (· ≠ some .arc) false [] it
  gen : it.gen = .yielded
  offered : it.record.isSome = true
  info : it.memberInfo = none
  view : it.raw.View (LzAt L V T bs Q (ms.flatMap (·.1))) left (sep ++ flatR here)

theorem LTop.load (hV : ShortRead V) (hX : ∀ rest, LineLaw (GzAt L V T bs Q rest (σ := σ)) m) {x : WarcRecord × Bytes} {here : List (WarcRecord × Bytes)} {ms : List (Bytes × List (WarcRecord × Bytes))}
    {raise : Bool} {it : ArchiveIter σ} (h : LTop L V T bs Q io raise (x :: here) ms it) (hx : Fine io m x) (fuel : Nat) :
    (raise = true ∧ ∃ it1, genLoop (fuel + 1) it = (.error .nonChunkedGzip, it1)) ∨
    (raise = false ∧ ∃ rec left it1, genLoop (fuel + 1) it = (.ok (), it1) ∧ it1.record = some rec ∧ x.1.Shows io m rec left ∧ LAfter L V T bs Q io here ms x.1.sep left it1) := by
  have e : flatR (x :: here) = x.1.item.head ++ (x.1.item.block ++ (x.1.sep ++ flatR here)) := by simp [flatR, WarcRecord.item, WarcRecord.bytes]
  have hv := h.view
  rw [e] at hv
  obtain ⟨raw, rec, kf, left, k1, k2, k3, k4, _, k6, k7⟩ := nextRecord_item (lzAt_exact L hV _) (loose_lineLaw (Tells.short hV) (hX _)) hx.1 h.base.opts h.base.known h.base.closed hv
  cases raise with
  | true =>
    refine .inl ⟨rfl, ({ it with raw := raw, record := some rec, memberInfo := none, knownFormat := kf, loads := it.loads + 1, gen := .finished } : ArchiveIter σ), ?_⟩
    unfold genLoop
    rw [k1]
    simp only [h.base.calm, if_true]
  | false =>
    refine .inr ⟨rfl, rec, left, ({ it with raw := raw, record := some rec, memberInfo := none, knownFormat := kf, loads := it.loads + 1, gen := .yielded } : ArchiveIter σ), ?_, rfl, k3, ?_⟩
    · unfold genLoop
      rw [k1]
      simp only [h.base.calm, Bool.false_eq_true, if_false]
    · exact ⟨⟨h.base.opts, k2, h.base.closed, h.base.calm, h.base.more, h.base.quiet, fun ha _ h => by cases h; exact k7 ha⟩, rfl, rfl, rfl, k4⟩

/-- `read_to_end`. -/
theorem readToEnd_loose (L : LawfulGzip IsMember) (hV : ShortRead V) {it : ArchiveIter σ} {left sep more rest : Bytes}
    (hr : it.record.isSome = true) (hm : it.memberInfo = none) (hv : it.raw.View (LzAt L V T bs Q rest) left (sep ++ more))
    (hsep : BlankLines sep) (hmore : Starts more) :
    ∃ raw' next off size, it.readToEnd = (.ok (), ({ it with raw := raw', nextLine := next, offset := off, memberInfo := some (it.offset, size) } : ArchiveIter σ)) ∧
      ReadyAt (LzAt L V T bs Q rest) raw'.under next more ∧
      (more = [] → GzEnd L (Tells V T) (Sizes bs Q) rest raw'.under ∧ next = none) := by
  have hW := lzAt_exact (T := T) (bs := bs) (Q := Q) L hV rest
  obtain ⟨raw1, d1, d2, d3⟩ := drain_spec hW (PyStream.bound it.raw + 2) hv (by have := hv.bound hW; omega)
  have hu := d2.under
  rw [List.nil_append] at hu
  have hb := hW.bound hu
  obtain ⟨fuel', r1, b1, b2, b3⟩ := blank_spec hW more (PyStream.bound raw1.under + 2) sep true 0 (it := { it with raw := raw1 })
    hu (white_of_blankLines hsep) (.inr hsep.2.1) (by omega)
  obtain ⟨fuel', rfl⟩ : ∃ k, fuel' = k + 1 := ⟨fuel' - 1, by omega⟩
  have hlast : ∃ next r2, blankLoop (fuel' + 1) false (0 + len sep) (({ it with raw := raw1 } : ArchiveIter σ).setReader r1) =
      (.ok (next, 0 + len sep), (({ it with raw := raw1 } : ArchiveIter σ).setReader r1).setReader r2) ∧
      ReadyAt (LzAt L V T bs Q rest) r2 next more ∧ (more = [] → GzEnd L (Tells V T) (Sizes bs Q) rest r2 ∧ next = none) ∧
      r2.decompressor.isSome = true := by
    by_cases hm0 : more = []
    · subst hm0
      obtain ⟨r2, k1, k2, k3⟩ := gz_readline_last L (Tells.short hV) (loose_nil b2)
      obtain ⟨hist, hd⟩ := k2.decomp
      refine ⟨none, r2, ?_, .inl ⟨rfl, .inl k3⟩, fun _ => ⟨k2, rfl⟩, by rw [hd]; rfl⟩
      rw [blankLoop, reader_setReader]
      simp only [PyStream.readline]
      rw [k1]
      rfl
    · obtain ⟨next, r2, e1, e2, e3, _⟩ := blank_last hW (it := ({ it with raw := raw1 } : ArchiveIter σ).setReader r1) (rest := more)
        (by rw [reader_setReader]; exact b2) hmore fuel' (0 + len sep)
      exact ⟨next, r2, e1, e2, fun h => absurd h hm0, loose_isSome e3⟩
  obtain ⟨next, r2, e1, e2, e3, e4⟩ := hlast
  have hc : consumeBlanklines { it with raw := raw1 } = (.ok (next, len sep), { it with raw := raw1.setUnder r2 }) := by
    unfold consumeBlanklines
    show blankLoop (PyStream.bound raw1.under + 2) true 0 _ = _
    rw [b3]
    have : (true && decide (sep = [])) = false := by simp [hsep.1]
    rw [this, e1, setReader_setReader]
    simp only [Int.zero_add]
    rfl
  have hdn : r2.decompressor.isNone = false := by cases h : r2.decompressor <;> simp_all
  refine ⟨raw1.setUnder r2, next, PyStream.tell r2.stream - r2.remLength - len (next.getD []),
    PyStream.tell r2.stream - r2.remLength - len (next.getD []) - it.offset, ?_, ?_, ?_⟩
  · unfold readToEnd
    have h1 : it.record.isNone = false := by cases h : it.record <;> simp_all
    rw [h1, hm, d1]
    simp only [Option.isSome_none, Bool.false_eq_true, if_false]
    rw [hc]
    simp only [position, reader, RawStream.under_setUnder, hdn, Bool.false_eq_true, if_false, Int.sub_zero]
  · rw [RawStream.under_setUnder]; exact e2
  · rw [RawStream.under_setUnder]; exact e3

/-- From a record to the next one, to the end, or to an error. -/
theorem LAfter.next (hV : ShortRead V) {here : List (WarcRecord × Bytes)} {ms : List (Bytes × List (WarcRecord × Bytes))} {sep left : Bytes} {it : ArchiveIter σ}
    (h : LAfter L V T bs Q io here ms sep left it) (hs : BlankLines sep) (hh : ∀ x ∈ here, Fine io m x) (hms : ∀ y ∈ ms, IsMember y.1 (flatR y.2) ∧ Q y.1 ∧ y.2 ≠ []) :
    (∃ here' ms' raise it' k, here' ≠ [] ∧ here ++ ms.flatMap (·.2) = here' ++ ms'.flatMap (·.2) ∧ (∀ y ∈ ms', y ∈ ms) ∧
      (here = [] ∧ raise = false ∧ (Single here' ms' ↔ ∀ y ∈ ms, y.2.length = 1) ∨ here ≠ [] ∧ (raise = true ∨ ¬ Single here' ms')) ∧ it.next = genLoop (k + 1) it' ∧ LTop L V T bs Q io raise here' ms' it') ∨
    (here = [] ∧ ms = [] ∧ ∃ it', it.next = (.error .stopIteration, it')) := by
  obtain ⟨raw', next, off, size, k1, k2, k3⟩ := readToEnd_loose L hV h.offered h.info h.view hs (flatR_starts hh h.base.known)
  generalize hit : ({ it with raw := raw', nextLine := next, offset := off, memberInfo := some (it.offset, size) } : ArchiveIter σ) = it' at k1
  have hrd : it'.reader = raw'.under := by subst hit; rfl
  have hnx : it'.nextLine = next := by subst hit; rfl
  have hmi : it'.memberInfo.isSome = true := by subst hit; rfl
  have hb : Calm io (· ≠ some .arc) false [] it' := by
    subst hit
    exact ⟨h.base.opts, h.base.known, h.base.closed, h.base.calm, h.base.more, h.base.quiet, h.base.fmt⟩
  clear hit
  rw [← hrd, ← hnx] at k2
  have hdec : it'.reader.decompressor.isSome = true := by
    rcases k2 with ⟨_, k2⟩ | ⟨_, _, k2⟩ <;> exact loose_isSome k2
  have hmain : it.afterRecord = (let (more, r) := it'.reader.readNextMember
      let it := it'.setReader r
      if more then (.ok true, it)
      else if it.emptyRecord then (.ok false, it)
      else (.ok true, { it with raiseInvalidGzip := true })) := by
    unfold afterRecord
    rw [k1]
    simp only [hb.closed, Bool.false_eq_true, if_false, hdec, if_true]
  have hflag : it'.reader.readNextMember = (false, it'.reader) →
      it.next = genLoop (PyStream.bound it'.reader + 1 + 1) { it' with raiseInvalidGzip := true } ∧ Calm io (· ≠ some .arc) true [] { it' with raiseInvalidGzip := true } := by
    intro hn
    refine ⟨next_yielded h.gen ?_, ⟨hb.opts, hb.known, hb.closed, rfl, hb.more, hb.quiet, hb.fmt⟩⟩
    rw [hmain, hn]
    simp only [setReader_self, hb.more, Bool.false_eq_true, if_false]
  have hgo : ∀ {r : BufReader σ}, it'.reader.readNextMember = (true, r) → it.next = genLoop (PyStream.bound (it'.setReader r).reader + 1 + 1) (it'.setReader r) := by
    intro r hn
    refine next_yielded h.gen ?_
    rw [hmain, hn]
    rfl
  have hcalm : ∀ r, Calm io (· ≠ some .arc) false [] (it'.setReader r) := fun r => ⟨hb.opts, hb.known, hb.closed, hb.calm, hb.more, hb.quiet, hb.fmt⟩
  by_cases h0 : here = []
  · subst h0
    obtain ⟨q1, q2⟩ := k3 rfl
    rw [← hrd] at q1
    rw [← hnx] at q2
    rcases gzEnd_next L q1 with ⟨w1, w2⟩ | ⟨w1, r', w2, w3⟩
    · right
      have hms0 : ms = [] := by
        cases ms with
        | nil => rfl
        | cons y ms =>
          exfalso
          have hmag := (L.magic (hms y (by simp)).1).length_le
          have := congrArg List.length w1
          simp only [List.flatMap_cons, List.length_append, List.length_nil, List.length_cons] at this hmag
          omega
      subst hms0
      obtain ⟨f1, f2⟩ := hflag w2
      obtain ⟨s1, j1, j2⟩ := detect_at (lzAt_exact (T := T) (bs := bs) (Q := Q) L hV []).lineRead ({ it' with raiseInvalidGzip := true } : ArchiveIter σ).loadOpts (s := it'.reader) (st := it'.nextLine) k2
      have e : flatR [] = [] := rfl
      rw [e, detect_eof] at j1 j2
      have hu := gz_unused_nil L (loose_nil j2)
      obtain ⟨it2, j3, -⟩ := stop_eof (it := { it' with raiseInvalidGzip := true }) f2.closed (.inr hmi) (load_error j1) (fun _ => hu.2.2) (PyStream.bound it'.reader + 1)
      exact ⟨rfl, rfl, it2, by rw [f1, j3]⟩
    · left
      cases ms with
      | nil => exact absurd rfl w1
      | cons y ms =>
        obtain ⟨p1, p2, p3⟩ := hms y (by simp)
        obtain ⟨nprev, hbs, _⟩ := q1.prev
        refine ⟨y.2, ms, false, it'.setReader r', _, p3, by simp, fun z hz => by simp [hz], .inl ⟨rfl, rfl, by simp [Single]⟩, hgo w2, hcalm r', ?_⟩
        rw [reader_setReader]
        exact .inl ⟨q2, .inl (w3 y.1 (flatR y.2) (ms.flatMap (·.1)) (by simp) (L.holds p1 _) ⟨hbs, p2⟩)⟩
  · left
    have hnl : ([10] : Bytes) <:+ flatR here := (flatR_nl (fun x hx => (hh x hx).2)).resolve_left h0
    have hmem : (10 : UInt8) ∈ flatR here := hnl.subset (by simp)
    have hjoin : it'.reader.readNextMember = (false, it'.reader) ∨
        (ms.flatMap (·.1) ≠ [] ∧ ∃ r', it'.reader.readNextMember = (true, r') ∧ (∃ z, Sizes bs Q z it'.reader.blockSize) ∧
          ∀ z d rest', ms.flatMap (·.1) = z ++ rest' → L.Holds z d rest' → Sizes bs Q z it'.reader.blockSize → ReadyAt (LzAt L V T bs Q rest') r' it'.nextLine (flatR here ++ d)) := by
      rcases k2 with ⟨g1, g2⟩ | ⟨g1, g2, g3⟩
      · rcases loose_join g2 (.inr hnl) with w | ⟨w1, r', w2, w3, w4⟩
        · exact .inl w
        · exact .inr ⟨w1, r', w2, w3, fun z d rest' a b c => .inl ⟨g1, w4 z d rest' a b c⟩⟩
      · have hd : dropLine (flatR here) = [] ∨ ([10] : Bytes) <:+ dropLine (flatR here) := by
          by_cases hd : dropLine (flatR here) = []
          · exact .inl hd
          · right
            have hsf : dropLine (flatR here) <:+ flatR here := ⟨takeLine (flatR here), takeLine_append_dropLine _⟩
            rcases List.suffix_or_suffix_of_suffix hnl hsf with h | h
            · exact h
            · have hl := h.length_le
              have := List.length_pos_iff.2 hd
              simp only [List.length_singleton] at hl
              rw [h.eq_of_length (by simp only [List.length_singleton]; omega)]
              exact List.suffix_refl _
        rcases loose_join g3 hd with w | ⟨w1, r', w2, w3, w4⟩
        · exact .inl w
        · refine .inr ⟨w1, r', w2, w3, fun z d rest' a b c => .inr ⟨?_, ?_, ?_⟩⟩
          · rw [takeLine_append_of_nl hmem]; exact g1
          · intro hc; exact g2 (List.append_eq_nil_iff.1 hc).1
          · rw [dropLine_append_of_nl hmem]; exact w4 z d rest' a b c
    rcases hjoin with w | ⟨w1, r', w2, ⟨_, hbs, _⟩, w4⟩
    · obtain ⟨f1, f2⟩ := hflag w
      exact ⟨here, ms, true, _, _, h0, rfl, fun _ h => h, .inr ⟨h0, .inl rfl⟩, f1, f2, k2⟩
    · cases ms with
      | nil => exact absurd rfl w1
      | cons y ms =>
        obtain ⟨p1, p2, p3⟩ := hms y (by simp)
        refine ⟨here ++ y.2, ms, false, it'.setReader r', _, by simp [h0], by simp, fun z hz => by simp [hz], .inr ⟨h0, .inr ?_⟩, hgo w2, hcalm r', ?_⟩
        · intro hs
          have h1 := hs.1
          have h2 := List.length_pos_iff.2 h0
          have h3 := List.length_pos_iff.2 p3
          rw [List.length_append] at h1
          omega
        rw [reader_setReader]
        have := w4 y.1 (flatR y.2) (ms.flatMap (·.1)) (by simp) (L.holds p1 _) ⟨hbs, p2⟩
        have e : flatR (here ++ y.2) = flatR here ++ flatR y.2 := by simp [flatR]
        rw [e]
        exact this

/-- Reading the blocks of a record. -/
theorem LAfter.readBlocks (hV : ShortRead V) {here : List (WarcRecord × Bytes)} {ms : List (Bytes × List (WarcRecord × Bytes))} {sep : Bytes} {n : Int} (hn : 0 < n) :
    ∀ (fuel : Nat) {left : Bytes} {it : ArchiveIter σ}, LAfter L V T bs Q io here ms sep left it → left.length < fuel →
      ∃ bufs raw', Warcio.readBlocks n fuel it.raw = (bufs, .ok (), raw') ∧ bufs.flatten = left ∧ LAfter L V T bs Q io here ms sep [] { it with raw := raw' }
  | 0, _, _, _, h => by omega
  | fuel + 1, left, it, h, hf => by
    have hcall : (Call.read (some n)).nonneg := by intro k hk; simp only [Call.arg, Option.some.injEq] at hk; omega
    obtain ⟨p, b', raw', k1, k2, k3, _, _, k5, _⟩ := h.view.call (lzAt_exact L hV _) hcall
    have h' : LAfter L V T bs Q io here ms sep b' { it with raw := raw' } :=
      ⟨⟨h.base.opts, h.base.known, h.base.closed, h.base.calm, h.base.more, h.base.quiet, h.base.fmt⟩, h.gen, h.offered, h.info, k3⟩
    unfold Warcio.readBlocks
    simp only [Call.run] at k1
    rw [k1]
    dsimp only
    by_cases hp : p = []
    · rw [if_pos (by simpa using hp)]
      rcases k5 hp with h0 | h0
      · rw [h0] at k2
        have h1 : b' = [] := (List.append_eq_nil_iff.1 k2.symm).2
        rw [h1] at h'
        exact ⟨[], raw', rfl, by rw [h0]; rfl, h'⟩
      · simp only [Call.arg, Option.some.injEq] at h0; omega
    · rw [if_neg (by simpa using hp)]
      have hpo := List.length_pos_iff.2 hp
      have hl := congrArg List.length k2
      simp only [List.length_append] at hl
      obtain ⟨bufs, raw2, m1, m2, m3⟩ := LAfter.readBlocks hV hn fuel h' (by omega)
      dsimp only at m1
      rw [m1]
      exact ⟨p :: bufs, raw2, rfl, by rw [List.flatten_cons, m2, k2], m3⟩

theorem LAfter.iterAll (hV : ShortRead V) {here : List (WarcRecord × Bytes)} {ms : List (Bytes × List (WarcRecord × Bytes))} {sep left : Bytes} {it : ArchiveIter σ} (h : LAfter L V T bs Q io here ms sep left it) :
    ∃ bufs raw', Builder.iterAll it.raw = (bufs, .ok (), raw') ∧ bufs.flatten = left ∧ LAfter L V T bs Q io here ms sep [] { it with raw := raw' } := by
  unfold Builder.iterAll
  rw [ArchiveIter.iterStream_eq]
  refine h.readBlocks hV (by decide) _ ?_
  have := h.view.bound (lzAt_exact L hV _)
  omega

/-- Reading from a record. -/
theorem LAfter.ops (hV : ShortRead V) {here : List (WarcRecord × Bytes)} {ms : List (Bytes × List (WarcRecord × Bytes))} {sep : Bytes} :
    ∀ (ops : List UserOp) {left : Bytes} {it : ArchiveIter σ}, LAfter L V T bs Q io here ms sep left it → (∀ o ∈ ops, ∃ c : Call, o = .call c ∧ c.nonneg) →
      ∃ vs it' left', runOps it ops = (vs, it') ∧ LAfter L V T bs Q io here ms sep left' it'
  | [], left, it, h, _ => ⟨[], it, left, rfl, h⟩
  | o :: ops, left, it, h, ho => by
    obtain ⟨c, rfl, hc⟩ := ho o (by simp)
    obtain ⟨p, b', raw', k1, _, k3, _⟩ := h.view.call (lzAt_exact L hV _) hc
    have h' : LAfter L V T bs Q io here ms sep b' { it with raw := raw' } :=
      ⟨⟨h.base.opts, h.base.known, h.base.closed, h.base.calm, h.base.more, h.base.quiet, h.base.fmt⟩, h.gen, h.offered, h.info, k3⟩
    obtain ⟨vs, it2, left2, m1, m2⟩ := LAfter.ops hV ops h' (fun o h => ho o (by simp [h]))
    exact ⟨_, it2, left2, by simp only [runOps, UserOp.run, k1, m1]; rfl, m2⟩

/-- Iterating over members that do not hold one record each. -/
theorem iterate_loose {m : Nat} (hV : ShortRead V) (hX : ∀ rest, LineLaw (GzAt L V T bs Q rest (σ := σ)) m) :
    ∀ (xs : List (WarcRecord × Bytes)), (∀ x ∈ xs, Fine io m x) →
      ∀ (here : List (WarcRecord × Bytes)) (ms : List (Bytes × List (WarcRecord × Bytes))), xs = here ++ ms.flatMap (·.2) → here ≠ [] → (∀ y ∈ ms, IsMember y.1 (flatR y.2) ∧ Q y.1 ∧ y.2 ≠ []) →
      ∀ (it it0 : ArchiveIter σ) (raise : Bool) (k : Nat), it.next = genLoop (k + 1) it0 → LTop L V T bs Q io raise here ms it0 → (raise = true ∨ ¬ Single here ms) →
      ∀ plan : List (List UserOp), (∀ ops ∈ plan, ∀ o ∈ ops, ∃ c : Call, o = .call c ∧ c.nonneg) → xs.length ≤ plan.length →
      ∃ (ys zs : List (WarcRecord × Bytes)) (rs more : List Step), xs = ys ++ zs ∧ zs ≠ [] ∧ iterate it plan = rs ++ .error .nonChunkedGzip :: more ∧
        Each (fun x s => ∃ rec left vs, s = .ok (some rec, vs) ∧ x.1.Shows io m rec left) ys rs
  | [], _, here, _, h, hh, _, _, _, _, _, _, _, _, _, _, _ => absurd (List.append_eq_nil_iff.1 h.symm).1 hh
  | x :: xs, _, [], _, _, h, _, _, _, _, _, _, _, _, _, _, _ => absurd rfl h
  | x :: xs, _, y :: here, ms, _, _, _, _, _, _, _, _, _, _, [], _, h => by simp at h
  | x :: xs, hfine, y :: here, ms, hxs, _, hms, it, it0, raise, k, hnx, ht, hbad, ops :: plan, hplan, hlen => by
    simp only [List.cons_append, List.cons.injEq] at hxs
    obtain ⟨rfl, hxs⟩ := hxs
    have hx := hfine x (by simp)
    rcases ht.load hV hX hx k with ⟨k0, it1, k1⟩ | ⟨k0, rec, left, it1, k1, k2, k3, k4⟩
    · refine ⟨[], x :: xs, [], iterate it1 plan, rfl, List.cons_ne_nil _ _, ?_, .nil⟩
      rw [iterate, hnx, k1]
      rfl
    · have hbad := hbad.resolve_left (by rw [k0]; decide)
      obtain ⟨vs, it1', left', q1, q3⟩ := k4.ops hV ops (hplan ops (by simp))
      have hit : iterate it (ops :: plan) = .ok (some rec, vs) :: iterate it1' plan := by
        rw [iterate, hnx, k1]
        dsimp only
        rw [q1, k2]
      have hhere : ∀ y ∈ here, Fine io m y := fun y hy => hfine y (by simp [hxs, hy])
      rcases q3.next hV hx.2 hhere hms with ⟨here', ms', raise', it2, k', j1, j2, j3, j0, j4, j5⟩ | ⟨j1, j2, it2, j3⟩
      · have hxs' : xs = here' ++ ms'.flatMap (·.2) := hxs.trans j2
        obtain ⟨ys, zs, rs, more, i1, i2, i3, i4⟩ := iterate_loose hV hX xs (fun y hy => hfine y (by simp [hy])) here' ms' hxs' j1 (fun y hy => hms y (j3 y hy)) it1' it2 raise' k' j4 j5
          (by
            rcases j0 with ⟨j0, _, j7⟩ | ⟨_, j0⟩
            · exact .inr (fun s => hbad ⟨by rw [j0]; rfl, j7.1 s⟩)
            · exact j0) plan (fun o h => hplan o (by simp [h])) (by simp only [List.length_cons] at hlen; omega)
        exact ⟨x :: ys, zs, _ :: rs, more, by rw [i1]; rfl, i2, by rw [hit, i3]; rfl, .cons ⟨rec, left, vs, rfl, k3⟩ i4⟩
      · exact absurd ⟨by rw [j1]; rfl, by rw [j2]; simp⟩ hbad

end
end ArchiveIter

section
variable {σ : Type} [Zlib] [PyStream σ] [Hashlib] [PyUni] [Deflater]

open Writer Builder ArchiveIter Recompressor

/-- Writing a record: the bytes, and what becomes of its stream. -/
theorem copy_step_in {f : Bytes → Bytes} (H : Hashlib.hash (lit "sha1") = some f) (c : BuilderCfg) {I : Bytes → RawStream (BufReader σ) → Prop}
    (hI : ∀ {d raw}, I d raw → ∃ bufs raw', Builder.iterAll raw = (bufs, .ok (), raw') ∧ bufs.flatten = d ∧ I [] raw') {raw0 : RawStream (BufReader σ)} {left : Bytes}
    (h : I left raw0) {rec : Record (RawStream (BufReader σ))} (hr : rec.rawStream = raw0) {hb : Bytes}
    (hh : HttpPart c.filter (OutRecord.ofRead rec) hb) (hl : LengthsFit (OutRecord.ofRead rec) hb left) (hv : rec.recHeaders.protocol ≠ []) {o : OutFile} (ho : o.AtEnd) :
    ∃ (ws : List Bytes) (r' : OutRecord (RawStream (BufReader σ))), write c (OutRecord.ofRead rec) o = (.ok (), r', o.extended (if c.gzip then Deflater.outFrom [] ws ++ Deflater.flush ws else ws.flatten)) ∧
      ws.flatten = recordBytes rec.recHeaders.protocol rec.recHeaders.statusline (writtenHeaders f (OutRecord.ofRead rec) hb left) (blockOf (OutRecord.ofRead rec) hb left) ∧
      ∃ left', I left' (putBack raw0 r') := by
  letI := rawHolding I hI
  have hraw : (OutRecord.ofRead rec).raw = .own raw0 := by rw [← hr]; rfl
  have hd : holds (OutRecord.ofRead rec).raw left := by rw [hraw]; exact h
  obtain ⟨ws, r', h1, h2, h3, h4⟩ := write_eq H c (OutRecord.ofRead rec) hd hh hl ho
  refine ⟨ws, r', h1, ?_, ?_⟩
  · have p1 : r'.recHeaders.protocol = rec.recHeaders.protocol := by rw [h2]; rfl
    have p2 : r'.recHeaders.statusline = rec.recHeaders.statusline := by rw [h2]; rfl
    have p3 : r'.recHeaders.headers = writtenHeaders f (OutRecord.ofRead rec) hb left := by rw [h2]
    rw [h3, toBytes_headText (by rw [p1]; exact hv), p1, p2, p3]
    rfl
  · obtain ⟨raw, orig, bufs, s, m1, m2, m3, m4⟩ := h4.streams
    obtain ⟨bufs0, s0, i1, -, i3⟩ := hI h
    have i4 : Builder.iterAll (RecStream.own raw0) = (bufs0, .ok (), .own s0) := by rw [iterAll_own, i1]
    rw [hraw] at m2
    have e1 : r'.raw = (r'.raw, r'.orig).1 := rfl
    have e2 : r'.orig = (r'.raw, r'.orig).2 := rfl
    rcases m2 with ⟨q1, q2⟩ | ⟨bufs', s', q1, q2⟩
    · have q2 : raw = .own raw0 := by
        rcases q2 with q2 | ⟨p, s, -, q2⟩
        · exact q2
        · cases q2
      have q1 : orig = none := q1
      subst q1 q2
      rw [i4] at m3
      cases m3
      split at m4
      · rw [m4] at e1
        exact ⟨left, by unfold putBack; rw [e1]; exact h⟩
      · rw [m4] at e1
        exact ⟨[], by unfold putBack; rw [e1]; exact i3⟩
    · rw [i4] at q2
      cases q2
      subst q1
      split at m4
      · rw [m4] at e1 e2
        cases raw with
        | own x => exact ⟨left, by unfold putBack; rw [e1]; exact m1⟩
        | mem x => exact ⟨[], by unfold putBack; rw [e1, e2]; exact i3⟩
        | closed => exact absurd m1 (fun h => h)
      · rw [m4] at e1
        exact ⟨[], by unfold putBack; rw [e1]; exact i3⟩

open Props in
/-- Copying: all records if there is one in each member, otherwise an error. -/
theorem copyLoop_loose {V : σ → Bytes → Prop} {IsMember IsOut : Bytes → Bytes → Prop} {T : Int} {bs : Nat} {Q : Bytes → Prop} {L : LawfulGzip IsMember} {io : IterOpts} {m : Nat}
    (D : LawfulDeflater IsOut) {f : Bytes → Bytes} (H : Hashlib.hash (lit "sha1") = some f) {c : BuilderCfg} (hf : c.filter = some)
    (hn : io.noRecordParse = false) (he : io.ensureHttpHeaders = false) (hV : ShortRead V) (hX : ∀ rest, LineLaw (GzAt L V T bs Q rest (σ := σ)) m) :
    ∀ (xs : List (WarcRecord × Bytes)), (∀ x ∈ xs, Fine io m x ∧ x.1.Shaped m x.2) → xs ≠ [] →
      ∀ (here : List (WarcRecord × Bytes)) (ms : List (Bytes × List (WarcRecord × Bytes))), xs = here ++ ms.flatMap (·.2) → here ≠ [] → (∀ y ∈ ms, IsMember y.1 (flatR y.2) ∧ Q y.1 ∧ y.2 ≠ []) →
      ∀ (fuel : Nat) (it it0 : ArchiveIter σ) (raise : Bool) (k : Nat) (o : OutFile) (n : Nat), it.next = genLoop (k + 1) it0 → LTop L V T bs Q io raise here ms it0 → xs.length < fuel → o.AtEnd →
      ((raise = true ∨ ¬ Single here ms) ∧ ∃ out', copyLoop c fuel it o n = (.error .nonChunkedGzip, out')) ∨
      ∃ out : List (Bytes × WarcRecord), (raise = false ∧ Single here ms) ∧ Copied IsOut f c.gzip xs out ∧ copyLoop c fuel it o n = (.ok (n + xs.length), o.extended (out.flatMap (·.1)))
  | [], _, h, _, _, _, _, _, _, _, _, _, _, _, _, _, _, _, _ => absurd rfl h
  | x :: xs, _, _, [], _, _, h, _, _, _, _, _, _, _, _, _, _, _, _ => absurd rfl h
  | x :: xs, _, _, y :: here, ms, _, _, _, 0, _, _, _, _, _, _, _, _, h, _ => by omega
  | x :: xs, hfine, _, y :: here, ms, hxs, _, hms, fuel + 1, it, it0, raise, k, o, n, hnx, ht, hfu, ho => by
    simp only [List.cons_append, List.cons.injEq] at hxs
    obtain ⟨rfl, hxs⟩ := hxs
    have hx := hfine x (by simp)
    rcases ht.load hV hX hx.1 k with ⟨k0, it1, k1⟩ | ⟨k0, rec, left, it1, k1, k2, k3, k4⟩
    · left
      refine ⟨.inl k0, o, ?_⟩
      unfold copyLoop
      rw [hnx, k1]
    · have hwx := hx.2
      obtain ⟨hb, p1, p2, p3, p4⟩ := read_parts hwx k3 hn he it1.raw
      have hreg := read_regular hwx k3 it1.raw
      have hrew := read_rewritten hwx k3 f it1.raw p1 p2
      obtain ⟨ws, r', q1, q2, left', q3⟩ := copy_step_in (rec := withRaw rec it1.raw) (I := fun d raw => LAfter L V T bs Q io here ms x.1.sep d { it1 with raw := raw }) (raw0 := it1.raw) H c
        (fun h => h.iterAll hV) k4 rfl (hf ▸ p3) p4 hreg.protocol_ne ho
      generalize hz : (if c.gzip = true then Deflater.outFrom [] ws ++ Deflater.flush ws else ws.flatten) = z at q1
      have hcur : it1.current = some (withRaw rec it1.raw) := by rw [current_eq, k2]; rfl
      have hcopy : copyLoop c (fuel + 1) it o n = copyLoop c fuel { it1 with raw := putBack it1.raw r' } (o.extended z) (n + 1) := by
        rw [copyLoop, hnx, k1]
        dsimp only
        rw [hcur]
        dsimp only
        rw [q1]
      have hst : Props.Stored IsOut c.gzip z (fileRecord f hb left (OutRecord.ofRead (withRaw rec it1.raw))) := by
        unfold Props.Stored
        rw [fileRecord_bytes, ← hz]
        have q2' : ws.flatten = recordBytes (OutRecord.ofRead (withRaw rec it1.raw)).recHeaders.protocol (OutRecord.ofRead (withRaw rec it1.raw)).recHeaders.statusline
          (writtenHeaders f (OutRecord.ofRead (withRaw rec it1.raw)) hb left) (blockOf (OutRecord.ofRead (withRaw rec it1.raw)) hb left) := q2
        rw [← q2']
        split
        · exact D ws
        · rfl
      have hhere : ∀ y ∈ here, Fine io m y := fun y hy => (hfine y (by simp [hxs, hy])).1
      rcases q3.next hV hx.1.2 hhere hms with ⟨here', ms', raise', it2, k', j1, j2, j3, j0, j4, j5⟩ | ⟨j1, j2, it2, j3⟩
      · have hxs' : xs = here' ++ ms'.flatMap (·.2) := hxs.trans j2
        rcases copyLoop_loose D H hf hn he hV hX xs (fun y hy => hfine y (by simp [hy])) (by rw [hxs']; simp [j1]) here' ms' hxs' j1 (fun y hy => hms y (j3 y hy)) fuel _ it2 raise' k' (o.extended z) (n + 1) j4 j5
          (by simp only [List.length_cons] at hfu; omega) (extended_atEnd _ _) with ⟨o0, out', o1⟩ | ⟨out, o0, o1, o2⟩
        · refine .inl ⟨.inr ?_, out', by rw [hcopy, o1]⟩
          rintro ⟨s1, s2⟩
          rcases j0 with ⟨j0, j6, j7⟩ | ⟨j0, -⟩
          · rcases o0 with o0 | o0
            · rw [j6] at o0; cases o0
            · exact o0 (j7.2 s2)
          · exact j0 (List.length_eq_zero_iff.1 (by simpa using s1))
        · refine .inr ⟨(z, _) :: out, ⟨k0, ?_⟩, .cons ⟨hrew, hst⟩ o1, ?_⟩
          · rcases j0 with ⟨j0, -, j7⟩ | ⟨-, j0 | j0⟩
            · exact ⟨by rw [j0]; rfl, j7.1 o0.2⟩
            · rw [o0.1] at j0; cases j0
            · exact absurd o0.2 j0
          rw [hcopy, o2, extended_extended]
          simp only [List.flatMap_cons, List.length_cons, Nat.add_assoc, Nat.add_comm 1]
      · right
        have hxs0 : xs = [] := by rw [hxs, j1, j2]; rfl
        subst hxs0
        refine ⟨[(z, _)], ⟨k0, by rw [j1]; rfl, by rw [j2]; simp⟩, .cons ⟨hrew, hst⟩ .nil, ?_⟩
        obtain ⟨fuel, rfl⟩ : ∃ g, fuel = g + 1 := ⟨fuel - 1, by simp only [List.length_cons] at hfu; omega⟩
        rw [hcopy, copyLoop, j3]
        simp

end
end Warcio

import Verif.Spec.GzCopy
import Verif.Proofs.GzTools
import Verif.Proofs.CopyParts

/-!
# Copying and extracting the records of any gzip members
-/

set_option linter.unusedSectionVars false

namespace Warcio

open Writer Builder ArchiveIter Recompressor BufReader StatusAndHeaders

section
variable {σ : Type} [Zlib] [PyStream σ] [Hashlib] [PyUni] {V : σ → Bytes → Prop} {IsMember : Bytes → Bytes → Prop} {T : Int} {bs : Nat} {Q : Bytes → Prop} {io : IterOpts}
variable {L : LawfulGzip IsMember} {n : Nat} {kf : Option Format} {off : Int} {ws : List Bytes} {z : Bytes} {p : Portion} {ms : List (Bytes × Bytes)}

/-- Reading blocks up to the end of the record, without digest checks. -/
theorem readBlocks_gz (hV : ShortRead V) (hc : io.checkDigests = none) {m : Int} (hm : 0 < m) : ∀ (fuel : Nat) {it : ArchiveIter σ} {left : Bytes}, GAfter L V T bs Q io n kf off ws z p ms left it → left.length < fuel →
    ∃ bufs raw', Warcio.readBlocks m fuel it.raw = (bufs, .ok (), raw') ∧ bufs.flatten = left ∧ GAfter L V T bs Q io n kf off ws z p ms [] { it with raw := raw' }
  | 0, _, _, _, h => by omega
  | fuel + 1, it, left, h, hf => by
    have hcall : (UserOp.call (.read (some m))).nonneg := by intro k hk; simp only [Call.arg, Option.some.injEq] at hk; omega
    obtain ⟨v, it', left', k1, k2, k3⟩ := h.op hV hcall
    have k2 := k2.resolve_left (fun h => by rw [hc] at h; cases h.1)
    obtain ⟨q, rfl, k4, k5, -⟩ := k2
    simp only [UserOp.run, Call.run] at k1
    unfold Warcio.readBlocks
    generalize PyStream.read it.raw (some m) = x at k1
    obtain ⟨x, raw⟩ := x
    cases x with
    | error e => simp [Except.map] at k1
    | ok b =>
      simp only [Except.map, Prod.mk.injEq, Except.ok.injEq, UserVal.bytes.injEq] at k1
      obtain ⟨rfl, rfl⟩ := k1
      dsimp only
      by_cases hp : b = []
      · rw [if_pos (by simpa using hp)]
        rcases k5 hp with h0 | h0
        · rw [h0] at k4
          have h1 : left' = [] := (List.append_eq_nil_iff.1 k4.symm).2
          rw [h1] at k3
          exact ⟨[], raw, rfl, by rw [h0]; rfl, k3⟩
        · simp only [Call.arg, Option.some.injEq] at h0; omega
      · rw [if_neg (by simpa using hp)]
        have hpo := List.length_pos_iff.2 hp
        have hl := congrArg List.length k4
        simp only [List.length_append] at hl
        obtain ⟨bufs, raw2, m1, m2, m3⟩ := readBlocks_gz hV hc hm fuel k3 (by omega)
        dsimp only at m1
        rw [m1]
        exact ⟨b :: bufs, raw2, rfl, by rw [List.flatten_cons, m2, k4], m3⟩

theorem readAll_gz (hV : ShortRead V) (hc : io.checkDigests = none) {m : Int} (hm : 0 < m) {it : ArchiveIter σ} {left : Bytes} (h : GAfter L V T bs Q io n kf off ws z p ms left it) :
    ∃ bufs raw', readAllBlocks m it.raw = (bufs, .ok (), raw') ∧ bufs.flatten = left ∧ GAfter L V T bs Q io n kf off ws z p ms [] { it with raw := raw' } := by
  refine readBlocks_gz hV hc hm _ h ?_
  have hW := gzAt_exact (T := T) (bs := bs) (Q := Q) L hV (membersOf ms)
  rcases h.state with ⟨_, _, _, h4⟩ | ⟨rfl, _⟩
  · have := h4.bound hW; omega
  · simp

theorem _root_.Warcio.ArchiveIter.GAfter.iterAll (hV : ShortRead V) (hc : io.checkDigests = none) {it : ArchiveIter σ} {left : Bytes} (h : GAfter L V T bs Q io n kf off ws z p ms left it) :
    ∃ bufs raw', Builder.iterAll it.raw = (bufs, .ok (), raw') ∧ bufs.flatten = left ∧ GAfter L V T bs Q io n kf off ws z p ms [] { it with raw := raw' } := by
  unfold Builder.iterAll
  rw [ArchiveIter.iterStream_eq]
  exact readAll_gz hV hc (by decide) h

/-- The stream of a record, as a payload stream. -/
@[reducible]
def rawHolding (I : Bytes → RawStream (BufReader σ) → Prop) (hI : ∀ {d raw}, I d raw → ∃ bufs raw', Builder.iterAll raw = (bufs, .ok (), raw') ∧ bufs.flatten = d ∧ I [] raw') : Holding (RawStream (BufReader σ)) where
  holds raw d := I d raw
  sends := by
    intro raw d h
    obtain ⟨bufs, raw', k1, k2, -⟩ := hI h
    exact ⟨bufs, raw', k1, k2⟩
  rewind := by
    intro raw d p s1 h ht hs
    cases hs

variable [Deflater]

/-- Writing a record: the bytes, and what becomes of its stream. -/
theorem copy_step_of {f : Bytes → Bytes} (H : Hashlib.hash (lit "sha1") = some f) (c : BuilderCfg) {I : Bytes → RawStream (BufReader σ) → Prop}
    (hI : ∀ {d raw}, I d raw → ∃ bufs raw', Builder.iterAll raw = (bufs, .ok (), raw') ∧ bufs.flatten = d ∧ I [] raw') {raw0 : RawStream (BufReader σ)} {left : Bytes}
    (h : I left raw0) {cur : Record (RawStream (BufReader σ))} (hr : cur.rawStream = raw0) {rec : Record Unit} (hcur : cur.plain = rec) {hb : Bytes}
    (hh : HttpPart c.filter (OutRecord.ofRead rec) hb) (hq : Readable rec) {o : OutFile} (ho : o.AtEnd) :
    ∃ (us : List Bytes) (hs : List Header) (r' : OutRecord (RawStream (BufReader σ))), write c (OutRecord.ofRead cur) o = (.ok (), r', o.extended (if c.gzip then Deflater.outFrom [] us ++ Deflater.flush us else us.flatten)) ∧
      CopiedRecord f c.filter rec left hb hs us.flatten ∧
      ∃ left', I left' (putBack raw0 r') := by
  subst hcur
  letI := rawHolding I hI
  have hraw : (OutRecord.ofRead cur).raw = .own raw0 := by rw [← hr]; rfl
  have hd : holds (OutRecord.ofRead cur).raw left := by rw [hraw]; exact h
  obtain ⟨k, us, r', h1, h2, h3, fit, dec, raw, orig, bufs, s, m1, m2, m3, m4⟩ := writeTo_given H c (OutRecord.ofRead cur) hd (httpPart_read (a := OutRecord.ofRead cur.plain) (b := OutRecord.ofRead cur) rfl hh) hq.payload hq.length
    { out := o, gz := if c.gzip then some [] else none }
  refine ⟨us, writtenWith f (OutRecord.ofRead cur.plain) hb left k, r', ?_, ?_, ?_⟩
  · unfold write
    rw [h1]
    cases c.gzip with
    | false =>
      simp only [Bool.false_eq_true, if_false]
      rw [foldl_write_plain us o ho]
      rfl
    | true =>
      simp only [if_true]
      rw [foldl_write_gz us [] o ho]
      simp only [Sink.flush, List.nil_append]
      rw [OutFile.write_end rfl]
      simp [OutFile.extended]
  · rw [h3, h2]
    refine copied_record hh hq.first (fun hl => fit ?_) dec
    cases hl with
    | unknown a b => exact .unknown a b
    | payload n a b c d => exact .payload n a b c d
    | block a b => exact .block a b
  · obtain ⟨bufs0, s0, i1, -, i3⟩ := hI h
    have i4 : Builder.iterAll (RecStream.own raw0) = (bufs0, .ok (), .own s0) := by rw [iterAll_own, i1]
    rw [hraw] at m2
    have e1 : r'.raw = (r'.raw, r'.orig).1 := rfl
    have e2 : r'.orig = (r'.raw, r'.orig).2 := rfl
    rcases m2 with ⟨q1, q2⟩ | ⟨bufs', s', q1, q2⟩
    · have q2 : raw = .own raw0 := by
        rcases q2 with q2 | ⟨p, s, -, q2⟩
        · exact q2
        · cases q2
      have q1 : orig = none := q1
      subst q1 q2
      rw [i4] at m3
      cases m3
      split at m4
      · rw [m4] at e1
        exact ⟨left, by unfold putBack; rw [e1]; exact h⟩
      · rw [m4] at e1
        exact ⟨[], by unfold putBack; rw [e1]; exact i3⟩
    · rw [i4] at q2
      cases q2
      subst q1
      split at m4
      · rw [m4] at e1 e2
        cases raw with
        | own x => exact ⟨left, by unfold putBack; rw [e1]; exact m1⟩
        | mem x => exact ⟨[], by unfold putBack; rw [e1, e2]; exact i3⟩
        | closed => exact absurd m1 (fun h => h)
      · rw [m4] at e1
        exact ⟨[], by unfold putBack; rw [e1]; exact i3⟩

/-- The copy of any members. -/
theorem copyLoop_gz {f : Bytes → Bytes} (H : Hashlib.hash (lit "sha1") = some f) (D : LawfulDeflater IsMember) (hV : ShortRead V) {m : Nat} (hX : ∀ rest, LineLaw (GzAt L V T bs Q rest (σ := σ)) m) (c : BuilderCfg)
    (hc : io.checkDigests = none) (ha : io.arc2warc = true) :
    ∀ (fuel : Nat) {n : Nat} {off : Int} {ws : List Bytes} {z data : Bytes} {ms : List (Bytes × Bytes)} {it it0 : ArchiveIter σ} {k : Nat} {o : OutFile} (count : Nat), it.next = genLoop (k + 1) it0 →
    GTop L V T bs Q io n none off ws z data ms it0 → ms.length + 1 < fuel → o.AtEnd → ¬ Murky io m n ((z, data) :: ms) →
    ∃ x rs y, copyLoop c fuel it o count = (x.map (fun _ => count + rs.length), o.extended y) ∧ GzCopied io f c.filter m n ((z, data) :: ms) x rs ∧ Outputs IsMember c rs y
  | 0, _, _, _, _, _, _, _, _, _, _, _, _, _, h, _, _ => by omega
  | fuel + 1, n, off, ws, z, data, ms, it, it0, k, o, count, hn, ht, hf, ho, hmk => by
    have none : ∀ e, (.error e, o) = ((Except.error e : Except PyErr Unit).map (fun _ => count + ([] : List Bytes).length), o.extended []) := by
      intro e
      obtain ⟨b, p⟩ := o
      have ho : p = b.length := ho
      simp [OutFile.extended, ho, Except.map]
    have nil : Outputs IsMember c [] [] := by
      unfold Outputs
      split
      · exact ⟨[], .nil, rfl⟩
      · rfl
    have hread := next_readable it
    rcases ht.load hV hX k with ⟨p, rec, left, it1, k1, k2, rfl, k4, k4', k5, k6, k7, -⟩ | ⟨e, it1, k1, k2, k3', k3⟩ | ⟨k1, k2⟩
    · rw [if_pos ha] at k7
      rw [hn, k1] at hread
      obtain ⟨rec', r1, r2⟩ := hread rfl
      rw [k2] at r1
      cases r1
      unfold copyLoop
      rw [hn, k1]
      dsimp only
      have hcur : it1.current = some { format := rec.format, recType := rec.recType, recHeaders := rec.recHeaders, rawStream := it1.raw, httpHeaders := rec.httpHeaders, contentType := rec.contentType, length := rec.length, payloadLength := rec.payloadLength, checker := rec.checker } := by
        unfold ArchiveIter.current
        rw [k2]
        rfl
      rw [hcur]
      dsimp only
      rcases httpPart_or c.filter (OutRecord.ofRead rec) with ⟨hb, hh⟩ | ⟨h, e, g1, g2, g3⟩
      · obtain ⟨us, hs, r', s1, s2, left', s3⟩ := copy_step_of H c (I := fun d raw => GAfter L V T bs Q io (n + 1) Option.none off ws z p ms d { it1 with raw := raw }) (raw0 := it1.raw) (fun h => h.iterAll hV hc) k7 (cur := { format := rec.format, recType := rec.recType, recHeaders := rec.recHeaders, rawStream := it1.raw, httpHeaders := rec.httpHeaders, contentType := rec.contentType, length := rec.length, payloadLength := rec.payloadLength, checker := rec.checker }) rfl rfl hh r2 ho
        rw [s1]
        dsimp only
        have glue : ∀ {x : Except PyErr Unit} {rs : List Bytes} {z' : Bytes}, copyLoop c fuel { it1 with raw := putBack it1.raw r' } (o.extended (if c.gzip then Deflater.outFrom [] us ++ Deflater.flush us else us.flatten)) (count + 1) =
              (x.map (fun _ => count + 1 + rs.length), (o.extended (if c.gzip then Deflater.outFrom [] us ++ Deflater.flush us else us.flatten)).extended z') → Outputs IsMember c rs z' →
            copyLoop c fuel { it1 with raw := putBack it1.raw r' } (o.extended (if c.gzip then Deflater.outFrom [] us ++ Deflater.flush us else us.flatten)) (count + 1) =
              (x.map (fun _ => count + (us.flatten :: rs).length), o.extended ((if c.gzip then Deflater.outFrom [] us ++ Deflater.flush us else us.flatten) ++ z')) ∧
            Outputs IsMember c (us.flatten :: rs) ((if c.gzip then Deflater.outFrom [] us ++ Deflater.flush us else us.flatten) ++ z') := by
          intro x rs z' t1 t3
          constructor
          · rw [t1]
            refine Prod.ext ?_ (by simp [OutFile.extended])
            show Except.map _ x = Except.map _ x
            congr 1
            funext _
            simp only [List.length_cons]
            omega
          · unfold Outputs at t3 ⊢
            cases hg : c.gzip with
            | false =>
              rw [hg] at t3
              simp only [Bool.false_eq_true, if_false] at t3 ⊢
              rw [t3]; rfl
            | true =>
              rw [hg] at t3
              simp only [if_true] at t3 ⊢
              obtain ⟨zs, t3, rfl⟩ := t3
              exact ⟨_ :: zs, .cons (D us) t3, rfl⟩
        obtain ⟨fuel, rfl⟩ : ∃ f, fuel = f + 1 := ⟨fuel - 1, by omega⟩
        have stop : ∀ {e it3 it4 k'}, ArchiveIter.next { it1 with raw := putBack it1.raw r' } = genLoop (k' + 1) it3 → genLoop (k' + 1) it3 = (.error e, it4) → ∀ (o : OutFile) cnt, o.AtEnd →
            copyLoop c (fuel + 1) { it1 with raw := putBack it1.raw r' } o cnt = ((if e = .stopIteration then .ok () else .error e : Except PyErr Unit).map (fun _ => cnt + ([] : List Bytes).length), o.extended []) := by
          intro e it3 it4 k' h1 h2 o cnt ho
          unfold copyLoop
          rw [h1, h2]
          obtain ⟨b, p⟩ := o
          have ho : p = b.length := ho
          cases e <;> simp [OutFile.extended, ho, Except.map]
        by_cases hrs : resumed p.tail = []
        · rcases s3.next hV with ⟨z', data', ms', it3, k', rfl, q0, q1, q2⟩ | ⟨it3, k', rfl, q1, q2⟩ | ⟨_, q1⟩ | ⟨_, hq, _⟩
          · obtain ⟨x, rs, y, t1, t2, t3⟩ := copyLoop_gz H D hV hX c hc ha (fuel + 1) (o := o.extended (if c.gzip then Deflater.outFrom [] us ++ Deflater.flush us else us.flatten)) (count + 1) q1 q2 (by simp only [List.length_cons] at hf; omega) rfl
              (fun h => hmk (.later n z p _ rec k4 hrs h))
            obtain ⟨g1, g2⟩ := glue t1 t3
            exact ⟨x, us.flatten :: rs, _, g1, .record n z p _ rec left hb hs _ x rs k4 k4' k5 (fun h => k6 (.inr h)) s2 hrs t2, g2⟩
          · obtain ⟨e, it4, r1, r2, -⟩ := glast_ends hV hX q2 k'
            have := r2 hrs
            subst this
            obtain ⟨g1, g2⟩ := glue (stop q1 r1 _ _ rfl) nil
            exact ⟨_, us.flatten :: [], _, g1, .record n z p _ rec left hb hs _ _ [] k4 k4' k5 (fun h => k6 (.inr h)) s2 hrs (.nil _), g2⟩
          · exact absurd hrs q1
          · rw [hc] at hq; cases hq
        · by_cases hms : ms = []
          · subst hms
            rcases s3.next hV with ⟨z', data', ms', it3, k', h0, _⟩ | ⟨it3, k', _, q1, q2⟩ | ⟨q1, _⟩ | ⟨_, hq, _⟩
            · cases h0
            · obtain ⟨e, it4, r1, -, r2⟩ := glast_ends hV hX q2 k'
              obtain ⟨g1, g2⟩ := glue (stop q1 r1 _ _ rfl) nil
              exact ⟨_, us.flatten :: [], _, g1, .last n z p rec left hb hs _ _ k4 k4' k5 (fun h => k6 (.inr h)) s2 hrs r2, g2⟩
            · exact absurd rfl q1
            · rw [hc] at hq; cases hq
          · exact absurd (.several n z p ms rec k4 hrs hms) hmk
      · refine ⟨.error e, [], [], ?_, .stuck n z p ms rec left h e k4 k4' g1 g3, nil⟩
        have hp : write c (OutRecord.ofRead ({ format := rec.format, recType := rec.recType, recHeaders := rec.recHeaders, rawStream := it1.raw, httpHeaders := rec.httpHeaders, contentType := rec.contentType, length := rec.length, payloadLength := rec.payloadLength, checker := rec.checker } : Record (RawStream (BufReader σ)))) o =
            (.error e, { OutRecord.ofRead ({ format := rec.format, recType := rec.recType, recHeaders := rec.recHeaders, rawStream := it1.raw, httpHeaders := rec.httpHeaders, contentType := rec.contentType, length := rec.length, payloadLength := rec.payloadLength, checker := rec.checker } : Record (RawStream (BufReader σ))) with httpHeaders := some (h.toAsciiBytes c.filter).2 }, o) := by
          have hpr : prepareHttp c.filter (OutRecord.ofRead ({ format := rec.format, recType := rec.recType, recHeaders := rec.recHeaders, rawStream := it1.raw, httpHeaders := rec.httpHeaders, contentType := rec.contentType, length := rec.length, payloadLength := rec.payloadLength, checker := rec.checker } : Record (RawStream (BufReader σ)))) =
              (.error e, { OutRecord.ofRead ({ format := rec.format, recType := rec.recType, recHeaders := rec.recHeaders, rawStream := it1.raw, httpHeaders := rec.httpHeaders, contentType := rec.contentType, length := rec.length, payloadLength := rec.payloadLength, checker := rec.checker } : Record (RawStream (BufReader σ))) with httpHeaders := some (h.toAsciiBytes c.filter).2 }) := by
            have g1 : rec.httpHeaders = some h := g1
            unfold prepareHttp OutRecord.ofRead
            dsimp only
            rw [g1]
            dsimp only
            rw [g2]
            unfold computeHeadersBuffer
            generalize h.toAsciiBytes c.filter = y at g3
            obtain ⟨y, h'⟩ := y
            dsimp only at g3
            subst g3
            rfl
          unfold write writeTo
          rw [hpr]
        rw [hp]
        exact none e
    · refine ⟨_, [], [], ?_, .over n z data ms e k3 k3', nil⟩
      unfold copyLoop
      rw [hn, k1]
      by_cases he : e = .stopIteration
      · subst he
        rw [if_pos rfl]
        obtain ⟨b, p⟩ := o
        have ho : p = b.length := ho
        simp [OutFile.extended, ho, Except.map]
      · rw [if_neg he]
        have := none e
        cases e <;> first | exact absurd rfl he | exact this
    · exact absurd (.hollow n z data ms k1 k2) hmk

end
end Warcio

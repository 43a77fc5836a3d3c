import Verif.Proofs.TameIter
import Verif.Proofs.Holding
import Verif.Model.Tools

/-!
# The tools end on any input
-/

set_option linter.unusedSectionVars false

namespace Warcio

open Builder Writer

section
variable {σ : Type} [PyStream σ] [Tame σ]

theorem readBlocks_uses (n : Int) : ∀ (fuel : Nat) (s : σ), pot s < fuel → pot (readBlocks n fuel s).2.2 + (readBlocks n fuel s).1.flatten.length ≤ pot s ∧ (readBlocks n fuel s).2.1 ≠ .error .outOfFuel
  | 0, _, h => by omega
  | fuel + 1, s, h => by
    unfold readBlocks
    cases hr : PyStream.read s (some n) with
    | mk x s1 =>
      obtain ⟨h1, h2⟩ := tame_read hr
      cases x with
      | error e => exact ⟨by simp only [List.flatten_nil, List.length_nil]; omega, (fun h => h2 (by cases h; rfl))⟩
      | ok b =>
        dsimp only
        have h1 : pot s1 + b.length ≤ pot s := h1
        split
        · exact ⟨by simp only [List.flatten_nil, List.length_nil]; omega, (fun h => by cases h)⟩
        · rename_i hb
          have : 0 < b.length := List.length_pos_iff.2 (by simpa using hb)
          obtain ⟨i1, i2⟩ := readBlocks_uses n fuel s1 (by omega)
          generalize readBlocks n fuel s1 = y at *
          obtain ⟨bs, y, s2⟩ := y
          dsimp only at *
          refine ⟨?_, i2⟩
          rw [List.flatten_cons, List.length_append]
          omega

theorem readAllBlocks_uses (n : Int) (s : σ) : pot (readAllBlocks n s).2.2 + (readAllBlocks n s).1.flatten.length ≤ pot s ∧ (readAllBlocks n s).2.1 ≠ .error .outOfFuel :=
  readBlocks_uses n _ s (by have := Tame.bound s; omega)

theorem iterStream_eq : ∀ (fuel : Nat) (s : σ), iterStream fuel s = readBlocks 16384 fuel s
  | 0, _ => rfl
  | fuel + 1, s => by
    unfold iterStream readBlocks
    cases hr : PyStream.read s (some 16384) with
    | mk x s1 =>
      cases x with
      | error e => rfl
      | ok b =>
        dsimp only
        rw [iterStream_eq fuel s1]

theorem iterAll_uses (s : σ) : pot (iterAll s).2.2 + (iterAll s).1.flatten.length ≤ pot s ∧ (iterAll s).2.1 ≠ .error .outOfFuel := by
  unfold iterAll
  rw [iterStream_eq]
  exact readBlocks_uses _ _ s (by have := Tame.bound s; omega)

end

/-! ## Writing a record that was read -/

section
variable {σ : Type} [Hashlib] [PyStream σ] [Tame σ]

/-- What the record's own stream still delivers. -/
def potOwn : RecStream (RawStream σ) → Nat
  | .own s => pot s
  | _ => 0

theorem recIter_uses (s : RecStream (RawStream σ)) : potOwn (iterAll s).2.2 ≤ potOwn s ∧ (iterAll s).2.1 ≠ .error .outOfFuel := by
  cases s with
  | own s =>
    rw [iterAll_own]
    exact ⟨by have := (iterAll_uses s).1; show pot (iterAll s).2.2 ≤ pot s; omega, (iterAll_uses s).2⟩
  | mem f =>
    rw [iterAll_mem]
    exact ⟨Nat.zero_le _, (iterAll_uses f).2⟩
  | closed => exact ⟨Nat.le_refl _, (fun h => by cases h)⟩

/-- All that the record's streams still deliver is at most `P`. -/
structure Within (P : Nat) (r : OutRecord (RawStream σ)) : Prop where
  raw : potOwn r.raw ≤ P
  orig : ∀ s, r.orig = some (some s) → potOwn s ≤ P

theorem encodeAscii_calm {s : Str} {e : PyErr} (h : encodeAscii s = .error e) : e ≠ .outOfFuel := by
  unfold encodeAscii at h
  split at h
  · cases h
  · cases h; exact (fun h => by cases h)

theorem toAsciiBytes_calm {h h' : StatusAndHeaders} {flt : Header → Option Header} {e : PyErr} (k : h.toAsciiBytes flt = (.error e, h')) : e ≠ .outOfFuel := by
  unfold StatusAndHeaders.toAsciiBytes at k
  split at k
  · cases k
  · dsimp only at k
    split at k
    · cases k
    · rename_i k'; cases k; exact encodeAscii_calm k'

theorem computeHeadersBuffer_calm {h h' : StatusAndHeaders} {flt : Header → Option Header} {e : PyErr} (k : h.computeHeadersBuffer flt = (.error e, h')) : e ≠ .outOfFuel := by
  unfold StatusAndHeaders.computeHeadersBuffer at k
  split at k
  · cases k
  · rename_i k'; cases k; exact toAsciiBytes_calm k'

theorem prepareHttp_within {P : Nat} {flt : Header → Option Header} {r : OutRecord (RawStream σ)} (h : Within P r) :
    Within P (prepareHttp flt r).2 ∧ (prepareHttp flt r).1 ≠ .error .outOfFuel := by
  unfold prepareHttp
  split
  · exact ⟨h, (fun h => by cases h)⟩
  · split
    · exact ⟨h, (fun h => by cases h)⟩
    · rename_i x _ _
      cases hx : x.computeHeadersBuffer flt with
      | mk y x' =>
        refine ⟨⟨h.raw, h.orig⟩, ?_⟩
        intro he
        dsimp only at he
        subst he
        exact computeHeadersBuffer_calm hx rfl

theorem headersForDigest_within {P : Nat} {flt : Header → Option Header} {b : Bool} {r : OutRecord (RawStream σ)} (h : Within P r) :
    Within P (headersForDigest flt b r).2 ∧ (headersForDigest flt b r).1 ≠ .error .outOfFuel := by
  unfold headersForDigest
  split
  · exact ⟨h, (fun h => by cases h)⟩
  · split
    · exact ⟨h, (fun h => by cases h)⟩
    · split
      · split
        · exact ⟨⟨h.raw, h.orig⟩, (fun h => by cases h)⟩
        · rename_i hx
          exact ⟨⟨h.raw, h.orig⟩, (fun h => by cases h; exact computeHeadersBuffer_calm hx rfl)⟩
      · exact ⟨h, (fun h => by cases h)⟩

theorem digesterIf_calm {b : Bool} : digesterIf b ≠ .error .outOfFuel := by
  unfold digesterIf Digester.new
  split
  · split
    · exact (fun h => by cases h)
    · exact (fun h => by cases h)
  · exact (fun h => by cases h)

theorem seek_within {s s' : RecStream (RawStream σ)} {p : Int} (h : PyFile.seek s p = .ok s') : potOwn s' = 0 := by
  cases s with
  | own s => cases h
  | mem f =>
    have h : (PyFile.seek f p).map (RecStream.mem (σ := RawStream σ)) = .ok s' := h
    cases hx : PyFile.seek f p with
    | error e => rw [hx] at h; cases h
    | ok f' => rw [hx] at h; cases h; rfl
  | closed => cases h

theorem seek_calm {s : RecStream (RawStream σ)} {p : Int} {e : PyErr} (h : PyFile.seek s p = .error e) : e ≠ .outOfFuel := by
  cases s with
  | own s => cases h; exact (fun h => by cases h)
  | mem f =>
    have h : (PyFile.seek f p).map (RecStream.mem (σ := RawStream σ)) = .error e := h
    cases hx : PyFile.seek f p with
    | error e' =>
      rw [hx] at h
      cases h
      have hx : (if p < 0 then .error .valueError else f.seek p.toNat) = .error e := hx
      split at hx
      · cases hx; exact (fun h => by cases h)
      · unfold FileObj.seek at hx
        split at hx
        · cases hx
        · cases hx; exact (fun h => by cases h)
    | ok f' => rw [hx] at h; cases h
  | closed => cases h; exact (fun h => by cases h)

variable [PyUni]

theorem ensureDigest_within {P : Nat} {flt : Header → Option Header} {b p : Bool} {r : OutRecord (RawStream σ)} (h : Within P r) :
    ((ensureDigest flt r b p).1 = .ok () → Within P (ensureDigest flt r b p).2) ∧ (ensureDigest flt r b p).1 ≠ .error .outOfFuel := by
  unfold ensureDigest
  dsimp only
  split
  · rename_i hx; exact ⟨(fun h => by cases h), (fun h => by cases h; exact digesterIf_calm hx)⟩
  · rename_i hx _; exact ⟨(fun h => by cases h), (fun h => by cases h; exact digesterIf_calm hx)⟩
  · split
    · exact ⟨(fun _ => h), (fun h => by cases h)⟩
    · have h0 : ∀ q s, rewindable r = some (q, s) → potOwn s = 0 := by
        intro q s hq
        unfold rewindable at hq
        split at hq
        · cases hq
        · split at hq
          · cases hq
          · split at hq
            · cases hq
            · rename_i hk; cases hq
              exact seek_within hk
      cases hq : rewindable r with
      | none =>
        dsimp only
        obtain ⟨d1, d2⟩ := headersForDigest_within (flt := flt) (b := (b && !Loader.truthy (r.recHeaders.getHeader (lit "WARC-Block-Digest")))) h
        generalize headersForDigest flt _ _ = y at *
        obtain ⟨y, r1⟩ := y
        cases y with
        | error e => exact ⟨(fun h => by cases h), (fun h => d2 (by cases h; rfl))⟩
        | ok buff =>
          dsimp only at d1 ⊢
          obtain ⟨i1, i2⟩ := recIter_uses r1.raw
          generalize iterAll r1.raw = z at *
          obtain ⟨bufs, z, s⟩ := z
          cases z with
          | error e => exact ⟨(fun h => by cases h), (fun h => i2 (by cases h; rfl))⟩
          | ok u =>
            dsimp only at i1 ⊢
            refine ⟨fun _ => ⟨Nat.zero_le _, ?_⟩, (fun h => by cases h)⟩
            intro s' hs
            cases hs
            exact Nat.le_trans i1 d1.raw
      | some ps =>
        obtain ⟨pos, s0⟩ := ps
        have hw : Within P { r with raw := s0 } := ⟨by show potOwn s0 ≤ P; rw [h0 _ _ hq]; exact Nat.zero_le _, h.orig⟩
        dsimp only
        obtain ⟨d1, d2⟩ := headersForDigest_within (flt := flt) (b := (b && !Loader.truthy (r.recHeaders.getHeader (lit "WARC-Block-Digest")))) hw
        generalize headersForDigest flt _ _ = y at *
        obtain ⟨y, r1⟩ := y
        cases y with
        | error e => exact ⟨(fun h => by cases h), (fun h => d2 (by cases h; rfl))⟩
        | ok buff =>
          dsimp only at d1 ⊢
          obtain ⟨i1, i2⟩ := recIter_uses r1.raw
          generalize iterAll r1.raw = z at *
          obtain ⟨bufs, z, s⟩ := z
          cases z with
          | error e => exact ⟨(fun h => by cases h), (fun h => i2 (by cases h; rfl))⟩
          | ok u =>
            dsimp only at i1 ⊢
            cases hk : PyFile.seek s pos with
            | error e => exact ⟨(fun h => by cases h), (fun h => by cases h; exact seek_calm hk rfl)⟩
            | ok s2 =>
              refine ⟨fun _ => ⟨?_, d1.orig⟩, (fun h => by cases h)⟩
              show potOwn s2 ≤ P
              rw [seek_within hk]
              exact Nat.zero_le _

theorem complete_within {P : Nat} {flt : Header → Option Header} {r : OutRecord (RawStream σ)} (h : Within P r) :
    ((complete flt r).1 = .ok () → Within P (complete flt r).2) ∧ (complete flt r).1 ≠ .error .outOfFuel := by
  unfold complete
  split
  · exact ensureDigest_within h
  · dsimp only
    generalize (StatusAndHeaders.removeHeader _ (lit "Content-Type")).2 = hs
    obtain ⟨e1, e2⟩ := ensureDigest_within (flt := flt) (b := true) (p := true) (r := { r with recHeaders := hs }) (P := P) ⟨h.raw, h.orig⟩
    generalize ensureDigest flt { r with recHeaders := hs } true true = y at *
    obtain ⟨y, r1⟩ := y
    cases y with
    | error e => exact ⟨(fun h => by cases h), (fun h => e2 (by cases h; rfl))⟩
    | ok u => exact ⟨(fun _ => ⟨(e1 rfl).raw, (e1 rfl).orig⟩), (fun h => by cases h)⟩

theorem restoreStream_within {P : Nat} {r : OutRecord (RawStream σ)} (h : Within P r) : Within P (restoreStream r) := by
  unfold restoreStream
  split
  · exact h
  · exact ⟨Nat.zero_le _, h.orig⟩
  · rename_i s hs
    exact ⟨h.orig s hs, (fun s h => by cases h)⟩

variable [Deflater]

theorem writePayload_within {P : Nat} {r : OutRecord (RawStream σ)} {out : Sink} (h : Within P r) :
    ((writePayload r out).1 = .ok () → Within P (writePayload r out).2.1) ∧ (writePayload r out).1 ≠ .error .outOfFuel := by
  unfold writePayload
  split
  · exact ⟨(fun _ => h), (fun h => by cases h)⟩
  · obtain ⟨i1, i2⟩ := recIter_uses r.raw
    generalize iterAll r.raw = z at *
    obtain ⟨bufs, z, s⟩ := z
    dsimp only at i1 i2 ⊢
    exact ⟨(fun _ => restoreStream_within ⟨Nat.le_trans i1 h.raw, h.orig⟩), i2⟩

theorem writeTo_within {P : Nat} {c : BuilderCfg} {r : OutRecord (RawStream σ)} {out : Sink} (h : Within P r) :
    ((writeTo c r out).1 = .ok () → Within P (writeTo c r out).2.1) ∧ (writeTo c r out).1 ≠ .error .outOfFuel := by
  unfold writeTo
  obtain ⟨a1, a2⟩ := prepareHttp_within (flt := c.filter) h
  generalize prepareHttp c.filter r = y at *
  obtain ⟨y, r1⟩ := y
  cases y with
  | error e => exact ⟨(fun h => by cases h), (fun h => a2 (by cases h; rfl))⟩
  | ok u =>
    dsimp only at a1 ⊢
    obtain ⟨b1, b2⟩ := complete_within (flt := c.filter) a1
    generalize complete c.filter r1 = y at *
    obtain ⟨y, r2⟩ := y
    cases y with
    | error e => exact ⟨(fun h => by cases h), (fun h => b2 (by cases h; rfl))⟩
    | ok u =>
      have b1 := b1 rfl
      dsimp only at b1 ⊢
      cases hl : actualLength r2 with
      | error e =>
        refine ⟨(fun h => by cases h), fun h => ?_⟩
        cases h
        unfold actualLength at hl
        split at hl
        · split at hl
          · cases hl
          · split at hl <;> cases hl
        · cases hl
      | ok n =>
        dsimp only
        generalize finalHeaders r2.contentType n r2.recHeaders = H
        have c1 : Within P { r2 with length := n, recHeaders := H } := ⟨b1.raw, b1.orig⟩
        have key := fun out1 => writePayload_within (out := out1) c1
        generalize (if Loader.truthyHeaders _ = true then _ else _ : Sink) = out1
        have key := key out1
        generalize writePayload ({ r2 with length := n, recHeaders := H } : OutRecord (RawStream σ)) out1 = y at *
        obtain ⟨y, r4, out2⟩ := y
        cases y with
        | error e => exact ⟨(fun h => by cases h), (fun h => key.2 (by cases h; rfl))⟩
        | ok u => exact ⟨(fun _ => key.1 rfl), (fun h => by cases h)⟩

theorem write_within {P : Nat} {c : BuilderCfg} {r : OutRecord (RawStream σ)} {out : OutFile} (h : Within P r) :
    ((write c r out).1 = .ok () → Within P (write c r out).2.1) ∧ (write c r out).1 ≠ .error .outOfFuel := by
  unfold write
  dsimp only
  exact writeTo_within h

end

/-! ## The loops -/

section
variable {σ : Type} [Zlib] [TameZlib] [Hashlib] [PyUni] [PyStream σ] [Tame σ]

open ArchiveIter

/-- Another stream in place of the record's. -/
theorem raw_stays (it : ArchiveIter σ) {raw : RawStream (BufReader σ)} (h : pot raw ≤ pot it.raw) : Stays it { it with raw := raw } :=
  Same.stays (b := { it with raw := raw }) ⟨rfl, rfl, rfl, rfl, rfl, rfl⟩ h

theorem copyLoop_uses [Deflater] (c : BuilderCfg) : ∀ (fuel : Nat) (it : ArchiveIter σ) (out : OutFile) (count : Nat), Sound it → it.left < fuel →
    (Recompressor.copyLoop c fuel it out count).1 ≠ .error .outOfFuel ∧ ∀ n, (Recompressor.copyLoop c fuel it out count).1 = .ok n → n ≤ count + it.left
  | 0, _, _, _, _, h => by omega
  | fuel + 1, it, out, count, hs, hf => by
    unfold Recompressor.copyLoop
    obtain ⟨n1, n2, n3⟩ := next_uses it hs
    generalize it.next = x at *
    obtain ⟨x, it1⟩ := x
    cases x with
    | error e =>
      dsimp only at *
      by_cases he : e = .stopIteration
      · subst he
        exact ⟨(fun h => by cases h), (fun n h => by cases h; omega)⟩
      · constructor
        · cases e <;> first | exact absurd rfl he | exact absurd rfl n1 | exact (fun h => by cases h)
        · intro n h
          cases e <;> first | exact absurd rfl he | cases h
    | ok u =>
      obtain ⟨k1, k2⟩ := n2 u rfl
      dsimp only at *
      cases hc : it1.current with
      | none => exact ⟨(fun h => by cases h), (fun n h => by cases h)⟩
      | some rec =>
        dsimp only
        have hr : rec.rawStream = it1.raw := by
          unfold ArchiveIter.current at hc
          cases hrec : it1.record with
          | none => rw [hrec] at hc; cases hc
          | some r => rw [hrec] at hc; cases hc; rfl
        obtain ⟨w1, w2⟩ := write_within (P := pot it1.raw) (c := c) (r := OutRecord.ofRead rec) (out := out) ⟨by rw [← hr]; exact Nat.le_refl _, (fun s h => by cases h)⟩
        generalize write c (OutRecord.ofRead rec) out = y at *
        obtain ⟨y, r', out'⟩ := y
        cases y with
        | error e => exact ⟨(fun h => w2 (by cases h; rfl)), (fun n h => by cases h)⟩
        | ok u =>
          have w1 := w1 rfl
          dsimp only at *
          have hp : pot (Recompressor.putBack it1.raw r') ≤ pot it1.raw := by
            unfold Recompressor.putBack
            split
            · rename_i s h; have := w1.raw; rw [h] at this; exact this
            · split
              · rename_i s h; exact w1.orig _ h
              · exact Nat.le_refl _
          have st := raw_stays it1 hp
          have := st.left
          obtain ⟨i1, i2⟩ := copyLoop_uses c fuel { it1 with raw := Recompressor.putBack it1.raw r' } out' (count + 1) (st.sound k2) (by omega)
          exact ⟨i1, fun n h => by have := i2 n h; omega⟩

theorem getField_uses (filename : Str) (rec : Record Unit) (name : Str) (it : ArchiveIter σ) :
    Stays it (Indexer.getField filename rec name it).2 ∧ (Indexer.getField filename rec name it).1 ≠ .error .outOfFuel := by
  have hmap : ∀ {α β : Type} {x : Except PyErr α} {f : α → β}, x ≠ .error .outOfFuel → x.map f ≠ .error .outOfFuel := by
    intro α β x f hx h
    cases x with
    | ok v => simp [Except.map] at h
    | error e => simp [Except.map] at h; exact hx (by rw [h])
  unfold Indexer.getField
  split
  · exact ⟨(getMember_uses _ it).1, hmap (getMember_uses _ it).2⟩
  · split
    · exact ⟨(getMember_uses _ it).1, hmap (getMember_uses _ it).2⟩
    · split
      · exact ⟨Stays.refl _, (fun h => by cases h)⟩
      · split
        · split
          · exact ⟨Stays.refl _, (fun h => by cases h)⟩
          · exact ⟨Stays.refl _, (fun h => by cases h)⟩
        · split
          · split
            · exact ⟨Stays.refl _, (fun h => by cases h)⟩
            · exact ⟨Stays.refl _, (fun h => by cases h)⟩
          · exact ⟨Stays.refl _, (fun h => by cases h)⟩

theorem entry_uses (filename : Str) (rec : Record Unit) : ∀ (names : List Str) (index : List (Str × Str)) (it : ArchiveIter σ),
    Stays it (Indexer.entry filename rec names index it).2 ∧ (Indexer.entry filename rec names index it).1 ≠ .error .outOfFuel
  | [], _, it => ⟨Stays.refl _, (fun h => by cases h)⟩
  | name :: names, index, it => by
    unfold Indexer.entry
    obtain ⟨g1, g2⟩ := getField_uses filename rec name it
    generalize Indexer.getField filename rec name it = y at *
    obtain ⟨y, it1⟩ := y
    cases y with
    | error e => exact ⟨g1, (fun h => g2 (by cases h; rfl))⟩
    | ok v =>
      cases v with
      | none =>
        obtain ⟨i1, i2⟩ := entry_uses filename rec names index it1
        exact ⟨g1.trans i1, i2⟩
      | some v =>
        obtain ⟨i1, i2⟩ := entry_uses filename rec names (Indexer.dictSet name v index) it1
        exact ⟨g1.trans i1, i2⟩

theorem indexLoop_uses (filename : Str) (fields : List Str) : ∀ (fuel : Nat) (it : ArchiveIter σ), Sound it → it.left < fuel →
    (Indexer.indexLoop filename fields fuel it).1 ≠ .error .outOfFuel ∧ (Indexer.indexLoop filename fields fuel it).2.length ≤ it.left
  | 0, _, _, h => by omega
  | fuel + 1, it, hs, hf => by
    unfold Indexer.indexLoop
    obtain ⟨n1, n2, n3⟩ := next_uses it hs
    generalize it.next = x at *
    obtain ⟨x, it1⟩ := x
    cases x with
    | error e =>
      dsimp only at *
      cases e <;> first | exact absurd rfl n1 | exact ⟨(fun h => by cases h), Nat.zero_le _⟩
    | ok u =>
      obtain ⟨k1, k2⟩ := n2 u rfl
      dsimp only at *
      cases hc : it1.record with
      | none => exact ⟨(fun h => by cases h), Nat.zero_le _⟩
      | some rec =>
        dsimp only
        obtain ⟨g1, g2⟩ := entry_uses filename rec fields [] it1
        generalize Indexer.entry filename rec fields [] it1 = y at *
        obtain ⟨y, it2⟩ := y
        cases y with
        | error e => exact ⟨(fun h => g2 (by cases h; rfl)), Nat.zero_le _⟩
        | ok index =>
          have := g1.left
          dsimp only at *
          obtain ⟨i1, i2⟩ := indexLoop_uses filename fields fuel it2 (g1.sound k2) (by omega)
          generalize Indexer.indexLoop filename fields fuel it2 = z at *
          obtain ⟨z, es⟩ := z
          exact ⟨i1, by dsimp only at *; rw [List.length_cons]; omega⟩

/-! ## Content streams -/

theorem readLoop_stream {τ : Type} [PyStream τ] [Tame τ] (fuel : Nat) (length : Option Int) (acc : Bytes) (r : BufReader τ) :
    pot (BufReader.readLoop fuel length acc r).2.stream ≤ pot r.stream := by
  induction fuel generalizing length acc r with
  | zero => exact Nat.le_refl _
  | succ fuel ih =>
    unfold BufReader.readLoop
    split
    · have hF := (BufReader.fillbuff_pot r).stream
      generalize r.fillbuff = x at *
      obtain ⟨x, r1⟩ := x
      cases x with
      | error er => exact hF
      | ok u =>
        dsimp only at hF ⊢
        have he := (BufReader.empty_pot r1).2.1
        generalize r1.empty = E at *
        obtain ⟨e, r2⟩ := E
        dsimp only at he ⊢
        split
        · rw [he]; exact hF
        · have hb : (r2.buffRead length).2.stream = r2.stream := rfl
          have := ih (length.map (· - len (r2.buffRead length).1)) (acc ++ (r2.buffRead length).1) (r2.buffRead length).2
          rw [hb, he] at this
          exact Nat.le_trans this hF
    · exact Nat.le_refl _

instance {τ : Type} [PyStream τ] [Tame τ] : Tame (ContentStream τ) where
  pot s := match s with
    | .raw s => pot s
    | .buffered r => pot r
  read s n := by
    cases s with
    | raw s => exact Tame.read s n
    | buffered r => exact Tame.read r n
  readline s n := by
    cases s with
    | raw s => exact Tame.readline s n
    | buffered r => exact Tame.readline r n
  bound s := by
    cases s with
    | raw s => exact Tame.bound s
    | buffered r => exact Tame.bound r

theorem content_read_below {τ : Type} [PyStream τ] [Tame τ] (s : ContentStream τ) (n : Option Int) : pot (PyStream.read s n).2.below ≤ pot s.below := by
  cases s with
  | raw s => exact Nat.le_trans (Nat.le_add_right _ _) (Tame.read s n).1
  | buffered r => exact readLoop_stream _ n [] r

theorem content_blocks_below {τ : Type} [PyStream τ] [Tame τ] (n : Int) : ∀ (fuel : Nat) (s : ContentStream τ), pot (readBlocks n fuel s).2.2.below ≤ pot s.below
  | 0, _ => Nat.le_refl _
  | fuel + 1, s => by
    unfold readBlocks
    have h1 := content_read_below s (some n)
    generalize PyStream.read s (some n) = y at *
    obtain ⟨y, s1⟩ := y
    cases y with
    | error e => exact h1
    | ok b =>
      dsimp only at h1 ⊢
      split
      · exact h1
      · exact Nat.le_trans (content_blocks_below n fuel s1) h1

theorem contentStream_below {τ : Type} {rec : Record τ} {s : ContentStream τ} (h : rec.contentStream = .ok s) : s.below = rec.rawStream := by
  have hnew : ∀ {t : Option DType} {r : BufReader τ}, BufReader.new rec.rawStream 16384 t = .ok r → r.stream = rec.rawStream := by
    intro t r hr
    unfold BufReader.new at hr
    split at hr
    · cases hr; rfl
    · split at hr
      · cases hr; rfl
      · cases hr
  have hmap : ∀ {x : Except PyErr (BufReader τ)} {s : ContentStream τ}, x.map .buffered = .ok s → ∃ r, x = .ok r ∧ s = .buffered r := by
    intro x s hx
    cases x with
    | ok v => exact ⟨v, rfl, by cases hx; rfl⟩
    | error e => cases hx
  unfold Record.contentStream at h
  split at h
  · cases h; rfl
  · split at h
    · cases h; rfl
    · dsimp only at h
      split at h
      · obtain ⟨r, h1, rfl⟩ := hmap h
        unfold BufReader.newChunked at h1
        split at h1
        · rename_i r0 hr; cases h1; exact (hnew hr : r0.stream = _)
        · cases h1
      · split at h
        · obtain ⟨r, h1, rfl⟩ := hmap h
          exact hnew h1
        · cases h; rfl

theorem contentStream_calm {τ : Type} {rec : Record τ} : rec.contentStream ≠ .error .outOfFuel := by
  have hnew : ∀ {t : Option DType}, BufReader.new rec.rawStream 16384 t ≠ .error .outOfFuel := by
    intro t hr
    unfold BufReader.new at hr
    split at hr
    · cases hr
    · split at hr <;> cases hr
  have hmap : ∀ {x : Except PyErr (BufReader τ)}, x ≠ .error .outOfFuel → x.map ContentStream.buffered ≠ .error .outOfFuel := by
    intro x hx h
    cases x with
    | ok v => cases h
    | error e => exact hx (by cases h; rfl)
  unfold Record.contentStream
  split
  · exact (fun h => by cases h)
  · split
    · exact (fun h => by cases h)
    · dsimp only
      split
      · refine hmap ?_
        unfold BufReader.newChunked
        split
        · exact (fun h => by cases h)
        · rename_i hr; exact (fun h => by cases h; exact hnew hr)
      · split
        · exact hmap hnew
        · exact (fun h => by cases h)

theorem current_raw {it : ArchiveIter σ} {rec : Record (RawStream (BufReader σ))} (hc : it.current = some rec) : rec.rawStream = it.raw := by
  unfold ArchiveIter.current at hc
  cases hrec : it.record with
  | none => rw [hrec] at hc; cases hc
  | some r => rw [hrec] at hc; cases hc; rfl

theorem examine_uses {it : ArchiveIter σ} {rec : Record (RawStream (BufReader σ))} (hc : it.current = some rec) :
    Stays it (Checker.examine it rec).2 ∧ (Checker.examine it rec).1 ≠ .error .outOfFuel := by
  unfold Checker.examine
  cases hs : rec.contentStream with
  | error e => exact ⟨Stays.refl _, (fun h => by cases h; exact contentStream_calm hs)⟩
  | ok s =>
    dsimp only
    have h1 := content_blocks_below 1048576 (PyStream.bound s + 2) s
    have h2 := (readAllBlocks_uses 1048576 s).2
    unfold readAllBlocks at *
    rw [contentStream_below hs, current_raw hc] at h1
    generalize readBlocks 1048576 (PyStream.bound s + 2) s = y at *
    obtain ⟨bufs, y, s1⟩ := y
    have st := raw_stays it h1
    cases y with
    | error e => exact ⟨st, (fun h => h2 (by cases h; rfl))⟩
    | ok u =>
      dsimp only at *
      obtain ⟨g1, g2⟩ := getMember_uses (·.1) ({ it with raw := s1.below } : ArchiveIter σ)
      unfold ArchiveIter.getRecordOffset
      generalize getMember (·.1) ({ it with raw := s1.below } : ArchiveIter σ) = z at *
      obtain ⟨z, it2⟩ := z
      cases z with
      | error e => exact ⟨st.trans g1, (fun h => g2 (by cases h; rfl))⟩
      | ok off => exact ⟨st.trans g1, (fun h => by cases h)⟩

theorem checkLoop_uses (verbose : Bool) (name : Str) : ∀ (fuel : Nat) (it : ArchiveIter σ) (printed : Bool), Sound it → it.left < fuel →
    (Checker.checkLoop verbose name fuel it printed).1 ≠ .error .outOfFuel
  | 0, _, _, _, h => by omega
  | fuel + 1, it, printed, hs, hf => by
    unfold Checker.checkLoop
    obtain ⟨n1, n2, n3⟩ := next_uses it hs
    generalize it.next = x at *
    obtain ⟨x, it1⟩ := x
    cases x with
    | error e =>
      dsimp only at *
      cases e <;> first | exact absurd rfl n1 | exact (fun h => by cases h)
    | ok u =>
      obtain ⟨k1, k2⟩ := n2 u rfl
      dsimp only at *
      cases hc : it1.current with
      | none => exact (fun h => by cases h)
      | some rec =>
        dsimp only
        obtain ⟨g1, g2⟩ := examine_uses hc
        generalize Checker.examine it1 rec = y at *
        obtain ⟨y, it2⟩ := y
        cases y with
        | error e => exact (fun h => g2 (by cases h; rfl))
        | ok v =>
          have := g1.left
          dsimp only at *
          exact checkLoop_uses verbose name fuel it2 _ (g1.sound k2) (by omega)

theorem output_uses (rec : Record (RawStream (BufReader σ))) (p h : Bool) : (Extractor.output rec p h).1 ≠ .error .outOfFuel := by
  unfold Extractor.output
  split
  · split
    · rename_i hs; exact (fun h => by cases h; exact contentStream_calm hs)
    · rename_i s _; exact (readAllBlocks_uses _ s).2
  · dsimp only
    split
    · exact (fun h => by cases h)
    · exact (readAllBlocks_uses _ rec.rawStream).2

end
end Warcio

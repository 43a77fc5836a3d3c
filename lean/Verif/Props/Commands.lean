import Verif.Props.GzCopy
import Verif.Props.Cli

/-!
# Property C99: the commands on any files

Specification: `CheckedFiles`, `IndexedFiles` in `Verif/Spec/GzTools.lean`, `CopiedParts`, `GzCopied` in `Verif/Spec/CopyParts.lean`
and `Verif/Spec/GzCopy.lean`, `World.Has` in `Verif/Spec/Cli.lean`.
-/

set_option linter.unusedSectionVars false

namespace Warcio.Props

open Warcio ArchiveIter BufReader Cli

section
variable [Zlib] [TameZlib] [Hashlib] [PyUni] [Deflater] {IsMember : Bytes → Bytes → Prop}

/-- The contents of a file: bytes that do not look like gzip, or a list of gzip members with what they hold. -/
def Holds (IsMember : Bytes → Bytes → Prop) (m : Nat) (b : Bytes) (ms : Option (List (Bytes × Bytes))) : Prop :=
  match ms with
  | none => b.length ≠ 1 ∧ ¬ (([31, 139] : Bytes) <+: b) ∧ m ≤ 16384
  | some ms => ms ≠ [] ∧ (∀ x ∈ ms, IsMember x.1 x.2) ∧ b = ms.flatMap (·.1) ∧ (m = 0 ∨ ∀ x ∈ ms, Steady 16384 m x.1)

/-- A named file with its contents, as the tools see it. -/
def keptOf (f : Str × Bytes × Option (List (Bytes × Bytes))) : Str × Kept := (f.1, { content := f.2.1 }, f.2.2)

omit [TameZlib] [Hashlib] [PyUni] [Deflater] in
theorem whole_rest (b : Bytes) : ({ content := b } : FileObj).rest = b := by simp [FileObj.rest]

omit [TameZlib] [Hashlib] [PyUni] [Deflater] in
theorem Holds.uncompressed {m : Nat} {b : Bytes} (h : Holds IsMember m b none) : Uncompressed { content := b } 16384 ∧ Lined { content := b } 16384 m := by
  obtain ⟨h1, h2, h3⟩ := h
  exact ⟨⟨by omega, by simp, by rw [whole_rest]; exact fun h => (by have := List.length_pos_iff.2 h; omega), by rw [whole_rest]; exact h2⟩, .inr ⟨rfl, h3⟩⟩

omit [TameZlib] [Hashlib] [PyUni] [Deflater] in
theorem Holds.readsGz {m : Nat} {b : Bytes} {ms : List (Bytes × Bytes)} (h : Holds IsMember m b (some ms)) : ReadsGz { content := b } 16384 m (ms.map (·.1)) :=
  ⟨by omega, h.2.2.2.imp id (fun k => ⟨rfl, fun z hz => by obtain ⟨x, hx, rfl⟩ := List.mem_map.1 hz; exact k x hx⟩)⟩

omit [TameZlib] [Hashlib] [PyUni] [Deflater] in
theorem Holds.readable {m : Nat} {f : Str × Bytes × Option (List (Bytes × Bytes))} (h : Holds IsMember m f.2.1 f.2.2) : Readable IsMember m (keptOf f).2 := by
  obtain ⟨n, b, ms⟩ := f
  cases ms with
  | none => exact h.uncompressed
  | some ms => exact ⟨h.1, h.2.1, by rw [whole_rest]; exact h.2.2.1, h.readsGz⟩

/-- C99: `warcio check` on any files: the file system is unchanged, and the exit value and what is printed are those of the files. -/
theorem C99_check (L : LawfulGzip IsMember) (ids : Nat → Str) {m : Nat} {fs : List (Str × Bytes × Option (List (Bytes × Bytes)))} (hh : ∀ f ∈ fs, Holds IsMember m f.2.1 f.2.2) {w : World}
    (h : w.Has (fs.map (fun f => (f.1, f.2.1)))) (v : Bool) :
    ∃ y out, CheckedFiles m v (fs.map keptOf) y out ∧
      run ids (.check (fs.map (·.1)) v) w = (match y with | .ok b => .exit (if b then 1 else 0) | .error e => .raised e, w.print (out.map .line)) := by
  obtain ⟨y, out, k1, k2⟩ := C97_files_check L v (fs.map keptOf) (m := m) (by
    intro i hi
    obtain ⟨f, hf, rfl⟩ := List.mem_map.1 hi
    exact (hh f hf).readable)
  refine ⟨y, out, k1, ?_⟩
  have := C82_check ids h v
  simp only [List.map_map] at this k2
  rw [show fs.map (·.1) = fs.map ((fun x => x.1) ∘ fun f => (f.1, f.2.1)) from rfl, this]
  rw [show fs.map ((fun i => (i.1, i.2.1)) ∘ keptOf) = fs.map ((fun f : Str × Bytes => ((f.1, { content := f.2 }) : Str × FileObj)) ∘ fun f => (f.1, f.2.1)) from rfl] at k2
  rw [k2]
  cases y <;> rfl

/-- C99, what the exit value of `warcio check` means: 0 that every file was read to its end and no record fails, 1 that there is a failure in one of them or an end that is none. -/
theorem C99_exit (L : LawfulGzip IsMember) (ids : Nat → Str) {m : Nat} {fs : List (Str × Bytes × Option (List (Bytes × Bytes)))} (hh : ∀ f ∈ fs, Holds IsMember m f.2.1 f.2.2) {w : World}
    (h : w.Has (fs.map (fun f => (f.1, f.2.1)))) (v : Bool) :
    ((run ids (.check (fs.map (·.1)) v) w).1 = .exit 0 → ∀ f ∈ fs, ∃ vs lines, Kept.Checked m v (keptOf f).2 (.ok ()) vs lines ∧ some false ∉ vs) ∧
    ((run ids (.check (fs.map (·.1)) v) w).1 = .exit 1 → ∃ f ∈ fs, ∃ x vs lines, Kept.Checked m v (keptOf f).2 x vs lines ∧ (some false ∈ vs ∨ ∃ e, x = .error e ∧ e.isArchiveLoadFailed = true)) ∧
    ((run ids (.check (fs.map (·.1)) v) w).1 = .exit 0 ∨ (run ids (.check (fs.map (·.1)) v) w).1 = .exit 1 ∨
      ∃ e, (run ids (.check (fs.map (·.1)) v) w).1 = .raised e ∧ ∃ f ∈ fs, ∃ vs lines, Kept.Checked m v (keptOf f).2 (.error e) vs lines ∧ e.isArchiveLoadFailed = false) := by
  obtain ⟨y, out, k1, k2⟩ := C99_check L ids hh h v
  rw [k2]
  clear k2 h hh
  dsimp only
  have all : ∀ {inputs y out}, CheckedFiles m v inputs y out →
      (y = .ok false → ∀ i ∈ inputs, ∃ vs lines, Kept.Checked m v i.2 (.ok ()) vs lines ∧ some false ∉ vs) ∧
      (y = .ok true → ∃ i ∈ inputs, ∃ x vs lines, Kept.Checked m v i.2 x vs lines ∧ (some false ∈ vs ∨ ∃ e, x = .error e ∧ e.isArchiveLoadFailed = true)) ∧
      (∀ e, y = .error e → ∃ i ∈ inputs, ∃ vs lines, Kept.Checked m v i.2 (.error e) vs lines ∧ e.isArchiveLoadFailed = false) := by
    intro inputs y out h
    induction h with
    | nil => exact ⟨(fun _ i hi => by cases hi), (fun h => by cases h), (fun e h => by cases h)⟩
    | read name f vs lines t y out h1 h2 ih =>
      obtain ⟨i1, i2, i3⟩ := ih
      cases y with
      | error e =>
        refine ⟨(fun h => by cases h), (fun h => by cases h), fun e' h => ?_⟩
        obtain ⟨i, hi, j⟩ := i3 e' h
        exact ⟨i, by simp [hi], j⟩
      | ok b =>
        simp only [Except.map, Except.ok.injEq, Bool.or_eq_false_iff, decide_eq_false_iff_not, Bool.or_eq_true, decide_eq_true_eq]
        refine ⟨fun h i hi => ?_, fun h => ?_, (fun e h => by cases h)⟩
        · rcases List.mem_cons.1 hi with rfl | hi
          · exact ⟨vs, lines, h1, h.1⟩
          · exact i1 (by rw [h.2]) i hi
        · rcases h with h | h
          · exact ⟨(name, f), by simp, _, vs, lines, h1, .inl h⟩
          · obtain ⟨i, hi, j⟩ := i2 (by rw [h])
            exact ⟨i, by simp [hi], j⟩
    | failed name f e vs lines t y out h1 h2 h3 ih =>
      refine ⟨(fun h => by cases y <;> cases h), fun _ => ⟨(name, f), by simp, _, vs, lines, h1, .inr ⟨e, rfl, h2⟩⟩, fun e' h => ?_⟩
      cases y with
      | ok b => cases h
      | error e'' =>
        obtain ⟨i, hi, j⟩ := ih.2.2 e' h
        exact ⟨i, by simp [hi], j⟩
    | crashed name f e vs lines t h1 h2 => exact ⟨(fun h => by cases h), (fun h => by cases h), (fun e' h => by cases h; exact ⟨(name, f), by simp, vs, lines, h1, h2⟩)⟩
  obtain ⟨a1, a2, a3⟩ := all k1
  have back : ∀ {P : Str × Kept → Prop}, (∃ i ∈ fs.map keptOf, P i) → ∃ f ∈ fs, P (keptOf f) := by
    rintro P ⟨i, hi, j⟩
    obtain ⟨f, hf, rfl⟩ := List.mem_map.1 hi
    exact ⟨f, hf, j⟩
  cases y with
  | error e =>
    refine ⟨(fun h => by cases h), (fun h => by cases h), .inr (.inr ⟨e, rfl, ?_⟩)⟩
    exact back (P := fun i => ∃ vs lines, Kept.Checked m v i.2 (.error e) vs lines ∧ e.isArchiveLoadFailed = false) (a3 e rfl)
  | ok b =>
    cases b with
    | false => exact ⟨fun _ f hf => a1 rfl (keptOf f) (List.mem_map.2 ⟨f, hf, rfl⟩), (fun h => by cases h), .inl rfl⟩
    | true =>
      refine ⟨(fun h => by cases h), fun _ => ?_, .inr (.inl rfl)⟩
      exact back (P := fun i => ∃ x vs lines, Kept.Checked m v i.2 x vs lines ∧ (some false ∈ vs ∨ ∃ e, x = .error e ∧ e.isArchiveLoadFailed = true)) (a2 rfl)

/-- C99: `warcio index` on any files: what is printed, or left in the output, is one JSON object for each entry, in the order of the files, also if it ends with an exception. -/
theorem C99_index (L : LawfulGzip IsMember) (ids : Nat → Str) {m : Nat} {fs : List (Str × Bytes × Option (List (Bytes × Bytes)))} (hne : fs ≠ []) (hh : ∀ f ∈ fs, Holds IsMember m f.2.1 f.2.2) {w : World}
    (h : w.Has (fs.map (fun f => (f.1, f.2.1)))) (fields : Str) (output : Option Str) (ho : ∀ f ∈ fs, output ≠ some f.1) (hw : ∀ o, output = some o → w.writable o = true) :
    ∃ y es, ∃ lines : List Str, IndexedFiles { noRecordParse := !(Indexer.splitComma fields).any (startsWith (lit "http:")), arc2warc := true, verifyHttp := false, ids := ids } m (Indexer.splitComma fields) (fs.map keptOf) y es ∧
      Each (fun entry line => '\n' ∉ line ∧ Json.object line = some (entry, [])) es lines ∧
      (run ids (.index (fs.map (·.1)) fields output) w).1 = (match y with | .ok _ => .done | .error e => .raised e) ∧
      (∀ o, output = some o → FileName o → (run ids (.index (fs.map (·.1)) fields output) w).2.files o = some (utf8Encode (lines.flatMap (fun l => l ++ ['\n'])))) ∧
      (output = none → (run ids (.index (fs.map (·.1)) fields output) w).2.printed = w.printed ++ [.text (lines.flatMap (fun l => l ++ ['\n']))]) := by
  obtain ⟨y, es, lines, k1, k2, k3⟩ := C97_files_index L (Indexer.splitComma fields) false ids (fs.map keptOf) (m := m) (by
    intro i hi
    obtain ⟨f, hf, rfl⟩ := List.mem_map.1 hi
    exact (hh f hf).readable)
  have key := C82_index ids (w := w) (fs := fs.map (fun f => (f.1, f.2.1))) (by simpa using hne) h fields output (by
    intro f hf
    obtain ⟨g, hg, rfl⟩ := List.mem_map.1 hf
    exact ho g hg) hw
  simp only [List.map_map] at key k3
  rw [show fs.map ((fun i => (i.1, i.2.1)) ∘ keptOf) = fs.map ((fun f : Str × Bytes => ((f.1, { content := f.2 }) : Str × FileObj)) ∘ fun f => (f.1, f.2.1)) from rfl] at k3
  rw [k3] at key
  rw [show fs.map (·.1) = fs.map ((fun x => x.1) ∘ fun f => (f.1, f.2.1)) from rfl, key]
  refine ⟨y, es, lines, k1, k2, rfl, ?_, ?_⟩
  · rintro o rfl hn
    rw [show (some o).getD [] = o from rfl, target_name hn]
    exact if_pos rfl
  · rintro rfl
    rfl

/-- C99: `warcio recompress` on any uncompressed file: it exits with 1 exactly if the records do not reach to the end of the file, and else the output holds the copies of all of them, one in each
gzip member. -/
theorem C99_recompress (L : LawfulGzip IsMember) (D : LawfulDeflater IsMember) {sha : Bytes → Bytes} (H : Hashlib.hash (lit "sha1") = some sha) (ids : Nat → Str) {m : Nat} {a o : Str} (ha : FileName a) (ho : FileName o) (hao : a ≠ o)
    {w : World} (hw : w.writable o = true) {b : Bytes} (hb : w.files a = some b) (hh : Holds IsMember m b none) :
    ∃ x rs zs, CopiedParts { noRecordParse := false, arc2warc := true, verifyHttp := false, ids := ids } sha some m 0 b x rs ∧ Each IsMember zs rs ∧
      (run ids (.recompress a o false) w).2.files o = some zs.flatten ∧ (run ids (.recompress a o false) w).2.files a = some b ∧
      ((run ids (.recompress a o false) w).1 = .done ∧ x = .ok () ∧ (run ids (.recompress a o false) w).2.printed = w.printed ++ summary rs.length o (lit "No Errors Found!") ∨
       (run ids (.recompress a o false) w).1 = .exit 1 ∧ ∃ e, x = .error e) := by
  obtain ⟨u1, u2⟩ := hh.uncompressed
  obtain ⟨rep, x, rs, z, r1, r2, r3, r4, r5⟩ := C91_recompress L D H (f := { content := b }) rfl rfl (again := []) u1 (by simp) hh.2.2 u2 { gzip := true } ids
  obtain ⟨zs, r3, rfl⟩ : ∃ zs, Each IsMember zs rs ∧ z = zs.flatten := r3
  have key := C82_recompress ids ha ho hao hw hb
  have hfr := (C82_inputs_partial ids w).1 a o false hao
  rw [r1] at key
  dsimp only at key
  generalize run ids (.recompress a o false) w = y at key hfr ⊢
  obtain ⟨x', w'⟩ := y
  dsimp only at key hfr ⊢
  refine ⟨x, rs, zs, r2, r3, key.1.trans (by simp [OutFile.extended]), hfr.trans hb, ?_⟩
  rcases r4 with ⟨rfl | rfl, hx⟩ | ⟨rfl, hx⟩
  · exact .inl ⟨congrArg Prod.fst key.2, hx, congrArg Prod.snd key.2⟩
  · exact absurd rfl (r5 rfl _)
  · exact .inr ⟨congrArg Prod.fst key.2, hx⟩

/-- C99: `warcio recompress` on any file that is one gzip member: "Compression Errors Found and Fixed!" if the first attempt fails and all of what it holds can be copied. -/
theorem C99_one (L : LawfulGzip IsMember) (D : LawfulDeflater IsMember) {sha : Bytes → Bytes} (H : Hashlib.hash (lit "sha1") = some sha) (ids : Nat → Str) {m : Nat} (hm : m ≤ 16384) {a o : Str} (ha : FileName a) (ho : FileName o) (hao : a ≠ o)
    {w : World} (hw : w.writable o = true) {b data : Bytes} (hb : w.files a = some b) (hz : IsMember b data) (hs : m = 0 ∨ Steady 16384 m b) (h2 : data.length ≠ 1) (hd : ¬ (([31, 139] : Bytes) <+: data)) :
    ∃ x rs zs, Each IsMember zs rs ∧ (run ids (.recompress a o false) w).2.files o = some zs.flatten ∧ (run ids (.recompress a o false) w).2.files a = some b ∧
      ((run ids (.recompress a o false) w).1 = .done ∧ (run ids (.recompress a o false) w).2.printed = w.printed ++ summary rs.length o (lit "No Errors Found!") ∧
        GzCopied { noRecordParse := false, arc2warc := true, verifyHttp := false, ids := ids } sha some m 0 [(b, data)] (.ok ()) rs ∨
       CopiedParts { noRecordParse := false, arc2warc := true, verifyHttp := false, ids := ids } sha some m 0 data x rs ∧
        ((run ids (.recompress a o false) w).1 = .done ∧ x = .ok () ∧ (run ids (.recompress a o false) w).2.printed = w.printed ++ summary rs.length o (lit "Compression Errors Found and Fixed!") ∨
         (run ids (.recompress a o false) w).1 = .exit 1 ∧ ∃ e, x = .error e)) := by
  obtain ⟨rep, x, rs, z, r1, r2, r3⟩ := C98_one L D H (f := { content := b }) hm rfl rfl (data := data) (by rw [whole_rest]; exact hz)
    ⟨by omega, hs.imp id (fun k => ⟨rfl, fun z hz => by rw [List.mem_singleton.1 hz, whole_rest]; exact k⟩)⟩ h2 hd { gzip := true } ids []
  obtain ⟨zs, r2, rfl⟩ : ∃ zs, Each IsMember zs rs ∧ z = zs.flatten := r2
  rw [whole_rest] at r3
  have key := C82_recompress ids ha ho hao hw hb
  have hfr := (C82_inputs_partial ids w).1 a o false hao
  rw [r1] at key
  dsimp only at key
  generalize run ids (.recompress a o false) w = y at key hfr ⊢
  obtain ⟨x', w'⟩ := y
  dsimp only at key hfr ⊢
  refine ⟨x, rs, zs, r2, key.1.trans (by simp [OutFile.extended]), hfr.trans hb, ?_⟩
  rcases r3 with ⟨rfl, k⟩ | ⟨-, k1, k2⟩
  · exact .inl ⟨congrArg Prod.fst key.2, congrArg Prod.snd key.2, k⟩
  · refine .inr ⟨k1, ?_⟩
    rcases k2 with ⟨rfl, hx⟩ | ⟨rfl, hx⟩
    · exact .inl ⟨congrArg Prod.fst key.2, hx, congrArg Prod.snd key.2⟩
    · exact .inr ⟨congrArg Prod.fst key.2, hx⟩

theorem run_extract (ids : Nat → Str) {a : Str} (ha : FileName a) {w : World} {b : Bytes} (hb : w.files a = some b) (off : Nat) (payloadOnly headersOnly : Bool) :
    run ids (.extract a (natToStr off) payloadOnly headersOnly) w =
      (match (Extractor.extract { content := b } off payloadOnly headersOnly).1 with | .ok _ => .done | .error e => .raised e, w.print [.bytes (Extractor.extract { content := b } off payloadOnly headersOnly).2]) := by
  show Cli.extract a (natToStr off) payloadOnly headersOnly w = _
  unfold Cli.extract Extractor.extractAt
  rw [openRead_has ha hb, parseInt_natToStr]
  dsimp only
  generalize Extractor.extract { content := b } off payloadOnly headersOnly = y
  obtain ⟨y, out⟩ := y
  cases y <;> rfl

/-- C99: `warcio extract` at any position in any file that is not compressed there. -/
theorem C99_extract (L : LawfulGzip IsMember) (ids : Nat → Str) {m : Nat} {a : Str} (ha : FileName a) {w : World} {b : Bytes} (hb : w.files a = some b) {off : Nat} (hh : Holds IsMember m (b.drop off) none) (payloadOnly headersOnly : Bool) :
    (∃ e, Over (({} : IterOpts).load none (({} : IterOpts).ids 0)) m (b.drop off) e ∧ run ids (.extract a (natToStr off) payloadOnly headersOnly) w = (.raised e, w.print [.bytes []])) ∨
    (∃ (p : Portion) (rec : Record Unit) (left : Bytes), b.drop off = p.all ∧ p.Shows (({} : IterOpts).load none (({} : IterOpts).ids 0)) rec ∧
      p.Parsed (({} : IterOpts).load none (({} : IterOpts).ids 0)) m rec left ∧ left <:+ p.block ∧ (¬ HttpType rec.recType → left = p.block) ∧
      (payloadOnly = false ∨ ¬ HttpType rec.recType → run ids (.extract a (natToStr off) payloadOnly headersOnly) w = (.done, w.print [.bytes (printed rec left payloadOnly headersOnly)]))) := by
  rw [run_extract ids ha hb]
  obtain ⟨h1, h2, h3⟩ := hh
  have hr : ({ content := b, pos := off } : FileObj).rest = b.drop off := rfl
  rcases C90_extract L (f := { content := b }) rfl (off := off) (m := m) ⟨by omega, by simp, by rw [hr]; exact fun h => (by have := List.length_pos_iff.2 h; omega), by rw [hr]; exact h2⟩ (.inr ⟨rfl, h3⟩) payloadOnly headersOnly with
    ⟨e, k1, k2⟩ | ⟨p, rec, left, k1, k2, k3, k4, k5, k6⟩
  · refine .inl ⟨e, k1, ?_⟩
    rw [k2]
  · refine .inr ⟨p, rec, left, k1, k2, k3, k4, k5, fun hp => ?_⟩
    rw [k6 hp]

/-- C99: `warcio extract` at the start of any member in any file. -/
theorem C99_extract_gz (L : LawfulGzip IsMember) (ids : Nat → Str) {m : Nat} {a : Str} (ha : FileName a) {w : World} {b : Bytes} (hb : w.files a = some b) {off : Nat} {z data : Bytes} {ms : List (Bytes × Bytes)}
    (hh : Holds IsMember m (b.drop off) (some ((z, data) :: ms))) (payloadOnly headersOnly : Bool) :
    (∃ e, (e ≠ .stopIteration ∨ ms = []) ∧ Over (({} : IterOpts).load none (({} : IterOpts).ids 0)) m data e ∧ run ids (.extract a (natToStr off) payloadOnly headersOnly) w = (.raised e, w.print [.bytes []])) ∨
    (∃ (p : Portion) (rec : Record Unit) (left : Bytes), data = p.all ∧ p.Shows (({} : IterOpts).load none (({} : IterOpts).ids 0)) rec ∧
      p.Parsed (({} : IterOpts).load none (({} : IterOpts).ids 0)) m rec left ∧ left <:+ p.block ∧ (¬ HttpType rec.recType → left = p.block) ∧
      (payloadOnly = false ∨ ¬ HttpType rec.recType → run ids (.extract a (natToStr off) payloadOnly headersOnly) w = (.done, w.print [.bytes (printed rec left payloadOnly headersOnly)]))) ∨
    (ms ≠ [] ∧ Over (({} : IterOpts).load none (({} : IterOpts).ids 0)) m data .stopIteration) := by
  rw [run_extract ids ha hb]
  obtain ⟨h1, h2, h3, h4⟩ := hh
  rcases C98_extract L (f := { content := b }) rfl (off := off) (m := m) h2 h3
      ⟨by omega, h4.imp id (fun k => ⟨rfl, fun z hz => by obtain ⟨x, hx, rfl⟩ := List.mem_map.1 hz; exact k x hx⟩)⟩ payloadOnly headersOnly with
    ⟨e, k0, k1, k2⟩ | ⟨p, rec, left, k1, k2, k3, k4, k5, k6⟩ | k
  · refine .inl ⟨e, k0, k1, ?_⟩
    rw [k2]
  · refine .inr (.inl ⟨p, rec, left, k1, k2, k3, k4, k5, fun hp => ?_⟩)
    rw [k6 hp]
  · exact .inr (.inr k)

end

open Toy

/-- A file that is no archive, one of three members of which the last one has two records, and one that is a single member with two records. -/
def exDisk : World :=
  { files := fun n => if n = lit "a" then some (utf8Encode (lit "no archive")) else if n = lit "b" then some exGrouped.content else if n = lit "c" then some (compress (exInfo.bytes ++ exLong.bytes)) else none,
    writable := fun _ => true, stdin := { content := [] } }

/-- The hypotheses of `C99_check`, `C99_exit` and `C99_index`; of `C99_recompress` and `C99_extract` (the first file), and of `C99_one` and `C99_extract_gz` (the last one). -/
example : exDisk.Has [(lit "a", utf8Encode (lit "no archive")), (lit "b", exGrouped.content), (lit "c", compress (exInfo.bytes ++ exLong.bytes))] ∧ Holds IsMember 100 (utf8Encode (lit "no archive")) none ∧
    Holds IsMember 100 exGrouped.content (some (exGroups.map (fun d => (compress d, d)))) ∧ Holds IsMember 100 (compress (exInfo.bytes ++ exLong.bytes)) (some [(compress (exInfo.bytes ++ exLong.bytes), exInfo.bytes ++ exLong.bytes)]) ∧
    FileName (lit "a") ∧ FileName (lit "c") ∧ FileName (lit "o") ∧ IsMember (compress (exInfo.bytes ++ exLong.bytes)) (exInfo.bytes ++ exLong.bytes) ∧ Steady 16384 100 (compress (exInfo.bytes ++ exLong.bytes)) ∧
    (exInfo.bytes ++ exLong.bytes).length ≠ 1 ∧ ¬ (([31, 139] : Bytes) <+: exInfo.bytes ++ exLong.bytes) := by
  refine ⟨?_, ⟨by decide +kernel, by decide +kernel, by decide⟩, ⟨by simp [exGroups], ?_, rfl, .inr ?_⟩, ⟨by simp, ?_, by simp, .inr ?_⟩, by decide, by decide, by decide, rfl, steady_of_le (by decide +kernel), by decide +kernel, by decide +kernel⟩
  · intro f hf
    simp only [List.mem_cons, List.not_mem_nil, or_false] at hf
    rcases hf with rfl | rfl | rfl
    · exact ⟨by decide, rfl⟩
    · exact ⟨by decide, rfl⟩
    · exact ⟨by decide, rfl⟩
  · intro x hx
    obtain ⟨d, _, rfl⟩ := List.mem_map.1 hx
    rfl
  · intro x hx
    have : ∀ x ∈ exGroups.map (fun d => (compress d, d)), x.1.length ≤ 16384 := by decide +kernel
    exact steady_of_le (this x hx)
  · intro x hx; rw [List.mem_singleton.1 hx]; rfl
  · intro x hx; rw [List.mem_singleton.1 hx]; exact steady_of_le (by decide +kernel)

/-- What the commands do there. -/
example : (run (fun _ => []) (.check [lit "a", lit "b"] false) exDisk).1 = .exit 1 ∧ (run (fun _ => []) (.check [lit "a", lit "b"] false) exDisk).2.printed = [.line (.failure (lit "a")), .line (.failure (lit "b"))] ∧
    (run (fun _ => []) (.recompress (lit "a") (lit "o") false) exDisk).1 = .exit 1 ∧
    (run (fun _ => []) (.recompress (lit "c") (lit "o") false) exDisk).2.printed = summary 2 (lit "o") (lit "Compression Errors Found and Fixed!") ∧
    (run (fun _ => []) (.extract (lit "c") (lit "0") true false) exDisk).2.printed = [.bytes exInfo.block] := by
  decide +kernel

end Warcio.Props

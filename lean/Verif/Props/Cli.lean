import Verif.Spec.Cli
import Verif.Props.Errors
import Verif.Props.Recompress
import Verif.Props.Index

/-!
# C82: the commands and the file system
-/

set_option linter.unusedSectionVars false

namespace Warcio.Props

open Warcio Cli

theorem target_name {n : Str} (h : FileName n) : World.target n = some n := by
  unfold World.target
  rw [if_neg (fun hn => hn.elim h.1 h.2)]

theorem target_some {n m : Str} (h : World.target n = some m) : n = m ∧ FileName n := by
  unfold World.target at h
  split at h
  · cases h
  · rename_i hn
    cases h
    exact ⟨rfl, fun h => hn (.inl h), fun h => hn (.inr h)⟩

theorem openRead_has {w : World} {n : Str} {b : Bytes} (h : FileName n) (hb : w.files n = some b) (d : Option FileObj) : w.openRead n d = .ok (some { content := b }) := by
  unfold World.openRead
  rw [if_neg (fun hn => hn.elim h.1 h.2), hb]

theorem openRead_missing {w : World} {n : Str} (h : FileName n) (hb : w.files n = none) (d : Option FileObj) : w.openRead n d = .error n := by
  unfold World.openRead
  rw [if_neg (fun hn => hn.elim h.1 h.2), hb]

theorem put_other {w : World} {n m : Str} {b : Bytes} (h : n ≠ m) : (w.put m b).files n = w.files n := if_neg h

theorem put_same {w : World} {n : Str} {b : Bytes} : (w.put n b).files n = some b := if_pos rfl

section
variable [Zlib] [Hashlib] [PyUni]

theorem index_frame (ids : Nat → Str) (inputs : List Str) (fields : Str) (output : Option Str) (w : World) (n : Str) (h : ¬ (output = some n ∧ FileName n)) :
    (index ids inputs fields output w).2.files n = w.files n := by
  unfold index
  dsimp only
  cases ht : World.target (output.getD []) with
  | none => rfl
  | some m =>
    dsimp only
    unfold World.openWrite
    by_cases hw : w.writable m = true
    · rw [if_pos hw]
      dsimp only
      have hn : n ≠ m := by
        rintro rfl
        obtain ⟨h1, h2⟩ := target_some ht
        cases output with
        | none => exact h2.2 rfl
        | some o => exact h ⟨by rw [← h1]; rfl, h1 ▸ h2⟩
      rw [put_other hn]
      exact put_other hn
    · rw [if_neg hw]

variable [Deflater]

theorem failure_files (filename : Str) (v : Bool) (w : World) : (failure filename v w).2.files = w.files := rfl

theorem print_nil (w : World) : w.print [] = w := by
  unfold World.print
  rw [List.append_nil]

theorem finish_quiet (ids : Nat → Str) (filename output : Str) (n : Nat) (msg : Str) (w : World) : finish ids filename output false n msg w = (.done, w.print (summary n output msg)) := by
  unfold finish
  rw [if_neg (by decide)]

theorem failure_quiet (filename : Str) (w : World) :
    Cli.failure filename false w = (.exit 1, w.print [.text (lit "Recompress Failed: " ++ filename ++ lit " could not be read as a WARC or ARC\n")]) := by
  unfold Cli.failure
  rw [if_neg (by decide), List.nil_append]

theorem index_stdout_files (ids : Nat → Str) (inputs : List Str) (fields : Str) (w : World) : (index ids inputs fields none w).2.files = w.files := by
  funext n
  exact index_frame ids inputs fields none w n (fun h => by cases h.1)

theorem finish_files (ids : Nat → Str) (filename output : Str) (v : Bool) (count : Nat) (msg : Str) (w : World) : (finish ids filename output v count msg w).2.files = w.files := by
  unfold finish
  split
  · have := index_stdout_files ids [output] defaultFields (w.print [.text (lit "Records successfully read and compressed:\n")])
    generalize index ids [output] defaultFields none (w.print [.text (lit "Records successfully read and compressed:\n")]) = x at *
    obtain ⟨x, w1⟩ := x
    cases x <;> exact this
  · rfl

theorem recompress_frame (c : BuilderCfg) (ids : Nat → Str) (filename output : Str) (v : Bool) (w : World) (n : Str) (h : ¬ (output = n ∧ FileName n)) :
    (Cli.recompress c ids filename output v w).2.files n = w.files n := by
  have hput : ∀ {m} {b : Bytes} {w' : World}, World.target output = some m → (w'.put m b).files n = w'.files n := by
    intro m b w' ht
    obtain ⟨h1, h2⟩ := target_some ht
    exact put_other (fun hn => h ⟨h1.trans hn.symm, by rw [hn, ← h1]; exact h2⟩)
  unfold Cli.recompress
  split
  · rfl
  · split
    · rfl
    · rename_i m ht
      rw [failure_files]
      show (((w.openWrite m).getD w)).files n = _
      unfold World.openWrite
      split
      · exact hput ht
      · rfl
  · split
    · split
      · rw [finish_files]
      · split
        · rw [finish_files]; rfl
        · rfl
    · rename_i m ht
      split
      · rfl
      · rename_i w1 hw
        have h1 : w1.files n = w.files n := by
          unfold World.openWrite at hw
          split at hw
          · cases hw; exact hput ht
          · cases hw
        dsimp only
        split
        · rw [finish_files, hput ht, h1]
        · rw [finish_files, ← h1]; exact hput ht
        · rw [failure_files, ← h1]; exact hput ht

/-- C82: a command changes no file but the one it is told to write. -/
theorem C82_frame (ids : Nat → Str) (cmd : Cmd) (w : World) (n : Str) (h : ¬ cmd.Writes n) : (run ids cmd w).2.files n = w.files n := by
  cases cmd with
  | index inputs fields output => exact index_frame ids inputs fields output w n h
  | recompress filename output v => exact recompress_frame _ ids filename output v w n h
  | extract filename offset p hd =>
    show (Cli.extract filename offset p hd w).2.files n = _
    unfold Cli.extract
    split <;> rfl
  | check inputs v => rfl

/-- C82: so the input of `recompress` is unchanged if the output is another file, and so are the inputs of
`index`.  In part: not if it is the same file (`C82_same_file`, `C82_index_same`). -/
theorem C82_inputs_partial (ids : Nat → Str) (w : World) :
    (∀ a b v, a ≠ b → (run ids (.recompress a b v) w).2.files a = w.files a) ∧
    (∀ inputs fields output, ∀ a ∈ inputs, output ≠ some a → (run ids (.index inputs fields output) w).2.files a = w.files a) :=
  ⟨fun a _ _ h => C82_frame ids _ w a (fun hw => h hw.1.symm), fun _ _ _ a _ h => C82_frame ids _ w a (fun hw => h hw.1)⟩

/-- What an empty file is recompressed to. -/
theorem recompress_empty {IsMember : Bytes → Bytes → Prop} (L : LawfulGzip IsMember) (D : LawfulDeflater IsMember) {f : Bytes → Bytes} (H : Hashlib.hash (lit "sha1") = some f)
    {c : BuilderCfg} (hf : c.filter = some) (hc : c.gzip = true) (ids : Nat → Str) (again : List Nat) : Recompressor.recompress c ids { content := [] } again = (.noErrors 0, {}) := by
  obtain ⟨out, h1, h2⟩ := C60_plain (m := 2) (xs := []) (g := { content := [] }) L D H hf hc (fun x h => by cases h) rfl ⟨by decide, (fun c h => by cases h), .inr ⟨rfl, by decide⟩⟩ ids again
  cases h1
  rw [h2]
  rfl

/-- C82 fails: `warcio recompress a a` leaves nothing of the file, whatever it held, says that there were no
errors, and exits with 0. -/
theorem C82_same_file {IsMember : Bytes → Bytes → Prop} (L : LawfulGzip IsMember) (D : LawfulDeflater IsMember) {f : Bytes → Bytes} (H : Hashlib.hash (lit "sha1") = some f)
    (ids : Nat → Str) {a : Str} (ha : FileName a) {w : World} (hw : w.writable a = true) {b : Bytes} (hb : w.files a = some b) :
    (run ids (.recompress a a false) w).1 = .done ∧ (run ids (.recompress a a false) w).2.files a = some [] ∧
    (run ids (.recompress a a false) w).2.printed = w.printed ++ summary 0 a (lit "No Errors Found!") := by
  have : run ids (.recompress a a false) w = finish ids a a false 0 noErrors ((w.put a []).put a []) := by
    show Cli.recompress _ ids a a false w = _
    unfold Cli.recompress
    rw [openRead_has ha hb]
    dsimp only
    rw [target_name ha]
    unfold World.openWrite
    dsimp only
    rw [if_pos hw]
    dsimp only
    rw [if_pos rfl, recompress_empty L D H rfl rfl]
  rw [this]
  exact ⟨rfl, put_same, rfl⟩

/-- C82: otherwise, with an output that can be written, it holds what `Recompressor.recompress` makes of the
input, and the exit value and the messages are as it reports. -/
theorem C82_recompress (ids : Nat → Str) {a o : Str} (ha : FileName a) (ho : FileName o) (hao : a ≠ o) {w : World} (hw : w.writable o = true) {b : Bytes} (hb : w.files a = some b) :
    let r := Recompressor.recompress { gzip := true } ids { content := b } []
    let (x, w') := run ids (.recompress a o false) w
    w'.files o = some r.2.content ∧
    (x, w'.printed) = match r.1 with
      | .noErrors n => (.done, w.printed ++ summary n o (lit "No Errors Found!"))
      | .fixed n => (.done, w.printed ++ summary n o (lit "Compression Errors Found and Fixed!"))
      | .failed => (.exit 1, w.printed ++ [.text (lit "Recompress Failed: " ++ a ++ lit " could not be read as a WARC or ARC\n")]) := by
  have : run ids (.recompress a o false) w = match Recompressor.recompress { gzip := true } ids { content := b } [] with
      | (.noErrors n, out) => finish ids a o false n noErrors ((w.put o []).put o out.content)
      | (.fixed n, out) => finish ids a o false n fixed (((w.put o []).put o out.content).print [])
      | (.failed, out) => failure a false (((w.put o []).put o out.content).print []) := by
    show Cli.recompress _ ids a o false w = _
    unfold Cli.recompress
    rw [openRead_has ha hb]
    dsimp only
    rw [target_name ho]
    unfold World.openWrite
    dsimp only
    rw [if_pos hw]
    dsimp only
    rw [if_neg hao]
    generalize Recompressor.recompress { gzip := true } ids { content := b } [] = r
    obtain ⟨r, out⟩ := r
    cases r <;> rfl
  rw [this]
  generalize Recompressor.recompress { gzip := true } ids { content := b } [] = r
  obtain ⟨r, out⟩ := r
  cases r with
  | noErrors n =>
    dsimp only
    rw [finish_quiet]
    exact ⟨put_same, rfl⟩
  | fixed n =>
    dsimp only
    rw [finish_quiet, print_nil]
    exact ⟨put_same, rfl⟩
  | failed =>
    dsimp only
    rw [print_nil, failure_quiet]
    exact ⟨put_same, rfl⟩

/-- C82: what is in the output file before makes no difference. -/
theorem C82_overwrites (ids : Nat → Str) {a o : Str} (ho : FileName o) (hao : a ≠ o) {w w' : World} (h : w.SameBut o w') (hw : w.writable o = true) (hf : w.files a ≠ none) (v : Bool) :
    run ids (.recompress a o v) w = run ids (.recompress a o v) w' := by
  have hput : ∀ b, w.put o b = w'.put o b := by
    intro b
    unfold World.put
    rw [h.writable, h.stdin, h.printed]
    congr 1
    funext n
    split
    · rfl
    · rename_i hn; exact h.files n hn
  have hr : ∀ d, w.openRead a d = w'.openRead a d := by
    intro d
    unfold World.openRead
    rw [h.files a hao]
  show Cli.recompress _ ids a o v w = Cli.recompress _ ids a o v w'
  unfold Cli.recompress
  rw [← hr, target_name ho]
  have hopen : w.openWrite o = some (w'.put o []) ∧ w'.openWrite o = some (w'.put o []) := by
    unfold World.openWrite
    rw [← h.writable, if_pos hw, if_pos hw, hput]
    exact ⟨rfl, rfl⟩
  cases hx : w.openRead a none with
  | error e => exact absurd hx (by
      unfold World.openRead
      split
      · exact (fun h => by cases h)
      · cases hb : w.files a with
        | none => exact absurd hb hf
        | some b => exact (fun h => by cases h))
  | ok f =>
    cases f with
    | none =>
      dsimp only
      rw [hopen.1, hopen.2]
      rfl
    | some f =>
      dsimp only
      rw [hopen.1, hopen.2]

/-- C82 fails for `index` in the same way: if the output is an input, its contents are lost. -/
theorem C82_index_same {IsMember : Bytes → Bytes → Prop} (L : LawfulGzip IsMember) (ids : Nat → Str) (fields : Str) {a : Str} (ha : FileName a) {w : World} (hw : w.writable a = true) :
    (run ids (.index [a] fields (some a)) w).1 = .done ∧ (run ids (.index [a] fields (some a)) w).2.files a = some [] := by
  have he : Indexer.indexFile (Indexer.splitComma fields) false ids a { content := [] } = (.ok (), []) :=
    C58_entries (m := 0) (xs := []) L (.plain _ [] (fun x h => by cases h) rfl ⟨by decide, (fun c h => by cases h), .inl rfl⟩) (fun x h => by cases h) (Indexer.basename_spec a) ids
  have : run ids (.index [a] fields (some a)) w = (.done, ((w.put a []).put a (utf8Encode []))) := by
    show Cli.index ids [a] fields (some a) w = _
    unfold Cli.index
    dsimp only
    rw [show (some a).getD [] = a from rfl, target_name ha]
    unfold World.openWrite
    dsimp only
    rw [if_pos hw]
    dsimp only
    rw [show ([a] : List Str).isEmpty = false from rfl, if_neg (by decide)]
    unfold indexInputs
    rw [openRead_has ha put_same]
    dsimp only
    rw [he, if_neg (by rw [target_name ha]; exact (fun h => by cases h))]
    rfl
  rw [this]
  exact ⟨rfl, put_same⟩

theorem checkInputs_has {w : World} (v : Bool) (rest : List Str) : ∀ (fs : List (Str × Bytes)) (exit : Nat), w.Has fs →
    checkInputs w v (fs.map (·.1) ++ rest) exit =
      (match Checker.processAll v (fs.map (fun f => (f.1, { content := f.2 }))) exit with
        | (.ok n, out) => ((checkInputs w v rest n).1, out ++ (checkInputs w v rest n).2)
        | (.error e, out) => (.raised e, out))
  | [], exit, _ => rfl
  | (n, b) :: fs, exit, h => by
    obtain ⟨h1, h2⟩ := h (n, b) (List.mem_cons_self ..)
    have ih := fun exit => checkInputs_has v rest fs exit (fun f hf => h f (List.mem_cons_of_mem _ hf))
    rw [List.map_cons, List.cons_append, List.map_cons]
    obtain ⟨K, hK⟩ : ∃ K : Nat → Ended × List Checker.Print, ∀ n, checkInputs w v rest n = K n := ⟨_, fun _ => rfl⟩
    simp only [hK] at ih ⊢
    unfold checkInputs Checker.processAll
    rw [openRead_has h1 h2]
    dsimp only
    generalize Checker.processOne v n { content := b } = x
    obtain ⟨x, bad, out⟩ := x
    cases x with
    | error e =>
      dsimp only
      by_cases he : e.isArchiveLoadFailed = true
      · rw [if_pos he, if_pos he, ih]
        generalize Checker.processAll v (fs.map (fun f => (f.1, { content := f.2 }))) 1 = y
        obtain ⟨y, o2⟩ := y
        cases y <;> simp
      · rw [if_neg he, if_neg he]
    | ok u =>
      dsimp only
      rw [ih]
      generalize Checker.processAll v (fs.map (fun f => (f.1, { content := f.2 }))) (if bad = true then 1 else exit) = y
      obtain ⟨y, o2⟩ := y
      cases y <;> simp

theorem indexInputs_has {w : World} (fields : List Str) (ids : Nat → Str) (stdin : FileObj) : ∀ (fs : List (Str × Bytes)), w.Has fs →
    indexInputs w fields ids (fs.map (·.1)) stdin =
      (match (Indexer.index fields false ids (fs.map (fun f => (f.1, { content := f.2 })))).1 with
        | .ok _ => .done
        | .error e => .raised e, (Indexer.index fields false ids (fs.map (fun f => (f.1, { content := f.2 })))).2, stdin)
  | [], _ => rfl
  | (n, b) :: fs, h => by
    obtain ⟨h1, h2⟩ := h (n, b) (List.mem_cons_self ..)
    have ih := indexInputs_has fields ids stdin fs (fun f hf => h f (List.mem_cons_of_mem _ hf))
    rw [List.map_cons, List.map_cons]
    unfold indexInputs Indexer.index
    rw [openRead_has h1 h2]
    dsimp only
    rw [if_neg (by rw [target_name h1]; exact (fun h => by cases h)), ih]
    generalize Indexer.indexFile fields false ids n { content := b } = x
    obtain ⟨x, es⟩ := x
    cases x <;> rfl

/-- C82 for `check`: on files that are there it does what `Checker.processAll` does with their contents. -/
theorem C82_check (ids : Nat → Str) {w : World} {fs : List (Str × Bytes)} (h : w.Has fs) (v : Bool) :
    run ids (.check (fs.map (·.1)) v) w =
      (match (Checker.processAll v (fs.map (fun f => (f.1, { content := f.2 }))) 0).1 with
        | .ok n => .exit n
        | .error e => .raised e,
       w.print ((Checker.processAll v (fs.map (fun f => (f.1, { content := f.2 }))) 0).2.map .line)) := by
  have := checkInputs_has v [] fs 0 h
  rw [List.append_nil] at this
  show ((checkInputs w v (fs.map (·.1)) 0).1, w.print ((checkInputs w v (fs.map (·.1)) 0).2.map .line)) = _
  rw [this]
  generalize Checker.processAll v (fs.map (fun f => (f.1, { content := f.2 }))) 0 = y
  obtain ⟨y, o2⟩ := y
  cases y with
  | error e => rfl
  | ok n =>
    dsimp only
    rw [show checkInputs w v [] n = (.exit n, []) from rfl, List.append_nil]

/-- C82: a file that is not there ends `check`, and those behind it are not looked at, whatever was found
before. -/
theorem C82_check_missing (ids : Nat → Str) {w : World} {fs : List (Str × Bytes)} (h : w.Has fs) {m : Str} (hm : FileName m) (hn : w.files m = none) (rest : List Str) (v : Bool) {n : Nat}
    (hf : (Checker.processAll v (fs.map (fun f => (f.1, { content := f.2 }))) 0).1 = .ok n) :
    run ids (.check (fs.map (·.1) ++ m :: rest) v) w = (.cannotOpen m, w.print ((Checker.processAll v (fs.map (fun f => (f.1, { content := f.2 }))) 0).2.map .line)) := by
  have := checkInputs_has v (m :: rest) fs 0 h
  show ((checkInputs w v (fs.map (·.1) ++ m :: rest) 0).1, w.print ((checkInputs w v (fs.map (·.1) ++ m :: rest) 0).2.map .line)) = _
  rw [this]
  generalize Checker.processAll v (fs.map (fun f => (f.1, { content := f.2 }))) 0 = y at *
  obtain ⟨y, o2⟩ := y
  cases hf
  have hm : checkInputs w v (m :: rest) n = (.cannotOpen m, []) := by
    unfold checkInputs
    rw [openRead_missing hm hn]
  dsimp only
  rw [hm, List.append_nil]

/-- C82 for `index`: on files that are there, and are not the output, it writes what `Indexer.index` makes of
their contents. -/
theorem C82_index (ids : Nat → Str) {w : World} {fs : List (Str × Bytes)} (hne : fs ≠ []) (h : w.Has fs) (fields : Str) (output : Option Str) (ho : ∀ f ∈ fs, output ≠ some f.1)
    (hw : ∀ o, output = some o → w.writable o = true) :
    let r := Indexer.index (Indexer.splitComma fields) false ids (fs.map (fun f => (f.1, { content := f.2 })))
    run ids (.index (fs.map (·.1)) fields output) w =
      (match r.1 with
        | .ok _ => .done
        | .error e => .raised e,
       match World.target (output.getD []) with
        | none => w.print [.text r.2]
        | some o => (w.put o []).put o (utf8Encode r.2)) := by
  intro r
  show Cli.index ids (fs.map (·.1)) fields output w = _
  unfold Cli.index
  dsimp only
  have he : (fs.map (·.1)).isEmpty = false := by cases fs with
    | nil => exact absurd rfl hne
    | cons f t => rfl
  rw [he, if_neg (by decide)]
  cases ht : World.target (output.getD []) with
  | none =>
    dsimp only
    rw [indexInputs_has _ _ _ fs h]
  | some o =>
    obtain ⟨h1, h2⟩ := target_some ht
    have ho' : output = some o := by
      cases output with
      | none => exact absurd rfl h2.2
      | some o' => rw [← h1]; rfl
    dsimp only
    unfold World.openWrite
    rw [if_pos (hw o ho')]
    dsimp only
    have hh : (w.put o []).Has fs := fun f hf => ⟨(h f hf).1, by rw [put_other (fun hn => ho f hf (by rw [ho', hn]))]; exact (h f hf).2⟩
    rw [indexInputs_has _ _ _ fs hh]

/-- C82: without inputs `index` reads standard input. -/
theorem C82_stdin (ids : Nat → Str) (fields : Str) (w : World) :
    ((run ids (.index [] fields none) w).1, (run ids (.index [] fields none) w).2.printed) =
      (match (Indexer.index (Indexer.splitComma fields) false ids [(lit "-", w.stdin)]).1 with
        | .ok _ => .done
        | .error e => .raised e,
       w.printed ++ [.text (Indexer.index (Indexer.splitComma fields) false ids [(lit "-", w.stdin)]).2]) := by
  show ((Cli.index ids [] fields none w).1, (Cli.index ids [] fields none w).2.printed) = _
  have hi : indexInputs w (Indexer.splitComma fields) ids [lit "-"] w.stdin =
      (match (Indexer.index (Indexer.splitComma fields) false ids [(lit "-", w.stdin)]).1 with
        | .ok _ => .done
        | .error e => .raised e, (Indexer.index (Indexer.splitComma fields) false ids [(lit "-", w.stdin)]).2, { w.stdin with pos := w.stdin.content.length }) := by
    have ht : World.target (lit "-") = none := by decide
    have ho : w.openRead (lit "-") (some w.stdin) = .ok (some w.stdin) := if_pos (.inl rfl)
    unfold indexInputs Indexer.index
    rw [ho]
    dsimp only
    rw [if_pos ht]
    generalize Indexer.indexFile (Indexer.splitComma fields) false ids (lit "-") w.stdin = x
    obtain ⟨x, es⟩ := x
    cases x <;> rfl
  have : Cli.index ids [] fields none w = (match (Indexer.index (Indexer.splitComma fields) false ids [(lit "-", w.stdin)]).1 with
        | .ok _ => .done
        | .error e => .raised e, ({ w with stdin := { w.stdin with pos := w.stdin.content.length } } : World).print [.text (Indexer.index (Indexer.splitComma fields) false ids [(lit "-", w.stdin)]).2]) := by
    unfold Cli.index
    dsimp only
    rw [show World.target ((none : Option Str).getD []) = none from by decide]
    dsimp only
    rw [show ([] : List Str).isEmpty = true from rfl, if_pos rfl, hi]
  rw [this]
  rfl

/-- C82: with `-v`, `recompress` also indexes the output, and fails if that fails, after everything was
written. -/
theorem C82_verbose (ids : Nat → Str) {a o : Str} (ha : FileName a) (ho : FileName o) (hao : a ≠ o) {w : World} (hw : w.writable o = true) {b : Bytes} (hb : w.files a = some b) :
    let r := Recompressor.recompress { gzip := true } ids { content := b } []
    (run ids (.recompress a o true) w).2.files o = some r.2.content ∧
    ((run ids (.recompress a o true) w).1 = .done ∨ (run ids (.recompress a o true) w).1 = .exit 1) ∧
    ((run ids (.recompress a o true) w).1 = .done ↔
      r.1 ≠ .failed ∧ (Indexer.index [lit "offset", lit "warc-type", lit "warc-target-uri"] false ids [(o, { content := r.2.content })]).1 = .ok ()) := by
  intro r
  have hfin : ∀ (n : Nat) (msg : Str) (w1 : World), w1.files o = some r.2.content →
      (finish ids a o true n msg w1).2.files o = some r.2.content ∧ ((finish ids a o true n msg w1).1 = .done ∨ (finish ids a o true n msg w1).1 = .exit 1) ∧
      ((finish ids a o true n msg w1).1 = .done ↔ (Indexer.index [lit "offset", lit "warc-type", lit "warc-target-uri"] false ids [(o, { content := r.2.content })]).1 = .ok ()) := by
    intro n msg w1 h1
    refine ⟨by rw [finish_files]; exact h1, ?_⟩
    have hx : (index ids [o] defaultFields none (w1.print [.text (lit "Records successfully read and compressed:\n")])).1 =
        (match (Indexer.index [lit "offset", lit "warc-type", lit "warc-target-uri"] false ids [(o, { content := r.2.content })]).1 with
          | .ok _ => .done
          | .error e => .raised e) := by
      have := C82_index ids (w := w1.print [.text (lit "Records successfully read and compressed:\n")]) (fs := [(o, r.2.content)]) (by simp)
        (fun f hf => by rcases List.mem_singleton.1 hf with rfl; exact ⟨ho, h1⟩) defaultFields none (fun f hf => by simp) (fun o h => by cases h)
      have this := congrArg Prod.fst this
      have hs : Indexer.splitComma defaultFields = [lit "offset", lit "warc-type", lit "warc-target-uri"] := by decide
      rw [hs] at this
      exact this
    unfold finish
    rw [if_pos rfl]
    generalize index ids [o] defaultFields none (w1.print [.text (lit "Records successfully read and compressed:\n")]) = x at *
    obtain ⟨x, w2⟩ := x
    have hx : x = _ := hx
    generalize (Indexer.index [lit "offset", lit "warc-type", lit "warc-target-uri"] false ids [(o, { content := r.2.content })]).1 = y at *
    cases y with
    | ok u => subst hx; exact ⟨.inl rfl, iff_of_true rfl rfl⟩
    | error e => subst hx; exact ⟨.inr rfl, iff_of_false (fun h => by cases h) (fun h => by cases h)⟩
  have : run ids (.recompress a o true) w = match (generalizing := false) r with
      | (.noErrors n, out) => finish ids a o true n noErrors ((w.put o []).put o out.content)
      | (.fixed n, out) => finish ids a o true n fixed (((w.put o []).put o out.content).print (parsing true))
      | (.failed, out) => Cli.failure a true (((w.put o []).put o out.content).print (parsing true)) := by
    show Cli.recompress _ ids a o true w = _
    unfold Cli.recompress
    rw [openRead_has ha hb]
    dsimp only
    rw [target_name ho]
    unfold World.openWrite
    dsimp only
    rw [if_pos hw]
    dsimp only
    rw [if_neg hao]
    show _ = match (generalizing := false) Recompressor.recompress { gzip := true } ids { content := b } [] with
      | (.noErrors n, out) => finish ids a o true n noErrors ((w.put o []).put o out.content)
      | (.fixed n, out) => finish ids a o true n fixed (((w.put o []).put o out.content).print (parsing true))
      | (.failed, out) => Cli.failure a true (((w.put o []).put o out.content).print (parsing true))
    generalize Recompressor.recompress { gzip := true } ids { content := b } [] = r
    obtain ⟨r, out⟩ := r
    cases r <;> rfl
  rw [this]
  clear this
  generalize r = r' at *
  obtain ⟨r, out⟩ := r'
  cases r with
  | noErrors n =>
    obtain ⟨k1, k2, k3⟩ := hfin n noErrors ((w.put o []).put o out.content) put_same
    exact ⟨k1, k2, k3.trans ⟨fun h => ⟨(fun h => by cases h), h⟩, fun h => h.2⟩⟩
  | fixed n =>
    obtain ⟨k1, k2, k3⟩ := hfin n fixed (((w.put o []).put o out.content).print (parsing true)) put_same
    exact ⟨k1, k2, k3.trans ⟨fun h => ⟨(fun h => by cases h), h⟩, fun h => h.2⟩⟩
  | failed => exact ⟨put_same, .inr rfl, iff_of_false (fun h => by cases h) (fun h => h.1 rfl)⟩

end

section
open Toy

/-- Three files: a plain archive, one that begins with an empty line, and another that is no archive. -/
def exWorld : World where
  files n := if n = lit "a" then some exFile.content else if n = lit "b" then some exBlank else if n = lit "c" then some (utf8Encode (lit "what is this?")) else none
  writable n := n ≠ lit "x"
  stdin := exFile

/-- With `-v`, `recompress` fails for a file for which it does not fail without. -/
theorem C82_verbose_fails :
    (run (fun _ => []) (.recompress (lit "b") (lit "o") false) exWorld).1 = .done ∧ (run (fun _ => []) (.recompress (lit "b") (lit "o") true) exWorld).1 = .exit 1 := by
  decide +kernel

/-- The hypotheses of the theorems above. -/
example : FileName (lit "a") ∧ FileName (lit "o") ∧ lit "a" ≠ lit "o" ∧ exWorld.writable (lit "o") = true ∧ exWorld.files (lit "a") = some exFile.content ∧ exWorld.files (lit "m") = none ∧
    (Checker.processAll false [(lit "a", { content := exFile.content })] 0).1 = .ok 0 := by decide +kernel

example : exWorld.Has [(lit "a", exFile.content), (lit "b", exBlank)] := by
  intro f hf
  rcases List.mem_cons.1 hf with rfl | hf
  · exact ⟨by decide, by decide +kernel⟩
  · rcases List.mem_singleton.1 hf with rfl
    exact ⟨by decide, by decide +kernel⟩

example : exWorld.SameBut (lit "o") (exWorld.put (lit "o") [1, 2, 3]) := ⟨fun _ h => (put_other h).symm, rfl, rfl, rfl⟩

/-- The commands in action: indexing standard input; a missing file behind a bad one; a file that is no archive leaves an empty output. -/
example : (run (fun _ => []) (.index [] (lit "offset") none) exWorld).2.printed = [.text (lit "{\"offset\": \"0\"}\n{\"offset\": \"112\"}\n")] ∧
    (run (fun _ => []) (.check [lit "c", lit "m", lit "a"] false) exWorld).1 = .cannotOpen (lit "m") ∧
    (run (fun _ => []) (.check [lit "c", lit "a"] false) exWorld).1 = .exit 1 ∧
    (run (fun _ => []) (.check [lit "-"] false) exWorld).1 = .raised .attributeError ∧
    (run (fun _ => []) (.recompress (lit "c") (lit "a") false) exWorld).1 = .exit 1 ∧
    (run (fun _ => []) (.recompress (lit "c") (lit "a") false) exWorld).2.files (lit "a") = some [] ∧
    (run (fun _ => []) (.recompress (lit "a") (lit "x") false) exWorld).1 = .exit 1 ∧
    (run (fun _ => []) (.recompress (lit "a") (lit "a") false) exWorld).2.files (lit "a") = some [] := by
  decide +kernel

end
end Warcio.Props

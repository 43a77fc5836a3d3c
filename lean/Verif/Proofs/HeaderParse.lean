import Verif.Model.StatusAndHeaders
import Verif.Spec.Headers
import Verif.Proofs.Stream

/-! # The header parser reads the block and returns its headers -/

set_option linter.unusedSectionVars false

namespace Warcio

theorem splitLines_cons {b : Bytes} (h : b ≠ []) : splitLines b = takeLine b :: splitLines (dropLine b) := by
  induction b with
  | nil => exact absurd rfl h
  | cons x xs ih =>
    by_cases hx : x = 10
    · simp [splitLines, takeLine, dropLine, hx]
    · by_cases hn : xs = []
      · subst hn; simp [splitLines, takeLine, dropLine, hx]
      · simp only [splitLines, takeLine, dropLine, hx, if_false]
        rw [ih hn]

theorem splitLines_flatten (b : Bytes) : (splitLines b).flatten = b := by
  induction b with
  | nil => rfl
  | cons x xs ih =>
    unfold splitLines
    split
    · simp [ih]
    · split
      · rename_i h; rw [h] at ih; simp at ih; simp [← ih]
      · rename_i l ls h; rw [h] at ih; rw [← ih]; simp

theorem splitLines_length_le (b : Bytes) : (splitLines b).length ≤ b.length := by
  induction b with
  | nil => simp [splitLines]
  | cons x xs ih =>
    unfold splitLines
    split
    · simp; omega
    · split
      · simp
      · rename_i l ls h; rw [h] at ih; simp at ih ⊢; omega

/-- `readline()` is exact. -/
structure LineRead {σ : Type} [PyStream σ] (V : σ → Bytes → Prop) : Prop where
  readline_none : ∀ {s rem}, V s rem → ∃ s', PyStream.readline s none = (.ok (takeLine rem), s') ∧ V s' (dropLine rem)
  bound : ∀ {s rem}, V s rem → rem.length ≤ PyStream.bound s

theorem ExactRead.lineRead {σ : Type} [PyStream σ] {V : σ → Bytes → Prop} (h : ExactRead V) : LineRead V :=
  ⟨h.readline_none, h.bound⟩

/-- `readline()` is exact in the states `V`, which are kept up to a blank line; `U` holds
afterwards. -/
structure BlockRead {σ : Type} [PyStream σ] (U V : σ → Bytes → Prop) : Prop where
  readline_none : ∀ {s rem}, V s rem → ∃ s', PyStream.readline s none = (.ok (takeLine rem), s') ∧ U s' (dropLine rem) ∧
    (lineText (takeLine rem) ≠ [] → V s' (dropLine rem))
  weak : ∀ {s rem}, V s rem → U s rem
  bound : ∀ {s rem}, U s rem → rem.length ≤ PyStream.bound s

theorem LineRead.blockRead {σ : Type} [PyStream σ] {V : σ → Bytes → Prop} (h : LineRead V) : BlockRead V V where
  readline_none hs := by
    obtain ⟨s', h1, h2⟩ := h.readline_none hs
    exact ⟨s', h1, h2, fun _ => h2⟩
  weak h := h
  bound := h.bound

theorem decodeHeader_nil : decodeHeader [] = [] := rfl

namespace HeaderParser

variable {σ : Type} [PyStream σ] {U V : σ → Bytes → Prop}

/-- The view in terms of lines. -/
def LV (V : σ → Bytes → Prop) (s : σ) (ls : List Bytes) : Prop := ∃ rem, V s rem ∧ ls = splitLines rem

theorem LV.weak (hL : BlockRead U V) {s : σ} {ls : List Bytes} (h : LV V s ls) : LV U s ls := by
  obtain ⟨rem, h1, rfl⟩ := h
  exact ⟨rem, hL.weak h1, rfl⟩

theorem LV.bound (hL : BlockRead U V) {s : σ} {ls : List Bytes} (h : LV U s ls) : ls.length ≤ PyStream.bound s := by
  obtain ⟨rem, h1, rfl⟩ := h
  exact Nat.le_trans (splitLines_length_le rem) (hL.bound h1)

theorem nextLine_nil (hL : BlockRead U V) {s : σ} (h : LV V s []) (t : Int) :
    ∃ s', nextLine s t = (.ok ([], t), s') ∧ LV U s' [] := by
  obtain ⟨rem, h1, h2⟩ := h
  have : rem = [] := by
    by_cases hr : rem = []
    · exact hr
    · rw [splitLines_cons hr] at h2; cases h2
  subst this
  obtain ⟨s', h3, h4, _⟩ := hL.readline_none h1
  refine ⟨s', ?_, _, h4, rfl⟩
  unfold nextLine
  rw [h3]
  simp [takeLine, decodeHeader_nil, rstrip, rdropWhile, len]

theorem nextLine_cons (hL : BlockRead U V) {s : σ} {l : Bytes} {ls : List Bytes} (h : LV V s (l :: ls)) (t : Int) :
    ∃ s', nextLine s t = (.ok (lineText l, t + len (decodeHeader l)), s') ∧ LV U s' ls ∧ (lineText l ≠ [] → LV V s' ls) := by
  obtain ⟨rem, h1, h2⟩ := h
  have hr : rem ≠ [] := by rintro rfl; cases h2
  rw [splitLines_cons hr] at h2
  cases h2
  obtain ⟨s', h3, h4, h5⟩ := hL.readline_none h1
  refine ⟨s', ?_, ⟨_, h4, rfl⟩, fun hl => ⟨_, h5 hl, rfl⟩⟩
  unfold nextLine
  rw [h3]
  rfl

theorem continues_eq (l : Str) : isContinuation l = continues l := by
  unfold isContinuation continues startsWith
  cases l with
  | nil => rfl
  | cons c t =>
    by_cases h1 : c = ' '
    · subst h1; simp
    · by_cases h2 : c = '\t'
      · subst h2; simp
      · have e1 : ¬ (' ' = c) := fun h => h1 h.symm
        have e2 : ¬ ('\t' = c) := fun h => h2 h.symm
        simp only [List.isPrefixOf_cons_cons, List.isPrefixOf_nil_left, Bool.and_true, beq_eq_false_iff_ne.2 e1, beq_eq_false_iff_ne.2 e2, Bool.or_self]
        split
        · rename_i heq; cases heq; exact absurd rfl h1
        · rename_i heq; cases heq; exact absurd rfl h2
        · rfl

/-- The block when the line `n` has been read already. -/
def block (n : Str) (ls : List Bytes) : List Str × List Bytes × Int :=
  if n = [] then ([], ls, 0) else (n :: (readBlock ls).1, (readBlock ls).2.1, (readBlock ls).2.2)

theorem block_of_readBlock (l : Bytes) (ls : List Bytes) :
    readBlock (l :: ls) = ((block (lineText l) ls).1, (block (lineText l) ls).2.1, len (decodeHeader l) + (block (lineText l) ls).2.2) := by
  unfold readBlock block
  split
  · simp
  · rfl

theorem contLoop_spec (hL : BlockRead U V) : ∀ (ls : List Bytes) (fuel : Nat) (v : Option Str) (n : Str) (t : Int) (s : σ),
    LV U s ls → (n ≠ [] → LV V s ls) → ls.length + 2 ≤ fuel →
    ∃ conts n' t' ls' s', contLoop fuel v n t s = (.ok (v.map (· ++ conts.flatten), n', t'), s') ∧ (LV U s' ls' ∧ (n' ≠ [] → LV V s' ls')) ∧
      ls'.length ≤ ls.length ∧ (∀ c ∈ conts, continues c = true) ∧ continues n' = false ∧
      (block n ls).1 = conts ++ (block n' ls').1 ∧ (block n ls).2.1 = (block n' ls').2.1 ∧
      t + (block n ls).2.2 = t' + (block n' ls').2.2 := by
  intro ls
  induction ls with
  | nil =>
    intro fuel v n t s hu h hf
    obtain ⟨fuel, rfl⟩ : ∃ k, fuel = k + 2 := ⟨fuel - 2, by simp at hf; omega⟩
    unfold contLoop
    rw [continues_eq]
    by_cases hc : continues n = true
    · rw [if_pos hc]
      have hn : n ≠ [] := by rintro rfl; cases hc
      obtain ⟨s', h1, h2⟩ := nextLine_nil hL (h hn) t
      rw [h1]
      simp only
      unfold contLoop
      rw [continues_eq, if_neg (by simp [continues])]
      exact ⟨[n], [], t, [], s', by simp, ⟨h2, fun h => absurd rfl h⟩, Nat.le_refl _, by simpa using hc, rfl, by simp [block, hn, readBlock], by simp [block, hn, readBlock], by simp [block, hn, readBlock]⟩
    · rw [if_neg hc]
      refine ⟨[], n, t, [], s, ?_, ⟨hu, h⟩, Nat.le_refl _, by simp, by simpa using hc, by simp, rfl, rfl⟩
      cases v <;> simp
  | cons l ls ih =>
    intro fuel v n t s hu h hf
    obtain ⟨fuel, rfl⟩ : ∃ k, fuel = k + 1 := ⟨fuel - 1, by simp at hf; omega⟩
    unfold contLoop
    rw [continues_eq]
    by_cases hc : continues n = true
    · rw [if_pos hc]
      have hn : n ≠ [] := by rintro rfl; cases hc
      obtain ⟨s', h1, h2, h3⟩ := nextLine_cons hL (h hn) t
      rw [h1]
      simp only
      obtain ⟨conts, n', t', ls', s'', k1, k2, k3, k4, k5, k6, k7, k8⟩ := ih fuel (v.map (· ++ n)) (lineText l) (t + len (decodeHeader l)) s' h2 h3 (by simp at hf; omega)
      refine ⟨n :: conts, n', t', ls', s'', ?_, k2, by simp; omega, ?_, k5, ?_, ?_, ?_⟩
      · rw [k1]; cases v <;> simp
      · intro c hm
        rcases List.mem_cons.1 hm with rfl | hm
        · exact hc
        · exact k4 c hm
      · rw [block, if_neg hn, block_of_readBlock]; simp [k6]
      · rw [block, if_neg hn, block_of_readBlock]; simp [k7]
      · rw [block, if_neg hn, block_of_readBlock]; simp only; rw [← k8]; omega
    · rw [if_neg hc]
      refine ⟨[], n, t, l :: ls, s, ?_, ⟨hu, h⟩, Nat.le_refl _, by simp, by simpa using hc, by simp, rfl, rfl⟩
      cases v <;> simp

theorem groupLines_conts (conts rest : List Str) (h : ∀ c ∈ conts, continues c = true) :
    groupLines (conts ++ rest) = (conts ++ (groupLines rest).1, (groupLines rest).2) := by
  induction conts with
  | nil => rfl
  | cons c cs ih =>
    have := h c List.mem_cons_self
    simp only [List.cons_append, groupLines, ih (fun x hx => h x (List.mem_cons_of_mem _ hx)), this, if_true]

theorem headersOf_conts (l : Str) (conts rest : List Str) (h : ∀ c ∈ conts, continues c = true)
    (hr : ∀ n t, rest = n :: t → continues n = false) :
    headersOf (l :: (conts ++ rest)) = (headerOf (l, conts)).toList ++ headersOf rest := by
  simp only [headersOf]
  rw [groupLines_conts conts rest h]
  cases rest with
  | nil => simp [groupLines, headersOf, List.filterMap_cons]; cases headerOf (l, conts) <;> simp
  | cons n t =>
    have := hr n t rfl
    simp only [groupLines, headersOf, this, Bool.false_eq_true, if_false, List.append_nil]
    rw [List.filterMap_cons]
    cases headerOf (l, conts) <;> simp

theorem splitHeader_spec (l : Str) (conts : List Str) :
    headerOf (l, conts) = ((splitHeader l).2.map (· ++ conts.flatten)).map (fun v => ((splitHeader l).1, v)) := by
  unfold headerOf splitHeader
  simp only
  cases hs : split1 ':' l with
  | mk n v => cases v <;> simp

theorem headerLoop_spec (hL : BlockRead U V) : ∀ (k : Nat) (ls : List Bytes), ls.length ≤ k → ∀ (fuel : Nat) (n : Str) (t : Int) (hs : List Header) (s : σ),
    LV U s ls → (n ≠ [] → LV V s ls) → ls.length + 2 ≤ fuel →
    ∃ s', headerLoop fuel n t hs s = (.ok (hs ++ headersOf (block n ls).1, t + (block n ls).2.2), s') ∧ LV U s' (block n ls).2.1 := by
  intro k
  induction k with
  | zero =>
    intro ls hk fuel n t hs s hu h hf
    have : ls = [] := List.length_eq_zero_iff.1 (by omega)
    subst this
    obtain ⟨fuel, rfl⟩ : ∃ k, fuel = k + 2 := ⟨fuel - 2, by simp at hf; omega⟩
    unfold headerLoop
    by_cases hn : n = []
    · subst hn
      exact ⟨s, by simp [block, headersOf], hu⟩
    · rw [if_neg (by simpa using hn)]
      obtain ⟨s1, h1, h2⟩ := nextLine_nil hL (h hn) t
      rw [h1]
      simp only
      obtain ⟨conts, n', t', ls', s2, k1, k2, k3, k4, k5, k6, k7, k8⟩ := contLoop_spec hL [] (PyStream.bound s1 + 2) (splitHeader n).2 [] t s1 h2 (fun h => absurd rfl h) (by simp)
      rw [k1]
      simp only
      have e1 : conts = [] ∧ (block n' ls').1 = [] := by
        have : (block [] ([] : List Bytes)).1 = [] := rfl
        rw [this] at k6
        exact List.append_eq_nil_iff.1 k6.symm
      have e2 : n' = [] := by
        by_cases hh : n' = []
        · exact hh
        · have := e1.2; simp [block, hh] at this
      have e3 : ls' = [] := List.length_eq_zero_iff.1 (by simpa using k3)
      obtain ⟨rfl, _⟩ := e1
      subst e2 e3
      have e4 : t' = t := by simp [block] at k8; omega
      subst e4
      have hb : block n ([] : List Bytes) = ([n], [], 0) := by simp [block, hn, readBlock]
      rw [hb]
      have := splitHeader_spec n []
      cases hv : (splitHeader n).2 with
      | none =>
        rw [hv] at this
        simp only [Option.map_none]
        unfold headerLoop
        exact ⟨s2, by simp [headersOf, groupLines, this], k2.1⟩
      | some v =>
        rw [hv] at this
        simp only [Option.map_some]
        unfold headerLoop
        exact ⟨s2, by simp [headersOf, groupLines, this], k2.1⟩
  | succ k ih =>
    intro ls hk fuel n t hs s hu h hf
    cases ls with
    | nil => exact ih [] (by simp) fuel n t hs s hu h hf
    | cons l ls =>
      obtain ⟨fuel, rfl⟩ : ∃ k, fuel = k + 1 := ⟨fuel - 1, by simp at hf; omega⟩
      unfold headerLoop
      by_cases hn : n = []
      · subst hn
        exact ⟨s, by simp [block, headersOf], hu⟩
      · rw [if_neg (by simpa using hn)]
        obtain ⟨s1, h1, h2, h3⟩ := nextLine_cons hL (h hn) t
        rw [h1]
        simp only
        have hb := LV.bound hL h2
        obtain ⟨conts, n', t', ls', s2, k1, k2, k3, k4, k5, k6, k7, k8⟩ := contLoop_spec hL ls (PyStream.bound s1 + 2) (splitHeader n).2 (lineText l) (t + len (decodeHeader l)) s1 h2 h3 (by omega)
        rw [k1]
        simp only
        have hblk : block n (l :: ls) = (n :: (conts ++ (block n' ls').1), (block n' ls').2.1, t' - t + (block n' ls').2.2) := by
          rw [block, if_neg hn, block_of_readBlock, ← k6, ← k7]
          simp only
          congr 2
          omega
        have hr : ∀ m x, (block n' ls').1 = m :: x → continues m = false := by
          intro m x hm
          unfold block at hm
          split at hm
          · cases hm
          · cases hm; exact k5
        have hH := headersOf_conts n conts (block n' ls').1 k4 hr
        rw [hblk]
        simp only
        rw [hH]
        have := splitHeader_spec n conts
        simp only [List.length_cons] at hk hf
        cases hv : (splitHeader n).2 with
        | none =>
          rw [hv] at this
          obtain ⟨s3, m1, m2⟩ := ih ls' (by omega) fuel n' t' hs s2 k2.1 k2.2 (by omega)
          refine ⟨s3, ?_, m2⟩
          simp only [Option.map_none]
          rw [m1, this]
          simp only [Option.map_none, Option.toList_none, List.nil_append]
          congr 3; omega
        | some v =>
          rw [hv] at this
          obtain ⟨s3, m1, m2⟩ := ih ls' (by omega) fuel n' t' (hs ++ [((splitHeader n).1, v ++ conts.flatten)]) s2 k2.1 k2.2 (by omega)
          refine ⟨s3, ?_, m2⟩
          simp only [Option.map_some]
          rw [m1, this]
          simp only [Option.map_some, Option.toList_some, List.append_assoc]
          congr 3; omega

/-- The parser as a function of the first line and the lines behind it. -/
def parseLines [PyUni] (c : HeaderParser) (full : Str) (ls : List Bytes) : Except PyErr StatusAndHeaders × List Bytes :=
  if full = [] then (.error .eofError, ls)
  else if rstrip full = [] then (.ok { statusline := [], headers := [], protocol := [], totalLen := len full }, ls)
  else
    match c.protocolStatus full (rstrip full) with
    | .error e => (.error e, ls)
    | .ok ps =>
      (.ok { statusline := strip (ps.2.getD []), headers := headersOf (readBlock ls).1, protocol := ps.1,
             totalLen := len full + (readBlock ls).2.2 }, (readBlock ls).2.1)

theorem parseFrom_block [PyUni] (hL : BlockRead U V) (c : HeaderParser) (full : Str) {s : σ} {ls : List Bytes} (hu : LV U s ls)
    (h : rstrip full ≠ [] → LV V s ls) :
    ∃ s', c.parseFrom full s = ((c.parseLines full ls).1, s') ∧ LV U s' (c.parseLines full ls).2 := by
  unfold parseFrom parseLines
  by_cases h0 : full = []
  · simp only [h0, List.isEmpty_nil, if_true]
    exact ⟨s, rfl, hu⟩
  · simp only [h0, List.isEmpty_iff, if_false]
    by_cases h1 : rstrip full = []
    · simp only [h1, if_true]; exact ⟨s, rfl, hu⟩
    · have h := h h1
      simp only [h1, if_false]
      cases hp : c.protocolStatus full (rstrip full) with
      | error e => exact ⟨s, rfl, hu⟩
      | ok ps =>
        simp only
        cases ls with
        | nil =>
          obtain ⟨s1, k1, k2⟩ := nextLine_nil hL h (len full)
          rw [k1]; simp only
          obtain ⟨s2, k3, k4⟩ := headerLoop_spec hL 0 [] (by simp) (PyStream.bound s1 + 2) [] (len full) [] s1 k2 (fun h => absurd rfl h) (by simp)
          rw [k3]; simp only
          refine ⟨s2, ?_, k4⟩
          cases ps.2 <;> rfl
        | cons l ls =>
          obtain ⟨s1, k1, k2, k2'⟩ := nextLine_cons hL h (len full)
          rw [k1]; simp only
          have hb := LV.bound hL k2
          obtain ⟨s2, k3, k4⟩ := headerLoop_spec hL _ ls (Nat.le_refl _) (PyStream.bound s1 + 2) (lineText l) (len full + len (decodeHeader l)) [] s1 k2 k2' (by omega)
          rw [k3, block_of_readBlock]; simp only
          refine ⟨s2, ?_, k4⟩
          simp only [List.nil_append, Int.add_assoc]
          cases ps.2 <;> rfl

theorem parseFrom_spec [PyUni] (hL : LineRead V) (c : HeaderParser) (full : Str) {s : σ} {ls : List Bytes} (h : LV V s ls) :
    ∃ s', c.parseFrom full s = ((c.parseLines full ls).1, s') ∧ LV V s' (c.parseLines full ls).2 :=
  parseFrom_block hL.blockRead c full h (fun _ => h)

/-- The parser as a function of the lines. -/
def parseAll [PyUni] (c : HeaderParser) : List Bytes → Except PyErr StatusAndHeaders × List Bytes
  | [] => (.error .eofError, [])
  | l :: ls => c.parseLines (decodeHeader l) ls

theorem parse_block [PyUni] (hL : BlockRead U V) (c : HeaderParser) {s : σ} {ls : List Bytes} (h : LV V s ls) :
    ∃ s', c.parse s none = ((c.parseAll ls).1, s') ∧ LV U s' (c.parseAll ls).2 := by
  obtain ⟨rem, h1, rfl⟩ := h
  obtain ⟨s1, k1, k2, k3⟩ := hL.readline_none h1
  unfold parse
  rw [k1]
  simp only
  by_cases hr : rem = []
  · subst hr
    exact ⟨s1, rfl, _, k2, rfl⟩
  · rw [splitLines_cons hr]
    exact parseFrom_block hL c _ ⟨_, k2, rfl⟩ (fun h => ⟨_, k3 h, rfl⟩)

theorem parse_spec [PyUni] (hL : LineRead V) (c : HeaderParser) {s : σ} {ls : List Bytes} (h : LV V s ls) :
    ∃ s', c.parse s none = ((c.parseAll ls).1, s') ∧ LV V s' (c.parseAll ls).2 := parse_block hL.blockRead c h

theorem parse_line_spec [PyUni] (hL : LineRead V) (c : HeaderParser) (l : Line) {s : σ} {ls : List Bytes} (h : LV V s ls) :
    ∃ s', c.parse s (some l) = ((c.parseLines l.decode ls).1, s') ∧ LV V s' (c.parseLines l.decode ls).2 :=
  parseFrom_spec hL c _ h

theorem LV.flatten {s : σ} {ls : List Bytes} (h : LV V s ls) : V s ls.flatten := by
  obtain ⟨rem, h1, rfl⟩ := h
  rwa [splitLines_flatten]

end HeaderParser
end Warcio

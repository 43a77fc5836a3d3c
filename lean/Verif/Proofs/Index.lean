import Verif.Spec.Index
import Verif.Proofs.Ready
import Verif.Proofs.Rewrite

/-! # The indexer -/

set_option linter.unusedSectionVars false

namespace Warcio
namespace Indexer

theorem dictSet_new {k v : Str} : ∀ {d : List (Str × Str)}, k ∉ d.map (·.1) → dictSet k v d = d ++ [(k, v)]
  | [], _ => rfl
  | (k', v') :: t, h => by
    simp only [List.map_cons, List.mem_cons, not_or] at h
    rw [dictSet, if_neg h.1, dictSet_new h.2]
    rfl

theorem dictSet_same {k v : Str} : ∀ {d : List (Str × Str)}, (k, v) ∈ d → (d.map (·.1)).Nodup → dictSet k v d = d
  | [], h, _ => by simp at h
  | (k', v') :: t, h, hn => by
    rw [dictSet]
    simp only [List.map_cons, List.nodup_cons] at hn
    rcases List.mem_cons.1 h with h | hm
    · cases h; rw [if_pos rfl]
    · have : k ≠ k' := by
        intro hk
        exact hn.1 (List.mem_map.2 ⟨(k, v), hm, hk⟩)
      rw [if_neg this, dictSet_same hm hn.2]

variable {σ : Type} [Zlib] [PyStream σ] [Hashlib] [PyUni]

theorem basename_spec (p : Str) : IsBasename p (basename p) := by
  unfold basename
  constructor
  · rw [List.mem_reverse]
    intro h
    have : ∀ (l : Str), '/' ∉ l.takeWhile (fun c => decide (c ≠ '/')) := by
      intro l
      induction l with
      | nil => simp
      | cons c l ih =>
        rw [List.takeWhile_cons]
        split
        · rename_i hc
          rw [List.mem_cons, not_or]
          exact ⟨fun h => of_decide_eq_true hc h.symm, ih⟩
        · simp
    exact this _ h
  · have h := List.takeWhile_append_dropWhile (p := fun c => decide (c ≠ '/')) (l := p.reverse)
    have h2 := congrArg List.reverse h
    rw [List.reverse_append, List.reverse_reverse] at h2
    cases hd : p.reverse.dropWhile (fun c => decide (c ≠ '/')) with
    | nil => left; rw [hd] at h2; simpa using h2.symm
    | cons c t =>
      right
      have hc := List.head?_dropWhile_not (p := fun c => decide (c ≠ '/')) (l := p.reverse)
      rw [hd] at hc
      simp at hc
      subst hc
      refine ⟨t.reverse, ?_⟩
      rw [hd] at h2
      simpa using h2.symm

theorem basename_unique {p a b : Str} (ha : IsBasename p a) (hb : IsBasename p b) : a = b := by
  have key : ∀ {x : Str}, IsBasename p x → basename p = x := by
    intro x hx
    obtain ⟨h1, h2⟩ := hx
    unfold basename
    rcases h2 with rfl | ⟨dir, rfl⟩
    · have := List.takeWhile_append_of_pos (p := fun c => decide (c ≠ '/')) (l₁ := p.reverse) (l₂ := []) ?_
      · simp only [List.append_nil, List.takeWhile_nil] at this
        rw [this, List.reverse_reverse]
      intro c hc
      simp only [ne_eq, decide_not, Bool.not_eq_eq_eq_not, Bool.not_true, decide_eq_false_iff_not]
      rintro rfl
      exact h1 (List.mem_reverse.1 hc)
    · rw [List.reverse_append, List.reverse_cons, List.append_assoc, List.takeWhile_append_of_pos]
      · simp
      · intro c hc
        simp only [ne_eq, decide_not, Bool.not_eq_eq_eq_not, Bool.not_true, decide_eq_false_iff_not]
        rintro rfl
        exact h1 (List.mem_reverse.1 hc)
  rw [← key ha, ← key hb]

/-- `getField` gives this value, in any state of the current record. -/
def Gives (multi : Bool) (last : Option PyErr) (e : Expected) (es : List Expected) (filename : Str) (rec : Record Unit) (name : Str) (v : Option Str) : Prop :=
  ∀ {it : ArchiveIter σ} {left : Bytes}, ArchiveIter.Now multi last it e left es → ∃ it' left', getField filename rec name it = (.ok v, it') ∧ ArchiveIter.Now multi last it' e left' es

variable {last : Option PyErr} {e : Expected} {es : List Expected} {filename : Str} {rec : Record Unit}

/-- The entry of a record, if each field has a value in every state with `I`. -/
theorem entry_inv {I : ArchiveIter σ → Prop} {val : Str → Option Str} : ∀ (names seen : List Str) (index : List (Str × Str)) {it : ArchiveIter σ}, I it →
    (∀ n ∈ names, ∀ {it : ArchiveIter σ}, I it → ∃ it', getField filename rec n it = (.ok (val n), it') ∧ I it') → (∀ n ∈ seen, ∀ v, val n = some v → (n, v) ∈ index) → (∀ k ∈ index.map (·.1), k ∈ seen) → (index.map (·.1)).Nodup →
    ∃ it', entry filename rec names index it = (.ok (index ++ (names.filter (fun n => !seen.contains n)).eraseDups.filterMap (fun n => (val n).map (fun v => (n, v)))), it') ∧
      I it'
  | [], seen, index, it, h, _, _, _, _ => ⟨it, by simp [entry], h⟩
  | n :: names, seen, index, it, h, hg, h1, h2, h3 => by
    obtain ⟨it1, k1, k2⟩ := hg n (by simp) h
    unfold entry
    rw [k1]
    by_cases hs : n ∈ seen
    · have hf : (n :: names).filter (fun n => !seen.contains n) = names.filter (fun n => !seen.contains n) := by
        rw [List.filter_cons_of_neg (by simpa using hs)]
      rw [hf]
      cases hv : val n with
      | none => exact entry_inv names seen index k2 (fun x hx => hg x (by simp [hx])) h1 h2 h3
      | some v =>
        dsimp only
        rw [dictSet_same (h1 n hs v hv) h3]
        exact entry_inv names seen index k2 (fun x hx => hg x (by simp [hx])) h1 h2 h3
    · have hf : ((n :: names).filter (fun n => !seen.contains n)).eraseDups = n :: (names.filter (fun x => !(n :: seen).contains x)).eraseDups := by
        rw [List.filter_cons_of_pos (by simpa using hs), List.eraseDups_cons, List.filter_filter]
        congr 2
        refine List.filter_congr fun x _ => ?_
        by_cases hx : x = n <;> simp [hx]
      rw [hf]
      cases hv : val n with
      | none =>
        obtain ⟨it2, m1, m2⟩ := entry_inv names (n :: seen) index k2 (fun x hx => hg x (by simp [hx]))
          (by intro x hx v hxv
              rcases List.mem_cons.1 hx with rfl | hx
              · rw [hv] at hxv; cases hxv
              · exact h1 x hx v hxv)
          (fun k hk => List.mem_cons_of_mem _ (h2 k hk)) h3
        refine ⟨it2, ?_, m2⟩
        dsimp only
        rw [m1, List.filterMap_cons, hv]
        rfl
      | some v =>
        have hn : n ∉ index.map (·.1) := fun h => hs (h2 n h)
        obtain ⟨it2, m1, m2⟩ := entry_inv names (n :: seen) (index ++ [(n, v)]) k2 (fun x hx => hg x (by simp [hx]))
          (by intro x hx v' hxv
              rcases List.mem_cons.1 hx with rfl | hx
              · rw [hv] at hxv; cases hxv; simp
              · exact List.mem_append_left _ (h1 x hx v' hxv))
          (by intro k hk
              rw [List.map_append, List.mem_append] at hk
              rcases hk with hk | hk
              · exact List.mem_cons_of_mem _ (h2 k hk)
              · simp at hk; simp [hk])
          (by rw [List.map_append, List.nodup_append]
              refine ⟨h3, by simp, ?_⟩
              intro a ha b hb
              simp at hb
              rintro rfl
              exact hn (hb ▸ ha))
        refine ⟨it2, ?_, m2⟩
        dsimp only
        rw [dictSet_new hn, m1, List.filterMap_cons, hv]
        simp

theorem entry_spec {multi : Bool} {val : Str → Option Str} (names seen : List Str) (index : List (Str × Str)) {it : ArchiveIter σ} {left : Bytes} (h : ArchiveIter.Now multi last it e left es)
    (hg : ∀ n ∈ names, Gives (σ := σ) multi last e es filename rec n (val n)) (h1 : ∀ n ∈ seen, ∀ v, val n = some v → (n, v) ∈ index) (h2 : ∀ k ∈ index.map (·.1), k ∈ seen) (h3 : (index.map (·.1)).Nodup) :
    ∃ it' left', entry filename rec names index it = (.ok (index ++ (names.filter (fun n => !seen.contains n)).eraseDups.filterMap (fun n => (val n).map (fun v => (n, v)))), it') ∧
      ArchiveIter.Now multi last it' e left' es := by
  obtain ⟨it', k1, left', k2⟩ := entry_inv (I := fun it => ∃ left, ArchiveIter.Now multi last it e left es) names seen index ⟨left, h⟩
    (fun n hn _ hi => by
      obtain ⟨left, hi⟩ := hi
      obtain ⟨it', left', k1, k2⟩ := hg n hn hi
      exact ⟨it', k1, left', k2⟩) h1 h2 h3
  exact ⟨it', left', k1, k2⟩

omit [PyUni] [Zlib] [PyStream σ] [Hashlib] in
theorem clean_tidied (u : Str) : CleanUri u (tidied u) := by
  cases u with
  | nil => exact .plain [] (fun m h => by cases h)
  | cons c t =>
    by_cases hc : c = '<'
    · subst hc
      rw [tidied]
      split
      · rename_i h
        have e := List.dropLast_concat_getLast (l := t) (by rintro rfl; cases h)
        have e2 : t.getLast (by rintro rfl; cases h) = '>' := by
          rw [List.getLast?_eq_some_getLast (by rintro rfl; cases h)] at h
          exact Option.some.inj h
        rw [e2] at e
        have := CleanUri.brackets t.dropLast
        rw [List.cons_append, e] at this
        exact this
      · rename_i h
        refine .plain _ fun m hm => h ?_
        have := (List.cons.inj hm).2
        rw [this]
        simp
    · have : tidied (c :: t) = noSpaces (c :: t) := by
        unfold tidied
        split
        · rename_i t' heq
          exact absurd (List.cons.inj heq).1 hc
        · rfl
      rw [this]
      exact .plain _ fun m hm => hc (List.cons.inj hm).1

/-- The value of a field. -/
theorem getField_gives {multi : Bool} {x : Located} {io : IterOpts} {m : Nat} {left : Bytes} (hs : x.record.Shows io m rec left) (he : e.off = x.offset) (hz : e.size = x.size) {name base : Str} (hb : IsBasename filename base)
    (hh : lit "http:" <+: name → io.noRecordParse = false ∧ io.ensureHttpHeaders = false ∧ x.record.HttpPart m x.http)
    (hu : PyUni.lower name = PyUni.lower (lit "WARC-Target-URI") → (x.record.headers.filter (StatusAndHeaders.nameEq (lit "WARC-Target-URI"))).length ≤ 1)
    (hm : multi = true → name ≠ lit "length") :
    Gives (σ := σ) multi last e es filename rec name (x.field base name) := by
  intro it left' hn
  have http : lit "http:" <+: name → ∃ y, rec.httpHeaders = y ∧ Loader.truthyHeaders rec.httpHeaders = x.http.isSome ∧ y.map (fun h => (h.statusline, h.headers)) = x.http.map (fun h => (h.statusline, h.headers)) := by
    intro hp
    obtain ⟨h1, h2, h3⟩ := hh hp
    cases hx : x.http with
    | none =>
      rw [hx] at h3
      cases h3 with
      | none h0 =>
        obtain ⟨-, -, k3⟩ := hs.block (.inr h0)
        rw [k3 h2]
        exact ⟨none, rfl, rfl, rfl⟩
    | some h =>
      rw [hx] at h3
      cases h3 with
      | head _ lft g1 g2 g3 g4 g5 =>
        obtain ⟨y, k1, k2⟩ := hs.http h1 g1 g2 g3
        obtain ⟨d1, d2, d3, d4⟩ := k1.det g4
        obtain ⟨k3, -⟩ := k2 (by rw [d2, d3]; exact g5)
        rw [k3]
        refine ⟨some y, rfl, ?_, by rw [Option.map_some, Option.map_some, d2, d3]⟩
        show y.truthy = true
        unfold StatusAndHeaders.truthy
        rcases g5 with hne | hne
        · rw [← d2] at hne
          cases hs : y.statusline <;> simp_all
        · rw [← d3] at hne
          cases hs : y.headers <;> simp_all
  have number : ∀ {op : UserOp} {n : Int}, ArchiveIter.GzOps multi op → (∀ v l, ArchiveIter.OpOk e it.ended left' op v l → v = .int n) → ∃ it' l, op.run it = (.ok (.int n), it') ∧ ArchiveIter.Now multi last it' e l es := by
    intro op n hop hv
    obtain ⟨v, it', l, k1, k2, k3⟩ := hn.op hop
    rw [hv v l k2] at k1
    exact ⟨it', l, k1, k3⟩
  have hb' : basename filename = base := basename_unique (basename_spec _) hb
  unfold getField Located.field
  split
  · obtain ⟨it', l, k1, k2⟩ := number (op := .offset) (n := x.offset) ⟨trivial, fun _ h => by cases h⟩ (by rintro v l ⟨rfl, -⟩; rw [he])
    simp only [UserOp.run] at k1
    refine ⟨it', l, ?_, k2⟩
    generalize it.getRecordOffset = r at k1
    obtain ⟨r, it2⟩ := r
    cases r with
    | error e => simp [Except.map] at k1
    | ok n =>
      simp only [Except.map, Prod.mk.injEq, Except.ok.injEq, UserVal.int.injEq] at k1
      obtain ⟨rfl, rfl⟩ := k1
      rfl
  split
  · rename_i hname
    obtain ⟨it', l, k1, k2⟩ := number (op := .size) (n := x.size) ⟨trivial, fun h => absurd hname (hm h)⟩ (by rintro v l ⟨rfl, -⟩; rw [hz])
    simp only [UserOp.run] at k1
    refine ⟨it', l, ?_, k2⟩
    generalize it.getRecordLength = r at k1
    obtain ⟨r, it2⟩ := r
    cases r with
    | error e => simp [Except.map] at k1
    | ok n =>
      simp only [Except.map, Prod.mk.injEq, Except.ok.injEq, UserVal.int.injEq] at k1
      obtain ⟨rfl, rfl⟩ := k1
      rfl
  split
  · rw [hb']; exact ⟨it, left', rfl, hn⟩
  split
  · rename_i hname
    obtain ⟨y, y1, y2, y3⟩ := http (by rw [hname]; decide)
    rw [y1] at y2 ⊢
    rw [hs.recType]
    refine ⟨it, left', ?_, hn⟩
    cases y with
    | none =>
      have hx : x.http = none := by cases h : x.http <;> simp_all
      rw [hx]
      simp [Loader.truthyHeaders]
    | some y =>
      obtain ⟨h, hx⟩ : ∃ h, x.http = some h := by
        cases h : x.http with
        | none => rw [h] at y3; cases y3
        | some h' => exact ⟨h', rfl⟩
      rw [hx] at y2 y3 ⊢
      simp only [Option.map_some, Option.some.injEq, Prod.mk.injEq] at y3
      simp only [y2, Option.isSome_some, and_true, List.mem_cons, List.not_mem_nil, or_false, Option.map_some, StatusAndHeaders.getStatuscode, y3.1]
      split <;> rfl
  have hsw : startsWith (lit "http:") name = true ↔ lit "http:" <+: name := by unfold startsWith; exact List.isPrefixOf_iff_prefix
  by_cases hp : lit "http:" <+: name
  · rw [if_pos (hsw.2 hp), if_pos hp]
    obtain ⟨y, y1, y2, y3⟩ := http hp
    refine ⟨it, left', ?_, hn⟩
    rw [y1] at y2 ⊢
    rw [y2]
    cases y with
    | none =>
      have hx : x.http = none := by cases h : x.http <;> simp_all
      rw [hx]
      rfl
    | some y =>
      obtain ⟨h, hx⟩ : ∃ h, x.http = some h := by
        cases h : x.http with
        | none => rw [h] at y3; cases y3
        | some h' => exact ⟨h', rfl⟩
      rw [hx] at y3 ⊢
      simp only [Option.map_some, Option.some.injEq, Prod.mk.injEq] at y3
      dsimp only [Option.isSome_some, Option.bind_some]
      rw [if_pos rfl, ← y3.2, StatusAndHeaders.getHeader, Loader.firstValue_eq]
  · rw [if_neg (by rw [hsw]; exact hp), if_neg hp]
    refine ⟨it, left', ?_, hn⟩
    by_cases hl : PyUni.lower name = PyUni.lower (lit "WARC-Target-URI")
    · rw [if_pos hl, StatusAndHeaders.getHeader, ← Loader.firstValue_eq]
      have hv : x.record.value name = firstValue name x.record.headers := rfl
      rcases hs.cleaned.uri (hu hl) hl with ⟨g1, g2⟩ | ⟨u, v, g1, g2, g3⟩
      · rw [g2, hv, g1]; rfl
      · rw [g3, hv, g1, Loader.clean_unique g2 (clean_tidied u)]; rfl
    · rw [if_neg hl, hs.others name hl]

end Indexer
end Warcio

import Verif.Spec.CaptureScope
import Verif.Props.Writer

/-!
# Property C72: which connections are recorded, and where

Specification: `Verif/Spec/CaptureScope.lean`.
-/

set_option linter.unusedSectionVars false

namespace Warcio.Props

open Warcio CaptureScope

section
variable {τ : Type} [PyStream τ] [PyUni] [Hashlib] [Deflater]

/-- The world is as the history says. -/
structure Agrees (h : History) (w : World τ) : Prop where
  blocks : w.blocks.length = h.blocks
  conns : w.conns = h.owners
  current : ∀ t, w.local_ t = if h.ended t = true then none else (h.inside t).head?

/-- Blocks are entered before they are in use. -/
structure Before (h : History) : Prop where
  inside : ∀ t, ∀ j ∈ h.inside t, j < h.blocks
  owners : ∀ j, some j ∈ h.owners → j < h.blocks

omit [PyStream τ] [PyUni] [Hashlib] [Deflater] in
theorem Before.next {h : History} (H : Before h) (a : Act τ) : Before (h.next a) := by
  have hgo : ∀ t, Before { h with inside := fun u => if u = t then h.blocks :: h.inside t else h.inside u, ended := fun u => if u = t then false else h.ended u, blocks := h.blocks + 1 } := by
    refine fun t => ⟨fun u j hj => ?_, fun j hj => Nat.lt_succ_of_lt (H.owners j hj)⟩
    show j < h.blocks + 1
    simp only at hj
    split at hj
    · rcases List.mem_cons.1 hj with rfl | hj
      · omega
      · exact Nat.lt_succ_of_lt (H.inside _ j hj)
    · exact Nat.lt_succ_of_lt (H.inside _ j hj)
  cases a with
  | enter t a asked fp =>
    simp only [History.next]
    split
    · exact H
    · exact hgo t
  | leave t k =>
    refine ⟨fun u j hj => ?_, H.owners⟩
    simp only [History.next] at hj
    split at hj
    · exact H.inside _ j (List.mem_of_mem_tail hj)
    · exact H.inside _ j hj
  | connect t =>
    refine ⟨H.inside, fun j hj => ?_⟩
    rcases List.mem_append.1 hj with hj | hj
    · exact H.owners j hj
    · have := List.mem_singleton.1 hj
      exact H.inside t j (List.mem_of_mem_head? this.symm)
  | event i e => exact H

theorem Agrees.next {h : History} {w : World τ} (H : Agrees h w) (a : Act τ) (hp : h.Plain a) : Agrees (h.next a) (step w a).2 := by
  obtain ⟨H1, H2, H3⟩ := H
  cases a with
  | enter t a asked fp =>
    have hgo : ∀ out, a.target.open = some out → Agrees { h with inside := fun u => if u = t then h.blocks :: h.inside t else h.inside u, ended := fun u => if u = t then false else h.ended u, blocks := h.blocks + 1 }
        (step w (.enter t a asked fp)).2 := by
      intro out ho
      simp only [step, ho]
      refine ⟨by simp [World.set, H1], H2, fun u => ?_⟩
      show (if u = t then some w.blocks.length else w.local_ u) = _
      by_cases hu : u = t
      · simp [hu, H1]
      · simp [hu, H3]
    obtain ⟨target, cfg, filter, ip⟩ := a
    cases target with
    | buffer => exact hgo _ rfl
    | writer o => exact hgo _ rfl
    | file ap ex =>
      cases ap with
      | true => cases ex <;> exact hgo _ rfl
      | false =>
        cases ex with
        | none => exact hgo _ rfl
        | some b => exact ⟨H1, H2, H3⟩
  | leave t k =>
    refine ⟨by simp [step, World.set, H1, History.next], H2, fun u => ?_⟩
    show (if u = t then none else w.local_ u) = _
    by_cases hu : u = t
    · simp [hu, History.next]
    · simp [hu, H3, History.next]
  | connect t =>
    refine ⟨H1, ?_, H3⟩
    show w.conns ++ [w.local_ t] = h.owners ++ [(h.inside t).head?]
    rw [H2, H3]
    rcases hp with hp | hp
    · simp [hp]
    · simp [hp]
  | event i e =>
    have hb : ((step w (.event i e)).2.blocks.length = w.blocks.length ∧ (step w (.event i e)).2.conns = w.conns ∧ (step w (.event i e)).2.local_ = w.local_) := by
      simp only [step]
      split
      · split
        · exact ⟨by simp, rfl, rfl⟩
        · exact ⟨rfl, rfl, rfl⟩
      · exact ⟨rfl, rfl, rfl⟩
    exact ⟨hb.1.trans H1, hb.2.1.trans H2, fun t => by rw [hb.2.2, H3]; rfl⟩

/-- A block that is there goes on recording its connections. -/
theorem block_runs {k : Nat} : ∀ (as : List (Act τ)) {h : History} {w : World τ} {b : Block τ}, Agrees h w → h.All History.Plain as → w.blocks[k]? = some b → b.closed = false →
    (b.named = false ∨ ∀ t, .leave t k ∉ as) → ∃ b', (run w as).2.blocks[k]? = some b' ∧ b'.cfg = b.cfg ∧ b'.filter = b.filter ∧
      b'.state = (Capture.run b.cfg b.filter b.state (h.traffic k as)).2
  | [], _, _, b, _, _, h1, _, _ => ⟨b, h1, rfl, rfl, rfl⟩
  | a :: as, h, w, b, H, hp, h1, h2, h3 => by
    have H' := H.next a hp.1
    have hk : k < w.blocks.length := (List.getElem?_eq_some_iff.1 h1).1
    have h3' : b.named = false ∨ ∀ t, .leave t k ∉ as := h3.imp id (fun h t hm => h t (by simp [hm]))
    have same : (step w a).2.blocks[k]? = some b → h.traffic k (a :: as) = (h.next a).traffic k as →
        ∃ b', (run w (a :: as)).2.blocks[k]? = some b' ∧ b'.cfg = b.cfg ∧ b'.filter = b.filter ∧ b'.state = (Capture.run b.cfg b.filter b.state (h.traffic k (a :: as))).2 := by
      intro e1 e2
      rw [e2]
      exact block_runs as H' hp.2 e1 h2 h3'
    cases a with
    | enter t a asked fp =>
      refine same ?_ rfl
      simp only [step]
      split
      · exact h1
      · show (w.blocks ++ [_])[k]? = _
        rw [List.getElem?_append_left hk]; exact h1
    | leave t j =>
      refine same ?_ rfl
      show (w.blocks.modify j _)[k]? = _
      rw [List.getElem?_modify]
      by_cases hj : j = k
      · subst hj
        rcases h3 with h3 | h3
        · rw [h1]
          simp only [if_true]
          have e : ({ b with closed := b.closed || b.named } : Block τ) = b := by
            obtain ⟨_, _, _, _, _⟩ := b
            simp_all
          exact congrArg some e
        · exact absurd (List.mem_cons_self ..) (h3 t)
      · simp [hj, h1]
    | connect t => exact same h1 rfl
    | event i e =>
      have hi : w.conns[i]? = h.owners[i]? := by rw [H.conns]
      by_cases ho : h.owners[i]? = some (some k)
      · have e1 : h.traffic k (.event i e :: as) = e :: h.traffic k as := by simp [History.traffic, ho]
        have e2 : (step w (.event i e)).2 = { w with blocks := w.blocks.set k (b.step e).2 } := by
          simp only [step, hi, ho, h1]
        have e3 : (b.step e).2 = { b with state := (Capture.step b.cfg b.filter b.state e).2 } := by
          simp only [Block.step, h2, Bool.false_and, Bool.false_eq_true, if_false]
        have e4 : (step w (.event i e)).2.blocks[k]? = some (b.step e).2 := by
          rw [e2]
          show (w.blocks.set k _)[k]? = _
          rw [List.getElem?_set_self hk]
        obtain ⟨b', k1, k2, k3, k4⟩ := block_runs as H' hp.2 e4 (by rw [e3]; exact h2) (by rw [e3]; exact h3')
        refine ⟨b', k1, by rw [k2, e3], by rw [k3, e3], ?_⟩
        rw [k4, e1, e3]
        rfl
      · refine same ?_ (by simp [History.traffic, ho, History.next])
        simp only [step, hi]
        split
        · rename_i j hj
          have hjk : j ≠ k := by rintro rfl; exact ho hj
          split
          · show (w.blocks.set j _)[k]? = _
            rw [List.getElem?_set_ne hjk]; exact h1
          · exact h1
        · exact h1

theorem settings_eq (a : Args) (asked : Bool) : a.Settings asked (a.settings asked) := by
  unfold Args.Settings Args.settings
  obtain ⟨target, cfg, filter, ip⟩ := a
  cases asked <;> by_cases ht : target = .buffer <;> simp [ht]

omit [PyUni] [Hashlib] [Deflater] [PyStream τ] in
theorem first_open (a : Args) {out : OutFile} (h : a.target.open = some out) : a.first = out := by
  obtain ⟨target, cfg, filter, ip⟩ := a
  cases target with
  | buffer => cases h; rfl
  | writer o => cases h; rfl
  | file ap ex => cases ap <;> cases ex <;> cases h <;> rfl

/-- Entering a block that cannot be opened, and anything else, adds no block. -/
theorem traffic_from : ∀ (as : List (Act τ)) {h : History} {w : World τ}, Agrees h w → Before h → h.All History.Plain as →
    (run w as).2.blocks.length = h.blocks + (History.entered as).length ∧
    ∀ k a asked fp, (History.entered as)[k]? = some (a, asked, fp) → (a.target.named = false ∨ ∀ t, .leave t (h.blocks + k) ∉ as) →
      ∃ b, (run w as).2.blocks[h.blocks + k]? = some b ∧ a.Settings asked b.cfg ∧ b.filter = a.filter ∧
        b.state = (Capture.run b.cfg a.filter { recorder := { recordIp := a.recordIp }, fp := fp, out := a.first } (h.traffic (h.blocks + k) as)).2
  | [], h, w, H, _, _ => ⟨H.blocks, fun k a asked fp hk => by cases hk⟩
  | x :: as, h, w, H, B, hp => by
    have H' := H.next x hp.1
    obtain ⟨I1, I2⟩ := traffic_from as H' (B.next x) hp.2
    have other : (h.next x).blocks = h.blocks → History.entered (x :: as) = History.entered as → (∀ k, h.traffic (h.blocks + k) (x :: as) = (h.next x).traffic (h.blocks + k) as) →
        (run w (x :: as)).2.blocks.length = h.blocks + (History.entered (x :: as)).length ∧
        ∀ k a asked fp, (History.entered (x :: as))[k]? = some (a, asked, fp) → (a.target.named = false ∨ ∀ t, .leave t (h.blocks + k) ∉ x :: as) →
          ∃ b, (run w (x :: as)).2.blocks[h.blocks + k]? = some b ∧ a.Settings asked b.cfg ∧ b.filter = a.filter ∧
            b.state = (Capture.run b.cfg a.filter { recorder := { recordIp := a.recordIp }, fp := fp, out := a.first } (h.traffic (h.blocks + k) (x :: as))).2 := by
      intro e1 e2 e3
      rw [e1] at I1 I2
      rw [e2]
      refine ⟨I1, fun k a asked fp hk hn => ?_⟩
      rw [e3]
      exact I2 k a asked fp hk (hn.imp id (fun h t hm => h t (by simp [hm])))
    cases x with
    | enter t a asked fp =>
      have hnew : ∀ out, a.target.open = some out → (h.next (.enter t a asked fp)).blocks = h.blocks + 1 → History.entered (.enter t a asked fp :: as) = (a, asked, fp) :: History.entered as →
          (run w (.enter t a asked fp :: as)).2.blocks.length = h.blocks + (History.entered (.enter t a asked fp :: as)).length ∧
          ∀ k a' asked' fp', (History.entered (.enter t a asked fp :: as))[k]? = some (a', asked', fp') → (a'.target.named = false ∨ ∀ u, .leave u (h.blocks + k) ∉ Act.enter t a asked fp :: as) →
            ∃ b, (run w (.enter t a asked fp :: as)).2.blocks[h.blocks + k]? = some b ∧ a'.Settings asked' b.cfg ∧ b.filter = a'.filter ∧
              b.state = (Capture.run b.cfg a'.filter { recorder := { recordIp := a'.recordIp }, fp := fp', out := a'.first } (h.traffic (h.blocks + k) (.enter t a asked fp :: as))).2 := by
        intro out ho e1 e2
        rw [e1] at I1 I2
        rw [e2]
        refine ⟨by rw [List.length_cons]; exact I1.trans (by omega), fun k a' asked' fp' hk hn => ?_⟩
        have hn' : a'.target.named = false ∨ ∀ u, .leave u (h.blocks + k) ∉ as := hn.imp id (fun h t hm => h t (by simp [hm]))
        cases k with
        | zero =>
          cases hk
          have eb : (step w (.enter t a asked fp)).2.blocks[h.blocks]? =
              some { cfg := a.settings asked, filter := a.filter, named := a.target.named, state := { recorder := { recordIp := a.recordIp }, fp := fp, out := out } } := by
            simp only [step, ho, World.set]
            rw [← H.blocks, List.getElem?_concat_length]
          obtain ⟨b', k1, k2, k3, k4⟩ := block_runs as H' hp.2 eb rfl hn'
          refine ⟨b', k1, by rw [k2]; exact settings_eq a asked, k3, ?_⟩
          rw [k4, k2, first_open a ho]
          rfl
        | succ k =>
          have := I2 k a' asked' fp' hk (by rw [show h.blocks + 1 + k = h.blocks + (k + 1) by omega]; exact hn')
          rw [show h.blocks + 1 + k = h.blocks + (k + 1) by omega] at this
          exact this
      obtain ⟨target, cfg, filter, ip⟩ := a
      cases target with
      | buffer => exact hnew _ rfl rfl rfl
      | writer o => exact hnew _ rfl rfl rfl
      | file ap ex =>
        cases ap with
        | true => cases ex <;> exact hnew _ rfl rfl rfl
        | false =>
          cases ex with
          | none => exact hnew _ rfl rfl rfl
          | some b => exact other rfl rfl (fun _ => rfl)
    | leave t k => exact other rfl rfl (fun _ => rfl)
    | connect t => exact other rfl rfl (fun _ => rfl)
    | event i e =>
      refine other rfl rfl (fun k => ?_)
      have : h.owners[i]? ≠ some (some (h.blocks + k)) := by
        intro hc
        have := B.owners _ (List.mem_of_getElem? hc)
        omega
      simp [History.traffic, this, History.next]

/-- C72: whatever threads enter and leave blocks and make connections, in any order: a block records
exactly what happens on the connections made by its thread while it is the innermost block of the
thread, as if there were nothing else.  (A file opened by name is closed when the block is left, see
`C72_closed`.) -/
theorem C72_traffic_partial (as : List (Act τ)) (hp : ({} : History).All History.Plain as) :
    (run {} as).2.blocks.length = (History.entered as).length ∧
    ∀ k a asked fp, (History.entered as)[k]? = some (a, asked, fp) → (a.target.named = false ∨ ∀ t, .leave t k ∉ as) →
      ∃ b, (run {} as).2.blocks[k]? = some b ∧ a.Settings asked b.cfg ∧ b.filter = a.filter ∧
        b.state = (Capture.run b.cfg a.filter { recorder := { recordIp := a.recordIp }, fp := fp, out := a.first } (({} : History).traffic k as)).2 := by
  have := traffic_from as (h := {}) (w := {}) ⟨rfl, rfl, fun t => rfl⟩ ⟨fun t j hj => (by cases hj), fun j hj => (by cases hj)⟩ hp
  simpa using this

/-- C72: once a block whose file was opened by name is left, this file does not change any more. -/
theorem C72_closed {k : Nat} : ∀ (as : List (Act τ)) {w : World τ} {b : Block τ}, w.blocks[k]? = some b → b.closed = true →
    ∃ b', (run w as).2.blocks[k]? = some b' ∧ b'.closed = true ∧ b'.state.out = b.state.out
  | [], _, b, h1, h2 => ⟨b, h1, h2, rfl⟩
  | a :: as, w, b, h1, h2 => by
    have hk : k < w.blocks.length := (List.getElem?_eq_some_iff.1 h1).1
    have key : ∃ b1, (step w a).2.blocks[k]? = some b1 ∧ b1.closed = true ∧ b1.state.out = b.state.out := by
      cases a with
      | enter t a asked fp =>
        refine ⟨b, ?_, h2, rfl⟩
        simp only [step]
        split
        · exact h1
        · show (w.blocks ++ [_])[k]? = _
          rw [List.getElem?_append_left hk]; exact h1
      | leave t j =>
        by_cases hj : j = k
        · refine ⟨{ b with closed := b.closed || b.named }, ?_, by simp [h2], rfl⟩
          show (w.blocks.modify j _)[k]? = _
          rw [List.getElem?_modify, h1]
          simp only [hj, if_true]
          rfl
        · refine ⟨b, ?_, h2, rfl⟩
          show (w.blocks.modify j _)[k]? = _
          rw [List.getElem?_modify]
          simp [hj, h1]
      | connect t => exact ⟨b, h1, h2, rfl⟩
      | event i e =>
        simp only [step]
        split
        · rename_i j hj
          by_cases hjk : j = k
          · subst hjk
            simp only [h1]
            refine ⟨(b.step e).2, List.getElem?_set_self hk, ?_⟩
            unfold Block.step
            simp only [h2, Bool.true_and]
            split
            · exact ⟨rfl, rfl⟩
            · rename_i hc
              exact ⟨rfl, by simpa using hc⟩
          · split
            · exact ⟨b, by rw [← h1]; exact List.getElem?_set_ne hjk, h2, rfl⟩
            · exact ⟨b, h1, h2, rfl⟩
        · exact ⟨b, h1, h2, rfl⟩
    obtain ⟨b1, k1, k2, k3⟩ := key
    obtain ⟨b', q1, q2, q3⟩ := C72_closed as k1 k2
    exact ⟨b', q1, q2, q3.trans k3⟩

end

/-! ## The hypotheses are met, and the claims that fail -/

/-- Two threads: the first records one connection, the other one is not in a block; then the second
enters a block, and makes a connection that is used after the block is left. -/
def exActs : List (Act FileObj) :=
  [.enter 0 {} false { content := [] }, .connect 0, .connect 1, .event 1 .start, .event 0 .start, .enter 1 { target := .file true (some [1, 2]) } false { content := [] }, .connect 1,
   .event 0 (.sent [65]), .event 2 .start, .leave 0 0, .event 0 (.sent [66]), .connect 0, .event 3 .start]

open Toy in
/-- The hypotheses of `C72_traffic_partial`, and what it says of these. -/
example : ({} : History).All History.Plain exActs ∧ (History.entered exActs).length = 2 ∧
    (({} : History).traffic 0 exActs).length = 3 ∧ (({} : History).traffic 1 exActs).length = 1 ∧
    (run {} exActs).2.blocks.map (fun b => (b.cfg.gzip, b.closed, b.state.recorder.requestOut, b.state.out)) =
      [(false, false, .opened [65, 66], {}), (true, false, .opened [], { content := [1, 2], pos := 2 })] := by
  refine ⟨?_, rfl, rfl, rfl, by decide +kernel⟩
  simp [History.All, History.Plain, exActs, History.next]

open Toy in
/-- The hypotheses of `C72_closed`: after leaving, the file is closed. -/
example : (run {} (exActs ++ [.leave 1 1])).2.blocks.map (fun b => (b.closed, b.state.out)) = [(false, {}), (true, { content := [1, 2], pos := 2 })] := by decide +kernel

open Toy in
/-- C72 fails for blocks inside blocks: when the inner one is left nothing is recorded any more, though
the thread is still in the outer one. -/
theorem C72_nested : (run (τ := FileObj) {} [.enter 0 {} false { content := [] }, .enter 0 {} false { content := [] }, .leave 0 1, .connect 0]).2.conns = [none] ∧
    (History.next (τ := FileObj) (History.next (τ := FileObj) (History.next (τ := FileObj) {} (.enter 0 {} false { content := [] })) (.enter 0 {} false { content := [] })) (.leave 0 1)).inside 0 = [0] := by
  refine ⟨rfl, rfl⟩

/-- An exchange whose response is read and closed after the block is left. -/
def exLate (t : Target) : List (Act FileObj) :=
  let req := utf8Encode (lit "GET / HTTP/1.1\r\n\r\n")
  let resp := utf8Encode (lit "HTTP/1.1 200 OK\r\n\r\n")
  [.enter 0 { target := t } false { content := [] }, .connect 0, .event 0 .start, .event 0 (.line req (lit "h") 80 80), .event 0 (.sent req),
   .event 0 (.response { content := resp } none), .leave 0 0, .event 0 (.readline none), .event 0 (.readline none), .event 0 (.close (wEnv, wEnv))]

open Toy in
/-- An exchange that is closed after its block is left is recorded if there is a buffer, but if the file
was opened by name it is lost, and closing the response raises `ValueError`. -/
theorem C72_late : (run {} (exLate .buffer)).1.getLast? = some (.done (.ok .none)) ∧ (run {} (exLate .buffer)).2.blocks.map (fun b => b.state.out.content.isEmpty) = [false] ∧
    (run {} (exLate (.file true none))).1.getLast? = some (.done (.error .valueError)) ∧ (run {} (exLate (.file true none))).2.blocks.map (fun b => b.state.out) = [{}] := by
  decide +kernel

end Warcio.Props

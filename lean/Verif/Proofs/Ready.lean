import Verif.Proofs.IterGz
import Verif.Proofs.OpenArchive
import Verif.Model.Tools

/-!
# Iterators as the tools use them

`Ready multi last it es`: the iterator is before the records `es`.  `Now multi last it e left es`: it has handed
out `e`, whose stream holds `left`, and `es` follow.  Behind the last record `last` is raised, if it is
known.  `multi`: the sizes of records are not known.
-/

set_option linter.unusedSectionVars false

namespace Warcio
namespace ArchiveIter

variable {σ : Type} [Zlib] [PyStream σ] [Hashlib] [PyUni]

def Ready (multi : Bool) (last : Option PyErr) (it : ArchiveIter σ) (es : List Expected) : Prop :=
  ∃ Top After, Machine (GzOps multi) Top After ∧ (∀ l, last = some l → Stops l Top) ∧ ∃ it0 k, it.next = genLoop (k + 1) it0 ∧ Top it0 es

def Now (multi : Bool) (last : Option PyErr) (it : ArchiveIter σ) (e : Expected) (left : Bytes) (es : List Expected) : Prop :=
  ∃ Top After, Machine (GzOps multi) Top After ∧ (∀ l, last = some l → Stops l Top) ∧ After it e left es ∧ it.gen = .yielded ∧
    ∃ rec left0, e.shows rec left0 ∧ e.judged left0 (it.raw.checkerAt left)

variable {multi : Bool} {last : Option PyErr} {it : ArchiveIter σ} {e : Expected} {left : Bytes} {es : List Expected}

theorem Machine.mono {A B : UserOp → Prop} {Top : ArchiveIter σ → List Expected → Prop} {After : ArchiveIter σ → Expected → Bytes → List Expected → Prop}
    (M : Machine A Top After) (h : ∀ o, B o → A o) : Machine B Top After :=
  ⟨M.load, fun k _ ho => M.op k (h _ ho), M.after, M.bound⟩

theorem Ready.record (h : Ready multi last it (e :: es)) :
    ∃ it' rec left, it.next = (.ok (), it') ∧ it'.record = some rec ∧ e.shows rec left ∧ Now multi last it' e left es := by
  obtain ⟨Top, After, M, S, it0, k, h1, h2⟩ := h
  obtain ⟨it', rec, left, k1, k2, k3, k4, k5, k6, _⟩ := M.load h2 k
  exact ⟨it', rec, left, h1.trans k1, k2, k3, Top, After, M, S, k4, k5, rec, left, k3, k6⟩

theorem Ready.stop {l : PyErr} (h : Ready multi (some l) it []) : ∃ it', it.next = (.error l, it') := by
  obtain ⟨Top, After, M, S, it0, k, h1, h2⟩ := h
  obtain ⟨it', k1, k2⟩ := S l rfl _ h2 k
  exact ⟨it', h1.trans k1⟩

theorem Ready.yields {l : PyErr} (h : Ready multi last it es) {plan : List (List UserOp)} (hc : plan.length ≤ es.length ∨ last = some l)
    (ho : ∀ ops ∈ plan, ∀ o ∈ ops, GzOps multi o) : Yields l es plan (iterate it plan) := by
  obtain ⟨Top, After, M, S, it0, k, h1, h2⟩ := h
  exact M.yields plan h1 h2 (hc.imp id (S l)) ho

theorem Now.ready (h : Now multi last it e left es) : Ready multi last it es := by
  obtain ⟨Top, After, M, S, h1, h2, _⟩ := h
  obtain ⟨it', k1, k2, _⟩ := M.after h1
  exact ⟨Top, After, M, S, it', _, next_yielded h2 k1, k2⟩

theorem Now.bound (h : Now multi last it e left es) : left.length ≤ PyStream.bound it.raw := by
  obtain ⟨Top, After, M, S, h1, h2, _⟩ := h
  exact M.bound h1

theorem Now.op (h : Now multi last it e left es) {op : UserOp} (ho : GzOps multi op) :
    ∃ v it' left', op.run it = (.ok v, it') ∧ OpOk e it.ended left op v left' ∧ Now multi last it' e left' es := by
  obtain ⟨Top, After, M, S, h1, h2, rec, left0, h3, h4⟩ := h
  obtain ⟨v, it', left', k1, k2, k3, k4, k5, _⟩ := M.op h1 ho
  exact ⟨v, it', left', k1, k2, Top, After, M, S, k3, k4.trans h2, rec, left0, h3, by rw [k5]; exact h4⟩

theorem Now.ops (h : Now multi last it e left es) {ops : List UserOp} (ho : ∀ o ∈ ops, GzOps multi o) :
    ∃ vs it' left', runOps it ops = (vs, it') ∧ OpsOk e it.ended left ops vs ∧ Now multi last it' e left' es := by
  obtain ⟨Top, After, M, S, h1, h2, rec, left0, h3, h4⟩ := h
  obtain ⟨vs, it2, left', m1, m2, m3, m4, m5⟩ := M.ops ops h1 ho
  exact ⟨vs, it2, left', m1, m2, Top, After, M, S, m3, m4.trans h2, rec, left0, h3, by rw [m5]; exact h4⟩

/-- The verdict when the record has been read. -/
theorem Now.verdict (h : Now multi last it e left es) : ∃ rec left0, e.shows rec left0 ∧ e.judged left0 (it.raw.checkerAt left) := by
  obtain ⟨Top, After, M, S, h1, h2, h3⟩ := h
  exact h3

/-- Reading from the stream of the record. -/
theorem Now.read (h : Now multi last it e left es) {n : Int} (hn : 0 ≤ n) :
    ∃ raw, PyStream.read it.raw (some n) = (.ok (left.take n.toNat), raw) ∧ Now multi last { it with raw := raw } e (left.drop n.toNat) es := by
  obtain ⟨v, it', left', k1, k2, k3⟩ := h.op (op := .call (.read (some n))) ⟨by intro k hk; cases hk; exact hn, fun _ h => by cases h⟩
  obtain ⟨p, rfl, rfl, q1, -, -⟩ := k2
  have hp := q1 (some n) rfl
  simp only [Call.expect] at hp
  have : left' = (p ++ left').drop n.toNat := by
    have := List.take_append_drop n.toNat (p ++ left')
    rw [← hp] at this
    exact (List.append_cancel_left this).symm
  simp only [UserOp.run, Call.run] at k1
  generalize hr : PyStream.read it.raw (some n) = x at k1
  obtain ⟨x, raw⟩ := x
  cases x with
  | error e => simp [Except.map] at k1
  | ok b =>
    simp only [Except.map, Prod.mk.injEq, Except.ok.injEq, UserVal.bytes.injEq] at k1
    obtain ⟨rfl, rfl⟩ := k1
    exact ⟨raw, by rw [← hp], by rw [← this]; exact k3⟩

/-- Any call on the stream of the record. -/
theorem Now.call (h : Now multi last it e left es) {c : Call} (hc : c.nonneg) :
    ∃ p left' raw, c.run it.raw = (.ok p, raw) ∧ left = p ++ left' ∧ Now multi last { it with raw := raw } e left' es := by
  obtain ⟨v, it', left', k1, k2, k3⟩ := h.op (op := .call c) ⟨hc, fun _ h => by cases h⟩
  obtain ⟨p, rfl, rfl, -, -, -⟩ := k2
  simp only [UserOp.run] at k1
  generalize hr : c.run it.raw = x at k1
  obtain ⟨x, raw⟩ := x
  cases x with
  | error e => simp [Except.map] at k1
  | ok b =>
    simp only [Except.map, Prod.mk.injEq, Except.ok.injEq, UserVal.bytes.injEq] at k1
    obtain ⟨rfl, rfl⟩ := k1
    exact ⟨b, left', raw, rfl, rfl, k3⟩

/-- Reading blocks up to the end of the record. -/
theorem Now.readBlocks {n : Int} (hn : 0 < n) : ∀ (fuel : Nat) {it : ArchiveIter σ} {left : Bytes}, Now multi last it e left es → left.length < fuel →
    ∃ bufs raw, Warcio.readBlocks n fuel it.raw = (bufs, .ok (), raw) ∧ bufs.flatten = left ∧ Now multi last { it with raw := raw } e [] es
  | 0, _, _, _, h => by omega
  | fuel + 1, it, left, h, hf => by
    obtain ⟨raw, k1, k2⟩ := h.read (n := n) (by omega)
    unfold Warcio.readBlocks
    rw [k1]
    dsimp only
    split
    · rename_i hb
      have hb : left.take n.toNat = [] := by simpa using hb
      have hl : left = [] := by
        rcases List.take_eq_nil_iff.1 hb with h | h
        · omega
        · exact h
      subst hl
      exact ⟨[], raw, rfl, rfl, by simpa using k2⟩
    · rename_i hb
      have hb : left ≠ [] := by
        intro h0; subst h0; simp at hb
      have hlen := List.length_pos_iff.2 hb
      obtain ⟨bufs, raw', m1, m2, m3⟩ := Now.readBlocks hn fuel k2 (by rw [List.length_drop]; omega)
      dsimp only at m1
      rw [m1]
      exact ⟨left.take n.toNat :: bufs, raw', rfl, by rw [List.flatten_cons, m2, List.take_append_drop], m3⟩

theorem iterStream_eq {τ : Type} [PyStream τ] (fuel : Nat) (s : τ) : Builder.iterStream fuel s = Warcio.readBlocks 16384 fuel s := by
  induction fuel generalizing s with
  | zero => rfl
  | succ fuel ih =>
    unfold Builder.iterStream Warcio.readBlocks
    generalize PyStream.read s (some 16384) = x
    obtain ⟨x, s'⟩ := x
    cases x with
    | error e => rfl
    | ok b => dsimp only; rw [ih]

theorem Now.iterAll (h : Now multi last it e left es) :
    ∃ bufs raw, Builder.iterAll it.raw = (bufs, .ok (), raw) ∧ bufs.flatten = left ∧ Now multi last { it with raw := raw } e [] es := by
  unfold Builder.iterAll
  rw [iterStream_eq]
  exact h.readBlocks (by omega) _ (by have := h.bound; omega)

theorem Now.readAll (h : Now multi last it e left es) {n : Int} (hn : 0 < n) :
    ∃ bufs raw, readAllBlocks n it.raw = (bufs, .ok (), raw) ∧ bufs.flatten = left ∧ Now multi last { it with raw := raw } e [] es := by
  unfold readAllBlocks
  exact h.readBlocks hn _ (by have := h.bound; omega)

end ArchiveIter
end Warcio

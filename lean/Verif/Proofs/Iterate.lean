import Verif.Spec.Archive
import Verif.Proofs.Verdict

/-!
# Iteration as a machine

`Machine Top After` collects what one turn of the generator and one operation of the user do, in
terms of two invariants: `Top it es` before the records `es`, and `After it e left es` when the
record `e` has been handed out, its stream holds `left`, and `es` follow.  `A` are the operations
the user may perform.
-/

set_option linter.unusedSectionVars false

namespace Warcio
namespace ArchiveIter

variable {σ : Type} [Zlib] [PyStream σ] [Hashlib] [PyUni]

/-- One operation that succeeds. -/
def OpOk (e : Expected) (ended : Bool) (left : Bytes) (op : UserOp) (v : UserVal) (left' : Bytes) : Prop :=
  match op with
  | .call c => ∃ p, v = .bytes p ∧ left = p ++ left' ∧ (∀ n, c = .read n → p = c.expect left) ∧
      (∀ n, c = .readline n → (10 : UInt8) ∈ left → (takeLine left).length ≤ e.line → p = c.expect left) ∧ (p = [] → left' = [] ∨ c.arg = some 0)
  | .offset => v = .int e.off ∧ left' = []
  | .size => v = .int e.size ∧ left' = []
  | .toEnd => v = .unit ∧ left' = []
  | .errors => v = e.warned ended ∧ left' = left

/-- Operations that read the record to its end. -/
def _root_.Warcio.UserOp.ends : UserOp → Bool
  | .call _ => false
  | .errors => false
  | _ => true

/-- The record has been read to its end. -/
def ended (it : ArchiveIter σ) : Bool := it.memberInfo.isSome

structure Machine (A : UserOp → Prop) (Top : ArchiveIter σ → List Expected → Prop) (After : ArchiveIter σ → Expected → Bytes → List Expected → Prop) :
    Prop where
  load : ∀ {it e es}, Top it (e :: es) → ∀ fuel, ∃ it' rec left, genLoop (fuel + 1) it = (.ok (), it') ∧ it'.record = some rec ∧
    e.shows rec left ∧ After it' e left es ∧ it'.gen = .yielded ∧ e.judged left (it'.raw.checkerAt left) ∧ it'.ended = false
  op : ∀ {it e left es}, After it e left es → ∀ {op : UserOp}, A op → ∃ v it' left', op.run it = (.ok v, it') ∧
    OpOk e it.ended left op v left' ∧ After it' e left' es ∧ it'.gen = it.gen ∧ it'.raw.checkerAt left' = it.raw.checkerAt left ∧
      it'.ended = (op.ends || it.ended)
  after : ∀ {it e left es}, After it e left es → ∃ it', it.afterRecord = (.ok true, it') ∧ Top it' es ∧ it'.record.isSome = true
  bound : ∀ {it e left es}, After it e left es → left.length ≤ PyStream.bound it.raw

variable {A : UserOp → Prop} {Top : ArchiveIter σ → List Expected → Prop} {After : ArchiveIter σ → Expected → Bytes → List Expected → Prop}

theorem Machine.ops (M : Machine A Top After) : ∀ (ops : List UserOp) {it : ArchiveIter σ} {e : Expected} {left : Bytes} {es : List Expected},
    After it e left es → (∀ o ∈ ops, A o) → ∃ vs it' left', runOps it ops = (vs, it') ∧ OpsOk e it.ended left ops vs ∧
      After it' e left' es ∧ it'.gen = it.gen ∧ it'.raw.checkerAt left' = it.raw.checkerAt left := by
  intro ops
  induction ops with
  | nil => intro it e left es h _; exact ⟨[], it, left, rfl, .nil _ _, h, rfl, rfl⟩
  | cons o ops ih =>
    intro it e left es h ho
    obtain ⟨v, it1, left1, k1, k2, k3, k4, k5, k6⟩ := M.op h (ho o (by simp))
    obtain ⟨vs, it2, left2, m1, m2, m3, m4, m5⟩ := ih k3 (fun o ho' => ho o (by simp [ho']))
    refine ⟨.ok v :: vs, it2, left2, by simp only [runOps, k1, m1], ?_, m3, m4.trans k4, m5.trans k5⟩
    rw [k6] at m2
    cases o with
    | call c =>
      obtain ⟨p, rfl, rfl, q1, q0, q2⟩ := k2
      exact .call _ c p left1 ops vs q1 q0 q2 m2
    | offset => obtain ⟨rfl, rfl⟩ := k2; exact .offset _ left ops vs m2
    | size => obtain ⟨rfl, rfl⟩ := k2; exact .size _ left ops vs m2
    | toEnd => obtain ⟨rfl, rfl⟩ := k2; exact .toEnd _ left ops vs m2
    | errors => obtain ⟨rfl, rfl⟩ := k2; exact .errors _ _ ops vs m2

/-- Behind the last record the iteration raises `last` and is over. -/
def Stops (last : PyErr) (Top : ArchiveIter σ → List Expected → Prop) : Prop :=
  ∀ it, Top it [] → ∀ fuel, ∃ it', genLoop (fuel + 1) it = (.error last, it') ∧ it'.gen = .finished

theorem finished_iterate : ∀ (plan : List (List UserOp)) {it : ArchiveIter σ}, it.gen = .finished →
    iterate it plan = plan.map (fun _ => .error .stopIteration) := by
  intro plan
  induction plan with
  | nil => intro it _; rfl
  | cons ops plan ih =>
    intro it h
    have : it.next = (.error .stopIteration, it) := by unfold next; rw [h]
    simp only [iterate, this, ih h, List.map_cons]

theorem next_start {it : ArchiveIter σ} (h : it.gen = .start) : it.next = genLoop (PyStream.bound it.reader + 2) it := by
  unfold next; rw [h]

theorem next_yielded {it it' : ArchiveIter σ} (h : it.gen = .yielded) (h' : it.afterRecord = (.ok true, it')) :
    it.next = genLoop (PyStream.bound it'.reader + 2) it' := by
  unfold next; rw [h]; simp only; rw [h']

/-- The iteration, from a state in which the next thing is the top of the generator's loop. -/
theorem Machine.yields {last : PyErr} (M : Machine A Top After) : ∀ (plan : List (List UserOp)) {it it0 : ArchiveIter σ} {es : List Expected} {k : Nat},
    it.next = genLoop (k + 1) it0 → Top it0 es → (plan.length ≤ es.length ∨ Stops last Top) → (∀ ops ∈ plan, ∀ o ∈ ops, A o) →
    Yields last es plan (iterate it plan) := by
  intro plan
  induction plan with
  | nil => intro it it0 es k _ _ _ _; exact .enough _
  | cons ops plan ih =>
    intro it it0 es k hn ht hs ho
    cases es with
    | nil =>
      have hs := hs.resolve_left (by simp)
      obtain ⟨it', k1, k2⟩ := hs _ ht k
      simp only [iterate, hn, k1]
      rw [finished_iterate plan k2]
      exact .stop _ _
    | cons e es =>
      obtain ⟨it', rec, left, k1, k2, k3, k4, k5, _, k6⟩ := M.load ht k
      obtain ⟨vs, it2, left2, m1, m2, m3, m4, _⟩ := M.ops ops k4 (ho ops (by simp))
      rw [k6] at m2
      obtain ⟨it3, q1, q2, _⟩ := M.after m3
      simp only [iterate, hn, k1, m1, k2]
      refine .record e es ops plan _ rec left vs k3 m2 ?_
      refine ih (next_yielded (m4.trans k5) q1) q2 ?_ (fun ops h => ho ops (by simp [h]))
      rcases hs with h | h
      · left; simpa using h
      · exact .inr h

end ArchiveIter
end Warcio

import Verif.Model.CaptureScope

/-!
# Which connections `capture_http` is expected to record

Those that a thread makes inside a `with capture_http()` block, by the innermost such block of this
thread.
-/

namespace Warcio
namespace CaptureScope

variable {τ : Type}

/-- What has happened so far: the blocks that each thread is in, innermost first; the threads for which
a block inside the innermost one has ended; how many blocks there were; and for each connection the
block that is to record it. -/
structure History where
  inside : Nat → List Nat := fun _ => []
  ended : Nat → Bool := fun _ => false
  blocks : Nat := 0
  owners : List (Option Nat) := []

/-- After this.  A thread leaves its innermost block. -/
def History.next (h : History) : Act τ → History
  | .enter t a _ _ =>
    match a.target with
    | .file false (some _) => h
    | _ => { h with inside := fun u => if u = t then h.blocks :: h.inside t else h.inside u, ended := fun u => if u = t then false else h.ended u, blocks := h.blocks + 1 }
  | .leave t _ => { h with inside := fun u => if u = t then (h.inside t).tail else h.inside u, ended := fun u => if u = t then true else h.ended u }
  | .connect t => { h with owners := h.owners ++ [(h.inside t).head?] }
  | .event _ _ => h

/-- No connection is made by a thread that is in a block in which another one has ended. -/
def History.Plain (h : History) : Act τ → Prop
  | .connect t => h.inside t = [] ∨ h.ended t = false
  | _ => True

/-- A property of each act, given what has happened before. -/
def History.All (P : History → Act τ → Prop) : History → List (Act τ) → Prop
  | _, [] => True
  | h, a :: as => P h a ∧ (h.next a).All P as

/-- What block `k` is to record: what happens on the connections that it is to record. -/
def History.traffic (k : Nat) : History → List (Act τ) → List (Capture.Event τ)
  | _, [] => []
  | h, .event i e :: as => (if h.owners[i]? = some (some k) then [e] else []) ++ h.traffic k as
  | h, a :: as => (h.next a).traffic k as

/-- Each of the blocks, with its arguments. -/
def History.entered : List (Act τ) → List (Args × Bool × τ)
  | [] => []
  | .enter _ a asked fp :: as =>
    match a.target with
    | .file false (some _) => History.entered as
    | _ => (a, asked, fp) :: History.entered as
  | _ :: as => History.entered as

/-- The settings of its writer: without a writer nothing is compressed, unless asked for. -/
def Args.Settings (a : Args) (asked : Bool) (c : BuilderCfg) : Prop :=
  c = { a.cfg with gzip := if a.target = .buffer ∧ asked = false then false else a.cfg.gzip }

/-- What is in its file at the start. -/
def Args.first (a : Args) : OutFile :=
  match a.target with
  | .buffer => {}
  | .writer o => o
  | .file _ none => {}
  | .file _ (some b) => { content := b, pos := b.length }

end CaptureScope
end Warcio

import Verif.Model.Cli

/-!
# What the commands may do with files (C82)
-/

namespace Warcio

/-- A name that is that of a file, and not `-` or none, which stand for the standard streams. -/
def FileName (n : Str) : Prop := n ≠ lit "-" ∧ n ≠ []

instance (n : Str) : Decidable (FileName n) := inferInstanceAs (Decidable (_ ∧ _))

/-- The files that a command is told to write. -/
def Cli.Cmd.Writes : Cli.Cmd → Str → Prop
  | .index _ _ output, n => output = some n ∧ FileName n
  | .recompress _ output _, n => output = n ∧ FileName n
  | .extract .., _ => False
  | .check .., _ => False

/-- Two worlds that differ at most in a file. -/
structure World.SameBut (name : Str) (w w' : World) : Prop where
  files : ∀ n, n ≠ name → w.files n = w'.files n
  writable : w.writable = w'.writable
  stdin : w.stdin = w'.stdin
  printed : w.printed = w'.printed

/-- These files are there, with these contents. -/
def World.Has (w : World) (fs : List (Str × Bytes)) : Prop := ∀ f ∈ fs, FileName f.1 ∧ w.files f.1 = some f.2

end Warcio

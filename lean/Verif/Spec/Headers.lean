import Verif.Py.Utf8

/-!
# What a header block is

Lines of bytes, the text of a line, the lines of a header block up to the blank line that
ends it, and the headers those lines stand for.  Independent of the parser model.
-/

namespace Warcio

/-- The lines of `b`, each with its newline; the last one may lack it. -/
def splitLines : Bytes → List Bytes
  | [] => []
  | x :: xs =>
    if x = 10 then [x] :: splitLines xs
    else
      match splitLines xs with
      | [] => [[x]]
      | l :: ls => (x :: l) :: ls

/-- The text of a line: decoded, without the whitespace at its end. -/
def lineText (l : Bytes) : Str := rstrip (decodeHeader l)

/-- A header block: the texts of the lines before the first blank one, the lines behind the
blank one, and the number of characters read, blank line included. -/
def readBlock : List Bytes → List Str × List Bytes × Int
  | [] => ([], [], 0)
  | l :: ls =>
    if lineText l = [] then ([], ls, len (decodeHeader l))
    else
      let r := readBlock ls
      (lineText l :: r.1, r.2.1, len (decodeHeader l) + r.2.2)

/-- A line that starts with a blank or a tab continues the line before it. -/
def continues (l : Str) : Bool :=
  match l with
  | ' ' :: _ => true
  | '\t' :: _ => true
  | _ => false

/-- Attach continuation lines: those at the front, and the others grouped behind the line
they continue. -/
def groupLines : List Str → List Str × List (Str × List Str)
  | [] => ([], [])
  | l :: ls =>
    let r := groupLines ls
    if continues l then (l :: r.1, r.2) else ([], (l, r.1) :: r.2)

/-- The header a line and its continuation lines stand for; none without a colon. -/
def headerOf (g : Str × List Str) : Option (Str × Str) :=
  match split1 ':' g.1 with
  | (n, some v) => some (rstripBlank n, lstrip v ++ g.2.flatten)
  | (_, none) => none

/-- The headers of a block; its first line is never a continuation. -/
def headersOf : List Str → List (Str × Str)
  | [] => []
  | l :: ls =>
    let r := groupLines ls
    ((l, r.1) :: r.2).filterMap headerOf

/-- `BlockEnd b rest`: `rest` is what follows the first blank line of `b`; nothing if there is
no blank line. -/
inductive BlockEnd : Bytes → Bytes → Prop
  | eof : BlockEnd [] []
  | blank {b} : b ≠ [] → lineText (takeLine b) = [] → BlockEnd b (dropLine b)
  | line {b r} : lineText (takeLine b) ≠ [] → BlockEnd (dropLine b) r → BlockEnd b r

/-- `HeadWithin m b`: the lines of `b` up to its first blank one end with a newline and have at
most `m` bytes. -/
inductive HeadWithin (m : Nat) : Bytes → Prop
  | eof : HeadWithin m []
  | blank {b} : (10 : UInt8) ∈ takeLine b → (takeLine b).length ≤ m → lineText (takeLine b) = [] → HeadWithin m b
  | line {b} : (10 : UInt8) ∈ takeLine b → (takeLine b).length ≤ m → HeadWithin m (dropLine b) → HeadWithin m b

/-- A header that fits on one line: no newline in name and value, no colon in the name,
no blank or tab at the end of the name and no whitespace at the end of the value. -/
structure LineHeader (h : Str × Str) : Prop where
  name_lf : '\n' ∉ h.1
  name_colon : ':' ∉ h.1
  name_end : rstripBlank h.1 = h.1
  value_lf : '\n' ∉ h.2
  value_end : rstrip h.2 = h.2

/-- A well-formed header: it fits on one line, its name does not start with a blank or a tab
and its value does not start with whitespace. -/
structure GoodHeader (h : Str × Str) : Prop extends LineHeader h where
  name_start : continues h.1 = false
  value_start : lstrip h.2 = h.2

/-- A usable list of accepted protocols: upper-case ASCII words without newline or trailing
whitespace, none of them empty or a proper prefix of another one. -/
structure GoodList (ps : List Str) : Prop where
  ascii : ∀ p ∈ ps, isAscii p = true
  upper : ∀ p ∈ ps, p.map Char.toUpper = p
  ne : ∀ p ∈ ps, p ≠ []
  lf : ∀ p ∈ ps, '\n' ∉ p
  trail : ∀ p ∈ ps, rstrip p = p
  free : ∀ p ∈ ps, ∀ q ∈ ps, p <+: q → p = q

end Warcio

import Verif.Spec.Parts

/-!
# Identifiers of converted ARC records
-/

namespace Warcio

/-- What is taken for the beginning of a WARC record: a line with the name of the format and a version, or a blank line. -/
def WarcStart [PyUni] (data : Bytes) : Prop := lineText (takeLine data) = [] ∨ StartsWarc data

/-- The identifier of a record. -/
def idOf [PyUni] (hs : List (Str × Str)) : Option Str := firstValue (lit "WARC-Record-ID") hs

end Warcio

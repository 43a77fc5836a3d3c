import Verif.Spec.Arc
import Verif.Spec.Rewrite

/-!
# What is expected when a record of an ARC file is written as a WARC record
-/

namespace Warcio
namespace ArcRecord
variable [PyUni]

/-- The block is the HTTP headers `hb` and the payload, see `SplitsOf`. -/
def Splits (a : ArcRecord) (io : IterOpts) (m : Nat) : Bytes → Bytes → Prop := SplitsOf (a.Http io) a.block m

/-- The WARC record it is converted to, as far as it is not written yet: its length need not be
right. -/
def asWarc (a : ArcRecord) (id iso : Str) : WarcRecord :=
  { head := utf8Encode (lit "WARC/1.0\r\n"), headers := a.converted id iso, block := a.block, sep := [] }

/-- A text that can be the value of a header. -/
def Plain (v : Str) : Prop := '\n' ∉ v ∧ rstrip v = v ∧ lstrip v = v

/-- A record that can be converted: it is well-formed, its fields can be values of headers, and its
URI needs no cleaning. -/
structure Convertible (a : ArcRecord) (io : IterOpts) (m : Nat) (payload : Bytes) : Prop where
  good : a.Good
  ip : Plain a.ip
  ctype : Plain a.ctype
  length : Plain a.length
  file : a.Describes → Plain (a.uri.drop 11)
  uri : ¬ a.Describes → Plain a.uri ∧ WarcRecord.TidyUri a.uri
  splits : ∃ hb, a.Splits io m hb payload

/-- `w` is the WARC record for it: a record of version 1.0 with the headers it is converted to, one of
the identifiers, the plain decimal length of the block, and digests of payload (unless it is the
record that describes the file) and block; with the same block, and two line ends. -/
structure Written (f : Bytes → Bytes) (ids : Nat → Str) (a : ArcRecord) (payload : Bytes) (w : WarcRecord) : Prop where
  good : w.Good
  head : w.head = utf8Encode (headText (lit "WARC/1.0") [] w.headers)
  headers : ∃ k d, a.Dated d ∧
    w.headers = ({ a with length := intToStr (len a.block) } : ArcRecord).converted (ids k) (datetimeToIsoDate d) ++
      (if a.Describes then [] else [(lit "WARC-Payload-Digest", sha1Text f payload)]) ++ [(lit "WARC-Block-Digest", sha1Text f a.block)]
  block : w.block = a.block
  sep : w.sep = [13, 10, 13, 10]

end ArcRecord
end Warcio

import Verif.Spec.Records
import Verif.Spec.Streams
import Verif.Model.Iterator

/-!
# What iterating over an archive is expected to give

The user's program: for each record, any list of operations on the iterator and on the record's
stream.  `Yields` says which results are right, in terms of the records of the file only.
-/

namespace Warcio

/-- What a user does with the current record. -/
inductive UserOp
  | call (c : Call)
  | offset
  | size
  | toEnd
  | errors
  deriving DecidableEq, Repr

/-- What an operation gives.  `warned`: `err_count`, and the offsets and lines in the warnings
that have been written to stderr. -/
inductive UserVal
  | bytes (b : Bytes)
  | int (n : Int)
  | unit
  | warned (n : Int) (out : List (Int × Bytes))
  deriving DecidableEq, Repr

/-- The options as arguments of the loader, with the format that is known and an id. -/
def IterOpts.load (io : IterOpts) (kf : Option Format) (id : Str) : LoadOpts :=
  { verifyHttp := io.verifyHttp, arc2warc := io.arc2warc, knownFormat := kf, noRecordParse := io.noRecordParse,
    ensureHttpHeaders := io.ensureHttpHeaders, checkDigests := io.checkDigests, newId := id }

/-- Length arguments are not negative. -/
def UserOp.nonneg : UserOp → Prop
  | .call c => c.nonneg
  | _ => True

instance (o : UserOp) : Decidable o.nonneg := by
  cases o <;> simp only [UserOp.nonneg] <;> infer_instance

section
variable {σ : Type} [Zlib] [PyStream σ] [Hashlib] [PyUni]

/-- Run one operation. -/
def UserOp.run (it : ArchiveIter σ) : UserOp → Except PyErr UserVal × ArchiveIter σ
  | .call c => let (b, raw) := c.run it.raw; (b.map .bytes, { it with raw := raw })
  | .offset => let (n, it) := it.getRecordOffset; (n.map .int, it)
  | .size => let (n, it) := it.getRecordLength; (n.map .int, it)
  | .toEnd => let (u, it) := it.readToEnd; (u.map (fun _ => .unit), it)
  | .errors => (.ok (.warned it.errCount it.warnings), it)

/-- Run a list of operations. -/
def runOps (it : ArchiveIter σ) : List UserOp → List (Except PyErr UserVal) × ArchiveIter σ
  | [] => ([], it)
  | o :: os =>
    let (v, it) := o.run it
    let (vs, it) := runOps it os
    (v :: vs, it)

/-- What the user sees of one step of the iteration: an exception (`StopIteration` at the end),
or a record and the results of the operations on it. -/
abbrev Step := Except PyErr (Option (Record Unit) × List (Except PyErr UserVal))

/-- Iterate, performing the operations of the plan on each record. -/
def iterate (it : ArchiveIter σ) : List (List UserOp) → List Step
  | [] => []
  | ops :: plan =>
    match it.next with
    | (.error e, it) => .error e :: iterate it plan
    | (.ok _, it) =>
      let (vs, it') := runOps it ops
      .ok (it.record, vs) :: iterate it' plan

end

/-- A record as it is expected: what it shows, together with what its stream holds; its position
and size in the file; the length up to which lines are read as such; the outcomes of
the digest checks that are right, given what its stream holds; and the warnings (offset and line)
that have been written before it and when it has ended. -/
structure Expected where
  shows : Record Unit → Bytes → Prop
  off : Int
  size : Int
  line : Nat
  judged : Bytes → DigestChecker → Prop := fun _ _ => True
  before : List (Int × Bytes) := []
  behind : List (Int × Bytes) := []

/-- The number of warnings and the warnings, before and after the end of the record. -/
def Expected.warned (e : Expected) (ended : Bool) : UserVal :=
  .warned (if ended then e.behind else e.before).length (if ended then e.behind else e.before)

/-- `OpsOk e ended left ops vs`: the results of operations on the record `e`, whose stream still holds
`left`.  `read` is exact, and so is `readline` for lines of at most `e.line` bytes; any other
`readline` gives something if there is something.  After asking for a position, or after
`read_to_end`, nothing is left, and the record has `ended`: then its warnings have been
written. -/
inductive OpsOk (e : Expected) : Bool → Bytes → List UserOp → List (Except PyErr UserVal) → Prop
  | nil (ended left) : OpsOk e ended left [] []
  | call (ended c p left ops vs) : (∀ n, c = .read n → p = c.expect (p ++ left)) →
      (∀ n, c = .readline n → (10 : UInt8) ∈ p ++ left → (takeLine (p ++ left)).length ≤ e.line → p = c.expect (p ++ left)) →
      (p = [] → left = [] ∨ c.arg = some 0) → OpsOk e ended left ops vs →
      OpsOk e ended (p ++ left) (.call c :: ops) (.ok (.bytes p) :: vs)
  | offset (ended left ops vs) : OpsOk e true [] ops vs → OpsOk e ended left (.offset :: ops) (.ok (.int e.off) :: vs)
  | size (ended left ops vs) : OpsOk e true [] ops vs → OpsOk e ended left (.size :: ops) (.ok (.int e.size) :: vs)
  | toEnd (ended left ops vs) : OpsOk e true [] ops vs → OpsOk e ended left (.toEnd :: ops) (.ok .unit :: vs)
  | errors (ended left ops vs) : OpsOk e ended left ops vs → OpsOk e ended left (.errors :: ops) (.ok (e.warned ended) :: vs)

/-- The iteration gives the expected records in order, and then raises `last` (`StopIteration` for
a complete archive) and stops. -/
inductive Yields (last : PyErr) : List Expected → List (List UserOp) → List Step → Prop
  | enough (es) : Yields last es [] []
  | stop (ops) (plan : List (List UserOp)) : Yields last [] (ops :: plan) (.error last :: plan.map (fun _ => .error .stopIteration))
  | record (e es ops plan steps rec left vs) : e.shows rec left → OpsOk e false left ops vs →
      Yields last es plan steps → Yields last (e :: es) (ops :: plan) (.ok (some rec, vs) :: steps)

/-- What there is to see of a record besides its stream and the digest checker.  The version line
and HTTP headers are given as their parts. -/
structure Seen where
  format : Format
  recType : Option Str
  version : Str × Str
  headers : List (Str × Str)
  contentType : Option Str
  length : Option Int
  http : Option (Str × Str × List (Str × Str))
  payloadLength : Option Int
  deriving DecidableEq

/-- What there is to see of a record. -/
def Record.seen {τ} (r : Record τ) : Seen where
  format := r.format
  recType := r.recType
  version := (r.recHeaders.protocol, r.recHeaders.statusline)
  headers := r.recHeaders.headers
  contentType := r.contentType
  length := r.length
  http := r.httpHeaders.map (fun h => (h.protocol, h.statusline, h.headers))
  payloadLength := r.payloadLength

/-- The record of a step. -/
def Step.record (s : Step) : Except PyErr (Option Seen) := s.map (fun x => x.1.map Record.seen)

/-- A step: the record and the results of the operations. -/
def Step.seen (s : Step) : Except PyErr (Option Seen × List (Except PyErr UserVal)) := s.map (fun x => (x.1.map Record.seen, x.2))

/-- No `readline`: where lines end is up to the buffers. -/
def UserOp.exact : UserOp → Prop
  | .call (.readline _) => False
  | _ => True

/-- No question about positions in the file. -/
def UserOp.placeless : UserOp → Prop
  | .offset => False
  | .size => False
  | _ => True

/-- Lines of white space, the last one terminated. -/
def BlankLines (sep : Bytes) : Prop :=
  sep ≠ [] ∧ ([10] : Bytes) <:+ sep ∧ ∀ b ∈ sep, b ∈ ([9, 10, 11, 12, 13, 32] : Bytes)

/-- One line that is not blank. -/
def StrayLine (line : Bytes) : Prop :=
  (∃ l, line = l ++ [10] ∧ (10 : UInt8) ∉ l) ∧ ∃ b ∈ line, b ∉ ([9, 10, 11, 12, 13, 32] : Bytes)

/-- What may be behind a block: blank lines; or else (the length of the block is not what the
headers say) one line that is not blank, and perhaps blank lines behind it.  `ls`: the line. -/
inductive Gap : Bytes → List Bytes → Prop
  | blank (sep) : BlankLines sep → Gap sep []
  | stray (line sep) : StrayLine line → sep = [] ∨ BlankLines sep → Gap (line ++ sep) [line]

/-- `HttpHead block h left`: the block starts with a line that is not blank, `h` is what this line
and the headers behind it say, and `left` follows the first blank line. -/
structure HttpHead (block : Bytes) (h : StatusAndHeaders) (left : Bytes) : Prop where
  first : lineText (takeLine block) ≠ []
  protocol : h.protocol = (split1 ' ' (lineText (takeLine block))).1
  status : h.statusline = strip ((split1 ' ' (lineText (takeLine block))).2.getD [])
  headers : h.headers = headersOf (readBlock (splitLines (dropLine block))).1
  left : left = (readBlock (splitLines (dropLine block))).2.1.flatten

/-- A WARC record as it is in a file: the bytes of its header block and the headers these stand
for, its block, and the blank lines behind it. -/
structure WarcRecord where
  head : Bytes
  headers : List (Str × Str)
  block : Bytes
  sep : Bytes

namespace WarcRecord
variable [PyUni]

/-- The header with this name. -/
def value (w : WarcRecord) (n : Str) : Option Str := firstValue n w.headers

/-- All of its bytes. -/
def bytes (w : WarcRecord) : Bytes := w.head ++ w.block ++ w.sep

/-- The header block is complete, it declares the length of the block, and HTTP types have a URI. -/
structure Whole (w : WarcRecord) : Prop where
  head : ∀ rest, WarcHead (w.head ++ rest) w.headers rest
  length : ∃ t, w.value (lit "Content-Length") = some t ∧ PyInt t ((w.block.length : Nat) : Int)
  uri : HttpType (w.value (lit "WARC-Type")) → w.value (lit "WARC-Target-URI") ≠ none

/-- There is also at least one blank line behind the block. -/
structure Good (w : WarcRecord) : Prop extends Whole w where
  sep : BlankLines w.sep

/-- A URI that is not changed by cleaning it up. -/
def TidyUri (u : Str) : Prop := ' ' ∉ u ∧ ∀ m, u ≠ '<' :: m ++ ['>']

/-- The headers that are shown: if the URI needs cleaning, the cleaned one is shown, as the value of the last header
with this name. -/
inductive Cleaned : List (Str × Str) → List (Str × Str) → Prop
  | same (hs) : (∀ u, firstValue (lit "WARC-Target-URI") hs = some u → TidyUri u) → Cleaned hs hs
  | changed (pre : List (Str × Str)) (n u0 u v : Str) (post : List (Str × Str)) : firstValue (lit "WARC-Target-URI") (pre ++ (n, u0) :: post) = some u → ¬ TidyUri u → CleanUri u v →
      PyUni.lower n = PyUni.lower (lit "WARC-Target-URI") → (∀ h ∈ post, PyUni.lower h.1 ≠ PyUni.lower (lit "WARC-Target-URI")) → Cleaned (pre ++ (n, u0) :: post) (pre ++ (n, v) :: post)

/-- It holds an HTTP message. -/
def Http (w : WarcRecord) : Prop :=
  ∃ u v, w.value (lit "WARC-Target-URI") = some u ∧ CleanUri u v ∧ HttpRecord (w.value (lit "WARC-Type")) (some v)

/-- What the user is to see of it: type, headers, length, and in the stream the whole block, or
behind parsed HTTP headers the rest of it (an empty block is not parsed).  Lines of HTTP headers longer than `m` bytes need not be
taken as one line. -/
structure Shows (w : WarcRecord) (io : IterOpts) (m : Nat) (rec : Record Unit) (left : Bytes) : Prop where
  format : rec.format = .warc
  version : VersionLine w.head rec.recHeaders.protocol rec.recHeaders.statusline
  recType : rec.recType = w.value (lit "WARC-Type")
  contentType : rec.contentType = w.value (lit "Content-Type")
  length : rec.length = some (len w.block)
  cleaned : Cleaned w.headers rec.recHeaders.headers
  block : io.noRecordParse = true ∨ ¬ w.Http ∨ w.block = [] → left = w.block ∧ rec.payloadLength = some (-1) ∧
    (io.ensureHttpHeaders = false → rec.httpHeaders = none)
  payload : ∃ pre, w.block = pre ++ left
  payloadLength : rec.payloadLength = some (-1) ∨ rec.payloadLength = some (len left)
  http : io.noRecordParse = false → w.Http → HeadWithin m w.block → lineText (takeLine w.block) ≠ [] →
    ∃ h, HttpHead w.block h left ∧ (h.statusline ≠ [] ∨ h.headers ≠ [] → rec.httpHeaders = some h ∧ rec.payloadLength = some (len left))
  checker : rec.checker = { kind := io.checkDigests.getD .other }

/-- Nothing of the record is left open by `Shows`: its URI needs no cleaning, and it is either not
parsed as HTTP, or starts with HTTP headers with lines of at most `m` bytes that are not empty. -/
structure Settled (w : WarcRecord) (io : IterOpts) (m : Nat) : Prop where
  uri : ∀ u, w.value (lit "WARC-Target-URI") = some u → TidyUri u
  http : ((io.noRecordParse = true ∨ ¬ w.Http ∨ w.block = []) ∧ io.ensureHttpHeaders = false) ∨
    (io.noRecordParse = false ∧ w.Http ∧ HeadWithin m w.block ∧ lineText (takeLine w.block) ≠ [] ∧
      ∀ h left, HttpHead w.block h left → h.statusline ≠ [] ∨ h.headers ≠ [])

/-- The outcomes of the digest checks that are right, when `left` is its payload: the verdict; and problems are listed if and
only if it says that there are some. -/
def Judged [Hashlib] (w : WarcRecord) (io : IterOpts) (left : Bytes) (c : DigestChecker) : Prop :=
  Warcio.Judged io.checkDigests.isSome (w.value (lit "WARC-Type")) (w.value (lit "WARC-Segment-Number")) (w.value (lit "WARC-Block-Digest"))
    (w.value (lit "WARC-Payload-Digest")) w.block left c.passed ∧
  c.kind ≠ .raise ∧ (c.passed = some false ↔ c.problems ≠ [])

/-- What may be left of a record behind its header block when the file is cut off: a part of the block, or
all of it and a part of the blank lines. -/
def CutAt (w : WarcRecord) (part tail : Bytes) : Prop :=
  (part <+: w.block ∧ tail = []) ∨ (part = w.block ∧ tail <+: w.sep)

/-- What the user is to see of it when `part` is all there is of its block: as `Shows`, only with
this part in the stream.  The length is the one that is declared, and so `payload_length` counts what
is missing. -/
structure ShowsPart (w : WarcRecord) (part : Bytes) (io : IterOpts) (m : Nat) (rec : Record Unit) (left : Bytes) : Prop where
  format : rec.format = .warc
  version : VersionLine w.head rec.recHeaders.protocol rec.recHeaders.statusline
  recType : rec.recType = w.value (lit "WARC-Type")
  contentType : rec.contentType = w.value (lit "Content-Type")
  length : rec.length = some (len w.block)
  cleaned : Cleaned w.headers rec.recHeaders.headers
  block : io.noRecordParse = true ∨ ¬ w.Http ∨ part = [] → left = part ∧ rec.payloadLength = some (-1) ∧
    (io.ensureHttpHeaders = false → rec.httpHeaders = none)
  payload : ∃ pre, part = pre ++ left
  payloadLength : rec.payloadLength = some (-1) ∨ rec.payloadLength = some (len left + (len w.block - len part))
  http : io.noRecordParse = false → w.Http → HeadWithin m part → lineText (takeLine part) ≠ [] →
    ∃ h, HttpHead part h left ∧ (h.statusline ≠ [] ∨ h.headers ≠ [] → rec.httpHeaders = some h ∧ rec.payloadLength = some (len left + (len w.block - len part)))
  checker : rec.checker = { kind := io.checkDigests.getD .other }

/-- The outcomes of the digest checks when `part` is all there is of its block: a complete block is
judged as such; of any other, only digests of an unknown kind are noticed. -/
def JudgedPart [Hashlib] (w : WarcRecord) (part : Bytes) (io : IterOpts) (left : Bytes) (c : DigestChecker) : Prop :=
  (part = w.block → w.Judged io left c) ∧
  (part ≠ w.block → c.passed ≠ some true ∧ (c.passed = some false ↔ c.problems ≠ []) ∧
    (c.passed = some false ↔ io.checkDigests.isSome = true ∧
      (UnknownDigest (lookedAt (w.value (lit "WARC-Type")) (w.value (lit "WARC-Segment-Number")) (w.value (lit "WARC-Block-Digest")) (w.value (lit "WARC-Payload-Digest"))).1 ∨
       UnknownDigest (lookedAt (w.value (lit "WARC-Type")) (w.value (lit "WARC-Segment-Number")) (w.value (lit "WARC-Block-Digest")) (w.value (lit "WARC-Payload-Digest"))).2)))

/-- The record, cut off behind `part` of its block, as it is expected at this position. -/
def expectedPart [Hashlib] (w : WarcRecord) (part : Bytes) (io : IterOpts) (m : Nat) (off size : Int) : Expected :=
  { shows := w.ShowsPart part io m, off := off, size := size, line := m, judged := w.JudgedPart part io }

/-- The record, as it is expected at this position. -/
def expected [Hashlib] (w : WarcRecord) (io : IterOpts) (m : Nat) (off size : Int) : Expected :=
  { shows := w.Shows io m, off := off, size := size, line := m, judged := w.Judged io }

/-- The records of an uncompressed file, with their positions. -/
def placed [Hashlib] (io : IterOpts) (m : Nat) : Int → List WarcRecord → List Expected
  | _, [] => []
  | off, w :: ws => w.expected io m off (len w.head + len w.block) :: placed io m (off + len w.bytes) ws

/-- The records of a file in which each record is a gzip member, with the positions of the
members. -/
def placedGz [Hashlib] (io : IterOpts) (m : Nat) : Int → List (Bytes × WarcRecord) → List Expected
  | _, [] => []
  | off, (z, w) :: ws => w.expected io m off (len z) :: placedGz io m (off + len z) ws

/-- The records of an uncompressed file in which the lines that come with some records are stray:
they are behind the blocks.  Each of them causes a warning with its offset, when the record has been
read to its end.  `ws`: the warnings before. -/
def strayed [Hashlib] (io : IterOpts) (m : Nat) : Int → List (Int × Bytes) → List (WarcRecord × List Bytes) → List Expected
  | _, _, [] => []
  | off, ws, (w, ls) :: xs =>
    { w.expected io m off (len w.head + len w.block) with
      before := ws, behind := ws ++ ls.map (fun l => (off + len w.head + len w.block, l)) } ::
    strayed io m (off + len w.bytes) (ws ++ ls.map (fun l => (off + len w.head + len w.block, l))) xs

end WarcRecord

/-- `Ends n steps`: the iteration comes to an end.  It yields at most `n` records; each attempt to
get a record and each operation on a record returns, with a result or with an exception; behind
the first exception there is nothing but `StopIteration`. -/
inductive Ends : Nat → List Step → Prop
  | cut (n) : Ends n []
  | stop (n e rest) : e ≠ .outOfFuel → (∀ s ∈ rest, s = .error .stopIteration) → Ends n (.error e :: rest)
  | record (n rec vs steps) : (∀ v ∈ vs, v ≠ .error .outOfFuel) → Ends n steps → Ends (n + 1) (.ok (rec, vs) :: steps)

end Warcio

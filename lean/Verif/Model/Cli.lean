import Verif.Model.Tools

/-!
# Model of the command line

/repo/warcio/cli.py, `fsspec_open` (utils.py:35-56) and the parts of the tools that open files.
The state is a file system, standard input, and what was printed.

Simplified: a name stands for one file (no links, no two names for one file); files are opened with
the built-in `open` (`HAS_FSSPEC` is false), and whatever keeps a file from being opened is one
exception; what is written to a file is visible to others once it is closed.  `argparse` is trusted:
a command is given as what it parses (cli.py:27-58).
-/

namespace Warcio

/-- What is printed: text, bytes, a line of `check`, or the message of an exception
(recompressor.py:32-35,39-45,49-53; extractor.py:31-40; checker.py:25-28,63-71). -/
inductive Printed
  | text (s : Str)
  | bytes (b : Bytes)
  | line (p : Checker.Print)
  | details
  deriving DecidableEq

/-- The files by name, which names can be opened for writing, standard input (indexer.py:28-31) and
what was printed. -/
structure World where
  files : Str → Option Bytes
  writable : Str → Bool
  stdin : FileObj
  printed : List Printed := []

/-- What a command ends with: it returns, `sys.exit(n)` (cli.py:79, recompressor.py:54), or an
exception, that of a file that cannot be opened (utils.py:51) or another. -/
inductive Ended
  | done
  | exit (n : Nat)
  | raised (e : PyErr)
  | cannotOpen (name : Str)
  deriving DecidableEq, Repr

namespace World

/-- `print`, `write` to standard output (indexer.py:87, extractor.py:31-40, checker.py:25-71). -/
def print (w : World) (ps : List Printed) : World := { w with printed := w.printed ++ ps }

/-- A file is made or overwritten (utils.py:51 with the modes of recompressor.py:58 and
indexer.py:26). -/
def put (w : World) (name : Str) (b : Bytes) : World :=
  { w with files := fun n => if n = name then some b else w.files n }

/-- `fsspec_open(name, 'rb', default)` (utils.py:35-56): `-` and no name stand for the default. -/
def openRead (w : World) (name : Str) (default : Option FileObj) : Except Str (Option FileObj) :=
  if name = lit "-" ∨ name = [] then .ok default
  else
    match w.files name with
    | some b => .ok (some { content := b })
    | none => .error name

/-- Which file `fsspec_open(name, 'wb', default)` opens, if it is not the default
(utils.py:35-56). -/
def target (name : Str) : Option Str := if name = lit "-" ∨ name = [] then none else some name

/-- `fsspec_open(name, 'wb')` (utils.py:51): the file is empty then. -/
def openWrite (w : World) (name : Str) : Option World := if w.writable name then some (w.put name []) else none

end World

namespace Cli

/-- `default` of `--fields` (cli.py:29). -/
def defaultFields : Str := lit "offset,warc-type,warc-target-uri"

section
variable [Zlib] [Hashlib] [PyUni]

/-- The loop of `Indexer.process_all` (indexer.py:27-33): how it ends, what is written, and standard
input, which is taken to be at its end after it was read. -/
def indexInputs (w : World) (fields : List Str) (ids : Nat → Str) : List Str → FileObj → Ended × Str × FileObj
  | [], stdin => (.done, [], stdin)
  | name :: t, stdin =>
    match w.openRead name (some stdin) with
    | .error n => (.cannotOpen n, [], stdin)
    | .ok none => (.raised .attributeError, [], stdin)
    | .ok (some f) =>
      let stdin := if World.target name = none then { stdin with pos := stdin.content.length } else stdin
      let (x, es) := Indexer.indexFile fields false ids name f
      let text := es.flatMap Indexer.jsonLine
      match x with
      | .error e => (.raised e, text, stdin)
      | .ok _ =>
        let (y, rest, stdin) := indexInputs w fields ids t stdin
        (y, text ++ rest, stdin)

/-- `indexer(cmd)` and `Indexer.process_all` (cli.py:71-74, indexer.py:15-33). -/
def index (ids : Nat → Str) (inputs : List Str) (fields : Str) (output : Option Str) (w : World) : Ended × World :=
  let inputs := if inputs.isEmpty then [lit "-"] else inputs
  match World.target (output.getD []) with
  | none =>
    let (x, text, stdin) := indexInputs w (Indexer.splitComma fields) ids inputs w.stdin
    (x, ({ w with stdin := stdin } : World).print [.text text])
  | some name =>
    match w.openWrite name with
    | none => (.cannotOpen name, w)
    | some w =>
      let (x, text, stdin) := indexInputs w (Indexer.splitComma fields) ids inputs w.stdin
      (x, ({ w with stdin := stdin } : World).put name (utf8Encode text))

/-- The loop of `Checker.process_all` (checker.py:21-34).  Only `ArchiveLoadFailed` is caught. -/
def checkInputs (w : World) (verbose : Bool) : List Str → Nat → Ended × List Checker.Print
  | [], exit => (.exit exit, [])
  | name :: t, exit =>
    match w.openRead name none with
    | .error n => (.cannotOpen n, [])
    | .ok none => (.raised .attributeError, [])
    | .ok (some f) =>
      match Checker.processOne verbose name f with
      | (.ok _, bad, out) =>
        let (x, rest) := checkInputs w verbose t (if bad then 1 else exit)
        (x, out ++ rest)
      | (.error e, _, out) =>
        if e.isArchiveLoadFailed then
          let (x, rest) := checkInputs w verbose t 1
          (x, out ++ .failure name :: rest)
        else (.raised e, out)

/-- `checker(cmd)` (cli.py:78-80). -/
def check (inputs : List Str) (verbose : Bool) (w : World) : Ended × World :=
  let (x, out) := checkInputs w verbose inputs 0
  (x, w.print (out.map .line))

/-- `extractor(cmd)` (cli.py:84-86, extractor.py:11-17): there is no default for the file. -/
def extract (filename offset : Str) (payload headers : Bool) (w : World) : Ended × World :=
  match w.openRead filename none with
  | .error n => (.cannotOpen n, w)
  | .ok none => (.raised .attributeError, w)
  | .ok (some f) =>
    let (x, out) := Extractor.extractAt f offset payload headers
    (match x with
      | .ok _ => .done
      | .error e => .raised e, w.print [.bytes out])

variable [Deflater]

/-- `recompress` into nothing (recompressor.py:56-69 if the output is `-`): writing the first record
fails. -/
def loadOnly (ids : Nat → Str) (f : FileObj) : Bool :=
  match openArchive f (Recompressor.opts ids) with
  | .error _ => false
  | .ok it =>
    match it.next with
    | (.error .stopIteration, _) => true
    | _ => false

/-- What `recompress` prints in the end (recompressor.py:44-45). -/
def summary (count : Nat) (output msg : Str) : List Printed :=
  [.text (natToStr count ++ lit " records read and recompressed to file: " ++ output ++ ['\n']), .text (msg ++ ['\n'])]

/-- The messages (recompressor.py:29,37). -/
def noErrors : Str := lit "No Errors Found!"

/-- recompressor.py:37. -/
def fixed : Str := lit "Compression Errors Found and Fixed!"

/-- The outer `except` (recompressor.py:47-54). -/
def failure (filename : Str) (verbose : Bool) (w : World) : Ended × World :=
  (.exit 1, w.print ((if verbose then [.text (lit "Exception Details:\n"), .details, .text ['\n']] else []) ++
    [.text (lit "Recompress Failed: " ++ filename ++ lit " could not be read as a WARC or ARC\n")]))

/-- The end of `recompress` after `count` records (recompressor.py:39-45): with `-v` the output is
indexed, and if that fails, so does the command. -/
def finish (ids : Nat → Str) (filename output : Str) (verbose : Bool) (count : Nat) (msg : Str) (w : World) : Ended × World :=
  if verbose then
    match index ids [output] defaultFields none (w.print [.text (lit "Records successfully read and compressed:\n")]) with
    | (.done, w) => (.done, w.print (.text ['\n'] :: summary count output msg))
    | (_, w) => failure filename verbose w
  else (.done, w.print (summary count output msg))

/-- What is printed of the first failure (recompressor.py:31-35). -/
def parsing (verbose : Bool) : List Printed :=
  if verbose then [.text (lit "Parsing Error(s) Found:\n"), .details, .text ['\n']] else []

/-- `recompressor(cmd)` and `Recompressor.recompress` (cli.py:90-92, recompressor.py:15-81).  The
input is opened, and then the output, so that if they are the same file there is nothing in it when
it is read. -/
def recompress (c : BuilderCfg) (ids : Nat → Str) (filename output : Str) (verbose : Bool) (w : World) : Ended × World :=
  match w.openRead filename none with
  | .error _ => failure filename verbose w
  | .ok none =>
    match World.target output with
    | none => failure filename verbose (w.print (parsing verbose))
    | some name => failure filename verbose (((w.openWrite name).getD w).print (parsing verbose))
  | .ok (some f) =>
    match World.target output with
    | none =>
      if loadOnly ids f then finish ids filename output verbose 0 noErrors w
      else
        match Recompressor.decompressAndRecompress c ids f [] with
        | (.ok 0, _) => finish ids filename output verbose 0 fixed (w.print (parsing verbose))
        | _ => failure filename verbose (w.print (parsing verbose))
    | some name =>
      match w.openWrite name with
      | none => failure filename verbose (w.print (parsing verbose))
      | some w =>
        let f : FileObj := if filename = name then { content := [] } else f
        match Recompressor.recompress c ids f [] with
        | (.noErrors n, out) => finish ids filename output verbose n noErrors (w.put name out.content)
        | (.fixed n, out) => finish ids filename output verbose n fixed ((w.put name out.content).print (parsing verbose))
        | (.failed, out) => failure filename verbose ((w.put name out.content).print (parsing verbose))

/-- A parsed command line (cli.py:27-58). -/
inductive Cmd
  | index (inputs : List Str) (fields : Str) (output : Option Str)
  | recompress (filename output : Str) (verbose : Bool)
  | extract (filename offset : Str) (payload headers : Bool)
  | check (inputs : List Str) (verbose : Bool)

/-- `cmd.func(cmd)` (cli.py:59-60).  `WARCWriter(filebuf=out, gzip=True)` is recompressor.py:59. -/
def run (ids : Nat → Str) : Cmd → World → Ended × World
  | .index inputs fields output => index ids inputs fields output
  | .recompress filename output verbose => recompress { gzip := true } ids filename output verbose
  | .extract filename offset payload headers => extract filename offset payload headers
  | .check inputs verbose => check inputs verbose

end
end Cli
end Warcio

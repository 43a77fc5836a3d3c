import Verif.Py.Basic
import Verif.Py.Utf8
import Verif.Py.Stream
import Verif.Model.LimitReader
import Verif.Model.BufferedReaders
import Verif.Proofs.Lines
import Verif.Proofs.Stream
import Verif.Proofs.BufReader
import Verif.Spec.Codec
import Verif.Proofs.GzReader
import Verif.Toy
import Verif.Spec.Streams
import Verif.Proofs.LimitReader
import Verif.Proofs.History
import Verif.Proofs.TwoBuf
import Verif.Proofs.Exact
import Verif.Props.Streams
import Verif.Proofs.ReadAll
import Verif.Proofs.ReadAllBlock
import Verif.Props.ReadAll
import Verif.Proofs.Chunked
import Verif.Proofs.ChunkedLoop
import Verif.Props.Chunked
import Verif.Model.StatusAndHeaders
import Verif.Spec.Headers
import Verif.Proofs.HeaderParse
import Verif.Proofs.Utf8
import Verif.Proofs.Strings
import Verif.Proofs.HeaderRound
import Verif.Proofs.HeaderStable
import Verif.Proofs.Ints
import Verif.Spec.Ints
import Verif.Proofs.HeaderMap
import Verif.Proofs.Quote
import Verif.Spec.Percent
import Verif.Proofs.AsciiHeaders
import Verif.Props.Headers
import Verif.Py.Hash
import Verif.Py.Base64
import Verif.Spec.Rfc4648
import Verif.Spec.Digest
import Verif.Model.Digest
import Verif.Proofs.Base64
import Verif.Proofs.Digest
import Verif.Props.Digest
import Verif.Py.DateTime
import Verif.Py.EmailDate
import Verif.Spec.Calendar
import Verif.Model.TimeUtils
import Verif.Model.RecordLoader
import Verif.Proofs.Calendar
import Verif.Proofs.TimeUtils
import Verif.Props.TimeUtils
import Verif.Spec.Records
import Verif.Proofs.Detect
import Verif.Proofs.RawStream
import Verif.Proofs.RecordLoader
import Verif.Proofs.LoadRecord
import Verif.Props.RecordLoader
import Verif.Model.Iterator
import Verif.Spec.Archive
import Verif.Spec.ArcTools
import Verif.Proofs.Iterate
import Verif.Proofs.IterStep
import Verif.Proofs.IterPlain
import Verif.Proofs.IterGz
import Verif.Proofs.IterGzCut
import Verif.Proofs.OpenArchive
import Verif.Proofs.Yields
import Verif.Proofs.Tame
import Verif.Proofs.TameLoader
import Verif.Proofs.TameIter
import Verif.Props.Iterator
import Verif.Props.Stray
import Verif.Props.Arc
import Verif.Props.ArcConvert
import Verif.Props.ArcArchive
import Verif.Props.ArcTools
import Verif.Props.Buffer
import Verif.Props.CaptureScope
import Verif.Proofs.IterCut
import Verif.Proofs.CutRecord
import Verif.Props.Cut
import Verif.Props.Lookup
import Verif.Props.WriteCheck
import Verif.Model.RecordBuilder
import Verif.Model.WarcWriter
import Verif.Spec.Written
import Verif.ToyWriter
import Verif.Proofs.Holding
import Verif.Proofs.EnsureDigest
import Verif.Proofs.Write
import Verif.Proofs.WrittenHeaders
import Verif.Proofs.WriteCalls
import Verif.Props.Writer
import Verif.Proofs.Create
import Verif.Props.Builder
import Verif.Spec.ReadBack
import Verif.Spec.Rewrite
import Verif.Proofs.ReadBack
import Verif.Props.ReadBack
import Verif.Props.Recompress
import Verif.Model.Tools
import Verif.Proofs.Ready
import Verif.Proofs.Copy
import Verif.Proofs.Rewrite
import Verif.Spec.Content
import Verif.Proofs.Decode
import Verif.Proofs.Content
import Verif.Props.Content
import Verif.Props.Extract
import Verif.Spec.Json
import Verif.Spec.Index
import Verif.Proofs.Json
import Verif.Proofs.Index
import Verif.Props.Index
import Verif.Spec.Check
import Verif.Props.Check
import Verif.Spec.Create
import Verif.Props.Create
import Verif.Model.Capture
import Verif.Spec.Capture
import Verif.Proofs.Capture
import Verif.Props.Capture
import Verif.Spec.CreateBack
import Verif.Props.CreateBack
import Verif.Spec.CaptureBack
import Verif.Props.CaptureBack
import Verif.Spec.Report
import Verif.Proofs.TameTools
import Verif.Proofs.WriteShape
import Verif.Proofs.CopyAny
import Verif.Props.AnyInput
import Verif.Spec.Errors
import Verif.Proofs.Errs
import Verif.Proofs.ErrsLoader
import Verif.Proofs.ErrsIter
import Verif.Proofs.ErrsTools
import Verif.Proofs.ErrsCause
import Verif.Props.Errors
import Verif.Model.Cli
import Verif.Spec.Cli
import Verif.Props.Cli
import Verif.Spec.Recheck
import Verif.Props.Recheck
import Verif.Spec.Again
import Verif.Props.Again
import Verif.Props.Canonical
import Verif.Props.Over
import Verif.Props.WrittenAgain
import Verif.Props.Same
import Verif.Spec.Converted
import Verif.Props.Converted
import Verif.Spec.Parts
import Verif.Proofs.Lies
import Verif.Proofs.Parts
import Verif.Props.Parts
import Verif.Proofs.PartsTools
import Verif.Props.PartsTools
import Verif.Spec.CopyParts
import Verif.Proofs.CopyParts
import Verif.Proofs.PlainAll
import Verif.Props.CopyParts
import Verif.Spec.Sorting
import Verif.Model.Timestamps
import Verif.Proofs.Sorting
import Verif.Props.Sorting
import Verif.Props.CheckParts
import Verif.Props.Concat
import Verif.Props.Many
import Verif.Spec.GzParts
import Verif.Proofs.GzParts
import Verif.Props.GzParts
import Verif.Spec.GzTools
import Verif.Proofs.GzTools
import Verif.Props.GzTools
import Verif.Spec.GzCopy
import Verif.Proofs.GzCopy
import Verif.Props.GzCopy
import Verif.Props.Commands
import Verif.Spec.Runs
import Verif.Proofs.Runs
import Verif.Props.Runs
import Verif.Proofs.Loose
import Verif.Props.Groupings
import Verif.Props.Regrouped
import Verif.Spec.Ident
import Verif.Props.Ident

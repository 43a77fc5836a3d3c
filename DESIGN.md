# Formal model of warcio: design

The code under study is `/repo/warcio/*.py` (Python). The model is a Lean 4
library in `/verif/lean`. Nothing in `/repo` is built or run; it is read as text.

## 1. How the model is built

* **Shallow, function by function.** Each Python function has one Lean definition
  with the same branches in the same order. Each definition cites the file and lines.
* **Bytes and text.** `bytes` is `List UInt8`; `str` is `List Char` (a Python `str`
  may hold lone surrogates, which no modelled function produces from decoded input;
  they are excluded). UTF-8 encoding and strict decoding are defined on these lists.
* **Exceptions are values.** A function that may raise returns
  `Except PyErr α`, paired with the state left behind, so that "state after an
  exception" is part of the model.
* **Streams are state machines.** `PyStream σ` gives `read`, `readline`, `tell` on a
  state type. The base instance `FileObj` has a content, a position and a *schedule of
  short reads*: every raw read may return fewer bytes than asked (at least one if any
  are left). Readers (`LimitReader`, `BufferedReader`, `ChunkedDataReader`,
  `DigestVerifyingReader`) are generic in the stream they wrap, as in Python.
* **Loops.** Python `while` loops are recursive functions with fuel computed from the
  state (the stream's bound on its remaining bytes). Running out of fuel is an explicit
  error value `PyErr.outOfFuel`; theorems that claim termination prove that it is never
  returned. Theorems that describe results are therefore also termination theorems.
* **zlib / brotli / hashlib** are parameters. `Codec` is a decompressor as a function of
  the chunks it was fed; the laws used about it are hypotheses stated in one structure
  (`LawfulGzip`): feeding a proper prefix of a member gives a prefix of its data, the
  feed that completes it reports the surplus as `unused_data`, data that does not begin
  with the gzip magic is an error. A toy codec defined in the model satisfies the laws,
  so the theorems are not vacuous. Hashes are arbitrary functions from bytes to bytes.
* **Unicode case mapping** (`str.lower`, `str.upper`) is a parameter (`PyUni`) with the
  laws that on ASCII it is ASCII case mapping and that it acts on concatenations
  pointwise; the ASCII-only instance satisfies it.

## 2. Trusted base

* Lean 4.33's kernel. Axioms: at most `propext`, `Classical.choice`, `Quot.sound`
  (checked with `#print axioms` by the gate). No own axioms, no `sorry`, no
  `native_decide`.
* The reading of the Python source and of the Python library functions it calls
  (`split`, `strip`, `int()`, `rfind`, `bytes.readline`, `base64`, `binascii`,
  `datetime`, `re`, `quote`): modelled by hand, checked against CPython 3.11 by running
  stdlib-only snippets.
* The laws of the parameters, all of them hypotheses of the theorems that use them:
  `LawfulGzip` (above; also: the first byte of a member alone gives no output), `TameZlib`
  (C38 only: decompressors expand by at most a constant factor, and leave data unused only
  after using some), `Steady b m z` (gzip members with HTTP headers to be parsed only: once
  begun, another whole block of `b` bytes gives nothing or at least `m` bytes, so that a header
  line lies in at most two buffers, as `BufferedReader.readline(n)` needs; nothing is assumed of
  members that fit a block; tried with zlib on random and skewed data: the least that a block of
  16384 bytes gave was 15637), `LawfulDeflater` (the output of `compress` calls and `flush` is one
  member that holds the input), `Deflater.Uniform` (C84 only: the output depends on the data, not on
  how it is split over the calls; tried with zlib 1.2.13 on 700 random texts and splittings), `PyUni` (case mapping and white space, as class laws),
  `Hashlib` (no laws; SHA-1 and the others are arbitrary functions).

### Simplifications
* `int()` of more than 4300 digits raises in Python 3.11; the model parses it.
* Closed streams: the model has no closed flag; where the code closes a stream and it may be
  used later, the stream is made empty.
* Header values `None` (possible with `create_warc_record`) are an error of their own.
* `base64`, `datetime`, `email.utils` and `json.dumps` are modelled as far as they are used.
* `recompress`: the file is opened twice; the second time with another schedule of short
  reads. The temporary file of `decompress_and_recompress` is its content.

### Modelled
`statusandheaders.py`, `limitreader.py`, `bufferedreaders.py`,
`digestverifyingreader.py`, `recordloader.py`, `archiveiterator.py`,
`recordbuilder.py`, `warcwriter.py`, `timeutils.py`, `utils.py` (Digester, to_native_str,
open_or_default excepted), `checker.py`, `indexer.py`, `extractor.py`,
`recompressor.py`, and from `capture_http.py` the recorder classes.

### Not modelled
`cli.py` argument parsing, `open_or_default` / temporary files (a temporary file is its
content), `print` formatting of progress messages, log output of digest problems, the
monkey-patching of `http.client`, Python 2 branches, wall-clock time and `uuid`
(parameters of the model).

## 3. Properties

`P` = to be proved; `P/N` = the English claim is false of the code as it stands for some
inputs: the negation is proved with a concrete witness, and the claim is proved under the
missing hypothesis as `_partial`.

| id | what is modelled | how it is proved |
|----|------------------|------------------|
| C01 | LimitReader over any stream | invariant over call sequences. P/N: a negative length reads past the limit |
| C02 | BufferedReader, no decompressor, over FileObj with schedule | simulation: reader state represents remaining bytes; each call refines the exact-stream spec. P |
| C03 | same with gzip codec laws | simulation, index = (rest of member, rest of file). P |
| C04 | same, error on first chunk | P/N: a first raw read of one byte loses that byte |
| C05 | read_all_members loop | P/N: an empty member ends the copy |
| C06 | ChunkedDataReader over a buffered plain stream | simulation against chunk list. P |
| C07 | same, arbitrary input | totality + fallback. P/N: a bad chunk terminator drops two bytes |
| C08 | same, strict | P |
| C09 | header list functions | list induction. P/N: with duplicates set-then-get fails |
| C10 | same | list induction, spec by split `pre ++ x :: post`. P |
| C11 | parser over any exact stream | simulation to the pure parser, then round trip. P |
| C12 | pure parser | P/N: an empty value with continuation line is not stable |
| C13 | pure parser | case analysis. P |
| C14 | pure parser | spec of "up to first blank line". P |
| C15 | to_ascii_bytes | P/N: non-ASCII outside `=value` in a value containing `;` raises |
| C16 | quote | round trip with spec percent-decoder. P |
| C17 | add_range | P |
| C18 | validate_statusline | P |
| C19 | base32/16/64 | P/N: an MD5 in hex is not recognised |
| C20 | same | injectivity of base32. P |
| C21 | DigestVerifyingReader | invariant over read histories. P/N: empty block is never checked |
| C22 | same | simulation. P |
| C23 | same | invariant. P |
| C24 | same | P |
| C25 | same | P |
| C26 | parse_record_stream | P |
| C27 | load_http_headers | P (http headers raising EOF on a truncated block is a finding) |
| C28 | _ensure_target_uri_format | P |
| C29 | _detect_type_load_headers | case analysis. P |
| C30 | ARC line splitting | rsplit lemma. P |
| C31 | ARC to WARC parser | P |
| C32 | ArchiveIterator over plain file | induction on record list. P |
| C33 | offsets | invariant tell = consumed. P |
| C34 | iterator over gzip members | induction on member list, codec laws. P |
| C35 | iterator with arbitrary user calls | induction, representation invariant closed under user calls. P |
| C36 | iterator over FileObj schedules | corollary of the simulation. P |
| C37 | iterator over one member with several records, and over members with any number of records (`C37_groups_partial`) | P; for several members the view `Loose` of a reader whose buffer still holds whole lines of earlier members |
| C38 | iterator on all inputs | progress measure. P |
| C39 | iterator on `take k` of a serialised file | P |
| C40–C42 | ensure_digest, _write_warc_record | P/N: revisit with payload; payload stream not at its start |
| C43 | writer, then iterator | composition of C11, C32, C40. P |
| C44 | iterator, then writer | P/N: blank HTTP block |
| C45 | GzippingWrapper | compressor law. P |
| C46–C48 | builder, pair writing | header-map laws. P |
| C49 | write twice | P/N: second write has an empty payload |
| C50 | create_warcinfo_record | P |
| C51–C56 | timeutils on a civil-date model | arithmetic on days/months, digit round trips. P |
| C57–C60 | tools on the iterator model | induction on records; for groupings of records into members (`C60_groups_partial`) the first attempt is followed with the view `Loose`, and if it fails, C100 gives the second one |
| C63 | timeutils with zones | P/N: zones are ignored |
| C65 | the iterator with digest checks | the verdict is an invariant of reading; follows the iterator proofs |
| C64 | content_stream over the iterator | simulation of the decoders over the record's stream. P/N: capitals, several members |
| C61–C62 | recorder state machine over arbitrary histories of events; sockets and `http.client` are not modelled, they choose the events | invariants over runs. P/N: `readinto` records the whole buffer, the host of a tunnel stays |
| C66 | create_warc_record from a stream, then writing | parsing what the library would write, header-map laws. P/N: streams not at their start, headers in another form |
| C67 | the iterator, its warnings | the warnings written are an invariant of the iterator proofs; `Gap` says what may be behind a block. Compressed files: N (the offsets) |
| C68 | the iterator on garbage | the iterator proofs with another end: the state behind the last record makes the next attempt raise |
| C69 | the iterator and the loader on ARC records, with and without `arc2warc` | `Spec/Arc.lean` says what a well-formed ARC file is; its records are items of the iterator proofs of C32–C34 |
| C70 | `load_and_write`/`recompress` on ARC files | `Spec/ArcRewrite.lean` says what WARC record is written for an ARC record; the copy loop of C44 is proved for anything shown like a WARC record |
| C71 | `BufferWARCWriter` over the writer model: one file with a position | `Spec/Buffer.lean` says what each step is to give; writing at the end is shown not to depend on the file |
| C72 | `capture_http` itself: thread-local recorders, blocks, connections (`Model/CaptureScope.lean`) | `Spec/CaptureScope.lean` keeps a stack of blocks per thread; the world is shown to agree with it, and each block with a run of the model of C61/C62 on its own events |
| C73 | `warcio index`, then `warcio extract` with what it printed | C58 read back with the JSON reader, C59 at the offset; for the bytes of a record alone, the iterator proofs for C74 |
| C74 | iterator, loader, digest reader and `check` on a file that is cut off | another end for the iterator proofs: a last record whose block is shorter than declared; the digest reader is shown to give no verdict before its limit. For compressed files: what there is of a gzip member (`LawfulGzip.CutOff`) is read like a member whose data is what comes out of it. N: files that end in a header block |
| C75 | writer, then `warcio check` of what was written | the headers written by the model of C40–C42 are shown to have true digests, then C57. N: payloads that readers do not find, wrong digests given by the caller |
| C76 | builder, writer, iterator and `check` together | `Spec/CreateBack.lean` says what a new record is and what is to be read; C66 and the like for creating, then the records are regular in the sense of C43 and meet the hypotheses of C75 |
| C77 | capture, then iterator and `check` on the file | `Spec/CaptureBack.lean` says what an exchange is and what is to be read; C62 for each exchange, the linked request is shown to be regular, then as C76 |
| C78 | `index`, `check` and `extract` on ARC files | ARC files (C69) are brought to the form of the proofs for the tools on WARC files: `Spec/ArcTools.lean` says what is to be printed, through the WARC record to which the ARC record is converted (C70). N: `verify_http` |
| C79 | `recompress`, `index`, `check`, `extract` on any bytes | the model's recursions are bounded by fuel, and running out of it is an error value; each stream has a measure of what is left (`Tame`), every step of the tools uses it up, and the fuel that is given is shown to be enough. Of zlib it is assumed that its output is bounded by a multiple of its input (`TameZlib`) |
| C80 | `recompress` on any file | `Spec/Report.lean` says what the output is to consist of; what the writer writes has this form for every record that the loader can return |
| C81 | iteration, `index`, `check`, `extract` on any bytes | `Spec/Errors.lean` lists the exceptions; each stream layer, the loader, the iterator and the tools are shown to add only the ones listed (`Gives ok E x`: the result is an error in `E` or not, and the stream stays in `ok`). That the `AttributeError` comes only from a missing URI is shown of the loader |
| C82 | the commands on a file system | `Model/Cli.lean`: files by name, standard input, what is printed; a name stands for one file, what is written is visible when the file is closed, `argparse` is trusted. `Spec/Cli.lean` says which files a command is told to write |
| C83 | recompress, then check | C60 composed with C57: a rewritten record is `Checkable` if the record is, with `KeptVerdict`; `Spec/Recheck.lean` reads the failures off what is printed; once more at the command line with C82 |
| C84 | recompress twice | C60 composed with itself: the records that come out are `Normal`, and are copied as they are; with a compressor whose result depends on the data alone (`Deflater.Uniform`), byte by byte, by restricting the members to those that the compressor writes; at the command line with C82 |
| C85 | recompress, then index and extract | what comes out of C60 is an archive of the rewritten records (`archived_again`), for which C58 and C73 apply; fields that last are `Lasting` (`Spec/Again.lean`); at the command line with C82 |
| C86 | ARC file, recompress, then check, index and extract | what comes out of C70 is an archive of WARC records (`arc_again`, `MadeOf`); they carry no digests before they are written, so that C83's `kept_checkable` says what check finds; the index and the payload by comparing C78 with C58 and C73. `Spec/Converted.lean`: `passes` counts the records that are said to pass, `Timed` are records with the date of a date |
| C87 | any uncompressed file, cut into records | the iteration of the model, related by a simulation (`any_parts` in Proofs/Parts) to an inductive description of the file (`Parts` in Spec/Parts), in which the header block is what `detectType` gives on the plain bytes and lines are those of `splitLines`; the streams of a record are followed by what they may leave unread (`Lies` in Proofs/Lies), so that digest checks that fail and HTTP headers that do not parse are included |
| C88 | opening a file at an offset that was reported | two instances of C87, and that detection of the format does not depend on what was known before when the format is the same (`detect_known`); HTTP headers are compared through the parser run on the bytes of the block alone (`Portion.Parsed`, by `http_still`) |
| C89 | `warcio index` on any uncompressed file | induction over the iteration (`indexLoop_any`): the invariant of C87 holds behind the lookups of all fields, which read no more than the rest of the record |
| C90 | `warcio extract` at any position of any uncompressed file, and at the offset of a line of the index | one step of C87 from the position; the loader of `index` and that of `extract` agree on a WARC record whatever else they are told (`detect_agree`) |
| C91 | `warcio recompress` on any uncompressed file | the copying loop over the cuts of C87: writing a record reads the rest of its stream and leaves the iterator where it can go on; the writer without the assumption that lengths fit (`writeTo_given`); the second attempt reads the same bytes (`decompress_plain`) |
| C92 | `datetime_to_timestamp`, `datetime_to_iso_date`, `timestamp_now`, `timestamp20_now` (the clock is a parameter) | `Spec/Sorting.lean` has the order of texts; numbers padded to a width sort as numbers (`pad_before`), then field by field; N: whole seconds among dates with microseconds, years before 1000 |
| C93 | `process_one` of the checker on an uncompressed file of any bytes | `Spec/CheckParts.lean` (`CheckedParts`) over the cut of C87; reading the content stream keeps the verdict whatever the decoders do with it (`Rests`), the position then reads on to the end of the record (`examine_any`), fuel is excluded by the potential of C59 |
| C94 | two uncompressed files, one behind the other | `Spec/Concat.lean` (`Complete`: whole records with a line behind each); a header block that is followed by something is the same with more bytes behind the file (`detect_extend`), so each cut of C87, C89, C91 and C93 of both files splits at the seam (`parts_split`, `indexed_split`, `checked_split`, `copied_split`) |
| C95 | `check` and `index` on lists of uncompressed files | `Spec/Many.lean` puts the specifications of C93 and C89 of each file together (`CheckedAll`, `IndexedAll`); induction on the list of files |
| C96 | any list of gzip members | `Spec/GzParts.lean` cuts each member like C87 cuts a file (`GzParts`); an invariant of the iteration for the beginning of a member (`GTop`), the use of a record (`GAfter`) and the rest of the last member (`GLast`); each operation keeps it |
| C97 | `index` and `check` on any gzip members, and on mixed lists of files | `Spec/GzTools.lean` (`GzIndexed`, `GzChecked`, as C89 and C93 for members); the invariants of C96, with the loops of the tools; induction on the list of files (`CheckedFiles`, `IndexedFiles`) |
| C98 | `extract` and `recompress` on any gzip members | `Spec/GzCopy.lean` (`GzCopied`, as `CopiedParts` of C91 for members; `Murky`: the members of which nothing is said); the invariants of C96 with the loop of the recompressor; for the second attempt the reader of C60 for one member, then C91 |
| C99 | the commands on any files | `Model/Cli.lean`; `C82` gives what the commands do with the results of the tools, C91, C95, C97 and C98 give these for any contents (`Holds`); induction on `CheckedFiles` for the exit value |
| C100 | recompress repairs gzip members as a whole | `Model/BufferedReaders.lean`, `Model/Tools.lean` (`shutil.copyfileobj` reads 65536 bytes at a time, its buffer size except on Windows); `GzRun` follows the current member and those after it through `empty`, `_fillbuff` and `read`; `Aside` says that no block of 65536 bytes ends behind a member; then C91 and C44 on the data |
| C101 | identifiers of converted ARC records | `ids n` is what `make_warc_id` returns when the loader is called for the n-th time; the cut of C87 and the copy of C91 tell which one each record is loaded with, and the loader puts it into the headers unless the WARC parser accepts the first line (`WarcStart`) |
| C102 | what recompress writes | C60 and C84, with the members that the compressor writes told apart from those of the input: the records that come out are those of the input if they are `Normal`, so each member is what the compressor makes of the bytes of a record; what the writer writes is `Normal` and `Rewritable` (`written_records`) |
| C103 | an exception ends the iteration | the state of the generator is `finished` after every exception, by cases of the loop; `calls` are any number of later calls |

Properties are extended as the model grows; section 4 lists what was proved and where
the code disagrees with the English claim.

## 4. Results

`proved`: the whole claim. `partial`: the theorems with suffix `_partial` have hypotheses
that the claim does not mention, or the claim is false of the code for some inputs; the
negation is then a theorem without this suffix, with a concrete witness. The table is
written by `tools/mkdesign.py`.

<!-- results -->
| id | status | file in `Verif/Props` | what holds, what is missing |
|----|--------|------|------|
| C01 | partial | Streams | negative length arguments excluded; with them the claim is false (witness proved) |
| C02 | partial | Streams | readline(n) is exact only for lines within a block and full reads; otherwise false (witness proved) |
| C03 | partial | Streams | readline(n) only for full reads and lines within m bytes in members that are decompressed steadily: once begun, a block gives nothing or at least m bytes (Steady; C03_steady); true of any member that fits a block (C03_small_members) |
| C04 | partial | Streams | false when the first raw read delivers a single byte (proved) |
| C05 | partial | ReadAll | read_all_members stops early at a member that ends with its block or is empty (proved false in general); exact when the members sit in one block, and what is returned is always a prefix |
| C06 | partial | Chunked | size lines up to 62 bytes, no trailers (both proved to fail otherwise), readline(n) left out |
| C07 | partial | Chunked | total and bounded for all data; unchunked data unchanged; each way of being cut described; the claim that no bytes are lost or added is false (witness proved) |
| C08 | proved | Chunked | the full claim |
| C09 | partial | Headers | holds for names that occur at most once; with duplicates set-then-get and delete fail (proved), other lookups are never affected |
| C10 | proved | Headers | the full claim |
| C11 | proved | Headers | any stream whose readline is exact; corollary for BufferedReader of any block size over any schedule of short reads |
| C12 | partial | Headers | false for an empty value followed by a continuation line, and for a first line starting with a space with verify=False (both proved); stable from the second round trip on for all inputs |
| C13 | proved | Headers | the full claim |
| C14 | proved | Headers | the full claim |
| C15 | partial | Headers | raises for non-ASCII text outside name=value parts of a value with a semicolon (proved); proved for all other values |
| C16 | proved | Headers | the full claim |
| C17 | partial | Headers | values of the three headers are proved for names that occur at most once; with a duplicate the lookup still returns the old value (proved) |
| C18 | proved | Headers | the full claim |
| C19 | partial | Digest | Proved for base32 (any length), base16 in either case from 17 bytes, base64 and URL-safe base64 from 11 bytes, for every hash function. Missing: shorter digests; for 16 bytes (MD5) hexadecimal is proved never to verify. |
| C20 | proved | Digest | Any other digest of the same length is rejected in every encoding; also an exact characterisation of the accepted texts. |
| C21 | partial | Digest | Exact verdict for every block of positive length, split point, history and pair of digest headers. Missing: empty blocks (proved false: the block digest is never checked), malformed headers (proved to raise binascii.Error), negative read lengths. |
| C22 | partial | Digest | Lockstep with the plain reader over any stream, any arguments, for True and 'log'. Missing: malformed digest headers, where the last call is proved to raise. |
| C23 | proved | Digest | For every kind of check, any headers and any mixture of calls and begin_payload, over any stream that hands out leading bytes of its data; read lengths None or non-negative. |
| C24 | proved | Digest | Revisit: checker untouched for all operations. Segment: reader equal to the one made without payload digest. |
| C25 | partial | Digest | Raises on mismatch for blocks of positive length and well-formed headers; never raises when the digests match. Missing: as for C21. |
| C26 | proved | RecordLoader | For every WARC header block and following data over any stream with exact reads; every history of reads, and readline as consecutive parts. Digest checking off or giving verdicts. |
| C27 | partial | RecordLoader | Complete blocks with non-empty parsed headers; other records fully. Missing: payload_length for empty parsed headers, where it is false (C27_empty_headers); records without URI raise (C27_no_uri). |
| C28 | partial | RecordLoader | At most one WARC-Target-URI. Missing: duplicates, for which it is false (C28_duplicate). |
| C29 | partial | RecordLoader | Every input and known format except blank first lines, for which it is false (C29_blank_line). |
| C30 | proved | RecordLoader | Every URI and space-free fields (the length not ending in whitespace). |
| C31 | partial | RecordLoader | Every ARC line and content; the URI up to the clean-up of C28. Missing: identity of URIs with spaces or brackets, which is false (C31_spaces). |
| C32 | proved | Iterator | Every list of well-formed records (Verif/Spec/Archive.lean: Good), every block, every plan of user operations, seekable or not. Blocks of at least 2 bytes and a first short read of at least 2 bytes, because of C04. HTTP headers are the parsed ones if their lines are read whole (C36). |
| C33 | proved | Iterator | Uncompressed and gzip; offsets and sizes at any point of any plan, and iterating again from the offset. Same reads as C32. |
| C34 | proved | Iterator | Every non-empty list of members, any lawful codec; C34_same compares with the uncompressed file step by step (records whose content is settled by the file: tidy URI, HTTP head within the line bound). |
| C35 | proved | Iterator | Any two plans on uncompressed and gzip files: the same records at each step, and the same results where the operations are the same (readline excluded from the second part: where a line is cut depends on the buffers, C02). |
| C36 | partial | Iterator | Same steps for any block sizes and short reads if HTTP headers are not parsed, or if no short reads occur and blocks hold the HTTP header lines (gzip: the members are decompressed steadily, Steady in Verif/Spec/Codec.lean). Missing part is false: C36_small_blocks, C36_short_reads. |
| C37 | partial | Groupings, Iterator | C37_reported_partial: a file that is one member with two or more records, any use of the first record. C37_groups_partial: members with any numbers of records, at least one each and not one each, while the user reads from the records or leaves them: some of the records are yielded as they are, not all of them, and then the exception is raised. The claim itself is false there: the second record of a member may still be yielded (C37_not_reported). |
| C38 | proved | Iterator | Any file content, options, block size, short reads and use of the records. Assumes of zlib (TameZlib) that decompressors expand by at most a constant factor and leave data unused only after using some. |
| C39 | proved | Iterator | Cut anywhere inside of the next record (uncompressed), or anything behind the complete members (gzip). |
| C40 | partial | Writer | For every record type, HTTP headers that can be encoded and payload file (any position, seekable or not, any short reads) whose length is unknown or true. Missing: wrong lengths, for which it is false (C40_wrong_length); create_warc_record itself makes wrong lengths (C40_blank_line, C40_position), and so do revisits with a block but no HTTP headers (C40_revisit). |
| C41 | partial | Writer | Records of known length that are no revisits; unknown lengths are in C42. False for revisits that have a payload (C41_revisit). |
| C42 | partial | Writer | All records of unknown length that are no revisits and have no digest header twice; with two, a stale one is kept (C42_duplicate). |
| C43 | partial | ReadBack | C43_plain and C43_gzip: for every list of writable, regular records written one after the other, reading the file (any block size >= 2, short reads as in C32/C34, any plan of user operations) yields exactly these records in order: same type, version, headers (up to the lengths and digests that writing sets), HTTP headers and payload, with offsets and lengths of the bytes written. C43_response: the user's view for one response. Reading without check_digests and verify_http; HTTP header lines must fit in a block. Fails, and negations with witnesses are proved, for header values with line breaks (C43_line_break), URIs in angle brackets (C43_brackets), and two Content-Length headers (C43_two_lengths). |
| C44 | partial | Recompress | Proved for lists of records of any length whose headers and HTTP headers are in the form in which the writer puts them (Rewritable): plain and per-record gzip input; the output holds the records in order with the same version, headers and blocks, up to the form of the length and added digests; records in normal form come out byte by byte the same (C44_identity), rewriting is idempotent (C44_twice), kept digests cover the same block and added ones verify (C44_verifies). False for HTTP blocks that start with a blank line (C44_blank_line: length too large) and for HTTP headers that are not in normal form (C44_stale_digest: the block changes, its digest does not). |
| C45 | proved | Writer | For every record and every list of records, assuming of zlib only that the output of compress calls and flush is one member that holds the input (LawfulDeflater). |
| C46 | partial | Create, Writer | If the response has a URI and a date and the request has no two of them; plain or compressed (C46_stored_partial). Without URI or date the request is not written (C46_missing). |
| C47 | partial | Builder | Every URI, digest, HTTP headers and dictionary; the headers, the bytes written and the block digest. Missing: dictionaries with two types or URIs, an empty id or date (false, see C48) or an own payload digest (the given one is then the second, C47_duplicate). |
| C48 | partial | Builder | Every dictionary with at most one type and URI (case-insensitive) and no empty id or date; headers given as an object; content types. Missing: the other dictionaries, for which it is false (C48_duplicate, C48_empty_id). |
| C49 | partial | Writer | False of the code: the payload is written only the first time (C49_payload). Proved for records without payload whose digest headers are not empty. |
| C50 | proved | Builder | Every dictionary of texts; values that are not text (byte strings, numbers) are not modelled. |
| C51 | proved | TimeUtils | For all strings; clamping stated for 14 digits followed by anything. |
| C52 | proved | TimeUtils | For every date of 1900-2999. |
| C53 | partial | TimeUtils | Naive dates with and without microseconds, aware dates without. Missing: aware dates with microseconds, for which it is false (C53_aware: TypeError always). |
| C54 | proved | TimeUtils | For every prefix of 4, 6, ..., 14 digits of a timestamp of 1900-2999. |
| C55 | proved | TimeUtils | Inverse, epoch, successor and monotony for every date of 1900-2999. |
| C56 | partial | TimeUtils | Years 100-9999. Missing: years 1-99, for which it is false (C56_early_years). |
| C57 | partial | Check | The exit value: for any inputs for which nothing but ArchiveLoadFailed escapes (C57_exit), in any order (C57_order). Exit value and output from the records: archives, plain or with one record per member, with any verdicts, members with several records, files, compressed or not, that end within their last record (see C74), plain files with stray lines behind blocks and garbage at the end, ARC files, and files that are no archive (C57_check_partial). For whatever uncompressed files and gzip members hold: C95_check and C97_files_check. Missing there: gzip data that is broken. False for digests that cannot be decoded (C57_crash). |
| C58 | partial | Index | Any number of files, plain or with one record per member, any fields, URIs with brackets or spaces; lines are read back with a JSON reader of the specification. A member with several records: a line for the first and then the error (C58_member). With verify_http, and for whatever the files hold: C95_index and C97_files_index. Missing: the length of a record in a member with several; HTTP lines within the block size as in C32. False for records with two URIs (C58_two_uris: the one that is printed is not the cleaned one). |
| C59 | partial | Extract | Proved for plain files, for records that are gzip members, and for the first record of a member with several, with any bytes before; all parts that can be asked for, payloads with any codings of C64. Headers: for regular ones. False otherwise (C59_rewrites_headers: printed as parsed). |
| C60 | partial | Groupings, Recompress | Proved for plain files (C60_plain), for one record per member (C60_gzip), for one member with several records (C60_one_member_partial), and for any grouping of whole records into members with at least one each (C60_groups_partial: NoRun, no run of members that holds a multiple of 65536 bytes, see C100_run); C60_first is the first attempt. For a file that is one member with any data see C98_one, for records that are spread over several members see C100_records. False for files with empty members (C60_lost: 3 of 4 records, reported as fixed; C60_lost_silently: 2 of 4 records, reported without errors). |
| C61 | partial | Capture | Proved for direct requests over any history without a tunnel, and for requests behind a tunnel to a named host (C61_tunnel). False for direct requests after a tunnel (C61_stays), for IPv6 hosts (C61_ipv6) and if the request line is sent in pieces (C61_pieces). The default port is what the connection says. |
| C62 | partial | Capture | Proved over any history, for bytes sent and received in any pieces: closing adds exactly the two records, plain or compressed; nothing else writes, and nothing is written if the filter rejects. The bytes must be HTTP messages in the form the library writes them, and readinto must fill its buffer. False otherwise: C62_readinto, C62_shared (overlapping exchanges), C62_lazy_tunnel, C62_unknown_verb, C62_stale_address. |
| C63 | partial | TimeUtils | False of the code: the zone of an HTTP date is always ignored (proved for every date and zone word), ISO offsets are read as fractions of a second. The part that holds (GMT) is C56_roundtrip_partial. |
| C64 | partial | Content | Proved for plain files and files with one record per member, any plan before and any calls; chunked and any available coding, under the laws of a decompressor; payloads that are missing, as in revisits and answers to HEAD requests. HTTP headers with lines within the block size, as C32. Incomplete or invalid payloads: not stated. False for transfer codings in capitals (C64_capital) and for payloads of several gzip members (C64_two_members). |
| C65 | proved | Check | For digest headers that are absent, unusable or texts of digests. As the code has it, a digest of an empty block is not compared, unless its algorithm is unknown (BlockOutcome, see C21_empty_block). HTTP headers with lines within the block size, as C32. |
| C66 | partial | Create | Proved for everything that is no HTTP record (C66_data), and for HTTP messages in normal form with known verbs or versions, in ASCII. False if a length is given and the stream is not at its start (C66_position), for other verbs (C66_unknown_verb) and for headers in another form (C66_reformatted). |
| C67 | proved | Stray | Uncompressed files (the statement). For gzip the offset in the warning is wrong and depends on the block size (C67_gzip_offsets). |
| C68 | proved | Stray | Without arc2warc; WARC archives. Stray lines as in C67 are allowed before the garbage. A file with nothing but garbage: C68_unknown. |
| C69 | partial | Arc | Proved for files whose describing record has ASCII lines behind its first line; for UTF-8 lines the claim is false (C69_utf8_lines). verify_http=False (the default) and check_digests other than 'raise'. HTTP heads as in C32. With arc2warc the headers are given up to the clean-up of the URI (C28), and exactly if the URI is tidy; dates from 1900 to 2999. |
| C70 | partial | ArcConvert | Proved for records that are well-formed (as in C69), whose fields can stand as header values, whose URI needs no cleaning, and whose HTTP headers are ASCII in the form in which they are written (as in C44; otherwise blocks change, C44_blank_line, C44_stale_digest). Dates from 1900 to 2999. The identifiers are those handed out; that no two records get the same one is C101. The two lines of the describing record are not in the WARC file. |
| C71 | partial | Buffer | Proved for any sequence of writes (also failing ones), get_contents, and get_stream with the stream read to its end, in any pieces, before something else is done. False if something is written before that: it is written over the first records (C71_overwrites). |
| C72 | partial | CaptureScope | Proved for any number of threads, blocks and connections, if no connection is made in a block inside which another block has ended; there the claim is false (C72_nested). What is recorded is that of C61/C62 for the events of these connections. Two blocks are taken to have different files. Connections go on being recorded after the block is left; if the file was given by name such exchanges are lost (C72_late). |
| C73 | partial | Lookup | Proved for archives, plain or with one record per member, read from their start, with the exceptions of C58 and C59 (headers that are not regular). That extracting does print something is C59. |
| C74 | partial | Check, Cut | Iteration: proved for every end in a block or in the blank lines behind it (C74_cut), and before an HTTP block (C74_dropped); for a file of gzip members that ends in the last one by what comes out of it (C74_cut_gzip, C74_dropped_gzip). check: for contents that can be read to the end of what there is, so not for a body that is compressed or chunked and cut (C74_check_partial, C74_check_gzip_partial). False for an end in a header block, which makes a record with other headers (C74_header_block). |
| C75 | partial | WriteCheck | Proved for every list of records as in C43, plain and compressed, whose digests are left to the writer (none given, or length unknown; or revisits) or right (of any known algorithm, base32, base64 or hexadecimal) and whose payload is found by readers, with content and transfer codings as in C64 (C75_plain_partial, C75_gzip_partial). False for a record with HTTP headers that is not read as HTTP (C75_resource), for a whole HTTP message in a record without HTTP headers (C75_whole_message), and for wrong digests given by the caller (C75_stale). |
| C76 | partial | CreateBack | Proved (C76_partial) for every list of new records other than revisits, plain and compressed, whose headers fit on a line, with a URI without spaces and brackets, HTTP headers in ASCII and as the library writes them, and no header twice that is set. False if the URI is given among the headers only: such a response fails the check (C76_uri_in_dict); for a URI with a space (C76_uri_space); for HTTP headers outside ASCII (C76_not_ascii). |
| C77 | partial | CaptureBack | Proved (C77_partial) for every sequence of exchanges as in C62 (HTTP messages as the library writes them, full buffers of readinto, a filter that accepts everything), one after the other in a new file, plain and compressed, whose URLs and addresses fit in headers; the check for bodies that can be decoded. What fails for captures is listed for C61 and C62. |
| C78 | partial | ArcTools, Converted | All three tools, plain files and files with one record per member; the offset in the index is that of the record for extract (C78_lookup_partial). Missing: verify_http; HTTP lines within the block size as in C32 and, for what extract prints of HTTP headers, HTTP headers in the form in which they are written (as in C59). The converted records have identifiers that are handed out, in any order. |
| C79 | proved | AnyInput | All four tools, any list of files with any content and any pattern of short reads. Assumed of zlib: what comes out is bounded by a multiple of what goes in, and nothing is lost of what is not used (TameZlib). |
| C80 | partial | AnyInput | Any file, any pattern of short reads. Missing: the version line may be absent, which happens (C80_headless: a file that begins with an empty line, whose output cannot be read, C80_unreadable); and the declared length is some number, not always that of the block (as for a record that is cut off). |
| C81 | proved | Errors | Any file, any options, any sequence of reading operations; index, check and extract on any files. Where AttributeError comes from is shown of the loader on any buffered stream (C81_cause). Assumed of zlib: as for C79, and that it is there. recompress catches everything and is in C79 and C80. |
| C82 | partial | Cli | Every file system and command. False if the output is an input: `warcio recompress a a` empties the file, whatever it held, says that no errors were found, and exits with 0 (C82_same_file); index -o a a empties it as well (C82_index_same). -v makes recompress fail if its own output cannot be read (C82_verbose_fails). Missing: links and other ways for two names to be one file; argparse. |
| C83 | partial | Recheck, Regrouped | Plain files, one record per member, one member with several records, any other grouping with at least one record per member as C60_groups_partial (C83_groups_partial, what check says after recompress), and the command line (C83_cli_partial). Partial: records that are rewritten without loss (C44: HTTP headers in the form in which they are written, a URI that needs no cleaning), members that are decompressed steadily if there are HTTP headers (Steady). False for other HTTP headers: recompress changes them but keeps the block digest, so that check then fails (C83_spoilt). |
| C84 | partial | Again | Plain files, one record per member, one member with several records, and any other grouping with at least one record per member, as C60_groups_partial (C84_twice_partial); byte by byte, whatever compressed the first file (C84_fixed_point_partial), also at the command line (C84_cli_partial). Partial: records that are rewritten without loss (C44), and groupings as in C60; byte identity for a compressor whose result depends on the data alone (zlib's compressobj without flush in between has this property in practice; it is a hypothesis). False for records with an empty digest header, to which another digest is added each time (C84_grows). |
| C85 | partial | Regrouped, Same | Plain files and one record per member, any fields that are Lasting, and the payload at the offsets of the two indexes; also at the command line (C85_cli_partial). For any other grouping of the records into members, as C60_groups_partial, index prints for the new file what it prints for the uncompressed one (C85_groups_partial). Partial: records that are rewritten without loss (C44), not more than one URI if it is asked for, HTTP headers as in C58 and C59. |
| C86 | partial | Converted | Plain ARC files and one record per member: check (C86_check_partial), index (C86_index_partial), payloads at the offsets of the two indexes (C86_extract_partial), and check and index at the command line (C86_cli_partial). Partial: ARC records that can be converted without loss (Convertible, as in C70: fields that can be headers, URIs that need no cleaning, HTTP headers in the form in which they are written); for the index, dates that are dates from 1900 to 2999. |
| C87 | proved | Parts | Any file whose first two bytes are not those of gzip, any options, any reading of the records: the file is cut into records (C87_parts); the offsets and lengths reported are pieces of the file with one line and blank lines between them (C87_tiles). The format of the records is that of the loader on the bytes from the record on. If digests are not checked and header lines have at most m bytes (m up to the block size, no short reads), HTTP headers and the stream of the record are what the loader makes of the block alone (Portion.Parsed); for HTTP records these are the headers at the front of the block and what is behind them (C87_http; C87_verify with verify_http, where a record whose first line does not start as that of a request or of a response ends the iteration, see Over.status). Otherwise only that the stream is an end of the block. |
| C88 | proved | Parts | Any file whose first two bytes are not those of gzip; both iterations with any blocks and short reads (C88_reopen). The claim is for no digest checks, and either no_record_parse, or verify_http off and HTTP header lines within the blocks of both iterations without short reads: a header line longer than a block can be read differently at another alignment. |
| C89 | proved | PartsTools | Any file whose first two bytes are not those of gzip (C89_index). What the fields of the record are is what the loader reads from the bytes at its offset (Portion.Shows), HTTP fields are those of the HTTP headers at the front of the block if their lines are within a block (Portion.Parsed). |
| C90 | proved | PartsTools | C90_extract: any position at which there are not the first two bytes of gzip; with --payload the output is given for records that are no HTTP messages (of others C59 gives it in well-formed files). C90_lookup: every line of the index (C89); for HTTP messages headers, HTTP headers and the rest of the block, if there is one WARC-Target-URI and HTTP header lines are within a block. A record of a single byte is left out, as there the two readers could differ on whether the file is compressed. |
| C91 | proved | CopyParts | C91_copy: load_and_write, any writer settings; C91_recompress: both attempts (file at its start, seekable, first read of at least two bytes); C91_block: records that are no HTTP messages. The length of a copy of an HTTP message is that of its block if the lengths of the record fit (field `length` of CopiedRecord). C91_cut: a record that is cut off gets another block in the copy. HTTP headers are those the loader parses (C87), if header lines are within a block. |
| C92 | partial | Sorting | Proved for dates from the year 1000 on (C92_timestamp_partial, C92_iso_partial, C92_timestamp20_partial), and with microseconds for dates of any year that are both whole seconds or both not, or that have a time zone (C92_micros_partial). Missing because false: a whole second sorts behind the moments within it (C92_whole_second), years before 1000 (C92_early_years). |
| C93 | proved | CheckParts | C93_check: process_one, any file whose first two bytes are not those of gzip; the verdict is Portion.Verdict, spelled out in C93_differs and C93_agrees. What is behind the HTTP headers is what the loader leaves (Portion.Parsed), for header lines within a block. Records whose digest headers are not usable (no verdict for some data: bad base32 of a wrong length, say) are free to raise; Over.digest, used for such failures while loading, was tightened for this. |
| C94 | proved | Concat | Any two files, the first one Complete (its records load without an exception, are all there and have something behind them) and ending with a newline, the second one not starting with a blank line. C94_iterate without checking digests, any operations on the records; C94_index, C94_check, C94_recompress (first attempt) for the tools, in terms of the specifications of C87, C89, C93 and C91. With verify_http Complete includes that the first lines of the HTTP messages are such. C94_glued: without a line behind the last record it is false. |
| C95 | proved | Many | Any list of files whose first two bytes are not those of gzip (and that have not just one byte). C95_check and C95_index: outcome and output for the list from those for the files (C93, C89); C95_exit: what the exit value says about the records. Which exceptions can end check early is C81_check. |
| C96 | proved | GzParts | Any list of gzip members, any options, any operations on the records. C96_members: the records, the answers and the end, from the specification GzParts; C96_places: offsets and lengths. Nothing is claimed behind a member that is not the last one and that has several records, or has no record and raises no error (empty or blank); C96_several shows that offsets are wrong there. |
| C97 | proved | GzTools | Any list of gzip members, any fields and options of the tools (C97_index, C97_check); C97_places: one line for each member; C97_files_check, C97_files_index: any list of files, each uncompressed or a list of members. As in C96 nothing is claimed behind a member that is not the last one and has several records, or has no record and raises no error. |
| C98 | proved | GzCopy | C98_extract: any member from which on there are only members; with --payload the output is given for records that are no HTTP messages. C98_copy, C98_no_errors: the first attempt, any writer settings, unless a member before the last one has several records or has no record and raises no error (Murky; C98_clear says when this is so); there C60_lost shows what can happen. C98_one: both attempts on a file that is one member (at its start, seekable; the data not a single byte and not gzip themselves). |
| C99 | proved | Commands | C99_check, C99_exit, C99_index: any list of files, each not like gzip or a list of members; C99_recompress: any uncompressed file (not a single byte); C99_one: a file that is one member; C99_extract, C99_extract_gz: with --payload the output is given for records that are no HTTP messages. Output and input of recompress and index are different files (C82_same_file shows what happens else). As in C97 and C98 nothing is claimed behind a member that is not the last one and has several records, or has no record and raises no error; recompress of several members is in C98_copy. |
| C100 | proved | Runs | C100_blocks: the reading in blocks, for any block size. C100_second, C100_fixed, C100_records: recompress, for files at their start and seekable, whose data are not a single byte and not gzip themselves. C100_run shows that the proviso is needed for the reading. Whether a first attempt that finds no error has copied everything is the subject of C98 (for members with a record each) and C60 (false in general). |
| C101 | proved | Ident | C101_ids and C101_distinct: iteration with arc2warc, any options otherwise; C101_copy: _load_and_write. What is taken for a WARC record begins with a line with a version, or with a blank line. That uuid4 hands out no identifier twice is a hypothesis. |
| C102 | partial | Canonical, WrittenAgain | C102_canonical_partial gives the output as a function of the records; C102_same_partial, C102_together_partial and C102_untouched_partial follow from it, C102_cli_partial is the command. For what the writer writes: C102_written_partial and C102_later_partial, for records as in C43 without empty digest headers, whose HTTP headers, if they are read as HTTP messages, are as in C44. Partial: records that are rewritten without loss (C44), and groupings as in C60. That the result of the compressor depends on the data alone is a hypothesis (see C84). |
| C103 | proved | Over | C103_over. outOfFuel, the exception of the model that stands for a loop without end, is excluded; C38 and C79 say that it does not come up. |
<!-- end of results -->

## 5. Where the code disagrees with the claims

Each of these is a theorem (in brackets) about the model, or, where no theorem is named, a
remark made while modelling.

Streams
* `LimitReader` with a negative length reads past the limit (C01).
* `BufferedReader.readline(n)` may cut a line that lies in three or more buffers (C02); so
  HTTP header lines can be split in two for small blocks or short reads
  (`C36_small_blocks`, `C36_short_reads`).
* If the first raw read returns a single byte and the data is not compressed, the byte is
  lost (C04).
* With `read_all_members`, `read` returns `b''` early when a member is empty or ends with
  its block (C05); `shutil.copyfileobj` takes this for the end.
* The fallback for data that is not chunked drops bytes (C06, C07).

Headers
* `replace_header` and `remove_header` change the last of several headers of that name,
  `get_header` returns the first; `in` is false for an empty value (C09).
* Parsing and printing is not stable for an empty value with a continuation line (C12).
* A blank first line with `verify=True` gives an empty header block (C13).
* `to_ascii_bytes` raises for non-ASCII text outside of `name=value` parts (C15).
* `add_range` with two `Content-Length` headers (`C17_duplicate`).
* Trailing Unicode white space is stripped from values; values with line breaks inject
  headers (`C43_line_break`).

Digests
* An MD5 in hexadecimal never verifies (`C19_md5_hex`); a digest that is not valid
  base32/16/64 raises `binascii.Error` out of `read` (`C21_malformed`, `C22_malformed`),
  which `warcio check` does not catch.
* The digest of an empty block is never checked (`C21_empty_block`); a record that is cut off
  by the end of the file is never verified, and `check` exits with 0 (`C74_unnoticed`); the same if a
  compressed file ends within a gzip member, where `check` could see that the member is incomplete (`C74_unnoticed_gzip`).
* The payload digest is written for what follows the HTTP headers *of the record object*, and
  compared with what follows the HTTP headers *that a reader parses*: a `resource` record
  written with HTTP headers (`C75_resource`), and a response written as a whole message without
  HTTP headers, as one read with `no_record_parse` is (`C75_whole_message`), fail `warcio check`.
  Digests of a record of known length are kept though they may be wrong (`C75_stale`).
* A response whose URI is given in `warc_headers_dict` only is created as if it were none of HTTP,
  and fails `warcio check` (`C76_uri_in_dict`).

Records and iteration
* An ARC header counts characters instead of bytes of the version block.
* A response without `WARC-Target-URI` raises `AttributeError` (`C27_no_uri`), which ends
  `warcio check` before the remaining files are looked at (`C81_occurs`). A record
  whose HTTP headers are cut off by the end of the file is dropped silently (`C74_dropped`,
  `C74_dropped_gzip`);
  one whose WARC headers are cut off is yielded with what there is of them (`C74_header_block`).
* HTTP headers that start with a blank line count as absent, with a payload length of
  `-1` (`C27_empty_headers`).
* Two `WARC-Target-URI` headers: the cleaned value goes to the wrong one
  (`C28_duplicate`); `arc2warc` changes URIs with spaces or brackets (`C31_spaces`).
* A WARC file that starts with a blank line is one record (`C29_blank_line`).
* A file that ends right behind the header block of a response or request which declares a block
  ends the iteration without an error, and the record is not delivered (`Over.bare` in C87).
* A member with several records followed by another member in the same block is not
  reported (`C37_not_reported`). After an empty member the check is switched off for good,
  and records are lost; the next record reports the offset of the empty member.
* The first line that is not blank behind a record is swallowed, with a warning (C67). In a
  compressed file the offset in this warning is no offset of the file: the length of the
  uncompressed line is taken from a compressed position (`C67_gzip_offsets`).
* `content_stream` compares the transfer encoding case-sensitively.

Building and writing
* `create_warc_record`: the length is wrong for payload streams that are not at their start
  (`C40_position`), and for HTTP headers that start with a blank line (`C40_blank_line`);
  `tell` of an unseekable payload raises; duplicate or empty entries of the dictionary win
  over the arguments (`C48_duplicate`, `C48_empty_id`, `C47_duplicate`).
* A length given by the caller is trusted (`C40_wrong_length`).
* Revisits: the block digest covers a payload that is not written (`C41_revisit`); a revisit
  without HTTP headers declares a length and writes nothing (`C40_revisit`).
* A record of unknown length with two digest headers keeps a stale one (`C42_duplicate`).
* Two `Content-Length` headers: the last one is set, readers use the first one
  (`C43_two_lengths`).
* URIs in angle brackets lose them when read back (`C43_brackets`).
* A record that is written a second time has an empty payload and a length that is not
  zero (`C49_payload`); empty digest headers are added to each time (`C49_empty_digest`).
* `write_request_response_pair` writes the response, then raises, if URI or date is missing
  (`C46_missing`).
* Rewriting: blank HTTP headers (`C44_blank_line`), HTTP headers not in normal form
  (`C44_stale_digest`), non-ASCII HTTP headers are percent-encoded.

Times
* `datetime_to_iso_date` with microseconds raises for aware dates (`C53_aware`); HTTP dates
  of the years 1 to 99 (`C56_early_years`); zones of HTTP dates are ignored and ISO offsets
  taken for fractions of a second (C63).

Tools
* `recompress` loses records without an error when there are empty members (`C60_lost`,
  `C60_lost_silently`).
* Of a WARC file that begins with an empty line `recompress` reports one record and no errors; it
  writes all of the file as the block of a record without a version line (`C80_headless`), which
  warcio then cannot read (`C80_unreadable`).
* The copy that `recompress` makes of a record that is cut off declares the length of the whole record
  and is followed by two line ends, which are then read as part of its block; "No Errors Found!" is
  reported (`C91_cut`).
* `warcio recompress a a` truncates the file before reading it: nothing is left of it, whatever it
  held, the message is "No Errors Found!" and the exit code 0 (`C82_same_file`); `index -o a a`
  empties it as well (`C82_index_same`).
* With `-v`, `recompress` indexes its output and fails if that fails, though everything was written
  (`C82_verbose_fails`).
* `recompress` can spoil digests: HTTP headers are written in another form (`A:b` becomes `A: b`),
  the block digest of the record is kept, and so a file that passes `check` fails it after
  `recompress` has reported "No Errors Found!" (`C83_spoilt`).
* C84: `recompress` adds a digest to a record whose digest header is empty each time it is run, and
  leaves the empty one in front of it, which is the one that is read (`C84_grows`).
* `check`, `extract` and `recompress` do not take `-` for standard input: they get `None` and end
  with an `AttributeError` or exit code 1.
* `check` only catches `ArchiveLoadFailed`; other exceptions end it, and later files are not
  examined: a digest header that is no encoding of a digest is enough (`C57_crash`).
* `extract` prints HTTP headers as they are parsed, not as they are in the record; the block may
  then be longer than the `Content-Length` that is printed (`C59_rewrites_headers`).
* `extract` of an ARC record prints neither the ARC record nor a WARC record: the five fields as
  headers behind a line `WARC/1.0`, without a type (`C78_not_verbatim`).
* `check` says nothing of lines that follow a block where blank lines should be, and exits
  with 0 (C57, input `stray`); for an ARC file it exits with 0 whatever the blocks are (C78).

Records created from streams
* `create_warc_record` subtracts `payload.tell()` from a given length, which is the size of the
  HTTP headers only if the stream was at its start (`C66_position`).
* Verbs outside a fixed list make it raise (`C66_unknown_verb`); HTTP headers not in normal form
  are written in another form than the payload has (`C66_reformatted`).

Capturing
* The host of a tunnel is not forgotten when later requests start: requests over other
  connections get its host and port (`C61_stays`).
* Tunnels to IPv6 addresses raise `ValueError` in `send`; URLs of IPv6 hosts lack the brackets
  (`C61_ipv6`).  A request line that is sent in pieces gives a wrong URL (`C61_pieces`).
* `readinto` records the whole buffer even if it was filled in part (`C62_readinto`).
* All connections of a thread share one recorder, so overlapping exchanges are mixed
  (`C62_shared`).
* If the tunnel is opened by `send`, as `http.client` does, nothing is recorded
  (`C62_lazy_tunnel`).
* `WARC-IP-Address` and `WARC-Proxy-Host` of earlier exchanges stay in later records
  (`C62_stale_address`).
* Unknown verbs make closing the response raise, and the exchange is lost (`C62_unknown_verb`).
* After a block inside another one nothing is recorded any more, though the outer one goes on
  (`C72_nested`).
* An exchange that is closed after its block raises and is lost if the file was given by name
  (`C72_late`).

Buffers
* What is written after `get_stream()` overwrites the first records, unless the stream was read
  to its end (`C71_overwrites`).

Indexing
* If a record has two `WARC-Target-URI` headers, the cleaned value of the first is put in the last, and
  `warcio index` prints the first, which still has its brackets (`C58_two_uris`).

ARC files
* The two lines behind the `filedesc` line are counted in characters, not in bytes; if they
  hold UTF-8 the block takes bytes of what follows, and the next record is lost
  (`C69_utf8_lines`).

Content streams
* `Transfer-Encoding: Chunked` is not recognised, though the name of the coding is
  case-insensitive (`C64_capital`).
* Of a gzip payload of several members only the first is delivered (`C64_two_members`).

Dates
* In WARC/1.1 a date that is a whole second has no fraction, and sorts behind all other moments of
  that second, as `Z` is behind `.` (`C92_whole_second`).
* Years before 1000 are not padded to four digits in timestamps and ISO dates without
  microseconds, so that 999 sorts behind 1000 (`C92_early_years`); this is what `strftime` does on
  Linux.

Files put together
* If the last record of an uncompressed file has no line behind it, the file is read without a
  complaint; but of a file put behind it the first line is taken for the missing one, and its first
  record is lost (`C94_glued`).

Members with several records or with none
* If a member that is not the last one has several records, the iteration goes on without an error, and
  the offsets and lengths reported are not those of members (`C96_several`: 0/269, 269/198 and 467/198 for
  members at 0/385, 385/161 and 546/235). The error is raised only behind the third of four records.
* If the last member has several records, the index has a line for the first one, whose length is not that of the
  member (269 of 385 in the example for `C97_index`), before the error.
* A member without data between two records is skipped without a warning, and it is counted with the next
  record: the offset of that record is the position of the empty member. (Seen by running the model;
  C96 makes no claim about such files.)
* `read_all_members`: if a block of `read(n)` ends exactly behind a member, and the trailer of the member is in the next block of the
  file, the next `read(n)` returns nothing, and `copyfileobj` stops there (`C100_run`, with blocks of two bytes). With the 65536 bytes of
  `copyfileobj` this takes members before the last one with a multiple of 65536 bytes, so it will hardly be met.

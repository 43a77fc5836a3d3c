#!/usr/bin/env python3
"""Writes /verif/properties.jsonl (one property per line)."""
import json, os
P = []
def p(title, statement, quantifier, why, anchors):
    P.append(dict(id="C%02d" % (len(P) + 1), title=title, statement=statement,
                  quantifier=quantifier, why_tests_cant=why, anchors=anchors))

SEQ = "tests run a handful of call sequences; the claim is about every sequence, every size and every chunking the source may choose"

# ---------------------------------------------------------------- streams
p("A limited stream never yields more than its limit",
  "Over any history of read/readline calls (any length arguments), a LimitReader created with limit L hands out at most L bytes in total, those bytes are exactly the leading bytes of the wrapped stream in order, and tell() is the number of bytes handed out.",
  "every wrapped content, every limit, every finite sequence of read/readline calls with any length argument (including None and negative)", SEQ,
  ["warcio/limitreader.py: LimitReader.read, LimitReader.readline, LimitReader.tell, LimitReader._update"])
p("Buffered reading of an uncompressed stream is transparent",
  "With no decompression, BufferedReader returns the same bytes as its source: read(n) returns exactly the next min(n, remaining) bytes, read() everything, readline() exactly the next line (or the length-limited prefix of it), whatever the block size and however short the source's own reads are.",
  "every content, block size >= 1, short-read schedule of the source, and sequence of read/readline calls", SEQ,
  ["warcio/bufferedreaders.py: BufferedReader.read, BufferedReader.readline, BufferedReader._fillbuff"])
p("Reading a gzip member is transparent and stops at the member boundary",
  "A DecompressingBufferedReader positioned at a gzip member hands out exactly the member's decompressed bytes, then reports end of data without consuming anything of what follows; read_next_member() then continues with the following member, losing and duplicating nothing.",
  "every list of members, block size, short-read schedule, split of the compressed data over blocks, and sequence of reads", SEQ,
  ["warcio/bufferedreaders.py: BufferedReader._fillbuff, BufferedReader._decompress, BufferedReader.read_next_member"])
p("Data that is not gzip is passed through unchanged",
  "A DecompressingBufferedReader over data that does not begin with a gzip header returns that data unchanged.",
  "every non-gzip content, every block size and short-read schedule", "the failing cases depend on how the first bytes are split over reads, which tests never vary",
  ["warcio/bufferedreaders.py: BufferedReader._decompress"])
p("read_all_members yields all members",
  "With read_all_members=True, copying the reader until it returns an empty result yields the concatenation of all members' contents.",
  "every list of members (including empty ones), block size, schedule and read size", SEQ,
  ["warcio/bufferedreaders.py: BufferedReader.empty, BufferedReader.read_next_member, BufferedReader.read", "warcio/recompressor.py: Recompressor.decompress_and_recompress"])
p("De-chunking inverts chunked transfer encoding",
  "A ChunkedDataReader over the chunked encoding of a body (any split into non-empty chunks, with any chunk extensions, ended by the zero chunk) returns exactly the body, and leaves whatever follows the terminating chunk unread.",
  "every body, every split into chunks, every extension text that fits the length line, every sequence of reads", "the number and sizes of chunks are unbounded",
  ["warcio/bufferedreaders.py: ChunkedDataReader._fillbuff, ChunkedDataReader._try_decode"])
p("De-chunking is total and loses no payload byte",
  "With raise_exceptions=False reading a ChunkedDataReader never raises and always terminates, data which is not chunked at all is returned unchanged, and a chunked body cut off at any point yields all payload bytes before the cut.",
  "every input byte string, every cut point", "arbitrary malformed input and every crash point cannot be enumerated",
  ["warcio/bufferedreaders.py: ChunkedDataReader._fillbuff, ChunkedDataReader._try_decode"])
p("Strict de-chunking only accepts well-formed chunked data",
  "With raise_exceptions=True, a body cut off inside a chunk raises ChunkedDataException instead of returning short data as if complete.",
  "every body, every chunking, every cut point inside a chunk's data", "every crash point",
  ["warcio/bufferedreaders.py: ChunkedDataReader._try_decode"])
# ---------------------------------------------------------------- headers
p("Header lookup and update behave like a case-insensitive map",
  "After h[name] = v, h[name2] == v for every name2 equal to name up to case, and lookups of all other names are unchanged; after del h[name] the name is absent.",
  "every header list (any number of duplicates), every name and value", "duplicates and case variants combine without bound",
  ["warcio/statusandheaders.py: StatusAndHeaders.get_header, replace_header, remove_header, add_header, __contains__"])
p("Header updates touch exactly one entry and keep the order",
  "replace_header changes the value of exactly one entry (the last one whose name matches), keeps its spelling, position and all others, and returns the old value; it appends when there is none. remove_header deletes exactly that entry, returning whether there was one.",
  "every header list, name and value", "unbounded header lists",
  ["warcio/statusandheaders.py: StatusAndHeaders.replace_header, StatusAndHeaders.remove_header"])
p("Serialised headers parse back to themselves",
  "Parsing StatusAndHeaders.to_bytes() of a well-formed header block returns the same protocol, status line and header list, and leaves the stream positioned exactly behind the blank line, over any stream and block size.",
  "every well-formed header block (any Unicode values), every following data, every stream/block size", "unbounded header values and stream chunkings",
  ["warcio/statusandheaders.py: StatusAndHeaders.to_bytes, StatusAndHeaders.to_str, StatusAndHeadersParser.parse"])
p("Re-parsing a re-serialised parse result is stable",
  "For every byte string on which parsing succeeds, serialising the result and parsing it again gives an equal StatusAndHeaders (parsing normalises once).",
  "every input byte string", "arbitrary malformed header text",
  ["warcio/statusandheaders.py: StatusAndHeadersParser.parse, StatusAndHeaders.to_str"])
p("Header parsing is total",
  "On every byte string, parsing with verify=False either returns a header block or raises EOFError, and it raises EOFError exactly when the stream is at its end; with verify=True the only further exception is StatusAndHeadersParserException, raised exactly when the first line is not blank and starts with none of the accepted prefixes. Invalid UTF-8 never raises.",
  "every input byte string", "all byte strings, including invalid UTF-8",
  ["warcio/statusandheaders.py: StatusAndHeadersParser.parse, StatusAndHeadersParser.decode_header, split_prefix"])
p("Header parsing consumes exactly the header block",
  "Parsing consumes the stream up to and including the first blank line (or to the end of the data) and nothing beyond, so the payload behind it is intact.",
  "every input byte string and stream", "payload bytes and header shapes are unbounded",
  ["warcio/statusandheaders.py: StatusAndHeadersParser.parse, _strip_count"])
p("HTTP headers can always be written as ASCII",
  "to_ascii_bytes() succeeds and returns pure ASCII for every header block whose status line and header names are ASCII, and leaves an already-ASCII block unchanged.",
  "every header block with arbitrary Unicode header values", "arbitrary Unicode values",
  ["warcio/statusandheaders.py: StatusAndHeaders.to_ascii_bytes, percent_encode_non_ascii_headers, ENCODE_HEADER_RX"])
p("Percent-encoding a header value loses no information",
  "For a non-ASCII header value without ';', percent-decoding the written value and decoding it as UTF-8 gives back the original value.",
  "every Unicode header value without ';'", "arbitrary Unicode values",
  ["warcio/statusandheaders.py: percent_encode_non_ascii_headers"])
p("add_range describes exactly the requested range",
  "add_range(start, part_len, total_len) sets status 206 and headers whose values describe bytes start..start+part_len-1 of total_len, and a Content-Length of part_len, keeping all other headers.",
  "every header block and all integers", "unbounded integers and header lists",
  ["warcio/statusandheaders.py: StatusAndHeaders.add_range"])
p("validate_statusline keeps exactly the statuses with a positive numeric code",
  "validate_statusline(s) returns True and leaves the status line alone when the first word is a positive integer, otherwise replaces it by s and returns False; afterwards a second validation with a valid s always succeeds.",
  "every status line", "arbitrary text",
  ["warcio/statusandheaders.py: StatusAndHeaders.validate_statusline, get_statuscode"])
# ---------------------------------------------------------------- digests
p("Every RFC 3548 encoding of the right digest is accepted",
  "A digest header that contains the correct digest in base32, base16 (either case), base64 or URL-safe base64 verifies.",
  "every digest value of every hash algorithm", "digest values and lengths; tests only use one SHA-1 value",
  ["warcio/digestverifyingreader.py: _compare_digest_rfc_3548, _to_b32, _b64_wrapper"])
p("A digest header holding a different digest is rejected",
  "A digest header that contains, in any of these encodings, a digest of the same length but different from the computed one does not verify.",
  "every pair of distinct digest values", "pairs of digest values",
  ["warcio/digestverifyingreader.py: _compare_digest_rfc_3548, _to_b32"])
p("The digest verdict is exact and independent of how the record is read",
  "After a record has been read to its end with check_digests on, passed is False iff a declared digest does not match (or names an unknown algorithm), True iff at least one declared digest was checked and none failed, None otherwise — whatever sequence of read sizes was used.",
  "every block content, split point between headers and payload, declared digests, and sequence of read/readline calls", SEQ,
  ["warcio/digestverifyingreader.py: DigestVerifyingReader.__init__, begin_payload, _update", "DigestChecker.problem"])
p("Digest checking does not change what is read",
  "Reading a record with check_digests=True or 'log' returns the same bytes, call by call, as with check_digests=False.",
  "every content, declared digests and read history", SEQ,
  ["warcio/digestverifyingreader.py: DigestVerifyingReader", "warcio/recordloader.py: ArcWarcRecordLoader.wrap_digest_verifying_stream"])
p("A partially read or truncated record is never reported as passed",
  "passed is True only after every byte of the record's block was read: a record cut off before its declared length never gets a digest pass.",
  "every content, every cut point, every read history", "every crash point",
  ["warcio/digestverifyingreader.py: DigestVerifyingReader._update"])
p("Revisit records and segmented payloads are not digest-checked",
  "For a revisit record neither digest, and for a segmented record not the payload digest, ever influences the verdict.",
  "every revisit/segmented record, digests and read history", "arbitrary digest strings",
  ["warcio/digestverifyingreader.py: DigestVerifyingReader.__init__"])
p("check_digests='raise' raises on mismatch",
  "With check_digests='raise', reading a record with a mismatching declared digest to its end raises ArchiveLoadFailed, and reading one whose digests match never raises.",
  "every content, digests and read history", SEQ,
  ["warcio/digestverifyingreader.py: DigestChecker.problem"])
# ---------------------------------------------------------------- record loader
p("The record stream is exactly the declared block",
  "For a record whose Content-Length is n, raw_stream (with HTTP parsing off) yields exactly the n bytes after the header block, or all that is left if the file ends earlier; an invalid or negative Content-Length yields an empty stream, a missing one the rest of the stream.",
  "every header block, Content-Length text and following data", "arbitrary length text and content",
  ["warcio/recordloader.py: ArcWarcRecordLoader.parse_record_stream"])
p("HTTP headers plus payload are the whole block",
  "For http(s) response/request/revisit records the parsed HTTP headers and the remaining raw_stream together consume exactly the block, and payload_length is the number of payload bytes left; other records keep their block untouched.",
  "every record type, URI and block content", "arbitrary block content",
  ["warcio/recordloader.py: ArcWarcRecordLoader.load_http_headers, parse_record_stream"])
p("WARC-Target-URI clean-up",
  "After loading, WARC-Target-URI has one enclosing <> pair removed and no spaces, the value is otherwise unchanged, loading it again changes nothing more when no brackets are nested, and the returned uri is the header's value.",
  "every URI text", "arbitrary text",
  ["warcio/recordloader.py: ArcWarcRecordLoader._ensure_target_uri_format"])
p("Format detection",
  "A stream whose first line starts with a WARC version is read as WARC; with known format 'warc' anything else raises ArchiveLoadFailed; otherwise a first line with at least five space-separated fields is read as ARC, and anything else raises ArchiveLoadFailed, never another exception.",
  "every input byte string", "arbitrary input",
  ["warcio/recordloader.py: ArcWarcRecordLoader._detect_type_load_headers, ARCHeadersParser.parse"])
p("ARC header lines parse back, including spaces in the URI",
  "An ARC header line made of a URI (which may contain spaces) and four space-free fields parses to exactly these five fields.",
  "every URI with any number of spaces, all space-free fields", "arbitrary text",
  ["warcio/recordloader.py: ARCHeadersParser.parse, _get_protocol_and_headers"])
p("ARC to WARC conversion keeps the record",
  "With arc2warc, the converted record has the ARC record's URI, IP address and date, its type is warcinfo for the filedesc record and response otherwise, and its content is the ARC record's content.",
  "every ARC header line and content", "arbitrary text",
  ["warcio/recordloader.py: ARC2WARCHeadersParser._get_protocol_and_headers, parse_record_stream"])
# ---------------------------------------------------------------- iterator
p("Iterating a WARC file yields exactly its records",
  "Iterating over the concatenation of any number of well-formed records (arbitrary block bytes, including bytes that look like records) yields exactly these records in order with the same headers and blocks, then stops.",
  "every list of well-formed records and every block content", "unbounded files and arbitrary block bytes",
  ["warcio/archiveiterator.py: ArchiveIterator._iterate_records, read_to_end, _consume_blanklines, _next_record"])
p("Record offsets and lengths are exact",
  "get_record_offset() is the position of the record's first byte in the file and get_record_length() the size of its bytes (uncompressed: up to the end of its block; gzip: the compressed member), so that seeking to the offset and iterating again yields the same record.",
  "every file of well-formed records, every starting position, block size and read history", "unbounded files; positions depend on buffering",
  ["warcio/archiveiterator.py: ArchiveIterator.read_to_end, get_record_offset, get_record_length"])
p("Iterating a record-compressed gzip WARC yields exactly its records",
  "Iterating over a file in which every record is its own gzip member yields the same records as the uncompressed file, with the member positions as offsets.",
  "every list of well-formed records, compression of each, block size and schedule", "unbounded files and arbitrary compressed splits",
  ["warcio/archiveiterator.py: ArchiveIterator._iterate_records", "warcio/bufferedreaders.py: BufferedReader"])
p("What the user reads from a record does not affect the iteration",
  "Whatever sequence of read/readline calls is made on the current record (none, partial, all) and whether or not offsets are asked for, the following records and offsets are the same.",
  "every file of well-formed records and every history of calls on each record", SEQ,
  ["warcio/archiveiterator.py: ArchiveIterator.read_to_end"])
p("Iteration is independent of block size and of short reads",
  "The sequence of records, contents, offsets and lengths does not depend on block_size nor on how many bytes each underlying read returns.",
  "every file, every block size, every short-read schedule", "schedules are unbounded",
  ["warcio/archiveiterator.py: ArchiveIterator.__init__", "warcio/bufferedreaders.py: BufferedReader._fillbuff"])
p("A gzip file that is not compressed record by record is reported",
  "If one gzip member holds several records, iteration raises ArchiveLoadFailed when asked for the second record instead of yielding it with an unusable offset.",
  "every list of at least two records compressed as one member", "unbounded contents",
  ["warcio/archiveiterator.py: ArchiveIterator._iterate_records, _raise_invalid_gzip_err"])
p("Iteration always terminates",
  "On every input byte string, iterating ends (normally or with an exception) after finitely many records; every record consumes at least one byte.",
  "every input byte string", "arbitrary malformed input",
  ["warcio/archiveiterator.py: ArchiveIterator._iterate_records"])
p("A file cut at any point still yields the complete records before the cut",
  "If writing stopped at any byte (crash), reading the truncated file yields all records that were completely written, unchanged and in order, before anything else happens.",
  "every list of records and every cut point", "every crash point",
  ["warcio/archiveiterator.py: ArchiveIterator", "warcio/warcwriter.py: BaseWARCWriter._write_warc_record"])
# ---------------------------------------------------------------- writer
p("A written record declares its real length",
  "The bytes written for a record are its header block, a block and CRLFCRLF, and the written Content-Length is the number of bytes of the block actually written.",
  "every record type, payload (seekable or not, length given or not), HTTP headers and short-read schedule of the payload", "unbounded payloads and stream kinds",
  ["warcio/warcwriter.py: BaseWARCWriter._write_warc_record", "warcio/recordbuilder.py: RecordBuilder.ensure_digest"])
p("A written record's digests are those of the bytes written",
  "When the writer computes digests, WARC-Block-Digest is the SHA-1 of the written block and WARC-Payload-Digest the SHA-1 of the payload part; digests the caller supplied are kept.",
  "every record and payload stream", "unbounded payloads",
  ["warcio/recordbuilder.py: RecordBuilder.ensure_digest", "warcio/utils.py: Digester"])
p("Records of unknown length are completed",
  "A record created or read without length is written with the length and digests of what its stream really holds.",
  "every payload stream, any short-read schedule, any stale digests", "unbounded payloads",
  ["warcio/warcwriter.py: BaseWARCWriter._write_warc_record"])
p("Reading back a written record gives the record",
  "read(write(record)) has the record's type, WARC headers, HTTP headers and payload, for plain and gzip output.",
  "every well-formed record", "unbounded payloads and header values",
  ["warcio/warcwriter.py: WARCWriter.write_record", "warcio/archiveiterator.py: ArchiveIterator"])
p("Rewriting a read record is faithful",
  "Reading a record and writing it again with the plain writer reproduces the bytes of a normalised record, so recompress changes nothing but compression, and a record that verified before verifies after.",
  "every record", "unbounded payloads and header texts",
  ["warcio/recompressor.py: Recompressor.load_and_write", "warcio/warcwriter.py: BaseWARCWriter._write_warc_record"])
p("Gzip output is one member per record",
  "With gzip=True, the output of each write_record is one gzip member whose decompression is what gzip=False would have written.",
  "every record and sequence of records", "unbounded payloads",
  ["warcio/warcwriter.py: GzippingWrapper, BaseWARCWriter._write_warc_record"])
p("Request/response pairs are linked",
  "write_request_response_pair writes the response then the request; the request carries the response's target URI and date, and WARC-Concurrent-To is the response's record id.",
  "every pair of records", "arbitrary header lists",
  ["warcio/warcwriter.py: BaseWARCWriter.write_request_response_pair, WARCWriter._do_write_req_resp"])
p("Revisit records",
  "create_revisit_record produces a record with the profile of the writer's WARC version, the refers-to headers and the given payload digest; what is written contains the HTTP headers and no payload.",
  "every URI, digest, HTTP headers and extra headers", "arbitrary header lists",
  ["warcio/recordbuilder.py: RecordBuilder.create_revisit_record"])
p("Record creation sets the mandatory headers",
  "Every record created has exactly the requested WARC-Type and target URI, a record id and a date, keeping the caller's own id and date if given.",
  "every uri, type and extra header dictionary", "arbitrary header dictionaries",
  ["warcio/recordbuilder.py: RecordBuilder._init_warc_headers, create_warc_record"])
p("Writing the same record object twice",
  "write_record(record) called twice writes the record twice.",
  "every record", "depends on stream state left behind by the first write",
  ["warcio/warcwriter.py: BaseWARCWriter._write_warc_record"])
p("warcinfo records",
  "create_warcinfo_record writes one 'name: value' line per non-empty entry, in order, and the record's length is the length of these lines.",
  "every info dictionary", "unbounded dictionaries, Unicode values",
  ["warcio/recordbuilder.py: RecordBuilder.create_warcinfo_record"])
# ---------------------------------------------------------------- time
p("timestamp_to_datetime is total and clamps",
  "For every string, timestamp_to_datetime returns a valid date between 1900 and 2999 and never raises.",
  "every string", "arbitrary text",
  ["warcio/timeutils.py: timestamp_to_datetime, pad_timestamp"])
p("Timestamps round-trip",
  "For every date in 1900..2999, timestamp_to_datetime(datetime_to_timestamp(d)) is d without its microseconds, and the same through ISO dates.",
  "every date", "all dates",
  ["warcio/timeutils.py: datetime_to_timestamp, timestamp_to_datetime, iso_date_to_timestamp, timestamp_to_iso_date"])
p("ISO dates round-trip with and without microseconds",
  "iso_date_to_datetime(datetime_to_iso_date(d, use_micros=True)) == d for every date, and without micros it is d truncated to the second.",
  "every date", "all dates and microsecond values",
  ["warcio/timeutils.py: iso_date_to_datetime, datetime_to_iso_date"])
p("Short timestamps are padded to the end of their period",
  "A valid timestamp prefix of even length >= 4 stands for the last second whose timestamp starts with it.",
  "every valid prefix", "all dates and prefix lengths",
  ["warcio/timeutils.py: timestamp_to_datetime"])
p("Timestamps and epoch seconds are inverse",
  "sec_to_timestamp(timestamp_to_sec(t)) == t for every valid 14-digit timestamp, and timestamp_to_sec is strictly increasing in time.",
  "every date in 1900..2999", "all dates",
  ["warcio/timeutils.py: timestamp_to_sec, sec_to_timestamp"])
p("HTTP dates round-trip",
  "http_date_to_datetime(datetime_to_http_date(d)) == d truncated to seconds for every date.",
  "every date", "all dates",
  ["warcio/timeutils.py: http_date_to_datetime, datetime_to_http_date"])
# ---------------------------------------------------------------- tools
p("warcio check",
  "check exits with 1 iff some input could not be read as an archive or some record's digest verdict is a failure, whatever the order of inputs.",
  "every list of inputs", "unbounded inputs",
  ["warcio/checker.py: Checker.process_all, process_one"])
p("warcio index",
  "index writes one line per record in file order, each with exactly the requested fields that are present, in the requested order, with the record's real offset and length.",
  "every file and field list", "unbounded files and field lists",
  ["warcio/indexer.py: Indexer.process_index_entry, get_field"])
p("warcio extract",
  "extract at a record's offset prints that record's headers and block (or only the parts asked for) and nothing of any other record.",
  "every file and every record in it", "unbounded files",
  ["warcio/extractor.py: Extractor.extract"])
p("warcio recompress",
  "recompress of a file of well-formed records, plain or compressed in any way, yields a record-compressed file with the same records.",
  "every list of records and every grouping into members", "unbounded files",
  ["warcio/recompressor.py: Recompressor.load_and_write, decompress_and_recompress"])
# ---------------------------------------------------------------- capture
p("capture_http reconstructs the request URL",
  "For a request sent to host:port the recorded URL is scheme://host[:port]path with the port omitted iff it is the default one; absolute-form (proxy) requests keep their URL; after CONNECT the tunnelled host is used.",
  "every host, port, path and request line", "arbitrary text",
  ["warcio/capture_http.py: RequestRecorder.extract_url"])
p("capture_http records exactly the traffic",
  "For each completed exchange one response record and one request record are written whose payloads are the bytes received and sent, and nothing is written for exchanges the filter rejects.",
  "every sequence of sends, reads (read, readline, readinto with any result) and closes", "histories are unbounded",
  ["warcio/capture_http.py: RecordingStream, RequestRecorder"])
# ---------------------------------------------------------------- added later
p("Zone offsets of dates are honoured",
  "http_date_to_datetime and iso_date_to_datetime return the instant that the text denotes when it carries a zone offset, or refuse the text.",
  "every date, every zone", "unbounded dates and zones; tests use GMT and Z only",
  ["warcio/timeutils.py: iso_date_to_datetime, http_date_to_datetime"])
p("content_stream delivers the content",
  "The content stream of an HTTP record delivers the payload with the transfer coding 'chunked' removed and a known content coding decoded, that of any other record its block; it does so for any sequence of read and readline calls, whatever was done with earlier records and however the file is compressed, and however much of it is read, iteration goes on with the next record.",
  "every archive, every record, every plan of operations, every sequence of calls", "unbounded archives, payloads, chunkings and call sequences",
  ["warcio/recordloader.py: ArcWarcRecord.content_stream", "warcio/bufferedreaders.py: BufferedReader, ChunkedDataReader"])
p("Digest verdicts are right whatever is read before",
  "With check_digests (not 'raise'), once a record of an archive has been read to its end, by whatever calls on its stream or on the iterator, record.digest_checker.passed is what its digest headers say of its block and of its payload (the block behind the HTTP headers), and problems are listed iff this is a failure; for plain archives and archives with one record per gzip member.",
  "every archive, every plan of operations on its records", "unbounded archives and call sequences",
  ["warcio/archiveiterator.py: ArchiveIterator", "warcio/recordloader.py: ArcWarcRecordLoader.parse_record_stream", "warcio/digestverifyingreader.py: DigestVerifyingReader"])
p("A record created from a payload stream is written with this payload",
  "create_warc_record(uri, type, payload=stream[, length=...]) followed by write_record writes, plain or compressed, a record whose block is exactly the bytes of the stream, with a Content-Length and digests that are true of them, the type, URI, id and date of the call, and the caller's other headers; for HTTP records the headers of the message are parsed and the record's stream holds the body.",
  "every payload, every stream (short reads, not seekable, not at its start), every caller's headers", "unbounded payloads and headers, arbitrary short reads",
  ["warcio/recordbuilder.py: RecordBuilder.create_warc_record", "warcio/warcwriter.py: BaseWARCWriter.write_record"])
p("A block longer than declared costs a warning, not records",
  "In an uncompressed WARC file in which lines that are not blank (at most one per record) follow the declared blocks of any of the records, iteration yields the same records, blocks, offsets and sizes as without these lines; each line gives one warning with its offset and text and raises err_count by one, when the record is read to its end.",
  "every archive, every set of such lines, every plan of operations, every pattern of short reads", "unbounded archives and interleavings",
  ["warcio/archiveiterator.py: ArchiveIterator._consume_blanklines, read_to_end"])
p("Garbage behind records is reported",
  "If an uncompressed WARC file goes on behind its records with a line that is neither blank nor a WARC version, iteration yields all the records before it and then raises ArchiveLoadFailed, and nothing is yielded after that.",
  "every archive, every garbage, every plan of operations", "unbounded archives and arbitrary garbage",
  ["warcio/archiveiterator.py: ArchiveIterator._next_record, _iterate_records", "warcio/recordloader.py: ArcWarcRecordLoader.parse_record_stream, _detect_type_load_headers"])
p("Iterating over an ARC file yields its records",
  "Iterating over an ARC file, uncompressed or with one gzip member per record, yields exactly its records, in order, with their positions, and stops: the record describing the file (arc_header) and the others (response), with their five fields as headers and blocks whose length does not count the lines behind the header line; with arc2warc each of them as the WARC record it is converted to, with the same block. HTTP headers are parsed as in WARC files. No warning is counted, and no digest is checked.",
  "every ARC file of well-formed records, every plan of operations on its records, every pattern of short reads, both values of arc2warc", "unbounded archives and call sequences",
  ["warcio/archiveiterator.py: ArchiveIterator, ARCIterator", "warcio/recordloader.py: ArcWarcRecordLoader, ARCHeadersParser"])
p("An ARC file is rewritten as a WARC file",
  "warcio recompress (and _load_and_write) turns an ARC file, uncompressed or with one gzip member per record, into a file of WARC records: for each ARC record, in order, one record of version WARC/1.0, compressed as one member each, with the same block; its headers are the type (warcinfo for the record describing the file, else response), an identifier, the URI or file name, the IP address, the date of the ARC record in ISO form, the content type, the true length of the block, and true digests of payload (not for warcinfo) and block. The number of records is reported.",
  "every ARC file, every pattern of short reads", "unbounded archives, interplay of loader, iterator and writer",
  ["warcio/recompressor.py: Recompressor.recompress, load_and_write", "warcio/recordloader.py: ArcWarcRecordLoader.parse_record_stream, ARCHeadersParser, _ensure_target_uri_format", "warcio/warcwriter.py: BaseWARCWriter.write_record"])
p("BufferWARCWriter gives back all that was written",
  "get_contents() returns, and the stream of get_stream() holds, exactly the bytes of all records written so far, one after the other, each as it would be written to a file of its own; looking at them, at any time and in any way, changes neither them nor what is written later.",
  "every sequence of calls of write_record, write_request_response_pair, get_contents, get_stream and read on the stream; every record", "unbounded interleavings of writing and reading",
  ["warcio/warcwriter.py: BufferWARCWriter.get_contents, get_stream"])
p("capture_http records the connections made inside its block",
  "A `with capture_http()` block records exactly what happens on the connections that its thread makes while it is the innermost such block of the thread, as if there were no other blocks, threads or connections; connections made outside of all blocks are not recorded. Without a writer the records go to a buffer, uncompressed unless asked for; a file given by name is extended, or must be new (append=False), and is not changed after the block is left.",
  "every sequence of entering and leaving blocks, making connections and using them, by any number of threads in any interleaving", "unbounded interleavings of threads, blocks and connections",
  ["warcio/capture_http.py: capture_http, RecordingHTTPConnection"])
p("The index leads to the records",
  "For each record of an archive warcio index prints a line whose offset, given to warcio extract, makes it print exactly this record, or the part of it that is asked for; and the bytes of the file at this offset, as many as the length in the line says, are enough for this on their own.",
  "every archive, plain or with one record per gzip member, every list of fields with offset and length, every record, every pattern of short reads", "unbounded archives; interplay of iterator, indexer and extractor",
  ["warcio/indexer.py: Indexer.process_one, get_field", "warcio/extractor.py: Extractor.extract", "warcio/archiveiterator.py: ArchiveIterator.get_record_offset, get_record_length"])
p("A file that ends within a record",
  "If a WARC file (uncompressed, or with each record in a gzip member) ends in the block of its last record, or in the blank lines behind it, iteration yields all its records with their positions, the last one with what there is of its block, and stops without an error or a warning; an incomplete block is never judged to match a digest. If nothing is left of a block that should be an HTTP message, the last record is not yielded. In both cases the exit value of warcio check is that for the other records.",
  "every archive, every point in the block or behind it at which the file ends, every plan of operations, every pattern of short reads", "unbounded archives and cut points",
  ["warcio/archiveiterator.py: ArchiveIterator.read_to_end, _consume_blanklines, _iterate_records", "warcio/recordloader.py: ArcWarcRecordLoader.parse_record_stream", "warcio/digestverifyingreader.py: DigestVerifyingReader._update", "warcio/checker.py: Checker.process_one"])
p("What is written passes the check",
  "If the digests are left to the writer, or are right, warcio check of a file of records written one after the other, plain or compressed, exits with 0 and prints nothing; with -v it prints for each record whose digests are checked (all but revisits, and records with nothing that has a digest) that they are right. This needs the payload to be where readers look for it: a record that is read as HTTP message has HTTP headers, and the others have none.",
  "every list of records, every payload, every content and transfer coding", "unbounded records and payloads; interplay of writer, iterator and checker",
  ["warcio/warcwriter.py: BaseWARCWriter._write_warc_record, ensure_digest", "warcio/checker.py: Checker.process_one, _process_one", "warcio/digestverifyingreader.py: DigestVerifyingReader", "warcio/recordloader.py: ArcWarcRecordLoader.parse_record_stream"])
p("Creating, writing, reading and checking",
  "Records that are created from a type, a URI, headers and a payload (a whole HTTP message, HTTP headers and a payload, other data, or nothing) and written to a new file, plain or compressed, are read back by iterating over it: each with its type, version, length, the headers that were given and the ones that are added, its HTTP headers, and its payload; and warcio check of the file exits with 0 and says of each record that has something to check that it is right.",
  "every list of records of these kinds, every payload stream and pattern of short reads, plain and gzip, every reading plan", "unbounded record lists and payloads; interplay of builder, writer, iterator and checker",
  ["warcio/recordbuilder.py: RecordBuilder.create_warc_record", "warcio/warcwriter.py: BaseWARCWriter.write_record", "warcio/archiveiterator.py: ArchiveIterator", "warcio/checker.py: Checker.process_all"])
p("A capture can be read and passes the check",
  "A file that is written by capture_http holds, for each exchange whose response was closed, the response and then the request, linked to it: iterating over the file, plain or compressed, yields them in the order in which the responses were closed, with the URL, the address, and exactly the bytes that were received and sent, as HTTP headers and payload; and warcio check of the file exits with 0 and finds the digests of all records right.",
  "every sequence of exchanges one after the other, with any pieces and calls in which bytes are sent and received, anything in between, plain and gzip, every reading plan", "unbounded sequences of calls; interplay of recorder, builder, writer, iterator and checker",
  ["warcio/capture_http.py: RequestRecorder, RecordingHTTPResponse", "warcio/warcwriter.py: BaseWARCWriter.write_request_response_pair", "warcio/archiveiterator.py: ArchiveIterator", "warcio/checker.py: Checker.process_all"])
p("The tools on ARC files",
  "For an ARC file warcio index prints a line for each record, in order, with the offset and the length of the ARC record and with the fields of the WARC record to which it is converted; warcio check exits with 0, as there are no digests, and says so for each record with -v; warcio extract at the offset of a record prints the fields of the ARC record as header lines and then its block, or the HTTP headers or the content alone.",
  "every well-formed ARC file, plain or with one record per gzip member, every list of fields, every pattern of short reads", "unbounded archives; interplay of loader, conversion, iterator and tools",
  ["warcio/indexer.py: Indexer.process_one", "warcio/checker.py: Checker.process_one", "warcio/extractor.py: Extractor.extract", "warcio/recordloader.py: ARCHeadersParser, ArcWarcRecordLoader.parse_record_stream"])
p("The tools come to an end on any input",
  "Whatever bytes the given files hold, and however they are delivered, warcio recompress, index, check and extract come to an end: with a result or with an exception. The number of records that recompress reports and the number of lines that index prints for a file are bounded by its size times the largest ratio of compression.",
  "every list of files, every content, every pattern of short reads, every position of extract", "arbitrary bytes; non-termination cannot be tested for",
  ["warcio/recompressor.py: Recompressor.recompress", "warcio/indexer.py: Indexer.process_all", "warcio/checker.py: Checker.process_all", "warcio/extractor.py: Extractor.extract"])
p("What recompress reports is true of its output",
  "Whatever file warcio recompress is given: if it reports n records, then the output consists of n gzip members with one record in each, that is a version line, headers with a length, a block and two empty lines. It says that there were no errors exactly if the file could be read record by record, that errors were fixed exactly if this failed but what comes out of decompressing it could be read, and exits with 1 if both failed.",
  "every file, every pattern of short reads", "arbitrary bytes",
  ["warcio/recompressor.py: Recompressor.recompress, load_and_write, decompress_and_recompress", "warcio/warcwriter.py: BaseWARCWriter._write_warc_record"])
p("Which exceptions can escape",
  "Whatever bytes a file holds: going to the next record raises nothing but StopIteration, ArchiveLoadFailed, and, if HTTP headers are parsed, AttributeError (exactly for a response, request or revisit without a URI whose block is not empty) and with verify_http StatusAndHeadersParserException; only if digests are checked, ValueError or binascii.Error for a digest that cannot be decoded. Reading a record raises nothing if digests are not checked. So warcio index without http: fields ends only with ArchiveLoadFailed, warcio check, which catches that, ends early only for a record without a URI or a digest that cannot be decoded, and EOFError, zlib.error and errors in chunks never escape.",
  "every file, every pattern of short reads, every option, every sequence of reading operations", "arbitrary bytes; absence of exceptions on all inputs",
  ["warcio/archiveiterator.py: ArchiveIterator._iterate_records, _next_record", "warcio/recordloader.py: ArcWarcRecordLoader.parse_record_stream, load_http_headers", "warcio/digestverifyingreader.py: DigestVerifyingReader, DigestChecker", "warcio/checker.py: Checker.process_all", "warcio/indexer.py: Indexer.process_all"])
p("The commands change nothing but the file they are told to write",
  "Whatever the file system holds, warcio check and extract change no file, and index and recompress none but their output, so that the inputs are unchanged; what the output held before makes no difference. check and index do with files that are there what the classes do with their contents; a file that is missing ends check, whatever was found before; index without inputs reads standard input. recompress writes the output that the records read give, exits with 0 or 1 according to what it reports, and with -v does so only if the output can be indexed.",
  "every file system, every command line", "unbounded file systems; aliasing of inputs and outputs",
  ["warcio/cli.py: main, indexer, checker, extractor, recompressor", "warcio/utils.py: fsspec_open", "warcio/recompressor.py: Recompressor.recompress, load_and_write", "warcio/indexer.py: Indexer.process_all", "warcio/checker.py: Checker.process_all"])
p("Recompressing does not change what check says",
  "After warcio recompress a b, warcio check exits for b with the same value as for a and reports the same records as failures, in the same order: a digest that was right stays right, one that was wrong stays wrong, and digests that are added are right. If a is one gzip member with several records, check cannot read it, and for b it exits with 1 exactly if some digest is wrong.",
  "every file of records whose digests are texts of digests, not compressed, or grouped into gzip members in any way with at least one record in each", "unbounded archives; interplay of loader, writer, digests, checker and recompressor",
  ["warcio/recompressor.py: Recompressor.recompress", "warcio/checker.py: Checker.process_all", "warcio/warcwriter.py: BaseWARCWriter._write_warc_record", "warcio/digestverifyingreader.py: DigestVerifyingReader"])
p("Recompressing again changes nothing",
  "If a file is recompressed and the new file is recompressed again, no errors are found, the number of records is the same, and member by member the data is the same. If what the compressor returns depends on the data alone and not on the pieces in which it was given, the two new files are the same byte by byte.",
  "every file of records without empty digest headers, not compressed, or grouped into gzip members in any way with at least one record in each", "unbounded archives; a fixed point of the composition of loader and writer",
  ["warcio/recompressor.py: Recompressor.recompress, load_and_write", "warcio/warcwriter.py: BaseWARCWriter._write_warc_record", "warcio/archiveiterator.py: ArchiveIterator", "warcio/cli.py: recompressor"])
p("The index and the contents of a recompressed file",
  "After warcio recompress a b, warcio index prints for b what it prints for a, for any fields but the offset, the length, the name of the file, and the Content-Length and digest headers of the record. The offset in a line of the index of a and the offset in the corresponding line of the index of b make warcio extract --payload print the same bytes.",
  "every archive, plain or with one record per member, every list of fields", "unbounded archives and field lists; interplay of loader, writer, indexer, extractor and recompressor",
  ["warcio/recompressor.py: Recompressor.recompress", "warcio/indexer.py: Indexer.process_one, get_field", "warcio/extractor.py: Extractor.extract", "warcio/cli.py: indexer, recompressor"])
p("An ARC file turned into a WARC file",
  "After warcio recompress a b, where a is an ARC file: warcio check exits for b with 0, reports no failure, and says with -v of every record with a block that its digests are right (for a it has no digest to check). warcio index prints for b what it prints for a, for any fields but the offset, the length, the name of the file, the Content-Length and digest headers and the identifier of the record. The offset in a line of the index of a and that in the corresponding line of the index of b make warcio extract --payload print the same bytes.",
  "every ARC file, plain or with one record per member, every list of fields", "unbounded archives and field lists; interplay of ARC parser, converter, loader, writer, digests, checker, indexer, extractor and recompressor",
  ["warcio/recompressor.py: Recompressor.recompress", "warcio/recordloader.py: ARCHeadersParser, ARC2WARCHeadersParser", "warcio/checker.py: Checker.process_all", "warcio/indexer.py: Indexer.process_one, get_field", "warcio/extractor.py: Extractor.extract", "warcio/cli.py: indexer, checker, recompressor"])
p("Any uncompressed file is cut into records without losing a byte",
  "Whatever bytes a file that is not compressed holds, and with whatever options it is iterated: the first record starts at the beginning; each record is a header block, which depends on the bytes from there on and on nothing before, and as many bytes as it declares or as there are; behind it one line and the blank lines that follow are skipped, with a warning if the line is not blank, and the next record starts there. Nothing else is skipped and nothing is read twice, whatever the user reads of a record. The offset and length reported are those of the record in the file. The iteration ends at the end of the file, with the exception of the loader, or with a digest that fails.",
  "every file that is not compressed, every block size and pattern of short reads, every option, every sequence of reading operations", "arbitrary bytes, including files that are no archives; unbounded files",
  ["warcio/archiveiterator.py: ArchiveIterator._iterate_records, _consume_blanklines, read_to_end, get_record_offset, get_record_length", "warcio/recordloader.py: ArcWarcRecordLoader.parse_record_stream, _detect_type_load_headers", "warcio/limitreader.py: LimitReader"])
p("Opening a file at a reported offset gives that record",
  "In any file that is not compressed, iterated without checking digests: if the file is opened again at the offset reported for a record, the first record of the new iteration is that record, with the same headers, the same HTTP headers, the same data in its stream, the same offset and the same length; if HTTP messages are parsed, for header lines that are no longer than what is read at a time. If the record is an ARC record this is so if the new iteration is told so.",
  "every file that is not compressed, every record in it, all block sizes and patterns of short reads, for both iterations", "arbitrary bytes; independence of the state that the records before have left",
  ["warcio/archiveiterator.py: ArchiveIterator._iterate_records, read_to_end, get_record_offset, get_record_length", "warcio/recordloader.py: ArcWarcRecordLoader.parse_record_stream, _detect_type_load_headers", "warcio/extractor.py: Extractor.extract"])
p("The index of any uncompressed file",
  "Whatever bytes a file that is not compressed holds, warcio index prints one line for each of the records into which it is cut, in order; offset and length are those of the record in the file, and the other fields are those of the record that the loader makes of the bytes from there on, whatever stands before. If there is no record at some place the exception of the loader ends the index there, behind the lines of all records before.",
  "every file that is not compressed, every pattern of short reads, every list of fields", "arbitrary bytes, including files that are no archives; unbounded files",
  ["warcio/indexer.py: Indexer.process_all, process_one, get_field", "warcio/archiveiterator.py: ArchiveIterator._iterate_records, get_record_offset, get_record_length", "warcio/recordloader.py: ArcWarcRecordLoader.parse_record_stream"])
p("Extracting at any position of any uncompressed file",
  "At any position in a file that is not compressed there, warcio extract ends with an exception of the loader and prints nothing, or prints the headers of the record there, its HTTP headers and the end of its block, and nothing of what stands behind the block; of a record that is no HTTP message it prints all of the block. The offset in every line of the index of a file that is not compressed is the position of the record whose fields the line shows, and for a WARC record warcio extract at this offset prints this record: headers and block, for an HTTP message headers, HTTP headers and what is behind them.",
  "every file that is not compressed, every position, every pattern of short reads, every list of fields with the offset", "arbitrary bytes; two independent readings of the same file",
  ["warcio/extractor.py: Extractor.extract", "warcio/indexer.py: Indexer.process_one, get_field", "warcio/recordloader.py: ArcWarcRecordLoader.parse_record_stream, _detect_type_load_headers", "warcio/cli.py: extractor"])
p("Recompressing any uncompressed file",
  "Whatever bytes a file that is not compressed holds, warcio recompress writes one gzip member for each of the records into which it is cut, in order, and nothing else: the version line, the headers other than Content-Length, Content-Type and digests, and the block, with HTTP headers written again in their usual form. Digests that are there are kept, digests that are missing are added, those of what is written. A record that is no HTTP message keeps its declared length, also if the file ends before the end of its block. It ends at the end of the file, with the exception of the loader at a place where there is no record, or at HTTP headers that cannot be encoded; the records before are in the output. Errors Found and Fixed is never reported for such a file if reads are not short.",
  "every file that is not compressed, every pattern of short reads, with and without compression of the output", "arbitrary bytes, including files that are no archives; unbounded files",
  ["warcio/recompressor.py: Recompressor.recompress, load_and_write, decompress_and_recompress", "warcio/warcwriter.py: BaseWARCWriter._write_warc_record", "warcio/archiveiterator.py: ArchiveIterator._iterate_records", "warcio/recordloader.py: ArcWarcRecordLoader.parse_record_stream", "warcio/recordbuilder.py: RecordBuilder.ensure_digest"])
p("Timestamps and ISO dates sort as the dates do",
  "Of two dates, the timestamp of 14 digits and the ISO date of one is before that of the other, in the order of texts, exactly if it is an earlier second; the timestamps of 20 digits and the ISO dates with microseconds, which are the dates of WARC/1.1 records, exactly if it is an earlier moment. Timestamps of the clock have 14 and 20 digits.",
  "all dates", "all pairs of dates; a clock shows few of them, and a whole second only once in a million",
  ["warcio/timeutils.py: datetime_to_timestamp, datetime_to_iso_date, timestamp_now, timestamp20_now"])
p("Checking any uncompressed file",
  "Whatever bytes a file that is not compressed holds, warcio check judges each of the records into which it is cut, by the digest headers of the record, its block and what is behind its HTTP headers, whatever content and transfer codings the record declares and whatever stands before it. If all of the declared block is there, data that differ from a digest header are a failure, and digests that agree are a pass; a record that declares no length is never judged, and of one that is cut off only digests of unknown kinds are noticed. Failures are listed and set the exit value; the other records are listed with --verbose. The check ends at the end of the file, with the exception of the loader, or with an exception at a record whose digest headers cannot be compared with data.",
  "every file that is not compressed, every pattern of short reads, with and without --verbose", "arbitrary bytes, including files that are no archives and payloads that are not what they are declared to be; unbounded files",
  ["warcio/checker.py: Checker.process_one", "warcio/digestverifyingreader.py: DigestVerifyingReader, DigestChecker", "warcio/archiveiterator.py: ArchiveIterator._iterate_records, get_record_offset", "warcio/recordloader.py: ArcWarcRecordLoader.parse_record_stream, ArcWarcRecord.content_stream", "warcio/bufferedreaders.py: ChunkedDataReader"])
p("Uncompressed files put one behind the other",
  "If one uncompressed file consists of whole records, each with its declared length and with a line behind it, and the first line of another file is not blank, then iterating over, indexing, checking and recompressing the two put one behind the other does what it does for the first alone and then what it does for the second, with offsets that count from the beginning of the first. The records of the second file are not changed by what stands before, nor those of the first by what follows, whatever the second file holds. Recompressing stops in the first file only at HTTP headers that cannot be encoded.",
  "every pair of such files, every list of operations on the records, all block sizes and patterns of short reads", "all pairs of files; the buffers of the reader reach from one file into the other at every possible place",
  ["warcio/archiveiterator.py: ArchiveIterator._iterate_records, _consume_blanklines, read_to_end", "warcio/indexer.py: Indexer.process_one", "warcio/checker.py: Checker.process_one", "warcio/recompressor.py: Recompressor.load_and_write", "warcio/recordloader.py: ArcWarcRecordLoader.parse_record_stream, _detect_type_load_headers", "warcio/statusandheaders.py: StatusAndHeadersParser.parse"])
p("Checking and indexing any uncompressed files",
  "For any list of files that are not compressed, whatever they hold, warcio check says of each file what it says of it alone, in the order of the list. The exit value is 0 exactly if every file is read to its end and no record fails, and 1 if some record fails or some file is no archive or has something behind its records that is no record; such files are named, and the files behind them are checked all the same. Only a missing URI of an HTTP record and digests that cannot be decoded end the command early. warcio index writes the entries of the files one after the other, one JSON object on each line, and stops at the first file that cannot be read to its end, with the entries before it written.",
  "every list of uncompressed files, every list of fields, with and without --verbose", "unbounded lists of files with arbitrary bytes",
  ["warcio/checker.py: Checker.process_all, process_one", "warcio/indexer.py: Indexer.process_all, process_one", "warcio/archiveiterator.py: ArchiveIterator._iterate_records"])
p("Any file of gzip members",
  "Whatever the members of a file that is a list of gzip members hold, and with whatever options it is iterated: as long as each member has a record at its beginning and nothing behind it but one line and blank lines, there is one record for each member, which depends on nothing in the other members, with as many bytes as it declares or as there are in the member, whatever the user reads of it; the offset and length reported are those of the member. The iteration ends behind the last member, with the exception of the loader in a member where there is no record, or with a digest that fails. If there is another record in the last member it ends with ArchiveLoadFailed behind the first one.",
  "every list of gzip members, every block size and pattern of short reads, every option, every sequence of reading operations", "arbitrary bytes in the members, including members that are cut off in a record or are no archives; unbounded files",
  ["warcio/archiveiterator.py: ArchiveIterator._iterate_records, _raise_invalid_gzip_err, _consume_blanklines, read_to_end, get_record_offset, get_record_length", "warcio/bufferedreaders.py: BufferedReader.read_next_member", "warcio/recordloader.py: ArcWarcRecordLoader.parse_record_stream"])
p("Index and check of any file of gzip members",
  "Whatever the members of a file that is a list of gzip members hold: as long as each member has a record at its beginning and nothing behind it but one line and blank lines, warcio index prints one line for each member, with the position and the size of the member and the fields of the record, and warcio check judges each record by its digest headers, its block and what is behind its HTTP headers, and gives the position of the member. Both end at the end of the file, with the exception of the loader in a member where there is no record, or, behind the first record, with ArchiveLoadFailed if there is another record in the last member. For any list of files, each of them uncompressed or a list of members, outcome and output are put together from those of the files: a failure or a file that cannot be read sets the exit value of check, and the index stops at such a file.",
  "every list of files of arbitrary gzip members and of uncompressed files, every pattern of short reads, every list of fields, with and without --verbose", "arbitrary bytes in the members; unbounded numbers of members and files",
  ["warcio/indexer.py: Indexer.process_all, process_one, get_field", "warcio/checker.py: Checker.process_all, process_one", "warcio/archiveiterator.py: ArchiveIterator._iterate_records, read_to_end, get_record_offset, get_record_length", "warcio/bufferedreaders.py: BufferedReader.read_next_member"])
p("Extracting and recompressing any file of gzip members",
  "Whatever the members of a file that is a list of gzip members hold: warcio extract at the start of a member prints the headers and the rest of the block of the first record of this member, whatever follows it, or fails with the exception of the loader. As long as each member but the last has a record at its beginning and nothing behind it but one line and blank lines, the first attempt of warcio recompress writes for each member one member that holds the same headers and the same block, up to the end of the file, the exception of the loader, HTTP headers that cannot be encoded, or a second record in the last member; 'No Errors Found!' means that all members were copied. A file that is a single member is recompressed as the data in it would be if they were not compressed, if the first attempt fails.",
  "every list of gzip members, every pattern of short reads, every setting of the writer", "arbitrary bytes in the members; unbounded numbers of members",
  ["warcio/extractor.py: Extractor.extract", "warcio/recompressor.py: Recompressor.recompress, load_and_write, decompress_and_recompress", "warcio/archiveiterator.py: ArchiveIterator._iterate_records, read_to_end", "warcio/bufferedreaders.py: BufferedReader.read_next_member", "warcio/warcwriter.py: BaseWARCWriter._write_warc_record"])
p("The commands on any files",
  "For files of any contents, each of them bytes that do not look like gzip or a list of gzip members, in any file system. warcio check changes no file; it exits with 0 only if every file is read to its end and no record fails, with 1 only if some record fails or some file is no archive or has something behind its records that is no record (or a second record in its last member), and else ends with another exception raised by one of the files. warcio index leaves one JSON object on each line in the output or prints them, also those before an exception. warcio recompress to another file leaves its input as it is; for an uncompressed input it exits with 1 exactly if there is something that cannot be copied, and else the output is one gzip member for each record; for an input that is one member it reports fixed errors where all of what the member holds can be copied but not as one record. warcio extract at a place prints what the record there is made of, or ends with the exception of the loader.",
  "all file systems, all lists of such files, all arguments", "arbitrary contents of all files, with all their combinations",
  ["warcio/cli.py: main, indexer, checker, extractor, recompressor", "warcio/checker.py: Checker.process_all", "warcio/indexer.py: Indexer.process_all", "warcio/extractor.py: Extractor.extract", "warcio/recompressor.py: Recompressor.recompress", "warcio/utils.py: fsspec_open"])
p("Recompressing repairs files of gzip members as a whole",
  "When `recompress` finds an error in a file made of gzip members, whatever the members hold and however the records are spread over them (several in a member, or one going over into the next member), the second attempt reads the data of all members: the output then holds the copies of the records in all of the data, up to the first record that cannot be copied, and for proper records that is every record. This holds for any short reads, provided no run of consecutive members before the last one decompresses to a multiple of 65536 bytes; without the proviso the reading in blocks may stop behind such a run.",
  "for all lists of gzip members, all data in them, all short reads of the file, all builder settings",
  "Whether the last member is reached depends on how block ends, member ends and reads of 65536 bytes fall together; tests recompress a few small files",
  ["warcio/recompressor.py:71-81", "warcio/bufferedreaders.py:97-120", "warcio/bufferedreaders.py:152-171", "warcio/bufferedreaders.py:210-228"])

p("Identifiers of converted ARC records",
  "When a file is read with arc2warc, each record that is made from an ARC record gets the identifier that is handed out for it, in the order of the records in the file; so if no identifier is handed out twice, no two such records have the same one. A WARC record in the file keeps its own. warcio recompress writes the records with these identifiers.",
  "every file that is not compressed, whatever it holds, every pattern of short reads, every use of the records, every sequence of identifiers",
  "Tests convert a file with a few records and mask the identifiers, since they are random.",
  ["warcio/recordloader.py:212-243", "warcio/recordloader.py:351-373", "warcio/statusandheaders.py:322-326", "warcio/recompressor.py:56-69"])

p("What recompress writes depends on the records alone",
  "For records in the form in which warcio writes them, recompress writes one gzip member for each record, with the bytes of the record and nothing else, whatever the file was compressed with and however the records were grouped into members. So two files with the same records become the same file, byte by byte, files can be put together before they are recompressed or after it, a file that warcio has written with compression is left as it is, and records that are written without compression and recompressed later give the file that writing them with compression gives. The same holds for warcio recompress at the command line.",
  "every file of records in normal form, not compressed, with one record per member, in one member, or grouped in any other way with at least one record per member; every compressor whose result depends on the data alone",
  "unbounded archives and all groupings; tests compare a few files, and not their bytes",
  ["warcio/recompressor.py: Recompressor.recompress, load_and_write, decompress_and_recompress", "warcio/warcwriter.py: BaseWARCWriter._write_warc_record, GzippingWrapper", "warcio/archiveiterator.py: ArchiveIterator", "warcio/cli.py: recompressor"])

p("An exception ends the iteration",
  "Once next() on an ArchiveIterator has raised an exception, StopIteration or another one, each later call raises StopIteration and does nothing else: nothing more is read and no other record is set. So a loop that catches the exception for a broken record does not go on behind it.",
  "every iterator in any state, over any stream, every exception, any number of later calls",
  "all states of the iterator and all exceptions of the loader; tests stop at the exception",
  ["warcio/archiveiterator.py:93-94", "warcio/archiveiterator.py:104-140"])

with open(os.path.join(os.path.dirname(__file__), "..", "properties.jsonl"), "w") as f:
    for r in P:
        f.write(json.dumps(r, ensure_ascii=False) + "\n")
print(len(P))
for r in P: print(r["id"], r["title"])

{"id": "C01", "title": "A limited stream never yields more than its limit", "statement": "Over any history of read/readline calls (any length arguments), a LimitReader created with limit L hands out at most L bytes in total, those bytes are exactly the leading bytes of the wrapped stream in order, and tell() is the number of bytes handed out.", "quantifier": "every wrapped content, every limit, every finite sequence of read/readline calls with any length argument (including None and negative)", "why_tests_cant": "tests run a handful of call sequences; the claim is about every sequence, every size and every chunking the source may choose", "anchors": ["warcio/limitreader.py: LimitReader.read, LimitReader.readline, LimitReader.tell, LimitReader._update"]}
{"id": "C02", "title": "Buffered reading of an uncompressed stream is transparent", "statement": "With no decompression, BufferedReader returns the same bytes as its source: read(n) returns exactly the next min(n, remaining) bytes, read() everything, readline() exactly the next line (or the length-limited prefix of it), whatever the block size and however short the source's own reads are.", "quantifier": "every content, block size >= 1, short-read schedule of the source, and sequence of read/readline calls", "why_tests_cant": "tests run a handful of call sequences; the claim is about every sequence, every size and every chunking the source may choose", "anchors": ["warcio/bufferedreaders.py: BufferedReader.read, BufferedReader.readline, BufferedReader._fillbuff"]}
{"id": "C03", "title": "Reading a gzip member is transparent and stops at the member boundary", "statement": "A DecompressingBufferedReader positioned at a gzip member hands out exactly the member's decompressed bytes, then reports end of data without consuming anything of what follows; read_next_member() then continues with the following member, losing and duplicating nothing.", "quantifier": "every list of members, block size, short-read schedule, split of the compressed data over blocks, and sequence of reads", "why_tests_cant": "tests run a handful of call sequences; the claim is about every sequence, every size and every chunking the source may choose", "anchors": ["warcio/bufferedreaders.py: BufferedReader._fillbuff, BufferedReader._decompress, BufferedReader.read_next_member"]}
{"id": "C04", "title": "Data that is not gzip is passed through unchanged", "statement": "A DecompressingBufferedReader over data that does not begin with a gzip header returns that data unchanged.", "quantifier": "every non-gzip content, every block size and short-read schedule", "why_tests_cant": "the failing cases depend on how the first bytes are split over reads, which tests never vary", "anchors": ["warcio/bufferedreaders.py: BufferedReader._decompress"]}
{"id": "C05", "title": "read_all_members yields all members", "statement": "With read_all_members=True, copying the reader until it returns an empty result yields the concatenation of all members' contents.", "quantifier": "every list of members (including empty ones), block size, schedule and read size", "why_tests_cant": "tests run a handful of call sequences; the claim is about every sequence, every size and every chunking the source may choose", "anchors": ["warcio/bufferedreaders.py: BufferedReader.empty, BufferedReader.read_next_member, BufferedReader.read", "warcio/recompressor.py: Recompressor.decompress_and_recompress"]}
{"id": "C06", "title": "De-chunking inverts chunked transfer encoding", "statement": "A ChunkedDataReader over the chunked encoding of a body (any split into non-empty chunks, with any chunk extensions, ended by the zero chunk) returns exactly the body, and leaves whatever follows the terminating chunk unread.", "quantifier": "every body, every split into chunks, every extension text that fits the length line, every sequence of reads", "why_tests_cant": "the number and sizes of chunks are unbounded", "anchors": ["warcio/bufferedreaders.py: ChunkedDataReader._fillbuff, ChunkedDataReader._try_decode"]}
{"id": "C07", "title": "De-chunking is total and loses no payload byte", "statement": "With raise_exceptions=False reading a ChunkedDataReader never raises and always terminates, data which is not chunked at all is returned unchanged, and a chunked body cut off at any point yields all payload bytes before the cut.", "quantifier": "every input byte string, every cut point", "why_tests_cant": "arbitrary malformed input and every crash point cannot be enumerated", "anchors": ["warcio/bufferedreaders.py: ChunkedDataReader._fillbuff, ChunkedDataReader._try_decode"]}
{"id": "C08", "title": "Strict de-chunking only accepts well-formed chunked data", "statement": "With raise_exceptions=True, a body cut off inside a chunk raises ChunkedDataException instead of returning short data as if complete.", "quantifier": "every body, every chunking, every cut point inside a chunk's data", "why_tests_cant": "every crash point", "anchors": ["warcio/bufferedreaders.py: ChunkedDataReader._try_decode"]}
{"id": "C09", "title": "Header lookup and update behave like a case-insensitive map", "statement": "After h[name] = v, h[name2] == v for every name2 equal to name up to case, and lookups of all other names are unchanged; after del h[name] the name is absent.", "quantifier": "every header list (any number of duplicates), every name and value", "why_tests_cant": "duplicates and case variants combine without bound", "anchors": ["warcio/statusandheaders.py: StatusAndHeaders.get_header, replace_header, remove_header, add_header, __contains__"]}
{"id": "C10", "title": "Header updates touch exactly one entry and keep the order", "statement": "replace_header changes the value of exactly one entry (the last one whose name matches), keeps its spelling, position and all others, and returns the old value; it appends when there is none. remove_header deletes exactly that entry, returning whether there was one.", "quantifier": "every header list, name and value", "why_tests_cant": "unbounded header lists", "anchors": ["warcio/statusandheaders.py: StatusAndHeaders.replace_header, StatusAndHeaders.remove_header"]}
{"id": "C11", "title": "Serialised headers parse back to themselves", "statement": "Parsing StatusAndHeaders.to_bytes() of a well-formed header block returns the same protocol, status line and header list, and leaves the stream positioned exactly behind the blank line, over any stream and block size.", "quantifier": "every well-formed header block (any Unicode values), every following data, every stream/block size", "why_tests_cant": "unbounded header values and stream chunkings", "anchors": ["warcio/statusandheaders.py: StatusAndHeaders.to_bytes, StatusAndHeaders.to_str, StatusAndHeadersParser.parse"]}
{"id": "C12", "title": "Re-parsing a re-serialised parse result is stable", "statement": "For every byte string on which parsing succeeds, serialising the result and parsing it again gives an equal StatusAndHeaders (parsing normalises once).", "quantifier": "every input byte string", "why_tests_cant": "arbitrary malformed header text", "anchors": ["warcio/statusandheaders.py: StatusAndHeadersParser.parse, StatusAndHeaders.to_str"]}
{"id": "C13", "title": "Header parsing is total", "statement": "On every byte string, parsing with verify=False either returns a header block or raises EOFError, and it raises EOFError exactly when the stream is at its end; with verify=True the only further exception is StatusAndHeadersParserException, raised exactly when the first line is not blank and starts with none of the accepted prefixes. Invalid UTF-8 never raises.", "quantifier": "every input byte string", "why_tests_cant": "all byte strings, including invalid UTF-8", "anchors": ["warcio/statusandheaders.py: StatusAndHeadersParser.parse, StatusAndHeadersParser.decode_header, split_prefix"]}
{"id": "C14", "title": "Header parsing consumes exactly the header block", "statement": "Parsing consumes the stream up to and including the first blank line (or to the end of the data) and nothing beyond, so the payload behind it is intact.", "quantifier": "every input byte string and stream", "why_tests_cant": "payload bytes and header shapes are unbounded", "anchors": ["warcio/statusandheaders.py: StatusAndHeadersParser.parse, _strip_count"]}
{"id": "C15", "title": "HTTP headers can always be written as ASCII", "statement": "to_ascii_bytes() succeeds and returns pure ASCII for every header block whose status line and header names are ASCII, and leaves an already-ASCII block unchanged.", "quantifier": "every header block with arbitrary Unicode header values", "why_tests_cant": "arbitrary Unicode values", "anchors": ["warcio/statusandheaders.py: StatusAndHeaders.to_ascii_bytes, percent_encode_non_ascii_headers, ENCODE_HEADER_RX"]}
{"id": "C16", "title": "Percent-encoding a header value loses no information", "statement": "For a non-ASCII header value without ';', percent-decoding the written value and decoding it as UTF-8 gives back the original value.", "quantifier": "every Unicode header value without ';'", "why_tests_cant": "arbitrary Unicode values", "anchors": ["warcio/statusandheaders.py: percent_encode_non_ascii_headers"]}
{"id": "C17", "title": "add_range describes exactly the requested range", "statement": "add_range(start, part_len, total_len) sets status 206 and headers whose values describe bytes start..start+part_len-1 of total_len, and a Content-Length of part_len, keeping all other headers.", "quantifier": "every header block and all integers", "why_tests_cant": "unbounded integers and header lists", "anchors": ["warcio/statusandheaders.py: StatusAndHeaders.add_range"]}
{"id": "C18", "title": "validate_statusline keeps exactly the statuses with a positive numeric code", "statement": "validate_statusline(s) returns True and leaves the status line alone when the first word is a positive integer, otherwise replaces it by s and returns False; afterwards a second validation with a valid s always succeeds.", "quantifier": "every status line", "why_tests_cant": "arbitrary text", "anchors": ["warcio/statusandheaders.py: StatusAndHeaders.validate_statusline, get_statuscode"]}
{"id": "C19", "title": "Every RFC 3548 encoding of the right digest is accepted", "statement": "A digest header that contains the correct digest in base32, base16 (either case), base64 or URL-safe base64 verifies.", "quantifier": "every digest value of every hash algorithm", "why_tests_cant": "digest values and lengths; tests only use one SHA-1 value", "anchors": ["warcio/digestverifyingreader.py: _compare_digest_rfc_3548, _to_b32, _b64_wrapper"]}
{"id": "C20", "title": "A digest header holding a different digest is rejected", "statement": "A digest header that contains, in any of these encodings, a digest of the same length but different from the computed one does not verify.", "quantifier": "every pair of distinct digest values", "why_tests_cant": "pairs of digest values", "anchors": ["warcio/digestverifyingreader.py: _compare_digest_rfc_3548, _to_b32"]}
{"id": "C21", "title": "The digest verdict is exact and independent of how the record is read", "statement": "After a record has been read to its end with check_digests on, passed is False iff a declared digest does not match (or names an unknown algorithm), True iff at least one declared digest was checked and none failed, None otherwise — whatever sequence of read sizes was used.", "quantifier": "every block content, split point between headers and payload, declared digests, and sequence of read/readline calls", "why_tests_cant": "tests run a handful of call sequences; the claim is about every sequence, every size and every chunking the source may choose", "anchors": ["warcio/digestverifyingreader.py: DigestVerifyingReader.__init__, begin_payload, _update", "DigestChecker.problem"]}
{"id": "C22", "title": "Digest checking does not change what is read", "statement": "Reading a record with check_digests=True or 'log' returns the same bytes, call by call, as with check_digests=False.", "quantifier": "every content, declared digests and read history", "why_tests_cant": "tests run a handful of call sequences; the claim is about every sequence, every size and every chunking the source may choose", "anchors": ["warcio/digestverifyingreader.py: DigestVerifyingReader", "warcio/recordloader.py: ArcWarcRecordLoader.wrap_digest_verifying_stream"]}
{"id": "C23", "title": "A partially read or truncated record is never reported as passed", "statement": "passed is True only after every byte of the record's block was read: a record cut off before its declared length never gets a digest pass.", "quantifier": "every content, every cut point, every read history", "why_tests_cant": "every crash point", "anchors": ["warcio/digestverifyingreader.py: DigestVerifyingReader._update"]}
{"id": "C24", "title": "Revisit records and segmented payloads are not digest-checked", "statement": "For a revisit record neither digest, and for a segmented record not the payload digest, ever influences the verdict.", "quantifier": "every revisit/segmented record, digests and read history", "why_tests_cant": "arbitrary digest strings", "anchors": ["warcio/digestverifyingreader.py: DigestVerifyingReader.__init__"]}
{"id": "C25", "title": "check_digests='raise' raises on mismatch", "statement": "With check_digests='raise', reading a record with a mismatching declared digest to its end raises ArchiveLoadFailed, and reading one whose digests match never raises.", "quantifier": "every content, digests and read history", "why_tests_cant": "tests run a handful of call sequences; the claim is about every sequence, every size and every chunking the source may choose", "anchors": ["warcio/digestverifyingreader.py: DigestChecker.problem"]}
{"id": "C26", "title": "The record stream is exactly the declared block", "statement": "For a record whose Content-Length is n, raw_stream (with HTTP parsing off) yields exactly the n bytes after the header block, or all that is left if the file ends earlier; an invalid or negative Content-Length yields an empty stream, a missing one the rest of the stream.", "quantifier": "every header block, Content-Length text and following data", "why_tests_cant": "arbitrary length text and content", "anchors": ["warcio/recordloader.py: ArcWarcRecordLoader.parse_record_stream"]}
{"id": "C27", "title": "HTTP headers plus payload are the whole block", "statement": "For http(s) response/request/revisit records the parsed HTTP headers and the remaining raw_stream together consume exactly the block, and payload_length is the number of payload bytes left; other records keep their block untouched.", "quantifier": "every record type, URI and block content", "why_tests_cant": "arbitrary block content", "anchors": ["warcio/recordloader.py: ArcWarcRecordLoader.load_http_headers, parse_record_stream"]}
{"id": "C28", "title": "WARC-Target-URI clean-up", "statement": "After loading, WARC-Target-URI has one enclosing <> pair removed and no spaces, the value is otherwise unchanged, loading it again changes nothing more when no brackets are nested, and the returned uri is the header's value.", "quantifier": "every URI text", "why_tests_cant": "arbitrary text", "anchors": ["warcio/recordloader.py: ArcWarcRecordLoader._ensure_target_uri_format"]}
{"id": "C29", "title": "Format detection", "statement": "A stream whose first line starts with a WARC version is read as WARC; with known format 'warc' anything else raises ArchiveLoadFailed; otherwise a first line with at least five space-separated fields is read as ARC, and anything else raises ArchiveLoadFailed, never another exception.", "quantifier": "every input byte string", "why_tests_cant": "arbitrary input", "anchors": ["warcio/recordloader.py: ArcWarcRecordLoader._detect_type_load_headers, ARCHeadersParser.parse"]}
{"id": "C30", "title": "ARC header lines parse back, including spaces in the URI", "statement": "An ARC header line made of a URI (which may contain spaces) and four space-free fields parses to exactly these five fields.", "quantifier": "every URI with any number of spaces, all space-free fields", "why_tests_cant": "arbitrary text", "anchors": ["warcio/recordloader.py: ARCHeadersParser.parse, _get_protocol_and_headers"]}
{"id": "C31", "title": "ARC to WARC conversion keeps the record", "statement": "With arc2warc, the converted record has the ARC record's URI, IP address and date, its type is warcinfo for the filedesc record and response otherwise, and its content is the ARC record's content.", "quantifier": "every ARC header line and content", "why_tests_cant": "arbitrary text", "anchors": ["warcio/recordloader.py: ARC2WARCHeadersParser._get_protocol_and_headers, parse_record_stream"]}
{"id": "C32", "title": "Iterating a WARC file yields exactly its records", "statement": "Iterating over the concatenation of any number of well-formed records (arbitrary block bytes, including bytes that look like records) yields exactly these records in order with the same headers and blocks, then stops.", "quantifier": "every list of well-formed records and every block content", "why_tests_cant": "unbounded files and arbitrary block bytes", "anchors": ["warcio/archiveiterator.py: ArchiveIterator._iterate_records, read_to_end, _consume_blanklines, _next_record"]}
{"id": "C33", "title": "Record offsets and lengths are exact", "statement": "get_record_offset() is the position of the record's first byte in the file and get_record_length() the size of its bytes (uncompressed: up to the end of its block; gzip: the compressed member), so that seeking to the offset and iterating again yields the same record.", "quantifier": "every file of well-formed records, every starting position, block size and read history", "why_tests_cant": "unbounded files; positions depend on buffering", "anchors": ["warcio/archiveiterator.py: ArchiveIterator.read_to_end, get_record_offset, get_record_length"]}
{"id": "C34", "title": "Iterating a record-compressed gzip WARC yields exactly its records", "statement": "Iterating over a file in which every record is its own gzip member yields the same records as the uncompressed file, with the member positions as offsets.", "quantifier": "every list of well-formed records, compression of each, block size and schedule", "why_tests_cant": "unbounded files and arbitrary compressed splits", "anchors": ["warcio/archiveiterator.py: ArchiveIterator._iterate_records", "warcio/bufferedreaders.py: BufferedReader"]}
{"id": "C35", "title": "What the user reads from a record does not affect the iteration", "statement": "Whatever sequence of read/readline calls is made on the current record (none, partial, all) and whether or not offsets are asked for, the following records and offsets are the same.", "quantifier": "every file of well-formed records and every history of calls on each record", "why_tests_cant": "tests run a handful of call sequences; the claim is about every sequence, every size and every chunking the source may choose", "anchors": ["warcio/archiveiterator.py: ArchiveIterator.read_to_end"]}
{"id": "C36", "title": "Iteration is independent of block size and of short reads", "statement": "The sequence of records, contents, offsets and lengths does not depend on block_size nor on how many bytes each underlying read returns.", "quantifier": "every file, every block size, every short-read schedule", "why_tests_cant": "schedules are unbounded", "anchors": ["warcio/archiveiterator.py: ArchiveIterator.__init__", "warcio/bufferedreaders.py: BufferedReader._fillbuff"]}
{"id": "C37", "title": "A gzip file that is not compressed record by record is reported", "statement": "If one gzip member holds several records, iteration raises ArchiveLoadFailed when asked for the second record instead of yielding it with an unusable offset.", "quantifier": "every list of at least two records compressed as one member", "why_tests_cant": "unbounded contents", "anchors": ["warcio/archiveiterator.py: ArchiveIterator._iterate_records, _raise_invalid_gzip_err"]}
{"id": "C38", "title": "Iteration always terminates", "statement": "On every input byte string, iterating ends (normally or with an exception) after finitely many records; every record consumes at least one byte.", "quantifier": "every input byte string", "why_tests_cant": "arbitrary malformed input", "anchors": ["warcio/archiveiterator.py: ArchiveIterator._iterate_records"]}
{"id": "C39", "title": "A file cut at any point still yields the complete records before the cut", "statement": "If writing stopped at any byte (crash), reading the truncated file yields all records that were completely written, unchanged and in order, before anything else happens.", "quantifier": "every list of records and every cut point", "why_tests_cant": "every crash point", "anchors": ["warcio/archiveiterator.py: ArchiveIterator", "warcio/warcwriter.py: BaseWARCWriter._write_warc_record"]}
{"id": "C40", "title": "A written record declares its real length", "statement": "The bytes written for a record are its header block, a block and CRLFCRLF, and the written Content-Length is the number of bytes of the block actually written.", "quantifier": "every record type, payload (seekable or not, length given or not), HTTP headers and short-read schedule of the payload", "why_tests_cant": "unbounded payloads and stream kinds", "anchors": ["warcio/warcwriter.py: BaseWARCWriter._write_warc_record", "warcio/recordbuilder.py: RecordBuilder.ensure_digest"]}
{"id": "C41", "title": "A written record's digests are those of the bytes written", "statement": "When the writer computes digests, WARC-Block-Digest is the SHA-1 of the written block and WARC-Payload-Digest the SHA-1 of the payload part; digests the caller supplied are kept.", "quantifier": "every record and payload stream", "why_tests_cant": "unbounded payloads", "anchors": ["warcio/recordbuilder.py: RecordBuilder.ensure_digest", "warcio/utils.py: Digester"]}
{"id": "C42", "title": "Records of unknown length are completed", "statement": "A record created or read without length is written with the length and digests of what its stream really holds.", "quantifier": "every payload stream, any short-read schedule, any stale digests", "why_tests_cant": "unbounded payloads", "anchors": ["warcio/warcwriter.py: BaseWARCWriter._write_warc_record"]}
{"id": "C43", "title": "Reading back a written record gives the record", "statement": "read(write(record)) has the record's type, WARC headers, HTTP headers and payload, for plain and gzip output.", "quantifier": "every well-formed record", "why_tests_cant": "unbounded payloads and header values", "anchors": ["warcio/warcwriter.py: WARCWriter.write_record", "warcio/archiveiterator.py: ArchiveIterator"]}
{"id": "C44", "title": "Rewriting a read record is faithful", "statement": "Reading a record and writing it again with the plain writer reproduces the bytes of a normalised record, so recompress changes nothing but compression, and a record that verified before verifies after.", "quantifier": "every record", "why_tests_cant": "unbounded payloads and header texts", "anchors": ["warcio/recompressor.py: Recompressor.load_and_write", "warcio/warcwriter.py: BaseWARCWriter._write_warc_record"]}
{"id": "C45", "title": "Gzip output is one member per record", "statement": "With gzip=True, the output of each write_record is one gzip member whose decompression is what gzip=False would have written.", "quantifier": "every record and sequence of records", "why_tests_cant": "unbounded payloads", "anchors": ["warcio/warcwriter.py: GzippingWrapper, BaseWARCWriter._write_warc_record"]}
{"id": "C46", "title": "Request/response pairs are linked", "statement": "write_request_response_pair writes the response then the request; the request carries the response's target URI and date, and WARC-Concurrent-To is the response's record id.", "quantifier": "every pair of records", "why_tests_cant": "arbitrary header lists", "anchors": ["warcio/warcwriter.py: BaseWARCWriter.write_request_response_pair, WARCWriter._do_write_req_resp"]}
{"id": "C47", "title": "Revisit records", "statement": "create_revisit_record produces a record with the profile of the writer's WARC version, the refers-to headers and the given payload digest; what is written contains the HTTP headers and no payload.", "quantifier": "every URI, digest, HTTP headers and extra headers", "why_tests_cant": "arbitrary header lists", "anchors": ["warcio/recordbuilder.py: RecordBuilder.create_revisit_record"]}
{"id": "C48", "title": "Record creation sets the mandatory headers", "statement": "Every record created has exactly the requested WARC-Type and target URI, a record id and a date, keeping the caller's own id and date if given.", "quantifier": "every uri, type and extra header dictionary", "why_tests_cant": "arbitrary header dictionaries", "anchors": ["warcio/recordbuilder.py: RecordBuilder._init_warc_headers, create_warc_record"]}
{"id": "C49", "title": "Writing the same record object twice", "statement": "write_record(record) called twice writes the record twice.", "quantifier": "every record", "why_tests_cant": "depends on stream state left behind by the first write", "anchors": ["warcio/warcwriter.py: BaseWARCWriter._write_warc_record"]}
{"id": "C50", "title": "warcinfo records", "statement": "create_warcinfo_record writes one 'name: value' line per non-empty entry, in order, and the record's length is the length of these lines.", "quantifier": "every info dictionary", "why_tests_cant": "unbounded dictionaries, Unicode values", "anchors": ["warcio/recordbuilder.py: RecordBuilder.create_warcinfo_record"]}
{"id": "C51", "title": "timestamp_to_datetime is total and clamps", "statement": "For every string, timestamp_to_datetime returns a valid date between 1900 and 2999 and never raises.", "quantifier": "every string", "why_tests_cant": "arbitrary text", "anchors": ["warcio/timeutils.py: timestamp_to_datetime, pad_timestamp"]}
{"id": "C52", "title": "Timestamps round-trip", "statement": "For every date in 1900..2999, timestamp_to_datetime(datetime_to_timestamp(d)) is d without its microseconds, and the same through ISO dates.", "quantifier": "every date", "why_tests_cant": "all dates", "anchors": ["warcio/timeutils.py: datetime_to_timestamp, timestamp_to_datetime, iso_date_to_timestamp, timestamp_to_iso_date"]}
{"id": "C53", "title": "ISO dates round-trip with and without microseconds", "statement": "iso_date_to_datetime(datetime_to_iso_date(d, use_micros=True)) == d for every date, and without micros it is d truncated to the second.", "quantifier": "every date", "why_tests_cant": "all dates and microsecond values", "anchors": ["warcio/timeutils.py: iso_date_to_datetime, datetime_to_iso_date"]}
{"id": "C54", "title": "Short timestamps are padded to the end of their period", "statement": "A valid timestamp prefix of even length >= 4 stands for the last second whose timestamp starts with it.", "quantifier": "every valid prefix", "why_tests_cant": "all dates and prefix lengths", "anchors": ["warcio/timeutils.py: timestamp_to_datetime"]}
{"id": "C55", "title": "Timestamps and epoch seconds are inverse", "statement": "sec_to_timestamp(timestamp_to_sec(t)) == t for every valid 14-digit timestamp, and timestamp_to_sec is strictly increasing in time.", "quantifier": "every date in 1900..2999", "why_tests_cant": "all dates", "anchors": ["warcio/timeutils.py: timestamp_to_sec, sec_to_timestamp"]}
{"id": "C56", "title": "HTTP dates round-trip", "statement": "http_date_to_datetime(datetime_to_http_date(d)) == d truncated to seconds for every date.", "quantifier": "every date", "why_tests_cant": "all dates", "anchors": ["warcio/timeutils.py: http_date_to_datetime, datetime_to_http_date"]}
{"id": "C57", "title": "warcio check", "statement": "check exits with 1 iff some input could not be read as an archive or some record's digest verdict is a failure, whatever the order of inputs.", "quantifier": "every list of inputs", "why_tests_cant": "unbounded inputs", "anchors": ["warcio/checker.py: Checker.process_all, process_one"]}
{"id": "C58", "title": "warcio index", "statement": "index writes one line per record in file order, each with exactly the requested fields that are present, in the requested order, with the record's real offset and length.", "quantifier": "every file and field list", "why_tests_cant": "unbounded files and field lists", "anchors": ["warcio/indexer.py: Indexer.process_index_entry, get_field"]}
{"id": "C59", "title": "warcio extract", "statement": "extract at a record's offset prints that record's headers and block (or only the parts asked for) and nothing of any other record.", "quantifier": "every file and every record in it", "why_tests_cant": "unbounded files", "anchors": ["warcio/extractor.py: Extractor.extract"]}
{"id": "C60", "title": "warcio recompress", "statement": "recompress of a file of well-formed records, plain or compressed in any way, yields a record-compressed file with the same records.", "quantifier": "every list of records and every grouping into members", "why_tests_cant": "unbounded files", "anchors": ["warcio/recompressor.py: Recompressor.load_and_write, decompress_and_recompress"]}
{"id": "C61", "title": "capture_http reconstructs the request URL", "statement": "For a request sent to host:port the recorded URL is scheme://host[:port]path with the port omitted iff it is the default one; absolute-form (proxy) requests keep their URL; after CONNECT the tunnelled host is used.", "quantifier": "every host, port, path and request line", "why_tests_cant": "arbitrary text", "anchors": ["warcio/capture_http.py: RequestRecorder.extract_url"]}
{"id": "C62", "title": "capture_http records exactly the traffic", "statement": "For each completed exchange one response record and one request record are written whose payloads are the bytes received and sent, and nothing is written for exchanges the filter rejects.", "quantifier": "every sequence of sends, reads (read, readline, readinto with any result) and closes", "why_tests_cant": "histories are unbounded", "anchors": ["warcio/capture_http.py: RecordingStream, RequestRecorder"]}
{"id": "C63", "title": "Zone offsets of dates are honoured", "statement": "http_date_to_datetime and iso_date_to_datetime return the instant that the text denotes when it carries a zone offset, or refuse the text.", "quantifier": "every date, every zone", "why_tests_cant": "unbounded dates and zones; tests use GMT and Z only", "anchors": ["warcio/timeutils.py: iso_date_to_datetime, http_date_to_datetime"]}
{"id": "C64", "title": "content_stream delivers the content", "statement": "The content stream of an HTTP record delivers the payload with the transfer coding 'chunked' removed and a known content coding decoded, that of any other record its block; it does so for any sequence of read and readline calls, whatever was done with earlier records and however the file is compressed, and however much of it is read, iteration goes on with the next record.", "quantifier": "every archive, every record, every plan of operations, every sequence of calls", "why_tests_cant": "unbounded archives, payloads, chunkings and call sequences", "anchors": ["warcio/recordloader.py: ArcWarcRecord.content_stream", "warcio/bufferedreaders.py: BufferedReader, ChunkedDataReader"]}
{"id": "C65", "title": "Digest verdicts are right whatever is read before", "statement": "With check_digests (not 'raise'), once a record of an archive has been read to its end, by whatever calls on its stream or on the iterator, record.digest_checker.passed is what its digest headers say of its block and of its payload (the block behind the HTTP headers), and problems are listed iff this is a failure; for plain archives and archives with one record per gzip member.", "quantifier": "every archive, every plan of operations on its records", "why_tests_cant": "unbounded archives and call sequences", "anchors": ["warcio/archiveiterator.py: ArchiveIterator", "warcio/recordloader.py: ArcWarcRecordLoader.parse_record_stream", "warcio/digestverifyingreader.py: DigestVerifyingReader"]}
{"id": "C66", "title": "A record created from a payload stream is written with this payload", "statement": "create_warc_record(uri, type, payload=stream[, length=...]) followed by write_record writes, plain or compressed, a record whose block is exactly the bytes of the stream, with a Content-Length and digests that are true of them, the type, URI, id and date of the call, and the caller's other headers; for HTTP records the headers of the message are parsed and the record's stream holds the body.", "quantifier": "every payload, every stream (short reads, not seekable, not at its start), every caller's headers", "why_tests_cant": "unbounded payloads and headers, arbitrary short reads", "anchors": ["warcio/recordbuilder.py: RecordBuilder.create_warc_record", "warcio/warcwriter.py: BaseWARCWriter.write_record"]}
{"id": "C67", "title": "A block longer than declared costs a warning, not records", "statement": "In an uncompressed WARC file in which lines that are not blank (at most one per record) follow the declared blocks of any of the records, iteration yields the same records, blocks, offsets and sizes as without these lines; each line gives one warning with its offset and text and raises err_count by one, when the record is read to its end.", "quantifier": "every archive, every set of such lines, every plan of operations, every pattern of short reads", "why_tests_cant": "unbounded archives and interleavings", "anchors": ["warcio/archiveiterator.py: ArchiveIterator._consume_blanklines, read_to_end"]}
{"id": "C68", "title": "Garbage behind records is reported", "statement": "If an uncompressed WARC file goes on behind its records with a line that is neither blank nor a WARC version, iteration yields all the records before it and then raises ArchiveLoadFailed, and nothing is yielded after that.", "quantifier": "every archive, every garbage, every plan of operations", "why_tests_cant": "unbounded archives and arbitrary garbage", "anchors": ["warcio/archiveiterator.py: ArchiveIterator._next_record, _iterate_records", "warcio/recordloader.py: ArcWarcRecordLoader.parse_record_stream, _detect_type_load_headers"]}
{"id": "C69", "title": "Iterating over an ARC file yields its records", "statement": "Iterating over an ARC file, uncompressed or with one gzip member per record, yields exactly its records, in order, with their positions, and stops: the record describing the file (arc_header) and the others (response), with their five fields as headers and blocks whose length does not count the lines behind the header line; with arc2warc each of them as the WARC record it is converted to, with the same block. HTTP headers are parsed as in WARC files. No warning is counted, and no digest is checked.", "quantifier": "every ARC file of well-formed records, every plan of operations on its records, every pattern of short reads, both values of arc2warc", "why_tests_cant": "unbounded archives and call sequences", "anchors": ["warcio/archiveiterator.py: ArchiveIterator, ARCIterator", "warcio/recordloader.py: ArcWarcRecordLoader, ARCHeadersParser"]}
{"id": "C70", "title": "An ARC file is rewritten as a WARC file", "statement": "warcio recompress (and _load_and_write) turns an ARC file, uncompressed or with one gzip member per record, into a file of WARC records: for each ARC record, in order, one record of version WARC/1.0, compressed as one member each, with the same block; its headers are the type (warcinfo for the record describing the file, else response), an identifier, the URI or file name, the IP address, the date of the ARC record in ISO form, the content type, the true length of the block, and true digests of payload (not for warcinfo) and block. The number of records is reported.", "quantifier": "every ARC file, every pattern of short reads", "why_tests_cant": "unbounded archives, interplay of loader, iterator and writer", "anchors": ["warcio/recompressor.py: Recompressor.recompress, load_and_write", "warcio/recordloader.py: ArcWarcRecordLoader.parse_record_stream, ARCHeadersParser, _ensure_target_uri_format", "warcio/warcwriter.py: BaseWARCWriter.write_record"]}
{"id": "C71", "title": "BufferWARCWriter gives back all that was written", "statement": "get_contents() returns, and the stream of get_stream() holds, exactly the bytes of all records written so far, one after the other, each as it would be written to a file of its own; looking at them, at any time and in any way, changes neither them nor what is written later.", "quantifier": "every sequence of calls of write_record, write_request_response_pair, get_contents, get_stream and read on the stream; every record", "why_tests_cant": "unbounded interleavings of writing and reading", "anchors": ["warcio/warcwriter.py: BufferWARCWriter.get_contents, get_stream"]}
{"id": "C72", "title": "capture_http records the connections made inside its block", "statement": "A `with capture_http()` block records exactly what happens on the connections that its thread makes while it is the innermost such block of the thread, as if there were no other blocks, threads or connections; connections made outside of all blocks are not recorded. Without a writer the records go to a buffer, uncompressed unless asked for; a file given by name is extended, or must be new (append=False), and is not changed after the block is left.", "quantifier": "every sequence of entering and leaving blocks, making connections and using them, by any number of threads in any interleaving", "why_tests_cant": "unbounded interleavings of threads, blocks and connections", "anchors": ["warcio/capture_http.py: capture_http, RecordingHTTPConnection"]}
{"id": "C73", "title": "The index leads to the records", "statement": "For each record of an archive warcio index prints a line whose offset, given to warcio extract, makes it print exactly this record, or the part of it that is asked for; and the bytes of the file at this offset, as many as the length in the line says, are enough for this on their own.", "quantifier": "every archive, plain or with one record per gzip member, every list of fields with offset and length, every record, every pattern of short reads", "why_tests_cant": "unbounded archives; interplay of iterator, indexer and extractor", "anchors": ["warcio/indexer.py: Indexer.process_one, get_field", "warcio/extractor.py: Extractor.extract", "warcio/archiveiterator.py: ArchiveIterator.get_record_offset, get_record_length"]}
{"id": "C74", "title": "A file that ends within a record", "statement": "If a WARC file (uncompressed, or with each record in a gzip member) ends in the block of its last record, or in the blank lines behind it, iteration yields all its records with their positions, the last one with what there is of its block, and stops without an error or a warning; an incomplete block is never judged to match a digest. If nothing is left of a block that should be an HTTP message, the last record is not yielded. In both cases the exit value of warcio check is that for the other records.", "quantifier": "every archive, every point in the block or behind it at which the file ends, every plan of operations, every pattern of short reads", "why_tests_cant": "unbounded archives and cut points", "anchors": ["warcio/archiveiterator.py: ArchiveIterator.read_to_end, _consume_blanklines, _iterate_records", "warcio/recordloader.py: ArcWarcRecordLoader.parse_record_stream", "warcio/digestverifyingreader.py: DigestVerifyingReader._update", "warcio/checker.py: Checker.process_one"]}
{"id": "C75", "title": "What is written passes the check", "statement": "If the digests are left to the writer, or are right, warcio check of a file of records written one after the other, plain or compressed, exits with 0 and prints nothing; with -v it prints for each record whose digests are checked (all but revisits, and records with nothing that has a digest) that they are right. This needs the payload to be where readers look for it: a record that is read as HTTP message has HTTP headers, and the others have none.", "quantifier": "every list of records, every payload, every content and transfer coding", "why_tests_cant": "unbounded records and payloads; interplay of writer, iterator and checker", "anchors": ["warcio/warcwriter.py: BaseWARCWriter._write_warc_record, ensure_digest", "warcio/checker.py: Checker.process_one, _process_one", "warcio/digestverifyingreader.py: DigestVerifyingReader", "warcio/recordloader.py: ArcWarcRecordLoader.parse_record_stream"]}
{"id": "C76", "title": "Creating, writing, reading and checking", "statement": "Records that are created from a type, a URI, headers and a payload (a whole HTTP message, HTTP headers and a payload, other data, or nothing) and written to a new file, plain or compressed, are read back by iterating over it: each with its type, version, length, the headers that were given and the ones that are added, its HTTP headers, and its payload; and warcio check of the file exits with 0 and says of each record that has something to check that it is right.", "quantifier": "every list of records of these kinds, every payload stream and pattern of short reads, plain and gzip, every reading plan", "why_tests_cant": "unbounded record lists and payloads; interplay of builder, writer, iterator and checker", "anchors": ["warcio/recordbuilder.py: RecordBuilder.create_warc_record", "warcio/warcwriter.py: BaseWARCWriter.write_record", "warcio/archiveiterator.py: ArchiveIterator", "warcio/checker.py: Checker.process_all"]}
{"id": "C77", "title": "A capture can be read and passes the check", "statement": "A file that is written by capture_http holds, for each exchange whose response was closed, the response and then the request, linked to it: iterating over the file, plain or compressed, yields them in the order in which the responses were closed, with the URL, the address, and exactly the bytes that were received and sent, as HTTP headers and payload; and warcio check of the file exits with 0 and finds the digests of all records right.", "quantifier": "every sequence of exchanges one after the other, with any pieces and calls in which bytes are sent and received, anything in between, plain and gzip, every reading plan", "why_tests_cant": "unbounded sequences of calls; interplay of recorder, builder, writer, iterator and checker", "anchors": ["warcio/capture_http.py: RequestRecorder, RecordingHTTPResponse", "warcio/warcwriter.py: BaseWARCWriter.write_request_response_pair", "warcio/archiveiterator.py: ArchiveIterator", "warcio/checker.py: Checker.process_all"]}
{"id": "C78", "title": "The tools on ARC files", "statement": "For an ARC file warcio index prints a line for each record, in order, with the offset and the length of the ARC record and with the fields of the WARC record to which it is converted; warcio check exits with 0, as there are no digests, and says so for each record with -v; warcio extract at the offset of a record prints the fields of the ARC record as header lines and then its block, or the HTTP headers or the content alone.", "quantifier": "every well-formed ARC file, plain or with one record per gzip member, every list of fields, every pattern of short reads", "why_tests_cant": "unbounded archives; interplay of loader, conversion, iterator and tools", "anchors": ["warcio/indexer.py: Indexer.process_one", "warcio/checker.py: Checker.process_one", "warcio/extractor.py: Extractor.extract", "warcio/recordloader.py: ARCHeadersParser, ArcWarcRecordLoader.parse_record_stream"]}
{"id": "C79", "title": "The tools come to an end on any input", "statement": "Whatever bytes the given files hold, and however they are delivered, warcio recompress, index, check and extract come to an end: with a result or with an exception. The number of records that recompress reports and the number of lines that index prints for a file are bounded by its size times the largest ratio of compression.", "quantifier": "every list of files, every content, every pattern of short reads, every position of extract", "why_tests_cant": "arbitrary bytes; non-termination cannot be tested for", "anchors": ["warcio/recompressor.py: Recompressor.recompress", "warcio/indexer.py: Indexer.process_all", "warcio/checker.py: Checker.process_all", "warcio/extractor.py: Extractor.extract"]}
{"id": "C80", "title": "What recompress reports is true of its output", "statement": "Whatever file warcio recompress is given: if it reports n records, then the output consists of n gzip members with one record in each, that is a version line, headers with a length, a block and two empty lines. It says that there were no errors exactly if the file could be read record by record, that errors were fixed exactly if this failed but what comes out of decompressing it could be read, and exits with 1 if both failed.", "quantifier": "every file, every pattern of short reads", "why_tests_cant": "arbitrary bytes", "anchors": ["warcio/recompressor.py: Recompressor.recompress, load_and_write, decompress_and_recompress", "warcio/warcwriter.py: BaseWARCWriter._write_warc_record"]}
{"id": "C81", "title": "Which exceptions can escape", "statement": "Whatever bytes a file holds: going to the next record raises nothing but StopIteration, ArchiveLoadFailed, and, if HTTP headers are parsed, AttributeError (exactly for a response, request or revisit without a URI whose block is not empty) and with verify_http StatusAndHeadersParserException; only if digests are checked, ValueError or binascii.Error for a digest that cannot be decoded. Reading a record raises nothing if digests are not checked. So warcio index without http: fields ends only with ArchiveLoadFailed, warcio check, which catches that, ends early only for a record without a URI or a digest that cannot be decoded, and EOFError, zlib.error and errors in chunks never escape.", "quantifier": "every file, every pattern of short reads, every option, every sequence of reading operations", "why_tests_cant": "arbitrary bytes; absence of exceptions on all inputs", "anchors": ["warcio/archiveiterator.py: ArchiveIterator._iterate_records, _next_record", "warcio/recordloader.py: ArcWarcRecordLoader.parse_record_stream, load_http_headers", "warcio/digestverifyingreader.py: DigestVerifyingReader, DigestChecker", "warcio/checker.py: Checker.process_all", "warcio/indexer.py: Indexer.process_all"]}
{"id": "C82", "title": "The commands change nothing but the file they are told to write", "statement": "Whatever the file system holds, warcio check and extract change no file, and index and recompress none but their output, so that the inputs are unchanged; what the output held before makes no difference. check and index do with files that are there what the classes do with their contents; a file that is missing ends check, whatever was found before; index without inputs reads standard input. recompress writes the output that the records read give, exits with 0 or 1 according to what it reports, and with -v does so only if the output can be indexed.", "quantifier": "every file system, every command line", "why_tests_cant": "unbounded file systems; aliasing of inputs and outputs", "anchors": ["warcio/cli.py: main, indexer, checker, extractor, recompressor", "warcio/utils.py: fsspec_open", "warcio/recompressor.py: Recompressor.recompress, load_and_write", "warcio/indexer.py: Indexer.process_all", "warcio/checker.py: Checker.process_all"]}
{"id": "C83", "title": "Recompressing does not change what check says", "statement": "After warcio recompress a b, warcio check exits for b with the same value as for a and reports the same records as failures, in the same order: a digest that was right stays right, one that was wrong stays wrong, and digests that are added are right. If a is one gzip member with several records, check cannot read it, and for b it exits with 1 exactly if some digest is wrong.", "quantifier": "every file of records whose digests are texts of digests, not compressed, or grouped into gzip members in any way with at least one record in each", "why_tests_cant": "unbounded archives; interplay of loader, writer, digests, checker and recompressor", "anchors": ["warcio/recompressor.py: Recompressor.recompress", "warcio/checker.py: Checker.process_all", "warcio/warcwriter.py: BaseWARCWriter._write_warc_record", "warcio/digestverifyingreader.py: DigestVerifyingReader"]}
{"id": "C84", "title": "Recompressing again changes nothing", "statement": "If a file is recompressed and the new file is recompressed again, no errors are found, the number of records is the same, and member by member the data is the same. If what the compressor returns depends on the data alone and not on the pieces in which it was given, the two new files are the same byte by byte.", "quantifier": "every file of records without empty digest headers, not compressed, or grouped into gzip members in any way with at least one record in each", "why_tests_cant": "unbounded archives; a fixed point of the composition of loader and writer", "anchors": ["warcio/recompressor.py: Recompressor.recompress, load_and_write", "warcio/warcwriter.py: BaseWARCWriter._write_warc_record", "warcio/archiveiterator.py: ArchiveIterator", "warcio/cli.py: recompressor"]}
{"id": "C85", "title": "The index and the contents of a recompressed file", "statement": "After warcio recompress a b, warcio index prints for b what it prints for a, for any fields but the offset, the length, the name of the file, and the Content-Length and digest headers of the record. The offset in a line of the index of a and the offset in the corresponding line of the index of b make warcio extract --payload print the same bytes.", "quantifier": "every archive, plain or with one record per member, every list of fields", "why_tests_cant": "unbounded archives and field lists; interplay of loader, writer, indexer, extractor and recompressor", "anchors": ["warcio/recompressor.py: Recompressor.recompress", "warcio/indexer.py: Indexer.process_one, get_field", "warcio/extractor.py: Extractor.extract", "warcio/cli.py: indexer, recompressor"]}
{"id": "C86", "title": "An ARC file turned into a WARC file", "statement": "After warcio recompress a b, where a is an ARC file: warcio check exits for b with 0, reports no failure, and says with -v of every record with a block that its digests are right (for a it has no digest to check). warcio index prints for b what it prints for a, for any fields but the offset, the length, the name of the file, the Content-Length and digest headers and the identifier of the record. The offset in a line of the index of a and that in the corresponding line of the index of b make warcio extract --payload print the same bytes.", "quantifier": "every ARC file, plain or with one record per member, every list of fields", "why_tests_cant": "unbounded archives and field lists; interplay of ARC parser, converter, loader, writer, digests, checker, indexer, extractor and recompressor", "anchors": ["warcio/recompressor.py: Recompressor.recompress", "warcio/recordloader.py: ARCHeadersParser, ARC2WARCHeadersParser", "warcio/checker.py: Checker.process_all", "warcio/indexer.py: Indexer.process_one, get_field", "warcio/extractor.py: Extractor.extract", "warcio/cli.py: indexer, checker, recompressor"]}
{"id": "C87", "title": "Any uncompressed file is cut into records without losing a byte", "statement": "Whatever bytes a file that is not compressed holds, and with whatever options it is iterated: the first record starts at the beginning; each record is a header block, which depends on the bytes from there on and on nothing before, and as many bytes as it declares or as there are; behind it one line and the blank lines that follow are skipped, with a warning if the line is not blank, and the next record starts there. Nothing else is skipped and nothing is read twice, whatever the user reads of a record. The offset and length reported are those of the record in the file. The iteration ends at the end of the file, with the exception of the loader, or with a digest that fails.", "quantifier": "every file that is not compressed, every block size and pattern of short reads, every option, every sequence of reading operations", "why_tests_cant": "arbitrary bytes, including files that are no archives; unbounded files", "anchors": ["warcio/archiveiterator.py: ArchiveIterator._iterate_records, _consume_blanklines, read_to_end, get_record_offset, get_record_length", "warcio/recordloader.py: ArcWarcRecordLoader.parse_record_stream, _detect_type_load_headers", "warcio/limitreader.py: LimitReader"]}
{"id": "C88", "title": "Opening a file at a reported offset gives that record", "statement": "In any file that is not compressed, iterated without checking digests: if the file is opened again at the offset reported for a record, the first record of the new iteration is that record, with the same headers, the same HTTP headers, the same data in its stream, the same offset and the same length; if HTTP messages are parsed, for header lines that are no longer than what is read at a time. If the record is an ARC record this is so if the new iteration is told so.", "quantifier": "every file that is not compressed, every record in it, all block sizes and patterns of short reads, for both iterations", "why_tests_cant": "arbitrary bytes; independence of the state that the records before have left", "anchors": ["warcio/archiveiterator.py: ArchiveIterator._iterate_records, read_to_end, get_record_offset, get_record_length", "warcio/recordloader.py: ArcWarcRecordLoader.parse_record_stream, _detect_type_load_headers", "warcio/extractor.py: Extractor.extract"]}
{"id": "C89", "title": "The index of any uncompressed file", "statement": "Whatever bytes a file that is not compressed holds, warcio index prints one line for each of the records into which it is cut, in order; offset and length are those of the record in the file, and the other fields are those of the record that the loader makes of the bytes from there on, whatever stands before. If there is no record at some place the exception of the loader ends the index there, behind the lines of all records before.", "quantifier": "every file that is not compressed, every pattern of short reads, every list of fields", "why_tests_cant": "arbitrary bytes, including files that are no archives; unbounded files", "anchors": ["warcio/indexer.py: Indexer.process_all, process_one, get_field", "warcio/archiveiterator.py: ArchiveIterator._iterate_records, get_record_offset, get_record_length", "warcio/recordloader.py: ArcWarcRecordLoader.parse_record_stream"]}
{"id": "C90", "title": "Extracting at any position of any uncompressed file", "statement": "At any position in a file that is not compressed there, warcio extract ends with an exception of the loader and prints nothing, or prints the headers of the record there, its HTTP headers and the end of its block, and nothing of what stands behind the block; of a record that is no HTTP message it prints all of the block. The offset in every line of the index of a file that is not compressed is the position of the record whose fields the line shows, and for a WARC record warcio extract at this offset prints this record: headers and block, for an HTTP message headers, HTTP headers and what is behind them.", "quantifier": "every file that is not compressed, every position, every pattern of short reads, every list of fields with the offset", "why_tests_cant": "arbitrary bytes; two independent readings of the same file", "anchors": ["warcio/extractor.py: Extractor.extract", "warcio/indexer.py: Indexer.process_one, get_field", "warcio/recordloader.py: ArcWarcRecordLoader.parse_record_stream, _detect_type_load_headers", "warcio/cli.py: extractor"]}
{"id": "C91", "title": "Recompressing any uncompressed file", "statement": "Whatever bytes a file that is not compressed holds, warcio recompress writes one gzip member for each of the records into which it is cut, in order, and nothing else: the version line, the headers other than Content-Length, Content-Type and digests, and the block, with HTTP headers written again in their usual form. Digests that are there are kept, digests that are missing are added, those of what is written. A record that is no HTTP message keeps its declared length, also if the file ends before the end of its block. It ends at the end of the file, with the exception of the loader at a place where there is no record, or at HTTP headers that cannot be encoded; the records before are in the output. Errors Found and Fixed is never reported for such a file if reads are not short.", "quantifier": "every file that is not compressed, every pattern of short reads, with and without compression of the output", "why_tests_cant": "arbitrary bytes, including files that are no archives; unbounded files", "anchors": ["warcio/recompressor.py: Recompressor.recompress, load_and_write, decompress_and_recompress", "warcio/warcwriter.py: BaseWARCWriter._write_warc_record", "warcio/archiveiterator.py: ArchiveIterator._iterate_records", "warcio/recordloader.py: ArcWarcRecordLoader.parse_record_stream", "warcio/recordbuilder.py: RecordBuilder.ensure_digest"]}
{"id": "C92", "title": "Timestamps and ISO dates sort as the dates do", "statement": "Of two dates, the timestamp of 14 digits and the ISO date of one is before that of the other, in the order of texts, exactly if it is an earlier second; the timestamps of 20 digits and the ISO dates with microseconds, which are the dates of WARC/1.1 records, exactly if it is an earlier moment. Timestamps of the clock have 14 and 20 digits.", "quantifier": "all dates", "why_tests_cant": "all pairs of dates; a clock shows few of them, and a whole second only once in a million", "anchors": ["warcio/timeutils.py: datetime_to_timestamp, datetime_to_iso_date, timestamp_now, timestamp20_now"]}
{"id": "C93", "title": "Checking any uncompressed file", "statement": "Whatever bytes a file that is not compressed holds, warcio check judges each of the records into which it is cut, by the digest headers of the record, its block and what is behind its HTTP headers, whatever content and transfer codings the record declares and whatever stands before it. If all of the declared block is there, data that differ from a digest header are a failure, and digests that agree are a pass; a record that declares no length is never judged, and of one that is cut off only digests of unknown kinds are noticed. Failures are listed and set the exit value; the other records are listed with --verbose. The check ends at the end of the file, with the exception of the loader, or with an exception at a record whose digest headers cannot be compared with data.", "quantifier": "every file that is not compressed, every pattern of short reads, with and without --verbose", "why_tests_cant": "arbitrary bytes, including files that are no archives and payloads that are not what they are declared to be; unbounded files", "anchors": ["warcio/checker.py: Checker.process_one", "warcio/digestverifyingreader.py: DigestVerifyingReader, DigestChecker", "warcio/archiveiterator.py: ArchiveIterator._iterate_records, get_record_offset", "warcio/recordloader.py: ArcWarcRecordLoader.parse_record_stream, ArcWarcRecord.content_stream", "warcio/bufferedreaders.py: ChunkedDataReader"]}
{"id": "C94", "title": "Uncompressed files put one behind the other", "statement": "If one uncompressed file consists of whole records, each with its declared length and with a line behind it, and the first line of another file is not blank, then iterating over, indexing, checking and recompressing the two put one behind the other does what it does for the first alone and then what it does for the second, with offsets that count from the beginning of the first. The records of the second file are not changed by what stands before, nor those of the first by what follows, whatever the second file holds. Recompressing stops in the first file only at HTTP headers that cannot be encoded.", "quantifier": "every pair of such files, every list of operations on the records, all block sizes and patterns of short reads", "why_tests_cant": "all pairs of files; the buffers of the reader reach from one file into the other at every possible place", "anchors": ["warcio/archiveiterator.py: ArchiveIterator._iterate_records, _consume_blanklines, read_to_end", "warcio/indexer.py: Indexer.process_one", "warcio/checker.py: Checker.process_one", "warcio/recompressor.py: Recompressor.load_and_write", "warcio/recordloader.py: ArcWarcRecordLoader.parse_record_stream, _detect_type_load_headers", "warcio/statusandheaders.py: StatusAndHeadersParser.parse"]}
{"id": "C95", "title": "Checking and indexing any uncompressed files", "statement": "For any list of files that are not compressed, whatever they hold, warcio check says of each file what it says of it alone, in the order of the list. The exit value is 0 exactly if every file is read to its end and no record fails, and 1 if some record fails or some file is no archive or has something behind its records that is no record; such files are named, and the files behind them are checked all the same. Only a missing URI of an HTTP record and digests that cannot be decoded end the command early. warcio index writes the entries of the files one after the other, one JSON object on each line, and stops at the first file that cannot be read to its end, with the entries before it written.", "quantifier": "every list of uncompressed files, every list of fields, with and without --verbose", "why_tests_cant": "unbounded lists of files with arbitrary bytes", "anchors": ["warcio/checker.py: Checker.process_all, process_one", "warcio/indexer.py: Indexer.process_all, process_one", "warcio/archiveiterator.py: ArchiveIterator._iterate_records"]}
{"id": "C96", "title": "Any file of gzip members", "statement": "Whatever the members of a file that is a list of gzip members hold, and with whatever options it is iterated: as long as each member has a record at its beginning and nothing behind it but one line and blank lines, there is one record for each member, which depends on nothing in the other members, with as many bytes as it declares or as there are in the member, whatever the user reads of it; the offset and length reported are those of the member. The iteration ends behind the last member, with the exception of the loader in a member where there is no record, or with a digest that fails. If there is another record in the last member it ends with ArchiveLoadFailed behind the first one.", "quantifier": "every list of gzip members, every block size and pattern of short reads, every option, every sequence of reading operations", "why_tests_cant": "arbitrary bytes in the members, including members that are cut off in a record or are no archives; unbounded files", "anchors": ["warcio/archiveiterator.py: ArchiveIterator._iterate_records, _raise_invalid_gzip_err, _consume_blanklines, read_to_end, get_record_offset, get_record_length", "warcio/bufferedreaders.py: BufferedReader.read_next_member", "warcio/recordloader.py: ArcWarcRecordLoader.parse_record_stream"]}
{"id": "C97", "title": "Index and check of any file of gzip members", "statement": "Whatever the members of a file that is a list of gzip members hold: as long as each member has a record at its beginning and nothing behind it but one line and blank lines, warcio index prints one line for each member, with the position and the size of the member and the fields of the record, and warcio check judges each record by its digest headers, its block and what is behind its HTTP headers, and gives the position of the member. Both end at the end of the file, with the exception of the loader in a member where there is no record, or, behind the first record, with ArchiveLoadFailed if there is another record in the last member. For any list of files, each of them uncompressed or a list of members, outcome and output are put together from those of the files: a failure or a file that cannot be read sets the exit value of check, and the index stops at such a file.", "quantifier": "every list of files of arbitrary gzip members and of uncompressed files, every pattern of short reads, every list of fields, with and without --verbose", "why_tests_cant": "arbitrary bytes in the members; unbounded numbers of members and files", "anchors": ["warcio/indexer.py: Indexer.process_all, process_one, get_field", "warcio/checker.py: Checker.process_all, process_one", "warcio/archiveiterator.py: ArchiveIterator._iterate_records, read_to_end, get_record_offset, get_record_length", "warcio/bufferedreaders.py: BufferedReader.read_next_member"]}
{"id": "C98", "title": "Extracting and recompressing any file of gzip members", "statement": "Whatever the members of a file that is a list of gzip members hold: warcio extract at the start of a member prints the headers and the rest of the block of the first record of this member, whatever follows it, or fails with the exception of the loader. As long as each member but the last has a record at its beginning and nothing behind it but one line and blank lines, the first attempt of warcio recompress writes for each member one member that holds the same headers and the same block, up to the end of the file, the exception of the loader, HTTP headers that cannot be encoded, or a second record in the last member; 'No Errors Found!' means that all members were copied. A file that is a single member is recompressed as the data in it would be if they were not compressed, if the first attempt fails.", "quantifier": "every list of gzip members, every pattern of short reads, every setting of the writer", "why_tests_cant": "arbitrary bytes in the members; unbounded numbers of members", "anchors": ["warcio/extractor.py: Extractor.extract", "warcio/recompressor.py: Recompressor.recompress, load_and_write, decompress_and_recompress", "warcio/archiveiterator.py: ArchiveIterator._iterate_records, read_to_end", "warcio/bufferedreaders.py: BufferedReader.read_next_member", "warcio/warcwriter.py: BaseWARCWriter._write_warc_record"]}
{"id": "C99", "title": "The commands on any files", "statement": "For files of any contents, each of them bytes that do not look like gzip or a list of gzip members, in any file system. warcio check changes no file; it exits with 0 only if every file is read to its end and no record fails, with 1 only if some record fails or some file is no archive or has something behind its records that is no record (or a second record in its last member), and else ends with another exception raised by one of the files. warcio index leaves one JSON object on each line in the output or prints them, also those before an exception. warcio recompress to another file leaves its input as it is; for an uncompressed input it exits with 1 exactly if there is something that cannot be copied, and else the output is one gzip member for each record; for an input that is one member it reports fixed errors where all of what the member holds can be copied but not as one record. warcio extract at a place prints what the record there is made of, or ends with the exception of the loader.", "quantifier": "all file systems, all lists of such files, all arguments", "why_tests_cant": "arbitrary contents of all files, with all their combinations", "anchors": ["warcio/cli.py: main, indexer, checker, extractor, recompressor", "warcio/checker.py: Checker.process_all", "warcio/indexer.py: Indexer.process_all", "warcio/extractor.py: Extractor.extract", "warcio/recompressor.py: Recompressor.recompress", "warcio/utils.py: fsspec_open"]}
{"id": "C100", "title": "Recompressing repairs files of gzip members as a whole", "statement": "When `recompress` finds an error in a file made of gzip members, whatever the members hold and however the records are spread over them (several in a member, or one going over into the next member), the second attempt reads the data of all members: the output then holds the copies of the records in all of the data, up to the first record that cannot be copied, and for proper records that is every record. This holds for any short reads, provided no run of consecutive members before the last one decompresses to a multiple of 65536 bytes; without the proviso the reading in blocks may stop behind such a run.", "quantifier": "for all lists of gzip members, all data in them, all short reads of the file, all builder settings", "why_tests_cant": "Whether the last member is reached depends on how block ends, member ends and reads of 65536 bytes fall together; tests recompress a few small files", "anchors": ["warcio/recompressor.py:71-81", "warcio/bufferedreaders.py:97-120", "warcio/bufferedreaders.py:152-171", "warcio/bufferedreaders.py:210-228"]}
{"id": "C101", "title": "Identifiers of converted ARC records", "statement": "When a file is read with arc2warc, each record that is made from an ARC record gets the identifier that is handed out for it, in the order of the records in the file; so if no identifier is handed out twice, no two such records have the same one. A WARC record in the file keeps its own. warcio recompress writes the records with these identifiers.", "quantifier": "every file that is not compressed, whatever it holds, every pattern of short reads, every use of the records, every sequence of identifiers", "why_tests_cant": "Tests convert a file with a few records and mask the identifiers, since they are random.", "anchors": ["warcio/recordloader.py:212-243", "warcio/recordloader.py:351-373", "warcio/statusandheaders.py:322-326", "warcio/recompressor.py:56-69"]}
{"id": "C102", "title": "What recompress writes depends on the records alone", "statement": "For records in the form in which warcio writes them, recompress writes one gzip member for each record, with the bytes of the record and nothing else, whatever the file was compressed with and however the records were grouped into members. So two files with the same records become the same file, byte by byte, files can be put together before they are recompressed or after it, a file that warcio has written with compression is left as it is, and records that are written without compression and recompressed later give the file that writing them with compression gives. The same holds for warcio recompress at the command line.", "quantifier": "every file of records in normal form, not compressed, with one record per member, in one member, or grouped in any other way with at least one record per member; every compressor whose result depends on the data alone", "why_tests_cant": "unbounded archives and all groupings; tests compare a few files, and not their bytes", "anchors": ["warcio/recompressor.py: Recompressor.recompress, load_and_write, decompress_and_recompress", "warcio/warcwriter.py: BaseWARCWriter._write_warc_record, GzippingWrapper", "warcio/archiveiterator.py: ArchiveIterator", "warcio/cli.py: recompressor"]}
{"id": "C103", "title": "An exception ends the iteration", "statement": "Once next() on an ArchiveIterator has raised an exception, StopIteration or another one, each later call raises StopIteration and does nothing else: nothing more is read and no other record is set. So a loop that catches the exception for a broken record does not go on behind it.", "quantifier": "every iterator in any state, over any stream, every exception, any number of later calls", "why_tests_cant": "all states of the iterator and all exceptions of the loader; tests stop at the exception", "anchors": ["warcio/archiveiterator.py:93-94", "warcio/archiveiterator.py:104-140"]}

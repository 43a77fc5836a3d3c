{
 "claims": [
  {
   "property": "C01",
   "status": "partial",
   "theorems": [
    "Warcio.Props.C01_limit_any_stream_partial",
    "Warcio.Props.C01_limit_partial",
    "Warcio.Props.C01_limited_read_exact",
    "Warcio.Props.C01_negative_length_exceeds_limit"
   ],
   "note": "negative length arguments excluded; with them the claim is false (witness proved)"
  },
  {
   "property": "C02",
   "status": "partial",
   "theorems": [
    "Warcio.Props.C02_buffered_partial",
    "Warcio.Props.C02_short_lines",
    "Warcio.Props.C02_readline_length_short",
    "Warcio.Props.C02_readline_length_wrong"
   ],
   "note": "readline(n) is exact only for lines within a block and full reads; otherwise false (witness proved)"
  },
  {
   "property": "C03",
   "status": "partial",
   "theorems": [
    "Warcio.Props.C03_members_partial",
    "Warcio.Props.C03_steady",
    "Warcio.Props.C03_small_members",
    "Warcio.Props.C03_boundary"
   ],
   "note": "readline(n) only for full reads and lines within m bytes in members that are decompressed steadily: once begun, a block gives nothing or at least m bytes (Steady; C03_steady); true of any member that fits a block (C03_small_members)"
  },
  {
   "property": "C04",
   "status": "partial",
   "theorems": [
    "Warcio.Props.C04_passthrough_partial",
    "Warcio.Props.C04_passthrough_short_lines",
    "Warcio.Props.C04_one_byte_lost",
    "Warcio.Props.C04_first_byte_lost"
   ],
   "note": "false when the first raw read delivers a single byte (proved)"
  },
  {
   "property": "C05",
   "status": "partial",
   "theorems": [
    "Warcio.Props.C05_all_members_partial",
    "Warcio.Props.C05_one_block",
    "Warcio.Props.C05_stops_early",
    "Warcio.Props.C05_stops_early_nonempty"
   ],
   "note": "read_all_members stops early at a member that ends with its block or is empty (proved false in general); exact when the members sit in one block, and what is returned is always a prefix"
  },
  {
   "property": "C06",
   "status": "partial",
   "theorems": [
    "Warcio.Props.C06_dechunk_partial",
    "Warcio.Props.C06_bytesio",
    "Warcio.Props.C06_long_extension",
    "Warcio.Props.C06_trailer"
   ],
   "note": "size lines up to 62 bytes, no trailers (both proved to fail otherwise), readline(n) left out"
  },
  {
   "property": "C07",
   "status": "partial",
   "theorems": [
    "Warcio.Props.C07_total_partial",
    "Warcio.Props.C07_not_chunked",
    "Warcio.Props.C07_cut_in_data",
    "Warcio.Props.C07_cut_in_size",
    "Warcio.Props.C07_cut_in_terminator",
    "Warcio.Props.C07_cut_in_last",
    "Warcio.Props.C07_bytes_lost",
    "Warcio.Props.C07_negative_size"
   ],
   "note": "total and bounded for all data; unchunked data unchanged; each way of being cut described; the claim that no bytes are lost or added is false (witness proved)"
  },
  {
   "property": "C08",
   "status": "proved",
   "theorems": [
    "Warcio.Props.C08_accepts_only_chunked",
    "Warcio.Props.C08_cut_raises"
   ],
   "note": ""
  },
  {
   "property": "C09",
   "status": "partial",
   "theorems": [
    "Warcio.Props.C09_map_partial",
    "Warcio.Props.C09_others",
    "Warcio.Props.C09_add",
    "Warcio.Props.C09_duplicates",
    "Warcio.Props.C09_contains_empty"
   ],
   "note": "holds for names that occur at most once; with duplicates set-then-get and delete fail (proved), other lookups are never affected"
  },
  {
   "property": "C10",
   "status": "proved",
   "theorems": [
    "Warcio.Props.C10_replace",
    "Warcio.Props.C10_remove"
   ],
   "note": ""
  },
  {
   "property": "C11",
   "status": "proved",
   "theorems": [
    "Warcio.Props.C11_roundtrip",
    "Warcio.Props.C11_buffered"
   ],
   "note": "any stream whose readline is exact; corollary for BufferedReader of any block size over any schedule of short reads"
  },
  {
   "property": "C12",
   "status": "partial",
   "theorems": [
    "Warcio.Props.C12_stable_partial",
    "Warcio.Props.C12_stable_after_two",
    "Warcio.Props.C12_unstable",
    "Warcio.Props.C12_unstable_status"
   ],
   "note": "false for an empty value followed by a continuation line, and for a first line starting with a space with verify=False (both proved); stable from the second round trip on for all inputs"
  },
  {
   "property": "C13",
   "status": "proved",
   "theorems": [
    "Warcio.Props.C13_total",
    "Warcio.Props.C13_verify"
   ],
   "note": ""
  },
  {
   "property": "C14",
   "status": "proved",
   "theorems": [
    "Warcio.Props.C14_consumes_block",
    "Warcio.Props.C14_refused"
   ],
   "note": ""
  },
  {
   "property": "C15",
   "status": "partial",
   "theorems": [
    "Warcio.Props.C15_ascii_partial",
    "Warcio.Props.C15_ascii_unchanged",
    "Warcio.Props.C15_raises"
   ],
   "note": "raises for non-ASCII text outside name=value parts of a value with a semicolon (proved); proved for all other values"
  },
  {
   "property": "C16",
   "status": "proved",
   "theorems": [
    "Warcio.Props.C16_percent_roundtrip",
    "Warcio.Props.C16_written"
   ],
   "note": ""
  },
  {
   "property": "C17",
   "status": "partial",
   "theorems": [
    "Warcio.Props.C17_range_partial",
    "Warcio.Props.C17_duplicate"
   ],
   "note": "values of the three headers are proved for names that occur at most once; with a duplicate the lookup still returns the old value (proved)"
  },
  {
   "property": "C18",
   "status": "proved",
   "theorems": [
    "Warcio.Props.C18_validate",
    "Warcio.Props.C18_ordinary",
    "Warcio.Props.C18_twice"
   ],
   "note": ""
  },
  {
   "property": "C19",
   "status": "partial",
   "theorems": [
    "Warcio.Props.C19_encodings_partial",
    "Warcio.Props.C19_md5_hex"
   ],
   "note": "Proved for base32 (any length), base16 in either case from 17 bytes, base64 and URL-safe base64 from 11 bytes, for every hash function. Missing: shorter digests; for 16 bytes (MD5) hexadecimal is proved never to verify."
  },
  {
   "property": "C20",
   "status": "proved",
   "theorems": [
    "Warcio.Props.C20_different_rejected",
    "Warcio.Props.C20_accepted_only"
   ],
   "note": "Any other digest of the same length is rejected in every encoding; also an exact characterisation of the accepted texts."
  },
  {
   "property": "C21",
   "status": "partial",
   "theorems": [
    "Warcio.Props.C21_verdict_partial",
    "Warcio.Props.C21_unfinished",
    "Warcio.Props.C21_empty_block",
    "Warcio.Props.C21_malformed"
   ],
   "note": "Exact verdict for every block of positive length, split point, history and pair of digest headers. Missing: empty blocks (proved false: the block digest is never checked), malformed headers (proved to raise binascii.Error), negative read lengths."
  },
  {
   "property": "C22",
   "status": "partial",
   "theorems": [
    "Warcio.Props.C22_same_bytes_partial",
    "Warcio.Props.C22_malformed"
   ],
   "note": "Lockstep with the plain reader over any stream, any arguments, for True and 'log'. Missing: malformed digest headers, where the last call is proved to raise."
  },
  {
   "property": "C23",
   "status": "proved",
   "theorems": [
    "Warcio.Props.C23_pass_needs_all",
    "Warcio.Props.C23_truncated"
   ],
   "note": "For every kind of check, any headers and any mixture of calls and begin_payload, over any stream that hands out leading bytes of its data; read lengths None or non-negative."
  },
  {
   "property": "C24",
   "status": "proved",
   "theorems": [
    "Warcio.Props.C24_revisit",
    "Warcio.Props.C24_segment",
    "Warcio.Props.C24_segment_verdict"
   ],
   "note": "Revisit: checker untouched for all operations. Segment: reader equal to the one made without payload digest."
  },
  {
   "property": "C25",
   "status": "partial",
   "theorems": [
    "Warcio.Props.C25_raises_partial",
    "Warcio.Props.C25_no_raise"
   ],
   "note": "Raises on mismatch for blocks of positive length and well-formed headers; never raises when the digests match. Missing: as for C21."
  },
  {
   "property": "C26",
   "status": "proved",
   "theorems": [
    "Warcio.Props.C26_block",
    "Warcio.Props.C26_lines"
   ],
   "note": "For every WARC header block and following data over any stream with exact reads; every history of reads, and readline as consecutive parts. Digest checking off or giving verdicts."
  },
  {
   "property": "C27",
   "status": "partial",
   "theorems": [
    "Warcio.Props.C27_split_partial",
    "Warcio.Props.C27_others",
    "Warcio.Props.C27_header_block",
    "Warcio.Props.C27_empty_headers",
    "Warcio.Props.C27_no_uri"
   ],
   "note": "Complete blocks with non-empty parsed headers; other records fully. Missing: payload_length for empty parsed headers, where it is false (C27_empty_headers); records without URI raise (C27_no_uri)."
  },
  {
   "property": "C28",
   "status": "partial",
   "theorems": [
    "Warcio.Props.C28_clean_partial",
    "Warcio.Props.C28_again",
    "Warcio.Props.C28_duplicate"
   ],
   "note": "At most one WARC-Target-URI. Missing: duplicates, for which it is false (C28_duplicate)."
  },
  {
   "property": "C29",
   "status": "partial",
   "theorems": [
    "Warcio.Props.C29_detect_partial",
    "Warcio.Props.C29_blank_line"
   ],
   "note": "Every input and known format except blank first lines, for which it is false (C29_blank_line)."
  },
  {
   "property": "C30",
   "status": "proved",
   "theorems": [
    "Warcio.Props.C30_fields",
    "Warcio.Props.C30_encoded"
   ],
   "note": "Every URI and space-free fields (the length not ending in whitespace)."
  },
  {
   "property": "C31",
   "status": "partial",
   "theorems": [
    "Warcio.Props.C31_convert_partial",
    "Warcio.Props.C31_spaces"
   ],
   "note": "Every ARC line and content; the URI up to the clean-up of C28. Missing: identity of URIs with spaces or brackets, which is false (C31_spaces)."
  },
  {
   "property": "C32",
   "status": "proved",
   "theorems": [
    "Warcio.Props.C32_records"
   ],
   "note": "Every list of well-formed records (Verif/Spec/Archive.lean: Good), every block, every plan of user operations, seekable or not. Blocks of at least 2 bytes and a first short read of at least 2 bytes, because of C04. HTTP headers are the parsed ones if their lines are read whole (C36)."
  },
  {
   "property": "C33",
   "status": "proved",
   "theorems": [
    "Warcio.Props.C33_positions",
    "Warcio.Props.C33_seek",
    "Warcio.Props.C33_gzip_positions",
    "Warcio.Props.C33_gzip_seek"
   ],
   "note": "Uncompressed and gzip; offsets and sizes at any point of any plan, and iterating again from the offset. Same reads as C32."
  },
  {
   "property": "C34",
   "status": "proved",
   "theorems": [
    "Warcio.Props.C34_records",
    "Warcio.Props.C34_same"
   ],
   "note": "Every non-empty list of members, any lawful codec; C34_same compares with the uncompressed file step by step (records whose content is settled by the file: tidy URI, HTTP head within the line bound)."
  },
  {
   "property": "C35",
   "status": "proved",
   "theorems": [
    "Warcio.Props.C35_independent",
    "Warcio.Props.C35_gzip_independent"
   ],
   "note": "Any two plans on uncompressed and gzip files: the same records at each step, and the same results where the operations are the same (readline excluded from the second part: where a line is cut depends on the buffers, C02)."
  },
  {
   "property": "C36",
   "status": "partial",
   "theorems": [
    "Warcio.Props.C36_blocks_partial",
    "Warcio.Props.C36_gzip_blocks_partial",
    "Warcio.Props.C36_small_blocks",
    "Warcio.Props.C36_short_reads"
   ],
   "note": "Same steps for any block sizes and short reads if HTTP headers are not parsed, or if no short reads occur and blocks hold the HTTP header lines (gzip: the members are decompressed steadily, Steady in Verif/Spec/Codec.lean). Missing part is false: C36_small_blocks, C36_short_reads."
  },
  {
   "property": "C37",
   "status": "partial",
   "theorems": [
    "Warcio.Props.C37_groups_partial",
    "Warcio.Props.C37_reported_partial",
    "Warcio.Props.C37_not_reported"
   ],
   "note": "C37_reported_partial: a file that is one member with two or more records, any use of the first record. C37_groups_partial: members with any numbers of records, at least one each and not one each, while the user reads from the records or leaves them: some of the records are yielded as they are, not all of them, and then the exception is raised. The claim itself is false there: the second record of a member may still be yielded (C37_not_reported)."
  },
  {
   "property": "C38",
   "status": "proved",
   "theorems": [
    "Warcio.Props.C38_terminates"
   ],
   "note": "Any file content, options, block size, short reads and use of the records. Assumes of zlib (TameZlib) that decompressors expand by at most a constant factor and leave data unused only after using some."
  },
  {
   "property": "C39",
   "status": "proved",
   "theorems": [
    "Warcio.Props.C39_cut",
    "Warcio.Props.C39_gzip_cut"
   ],
   "note": "Cut anywhere inside of the next record (uncompressed), or anything behind the complete members (gzip)."
  },
  {
   "property": "C40",
   "status": "partial",
   "theorems": [
    "Warcio.Props.C40_length_partial",
    "Warcio.Props.C40_wrong_length",
    "Warcio.Props.C40_blank_line",
    "Warcio.Props.C40_position",
    "Warcio.Props.C40_revisit"
   ],
   "note": "For every record type, HTTP headers that can be encoded and payload file (any position, seekable or not, any short reads) whose length is unknown or true. Missing: wrong lengths, for which it is false (C40_wrong_length); create_warc_record itself makes wrong lengths (C40_blank_line, C40_position), and so do revisits with a block but no HTTP headers (C40_revisit)."
  },
  {
   "property": "C41",
   "status": "partial",
   "theorems": [
    "Warcio.Props.C41_digests_partial",
    "Warcio.Props.C41_verifies",
    "Warcio.Props.C41_revisit"
   ],
   "note": "Records of known length that are no revisits; unknown lengths are in C42. False for revisits that have a payload (C41_revisit)."
  },
  {
   "property": "C42",
   "status": "partial",
   "theorems": [
    "Warcio.Props.C42_unknown_partial",
    "Warcio.Props.C42_duplicate"
   ],
   "note": "All records of unknown length that are no revisits and have no digest header twice; with two, a stale one is kept (C42_duplicate)."
  },
  {
   "property": "C43",
   "status": "partial",
   "theorems": [
    "Warcio.Props.C43_plain",
    "Warcio.Props.C43_gzip",
    "Warcio.Props.C43_response",
    "Warcio.Props.C43_line_break",
    "Warcio.Props.C43_brackets",
    "Warcio.Props.C43_two_lengths"
   ],
   "note": "C43_plain and C43_gzip: for every list of writable, regular records written one after the other, reading the file (any block size >= 2, short reads as in C32/C34, any plan of user operations) yields exactly these records in order: same type, version, headers (up to the lengths and digests that writing sets), HTTP headers and payload, with offsets and lengths of the bytes written. C43_response: the user's view for one response. Reading without check_digests and verify_http; HTTP header lines must fit in a block. Fails, and negations with witnesses are proved, for header values with line breaks (C43_line_break), URIs in angle brackets (C43_brackets), and two Content-Length headers (C43_two_lengths)."
  },
  {
   "property": "C44",
   "status": "partial",
   "theorems": [
    "Warcio.Props.C44_rewrite_partial",
    "Warcio.Props.C44_identity",
    "Warcio.Props.C44_identity_gzip",
    "Warcio.Props.C44_rewrite_gzip_partial",
    "Warcio.Props.C44_verifies",
    "Warcio.Props.C44_twice",
    "Warcio.Props.C44_blank_line",
    "Warcio.Props.C44_stale_digest"
   ],
   "note": "Proved for lists of records of any length whose headers and HTTP headers are in the form in which the writer puts them (Rewritable): plain and per-record gzip input; the output holds the records in order with the same version, headers and blocks, up to the form of the length and added digests; records in normal form come out byte by byte the same (C44_identity), rewriting is idempotent (C44_twice), kept digests cover the same block and added ones verify (C44_verifies). False for HTTP blocks that start with a blank line (C44_blank_line: length too large) and for HTTP headers that are not in normal form (C44_stale_digest: the block changes, its digest does not)."
  },
  {
   "property": "C45",
   "status": "proved",
   "theorems": [
    "Warcio.Props.C45_member",
    "Warcio.Props.C45_file"
   ],
   "note": "For every record and every list of records, assuming of zlib only that the output of compress calls and flush is one member that holds the input (LawfulDeflater)."
  },
  {
   "property": "C46",
   "status": "partial",
   "theorems": [
    "Warcio.Props.C46_stored_partial",
    "Warcio.Props.C46_pair_partial",
    "Warcio.Props.C46_missing"
   ],
   "note": "If the response has a URI and a date and the request has no two of them; plain or compressed (C46_stored_partial). Without URI or date the request is not written (C46_missing)."
  },
  {
   "property": "C47",
   "status": "partial",
   "theorems": [
    "Warcio.Props.C47_headers_partial",
    "Warcio.Props.C47_no_digest",
    "Warcio.Props.C47_written",
    "Warcio.Props.C47_duplicate"
   ],
   "note": "Every URI, digest, HTTP headers and dictionary; the headers, the bytes written and the block digest. Missing: dictionaries with two types or URIs, an empty id or date (false, see C48) or an own payload digest (the given one is then the second, C47_duplicate)."
  },
  {
   "property": "C48",
   "status": "partial",
   "theorems": [
    "Warcio.Props.C48_headers_partial",
    "Warcio.Props.C48_given",
    "Warcio.Props.C48_content_type",
    "Warcio.Props.C48_duplicate",
    "Warcio.Props.C48_empty_id"
   ],
   "note": "Every dictionary with at most one type and URI (case-insensitive) and no empty id or date; headers given as an object; content types. Missing: the other dictionaries, for which it is false (C48_duplicate, C48_empty_id)."
  },
  {
   "property": "C49",
   "status": "partial",
   "theorems": [
    "Warcio.Props.C49_twice_partial",
    "Warcio.Props.C49_payload",
    "Warcio.Props.C49_empty_digest"
   ],
   "note": "False of the code: the payload is written only the first time (C49_payload). Proved for records without payload whose digest headers are not empty."
  },
  {
   "property": "C50",
   "status": "proved",
   "theorems": [
    "Warcio.Props.C50_record",
    "Warcio.Props.C50_written"
   ],
   "note": "Every dictionary of texts; values that are not text (byte strings, numbers) are not modelled."
  },
  {
   "property": "C51",
   "status": "proved",
   "theorems": [
    "Warcio.C51_total",
    "Warcio.C51_clamps"
   ],
   "note": "For all strings; clamping stated for 14 digits followed by anything."
  },
  {
   "property": "C52",
   "status": "proved",
   "theorems": [
    "Warcio.C52_timestamp",
    "Warcio.C52_iso"
   ],
   "note": "For every date of 1900-2999."
  },
  {
   "property": "C53",
   "status": "partial",
   "theorems": [
    "Warcio.C53_roundtrip_partial",
    "Warcio.C53_seconds",
    "Warcio.C53_aware"
   ],
   "note": "Naive dates with and without microseconds, aware dates without. Missing: aware dates with microseconds, for which it is false (C53_aware: TypeError always)."
  },
  {
   "property": "C54",
   "status": "proved",
   "theorems": [
    "Warcio.C54_end_of_period"
   ],
   "note": "For every prefix of 4, 6, ..., 14 digits of a timestamp of 1900-2999."
  },
  {
   "property": "C55",
   "status": "proved",
   "theorems": [
    "Warcio.C55_inverse",
    "Warcio.C55_counts",
    "Warcio.C55_increasing"
   ],
   "note": "Inverse, epoch, successor and monotony for every date of 1900-2999."
  },
  {
   "property": "C56",
   "status": "partial",
   "theorems": [
    "Warcio.C56_roundtrip_partial",
    "Warcio.C56_early_years"
   ],
   "note": "Years 100-9999. Missing: years 1-99, for which it is false (C56_early_years)."
  },
  {
   "property": "C57",
   "status": "partial",
   "theorems": [
    "Warcio.Props.C57_exit",
    "Warcio.Props.C57_order",
    "Warcio.Props.C57_check_partial",
    "Warcio.Props.C57_crash"
   ],
   "note": "The exit value: for any inputs for which nothing but ArchiveLoadFailed escapes (C57_exit), in any order (C57_order). Exit value and output from the records: archives, plain or with one record per member, with any verdicts, members with several records, files, compressed or not, that end within their last record (see C74), plain files with stray lines behind blocks and garbage at the end, ARC files, and files that are no archive (C57_check_partial). For whatever uncompressed files and gzip members hold: C95_check and C97_files_check. Missing there: gzip data that is broken. False for digests that cannot be decoded (C57_crash)."
  },
  {
   "property": "C58",
   "status": "partial",
   "theorems": [
    "Warcio.Props.C58_entries",
    "Warcio.Props.C58_member",
    "Warcio.Props.C58_index_partial",
    "Warcio.Props.C58_fields",
    "Warcio.Props.C58_two_uris"
   ],
   "note": "Any number of files, plain or with one record per member, any fields, URIs with brackets or spaces; lines are read back with a JSON reader of the specification. A member with several records: a line for the first and then the error (C58_member). With verify_http, and for whatever the files hold: C95_index and C97_files_index. Missing: the length of a record in a member with several; HTTP lines within the block size as in C32. False for records with two URIs (C58_two_uris: the one that is printed is not the cleaned one)."
  },
  {
   "property": "C59",
   "status": "partial",
   "theorems": [
    "Warcio.Props.C59_plain_partial",
    "Warcio.Props.C59_gzip_partial",
    "Warcio.Props.C59_one_member_partial",
    "Warcio.Props.C59_verbatim",
    "Warcio.Props.C59_rewrites_headers"
   ],
   "note": "Proved for plain files, for records that are gzip members, and for the first record of a member with several, with any bytes before; all parts that can be asked for, payloads with any codings of C64. Headers: for regular ones. False otherwise (C59_rewrites_headers: printed as parsed)."
  },
  {
   "property": "C60",
   "status": "partial",
   "theorems": [
    "Warcio.Props.C60_first",
    "Warcio.Props.C60_groups_partial",
    "Warcio.Props.C60_plain",
    "Warcio.Props.C60_gzip",
    "Warcio.Props.C60_one_member_partial",
    "Warcio.Props.C60_lost",
    "Warcio.Props.C60_lost_silently"
   ],
   "note": "Proved for plain files (C60_plain), for one record per member (C60_gzip), for one member with several records (C60_one_member_partial), and for any grouping of whole records into members with at least one each (C60_groups_partial: NoRun, no run of members that holds a multiple of 65536 bytes, see C100_run); C60_first is the first attempt. For a file that is one member with any data see C98_one, for records that are spread over several members see C100_records. False for files with empty members (C60_lost: 3 of 4 records, reported as fixed; C60_lost_silently: 2 of 4 records, reported without errors)."
  },
  {
   "property": "C61",
   "status": "partial",
   "theorems": [
    "Warcio.Props.C61_url",
    "Warcio.Props.C61_tunnel",
    "Warcio.Props.C61_stays",
    "Warcio.Props.C61_ipv6",
    "Warcio.Props.C61_pieces"
   ],
   "note": "Proved for direct requests over any history without a tunnel, and for requests behind a tunnel to a named host (C61_tunnel). False for direct requests after a tunnel (C61_stays), for IPv6 hosts (C61_ipv6) and if the request line is sent in pieces (C61_pieces). The default port is what the connection says."
  },
  {
   "property": "C62",
   "status": "partial",
   "theorems": [
    "Warcio.Props.C62_exchange_partial",
    "Warcio.Props.C62_rejected",
    "Warcio.Props.C62_only_close",
    "Warcio.Props.C62_address",
    "Warcio.Props.C62_readinto",
    "Warcio.Props.C62_shared",
    "Warcio.Props.C62_lazy_tunnel",
    "Warcio.Props.C62_stale_address",
    "Warcio.Props.C62_unknown_verb"
   ],
   "note": "Proved over any history, for bytes sent and received in any pieces: closing adds exactly the two records, plain or compressed; nothing else writes, and nothing is written if the filter rejects. The bytes must be HTTP messages in the form the library writes them, and readinto must fill its buffer. False otherwise: C62_readinto, C62_shared (overlapping exchanges), C62_lazy_tunnel, C62_unknown_verb, C62_stale_address."
  },
  {
   "property": "C63",
   "status": "partial",
   "theorems": [
    "Warcio.C63_http_zone_ignored",
    "Warcio.C63_http_offset_ignored",
    "Warcio.C63_iso_offset_misread"
   ],
   "note": "False of the code: the zone of an HTTP date is always ignored (proved for every date and zone word), ISO offsets are read as fractions of a second. The part that holds (GMT) is C56_roundtrip_partial."
  },
  {
   "property": "C64",
   "status": "partial",
   "theorems": [
    "Warcio.Props.C64_plain_partial",
    "Warcio.Props.C64_gzip_partial",
    "Warcio.Props.C64_same",
    "Warcio.Props.C64_capital",
    "Warcio.Props.C64_two_members"
   ],
   "note": "Proved for plain files and files with one record per member, any plan before and any calls; chunked and any available coding, under the laws of a decompressor; payloads that are missing, as in revisits and answers to HEAD requests. HTTP headers with lines within the block size, as C32. Incomplete or invalid payloads: not stated. False for transfer codings in capitals (C64_capital) and for payloads of several gzip members (C64_two_members)."
  },
  {
   "property": "C65",
   "status": "proved",
   "theorems": [
    "Warcio.Props.C65_verdicts"
   ],
   "note": "For digest headers that are absent, unusable or texts of digests. As the code has it, a digest of an empty block is not compared, unless its algorithm is unknown (BlockOutcome, see C21_empty_block). HTTP headers with lines within the block size, as C32."
  },
  {
   "property": "C66",
   "status": "partial",
   "theorems": [
    "Warcio.Props.C66_message_partial",
    "Warcio.Props.C66_data",
    "Warcio.Props.C66_position",
    "Warcio.Props.C66_unknown_verb",
    "Warcio.Props.C66_reformatted"
   ],
   "note": "Proved for everything that is no HTTP record (C66_data), and for HTTP messages in normal form with known verbs or versions, in ASCII. False if a length is given and the stream is not at its start (C66_position), for other verbs (C66_unknown_verb) and for headers in another form (C66_reformatted)."
  },
  {
   "property": "C67",
   "status": "proved",
   "theorems": [
    "Warcio.Props.C67_warnings",
    "Warcio.Props.C67_gzip_offsets"
   ],
   "note": "Uncompressed files (the statement). For gzip the offset in the warning is wrong and depends on the block size (C67_gzip_offsets)."
  },
  {
   "property": "C68",
   "status": "proved",
   "theorems": [
    "Warcio.Props.C68_garbage",
    "Warcio.Props.C68_unknown"
   ],
   "note": "Without arc2warc; WARC archives. Stray lines as in C67 are allowed before the garbage. A file with nothing but garbage: C68_unknown."
  },
  {
   "property": "C69",
   "status": "partial",
   "theorems": [
    "Warcio.Props.C69_records_partial",
    "Warcio.Props.C69_gzip_records_partial",
    "Warcio.Props.C69_utf8_lines"
   ],
   "note": "Proved for files whose describing record has ASCII lines behind its first line; for UTF-8 lines the claim is false (C69_utf8_lines). verify_http=False (the default) and check_digests other than 'raise'. HTTP heads as in C32. With arc2warc the headers are given up to the clean-up of the URI (C28), and exactly if the URI is tidy; dates from 1900 to 2999."
  },
  {
   "property": "C70",
   "status": "partial",
   "theorems": [
    "Warcio.Props.C70_rewrite_partial",
    "Warcio.Props.C70_recompress_partial",
    "Warcio.Props.C70_rewrite_gzip_partial",
    "Warcio.Props.C70_recompress_gzip_partial"
   ],
   "note": "Proved for records that are well-formed (as in C69), whose fields can stand as header values, whose URI needs no cleaning, and whose HTTP headers are ASCII in the form in which they are written (as in C44; otherwise blocks change, C44_blank_line, C44_stale_digest). Dates from 1900 to 2999. The identifiers are those handed out; that no two records get the same one is C101. The two lines of the describing record are not in the WARC file."
  },
  {
   "property": "C71",
   "status": "partial",
   "theorems": [
    "Warcio.Props.C71_contents_partial",
    "Warcio.Props.C71_overwrites"
   ],
   "note": "Proved for any sequence of writes (also failing ones), get_contents, and get_stream with the stream read to its end, in any pieces, before something else is done. False if something is written before that: it is written over the first records (C71_overwrites)."
  },
  {
   "property": "C72",
   "status": "partial",
   "theorems": [
    "Warcio.Props.C72_traffic_partial",
    "Warcio.Props.C72_closed",
    "Warcio.Props.C72_nested",
    "Warcio.Props.C72_late"
   ],
   "note": "Proved for any number of threads, blocks and connections, if no connection is made in a block inside which another block has ended; there the claim is false (C72_nested). What is recorded is that of C61/C62 for the events of these connections. Two blocks are taken to have different files. Connections go on being recorded after the block is left; if the file was given by name such exchanges are lost (C72_late)."
  },
  {
   "property": "C73",
   "status": "partial",
   "theorems": [
    "Warcio.Props.C73_lookup_partial",
    "Warcio.Props.C73_slice_partial"
   ],
   "note": "Proved for archives, plain or with one record per member, read from their start, with the exceptions of C58 and C59 (headers that are not regular). That extracting does print something is C59."
  },
  {
   "property": "C74",
   "status": "partial",
   "theorems": [
    "Warcio.Props.C74_check_partial",
    "Warcio.Props.C74_check_dropped",
    "Warcio.Props.C74_check_gzip_partial",
    "Warcio.Props.C74_unnoticed",
    "Warcio.Props.C74_unnoticed_gzip",
    "Warcio.Props.C74_cut",
    "Warcio.Props.C74_dropped",
    "Warcio.Props.C74_cut_gzip",
    "Warcio.Props.C74_dropped_gzip",
    "Warcio.Props.C74_header_block"
   ],
   "note": "Iteration: proved for every end in a block or in the blank lines behind it (C74_cut), and before an HTTP block (C74_dropped); for a file of gzip members that ends in the last one by what comes out of it (C74_cut_gzip, C74_dropped_gzip). check: for contents that can be read to the end of what there is, so not for a body that is compressed or chunked and cut (C74_check_partial, C74_check_gzip_partial). False for an end in a header block, which makes a record with other headers (C74_header_block)."
  },
  {
   "property": "C75",
   "status": "partial",
   "theorems": [
    "Warcio.Props.C75_plain_partial",
    "Warcio.Props.C75_gzip_partial",
    "Warcio.Props.C75_resource",
    "Warcio.Props.C75_whole_message",
    "Warcio.Props.C75_stale"
   ],
   "note": "Proved for every list of records as in C43, plain and compressed, whose digests are left to the writer (none given, or length unknown; or revisits) or right (of any known algorithm, base32, base64 or hexadecimal) and whose payload is found by readers, with content and transfer codings as in C64 (C75_plain_partial, C75_gzip_partial). False for a record with HTTP headers that is not read as HTTP (C75_resource), for a whole HTTP message in a record without HTTP headers (C75_whole_message), and for wrong digests given by the caller (C75_stale)."
  },
  {
   "property": "C76",
   "status": "partial",
   "theorems": [
    "Warcio.Props.C76_partial",
    "Warcio.Props.C76_uri_in_dict",
    "Warcio.Props.C76_uri_space",
    "Warcio.Props.C76_not_ascii"
   ],
   "note": "Proved (C76_partial) for every list of new records other than revisits, plain and compressed, whose headers fit on a line, with a URI without spaces and brackets, HTTP headers in ASCII and as the library writes them, and no header twice that is set. False if the URI is given among the headers only: such a response fails the check (C76_uri_in_dict); for a URI with a space (C76_uri_space); for HTTP headers outside ASCII (C76_not_ascii)."
  },
  {
   "property": "C77",
   "status": "partial",
   "theorems": [
    "Warcio.Props.C77_partial"
   ],
   "note": "Proved (C77_partial) for every sequence of exchanges as in C62 (HTTP messages as the library writes them, full buffers of readinto, a filter that accepts everything), one after the other in a new file, plain and compressed, whose URLs and addresses fit in headers; the check for bodies that can be decoded. What fails for captures is listed for C61 and C62."
  },
  {
   "property": "C78",
   "status": "partial",
   "theorems": [
    "Warcio.Props.C78_index_partial",
    "Warcio.Props.C78_check_partial",
    "Warcio.Props.C78_extract_partial",
    "Warcio.Props.C78_extract_gzip_partial",
    "Warcio.Props.C78_not_verbatim",
    "Warcio.Props.C78_lookup_partial"
   ],
   "note": "All three tools, plain files and files with one record per member; the offset in the index is that of the record for extract (C78_lookup_partial). Missing: verify_http; HTTP lines within the block size as in C32 and, for what extract prints of HTTP headers, HTTP headers in the form in which they are written (as in C59). The converted records have identifiers that are handed out, in any order."
  },
  {
   "property": "C79",
   "status": "proved",
   "theorems": [
    "Warcio.Props.C79_recompress",
    "Warcio.Props.C79_index",
    "Warcio.Props.C79_lines",
    "Warcio.Props.C79_check",
    "Warcio.Props.C79_extract"
   ],
   "note": "All four tools, any list of files with any content and any pattern of short reads. Assumed of zlib: what comes out is bounded by a multiple of what goes in, and nothing is lost of what is not used (TameZlib)."
  },
  {
   "property": "C80",
   "status": "partial",
   "theorems": [
    "Warcio.Props.C80_report_partial",
    "Warcio.Props.C80_outcome",
    "Warcio.Props.C80_headless",
    "Warcio.Props.C80_unreadable"
   ],
   "note": "Any file, any pattern of short reads. Missing: the version line may be absent, which happens (C80_headless: a file that begins with an empty line, whose output cannot be read, C80_unreadable); and the declared length is some number, not always that of the block (as for a record that is cut off)."
  },
  {
   "property": "C81",
   "status": "proved",
   "theorems": [
    "Warcio.Props.C81_open",
    "Warcio.Props.C81_iterate",
    "Warcio.Props.C81_bare",
    "Warcio.Props.C81_index",
    "Warcio.Props.C81_check",
    "Warcio.Props.C81_extract",
    "Warcio.Props.C81_cause",
    "Warcio.Props.C81_raised",
    "Warcio.Props.C81_occurs"
   ],
   "note": "Any file, any options, any sequence of reading operations; index, check and extract on any files. Where AttributeError comes from is shown of the loader on any buffered stream (C81_cause). Assumed of zlib: as for C79, and that it is there. recompress catches everything and is in C79 and C80."
  },
  {
   "property": "C82",
   "status": "partial",
   "theorems": [
    "Warcio.Props.C82_frame",
    "Warcio.Props.C82_inputs_partial",
    "Warcio.Props.C82_same_file",
    "Warcio.Props.C82_recompress",
    "Warcio.Props.C82_overwrites",
    "Warcio.Props.C82_index_same",
    "Warcio.Props.C82_check",
    "Warcio.Props.C82_check_missing",
    "Warcio.Props.C82_index",
    "Warcio.Props.C82_stdin",
    "Warcio.Props.C82_verbose",
    "Warcio.Props.C82_verbose_fails"
   ],
   "note": "Every file system and command. False if the output is an input: `warcio recompress a a` empties the file, whatever it held, says that no errors were found, and exits with 0 (C82_same_file); index -o a a empties it as well (C82_index_same). -v makes recompress fail if its own output cannot be read (C82_verbose_fails). Missing: links and other ways for two names to be one file; argparse."
  },
  {
   "property": "C83",
   "status": "partial",
   "theorems": [
    "Warcio.Props.C83_plain_partial",
    "Warcio.Props.C83_gzip_partial",
    "Warcio.Props.C83_one_member_partial",
    "Warcio.Props.C83_cli_partial",
    "Warcio.Props.C83_spoilt",
    "Warcio.Props.C83_groups_partial"
   ],
   "note": "Plain files, one record per member, one member with several records, any other grouping with at least one record per member as C60_groups_partial (C83_groups_partial, what check says after recompress), and the command line (C83_cli_partial). Partial: records that are rewritten without loss (C44: HTTP headers in the form in which they are written, a URI that needs no cleaning), members that are decompressed steadily if there are HTTP headers (Steady). False for other HTTP headers: recompress changes them but keeps the block digest, so that check then fails (C83_spoilt)."
  },
  {
   "property": "C84",
   "status": "partial",
   "theorems": [
    "Warcio.Props.C84_twice_partial",
    "Warcio.Props.C84_fixed_point_partial",
    "Warcio.Props.C84_cli_partial",
    "Warcio.Props.C84_grows"
   ],
   "note": "Plain files, one record per member, one member with several records, and any other grouping with at least one record per member, as C60_groups_partial (C84_twice_partial); byte by byte, whatever compressed the first file (C84_fixed_point_partial), also at the command line (C84_cli_partial). Partial: records that are rewritten without loss (C44), and groupings as in C60; byte identity for a compressor whose result depends on the data alone (zlib's compressobj without flush in between has this property in practice; it is a hypothesis). False for records with an empty digest header, to which another digest is added each time (C84_grows)."
  },
  {
   "property": "C85",
   "status": "partial",
   "theorems": [
    "Warcio.Props.C85_groups_partial",
    "Warcio.Props.C85_index_partial",
    "Warcio.Props.C85_extract_partial",
    "Warcio.Props.C85_cli_partial"
   ],
   "note": "Plain files and one record per member, any fields that are Lasting, and the payload at the offsets of the two indexes; also at the command line (C85_cli_partial). For any other grouping of the records into members, as C60_groups_partial, index prints for the new file what it prints for the uncompressed one (C85_groups_partial). Partial: records that are rewritten without loss (C44), not more than one URI if it is asked for, HTTP headers as in C58 and C59."
  },
  {
   "property": "C86",
   "status": "partial",
   "theorems": [
    "Warcio.Props.C86_check_partial",
    "Warcio.Props.C86_index_partial",
    "Warcio.Props.C86_extract_partial",
    "Warcio.Props.C86_cli_partial"
   ],
   "note": "Plain ARC files and one record per member: check (C86_check_partial), index (C86_index_partial), payloads at the offsets of the two indexes (C86_extract_partial), and check and index at the command line (C86_cli_partial). Partial: ARC records that can be converted without loss (Convertible, as in C70: fields that can be headers, URIs that need no cleaning, HTTP headers in the form in which they are written); for the index, dates that are dates from 1900 to 2999."
  },
  {
   "property": "C87",
   "status": "proved",
   "theorems": [
    "Warcio.Props.C87_parts",
    "Warcio.Props.C87_http",
    "Warcio.Props.C87_verify",
    "Warcio.Props.C87_tiles"
   ],
   "note": "Any file whose first two bytes are not those of gzip, any options, any reading of the records: the file is cut into records (C87_parts); the offsets and lengths reported are pieces of the file with one line and blank lines between them (C87_tiles). The format of the records is that of the loader on the bytes from the record on. If digests are not checked and header lines have at most m bytes (m up to the block size, no short reads), HTTP headers and the stream of the record are what the loader makes of the block alone (Portion.Parsed); for HTTP records these are the headers at the front of the block and what is behind them (C87_http; C87_verify with verify_http, where a record whose first line does not start as that of a request or of a response ends the iteration, see Over.status). Otherwise only that the stream is an end of the block."
  },
  {
   "property": "C88",
   "status": "proved",
   "theorems": [
    "Warcio.Props.C88_reopen"
   ],
   "note": "Any file whose first two bytes are not those of gzip; both iterations with any blocks and short reads (C88_reopen). The claim is for no digest checks, and either no_record_parse, or verify_http off and HTTP header lines within the blocks of both iterations without short reads: a header line longer than a block can be read differently at another alignment."
  },
  {
   "property": "C89",
   "status": "proved",
   "theorems": [
    "Warcio.Props.C89_index"
   ],
   "note": "Any file whose first two bytes are not those of gzip (C89_index). What the fields of the record are is what the loader reads from the bytes at its offset (Portion.Shows), HTTP fields are those of the HTTP headers at the front of the block if their lines are within a block (Portion.Parsed)."
  },
  {
   "property": "C90",
   "status": "proved",
   "theorems": [
    "Warcio.Props.C90_extract",
    "Warcio.Props.C90_lookup"
   ],
   "note": "C90_extract: any position at which there are not the first two bytes of gzip; with --payload the output is given for records that are no HTTP messages (of others C59 gives it in well-formed files). C90_lookup: every line of the index (C89); for HTTP messages headers, HTTP headers and the rest of the block, if there is one WARC-Target-URI and HTTP header lines are within a block. A record of a single byte is left out, as there the two readers could differ on whether the file is compressed."
  },
  {
   "property": "C91",
   "status": "proved",
   "theorems": [
    "Warcio.Props.C91_copy",
    "Warcio.Props.C91_recompress",
    "Warcio.Props.C91_block",
    "Warcio.Props.C91_cut"
   ],
   "note": "C91_copy: load_and_write, any writer settings; C91_recompress: both attempts (file at its start, seekable, first read of at least two bytes); C91_block: records that are no HTTP messages. The length of a copy of an HTTP message is that of its block if the lengths of the record fit (field `length` of CopiedRecord). C91_cut: a record that is cut off gets another block in the copy. HTTP headers are those the loader parses (C87), if header lines are within a block."
  },
  {
   "property": "C92",
   "status": "partial",
   "theorems": [
    "Warcio.Props.C92_timestamp_partial",
    "Warcio.Props.C92_iso_partial",
    "Warcio.Props.C92_timestamp20_partial",
    "Warcio.Props.C92_length",
    "Warcio.Props.C92_micros_partial",
    "Warcio.Props.C92_whole_second",
    "Warcio.Props.C92_early_years"
   ],
   "note": "Proved for dates from the year 1000 on (C92_timestamp_partial, C92_iso_partial, C92_timestamp20_partial), and with microseconds for dates of any year that are both whole seconds or both not, or that have a time zone (C92_micros_partial). Missing because false: a whole second sorts behind the moments within it (C92_whole_second), years before 1000 (C92_early_years)."
  },
  {
   "property": "C93",
   "status": "proved",
   "theorems": [
    "Warcio.Props.C93_check",
    "Warcio.Props.C93_differs",
    "Warcio.Props.C93_agrees"
   ],
   "note": "C93_check: process_one, any file whose first two bytes are not those of gzip; the verdict is Portion.Verdict, spelled out in C93_differs and C93_agrees. What is behind the HTTP headers is what the loader leaves (Portion.Parsed), for header lines within a block. Records whose digest headers are not usable (no verdict for some data: bad base32 of a wrong length, say) are free to raise; Over.digest, used for such failures while loading, was tightened for this."
  },
  {
   "property": "C94",
   "status": "proved",
   "theorems": [
    "Warcio.Props.C94_iterate",
    "Warcio.Props.C94_index",
    "Warcio.Props.C94_check",
    "Warcio.Props.C94_recompress",
    "Warcio.Props.C94_glued"
   ],
   "note": "Any two files, the first one Complete (its records load without an exception, are all there and have something behind them) and ending with a newline, the second one not starting with a blank line. C94_iterate without checking digests, any operations on the records; C94_index, C94_check, C94_recompress (first attempt) for the tools, in terms of the specifications of C87, C89, C93 and C91. With verify_http Complete includes that the first lines of the HTTP messages are such. C94_glued: without a line behind the last record it is false."
  },
  {
   "property": "C95",
   "status": "proved",
   "theorems": [
    "Warcio.Props.C95_check",
    "Warcio.Props.C95_exit",
    "Warcio.Props.C95_index"
   ],
   "note": "Any list of files whose first two bytes are not those of gzip (and that have not just one byte). C95_check and C95_index: outcome and output for the list from those for the files (C93, C89); C95_exit: what the exit value says about the records. Which exceptions can end check early is C81_check."
  },
  {
   "property": "C96",
   "status": "proved",
   "theorems": [
    "Warcio.Props.C96_members",
    "Warcio.Props.C96_places",
    "Warcio.Props.C96_several"
   ],
   "note": "Any list of gzip members, any options, any operations on the records. C96_members: the records, the answers and the end, from the specification GzParts; C96_places: offsets and lengths. Nothing is claimed behind a member that is not the last one and that has several records, or has no record and raises no error (empty or blank); C96_several shows that offsets are wrong there."
  },
  {
   "property": "C97",
   "status": "proved",
   "theorems": [
    "Warcio.Props.C97_index",
    "Warcio.Props.C97_check",
    "Warcio.Props.C97_places",
    "Warcio.Props.C97_files_check",
    "Warcio.Props.C97_files_index"
   ],
   "note": "Any list of gzip members, any fields and options of the tools (C97_index, C97_check); C97_places: one line for each member; C97_files_check, C97_files_index: any list of files, each uncompressed or a list of members. As in C96 nothing is claimed behind a member that is not the last one and has several records, or has no record and raises no error."
  },
  {
   "property": "C98",
   "status": "proved",
   "theorems": [
    "Warcio.Props.C98_extract",
    "Warcio.Props.C98_clear",
    "Warcio.Props.C98_copy",
    "Warcio.Props.C98_no_errors",
    "Warcio.Props.C98_one"
   ],
   "note": "C98_extract: any member from which on there are only members; with --payload the output is given for records that are no HTTP messages. C98_copy, C98_no_errors: the first attempt, any writer settings, unless a member before the last one has several records or has no record and raises no error (Murky; C98_clear says when this is so); there C60_lost shows what can happen. C98_one: both attempts on a file that is one member (at its start, seekable; the data not a single byte and not gzip themselves)."
  },
  {
   "property": "C99",
   "status": "proved",
   "theorems": [
    "Warcio.Props.C99_check",
    "Warcio.Props.C99_exit",
    "Warcio.Props.C99_index",
    "Warcio.Props.C99_recompress",
    "Warcio.Props.C99_one",
    "Warcio.Props.C99_extract",
    "Warcio.Props.C99_extract_gz"
   ],
   "note": "C99_check, C99_exit, C99_index: any list of files, each not like gzip or a list of members; C99_recompress: any uncompressed file (not a single byte); C99_one: a file that is one member; C99_extract, C99_extract_gz: with --payload the output is given for records that are no HTTP messages. Output and input of recompress and index are different files (C82_same_file shows what happens else). As in C97 and C98 nothing is claimed behind a member that is not the last one and has several records, or has no record and raises no error; recompress of several members is in C98_copy."
  },
  {
   "property": "C100",
   "status": "proved",
   "theorems": [
    "Warcio.Props.C100_blocks",
    "Warcio.Props.C100_second",
    "Warcio.Props.C100_fixed",
    "Warcio.Props.C100_records",
    "Warcio.Props.C100_run"
   ],
   "note": "C100_blocks: the reading in blocks, for any block size. C100_second, C100_fixed, C100_records: recompress, for files at their start and seekable, whose data are not a single byte and not gzip themselves. C100_run shows that the proviso is needed for the reading. Whether a first attempt that finds no error has copied everything is the subject of C98 (for members with a record each) and C60 (false in general)."
  },
  {
   "property": "C101",
   "status": "proved",
   "theorems": [
    "Warcio.Props.C101_ids",
    "Warcio.Props.C101_distinct",
    "Warcio.Props.C101_copy"
   ],
   "note": "C101_ids and C101_distinct: iteration with arc2warc, any options otherwise; C101_copy: _load_and_write. What is taken for a WARC record begins with a line with a version, or with a blank line. That uuid4 hands out no identifier twice is a hypothesis."
  },
  {
   "property": "C102",
   "status": "partial",
   "theorems": [
    "Warcio.Props.C102_canonical_partial",
    "Warcio.Props.C102_same_partial",
    "Warcio.Props.C102_untouched_partial",
    "Warcio.Props.C102_together_partial",
    "Warcio.Props.C102_cli_partial",
    "Warcio.Props.C102_written_partial",
    "Warcio.Props.C102_later_partial"
   ],
   "note": "C102_canonical_partial gives the output as a function of the records; C102_same_partial, C102_together_partial and C102_untouched_partial follow from it, C102_cli_partial is the command. For what the writer writes: C102_written_partial and C102_later_partial, for records as in C43 without empty digest headers, whose HTTP headers, if they are read as HTTP messages, are as in C44. Partial: records that are rewritten without loss (C44), and groupings as in C60. That the result of the compressor depends on the data alone is a hypothesis (see C84)."
  },
  {
   "property": "C103",
   "status": "proved",
   "theorems": [
    "Warcio.Props.C103_over"
   ],
   "note": "C103_over. outOfFuel, the exception of the model that stands for a loop without end, is excluded; C38 and C79 say that it does not come up."
  }
 ]
}
{
 "C01": [
  "partial",
  "negative length arguments excluded; with them the claim is false (witness proved)"
 ],
 "C02": [
  "partial",
  "readline(n) is exact only for lines within a block and full reads; otherwise false (witness proved)"
 ],
 "C03": [
  "partial",
  "readline(n) only for full reads and lines within m bytes in members that are decompressed steadily: once begun, a block gives nothing or at least m bytes (Steady; C03_steady); true of any member that fits a block (C03_small_members)"
 ],
 "C04": [
  "partial",
  "false when the first raw read delivers a single byte (proved)"
 ],
 "C05": [
  "partial",
  "read_all_members stops early at a member that ends with its block or is empty (proved false in general); exact when the members sit in one block, and what is returned is always a prefix"
 ],
 "C06": [
  "partial",
  "size lines up to 62 bytes, no trailers (both proved to fail otherwise), readline(n) left out"
 ],
 "C07": [
  "partial",
  "total and bounded for all data; unchunked data unchanged; each way of being cut described; the claim that no bytes are lost or added is false (witness proved)"
 ],
 "C08": [
  "proved",
  ""
 ],
 "C09": [
  "partial",
  "holds for names that occur at most once; with duplicates set-then-get and delete fail (proved), other lookups are never affected"
 ],
 "C10": [
  "proved",
  ""
 ],
 "C100": [
  "proved",
  "C100_blocks: the reading in blocks, for any block size. C100_second, C100_fixed, C100_records: recompress, for files at their start and seekable, whose data are not a single byte and not gzip themselves. C100_run shows that the proviso is needed for the reading. Whether a first attempt that finds no error has copied everything is the subject of C98 (for members with a record each) and C60 (false in general)."
 ],
 "C101": [
  "proved",
  "C101_ids and C101_distinct: iteration with arc2warc, any options otherwise; C101_copy: _load_and_write. What is taken for a WARC record begins with a line with a version, or with a blank line. That uuid4 hands out no identifier twice is a hypothesis."
 ],
 "C102": [
  "partial",
  "C102_canonical_partial gives the output as a function of the records; C102_same_partial, C102_together_partial and C102_untouched_partial follow from it, C102_cli_partial is the command. For what the writer writes: C102_written_partial and C102_later_partial, for records as in C43 without empty digest headers, whose HTTP headers, if they are read as HTTP messages, are as in C44. Partial: records that are rewritten without loss (C44), and groupings as in C60. That the result of the compressor depends on the data alone is a hypothesis (see C84)."
 ],
 "C103": [
  "proved",
  "C103_over. outOfFuel, the exception of the model that stands for a loop without end, is excluded; C38 and C79 say that it does not come up."
 ],
 "C11": [
  "proved",
  "any stream whose readline is exact; corollary for BufferedReader of any block size over any schedule of short reads"
 ],
 "C12": [
  "partial",
  "false for an empty value followed by a continuation line, and for a first line starting with a space with verify=False (both proved); stable from the second round trip on for all inputs"
 ],
 "C13": [
  "proved",
  ""
 ],
 "C14": [
  "proved",
  ""
 ],
 "C15": [
  "partial",
  "raises for non-ASCII text outside name=value parts of a value with a semicolon (proved); proved for all other values"
 ],
 "C16": [
  "proved",
  ""
 ],
 "C17": [
  "partial",
  "values of the three headers are proved for names that occur at most once; with a duplicate the lookup still returns the old value (proved)"
 ],
 "C18": [
  "proved",
  ""
 ],
 "C19": [
  "partial",
  "Proved for base32 (any length), base16 in either case from 17 bytes, base64 and URL-safe base64 from 11 bytes, for every hash function. Missing: shorter digests; for 16 bytes (MD5) hexadecimal is proved never to verify."
 ],
 "C20": [
  "proved",
  "Any other digest of the same length is rejected in every encoding; also an exact characterisation of the accepted texts."
 ],
 "C21": [
  "partial",
  "Exact verdict for every block of positive length, split point, history and pair of digest headers. Missing: empty blocks (proved false: the block digest is never checked), malformed headers (proved to raise binascii.Error), negative read lengths."
 ],
 "C22": [
  "partial",
  "Lockstep with the plain reader over any stream, any arguments, for True and 'log'. Missing: malformed digest headers, where the last call is proved to raise."
 ],
 "C23": [
  "proved",
  "For every kind of check, any headers and any mixture of calls and begin_payload, over any stream that hands out leading bytes of its data; read lengths None or non-negative."
 ],
 "C24": [
  "proved",
  "Revisit: checker untouched for all operations. Segment: reader equal to the one made without payload digest."
 ],
 "C25": [
  "partial",
  "Raises on mismatch for blocks of positive length and well-formed headers; never raises when the digests match. Missing: as for C21."
 ],
 "C26": [
  "proved",
  "For every WARC header block and following data over any stream with exact reads; every history of reads, and readline as consecutive parts. Digest checking off or giving verdicts."
 ],
 "C27": [
  "partial",
  "Complete blocks with non-empty parsed headers; other records fully. Missing: payload_length for empty parsed headers, where it is false (C27_empty_headers); records without URI raise (C27_no_uri)."
 ],
 "C28": [
  "partial",
  "At most one WARC-Target-URI. Missing: duplicates, for which it is false (C28_duplicate)."
 ],
 "C29": [
  "partial",
  "Every input and known format except blank first lines, for which it is false (C29_blank_line)."
 ],
 "C30": [
  "proved",
  "Every URI and space-free fields (the length not ending in whitespace)."
 ],
 "C31": [
  "partial",
  "Every ARC line and content; the URI up to the clean-up of C28. Missing: identity of URIs with spaces or brackets, which is false (C31_spaces)."
 ],
 "C32": [
  "proved",
  "Every list of well-formed records (Verif/Spec/Archive.lean: Good), every block, every plan of user operations, seekable or not. Blocks of at least 2 bytes and a first short read of at least 2 bytes, because of C04. HTTP headers are the parsed ones if their lines are read whole (C36)."
 ],
 "C33": [
  "proved",
  "Uncompressed and gzip; offsets and sizes at any point of any plan, and iterating again from the offset. Same reads as C32."
 ],
 "C34": [
  "proved",
  "Every non-empty list of members, any lawful codec; C34_same compares with the uncompressed file step by step (records whose content is settled by the file: tidy URI, HTTP head within the line bound)."
 ],
 "C35": [
  "proved",
  "Any two plans on uncompressed and gzip files: the same records at each step, and the same results where the operations are the same (readline excluded from the second part: where a line is cut depends on the buffers, C02)."
 ],
 "C36": [
  "partial",
  "Same steps for any block sizes and short reads if HTTP headers are not parsed, or if no short reads occur and blocks hold the HTTP header lines (gzip: the members are decompressed steadily, Steady in Verif/Spec/Codec.lean). Missing part is false: C36_small_blocks, C36_short_reads."
 ],
 "C37": [
  "partial",
  "C37_reported_partial: a file that is one member with two or more records, any use of the first record. C37_groups_partial: members with any numbers of records, at least one each and not one each, while the user reads from the records or leaves them: some of the records are yielded as they are, not all of them, and then the exception is raised. The claim itself is false there: the second record of a member may still be yielded (C37_not_reported)."
 ],
 "C38": [
  "proved",
  "Any file content, options, block size, short reads and use of the records. Assumes of zlib (TameZlib) that decompressors expand by at most a constant factor and leave data unused only after using some."
 ],
 "C39": [
  "proved",
  "Cut anywhere inside of the next record (uncompressed), or anything behind the complete members (gzip)."
 ],
 "C40": [
  "partial",
  "For every record type, HTTP headers that can be encoded and payload file (any position, seekable or not, any short reads) whose length is unknown or true. Missing: wrong lengths, for which it is false (C40_wrong_length); create_warc_record itself makes wrong lengths (C40_blank_line, C40_position), and so do revisits with a block but no HTTP headers (C40_revisit)."
 ],
 "C41": [
  "partial",
  "Records of known length that are no revisits; unknown lengths are in C42. False for revisits that have a payload (C41_revisit)."
 ],
 "C42": [
  "partial",
  "All records of unknown length that are no revisits and have no digest header twice; with two, a stale one is kept (C42_duplicate)."
 ],
 "C43": [
  "partial",
  "C43_plain and C43_gzip: for every list of writable, regular records written one after the other, reading the file (any block size >= 2, short reads as in C32/C34, any plan of user operations) yields exactly these records in order: same type, version, headers (up to the lengths and digests that writing sets), HTTP headers and payload, with offsets and lengths of the bytes written. C43_response: the user's view for one response. Reading without check_digests and verify_http; HTTP header lines must fit in a block. Fails, and negations with witnesses are proved, for header values with line breaks (C43_line_break), URIs in angle brackets (C43_brackets), and two Content-Length headers (C43_two_lengths)."
 ],
 "C44": [
  "partial",
  "Proved for lists of records of any length whose headers and HTTP headers are in the form in which the writer puts them (Rewritable): plain and per-record gzip input; the output holds the records in order with the same version, headers and blocks, up to the form of the length and added digests; records in normal form come out byte by byte the same (C44_identity), rewriting is idempotent (C44_twice), kept digests cover the same block and added ones verify (C44_verifies). False for HTTP blocks that start with a blank line (C44_blank_line: length too large) and for HTTP headers that are not in normal form (C44_stale_digest: the block changes, its digest does not)."
 ],
 "C45": [
  "proved",
  "For every record and every list of records, assuming of zlib only that the output of compress calls and flush is one member that holds the input (LawfulDeflater)."
 ],
 "C46": [
  "partial",
  "If the response has a URI and a date and the request has no two of them; plain or compressed (C46_stored_partial). Without URI or date the request is not written (C46_missing)."
 ],
 "C47": [
  "partial",
  "Every URI, digest, HTTP headers and dictionary; the headers, the bytes written and the block digest. Missing: dictionaries with two types or URIs, an empty id or date (false, see C48) or an own payload digest (the given one is then the second, C47_duplicate)."
 ],
 "C48": [
  "partial",
  "Every dictionary with at most one type and URI (case-insensitive) and no empty id or date; headers given as an object; content types. Missing: the other dictionaries, for which it is false (C48_duplicate, C48_empty_id)."
 ],
 "C49": [
  "partial",
  "False of the code: the payload is written only the first time (C49_payload). Proved for records without payload whose digest headers are not empty."
 ],
 "C50": [
  "proved",
  "Every dictionary of texts; values that are not text (byte strings, numbers) are not modelled."
 ],
 "C51": [
  "proved",
  "For all strings; clamping stated for 14 digits followed by anything."
 ],
 "C52": [
  "proved",
  "For every date of 1900-2999."
 ],
 "C53": [
  "partial",
  "Naive dates with and without microseconds, aware dates without. Missing: aware dates with microseconds, for which it is false (C53_aware: TypeError always)."
 ],
 "C54": [
  "proved",
  "For every prefix of 4, 6, ..., 14 digits of a timestamp of 1900-2999."
 ],
 "C55": [
  "proved",
  "Inverse, epoch, successor and monotony for every date of 1900-2999."
 ],
 "C56": [
  "partial",
  "Years 100-9999. Missing: years 1-99, for which it is false (C56_early_years)."
 ],
 "C57": [
  "partial",
  "The exit value: for any inputs for which nothing but ArchiveLoadFailed escapes (C57_exit), in any order (C57_order). Exit value and output from the records: archives, plain or with one record per member, with any verdicts, members with several records, files, compressed or not, that end within their last record (see C74), plain files with stray lines behind blocks and garbage at the end, ARC files, and files that are no archive (C57_check_partial). For whatever uncompressed files and gzip members hold: C95_check and C97_files_check. Missing there: gzip data that is broken. False for digests that cannot be decoded (C57_crash)."
 ],
 "C58": [
  "partial",
  "Any number of files, plain or with one record per member, any fields, URIs with brackets or spaces; lines are read back with a JSON reader of the specification. A member with several records: a line for the first and then the error (C58_member). With verify_http, and for whatever the files hold: C95_index and C97_files_index. Missing: the length of a record in a member with several; HTTP lines within the block size as in C32. False for records with two URIs (C58_two_uris: the one that is printed is not the cleaned one)."
 ],
 "C59": [
  "partial",
  "Proved for plain files, for records that are gzip members, and for the first record of a member with several, with any bytes before; all parts that can be asked for, payloads with any codings of C64. Headers: for regular ones. False otherwise (C59_rewrites_headers: printed as parsed)."
 ],
 "C60": [
  "partial",
  "Proved for plain files (C60_plain), for one record per member (C60_gzip), for one member with several records (C60_one_member_partial), and for any grouping of whole records into members with at least one each (C60_groups_partial: NoRun, no run of members that holds a multiple of 65536 bytes, see C100_run); C60_first is the first attempt. For a file that is one member with any data see C98_one, for records that are spread over several members see C100_records. False for files with empty members (C60_lost: 3 of 4 records, reported as fixed; C60_lost_silently: 2 of 4 records, reported without errors)."
 ],
 "C61": [
  "partial",
  "Proved for direct requests over any history without a tunnel, and for requests behind a tunnel to a named host (C61_tunnel). False for direct requests after a tunnel (C61_stays), for IPv6 hosts (C61_ipv6) and if the request line is sent in pieces (C61_pieces). The default port is what the connection says."
 ],
 "C62": [
  "partial",
  "Proved over any history, for bytes sent and received in any pieces: closing adds exactly the two records, plain or compressed; nothing else writes, and nothing is written if the filter rejects. The bytes must be HTTP messages in the form the library writes them, and readinto must fill its buffer. False otherwise: C62_readinto, C62_shared (overlapping exchanges), C62_lazy_tunnel, C62_unknown_verb, C62_stale_address."
 ],
 "C63": [
  "partial",
  "False of the code: the zone of an HTTP date is always ignored (proved for every date and zone word), ISO offsets are read as fractions of a second. The part that holds (GMT) is C56_roundtrip_partial."
 ],
 "C64": [
  "partial",
  "Proved for plain files and files with one record per member, any plan before and any calls; chunked and any available coding, under the laws of a decompressor; payloads that are missing, as in revisits and answers to HEAD requests. HTTP headers with lines within the block size, as C32. Incomplete or invalid payloads: not stated. False for transfer codings in capitals (C64_capital) and for payloads of several gzip members (C64_two_members)."
 ],
 "C65": [
  "proved",
  "For digest headers that are absent, unusable or texts of digests. As the code has it, a digest of an empty block is not compared, unless its algorithm is unknown (BlockOutcome, see C21_empty_block). HTTP headers with lines within the block size, as C32."
 ],
 "C66": [
  "partial",
  "Proved for everything that is no HTTP record (C66_data), and for HTTP messages in normal form with known verbs or versions, in ASCII. False if a length is given and the stream is not at its start (C66_position), for other verbs (C66_unknown_verb) and for headers in another form (C66_reformatted)."
 ],
 "C67": [
  "proved",
  "Uncompressed files (the statement). For gzip the offset in the warning is wrong and depends on the block size (C67_gzip_offsets)."
 ],
 "C68": [
  "proved",
  "Without arc2warc; WARC archives. Stray lines as in C67 are allowed before the garbage. A file with nothing but garbage: C68_unknown."
 ],
 "C69": [
  "partial",
  "Proved for files whose describing record has ASCII lines behind its first line; for UTF-8 lines the claim is false (C69_utf8_lines). verify_http=False (the default) and check_digests other than 'raise'. HTTP heads as in C32. With arc2warc the headers are given up to the clean-up of the URI (C28), and exactly if the URI is tidy; dates from 1900 to 2999."
 ],
 "C70": [
  "partial",
  "Proved for records that are well-formed (as in C69), whose fields can stand as header values, whose URI needs no cleaning, and whose HTTP headers are ASCII in the form in which they are written (as in C44; otherwise blocks change, C44_blank_line, C44_stale_digest). Dates from 1900 to 2999. The identifiers are those handed out; that no two records get the same one is C101. The two lines of the describing record are not in the WARC file."
 ],
 "C71": [
  "partial",
  "Proved for any sequence of writes (also failing ones), get_contents, and get_stream with the stream read to its end, in any pieces, before something else is done. False if something is written before that: it is written over the first records (C71_overwrites)."
 ],
 "C72": [
  "partial",
  "Proved for any number of threads, blocks and connections, if no connection is made in a block inside which another block has ended; there the claim is false (C72_nested). What is recorded is that of C61/C62 for the events of these connections. Two blocks are taken to have different files. Connections go on being recorded after the block is left; if the file was given by name such exchanges are lost (C72_late)."
 ],
 "C73": [
  "partial",
  "Proved for archives, plain or with one record per member, read from their start, with the exceptions of C58 and C59 (headers that are not regular). That extracting does print something is C59."
 ],
 "C74": [
  "partial",
  "Iteration: proved for every end in a block or in the blank lines behind it (C74_cut), and before an HTTP block (C74_dropped); for a file of gzip members that ends in the last one by what comes out of it (C74_cut_gzip, C74_dropped_gzip). check: for contents that can be read to the end of what there is, so not for a body that is compressed or chunked and cut (C74_check_partial, C74_check_gzip_partial). False for an end in a header block, which makes a record with other headers (C74_header_block)."
 ],
 "C75": [
  "partial",
  "Proved for every list of records as in C43, plain and compressed, whose digests are left to the writer (none given, or length unknown; or revisits) or right (of any known algorithm, base32, base64 or hexadecimal) and whose payload is found by readers, with content and transfer codings as in C64 (C75_plain_partial, C75_gzip_partial). False for a record with HTTP headers that is not read as HTTP (C75_resource), for a whole HTTP message in a record without HTTP headers (C75_whole_message), and for wrong digests given by the caller (C75_stale)."
 ],
 "C76": [
  "partial",
  "Proved (C76_partial) for every list of new records other than revisits, plain and compressed, whose headers fit on a line, with a URI without spaces and brackets, HTTP headers in ASCII and as the library writes them, and no header twice that is set. False if the URI is given among the headers only: such a response fails the check (C76_uri_in_dict); for a URI with a space (C76_uri_space); for HTTP headers outside ASCII (C76_not_ascii)."
 ],
 "C77": [
  "partial",
  "Proved (C77_partial) for every sequence of exchanges as in C62 (HTTP messages as the library writes them, full buffers of readinto, a filter that accepts everything), one after the other in a new file, plain and compressed, whose URLs and addresses fit in headers; the check for bodies that can be decoded. What fails for captures is listed for C61 and C62."
 ],
 "C78": [
  "partial",
  "All three tools, plain files and files with one record per member; the offset in the index is that of the record for extract (C78_lookup_partial). Missing: verify_http; HTTP lines within the block size as in C32 and, for what extract prints of HTTP headers, HTTP headers in the form in which they are written (as in C59). The converted records have identifiers that are handed out, in any order."
 ],
 "C79": [
  "proved",
  "All four tools, any list of files with any content and any pattern of short reads. Assumed of zlib: what comes out is bounded by a multiple of what goes in, and nothing is lost of what is not used (TameZlib)."
 ],
 "C80": [
  "partial",
  "Any file, any pattern of short reads. Missing: the version line may be absent, which happens (C80_headless: a file that begins with an empty line, whose output cannot be read, C80_unreadable); and the declared length is some number, not always that of the block (as for a record that is cut off)."
 ],
 "C81": [
  "proved",
  "Any file, any options, any sequence of reading operations; index, check and extract on any files. Where AttributeError comes from is shown of the loader on any buffered stream (C81_cause). Assumed of zlib: as for C79, and that it is there. recompress catches everything and is in C79 and C80."
 ],
 "C82": [
  "partial",
  "Every file system and command. False if the output is an input: `warcio recompress a a` empties the file, whatever it held, says that no errors were found, and exits with 0 (C82_same_file); index -o a a empties it as well (C82_index_same). -v makes recompress fail if its own output cannot be read (C82_verbose_fails). Missing: links and other ways for two names to be one file; argparse."
 ],
 "C83": [
  "partial",
  "Plain files, one record per member, one member with several records, any other grouping with at least one record per member as C60_groups_partial (C83_groups_partial, what check says after recompress), and the command line (C83_cli_partial). Partial: records that are rewritten without loss (C44: HTTP headers in the form in which they are written, a URI that needs no cleaning), members that are decompressed steadily if there are HTTP headers (Steady). False for other HTTP headers: recompress changes them but keeps the block digest, so that check then fails (C83_spoilt)."
 ],
 "C84": [
  "partial",
  "Plain files, one record per member, one member with several records, and any other grouping with at least one record per member, as C60_groups_partial (C84_twice_partial); byte by byte, whatever compressed the first file (C84_fixed_point_partial), also at the command line (C84_cli_partial). Partial: records that are rewritten without loss (C44), and groupings as in C60; byte identity for a compressor whose result depends on the data alone (zlib's compressobj without flush in between has this property in practice; it is a hypothesis). False for records with an empty digest header, to which another digest is added each time (C84_grows)."
 ],
 "C85": [
  "partial",
  "Plain files and one record per member, any fields that are Lasting, and the payload at the offsets of the two indexes; also at the command line (C85_cli_partial). For any other grouping of the records into members, as C60_groups_partial, index prints for the new file what it prints for the uncompressed one (C85_groups_partial). Partial: records that are rewritten without loss (C44), not more than one URI if it is asked for, HTTP headers as in C58 and C59."
 ],
 "C86": [
  "partial",
  "Plain ARC files and one record per member: check (C86_check_partial), index (C86_index_partial), payloads at the offsets of the two indexes (C86_extract_partial), and check and index at the command line (C86_cli_partial). Partial: ARC records that can be converted without loss (Convertible, as in C70: fields that can be headers, URIs that need no cleaning, HTTP headers in the form in which they are written); for the index, dates that are dates from 1900 to 2999."
 ],
 "C87": [
  "proved",
  "Any file whose first two bytes are not those of gzip, any options, any reading of the records: the file is cut into records (C87_parts); the offsets and lengths reported are pieces of the file with one line and blank lines between them (C87_tiles). The format of the records is that of the loader on the bytes from the record on. If digests are not checked and header lines have at most m bytes (m up to the block size, no short reads), HTTP headers and the stream of the record are what the loader makes of the block alone (Portion.Parsed); for HTTP records these are the headers at the front of the block and what is behind them (C87_http; C87_verify with verify_http, where a record whose first line does not start as that of a request or of a response ends the iteration, see Over.status). Otherwise only that the stream is an end of the block."
 ],
 "C88": [
  "proved",
  "Any file whose first two bytes are not those of gzip; both iterations with any blocks and short reads (C88_reopen). The claim is for no digest checks, and either no_record_parse, or verify_http off and HTTP header lines within the blocks of both iterations without short reads: a header line longer than a block can be read differently at another alignment."
 ],
 "C89": [
  "proved",
  "Any file whose first two bytes are not those of gzip (C89_index). What the fields of the record are is what the loader reads from the bytes at its offset (Portion.Shows), HTTP fields are those of the HTTP headers at the front of the block if their lines are within a block (Portion.Parsed)."
 ],
 "C90": [
  "proved",
  "C90_extract: any position at which there are not the first two bytes of gzip; with --payload the output is given for records that are no HTTP messages (of others C59 gives it in well-formed files). C90_lookup: every line of the index (C89); for HTTP messages headers, HTTP headers and the rest of the block, if there is one WARC-Target-URI and HTTP header lines are within a block. A record of a single byte is left out, as there the two readers could differ on whether the file is compressed."
 ],
 "C91": [
  "proved",
  "C91_copy: load_and_write, any writer settings; C91_recompress: both attempts (file at its start, seekable, first read of at least two bytes); C91_block: records that are no HTTP messages. The length of a copy of an HTTP message is that of its block if the lengths of the record fit (field `length` of CopiedRecord). C91_cut: a record that is cut off gets another block in the copy. HTTP headers are those the loader parses (C87), if header lines are within a block."
 ],
 "C92": [
  "partial",
  "Proved for dates from the year 1000 on (C92_timestamp_partial, C92_iso_partial, C92_timestamp20_partial), and with microseconds for dates of any year that are both whole seconds or both not, or that have a time zone (C92_micros_partial). Missing because false: a whole second sorts behind the moments within it (C92_whole_second), years before 1000 (C92_early_years)."
 ],
 "C93": [
  "proved",
  "C93_check: process_one, any file whose first two bytes are not those of gzip; the verdict is Portion.Verdict, spelled out in C93_differs and C93_agrees. What is behind the HTTP headers is what the loader leaves (Portion.Parsed), for header lines within a block. Records whose digest headers are not usable (no verdict for some data: bad base32 of a wrong length, say) are free to raise; Over.digest, used for such failures while loading, was tightened for this."
 ],
 "C94": [
  "proved",
  "Any two files, the first one Complete (its records load without an exception, are all there and have something behind them) and ending with a newline, the second one not starting with a blank line. C94_iterate without checking digests, any operations on the records; C94_index, C94_check, C94_recompress (first attempt) for the tools, in terms of the specifications of C87, C89, C93 and C91. With verify_http Complete includes that the first lines of the HTTP messages are such. C94_glued: without a line behind the last record it is false."
 ],
 "C95": [
  "proved",
  "Any list of files whose first two bytes are not those of gzip (and that have not just one byte). C95_check and C95_index: outcome and output for the list from those for the files (C93, C89); C95_exit: what the exit value says about the records. Which exceptions can end check early is C81_check."
 ],
 "C96": [
  "proved",
  "Any list of gzip members, any options, any operations on the records. C96_members: the records, the answers and the end, from the specification GzParts; C96_places: offsets and lengths. Nothing is claimed behind a member that is not the last one and that has several records, or has no record and raises no error (empty or blank); C96_several shows that offsets are wrong there."
 ],
 "C97": [
  "proved",
  "Any list of gzip members, any fields and options of the tools (C97_index, C97_check); C97_places: one line for each member; C97_files_check, C97_files_index: any list of files, each uncompressed or a list of members. As in C96 nothing is claimed behind a member that is not the last one and has several records, or has no record and raises no error."
 ],
 "C98": [
  "proved",
  "C98_extract: any member from which on there are only members; with --payload the output is given for records that are no HTTP messages. C98_copy, C98_no_errors: the first attempt, any writer settings, unless a member before the last one has several records or has no record and raises no error (Murky; C98_clear says when this is so); there C60_lost shows what can happen. C98_one: both attempts on a file that is one member (at its start, seekable; the data not a single byte and not gzip themselves)."
 ],
 "C99": [
  "proved",
  "C99_check, C99_exit, C99_index: any list of files, each not like gzip or a list of members; C99_recompress: any uncompressed file (not a single byte); C99_one: a file that is one member; C99_extract, C99_extract_gz: with --payload the output is given for records that are no HTTP messages. Output and input of recompress and index are different files (C82_same_file shows what happens else). As in C97 and C98 nothing is claimed behind a member that is not the last one and has several records, or has no record and raises no error; recompress of several members is in C98_copy."
 ]
}
{
 "claims": [
  {
   "property": "C01",
   "status": "proved",
   "theorems": [
    "Goorc.byte_roundtrip"
   ],
   "note": "All byte sequences; encode, flush, decode until exhausted."
  },
  {
   "property": "C02",
   "status": "proved",
   "theorems": [
    "Goorc.byte_history_roundtrip"
   ],
   "note": "Any interleaving of Encode and Flush ending in Flush."
  },
  {
   "property": "C03",
   "status": "proved",
   "theorems": [
    "Goorc.byte_position_exact"
   ],
   "note": "Position is the number of pending values, for any history and any continuation."
  },
  {
   "property": "C04",
   "status": "proved",
   "theorems": [
    "Goorc.decodeByteRL_total"
   ],
   "note": "Arbitrary input; 1..130 values or end of input."
  },
  {
   "property": "C05",
   "status": "proved",
   "theorems": [
    "Goorc.bool_roundtrip"
   ],
   "note": "Padding falses complete the last byte."
  },
  {
   "property": "C06",
   "status": "partial",
   "theorems": [
    "Goorc.bool_reuse_partial",
    "Goorc.bool_reuse_exact",
    "Goorc.bool_reuse_false"
   ],
   "note": "False in general: bits of the incomplete last byte leak into the next flush (bool_reuse_false); exact effect in bool_reuse_exact; round trip when the incomplete byte holds only falses."
  },
  {
   "property": "C07",
   "status": "proved",
   "theorems": [
    "Goorc.bool_position_exact"
   ],
   "note": ""
  },
  {
   "property": "C08",
   "status": "proved",
   "theorems": [
    "Goorc.zigzag_bijection"
   ],
   "note": ""
  },
  {
   "property": "C09",
   "status": "proved",
   "theorems": [
    "Goorc.varint_roundtrip",
    "Goorc.varint_length",
    "Goorc.varint_type"
   ],
   "note": ""
  },
  {
   "property": "C10",
   "status": "proved",
   "theorems": [
    "Goorc.float_roundtrip",
    "Goorc.double_roundtrip",
    "Goorc.float_type",
    "Goorc.float_truncated"
   ],
   "note": "Floats are bit patterns."
  },
  {
   "property": "C100",
   "status": "partial",
   "theorems": [
    "Goorc.written_batch_has",
    "Goorc.short_column_panics",
    "Goorc.nil_vector_panics",
    "Goorc.write_nil_vector_panics",
    "Goorc.write_headless_panics",
    "Goorc.longer_columns_ignored",
    "Goorc.empty_first_column_ignored",
    "Goorc.absent_column_ignored",
    "Goorc.stripe_without_column",
    "Goorc.absent_column_empty",
    "Goorc.absent_column_unreadable",
    "Goorc.longer_column_lost"
   ],
   "note": "The promise is refuted; what Write does with columns that are too short, too long, missing or left out is described for every batch, and what a closed file has for a column that was left out is described for every file and stripe."
  },
  {
   "property": "C101",
   "status": "partial",
   "theorems": [
    "Goorc.sound_disk_exact",
    "Goorc.no_error_means_complete",
    "Goorc.failures_reported",
    "Goorc.failure_leaves_prefix",
    "Goorc.writes_follow",
    "Goorc.failed_close_exact",
    "Goorc.failed_index_exact",
    "Goorc.close_error_lost",
    "Goorc.retry_swaps_columns",
    "Goorc.retry_doubles_rows"
   ],
   "note": "For programs that stop at the first error all of it is proved, for every failure of every Write. Two parts of the promise are refuted: an error of the file's own Close is lost, and going on after an error can report success for a file that is wrong (two witnesses). What a Close that failed leaves behind is described exactly."
  },
  {
   "property": "C102",
   "status": "partial",
   "theorems": [
    "Goorc.sparse_file_opens",
    "Goorc.sparse_file_reads_partial",
    "Goorc.bare_batch_exact",
    "Goorc.bare_skip_exact",
    "Goorc.bare_dictionary_panics",
    "Goorc.bare_seek_fails",
    "Goorc.bare_rewind_panics",
    "Goorc.sparse_panics"
   ],
   "note": "Holds for reading through, for every type without a dictionary; with the restrictions of C85 on the columns that have values (no lists, maps, nullable columns in nullable structs). False for columns with the encoding of dictionaries, and for SeekStride."
  },
  {
   "property": "C103",
   "status": "proved",
   "theorems": [
    "Goorc.delivered_types",
    "Goorc.seen_types",
    "Goorc.times_are_zero"
   ],
   "note": "For every file, every environment and every sequence of Next and Seek that does not fail. Calls that fail are the subject of C80, C87, C88, C94."
  },
  {
   "property": "C104",
   "status": "partial",
   "theorems": [
    "Goorc.struct_elements_lost"
   ],
   "note": "False, for every file and every sequence of calls: no row of such a field is ever delivered. Nothing of the claim holds, so nothing is missing; partial because the claim as stated is refuted."
  },
  {
   "property": "C105",
   "status": "partial",
   "theorems": [
    "Goorc.unread_bytes_plain",
    "Goorc.unread_bytes_partial",
    "Goorc.sameTail_of_parts",
    "Goorc.sameFooters_of_spans",
    "Goorc.chunk_takes_neighbours",
    "Goorc.seek_takes_neighbours"
   ],
   "note": "Proved without conditions for uncompressed files, and for compressed ones whose streams are whole chunks (and, if the program seeks, not empty). Without these conditions the claim is refuted for compressed files, by two witnesses where the values of another column are delivered."
  },
  {
   "property": "C106",
   "status": "proved",
   "theorems": [
    "Goorc.column_bytes_local",
    "Goorc.column_bytes_one_stripe",
    "Goorc.column_bytes_cuts"
   ],
   "note": "For every environment, without conditions on the libraries. column_bytes_cuts shows that the condition on the ends of the stripes is needed."
  },
  {
   "property": "C107",
   "status": "proved",
   "theorems": [
    "Goorc.layout_unique"
   ],
   "note": "For every two layouts of the same bytes, of whatever schemas."
  },
  {
   "property": "C108",
   "status": "proved",
   "theorems": [
    "Goorc.tables_differ"
   ],
   "note": "For tables the library can read back (StripesReadable); what the unreadable columns lose is said in C67 and its companions."
  },
  {
   "property": "C109",
   "status": "partial",
   "theorems": [
    "Goorc.copy_exact",
    "Goorc.copy_converts_partial"
   ],
   "note": "Refuted as stated: the last row of a stripe is lost when it would be alone in a batch. copy_exact is the exact condition (iff); copy_converts_partial gives the conversion to other options when it is met."
  },
  {
   "property": "C11",
   "status": "proved",
   "theorems": [
    "Goorc.string_roundtrip",
    "Goorc.string_read_exact"
   ],
   "note": ""
  },
  {
   "property": "C110",
   "status": "partial",
   "theorems": [
    "Goorc.opened_exact",
    "Goorc.created_columns",
    "Goorc.close_exact",
    "Goorc.close_only_opened",
    "Goorc.close_once",
    "Goorc.close_all_iff",
    "Goorc.batchColumns_each",
    "Goorc.closeBatch_stripes",
    "Goorc.close_returns_iff",
    "Goorc.close_outcome",
    "Goorc.close_returns",
    "Goorc.close_without_data",
    "Goorc.close_panics",
    "Goorc.tables_give_back",
    "Goorc.written_gives_back",
    "Goorc.written_streams",
    "Goorc.list_elements_stay_open",
    "Goorc.map_lengths_stay_open",
    "Goorc.close_leaves_open"
   ],
   "note": "Refuted as stated: elements of lists and lengths of maps stay open (close_leaves_open). close_exact and close_all_iff are exact; tables_give_back is the claim for tables without lists and maps, written_gives_back for every file this library has written."
  },
  {
   "property": "C111",
   "status": "partial",
   "theorems": [
    "Goorc.readChunks_returns",
    "Goorc.readChunks_exact",
    "Goorc.readChunks_exact_full",
    "Goorc.readChunks_complete_iff",
    "Goorc.readChunks_roundtrip",
    "Goorc.readChunks_agrees",
    "Goorc.readChunks_cuts",
    "Goorc.readChunks_loses",
    "Goorc.readChunks_cut",
    "Goorc.readChunks_beyond",
    "Goorc.readChunks_refuses"
   ],
   "note": "Refuted as stated: ReadChunks calls Read once and loses what the decompressor delivers later (readChunks_loses, readChunks_cuts), panics on incomplete chunks (readChunks_cut) or completes them from behind the slice (readChunks_beyond). readChunks_exact and readChunks_complete_iff are exact (iffs); readChunks_roundtrip is the claim for a decompressor that fills the buffer."
  },
  {
   "property": "C112",
   "status": "partial",
   "theorems": [
    "Goorc.readVUint_exact",
    "Goorc.readVUint_hangs_iff",
    "Goorc.readVUint_returns",
    "Goorc.readVUint_agrees",
    "Goorc.readVUint_roundtrip",
    "Goorc.readVUint_truncated",
    "Goorc.readVUint_hangs",
    "Goorc.readVUint_swallows",
    "Goorc.readVUint_overflows"
   ],
   "note": "Refuted as stated: errors before the last byte are thrown away, a reader may be read forever, and numbers above 64 bits are cut. Exact for every reader (readVUint_exact, readVUint_hangs_iff); the round trip holds for every uint64 (readVUint_roundtrip)."
  },
  {
   "property": "C113",
   "status": "partial",
   "theorems": [
    "Goorc.decimalFloat_iff",
    "Goorc.decimalFloat_other_iff",
    "Goorc.decimalFloat_wrong",
    "Goorc.decimalFloat_sign"
   ],
   "note": "Refuted: the factor is 10*scale instead of a power of ten. decimalFloat_iff is exact (right only for precision 0 or scale 0), with either sign of the scale (decimalFloat_other_iff). Without rounding."
  },
  {
   "property": "C114",
   "status": "partial",
   "theorems": [
    "Goorc.toDays_day_iff",
    "Goorc.toDays_before_1970",
    "Goorc.noon_is_next_day",
    "Goorc.day_read_back"
   ],
   "note": "Refuted: times before 1970 that are no midnights are stored as the next day (toDays_before_1970), far times saturate. toDays_day_iff is exact for every time of the model, which divides exactly where the code divides floats (times less than a microsecond before a midnight may be rounded up)."
  },
  {
   "property": "C115",
   "status": "proved",
   "theorems": [
    "Goorc.chunks_count",
    "Goorc.chunks_overhead",
    "Goorc.chunks_overhead_sharp"
   ],
   "note": "For every compressor, without assumptions; the bound is attained."
  },
  {
   "property": "C116",
   "status": "proved",
   "theorems": [
    "Goorc.IntSize.int_growth",
    "Goorc.IntSize.int_growth_unsigned_sharp",
    "Goorc.IntSize.int_growth_signed_more"
   ],
   "note": "For every successful history. Ten is attained for unsigned values; for signed ones twelve is a bound and ten is none."
  },
  {
   "property": "C117",
   "status": "proved",
   "theorems": [
    "Goorc.BoolSize.bool_growth",
    "Goorc.BoolSize.bool_growth_reached"
   ],
   "note": "For every history, whether or not it ends in a Flush; attained with a Flush after each value."
  },
  {
   "property": "C118",
   "status": "partial",
   "theorems": [
    "Goorc.IntRun.int_run_iff",
    "Goorc.IntRun.int_run_panics",
    "Goorc.IntRun.int_run_small"
   ],
   "note": "Refuted for more than ten copies of a value beyond 56 bits, which panic (int_run_panics); int_run_iff is exact, and the bound holds for all that are written."
  },
  {
   "property": "C119",
   "status": "proved",
   "theorems": [
    "Goorc.DecodeSize.decode_block_bounded",
    "Goorc.DecodeSize.decode_all_bounded",
    "Goorc.DecodeSize.decode_all_reached"
   ],
   "note": "For all bytes; each factor is attained by streams of every length. Concerns the numbers of values returned, not the Go runtime's allocation."
  },
  {
   "property": "C12",
   "status": "proved",
   "theorems": [
    "Goorc.nano_roundtrip",
    "Goorc.nano_roundtrip_iff",
    "Goorc.nano_format"
   ],
   "note": "Both copies of the functions are the same text; one model."
  },
  {
   "property": "C120",
   "status": "proved",
   "theorems": [
    "Goorc.VarintShort.varint_shortest",
    "Goorc.VarintShort.varint_size"
   ],
   "note": "For all values, histories and competing byte strings."
  },
  {
   "property": "C121",
   "status": "proved",
   "theorems": [
    "Goorc.FloatCopy.float_copy",
    "Goorc.FloatCopy.double_copy"
   ],
   "note": "For all bytes. Floats are bit patterns: Go's conversions math.Float32frombits and Float32bits are taken to keep them."
  },
  {
   "property": "C122",
   "status": "proved",
   "theorems": [
    "Goorc.CutStream.cut_streams",
    "Goorc.CutStream.cut_written"
   ],
   "note": "For all readable streams and all cuts; io.EOF and io.ErrUnexpectedEOF are one error in the model. Values of a block that is cut are not delivered: what DecodeByteRL returns beside an error is not looked at, and whether the error is wrapped is not modelled."
  },
  {
   "property": "C123",
   "status": "proved",
   "theorems": [
    "Goorc.CallSize.call_reads_bounded",
    "Goorc.CallSize.byte_call_sharp",
    "Goorc.CallSize.varint_call_sharp"
   ],
   "note": "For all bytes. The bound for integers is not shown to be the least."
  },
  {
   "property": "C13",
   "status": "partial",
   "theorems": [
    "Goorc.timestamp_roundtrip_partial",
    "Goorc.timestamp_roundtrip_exact",
    "Goorc.timestamp_roundtrip_iff",
    "Goorc.getMilliSeconds_false",
    "Goorc.getMilliSecondsUtc_false"
   ],
   "note": "True for UTC; false for every location with a nonzero offset; GetMilliSeconds is never right for UTC timestamps."
  },
  {
   "property": "C14",
   "status": "partial",
   "theorems": [
    "Goorc.date_roundtrip_partial",
    "Goorc.date_roundtrip_iff",
    "Goorc.date_roundtrip_false",
    "Goorc.toDays_timeOfDay",
    "Goorc.toDays_saturates"
   ],
   "note": "True exactly within 106751 days of 1970; beyond that the day number saturates."
  },
  {
   "property": "C15",
   "status": "partial",
   "theorems": [
    "Goorc.width_roundtrip_partial",
    "Goorc.width_roundtrip_iff",
    "Goorc.width_roundtrip_false",
    "Goorc.widthEncoding_ok_iff",
    "Goorc.widthDecoding_spec",
    "Goorc.widthEncoding_spec"
   ],
   "note": "False for width 0 outside delta blocks; all other widths proved, tables compared with the ORC table."
  },
  {
   "property": "C16",
   "status": "proved",
   "theorems": [
    "Goorc.bits_roundtrip",
    "Goorc.bits_ok"
   ],
   "note": "Any list of widths and values the writer accepts."
  },
  {
   "property": "C17",
   "status": "partial",
   "theorems": [
    "Goorc.short_repeat_roundtrip_iff",
    "Goorc.short_repeat_false"
   ],
   "note": "Exact: round trips iff the value has a nonzero byte in every position it is stored in (NoZeroByte); false for zero and other values."
  },
  {
   "property": "C18",
   "status": "partial",
   "theorems": [
    "Goorc.direct_roundtrip_iff",
    "Goorc.direct_zeros_exact",
    "Goorc.direct_false"
   ],
   "note": "Exact characterisation; false for blocks of zeros."
  },
  {
   "property": "C19",
   "status": "partial",
   "theorems": [
    "Goorc.delta_roundtrip",
    "Goorc.delta_accepts_up",
    "Goorc.delta_accepts_down",
    "Goorc.delta_false"
   ],
   "note": "Exact characterisation of success and round trip; false when the first value is at least 2^56 etc."
  },
  {
   "property": "C20",
   "status": "partial",
   "theorems": [
    "Goorc.patched_roundtrip_partial",
    "Goorc.patched_false_width",
    "Goorc.patched_false_gap",
    "Goorc.patched_false_base",
    "Goorc.patched_false_entry",
    "Goorc.patched_fails"
   ],
   "note": "Round trip under PatchSafe; witnesses for each excluded case."
  },
  {
   "property": "C21",
   "status": "partial",
   "theorems": [
    "Goorc.uint_const_roundtrip_partial",
    "Goorc.int_const_roundtrip_partial",
    "Goorc.uint_zeros_roundtrip_iff",
    "Goorc.uint_rising_roundtrip_partial",
    "Goorc.uint_falling_roundtrip_partial",
    "Goorc.int_rising_roundtrip_partial",
    "Goorc.int_falling_roundtrip_partial",
    "Goorc.uint_changing_roundtrip_partial",
    "Goorc.uint_repeated_false",
    "Goorc.int_roundtrip_false"
   ],
   "note": "False in general (witness); proved for constant and for slowly rising or falling columns of any length."
  },
  {
   "property": "C22",
   "status": "partial",
   "theorems": [
    "Goorc.int_history_partial",
    "Goorc.int_history_false"
   ],
   "note": "Any history whose written blocks are safe (exact conditions of C17-C20); false in general."
  },
  {
   "property": "C23",
   "status": "partial",
   "theorems": [
    "Goorc.int_position_partial",
    "Goorc.int_position_false"
   ],
   "note": "Exact after any history ending in Encode (with the C22 side conditions for decoding); stale after a Flush (witness)."
  },
  {
   "property": "C24",
   "status": "partial",
   "theorems": [
    "Goorc.uint_round_ok_iff_partial",
    "Goorc.int_short_ok",
    "Goorc.int_never_fails_false"
   ],
   "note": "False in general (patched blocks can fail)."
  },
  {
   "property": "C25",
   "status": "partial",
   "theorems": [
    "Goorc.int_pending_partial",
    "Goorc.int_pending_false",
    "Goorc.int_pending_lost"
   ],
   "note": "False: pending values grow without bound when a full buffer starts with neither a run nor a monotone stretch, and Flush then writes a block whose header cannot hold the count; one-step bound proved otherwise."
  },
  {
   "property": "C26",
   "status": "partial",
   "theorems": [
    "Goorc.rle_format_partial",
    "Goorc.rle_stream_format_partial",
    "Goorc.rle_progression_exact",
    "Goorc.rle_format_false_progression",
    "Goorc.rle_unsigned_patched_refused",
    "Goorc.rle_format_false_entry"
   ],
   "note": "Every well-formed block of the format except arithmetic progressions with a step, patched blocks in unsigned streams and over-wide patch entries; for these the exact behaviour is proved."
  },
  {
   "property": "C27",
   "status": "partial",
   "theorems": [
    "Goorc.int_decode_total_partial",
    "Goorc.int_decode_patched_partial",
    "Goorc.int_decode_total_false"
   ],
   "note": "Total except for patched blocks in signed streams, which can panic (witness); these never hang and return 1 to 512 values."
  },
  {
   "property": "C28",
   "status": "proved",
   "theorems": [
    "Goorc.chunk_header_roundtrip_iff",
    "Goorc.chunk_header_format"
   ],
   "note": "Exactly the lengths below 2^23."
  },
  {
   "property": "C29",
   "status": "proved",
   "theorems": [
    "Goorc.chunks_roundtrip",
    "Goorc.chunks_concat"
   ],
   "note": "Compressor is a parameter assumed lossless."
  },
  {
   "property": "C30",
   "status": "proved",
   "theorems": [
    "Goorc.chunks_fit",
    "Goorc.chunks_empty",
    "Goorc.chunks_zero_size"
   ],
   "note": "Chunk size 0 loops for ever (chunks_zero_size)."
  },
  {
   "property": "C31",
   "status": "proved",
   "theorems": [
    "Goorc.empty_chunk_ends",
    "Goorc.stream_bytes"
   ],
   "note": "Any encoder, any program of ReadByte/ReadFull calls, any chunk size."
  },
  {
   "property": "C32",
   "status": "partial",
   "theorems": [
    "Goorc.stream_length",
    "Goorc.stream_size_partial",
    "Goorc.stream_size_false"
   ],
   "note": "Length proved; Size counts what the encoder emitted, not the values it still holds (witness)."
  },
  {
   "property": "C33",
   "status": "partial",
   "theorems": [
    "Goorc.stream_position_partial",
    "Goorc.byte_stream_seek_partial",
    "Goorc.bool_stream_seek_partial",
    "Goorc.int_stream_seek_partial",
    "Goorc.varint_stream_seek_partial",
    "Goorc.float_stream_seek_partial",
    "Goorc.double_stream_seek_partial",
    "Goorc.string_stream_seek_partial",
    "Goorc.seek_none_false",
    "Goorc.seek_empty_false"
   ],
   "note": "All typed streams, every point in them; false without compression beyond the first chunk size of bytes and for empty compressed streams (witnesses); integers under the side conditions of C22."
  },
  {
   "property": "C34",
   "status": "partial",
   "theorems": [
    "Goorc.byte_stream_roundtrip",
    "Goorc.bool_stream_roundtrip_partial",
    "Goorc.int_stream_roundtrip_partial",
    "Goorc.uint_stream_roundtrip_partial",
    "Goorc.varint_stream_roundtrip",
    "Goorc.float_stream_roundtrip",
    "Goorc.double_stream_roundtrip",
    "Goorc.string_stream_roundtrip",
    "Goorc.int_stream_kind",
    "Goorc.float_stream_kind"
   ],
   "note": "Booleans come back followed by the padding of the last byte; integers whenever the encoding itself reads back (C21, C22)."
  },
  {
   "property": "C35",
   "status": "partial",
   "theorems": [
    "Goorc.byte_stream_roundtrip",
    "Goorc.bool_stream_roundtrip_partial",
    "Goorc.bool_stream_finished_false",
    "Goorc.int_stream_roundtrip_partial",
    "Goorc.uint_stream_roundtrip_partial",
    "Goorc.varint_stream_roundtrip",
    "Goorc.float_stream_roundtrip",
    "Goorc.double_stream_roundtrip",
    "Goorc.string_stream_roundtrip"
   ],
   "note": "Exact for all streams; for booleans the end is reported only after the padding, for strings already when only empty strings remain."
  },
  {
   "property": "C36",
   "status": "partial",
   "theorems": [
    "Goorc.uncompressed_never_closes",
    "Goorc.uncompressed_reports_partial",
    "Goorc.flushOut_kind"
   ],
   "note": "False: no file can be closed with compression NONE, whatever was written; the failure is a reported error."
  },
  {
   "property": "C37",
   "status": "partial",
   "theorems": [
    "Goorc.byte_column_roundtrip",
    "Goorc.bool_column_roundtrip",
    "Goorc.smallint_column_roundtrip_partial",
    "Goorc.int_column_roundtrip_partial",
    "Goorc.bigint_column_roundtrip_partial",
    "Goorc.float_column_roundtrip_partial",
    "Goorc.double_column_roundtrip",
    "Goorc.string_column_roundtrip_partial",
    "Goorc.date_column_roundtrip_partial",
    "Goorc.short_strings_roundtrip_partial"
   ],
   "note": "Byte, boolean and double columns with no side condition; integers, dates and string lengths whenever the integer encoding reads back (exact conditions in C17-C22), dates within 106751 days of 1970, floats without row index (with it Write panics, C47)."
  },
  {
   "property": "C38",
   "status": "partial",
   "theorems": [
    "Goorc.timestamp_column_exact",
    "Goorc.decimal_column_exact",
    "Goorc.timestamp_never_stored",
    "Goorc.decimal_never_stored"
   ],
   "note": "False: timestamps and decimals already in the vector are kept and the decoded value thrown away, anything else in it panics; the exact behaviour is proved."
  },
  {
   "property": "C39",
   "status": "partial",
   "theorems": [
    "Goorc.binary_column_exact"
   ],
   "note": "False: lengths are never written, so reading any non-null value fails; exact behaviour proved."
  },
  {
   "property": "C40",
   "status": "partial",
   "theorems": [
    "Goorc.dict_flush_partial",
    "Goorc.dict_flush_panics",
    "Goorc.dict_writes_ok"
   ],
   "note": "False as stated: Flush succeeds exactly when every row is null, and panics as soon as one string was written."
  },
  {
   "property": "C41",
   "status": "partial",
   "theorems": [
    "Goorc.skip_is_reading",
    "Goorc.binary_skip_partial",
    "Goorc.binary_skip_swallows",
    "Goorc.dictionary_skip_partial",
    "Goorc.dictionary_skip_unchecked",
    "Goorc.struct_skip_partial",
    "Goorc.struct_skip_false",
    "Goorc.byte_column_skip",
    "Goorc.bool_column_skip",
    "Goorc.smallint_column_skip_partial",
    "Goorc.int_column_skip_partial",
    "Goorc.bigint_column_skip_partial",
    "Goorc.float_column_skip_partial",
    "Goorc.double_column_skip",
    "Goorc.string_column_skip_partial",
    "Goorc.date_column_skip_partial"
   ],
   "note": "skip_is_reading: in every state, for every file, all leaf types but binary. False for binary columns of damaged files, for dictionary indexes out of range, and for nullable columns in nullable structs. The per-type theorems: any mix of skips and batches of columns that were written, side conditions as in C37."
  },
  {
   "property": "C42",
   "status": "partial",
   "theorems": [
    "Goorc.list_batch_partial",
    "Goorc.list_elements_iff",
    "Goorc.list_batch_false",
    "Goorc.list_skip",
    "Goorc.map_batch_partial",
    "Goorc.map_skip_partial",
    "Goorc.map_skip_squares",
    "Goorc.map_skip_exact",
    "Goorc.map_skip_then_next",
    "Goorc.squares_entries",
    "Goorc.map_skip_false"
   ],
   "note": "False as stated: after a batch the child vectors hold the elements of the last row only, and skipping a map row with m entries drops m*m of them. Lists skip exactly their elements."
  },
  {
   "property": "C43",
   "status": "partial",
   "theorems": [
    "Goorc.null_dropped_false",
    "Goorc.byte_column_drops_nulls",
    "Goorc.bool_column_drops_nulls",
    "Goorc.smallint_column_drops_nulls",
    "Goorc.int_column_drops_nulls",
    "Goorc.bigint_column_drops_nulls",
    "Goorc.float_column_drops_nulls",
    "Goorc.double_column_drops_nulls",
    "Goorc.string_column_drops_nulls",
    "Goorc.date_column_drops_nulls"
   ],
   "note": "False: the null is accepted and dropped, so later rows move up; the exact effect is proved for every type."
  },
  {
   "property": "C44",
   "status": "partial",
   "theorems": [
    "Goorc.column_count",
    "Goorc.int_column_stats",
    "Goorc.int_column_stats_partial",
    "Goorc.bool_column_stats",
    "Goorc.byte_column_stats",
    "Goorc.binary_column_stats",
    "Goorc.date_column_stats",
    "Goorc.string_column_stats",
    "Goorc.float_column_stats",
    "Goorc.timestamp_column_stats",
    "Goorc.decimal_column_stats",
    "Goorc.column_stats_false"
   ],
   "note": "Counts and sums exact over any history of writes, flushes and resets; the initial values leak into minimum and maximum (exact description and witness)."
  },
  {
   "property": "C45",
   "status": "partial",
   "theorems": [
    "Goorc.row_group_count",
    "Goorc.first_entry_nulls",
    "Goorc.row_group_count_partial",
    "Goorc.int_row_group_stats",
    "Goorc.row_group_stats",
    "Goorc.bool_row_group_stats",
    "Goorc.date_row_group_stats",
    "Goorc.timestamp_row_group_stats",
    "Goorc.row_group_stats_false"
   ],
   "note": "False: every group is one row early (exact description for every type, iff for the counts, witness)."
  },
  {
   "property": "C46",
   "status": "partial",
   "theorems": [
    "Goorc.row_index_positions",
    "Goorc.row_index_positions_partial",
    "Goorc.row_index_positions_false",
    "Goorc.byte_column_seek",
    "Goorc.bool_column_seek",
    "Goorc.smallint_column_seek_partial",
    "Goorc.int_column_seek_partial",
    "Goorc.bigint_column_seek_partial",
    "Goorc.double_column_seek",
    "Goorc.string_column_seek_partial",
    "Goorc.date_column_seek_partial",
    "Goorc.seek_without_index",
    "Goorc.seek_beyond_panics",
    "Goorc.date_seek_zero_fails",
    "Goorc.null_column_seek_fails"
   ],
   "note": "Writing half: positions are those after exactly (k+1)*stride rows, for timestamps and decimals after that many non-null rows. Reading half: for every mix of batches, skips and seeks that stays within the rows the right rows are delivered, if the streams can be sought in (C33) and, for integers, lengths and days, the integer encoding keeps the values (C22). Missing: float and decimal (no index can be written), binary (no lengths are written), timestamps (positions count non-null rows, values are not delivered); false of columns with an empty stream, of stride 0 of dates, and beyond the last entry, where the reader panics."
  },
  {
   "property": "C47",
   "status": "partial",
   "theorems": [
    "Goorc.index_second_stripe",
    "Goorc.float_index_fails",
    "Goorc.decimal_index_fails",
    "Goorc.index_panics"
   ],
   "note": "False: six types panic on the first value after a reset, float columns on any value, decimal columns fail. In the first stripe the other types succeed (C37 holds with the index on)."
  },
  {
   "property": "C48",
   "status": "partial",
   "theorems": [
    "Goorc.bytes_on_disk_exact",
    "Goorc.bytes_on_disk_partial",
    "Goorc.bytes_on_disk_false"
   ],
   "note": "True for columns without nulls and for one stripe; for nullable columns only the last stripe is counted (witness)."
  },
  {
   "property": "C49",
   "status": "proved",
   "theorems": [
    "Goorc.normalize_preorder",
    "Goorc.flat_iff",
    "Goorc.normalize_union",
    "Goorc.check_nulls_iff"
   ],
   "note": "Normalize numbers every column in pre-order, Flat accepts exactly normalized ids, for every schema without unions; a union stops the traversal with an error, and CheckNulls is characterised exactly."
  },
  {
   "property": "C50",
   "status": "proved",
   "theorems": [
    "Goorc.schema_round_trip",
    "Goorc.addChild_named",
    "Goorc.schema_names_missing",
    "Goorc.marshall_same"
   ],
   "note": "For schemas whose struct children are named as AddChild does. Nullability and encoding are not part of the footer types."
  },
  {
   "property": "C51",
   "status": "partial",
   "theorems": [
    "Goorc.verify_iff",
    "Goorc.unsupported_rejected_partial",
    "Goorc.unsupported_rejected_false",
    "Goorc.nullable_list_rejected"
   ],
   "note": "False as stated: only the first child of every node is checked. verify_iff is the exact characterisation."
  },
  {
   "property": "C52",
   "status": "partial",
   "theorems": [
    "Goorc.vector_outcomes",
    "Goorc.vector_mirrors_partial",
    "Goorc.vector_not_created",
    "Goorc.vector_without_slices",
    "Goorc.vector_mirrors_false",
    "Goorc.vector_cap"
   ],
   "note": "False for lists and maps (child vectors), proved for all other schemas."
  },
  {
   "property": "C53",
   "status": "proved",
   "theorems": [
    "Goorc.row_counts",
    "Goorc.file_layout"
   ],
   "note": "For every schema, every batch history and every stripe size."
  },
  {
   "property": "C54",
   "status": "proved",
   "theorems": [
    "Goorc.stripes_tile",
    "Goorc.file_layout"
   ],
   "note": "For every schema, every batch history and every stripe size."
  },
  {
   "property": "C55",
   "status": "proved",
   "theorems": [
    "Goorc.streams_found",
    "Goorc.initStreams_spec"
   ],
   "note": "For every stripe of every file the writer closes, whatever columns are included."
  },
  {
   "property": "C56",
   "status": "partial",
   "theorems": [
    "Goorc.every_row_iff",
    "Goorc.batch_loop_delivers",
    "Goorc.every_row_false"
   ],
   "note": "False in general: the last row of a stripe can be lost. Exact: which rows are delivered, and when all are."
  },
  {
   "property": "C57",
   "status": "partial",
   "theorems": [
    "Goorc.batch_loop_ends_iff",
    "Goorc.batch_loop_endless",
    "Goorc.loop_ends_false"
   ],
   "note": "False in general: exact condition on stripe sizes and batch size."
  },
  {
   "property": "C58",
   "status": "partial",
   "theorems": [
    "Goorc.seek_exact",
    "Goorc.seek_panics",
    "Goorc.seek_next_partial",
    "Goorc.seek_false"
   ],
   "note": "False: in files of this library Seek of any existing row panics; with a stride recorded it goes to another row in general (exact description, witness); the case where it works is seek_next_partial."
  },
  {
   "property": "C59",
   "status": "partial",
   "theorems": [
    "Goorc.file_tail_found"
   ],
   "note": "Exact: found if the tail has at most 16384 bytes, panic otherwise. Protocol buffers and compression are parameters assumed to read back what they wrote."
  },
  {
   "property": "C60",
   "status": "partial",
   "theorems": [
    "Goorc.no_rows_not_opened",
    "Goorc.closed_file_opens_partial"
   ],
   "note": "False for files without rows (and for files whose tail exceeds 16384 bytes, C59)."
  },
  {
   "property": "C61",
   "status": "partial",
   "theorems": [
    "Goorc.byte_column_reuse_exact",
    "Goorc.column_reuse_false"
   ],
   "note": "False for columns without nulls when the vector has rows marked null; otherwise C37 holds for any old vector."
  },
  {
   "property": "C62",
   "status": "partial",
   "theorems": [
    "Goorc.writable_readable_partial",
    "Goorc.writable_readable_iff",
    "Goorc.writable_readable_false",
    "Goorc.leaf_supported",
    "Goorc.readable_iff",
    "Goorc.unsupported_refused"
   ],
   "note": "False for char and varchar, and for float and double with an encoding other than DIRECT; exact characterisation in writable_readable_iff."
  },
  {
   "property": "C63",
   "status": "partial",
   "theorems": [
    "Goorc.struct_nulls_partial",
    "Goorc.fill_nulls_iff",
    "Goorc.struct_nulls_false",
    "Goorc.struct_nulls_panic"
   ],
   "note": "False for children with their own present stream, and panics for a struct in a nullable struct; proved otherwise."
  },
  {
   "property": "C64",
   "status": "partial",
   "theorems": [
    "Goorc.open_empty_file",
    "Goorc.open_short_file_partial",
    "Goorc.file_tail_short"
   ],
   "note": "False: an empty file panics; files of one to three bytes are reported."
  },
  {
   "property": "C65",
   "status": "partial",
   "theorems": [
    "Goorc.double_littleEndian_partial",
    "Goorc.float_bigEndian",
    "Goorc.float_littleEndian_false"
   ],
   "note": "Doubles little-endian; floats are stored big-endian, against the format."
  },
  {
   "property": "C66",
   "status": "partial",
   "theorems": [
    "Goorc.byte_column_end",
    "Goorc.bool_column_end",
    "Goorc.smallint_column_end",
    "Goorc.int_column_end",
    "Goorc.bigint_column_end",
    "Goorc.float_column_end",
    "Goorc.double_column_end",
    "Goorc.string_column_end",
    "Goorc.date_column_end",
    "Goorc.byte_column_end_nullable",
    "Goorc.bool_column_end_nullable",
    "Goorc.smallint_column_end_nullable",
    "Goorc.int_column_end_nullable",
    "Goorc.bigint_column_end_nullable",
    "Goorc.float_column_end_nullable",
    "Goorc.double_column_end_nullable",
    "Goorc.string_column_end_nullable",
    "Goorc.date_column_end_nullable"
   ],
   "note": "Exact number of phantom rows."
  },
  {
   "property": "C67",
   "status": "partial",
   "theorems": [
    "Goorc.file_opens",
    "Goorc.file_round_trip_partial",
    "Goorc.write_succeeds_partial",
    "Goorc.write_one_stripe_partial",
    "Goorc.fits_large",
    "Goorc.table_round_trip_partial",
    "Goorc.table_stripes_partial",
    "Goorc.typed_round_trip_partial",
    "Goorc.typed_stripes_partial",
    "Goorc.plainProto_lossless"
   ],
   "note": "False in general (C06, C17-C21, C56, C70). Total correctness of writing and reading under exact conditions; byte, boolean and double columns without any condition on values. Nullable structs included."
  },
  {
   "property": "C68",
   "status": "partial",
   "theorems": [
    "Goorc.foreign_dictionary_partial",
    "Goorc.foreign_dictionary_bad_index"
   ],
   "note": "Blocks of integers as in C26 (Handled)."
  },
  {
   "property": "C69",
   "status": "proved",
   "theorems": [
    "Goorc.stripes_roll_over"
   ],
   "note": "For every file that was closed."
  },
  {
   "property": "C70",
   "status": "partial",
   "theorems": [
    "Goorc.empty_last_stripe",
    "Goorc.empty_stripe_errs",
    "Goorc.small_stripes_unreadable"
   ],
   "note": "False: a file whose last stripe has no rows cannot be read; with stripe size 0 that is every file. Files whose stripes all have rows: C67."
  },
  {
   "property": "C71",
   "status": "proved",
   "theorems": [
    "Goorc.batching_irrelevant"
   ],
   "note": "Byte for byte, for every schema of leaves and structs."
  },
  {
   "property": "C72",
   "status": "proved",
   "theorems": [
    "Goorc.byte_growth",
    "Goorc.byte_run_exact"
   ],
   "note": "Growth bound over all histories ending in Flush; runs of equal bytes exactly."
  },
  {
   "property": "C73",
   "status": "partial",
   "theorems": [
    "Goorc.file_statistics",
    "Goorc.file_int_statistics",
    "Goorc.file_bool_statistics",
    "Goorc.reader_statistics",
    "Goorc.file_column_history"
   ],
   "note": "Counts, sums and true counts exact for every file that was closed; minimum and maximum of integers include 0 (exact), other types through file_column_history and C44."
  },
  {
   "property": "C74",
   "status": "partial",
   "theorems": [
    "Goorc.magic_not_checked",
    "Goorc.magic_false"
   ],
   "note": "False: the first three bytes are never read."
  },
  {
   "property": "C75",
   "status": "partial",
   "theorems": [
    "Goorc.foreign_tinyint",
    "Goorc.foreign_boolean",
    "Goorc.foreign_smallint_partial",
    "Goorc.foreign_int_partial",
    "Goorc.foreign_bigint_partial",
    "Goorc.foreign_date_partial",
    "Goorc.foreign_double",
    "Goorc.foreign_float_exact",
    "Goorc.foreign_float_false",
    "Goorc.foreign_string_partial",
    "Goorc.foreign_binary_partial"
   ],
   "note": "False for float (exact), timestamp and decimal (C38), and integer blocks not Handled (C26)."
  },
  {
   "property": "C76",
   "status": "partial",
   "theorems": [
    "Goorc.uints_at_once",
    "Goorc.uints_at_once_overwritten",
    "Goorc.uints_at_once_wrong",
    "Goorc.uints_one_by_one",
    "Goorc.reading_shares",
    "Goorc.strings_at_once",
    "Goorc.strings_at_once_hang"
   ],
   "note": "True of a fresh stream; after reading values one by one GetAllUInts returns overwritten values (the slices share memory)."
  },
  {
   "property": "C77",
   "status": "partial",
   "theorems": [
    "Goorc.date_encoder_refuses"
   ],
   "note": "False for every date."
  },
  {
   "property": "C78",
   "status": "proved",
   "theorems": [
    "Goorc.size_after_flush"
   ],
   "note": "Every column writer (leaf, dictionary, struct), any state before Flush."
  },
  {
   "property": "C79",
   "status": "proved",
   "theorems": [
    "Goorc.write_refuses",
    "Goorc.write_takes",
    "Goorc.file_takes",
    "Goorc.stats_take"
   ],
   "note": "Refused means an error or a panic."
  },
  {
   "property": "C80",
   "status": "partial",
   "theorems": [
    "Goorc.byte_column_terminates",
    "Goorc.bool_column_terminates",
    "Goorc.float_column_terminates",
    "Goorc.byte_column_robust",
    "Goorc.bool_column_robust",
    "Goorc.float_column_robust",
    "Goorc.ints_column_terminates_partial",
    "Goorc.string_column_terminates_partial",
    "Goorc.binary_column_terminates_partial",
    "Goorc.date_column_terminates_partial",
    "Goorc.timestamp_column_terminates_partial",
    "Goorc.decimal_column_terminates_partial",
    "Goorc.dictionary_column_terminates_partial",
    "Goorc.string_read_panics_iff",
    "Goorc.int_read_panics_only",
    "Goorc.date_read_panics_only",
    "Goorc.dictionary_read_panics_iff",
    "Goorc.ints_column_robust_false",
    "Goorc.string_column_robust_false",
    "Goorc.opened_streams_sane",
    "Goorc.insane_stream_hangs"
   ],
   "note": "Holds for tinyint, boolean, float and double. False for integers (patched blocks) and strings (lengths of 2^63 or more): witnesses, the exact cause of panics, and termination of all column types."
  },
  {
   "property": "C81",
   "status": "partial",
   "theorems": [
    "Goorc.struct_column_roundtrip",
    "Goorc.struct_stripes_roundtrip_partial",
    "Goorc.struct_stripes_false",
    "Goorc.struct_reset_fails",
    "Goorc.struct_column_stats",
    "Goorc.file_struct_statistics",
    "Goorc.struct_counts_iff",
    "Goorc.struct_bytes_on_disk",
    "Goorc.dict_bytes_on_disk",
    "Goorc.struct_row_index",
    "Goorc.struct_index_after_reset",
    "Goorc.struct_index_second_stripe_fails",
    "Goorc.dict_column_stats"
   ],
   "note": "One stripe of a nullable struct always reads back; several do if no flag is left behind and no index is written. The number of values of a struct counts null rows, the statistics in a row index are one row early, and the least string of a dictionary is always the empty one."
  },
  {
   "property": "C82",
   "status": "partial",
   "theorems": [
    "Goorc.foreign_tinyint_seek_exact",
    "Goorc.foreign_boolean_seek_exact",
    "Goorc.foreign_ints_seek_exact",
    "Goorc.foreign_date_seek_exact",
    "Goorc.foreign_double_seek_exact",
    "Goorc.foreign_float_seek_exact",
    "Goorc.foreign_string_seek_exact",
    "Goorc.foreign_binary_seek_exact",
    "Goorc.foreign_dictionary_seek_exact",
    "Goorc.foreign_decimal_seek_panics",
    "Goorc.foreign_date_unflagged_seek_panics",
    "Goorc.foreign_seek_false"
   ],
   "note": "False: SeekStride(k) goes to row group k-1 (exact theorems for every leaf type and for dictionaries, but not for timestamps, whose values are never stored, C46), and panics for decimals, and for dates that may be null but have no present stream."
  },
  {
   "property": "C83",
   "status": "partial",
   "theorems": [
    "Goorc.accepts_exact",
    "Goorc.own_streams_accepted_partial",
    "Goorc.only_own_streams_false",
    "Goorc.opens_exact",
    "Goorc.opened_stripe_streams"
   ],
   "note": "Exact acceptance table; the claim as stated is false for null flags of integers, direct strings and lists, and for tinyint columns."
  },
  {
   "property": "C84",
   "status": "partial",
   "theorems": [
    "Goorc.streams_looked_for",
    "Goorc.streams_at_their_places_exact"
   ],
   "note": "Exact: holds iff the index area has row indexes only; streams that are not row indexes shift the data streams."
  },
  {
   "property": "C85",
   "status": "partial",
   "theorems": [
    "Goorc.foreign_file_opens",
    "Goorc.foreign_file_reads_partial",
    "Goorc.foreign_stale_flags",
    "Goorc.foreign_inner_nulls",
    "Goorc.foreign_long_tail_panics"
   ],
   "note": "Every file laid out as the specification says is read back (up to the rows lost at stripe ends, C56), under three conditions each shown to be needed by a file that violates it: flags in every stripe for nullable columns, no nullable column in a nullable struct, a tail of at most 16 KiB. Not covered: dictionaries, lists, maps, floats, timestamps, decimals."
  },
  {
   "property": "C86",
   "status": "partial",
   "theorems": [
    "Goorc.foreign_stripe_roams",
    "Goorc.foreign_seek_exact",
    "Goorc.foreign_file_seek_false",
    "Goorc.foreign_seek_dates_fails",
    "Goorc.seek_next_exact",
    "Goorc.foreign_file_seekable"
   ],
   "note": "Calls on the readers of a stripe are characterised for all sequences of calls within the stripe (SeekStride(k) goes to row group k-1). Seek on a batch reader is refuted, and the first batch after it characterised; what later batches have after a Seek is C98."
  },
  {
   "property": "C87",
   "status": "proved",
   "theorems": [
    "Goorc.open_terminates",
    "Goorc.open_panics_iff",
    "Goorc.open_ok_iff"
   ],
   "note": "For all bytes. Lengths of 2^63 or more in the postscript are not modelled."
  },
  {
   "property": "C88",
   "status": "partial",
   "theorems": [
    "Goorc.reading_terminates",
    "Goorc.created_agrees",
    "Goorc.next_hangs",
    "Goorc.cyclic_types_hang"
   ],
   "note": "Under two conditions, each shown to be needed. That reading does not panic is not claimed."
  },
  {
   "property": "C89",
   "status": "proved",
   "theorems": [
    "Goorc.file_row_indexes"
   ],
   "note": "What a row index of a column says is C45, C46, C81."
  },
  {
   "property": "C90",
   "status": "partial",
   "theorems": [
    "Goorc.collections_counted_partial",
    "Goorc.collections_complete_partial",
    "Goorc.collections_lost_elements"
   ],
   "note": "Complete rows only in batches of one row; refuted for larger ones. No deeper nesting."
  },
  {
   "property": "C91",
   "status": "partial",
   "theorems": [
    "Goorc.later_stream_counts",
    "Goorc.records_counted_partial",
    "Goorc.records_complete_partial",
    "Goorc.record_table_reads",
    "Goorc.structs_in_lists_lost"
   ],
   "note": "Lists and maps nested to any depth in structs nested to any depth, and dictionaries; refuted for lists of structs. Missing: structs with nulls, nullable contents of nullable collections, and the restrictions of C85."
  },
  {
   "property": "C92",
   "status": "partial",
   "theorems": [
    "Goorc.os_readFull",
    "Goorc.os_copyN",
    "Goorc.os_readAt",
    "Goorc.os_take",
    "Goorc.MockFile.write_spec",
    "Goorc.MockFile.writes_spec",
    "Goorc.MockFile.readFull_spec",
    "Goorc.MockFile.copyN_spec",
    "Goorc.MockFile.reads_back",
    "Goorc.MockFile.not_quite_a_file"
   ],
   "note": "True for files of the operating system that nobody changes meanwhile. False for files in memory in three corners (witness); MockFile.copyN_spec excludes copies up to the last byte of the buffer. A clone that writes is not modelled."
  },
  {
   "property": "C93",
   "status": "partial",
   "theorems": [
    "Goorc.deep_groups_exact",
    "Goorc.deep_seek_exact",
    "Goorc.deep_group_off_by_one",
    "Goorc.map_skip_exact",
    "Goorc.map_skip_then_next",
    "Goorc.map_seek_wrong"
   ],
   "note": "Exact for what the code does; the promised behaviour is refuted (row groups off by one, maps, Seek beyond the first stripe or row group). Skip in maps is exact for every column of maps, but not put together for tables with maps and dates; the restrictions of C91 apply."
  },
  {
   "property": "C94",
   "status": "proved",
   "theorems": [
    "Goorc.damaged_table_orderly",
    "Goorc.created_tabular",
    "Goorc.footer_panics",
    "Goorc.brittle_panics",
    "Goorc.flagless_panics",
    "Goorc.stripeless_panics"
   ],
   "note": "flat tables of tinyint, boolean, float and double columns; the conditions on footers, kinds, vectors and stripes are each shown to be needed. A missing data stream panics when the column is first used (footer_panics)."
  },
  {
   "property": "C95",
   "status": "partial",
   "theorems": [
    "Goorc.interrupted_prefix",
    "Goorc.interrupted_keeps_stripes",
    "Goorc.interrupted_first_stripe",
    "Goorc.opens_behind",
    "Goorc.interrupted_opens",
    "Goorc.interrupted_opens_false"
   ],
   "note": "All but the last clause is proved; the last clause (an interrupted file does not open) is refuted for every compressor and protocol buffer library, and holds as long as no stripe was finished (between calls). Calls that fail or panic half-way are not considered."
  },
  {
   "property": "C96",
   "status": "partial",
   "theorems": [
    "Goorc.tryWrite_outcome",
    "Goorc.tryWrite_fine",
    "Goorc.tryWrite_failed",
    "Goorc.failed_write_exact",
    "Goorc.failed_write_harmless",
    "Goorc.calls_one_stripe",
    "Goorc.failed_write_mixes_rows"
   ],
   "note": "The claim is false (failed_write_mixes_rows); proved is exactly what an error leaves behind, that as long as no stripe is finished the rows that count are those of the calls that went well, and the case in which nothing is left behind. Errors other than those for a value of the wrong type are not followed."
  },
  {
   "property": "C97",
   "status": "partial",
   "theorems": [
    "Goorc.parallel_batches_partial",
    "Goorc.callers_embodied",
    "Goorc.caller_is_client",
    "Goorc.created_streams",
    "Goorc.parallel_reading_partial",
    "Goorc.schedule_keeps",
    "Goorc.client_runs",
    "Goorc.client_uses",
    "Goorc.client_decodes",
    "Goorc.parallel_create_false"
   ],
   "note": "Proved for goroutines that have a batch reader each, created beforehand: any adaptive sequence of Next and Seek (Seek: in tables without binary columns, whose Skip goes on after an error). Which error it is is not compared. Memory other than file handles that goroutines share is not modelled. The last clause is refuted: batch readers must not be created at the same time."
  },
  {
   "property": "C98",
   "status": "partial",
   "theorems": [
    "Goorc.deep_tour_exact",
    "Goorc.seek_keeps_sizes",
    "Goorc.seek_phantom_rows",
    "Goorc.seek_back_ends_early"
   ],
   "note": "The promise is refuted; what the calls return instead is described exactly by a small machine, for every sequence of calls of Next and Seek, every file of a table with lists and structs (FileDeep), every number of stripes and every batch size. Missing: a Next that asks for more rows than there are after the row its columns are at (only the witnesses), dates and maps, streams that cannot be sought in (C33)."
  },
  {
   "property": "C99",
   "status": "proved",
   "theorems": [
    "Goorc.projection",
    "Goorc.choices_agree",
    "Goorc.projection_partial",
    "Goorc.projections_agree",
    "Goorc.damage_is_local"
   ],
   "note": "For every content of the file, every table without unions, every two choices and every sequence of calls. projection says that a program that reads more columns without an error or panic is followed by the one that reads fewer; that the converse fails is shown (damage_is_local). projection_partial and projections_agree are the case without lists and maps."
  }
 ]
}
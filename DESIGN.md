# Formal model of goorc in Lean 4

## 1. What this is

`lean/Verif` contains a model, written function by function from the Go source in `/repo/orc`,
of the ORC encodings, the chunked streams, the column readers and writers, the schema code and the
stripe/file reader and writer, together with theorems about it. `properties.jsonl` lists the
properties, `MANIFEST.json` maps each to its theorems.

Layout:

- `Verif/Go/*` - the fragment of Go the model needs: result type with error and panic, bytes,
  64-bit words, dynamic values, a free monad of byte reads (`Dec`).
- `Verif/Model/*` - the model. Every definition cites the file and lines it models.
- `Verif/Spec/*` - small specifications used in theorem statements that are independent of the model.
- `Verif/Proofs/*` - helper lemmas.
- `Verif/Props/*` - the property theorems (the ones named in MANIFEST.json), with non-vacuity examples.
- `Verif/Check/*` - the unit tests of the repository, evaluated in the model with `#guard`. They are no proofs and no theorem
  uses them; they are evidence that the hand transcription behaves like the code. Every vector of `orc/encoding`, `orc/common`,
  `orc/stream`, `orc/column`, the stripe and the file tests gives what the test expects, except the two column tests of decimals
  and timestamps, where source and test disagree (the readers never store what they read, C38) and the model follows the source.

## 2. Trusted base

- Lean 4.33.0's kernel. Theorems depend at most on `propext`, `Classical.choice`, `Quot.sound`.
  No axioms are added; no `sorry`, `native_decide`, `bv_decide`.
- The faithfulness of the transcription from Go to Lean, which is by hand. Conventions:
  - a Go call yields `ok`, `err` or `panic` (`Res`); state after an error or panic is not modelled,
    except that a panic/err is never reported as success (what a `Write` leaves behind that reports a value of the wrong type
    is in `Model/FailedWrite`, what one leaves behind whose file fails is in `Model/Disk`);
  - `uint64` and `int64` are `BitVec 64` (two's complement, wraparound), `byte` is `BitVec 8`,
    `int` (lengths, indices) is `Nat`/`Int` without overflow, `uint16` lengths wrap where it matters;
  - slices are lists (aliasing is modelled only where the code relies on it), `bytes.Buffer` is a list of bytes
    whose writes never fail, maps are association lists;
  - logging is dropped, `errors.WithStack` is the identity;
  - `encoding/binary` varints and fixed-width integers, `io.ReadFull`, `bytes.Buffer` are modelled by hand
    from the documented behaviour of the Go standard library;
  - float expressions that only compute small integers (`int(float64(n)*0.9)`, `math.Ceil(x/8)`) are
    replaced by exact integer arithmetic.
- Compression: `compress/flate` is a parameter `Codec` with `comp k x` (the k-th use of a compressor
  object) and `decomp`. Theorems that need it assume losslessness `decomp (comp k x) = some x`.
  The code reuses one compressor object after `Close` without `Reset`; whether the library supports that
  is outside the model (the assumption covers it explicitly through `k`).
- One `Read` of a decompressor (only in `ReadChunks`, Model/ReadChunks.lean) is a parameter `FirstRead`; `FirstRead.Legal` is
  what `io.Reader` promises of it. That of `flate` delivering at most 32 KiB at a time is not modelled.
- Protobuf: `proto.Marshal`/`Unmarshal` are a parameter with a round-trip assumption where needed.
- Files: in the readers a file is a byte list and an offset, and reads return all available requested bytes. That this is
  what `io.ReadFull` and `io.CopyN` give on the files of `orc/io/file.go`, however reads are split, is C92 (`Model/File`);
  that nobody changes the file meanwhile is assumed.

### What is modelled

| Module of `Verif/Model` | Go code |
| --- | --- |
| `EncByte`, `EncBool`, `EncScalar`, `EncPackage`, `Encoder` | `orc/encoding/{byte,bool,float,string,package}.go`: all encoders and decoders, varints, zigzag, nanosecond packing, bit-level reader and writer, width codes |
| `EncInt` | `orc/encoding/int.go`: RLEv2 decoder and encoder, every block type |
| `Time` | the `Timestamp`, `Date`, `Decimal64` conversions of `orc/api/vector.go` |
| `Chunk` | `orc/common/misc.go`: chunk headers, compression of buffers, decompression |
| `StreamWriter`, `StreamReader`, `StreamTyped` | `orc/stream/*.go` |
| `ColWriter`, `ColKinds` | writers of the ten leaf column types, statistics and row index (`orc/column/*.go`) |
| `ColReader` | readers of the leaf column types, `SeekStride`, `Skip`, the dictionary reader |
| `ColTable` | dictionary writer, struct writer, the factories of `orc/column/package.go` |
| `ColNested` | list, map and struct readers |
| `Schema` | `orc/api/type.go`, batch vectors of `orc/api/vector.go`, schema part of `orc/reader.go` |
| `StripeWriter` | `orc/writer.go` and the writing half of `orc/stripe.go` |
| `Disk` | `orc/writer.go`, the writing half of `orc/stripe.go` and all `WriteOut`s once more, with every `Write` of a file that can fail |
| `Schedule` | `orc/stream/reader.go` once more, as sequences of calls on file handles that other goroutines can come between; `InitStream`, the reading part of `readFooter` |
| `SliceMem` | `orc/stream/int.go` and its decoder once more, with the memory of their slices |
| `FailedWrite` | the same `Write`, with the state it leaves when it reports a value of the wrong type |
| `File` | `orc/io/file.go`: `MockFile`, `osFile`, with `io.ReadFull` and `io.CopyN` |
| `FileReader` | `orc/reader.go` and the reading half of `orc/stripe.go` |

`Spec/Tables` and `Spec/Rows` define the clients (`writeFile`, `readFile`): the loops a user writes around the API.

### What is not modelled

- Logging; `orc/package.go`;
  the generated protobuf code; `bench`, `examples` and the tests. The library has no concurrency.
- Allocation. `make` with a size read from a file is assumed to succeed unless the size is negative, where Go
  panics and so does the model. Running out of memory is outside the model.
- File descriptors, except for which of them a batch reader opens and closes (Model/Close.lean): `Close` of the file reader
  itself, failures of opening or closing a file, and the descriptors a failed `CreateBatchReader` leaves behind.
- Code no public entry point reaches: `listV2Writer`, `Batch` in `vector.go`, the lower-case `setId`, the
  package-level `verifySchema`, `CheckWriteOpts`, `zlibCompressingAll`, `ensureOrcFooter`, the
  `seek` helper in `column/reader.go`, `CheckBatch`.
- `Vec.len` gives 0 for a nil child where `Len` would dereference it; `Write` asks `Vec.lenPanics` first.
- Zstandard, Snappy, LZO, LZ4: the code has no branch for them, they are errors in the code and in the model.
- Floating point arithmetic in statistics is a parameter (`Arith`): sums are folds of an unspecified addition. `Float64` of a
  decimal is a parameter there and modelled on its own in Model/DecimalFloat.lean, over any arithmetic.

### Assumptions that appear as hypotheses

- `Codec.Lossless`: decompression inverts every use of the compressor.
- `Proto.Reads`/lossless protobuf: unmarshalling inverts marshalling for the messages of the file at hand.
- `Arith.Parses`: decimal text is parsed back.

`runCodec`, `plainProto` and `exArith` are concrete instances that meet them, used in the examples.

## 3. Where the code does not do what a user would expect

The properties are stated as a user would want them. Where the code falsifies one, the negation
is proved with a concrete witness and the strongest true part is kept as `..._partial`, usually
next to an exact characterisation of what the code does instead.

| What happens | Theorem |
| --- | --- |
| The boolean encoder keeps the bits of the incomplete last byte after a flush (C06) | `bool_reuse_false`, `bool_reuse_exact` |
| Timestamps in locations other than UTC come back shifted; `GetMilliSeconds` is wrong (C13) | `timestamp_roundtrip_iff`, `getMilliSeconds_false` |
| Dates further than 106751 days from 1970 saturate (C14) | `date_roundtrip_iff` |
| Short runs of integers with a zero byte, runs of zeros, blocks of zeros cannot be read (C17, C18, C21) | `short_repeat_roundtrip_iff`, `direct_roundtrip_iff`, `uint_zeros_roundtrip_iff` |
| Delta blocks of large values fail or panic (C19, C24) | `delta_false`, `int_never_fails_false`, `uint_round_ok_iff_partial` |
| Patched blocks come back wrong or fail (C20) | `patched_false_width`, `patched_false_gap`, `patched_false_base`, `patched_false_entry`, `patched_fails` |
| The integer encoder can keep more than 512 values and then lose them (C25) | `int_pending_false`, `int_pending_lost` |
| Valid RLEv2 blocks of other writers are misread: progressions with a fixed step (C26) | `rle_format_false_progression` |
| Damaged integers and string lengths panic the reader (C27, C80) | `int_decode_total_false`, `string_read_panics_iff`, `ints_column_robust_false` |
| Positions in uncompressed streams beyond the first chunk cannot be sought (C33) | `seek_none_false`, `seek_empty_false` |
| No uncompressed file can be closed (C36) | `uncompressed_never_closes` |
| Timestamp and decimal columns deliver nothing (C38) | `timestamp_never_stored`, `decimal_never_stored` |
| Binary columns cannot be read back: lengths are never written (C39) | `binary_column_exact` |
| Dictionary columns panic at flush (C40) | `dict_flush_panics` |
| A batch of lists or maps keeps the elements of its last row; skipping a map row drops m*m entries (C42) | `list_batch_false`, `map_skip_false` |
| Nulls in columns without nulls are dropped silently (C43) | `null_dropped_false` |
| Minimum and maximum include 0 (C44, C73) | `column_stats_false` |
| Row group statistics are one row early (C45) | `row_group_stats_false` |
| With row indexes the second stripe panics, floats panic, decimals fail (C47) | `index_panics`, `float_index_fails`, `decimal_index_fails` |
| Bytes on disk of nullable columns count the last stripe only (C48) | `bytes_on_disk_false` |
| Only the first child of a type is checked for nullability (C51) | `unsupported_rejected_false`, `verify_iff` |
| Vectors of lists and maps lack children (C52) | `vector_mirrors_false` |
| The last row of a stripe is lost, or the batch loop never ends (C56, C57) | `every_row_iff`, `batch_loop_ends_iff` |
| `Seek` panics on every file of this library (C58) | `seek_panics`, `seek_false` |
| Tails over 16 KiB panic the reader (C59); empty files do too (C64) | `file_tail_found`, `open_empty_file` |
| Files without rows, or with an empty last stripe, cannot be opened (C60, C70) | `no_rows_not_opened`, `small_stripes_unreadable` |
| Null flags of an old vector survive in columns without nulls (C61) | `column_reuse_false` |
| char and varchar, and float columns not DIRECT, are writable but not readable (C62) | `writable_readable_false` |
| Structs in nullable structs panic, nulls are not passed down (C63) | `struct_nulls_panic`, `struct_nulls_false` |
| Floats are big-endian (C65, C75) | `float_littleEndian_false`, `foreign_float_false` |
| Nullable and boolean columns deliver padding as rows (C66) | `*_column_end_nullable` |
| The magic at the start is not checked (C74) | `magic_not_checked` |
| `GetAllUInts` overwrites values of the current block; `GetAllString` can hang (C76) | `uints_at_once_overwritten`, `uints_at_once_wrong`, `strings_at_once_hang` |
| The date encoder refuses every date (C77) | `date_encoder_refuses` |
| `ReadChunks` calls `Read` once per chunk and loses the rest; incomplete chunks panic or are completed from behind the slice (C111) | `readChunks_loses`, `readChunks_cuts`, `readChunks_cut`, `readChunks_beyond` |
| `ReadVUint` throws errors away, may never return, and cuts numbers above 64 bits (C112) | `readVUint_swallows`, `readVUint_hangs`, `readVUint_overflows` |
| `Decimal64.Float64` multiplies by ten times the scale (C113) | `decimalFloat_iff`, `decimalFloat_wrong` |
| Times before 1970 that are no midnights are stored as the next day (C114) | `toDays_day_iff`, `noon_is_next_day` |
| More than ten equal integers beyond 56 bits make the encoder panic (C118) | `int_run_iff`, `int_run_panics` |

## 4. Plan per property

- **C01 Byte run-length round trip** - encoder/decoder as pure functions on byte lists; induction on the pending buffer, each emitted run decodes to its prefix.
- **C02 Byte run-length encoder is reusable across flushes** - fold of an arbitrary list of Encode/Flush operations; invariant: decode(emitted) ++ pending = encoded so far.
- **C03 Byte run-length positions point at the right value** - same invariant; position = pending length.
- **C04 Byte run-length decoder is total on arbitrary input** - case analysis of the one-block decoder on an arbitrary list; counts and consumed length bounded.
- **C05 Boolean bit-packing round trip** - bool encoder state = byte encoder + partial byte; invariant relating bits to bytes, then C02.
- **C06 Boolean encoder is reusable across flushes** - false: stale partial byte. Negation by witness; exact condition for a clean flush proved (_partial).
- **C07 Boolean positions point at the right value** - invariant of C05 with the pending counts.
- **C08 Zigzag is a bijection on 64-bit values** - BitVec 64 arithmetic, through Nat/Int.
- **C09 Decimal mantissa varint round trip** - PutVarint/ReadVarint of encoding/binary modelled; induction on the number of 7-bit groups.
- **C10 Float and double round trip bit-exactly** - big/little endian byte lists of BitVec 32/64.
- **C11 String contents round trip** - list append/take.
- **C12 Timestamp nanosecond encoding round trip** - arithmetic on Nat with the 64-bit wrap explicit; both copies.
- **C13 Timestamp conversion keeps the instant** - instants as integers, location as an offset; false for non-UTC and for GetMilliSeconds: negation + UTC partial.
- **C14 Date conversion round trip** - int64 nanosecond arithmetic with wraparound and saturation; false beyond 106751 days: negation + range partial.
- **C15 Bit-width codes are inverted by the reader** - exhaustive over the 0..64 table (genuinely finite) and general error case.
- **C16 Bit packing round trip** - bit lists: writer emits the concatenation of the fields, reader consumes fields from a bit list.
- **C17 Integer run: short repeat round trip** - exact iff: value nonzero with no zero byte below its top byte.
- **C18 Integer run: direct round trip** - exact iff on all-zero lists; otherwise round trip from C16.
- **C19 Integer run: delta round trip** - modular arithmetic; explicit side condition on varint buffer and widths; witnesses for failures.
- **C20 Integer run: patched base round trip** - explicit decidable side condition; witnesses for failures.
- **C21 Integer column data round trip** - false in general; round trip under a per-run condition computed by a separate specification of the run plan; witnesses.
- **C22 Integer encoder is reusable and loses nothing across flushes** - Encode/Flush histories with the same condition.
- **C23 Integer encoder positions point at the right value** - invariant position = pending.
- **C24 Integer encoder never fails on valid integers** - false: error and panic witnesses; classification of when each block writer succeeds.
- **C25 Integer encoder keeps at most one block pending** - false: a family of lists that is never emitted; invariant pending<=512 under the condition.
- **C26 Integer decoder agrees with the ORC RLEv2 format** - independent RLEv2 format specification (bit-list based); decoder refines it for short repeat, direct, delta with width, patched; fixed delta negated.
- **C27 Integer decoder is total on arbitrary input** - decoder total: short-repeat/direct/delta never panic, counts bounded; patched panics: witness.
- **C28 Chunk headers round trip** - Nat arithmetic on 24-bit header.
- **C29 Compressed chunk framing round trip** - compressor as parameter with lossless hypothesis; induction on chunk count.
- **C30 Chunks respect the chunk size** - all chunks of the output characterised by a relational chunk grammar.
- **C31 A stream reads back the bytes that were written** - simulation: the chunked reader refines a flat byte list, proved once for every decoder via a free monad of reads.
- **C32 Stream length accounting** - invariant on the writer buffers.
- **C33 Stream positions can be sought to** - seek to recorded (chunk, offset, skip) leaves the suffix of the flat list; false for NONE beyond one chunk.
- **C34 Typed streams round trip** - C31 composed with the encoder round trips.
- **C35 End of stream is detected** - buffer empty and length consumed iff flat list exhausted.
- **C36 Uncompressed files can be written** - false: CompressingLeft errors for NONE; every stripe flush errors.
- **C37 Nullable column round trip** - present stream + data streams; generic column round trip by induction on rows.
- **C38 Decimal and timestamp columns deliver their values** - false: NextBatch leaves the vector unchanged, for every input.
- **C39 Binary columns round trip** - false: length stream is always empty; every read fails.
- **C40 Dictionary string columns can be written** - false: Flush panics for every nonempty column.
- **C41 Skip n rows equals reading n rows** - induction on rows; shared lemma for all non-nested readers, as an equation between `Skip(n)` and a discarded batch of n rows in every state (`Proofs/Skip`); structs by induction on the depth of the reader. False for binary columns of damaged files (an error is swallowed), dictionary indexes out of range, and nullable columns in nullable structs (`Skip` moves the column only for rows that are there, `NextBatch` for all): negations with witnesses.
- **C42 List and map rows carry their own elements** - false: list reader resets the child vector for every row; map Skip skips l*l; negations + single-row partials. Skip of maps is described exactly for all rows (map_skip_exact, map_skip_then_next), and is right for all columns only if no skipped row has more than one entry (squares_entries).
- **C43 Null written to a non-nullable column is rejected** - false: witness; shift characterised.
- **C44 Column statistics describe the column** - fold characterisation; counts and sums exact, min/max are over values and 0; negation of exactness.
- **C45 Row-group statistics describe their row group** - false: entry k misses the last row of its group; exact characterisation.
- **C46 Row-index entries point at stride boundaries** - positions layout; for the reading half a client (`Spec/SeekCol`) that mixes `NextBatch`, `Skip` and `SeekStride` in any order, an invariant saying before which row the reader stands, and per encoding what it still holds at a position (`Proofs/ColSeek`, `Proofs/ColSeekKinds`).
- **C47 Writing with the row index enabled works for every type and stripe** - false: panic/err theorems per type.
- **C48 Bytes-on-disk statistics add up** - fold over stripes; false for nullable columns.
- **C49 Schema normalisation numbers columns in pre-order** - structural induction on schema trees.
- **C50 Schema survives the file footer** - pre-order tables: decode(encode t) = t by induction.
- **C51 Unsupported nullability is rejected everywhere** - false: witness; what is checked is proved (first-child spine).
- **C52 Batch vectors mirror the schema** - structural induction.
- **C53 Row counts add up** - invariant over write histories with an abstract column writer.
- **C54 Stripes tile the file** - invariant over flush histories.
- **C55 Stream offsets found by the reader are the writer's** - prefix sums.
- **C56 Reading batches delivers every row exactly once** - exact condition under which Next delivers everything; negation.
- **C57 The batch loop terminates** - negation: state in which Next never ends; partial under the condition of C56.
- **C58 Seek positions at the requested row** - seek arithmetic; negation.
- **C59 Footer and postscript are found again** - tail within 16 KiB: exact recovery; otherwise panic.
- **C60 A closed file can be opened** - false: trailing empty stripe; partial otherwise.
- **C61 Batches do not depend on what the vector held before** - with a present stream null flags are independent of old contents; false without.
- **C62 Every writable type is readable** - finite tables.
- **C63 Null structs null their children** - vector trees; nested non-null struct panics.
- **C64 Opening an empty file reports an error** - false: nil tail dereference.
- **C65 Floating point bytes follow the ORC format** - specification of little-endian as a base-256 number; true for doubles, false for floats (big-endian): witness.
- **C66 Reading past the last row of a column is an error** - True for columns without nulls other than booleans (`*_column_end`). False for nullable columns and for booleans: up to 7 padding bits are delivered as rows (null rows, false values); exactly how many is stated by `*_column_end_nullable` and `bool_column_end`.
- **C67 A table that was written can be read back** - `writeFile` and `readFile` are clients of the modelled API. False in general (exact conditions: rows lost at the end of stripes C56, stale flags in later stripes C06, integer values C17-C21). Proved: `file_round_trip_partial` (whatever file Close produced), `table_round_trip_partial` (total: writing succeeds and reading returns the rows, one stripe), `table_stripes_partial` (any number of stripes), `typed_round_trip_partial` and `typed_stripes_partial` (no condition on the values of byte, boolean and double columns). Structs may be nullable, with leaf columns and nullable structs in them: `Schema.Tabular` excludes only what the code cannot handle (a struct without nulls in a nullable one, C63; a nullable first child on the path of first children, C51), and `NullsFit` says where nulls can be (a column that is not nullable is null exactly where its struct is). A lossless protocol buffer codec is shown to exist (`plainProto_lossless`).
- **C69 A stripe ends with the row that fills it** - `stripes_roll_over`: from the trace of a writer (`file_traced`), by induction over rows and batches.
- **C70 A closed file with rows can be read** - False: Close always writes a last stripe, and the reader rejects a stripe without rows. `empty_last_stripe`: every file with such a stripe is unreadable; `small_stripes_unreadable`: with StripeSize 0 this is every file. The positive case is C67.
- **C71 How rows are divided into batches does not matter** - `batching_irrelevant`: `write` is shown to be a fold over single rows (`writeLoop_steps`), each of which depends only on the row.
- **C72 Byte run-length encoding is compact** - `byte_growth` by induction over histories with a potential for the buffered bytes; `byte_run_exact` gives the bytes of a run.
- **C73 The statistics in the footer describe the table** - every column writer of a file is taken through the trace of the file (C69) to a history of calls, to which the theorems of C44 apply. Counts and sums hold; minimum and maximum include 0 (C44).
- **C74 A file that does not start with the magic is rejected** - false: `magic_not_checked` shows that opening gives the same reader for any three bytes; witness `magic_false`.
- **C68 Dictionary string columns of other writers can be read** - `foreign_dictionary_partial`: loading is shown by induction over the strings; the loaded part of the reader commutes with skipping and is kept by reading. `foreign_dictionary_bad_index`: an index outside panics.
- **C75 Columns of other writers can be read** - Spec/Foreign.lean describes such columns from the format (blocks of Spec/Rlev2, runs of bytes, chunks). `foreign_*`: for every readable type. False for float (byte order), for timestamp and decimal (C38), and for blocks of integers not `Handled` (C26).
- **C76 Reading the rest of a stream at once** - true of a stream of which nothing has been read (`uints_at_once`), false after that: the slice the reader holds is the one the decoder writes the next block to (`uints_at_once_overwritten`, `uints_at_once_wrong`). Slices with their arrays are modelled here (Model/SliceMem), for every way in which `append` may grow an array; one by one, the memory does not matter (`uints_one_by_one`). A signed reader refuses; that branch is not modelled. Strings: `strings_at_once`, `strings_at_once_hang`.
- **C77 The date encoder encodes dates** - False: `date_encoder_refuses` (every date is an error).
- **C78 The size a column reports is the size it writes** - `size_after_flush`, for every column writer in any state before the flush.
- **C79 A column takes only values of its Go type** - `write_takes` for every column writer in any state; `file_takes` lifts it to files with the column histories of C73.
- **C80 Damaged columns do not crash or hang the program** - every decoder is a tree of reads (`Dec`): shown never to reach a panic, and the stream below to make progress; an invariant carries this through any sequence of calls. True for tinyint, boolean, float and double (`*_column_robust`); false for integers and strings (witnesses), for which the exact cause of a panic is proved (`*_panics_iff`, `*_panics_only`) and that every sequence of calls ends (`*_terminates_partial`).
- **C81 Struct and dictionary columns keep their flags, statistics and row indexes** - The struct writer is run over any list of calls; invariants give its statistics, the open row group and the entries of the index; the present stream is handled by the lemma that leaf columns use (`present_trip`). For files, `file_struct_statistics` says what the footer has. The claims that fail are refuted or stated exactly (`struct_counts_iff`, `struct_stripes_false`, `struct_reset_fails`, `dict_column_stats`). What a struct's row index and its statistics are after a stripe: `struct_index_after_reset`, `struct_index_second_stripe_fails`. Props/StructColumn.lean.
- **C82 SeekStride finds row groups in files of other writers** - Spec/ForeignSeek.lean says what an entry of a row index means: places in chunks, runs, blocks and bits. `getStridePositions(k)` takes entry k-1, because the writer of this library records where row groups end. So the property is false for k >= 1 (`foreign_seek_false`), and the exact theorems say that SeekStride(k) goes to the first row of row group k-1, for any mix of calls. The reader of decimals expects a number too many and always panics (`foreign_decimal_seek_panics`). The reader of dates goes by the schema and not by the streams: a column that may have nulls but has no present stream makes it panic (`foreign_date_unflagged_seek_panics`), so the exact theorem for dates asks for a present stream if and only if the column is nullable. Props/ForeignSeek.lean. Dictionary columns: Props/DictSeek.lean, by comparing the reader with one that has its dictionary from the start.
- **C83 A column reader takes exactly the streams its type has** - False in two ways (integers, direct strings and lists take null flags without nulls; tinyint takes and drops anything): exact acceptance table for all types as an iff, exact condition for a leaf to open, and what a stripe that was opened can list. Spec/Accept.lean, Props/Accept.lean.
- **C84 The data streams of any stripe are looked for where they are** - False when the index area has Bloom filters of columns that are not read (or of tinyint columns): only row indexes are left out of the running offset. Exact: looked for too far by the bytes of those streams, so at their places iff there are none. Props/Accept.lean.
- **C85 Files of other writers can be read** - Spec/ForeignFile.lean describes such files from the specification, from the bytes up (streams, columns, stripes, file tail). `foreign_file_reads_partial`: every such file is read back with the exact set of rows of C56/C57, if no nullable column is in a nullable struct, nullable columns have flags in every stripe, and the tail has at most 16 KiB. Each of these conditions is needed: `foreign_inner_nulls`, `foreign_stale_flags`, `foreign_long_tail_panics`.
- **C86 Seeking in files of other writers** - Spec/SeekFile (row indexes of stripes, what calls should deliver), Proofs/SeekFile (an invariant of reader trees that survives NextBatch, Skip and SeekStride), Props/SeekFile. Part (1) holds with the row groups shifted by one: SeekStride(k) goes to row group k-1 in all columns, SeekStride(0) to the first row (foreign_stripe_roams). Part (2) is false and characterised exactly: the batch after Seek has rows of the first stripe (foreign_seek_exact, foreign_file_seek_false); with date columns Seek always fails (foreign_seek_dates_fails).
- **C87 Opening any bytes as a file** - `Spec/OpenAny.lean` says what a readable tail is (`TailReads`) and lists the causes of panics (`OpenPanics`); `open_ok_iff`, `open_panics_iff`, `open_terminates` are exact. Lengths of 2^63 or more in the postscript and allocations that run out of memory are not modelled.
- **C88 Reading any file comes to an end** - `reading_terminates`: a bound on the fuel of the model's loops that depends on the file alone is enough for all calls. `created_agrees`: vectors of CreateVector meet the condition. Both conditions are needed: `next_hangs` (Next never returns for a struct without fields), `cyclic_types_hang`.
- **C89 Row indexes of a written file** - `file_row_indexes`, from the trace of a file (`Proofs/Trace.lean`), by induction over the stripes; with `row_index_positions` and `row_group_stats` (C45, C46) it says what is in each row index. That the indexes are not listed (so that no reader finds them) is part of the statement.
- **C90 Tables with lists and maps** - `Spec/Collections.lean` has items, the storage of cells and what a client sees; `Proofs/Collections.lean` relates a cell's reader to the items that are left in it, and its vector to the cells' shapes, and shows `Delivers` for tables; `Props/Collections.lean`: `collections_counted_partial`, `collections_complete_partial`, and the refutation `collections_lost_elements`. Missing: lists and maps inside lists, maps and structs, and elements that may be null in lists that may be null (refuted at column level, C42).
- **C91 Tables with nested collections** - `Spec/Trees.lean` says how such a table is stored (`DeepStored`, `StripeDeep`, `FileDeep`), on its own; `Proofs/Trees.lean` proves by induction on the schema that the reader of a column keeps `the rest of the column` as an invariant. False for lists of structs: nothing of the fields of the structs is ever read (`structs_in_lists_lost`), because only the vector of the struct itself is sized. Missing: structs with nulls among these columns (C31, C54 have them alone), nullable contents of nullable collections, the restrictions of C85.
- **C92 Reads do not depend on how they are served** - `Model/File.lean` has both kinds of files with what `Read` returns in each call (the schedule is a list of quotas), `io.ReadFull` and `io.CopyN` as loops. By strong induction on the number of bytes these give `bytesAt`, and this is what `readAt` and `StreamReader.take` of the model do (`os_readAt`, `os_take`). False for files in memory in three corners (`MockFile.not_quite_a_file`): reading beyond the written part panics, seeking to the end of a full buffer fails, and `io.CopyN` of the last bytes of a full buffer can fail.
- **C93 Row groups and Seek in tables with lists, maps and dictionaries** - The format's side is Spec/DeepSeek (entries of a row index are the places of the first rows of the row groups, and of the first elements of these rows); an invariant of the column readers (Proofs/DeepSeek, Roves) says that wherever they are they can be sent to the start of any row group, by induction on the schema. deep_groups_exact: any sequence of calls. deep_seek_exact: Seek at file level. Refutations: deep_group_off_by_one, map_seek_wrong.
- **C94 Damaged files: simple flat tables are read without a crash** - Verif/Spec/Damage.lean, Verif/Proofs/Damage.lean, Verif/Props/Damage.lean: no panic from the column theorems of C80 lifted through structs, stripes and batches; no hang from C88; vectors of CreateVector meet the condition (created_tabular); counterexamples for each condition (footer_panics, brittle_panics, flagless_panics, stripeless_panics). A data stream that is not named leaves a nil reader, which panics when it is used (ReadKind.bare).
- **C95 A program that stops while writing** - Verif/Spec/Crash.lean, Verif/Props/Crash.lean: the file only grows (prefix, by induction over rows and batches), the list of stripes only grows, the stripes are cut from the disk by the writer's own list (interrupted_prefix, interrupted_keeps_stripes, interrupted_first_stripe). The last clause is false: interrupted_opens shows for every environment that a file embedded in a byte string is opened in place of the interrupted one.
- **C96 A Write that reports an error** - Verif/Model/FailedWrite.lean follows Write and keeps the state at an error; Verif/Props/FailedWrite.lean shows that it agrees with the other model of Write (tryWrite_outcome), what exactly an error leaves behind (failed_write_exact), that only the rows of calls that went well are counted as long as no stripe is finished while the columns have more (calls_one_stripe), and that the property is false: failed_write_mixes_rows reads a file in which the values of different rows stand side by side. It holds if the first value of the batch is refused by a column without nulls (failed_write_harmless).
- **C97 Goroutines that read one file** - Verif/Model/Schedule.lean: the calls of a stream as sequences of calls on file handles, which are numbers, and schedules of several such sequences; Verif/Spec/Schedule.lean: programs that read from streams, alone and with handles. Proof: what a program does depends only on its handles and changes only these, streams hold handles of their own (by induction over the schedule), and alone a program does what the model of the streams says (refinement, C92). parallel_reading_partial. The last clause is false: parallel_create_false, for every file. Next and Seek of a batch reader are programs that read from its streams: Spec/Parallel.lean lists the streams of a reader (Wires), Proofs/Parallel*.lean build the program by recursion over the decoders, columns, trees, stripes and the batch reader (Rep: whatever is a program after a call is one with it), and a batch reader that was just created has streams that were opened on the file (created_streams). parallel_batches_partial.
- **C98 Next and Seek can be called in any order** - Refuted, and described exactly. A small machine (Spec/Tour) keeps for every stripe the rows, how many of them count as handed over and where the columns really are. Refinement: every state the batch reader gets to stands for a state of the machine (BatchReader.Stands), Next and Seek keep this (tour_next, tour_seek), so every sequence of calls returns what the machine returns (deep_tour_exact), provided no Next asks for more rows than follow the row its columns are at. Corollary: a Seek changes neither the sizes of the batches nor when the end is reported (seek_keeps_sizes), hence after a Seek forward rows are handed over that the file does not have (seek_phantom_rows) and after a Seek back the end is reported early (seek_back_ends_early).
- **C99 Which other columns are read does not matter** - Simulation. Narrow relates the reader trees of the two programs: equal at leaves, and at a struct the one has the readers of some of the children of the other. NextBatch, Skip and SeekStride keep this relation (narrow_next, narrow_skip, narrow_seek), and vectors of fewer columns are those of more with the others left out (Vec.keep). Opening establishes it (narrow_stripe), and Next, Seek and sequences of them keep it (narrows_tour). For tables with lists and maps the relation is Narrowed (Proofs/ChoiceRead), where the readers of elements, keys and values are related too, and the invariant of the vectors is split in two: Shaped (the right vectors below) at every depth, and Suited (the number of rows, and empty vectors below a collection without rows) above the collections (Proofs/Choice). The converse is false: damage_is_local.
- **C100 Batches that do not fit the table** - Refuted, and what happens instead is proved for every batch. Write takes Len rows, the number of rows of the first vector. If it succeeds every vector has that many rows (written_batch_has, by induction over the batch and the rows); a vector that is shorter, or missing in the middle, is a panic, and so is one that is missing where Len looks for the number of rows (write_headless_panics). Rows beyond Len are ignored (longer_columns_ignored: a batch is written as the batch cut to Len rows), a batch whose first column is empty is ignored as a whole, and a column without a vector gets no rows although the stripe counts them (absent_column_ignored); in a stripe whose rows have nothing for a column none of its streams has a byte, whatever the column got in other stripes (stripe_without_column, absent_column_empty: at the beginning of every stripe all encoders and buffers of a column are empty, by induction over the stripes); such a file cannot be read (absent_column_unreadable).
- **C101 Files that fail** - The writers are modelled a second time with every single Write of the file and with what an error leaves behind in buffers and counters (Model/Disk.lean). By a simulation (Tracks, function by function up to the whole program) they follow the writers of Model/StripeWriter.lean until the first failure: a sound file makes no difference (sound_disk_exact), no error means a complete file (no_error_means_complete), every failed Write is reported (failures_reported), the rest is a prefix (failure_leaves_prefix, writes_follow). Refuted: an error of the file's Close is only logged (close_error_lost), and Close again after an error reports success for a file whose second column has the first column's values (retry_swaps_columns), or with every row twice (retry_doubles_rows). What a Close that failed leaves in buffers, counters and the list of stripes is described exactly (failed_close_exact, failed_index_exact).
- **C102 Columns of nulls without data** - A leaf some data stream of which is missing is a reader of its own (ReadKind.bare, RdNode.bare): the nil stream panics when used. Spec/Sparse.lean lets columns of a stripe have flags only; the readers of such columns hold rows that are all null (RdHas), which goes through the same tree, stripe and file theorems as C85 (sparse_file_opens, sparse_file_reads_partial). Exactly for one column: bare_batch_exact, bare_skip_exact. Refuted: dictionaries panic at once (bare_dictionary_panics), SeekStride never succeeds (bare_seek_fails, bare_rewind_panics).
- **C103 What Next delivers has the Go type of its column** - Spec/Delivered.lean has the Go type of each column (Gives), the columns a client has vectors for (prune) and Delivered. Proofs/Delivered.lean: invariants of a vector in the states cleared, sized, being filled and filled, and of the readers (each is of the type of its column), by induction over the tree (reads_next); Proofs/DeliveredFile.lean: opening, Next and Seek keep them. delivered_types, seen_types; times_are_zero says that of timestamps and decimals only zero values are ever delivered, whatever the file.
- **C104 Fields of structs inside lists and maps can be read** - False for every file and every sequence of calls: struct_elements_lost (by the invariant Elem of C103: only the vector of the struct itself is sized, those of its fields stay empty).
- **C105 Bytes of columns that are not read do not matter** - Spec/Locality.lean says where the streams of a stripe are (streamStarts) and what it means that two files agree there. Proofs/Locality*.lean: a simulation between the readers of both files, from the streams (their blocks are equal, their sources are equal on what is left of the stream) over the decoders, column readers and the tree to Next and Seek. unread_bytes_plain: holds for uncompressed files. unread_bytes_partial: holds for compressed files whose streams are whole chunks, and if the program seeks, not empty. Otherwise false: a chunk that is longer than its stream is filled from the next column (chunk_takes_neighbours), and Seek reads a chunk even of an empty stream (seek_takes_neighbours).
- **C106 The bytes of a column depend on nothing but this column and the ends of the stripes** - Spec/WriteLocal.lean says what was written to a column (columnWritten), which streams of a stripe are its own (streamsOf) and how a footer cuts the rows (cuts). Proofs/WriteLocal.lean: what happens to the writer of one column in a stripe (ColStripe) is a function of its state and of the rows it gets; by induction over the stripes of both files it starts each stripe in the same state. column_bytes_local is the claim, column_bytes_one_stripe its case for files of one stripe. column_bytes_cuts: with other columns beside it the same column may have other bytes, because the stripes end elsewhere.
- **C107 The bytes of a file determine its layout** - Model: `FileLayout` of Spec/Layout, the grammar all written files are proved to satisfy. Proved by reading the tail backwards (the last byte, the postscript, the footer), then the stripes forwards by the table in the footer, with injectivity of chunked compression and of the message codecs. `layout_unique`.
- **C108 No two tables have the same file** - From C107 the stripes are the same, and the reader opens the same state for both tables; one call of the column readers with a vector large enough delivers both. `tables_differ`. Hypotheses: values in the ranges the encoders keep (`StripesReadable`), a tail within 16 KiB, structs with at least one field.
- **C109 A file that is read and written again** - `copyFile` in Spec/Copy is the client program over the modelled API. False as it stands, because a last row alone in its batch is lost: `copy_exact` says for which row counts and batch sizes the copy is the file itself (an iff), `copy_converts_partial` that in these cases the copy with any options, failures of the writer included, is what writing the table directly gives.
- **C110 Closing a batch reader gives back the files it opened** - `Model/Close.lean` models the handles a batch reader holds and the `Close` methods of all readers; a handle is named by its column and the position of its stream among those of the column. `opened_exact` says what was opened, `close_exact` (an iff) what is closed, `close_all_iff` when nothing stays open, `close_once` that nothing is closed twice, `close_returns_iff` (an iff) when `Close` returns, `close_outcome` that it panics otherwise (`close_panics`: with the values of a map but not its keys). False as it stands: the readers of lists do not close their elements and those of maps not their lengths (`close_leaves_open`, `list_elements_stay_open`, `map_lengths_stay_open`). True for tables without them (`tables_give_back`). `written_streams` gives the streams of the columns of files of this library; `written_gives_back` is the claim for these files, of which `Close` always returns. Not modelled: that opening a file may fail, errors of closing a file (which are logged), what was closed before a panic, and the handles of a `CreateBatchReader` that fails half-way.
- **C111 ReadChunks undoes compression in chunks** - `Model/ReadChunks.lean` models the function with the first `Read` of the decompressor and the array behind the slice as parameters. `readChunks_exact` (an iff) says for every input when it succeeds and with what, `readChunks_complete_iff` when it gives back what chunks stand for, `readChunks_roundtrip` and `readChunks_agrees` that it does with a decompressor that fills the buffer. False as it stands: it calls `Read` once, so a decompressor that delivers less loses data without an error (`readChunks_loses`, `readChunks_cuts`; that of flate delivers at most 32 KiB at a time), incomplete chunks panic (`readChunks_cut`) or are completed with bytes behind the slice (`readChunks_beyond`), and chunks of nothing are refused (`readChunks_refuses`). Nothing in the library calls the function.
- **C112 ReadVUint reads base-128 numbers** - `Model/ReadVUint.lean` models an `io.ByteReader` as the sequence of what its calls return. `readVUint_exact` and `readVUint_hangs_iff` say for every reader what is returned and when nothing is, `readVUint_agrees` and `readVUint_roundtrip` that numbers are read back, `readVUint_truncated` that cut ones are reported when read from a buffer. False as it stands: errors are thrown away (`readVUint_swallows`), a reader that returns a byte from 0x80 with its error is read forever (`readVUint_hangs`), numbers above 64 bits are cut without an error (`readVUint_overflows`). Nothing in the library calls the function.
- **C113 Float64 of a decimal is its number** - `Model/DecimalFloat.lean` models the function over any arithmetic; the claim is stated for arithmetic without rounding (rational numbers). False: the factor is ten times the scale instead of a power of ten. `decimalFloat_iff` says that the number is right exactly for precision 0 or scale 0, `decimalFloat_other_iff` the same if the scale is meant with the other sign; `decimalFloat_wrong` and `decimalFloat_sign` show how wrong it gets. Not modelled: rounding of `float64`, division by zero (scale -2^63 only), where the model has 0 and Go an infinity.
- **C114 The day stored for a time is the one it falls on** - Stated with `FallsOn` (the day begins not after the time and the next one after it). False: before 1970 the quotient is rounded towards zero, which is the next day (`toDays_before_1970`, `noon_is_next_day`), and far times saturate. `toDays_day_iff` is exact for every time; `day_read_back` is the claim from 1970 on. `C14` has the round trip of days. The model of `ToDays` divides exactly where the code divides floats, see the comment at `toDays`: times less than a microsecond before a midnight are outside it.
- **C115 Compression in chunks adds at most three bytes per chunk** - `chunks_count` gives the number of chunks exactly, `chunks_overhead` the bound, `chunks_overhead_sharp` that it is attained by every compressor that never helps.
- **C116 Encoded integers take a bounded number of bytes each** - Bound the length of each kind of block by the values it takes (`step_size`), with the invariant that more values than a block are pending only when the first three start no run (so a delta length never wraps its 16 bits); then induct over the history (`int_growth`). `int_growth_unsigned_sharp` attains ten for any number of values; `int_growth_signed_more` shows that ten is not enough for signed values.
- **C117 Encoded booleans take a byte for eight, and little more** - The encoder of booleans does what its encoder of bytes does on a history with as many flushes and a byte for eight bits (`as_bytes`, by induction over the history); the bound of C72 for bytes gives `bool_growth`. `bool_growth_reached` attains it for any number of values with a Flush after each.
- **C118 A column of equal integers is small** - `int_run_iff`: `n` copies are written exactly if the value is in range or `n` is at most ten; `int_run_panics`: otherwise a panic; `int_run_small`: the bound whenever they are written, by induction over the blocks of 512.
- **C119 Decoding needs memory in proportion to its input** - `decode_block_bounded`: each successful run of a decoder, by a small logic of the bytes a run consumes; `decode_all_bounded`: whole streams, by induction over the blocks; `decode_all_reached`: blocks that attain each factor, repeated any number of times.
- **C120 Decimal mantissas are written in the fewest bytes** - `varint_shortest`: a value read from `n` bytes is below `2^(7n)` before zigzag, by induction over the reader's loop, so the writer needs no more than `n`; summed over the list. `varint_size`: the exact ranges.
- **C121 Floating point data that is copied keeps its bytes** - `float_copy`, `double_copy`: the encoder undoes the decoder on each four or eight bytes, bit by bit, then induction over the number of values. With C10 both directions are covered: encoder and decoder are inverse bijections.
- **C122 A stream that is cut short gives its first values** - `cut_streams`: a small specification `reads` of repeated calls; one call on the bytes before the cut either does the same as on the whole or reports the end, by induction over the decoder as a program of reads; then induction over the blocks. `cut_written`: the same for what the encoders of bytes and booleans write. `Err.eof` stands for io.EOF and io.ErrUnexpectedEOF alike.
- **C123 One call of a decoder needs a bounded number of bytes** - `call_reads_bounded`, by a logic of the most bytes a program of reads asks for, with the number of leftover bits as invariant; `byte_call_sharp`, `varint_call_sharp`: 128 and 9 are not enough. For integers 4356 (four bytes of header, eight of base, 512 values and 31 patches of eight bytes) is a bound, not shown to be the least.
